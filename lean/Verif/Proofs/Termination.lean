import Verif.Proofs.Progress
/-!
# Termination of all methods
-/

namespace Jsparse

open Spec P

set_option linter.unusedVariables false

macro "tm" : tactic =>
  `(tactic| repeat' first
    | with_reducible assumption
    | with_reducible trivial
    | exact rfl
    | wp_step "tm"
    | exact Or.inl rfl
    | exact Or.inr (by simp [rank])
    | exact List.cons_ne_nil _ _
    | (show _ ∧ _; constructor)
    | with_reducible intro _)

section

variable {t0 : Tokenizer} {r : Rec}

theorem parseScriptItem_term (hv : Start t0) (hr : RecTerm t0 r) :
    Tr t0 (rank .scriptItem) r.fuel .same (parseScriptItem r) (okPost (out .scriptItem)) := by
  unfold parseScriptItem; tm

theorem parseModuleItem_term (hv : Start t0) (hr : RecTerm t0 r) :
    Tr t0 (rank .moduleItem) r.fuel .same (parseModuleItem r) (okPost (out .moduleItem)) := by
  unfold parseModuleItem; tm

theorem parseFunctionDeclaration_term (hv : Start t0) (hr : RecTerm t0 r) :
    Tr t0 (rank .functionDeclaration) r.fuel .same (parseFunctionDeclaration r) (okPost (out .functionDeclaration)) := by
  unfold parseFunctionDeclaration; tm

theorem parseFunctionExpression_term (hv : Start t0) (hr : RecTerm t0 r) :
    Tr t0 (rank .functionExpression) r.fuel .same (parseFunctionExpression r) (okPost (out .functionExpression)) := by
  unfold parseFunctionExpression; tm

theorem parseFunctionParams_term (hv : Start t0) (hr : RecTerm t0 r) :
    Tr t0 (rank .functionParams) r.fuel .same (parseFunctionParams r) (okPost (out .functionParams)) := by
  unfold parseFunctionParams; tm

theorem parseFunctionBody_term (hv : Start t0) (hr : RecTerm t0 r) :
    Tr t0 (rank .functionBody) r.fuel .same (parseFunctionBody r) (okPost (out .functionBody)) := by
  unfold parseFunctionBody; tm

theorem parseStatement_term (hv : Start t0) (hr : RecTerm t0 r) :
    Tr t0 (rank .statement) r.fuel .same (parseStatement r) (okPost (out .statement)) := by
  unfold parseStatement; tm

theorem parseStatementListItem_term (hv : Start t0) (hr : RecTerm t0 r) :
    Tr t0 (rank .statementListItem) r.fuel .same (parseStatementListItem r) (okPost (out .statementListItem)) := by
  unfold parseStatementListItem; tm

theorem parseBlockStatement_term (hv : Start t0) (hr : RecTerm t0 r) :
    Tr t0 (rank .blockStatement) r.fuel .same (parseBlockStatement r) (okPost (out .blockStatement)) := by
  unfold parseBlockStatement; tm

theorem parseVariableStatement_term (hv : Start t0) (hr : RecTerm t0 r) :
    Tr t0 (rank .variableStatement) r.fuel .same (parseVariableStatement r) (okPost (out .variableStatement)) := by
  unfold parseVariableStatement; tm

theorem parseVarDeclarator_term (hv : Start t0) (hr : RecTerm t0 r) :
    Tr t0 (rank .varDeclarator) r.fuel .same (parseVarDeclarator r) (okPost (out .varDeclarator)) := by
  unfold parseVarDeclarator; tm

theorem parseBindingPattern_term (hv : Start t0) (hr : RecTerm t0 r) :
    Tr t0 (rank .bindingPattern) r.fuel .same (parseBindingPattern r) (okPost (out .bindingPattern)) := by
  unfold parseBindingPattern; tm

theorem parseObjectBindingPattern_term (hv : Start t0) (hr : RecTerm t0 r) :
    Tr t0 (rank .objectBindingPattern) r.fuel .same (parseObjectBindingPattern r) (okPost (out .objectBindingPattern)) := by
  unfold parseObjectBindingPattern; tm

theorem parseBindingProperty_term (hv : Start t0) (hr : RecTerm t0 r) :
    Tr t0 (rank .bindingProperty) r.fuel .same (parseBindingProperty r) (okPost (out .bindingProperty)) := by
  unfold parseBindingProperty; tm

theorem parsePropertyName_term (hv : Start t0) (hr : RecTerm t0 r) :
    Tr t0 (rank .propertyName) r.fuel .same (parsePropertyName r) (okPost (out .propertyName)) := by
  unfold parsePropertyName; tm

theorem parseLiteralPropertyName_term (hv : Start t0) (hr : RecTerm t0 r) :
    Tr t0 (rank .literalPropertyName) r.fuel .same parseLiteralPropertyName (okPost (out .literalPropertyName)) := by
  unfold parseLiteralPropertyName; tm

theorem parseComputedPropertyName_term (hv : Start t0) (hr : RecTerm t0 r) :
    Tr t0 (rank .computedPropertyName) r.fuel .same (parseComputedPropertyName r) (okPost (out .computedPropertyName)) := by
  unfold parseComputedPropertyName; tm

theorem parseArrayBindingPattern_term (hv : Start t0) (hr : RecTerm t0 r) :
    Tr t0 (rank .arrayBindingPattern) r.fuel .same (parseArrayBindingPattern r) (okPost (out .arrayBindingPattern)) := by
  unfold parseArrayBindingPattern; tm

theorem parseBindingRestElement_term (hv : Start t0) (hr : RecTerm t0 r) :
    Tr t0 (rank .bindingRestElement) r.fuel .same (parseBindingRestElement r) (okPost (out .bindingRestElement)) := by
  unfold parseBindingRestElement; tm

theorem parseBindingElement_term (hv : Start t0) (hr : RecTerm t0 r) :
    Tr t0 (rank .bindingElement) r.fuel .same (parseBindingElement r) (okPost (out .bindingElement)) := by
  unfold parseBindingElement; tm

theorem parseInitializer_term (hv : Start t0) (hr : RecTerm t0 r) :
    Tr t0 (rank .initializer) r.fuel .same (parseInitializer r) (okPost (out .initializer)) := by
  unfold parseInitializer; tm

theorem parseEmptyStatement_term (hv : Start t0) (hr : RecTerm t0 r) :
    Tr t0 (rank .emptyStatement) r.fuel .same parseEmptyStatement (okPost (out .emptyStatement)) := by
  unfold parseEmptyStatement; tm

theorem parseExpressionStatement_term (hv : Start t0) (hr : RecTerm t0 r) :
    Tr t0 (rank .expressionStatement) r.fuel .same (parseExpressionStatement r) (okPost (out .expressionStatement)) := by
  unfold parseExpressionStatement; tm

theorem parseIfStatement_term (hv : Start t0) (hr : RecTerm t0 r) :
    Tr t0 (rank .ifStatement) r.fuel .same (parseIfStatement r) (okPost (out .ifStatement)) := by
  unfold parseIfStatement; tm

theorem parseBreakableStatement_term (hv : Start t0) (hr : RecTerm t0 r) :
    Tr t0 (rank .breakableStatement) r.fuel .same (parseBreakableStatement r) (okPost (out .breakableStatement)) := by
  unfold parseBreakableStatement; tm

theorem parseIterationStatement_term (hv : Start t0) (hr : RecTerm t0 r) :
    Tr t0 (rank .iterationStatement) r.fuel .same (parseIterationStatement r) (okPost (out .iterationStatement)) := by
  unfold parseIterationStatement; tm

theorem parseDoWhileStatement_term (hv : Start t0) (hr : RecTerm t0 r) :
    Tr t0 (rank .doWhileStatement) r.fuel .same (parseDoWhileStatement r) (okPost (out .doWhileStatement)) := by
  unfold parseDoWhileStatement; tm

theorem parseWhileStatement_term (hv : Start t0) (hr : RecTerm t0 r) :
    Tr t0 (rank .whileStatement) r.fuel .same (parseWhileStatement r) (okPost (out .whileStatement)) := by
  unfold parseWhileStatement; tm

theorem parseForStatement_term (hv : Start t0) (hr : RecTerm t0 r) :
    Tr t0 (rank .forStatement) r.fuel .same (parseForStatement r) (okPost (out .forStatement)) := by
  unfold parseForStatement; tm

theorem parseSwitchStatement_term (hv : Start t0) (hr : RecTerm t0 r) :
    Tr t0 (rank .switchStatement) r.fuel .same (parseSwitchStatement r) (okPost (out .switchStatement)) := by
  unfold parseSwitchStatement; tm

theorem parseDefaultClause_term (hv : Start t0) (hr : RecTerm t0 r) :
    Tr t0 (rank .defaultClause) r.fuel .same (parseDefaultClause r) (okPost (out .defaultClause)) := by
  unfold parseDefaultClause; tm

theorem parseCaseClause_term (hv : Start t0) (hr : RecTerm t0 r) :
    Tr t0 (rank .caseClause) r.fuel .same (parseCaseClause r) (okPost (out .caseClause)) := by
  unfold parseCaseClause; tm

theorem parseContinueStatement_term (hv : Start t0) (hr : RecTerm t0 r) :
    Tr t0 (rank .continueStatement) r.fuel .same parseContinueStatement (okPost (out .continueStatement)) := by
  unfold parseContinueStatement; tm

theorem parseBreakStatement_term (hv : Start t0) (hr : RecTerm t0 r) :
    Tr t0 (rank .breakStatement) r.fuel .same parseBreakStatement (okPost (out .breakStatement)) := by
  unfold parseBreakStatement; tm

theorem parseReturnStatement_term (hv : Start t0) (hr : RecTerm t0 r) :
    Tr t0 (rank .returnStatement) r.fuel .same (parseReturnStatement r) (okPost (out .returnStatement)) := by
  unfold parseReturnStatement; tm

theorem parseWithStatement_term (hv : Start t0) (hr : RecTerm t0 r) :
    Tr t0 (rank .withStatement) r.fuel .same (parseWithStatement r) (okPost (out .withStatement)) := by
  unfold parseWithStatement; tm

theorem parseLabelledStatement_term (hv : Start t0) (hr : RecTerm t0 r) :
    Tr t0 (rank .labelledStatement) r.fuel .same (parseLabelledStatement r) (okPost (out .labelledStatement)) := by
  unfold parseLabelledStatement; tm

theorem parseThrowStatement_term (hv : Start t0) (hr : RecTerm t0 r) :
    Tr t0 (rank .throwStatement) r.fuel .same (parseThrowStatement r) (okPost (out .throwStatement)) := by
  unfold parseThrowStatement; tm

theorem parseTryStatement_term (hv : Start t0) (hr : RecTerm t0 r) :
    Tr t0 (rank .tryStatement) r.fuel .same (parseTryStatement r) (okPost (out .tryStatement)) := by
  unfold parseTryStatement; tm

theorem parseDebuggerStatement_term (hv : Start t0) (hr : RecTerm t0 r) :
    Tr t0 (rank .debuggerStatement) r.fuel .same parseDebuggerStatement (okPost (out .debuggerStatement)) := by
  unfold parseDebuggerStatement; tm

theorem parseDeclaration_term (hv : Start t0) (hr : RecTerm t0 r) :
    Tr t0 (rank .declaration) r.fuel .same (parseDeclaration r) (okPost (out .declaration)) := by
  unfold parseDeclaration; tm

theorem parseLetDeclaration_term (hv : Start t0) (hr : RecTerm t0 r) :
    Tr t0 (rank .letDeclaration) r.fuel .same (parseLetDeclaration r) (okPost (out .letDeclaration)) := by
  unfold parseLetDeclaration; tm

theorem parseConstDeclaration_term (hv : Start t0) (hr : RecTerm t0 r) :
    Tr t0 (rank .constDeclaration) r.fuel .same (parseConstDeclaration r) (okPost (out .constDeclaration)) := by
  unfold parseConstDeclaration; tm

theorem parseLexicalDeclarator_term (hv : Start t0) (hr : RecTerm t0 r) (b : Bool) :
    Tr t0 (rank (.lexicalDeclarator b)) r.fuel .same (parseLexicalDeclarator r b) (okPost (out (.lexicalDeclarator b))) := by
  unfold parseLexicalDeclarator; tm

theorem parseClassDeclaration_term (hv : Start t0) (hr : RecTerm t0 r) :
    Tr t0 (rank .classDeclaration) r.fuel .same (parseClassDeclaration r) (okPost (out .classDeclaration)) := by
  unfold parseClassDeclaration; tm

theorem parseClassExpression_term (hv : Start t0) (hr : RecTerm t0 r) :
    Tr t0 (rank .classExpression) r.fuel .same parseClassExpression (okPost (out .classExpression)) := by
  unfold parseClassExpression; tm

theorem parseClassHeritage_term (hv : Start t0) (hr : RecTerm t0 r) :
    Tr t0 (rank .classHeritage) r.fuel .same (parseClassHeritage r) (okPost (out .classHeritage)) := by
  unfold parseClassHeritage; tm

theorem parseClassBody_term (hv : Start t0) (hr : RecTerm t0 r) :
    Tr t0 (rank .classBody) r.fuel .same (parseClassBody r) (okPost (out .classBody)) := by
  unfold parseClassBody; tm

theorem parseClassItem_term (hv : Start t0) (hr : RecTerm t0 r) :
    Tr t0 (rank .classItem) r.fuel .same (parseClassItem r) (okPost (out .classItem)) := by
  unfold parseClassItem; tm

theorem parseMethodTail_term (hv : Start t0) (hr : RecTerm t0 r) (h : MethodHead) :
    Tr t0 (rank (.methodTail h)) r.fuel .same (parseMethodTail r h) (okPost (out (.methodTail h))) := by
  unfold parseMethodTail; tm

theorem parseImportDeclaration_term (hv : Start t0) (hr : RecTerm t0 r) :
    Tr t0 (rank .importDeclaration) r.fuel .same (parseImportDeclaration r) (okPost (out .importDeclaration)) := by
  unfold parseImportDeclaration; tm

theorem parseImportSpecifier_term (hv : Start t0) (hr : RecTerm t0 r) :
    Tr t0 (rank .importSpecifier) r.fuel .same parseImportSpecifier (okPost (out .importSpecifier)) := by
  unfold parseImportSpecifier; tm

theorem parseExportDeclaration_term (hv : Start t0) (hr : RecTerm t0 r) :
    Tr t0 (rank .exportDeclaration) r.fuel .same (parseExportDeclaration r) (okPost (out .exportDeclaration)) := by
  unfold parseExportDeclaration; tm

theorem parseExportSpecifier_term (hv : Start t0) (hr : RecTerm t0 r) :
    Tr t0 (rank .exportSpecifier) r.fuel .same parseExportSpecifier (okPost (out .exportSpecifier)) := by
  unfold parseExportSpecifier; tm

theorem assignmentRest_tm (hv : Start t0) (hr : RecTerm t0 r) {post : Option Unit → Lv → Prop}
    (hn : post none .same) (hs : ∀ l, l = .weak ∨ l = .strong → post (some ()) l) :
    Tr t0 11 r.fuel .same (assignmentRest r) post := by
  rw [assignmentRest_eq]
  refine bind_tm (call_tm hv hr (.inr (by simp [rank])) (pure_tm hn) fun _ => ?_)
  refine bind_tm (takeSolid_tm hv (fun _ => rfl) (fun _ => ⟨rfl, rfl⟩) (pure_tm (hs _ (.inl rfl))) ?_)
  intro b
  cases b <;> tm <;> exact hs _ (.inr rfl)

theorem fancyRound_tm (hv : Start t0) (hr : RecTerm t0 r) {a : Bool} {p : Nat} {lv : Lv} {R : Nat}
    {post : Nat ⊕ Unit → Lv → Prop}
    (h1 : post (.inr ()) lv) (h2 : ∀ p, post (.inl p) .strong) :
    Tr t0 R r.fuel lv (fancyRound r a p) post := by
  rw [fancyRound_eq]
  refine bind_tm (takeSolid_tm hv ?_ ?_ (pure_tm h1) ?_)
  · intro l; rfl
  · intro l; constructor <;> rfl
  · intro b
    simp only
    refine bind_tm (expectExpression_tm hv ?_)
    split
    · tm; exact h2 _
    · tm; exact h2 _

theorem leftHandRound_tm (hv : Start t0) (hr : RecTerm t0 r) {b : Bool} {lv : Lv} {R : Nat} (hR : 3 < R)
    {post : Unit ⊕ Unit → Lv → Prop}
    (h1 : post (.inr ()) lv) (h2 : post (.inl ()) .strong) :
    Tr t0 R r.fuel lv (leftHandRound r b) post := by
  have hR' : ∀ f, rank f < 4 → lv = .strong ∨ rank f < R := fun f hf => .inr (by omega)
  have key : comp lv .strong = .strong := by cases lv <;> rfl
  rw [leftHandRound_eq]
  refine bind_tm (takeSolid_tm hv (fun _ => rfl) (fun _ => ⟨rfl, rfl⟩) ?_ ?_)
  · simp only
    refine bind_tm (token_tm hv fun t => ?_)
    split
    · split
      · refine bind_tm (eat_tm (call_tm hv hr (hR' _ (by simp [rank])) trivial fun _ => ?_))
        exact pure_tm (by simp only [out, key]; exact h2)
      · exact pure_tm h1
    · refine bind_tm (eat_tm (call_tm hv hr (hR' _ (by simp [rank])) trivial fun _ => ?_))
      exact pure_tm (by simp only [out, key]; exact h2)
    · exact pure_tm h1
  · intro b
    cases b <;> tm

theorem parseLeftHandSideExpression_term (hv : Start t0) (hr : RecTerm t0 r) :
    Tr t0 (rank .leftHandSideExpression) r.fuel .same (parseLeftHandSideExpression r) (okPost (out .leftHandSideExpression)) := by
  unfold parseLeftHandSideExpression; tm

theorem parseExpression_term (hv : Start t0) (hr : RecTerm t0 r) :
    Tr t0 (rank .expression) r.fuel .same (parseExpression r) (okPost (out .expression)) := by
  unfold parseExpression
  refine bind_tm (call_tm hv hr (.inr (by simp [rank])) (pure_tm rfl) fun _ => ?_)
  refine bind_tm (expectExpression_tm hv ?_)
  refine bind_tm (loopWeak_tm hv (by simp [rank]) ?_)
  tm

theorem parseAssignmentExpression_term (hv : Start t0) (hr : RecTerm t0 r) :
    Tr t0 (rank .assignmentExpression) r.fuel .same (parseAssignmentExpression r) (okPost (out .assignmentExpression)) := by
  unfold parseAssignmentExpression
  tm
  all_goals
    rename_i h
    rcases h with rfl | rfl <;> rfl

theorem reifyArrow_term (hv : Start t0) (hr : RecTerm t0 r) :
    Tr t0 (rank .reifyArrow) r.fuel .same (reifyArrow r) (okPost (out .reifyArrow)) := by
  unfold reifyArrow; tm

theorem reifyAssignment_term (hv : Start t0) (hr : RecTerm t0 r) :
    Tr t0 (rank .reifyAssignment) r.fuel .same (reifyAssignment r) (okPost (out .reifyAssignment)) := by
  unfold reifyAssignment; tm

theorem parseYieldExpression_term (hv : Start t0) (hr : RecTerm t0 r) :
    Tr t0 (rank .yieldExpression) r.fuel .same (parseYieldExpression r) (okPost (out .yieldExpression)) := by
  unfold parseYieldExpression; tm

theorem parseConditionalExpression_term (hv : Start t0) (hr : RecTerm t0 r) :
    Tr t0 (rank .conditionalExpression) r.fuel .same (parseConditionalExpression r) (okPost (out .conditionalExpression)) := by
  unfold parseConditionalExpression; tm

theorem parseLogicalOrExpression_term (hv : Start t0) (hr : RecTerm t0 r) :
    Tr t0 (rank .logicalOrExpression) r.fuel .same (parseLogicalOrExpression r) (okPost (out .logicalOrExpression)) := by
  unfold parseLogicalOrExpression; tm

theorem parseFancy_term (hv : Start t0) (hr : RecTerm t0 r) (p : Nat) :
    Tr t0 (rank (.fancy p)) r.fuel .same (parseFancy r p) (okPost (out (.fancy p))) := by
  unfold parseFancy
  refine bind_tm (call_tm hv hr (.inr (by simp [rank])) (pure_tm rfl) fun _ => ?_)
  refine bind_tm (getFlags_tm hv fun _ => ?_)
  refine bind_tm (loopWeak_tm hv (by simp [rank]) ?_)
  tm

theorem parseExponentialExpression_term (hv : Start t0) (hr : RecTerm t0 r) :
    Tr t0 (rank .exponentialExpression) r.fuel .same (parseExponentialExpression r) (okPost (out .exponentialExpression)) := by
  unfold parseExponentialExpression; tm

theorem parseUnaryExpression_term (hv : Start t0) (hr : RecTerm t0 r) :
    Tr t0 (rank .unaryExpression) r.fuel .same (parseUnaryExpression r) (okPost (out .unaryExpression)) := by
  unfold parseUnaryExpression; tm

theorem parseDeleteExpression_term (hv : Start t0) (hr : RecTerm t0 r) :
    Tr t0 (rank .deleteExpression) r.fuel .same (parseDeleteExpression r) (okPost (out .deleteExpression)) := by
  unfold parseDeleteExpression; tm

theorem parseVoidExpression_term (hv : Start t0) (hr : RecTerm t0 r) :
    Tr t0 (rank .voidExpression) r.fuel .same (parseVoidExpression r) (okPost (out .voidExpression)) := by
  unfold parseVoidExpression; tm

theorem parseTypeofExpression_term (hv : Start t0) (hr : RecTerm t0 r) :
    Tr t0 (rank .typeofExpression) r.fuel .same (parseTypeofExpression r) (okPost (out .typeofExpression)) := by
  unfold parseTypeofExpression; tm

theorem parsePlusExpression_term (hv : Start t0) (hr : RecTerm t0 r) :
    Tr t0 (rank .plusExpression) r.fuel .same (parsePlusExpression r) (okPost (out .plusExpression)) := by
  unfold parsePlusExpression; tm

theorem parseMinusExpression_term (hv : Start t0) (hr : RecTerm t0 r) :
    Tr t0 (rank .minusExpression) r.fuel .same (parseMinusExpression r) (okPost (out .minusExpression)) := by
  unfold parseMinusExpression; tm

theorem parseTildeExpression_term (hv : Start t0) (hr : RecTerm t0 r) :
    Tr t0 (rank .tildeExpression) r.fuel .same (parseTildeExpression r) (okPost (out .tildeExpression)) := by
  unfold parseTildeExpression; tm

theorem parseExclamExpression_term (hv : Start t0) (hr : RecTerm t0 r) :
    Tr t0 (rank .exclamExpression) r.fuel .same (parseExclamExpression r) (okPost (out .exclamExpression)) := by
  unfold parseExclamExpression; tm

theorem parseAwaitExpression_term (hv : Start t0) (hr : RecTerm t0 r) :
    Tr t0 (rank .awaitExpression) r.fuel .same (parseAwaitExpression r) (okPost (out .awaitExpression)) := by
  unfold parseAwaitExpression; tm

theorem parseUpdateExpression_term (hv : Start t0) (hr : RecTerm t0 r) :
    Tr t0 (rank .updateExpression) r.fuel .same (parseUpdateExpression r) (okPost (out .updateExpression)) := by
  unfold parseUpdateExpression; tm

theorem parseLeftHandExpression_term (hv : Start t0) (hr : RecTerm t0 r) (b : Bool) :
    Tr t0 (rank (.leftHandExpression b)) r.fuel .same (parseLeftHandExpression r b) (okPost (out (.leftHandExpression b))) := by
  unfold parseLeftHandExpression
  have hR : 3 < rank (.leftHandExpression b) := by simp [rank]
  tm
  all_goals
    refine loopWeak_tm hv (by simp [rank]) fun _ => leftHandRound_tm hv hr hR ?_ rfl
    tm

theorem parseCallArguments_term (hv : Start t0) (hr : RecTerm t0 r) :
    Tr t0 (rank .callArguments) r.fuel .same (parseCallArguments r) (okPost (out .callArguments)) := by
  unfold parseCallArguments; tm

theorem parseMetaPropertyExpression_term (hv : Start t0) (hr : RecTerm t0 r) :
    Tr t0 (rank .metaPropertyExpression) r.fuel .same parseMetaPropertyExpression (okPost (out .metaPropertyExpression)) := by
  unfold parseMetaPropertyExpression; tm

theorem parseSuperExpression_term (hv : Start t0) (hr : RecTerm t0 r) :
    Tr t0 (rank .superExpression) r.fuel .same parseSuperExpression (okPost (out .superExpression)) := by
  unfold parseSuperExpression; tm

theorem parsePrimaryExpression_term (hv : Start t0) (hr : RecTerm t0 r) :
    Tr t0 (rank .primaryExpression) r.fuel .same (parsePrimaryExpression r) (okPost (out .primaryExpression)) := by
  unfold parsePrimaryExpression; tm

theorem parseThisExpression_term (hv : Start t0) (hr : RecTerm t0 r) :
    Tr t0 (rank .thisExpression) r.fuel .same parseThisExpression (okPost (out .thisExpression)) := by
  unfold parseThisExpression; tm

theorem parseIdentifierReferenceExpression_term (hv : Start t0) (hr : RecTerm t0 r) :
    Tr t0 (rank .identifierReferenceExpression) r.fuel .same parseIdentifierReferenceExpression (okPost (out .identifierReferenceExpression)) := by
  unfold parseIdentifierReferenceExpression; tm

theorem parseNullExpression_term (hv : Start t0) (hr : RecTerm t0 r) :
    Tr t0 (rank .nullExpression) r.fuel .same parseNullExpression (okPost (out .nullExpression)) := by
  unfold parseNullExpression; tm

theorem parseTrueExpression_term (hv : Start t0) (hr : RecTerm t0 r) :
    Tr t0 (rank .trueExpression) r.fuel .same parseTrueExpression (okPost (out .trueExpression)) := by
  unfold parseTrueExpression; tm

theorem parseFalseExpression_term (hv : Start t0) (hr : RecTerm t0 r) :
    Tr t0 (rank .falseExpression) r.fuel .same parseFalseExpression (okPost (out .falseExpression)) := by
  unfold parseFalseExpression; tm

theorem parseNumericExpression_term (hv : Start t0) (hr : RecTerm t0 r) :
    Tr t0 (rank .numericExpression) r.fuel .same parseNumericExpression (okPost (out .numericExpression)) := by
  unfold parseNumericExpression; tm

theorem parseStringExpression_term (hv : Start t0) (hr : RecTerm t0 r) :
    Tr t0 (rank .stringExpression) r.fuel .same parseStringExpression (okPost (out .stringExpression)) := by
  unfold parseStringExpression; tm

theorem parseArrayLiteralExpression_term (hv : Start t0) (hr : RecTerm t0 r) :
    Tr t0 (rank .arrayLiteralExpression) r.fuel .same (parseArrayLiteralExpression r) (okPost (out .arrayLiteralExpression)) := by
  unfold parseArrayLiteralExpression; tm

theorem parseObjectLiteralExpression_term (hv : Start t0) (hr : RecTerm t0 r) :
    Tr t0 (rank .objectLiteralExpression) r.fuel .same (parseObjectLiteralExpression r) (okPost (out .objectLiteralExpression)) := by
  unfold parseObjectLiteralExpression; tm

theorem parseObjectProperty_term (hv : Start t0) (hr : RecTerm t0 r) :
    Tr t0 (rank .objectProperty) r.fuel .same (parseObjectProperty r) (okPost (out .objectProperty)) := by
  unfold parseObjectProperty; tm

theorem parseArrayItem_term (hv : Start t0) (hr : RecTerm t0 r) :
    Tr t0 (rank .arrayItem) r.fuel .same (parseArrayItem r) (okPost (out .arrayItem)) := by
  unfold parseArrayItem; tm

theorem parseRegularExpressionLiteralExpression_term (hv : Start t0) (hr : RecTerm t0 r) :
    Tr t0 (rank .regularExpressionLiteralExpression) r.fuel .same parseRegularExpressionLiteralExpression (okPost (out .regularExpressionLiteralExpression)) := by
  unfold parseRegularExpressionLiteralExpression; tm

theorem parseTemplateLiteralExpression_term (hv : Start t0) (hr : RecTerm t0 r) :
    Tr t0 (rank .templateLiteralExpression) r.fuel .same (parseTemplateLiteralExpression r) (okPost (out .templateLiteralExpression)) := by
  unfold parseTemplateLiteralExpression; tm

theorem parseCoverParenthesizedExpression_term (hv : Start t0) (hr : RecTerm t0 r) :
    Tr t0 (rank .coverParenthesizedExpression) r.fuel .same (parseCoverParenthesizedExpression r) (okPost (out .coverParenthesizedExpression)) := by
  unfold parseCoverParenthesizedExpression; tm

theorem body_term (hv : Start t0) (hr : RecTerm t0 r) (f : Fn) :
    Tr t0 (rank f) r.fuel .same (body r f) (okPost (out f)) := by
  cases f
  · exact parseScriptItem_term hv hr
  · exact parseModuleItem_term hv hr
  · exact parseFunctionDeclaration_term hv hr
  · exact parseFunctionExpression_term hv hr
  · exact parseFunctionParams_term hv hr
  · exact parseFunctionBody_term hv hr
  · exact parseStatement_term hv hr
  · exact parseStatementListItem_term hv hr
  · exact parseBlockStatement_term hv hr
  · exact parseVariableStatement_term hv hr
  · exact parseVarDeclarator_term hv hr
  · exact parseBindingPattern_term hv hr
  · exact parseObjectBindingPattern_term hv hr
  · exact parseBindingProperty_term hv hr
  · exact parsePropertyName_term hv hr
  · exact parseLiteralPropertyName_term hv hr
  · exact parseComputedPropertyName_term hv hr
  · exact parseArrayBindingPattern_term hv hr
  · exact parseBindingRestElement_term hv hr
  · exact parseBindingElement_term hv hr
  · exact parseInitializer_term hv hr
  · exact parseEmptyStatement_term hv hr
  · exact parseExpressionStatement_term hv hr
  · exact parseIfStatement_term hv hr
  · exact parseBreakableStatement_term hv hr
  · exact parseIterationStatement_term hv hr
  · exact parseDoWhileStatement_term hv hr
  · exact parseWhileStatement_term hv hr
  · exact parseForStatement_term hv hr
  · exact parseSwitchStatement_term hv hr
  · exact parseDefaultClause_term hv hr
  · exact parseCaseClause_term hv hr
  · exact parseContinueStatement_term hv hr
  · exact parseBreakStatement_term hv hr
  · exact parseReturnStatement_term hv hr
  · exact parseWithStatement_term hv hr
  · exact parseLabelledStatement_term hv hr
  · exact parseThrowStatement_term hv hr
  · exact parseTryStatement_term hv hr
  · exact parseDebuggerStatement_term hv hr
  · exact parseDeclaration_term hv hr
  · exact parseLetDeclaration_term hv hr
  · exact parseConstDeclaration_term hv hr
  · exact parseLexicalDeclarator_term hv hr _
  · exact parseClassDeclaration_term hv hr
  · exact parseClassExpression_term hv hr
  · exact parseClassHeritage_term hv hr
  · exact parseClassBody_term hv hr
  · exact parseClassItem_term hv hr
  · exact parseMethodTail_term hv hr _
  · exact parseImportDeclaration_term hv hr
  · exact parseImportSpecifier_term hv hr
  · exact parseExportDeclaration_term hv hr
  · exact parseExportSpecifier_term hv hr
  · exact parseLeftHandSideExpression_term hv hr
  · exact parseExpression_term hv hr
  · exact parseAssignmentExpression_term hv hr
  · exact reifyArrow_term hv hr
  · exact reifyAssignment_term hv hr
  · exact parseYieldExpression_term hv hr
  · exact parseConditionalExpression_term hv hr
  · exact parseLogicalOrExpression_term hv hr
  · exact parseFancy_term hv hr _
  · exact parseExponentialExpression_term hv hr
  · exact parseUnaryExpression_term hv hr
  · exact parseDeleteExpression_term hv hr
  · exact parseVoidExpression_term hv hr
  · exact parseTypeofExpression_term hv hr
  · exact parsePlusExpression_term hv hr
  · exact parseMinusExpression_term hv hr
  · exact parseTildeExpression_term hv hr
  · exact parseExclamExpression_term hv hr
  · exact parseAwaitExpression_term hv hr
  · exact parseUpdateExpression_term hv hr
  · exact parseLeftHandExpression_term hv hr _
  · exact parseCallArguments_term hv hr
  · exact parseMetaPropertyExpression_term hv hr
  · exact parseSuperExpression_term hv hr
  · exact parsePrimaryExpression_term hv hr
  · exact parseThisExpression_term hv hr
  · exact parseIdentifierReferenceExpression_term hv hr
  · exact parseNullExpression_term hv hr
  · exact parseTrueExpression_term hv hr
  · exact parseFalseExpression_term hv hr
  · exact parseNumericExpression_term hv hr
  · exact parseStringExpression_term hv hr
  · exact parseArrayLiteralExpression_term hv hr
  · exact parseObjectLiteralExpression_term hv hr
  · exact parseObjectProperty_term hv hr
  · exact parseArrayItem_term hv hr
  · exact parseRegularExpressionLiteralExpression_term hv hr
  · exact parseTemplateLiteralExpression_term hv hr
  · exact parseCoverParenthesizedExpression_term hv hr

end

/-- Every method terminates within its bound. -/
theorem run_terminates {t0 : Tokenizer} (hv : Start t0) : ∀ n f, Terminates t0 n f (run n f)
  | 0, _ => fun _ _ h => absurd h (Nat.not_lt_zero _)
  | n + 1, f => terminates_of_tr (r := ⟨n, run n⟩) (body_term hv ⟨run_terminates hv n⟩ f)

end Jsparse
