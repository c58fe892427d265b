import Verif.Proofs.Cost
/-!
# The cost of all methods
-/

namespace Jsparse

open Spec P

set_option linter.unusedVariables false

/-- Close a goal of the form `b = true` by evaluation in the kernel. -/
elab "evaluates" : tactic => Lean.Elab.Tactic.withMainContext do
  let g ← Lean.Elab.Tactic.getMainGoal
  let t ← Lean.instantiateMVars (← g.getType)
  let some (_, b, v) := t.eq? | throwError "evaluates: not an equation"
  unless v.isConstOf ``Bool.true do throwError "evaluates: not an equation with true"
  if b.hasExprMVar then throwError "evaluates: metavariables"
  let b' ← Lean.ofExceptKernelException (Lean.Kernel.whnf (← Lean.getEnv) (← Lean.getLCtx) b)
  unless b'.isConstOf ``Bool.true do throwError "evaluates: {b}"
  g.assign (← Lean.Meta.mkEqRefl v)
  Lean.Elab.Tactic.replaceMainGoal []

theorem takeIf_co {t0 : Tokenizer} {N R n : Nat} {L : Bill} {β : Type} (hv : Start t0)
    {f : Bool → Token → Option β} {post : Option β → Bill → Prop}
    (hf : ∀ l, f l .eof = none) (hsol : ∀ l, f l (.ident []) = none ∧ f l (.str []) = none)
    (hn : post none L) (hs : ∀ b, post (some b) (L.seq .solid)) :
    Co t0 N R n L (takeIf f) post := takeSolid_co hv hf hsol hn hs

/-- All steps but loops. -/
macro "co_steps" : tactic =>
  `(tactic| repeat' first
    | with_reducible assumption
    | with_reducible trivial
    | evaluates
    | wp_step "co"
    | exact List.cons_ne_nil _ _
    | exact fun _ => rfl
    | exact fun _ => ⟨rfl, rfl⟩
    | (show _ ∧ _; constructor)
    | with_reducible intro _)

macro "co" : tactic =>
  `(tactic| repeat' first
    | with_reducible assumption
    | with_reducible trivial
    | evaluates
    | wp_step "co"
    | exact List.cons_ne_nil _ _
    | exact fun _ => rfl
    | exact fun _ => ⟨rfl, rfl⟩
    | (show _ ∧ _; constructor)
    | with_reducible intro _
    | refine strongLoop_co ‹_› (by evaluates) ?_)

section

variable {t0 : Tokenizer} {N : Nat} {r : Rec}

theorem parseScriptItem_cost (hv : Start t0) (hr : RecCost t0 N r) :
    Co t0 N (base .scriptItem) r.fuel .entry (parseScriptItem r) (fun a l => okBill .scriptItem a l = true) := by
  unfold parseScriptItem; co

theorem parseModuleItem_cost (hv : Start t0) (hr : RecCost t0 N r) :
    Co t0 N (base .moduleItem) r.fuel .entry (parseModuleItem r) (fun a l => okBill .moduleItem a l = true) := by
  unfold parseModuleItem; co

theorem parseFunctionDeclaration_cost (hv : Start t0) (hr : RecCost t0 N r) :
    Co t0 N (base .functionDeclaration) r.fuel .entry (parseFunctionDeclaration r) (fun a l => okBill .functionDeclaration a l = true) := by
  unfold parseFunctionDeclaration; co

theorem parseFunctionExpression_cost (hv : Start t0) (hr : RecCost t0 N r) :
    Co t0 N (base .functionExpression) r.fuel .entry (parseFunctionExpression r) (fun a l => okBill .functionExpression a l = true) := by
  unfold parseFunctionExpression; co

theorem parseFunctionParams_cost (hv : Start t0) (hr : RecCost t0 N r) :
    Co t0 N (base .functionParams) r.fuel .entry (parseFunctionParams r) (fun a l => okBill .functionParams a l = true) := by
  unfold parseFunctionParams; co

theorem parseFunctionBody_cost (hv : Start t0) (hr : RecCost t0 N r) :
    Co t0 N (base .functionBody) r.fuel .entry (parseFunctionBody r) (fun a l => okBill .functionBody a l = true) := by
  unfold parseFunctionBody; co

theorem parseStatement_cost (hv : Start t0) (hr : RecCost t0 N r) :
    Co t0 N (base .statement) r.fuel .entry (parseStatement r) (fun a l => okBill .statement a l = true) := by
  unfold parseStatement; co

theorem parseStatementListItem_cost (hv : Start t0) (hr : RecCost t0 N r) :
    Co t0 N (base .statementListItem) r.fuel .entry (parseStatementListItem r) (fun a l => okBill .statementListItem a l = true) := by
  unfold parseStatementListItem; co

theorem parseBlockStatement_cost (hv : Start t0) (hr : RecCost t0 N r) :
    Co t0 N (base .blockStatement) r.fuel .entry (parseBlockStatement r) (fun a l => okBill .blockStatement a l = true) := by
  unfold parseBlockStatement; co

theorem parseVariableStatement_cost (hv : Start t0) (hr : RecCost t0 N r) :
    Co t0 N (base .variableStatement) r.fuel .entry (parseVariableStatement r) (fun a l => okBill .variableStatement a l = true) := by
  unfold parseVariableStatement; co

theorem parseVarDeclarator_cost (hv : Start t0) (hr : RecCost t0 N r) :
    Co t0 N (base .varDeclarator) r.fuel .entry (parseVarDeclarator r) (fun a l => okBill .varDeclarator a l = true) := by
  unfold parseVarDeclarator; co

theorem parseBindingPattern_cost (hv : Start t0) (hr : RecCost t0 N r) :
    Co t0 N (base .bindingPattern) r.fuel .entry (parseBindingPattern r) (fun a l => okBill .bindingPattern a l = true) := by
  unfold parseBindingPattern; co

theorem parseObjectBindingPattern_cost (hv : Start t0) (hr : RecCost t0 N r) :
    Co t0 N (base .objectBindingPattern) r.fuel .entry (parseObjectBindingPattern r) (fun a l => okBill .objectBindingPattern a l = true) := by
  unfold parseObjectBindingPattern; co

theorem parseBindingProperty_cost (hv : Start t0) (hr : RecCost t0 N r) :
    Co t0 N (base .bindingProperty) r.fuel .entry (parseBindingProperty r) (fun a l => okBill .bindingProperty a l = true) := by
  unfold parseBindingProperty; co

theorem parsePropertyName_cost (hv : Start t0) (hr : RecCost t0 N r) :
    Co t0 N (base .propertyName) r.fuel .entry (parsePropertyName r) (fun a l => okBill .propertyName a l = true) := by
  unfold parsePropertyName; co

theorem parseLiteralPropertyName_cost (hv : Start t0) (hr : RecCost t0 N r) :
    Co t0 N (base .literalPropertyName) r.fuel .entry parseLiteralPropertyName (fun a l => okBill .literalPropertyName a l = true) := by
  unfold parseLiteralPropertyName; co

theorem parseComputedPropertyName_cost (hv : Start t0) (hr : RecCost t0 N r) :
    Co t0 N (base .computedPropertyName) r.fuel .entry (parseComputedPropertyName r) (fun a l => okBill .computedPropertyName a l = true) := by
  unfold parseComputedPropertyName; co

theorem parseArrayBindingPattern_cost (hv : Start t0) (hr : RecCost t0 N r) :
    Co t0 N (base .arrayBindingPattern) r.fuel .entry (parseArrayBindingPattern r) (fun a l => okBill .arrayBindingPattern a l = true) := by
  unfold parseArrayBindingPattern; co

theorem parseBindingRestElement_cost (hv : Start t0) (hr : RecCost t0 N r) :
    Co t0 N (base .bindingRestElement) r.fuel .entry (parseBindingRestElement r) (fun a l => okBill .bindingRestElement a l = true) := by
  unfold parseBindingRestElement; co

theorem parseBindingElement_cost (hv : Start t0) (hr : RecCost t0 N r) :
    Co t0 N (base .bindingElement) r.fuel .entry (parseBindingElement r) (fun a l => okBill .bindingElement a l = true) := by
  unfold parseBindingElement; co

theorem parseInitializer_cost (hv : Start t0) (hr : RecCost t0 N r) :
    Co t0 N (base .initializer) r.fuel .entry (parseInitializer r) (fun a l => okBill .initializer a l = true) := by
  unfold parseInitializer; co

theorem parseEmptyStatement_cost (hv : Start t0) (hr : RecCost t0 N r) :
    Co t0 N (base .emptyStatement) r.fuel .entry parseEmptyStatement (fun a l => okBill .emptyStatement a l = true) := by
  unfold parseEmptyStatement; co

theorem parseExpressionStatement_cost (hv : Start t0) (hr : RecCost t0 N r) :
    Co t0 N (base .expressionStatement) r.fuel .entry (parseExpressionStatement r) (fun a l => okBill .expressionStatement a l = true) := by
  unfold parseExpressionStatement; co

theorem parseIfStatement_cost (hv : Start t0) (hr : RecCost t0 N r) :
    Co t0 N (base .ifStatement) r.fuel .entry (parseIfStatement r) (fun a l => okBill .ifStatement a l = true) := by
  unfold parseIfStatement; co

theorem parseBreakableStatement_cost (hv : Start t0) (hr : RecCost t0 N r) :
    Co t0 N (base .breakableStatement) r.fuel .entry (parseBreakableStatement r) (fun a l => okBill .breakableStatement a l = true) := by
  unfold parseBreakableStatement; co

theorem parseIterationStatement_cost (hv : Start t0) (hr : RecCost t0 N r) :
    Co t0 N (base .iterationStatement) r.fuel .entry (parseIterationStatement r) (fun a l => okBill .iterationStatement a l = true) := by
  unfold parseIterationStatement; co

theorem parseDoWhileStatement_cost (hv : Start t0) (hr : RecCost t0 N r) :
    Co t0 N (base .doWhileStatement) r.fuel .entry (parseDoWhileStatement r) (fun a l => okBill .doWhileStatement a l = true) := by
  unfold parseDoWhileStatement; co

theorem parseWhileStatement_cost (hv : Start t0) (hr : RecCost t0 N r) :
    Co t0 N (base .whileStatement) r.fuel .entry (parseWhileStatement r) (fun a l => okBill .whileStatement a l = true) := by
  unfold parseWhileStatement; co

theorem parseForStatement_cost (hv : Start t0) (hr : RecCost t0 N r) :
    Co t0 N (base .forStatement) r.fuel .entry (parseForStatement r) (fun a l => okBill .forStatement a l = true) := by
  unfold parseForStatement; co

theorem parseSwitchStatement_cost (hv : Start t0) (hr : RecCost t0 N r) :
    Co t0 N (base .switchStatement) r.fuel .entry (parseSwitchStatement r) (fun a l => okBill .switchStatement a l = true) := by
  unfold parseSwitchStatement; co

theorem parseDefaultClause_cost (hv : Start t0) (hr : RecCost t0 N r) :
    Co t0 N (base .defaultClause) r.fuel .entry (parseDefaultClause r) (fun a l => okBill .defaultClause a l = true) := by
  unfold parseDefaultClause; co

theorem parseCaseClause_cost (hv : Start t0) (hr : RecCost t0 N r) :
    Co t0 N (base .caseClause) r.fuel .entry (parseCaseClause r) (fun a l => okBill .caseClause a l = true) := by
  unfold parseCaseClause; co

theorem parseContinueStatement_cost (hv : Start t0) (hr : RecCost t0 N r) :
    Co t0 N (base .continueStatement) r.fuel .entry parseContinueStatement (fun a l => okBill .continueStatement a l = true) := by
  unfold parseContinueStatement; co

theorem parseBreakStatement_cost (hv : Start t0) (hr : RecCost t0 N r) :
    Co t0 N (base .breakStatement) r.fuel .entry parseBreakStatement (fun a l => okBill .breakStatement a l = true) := by
  unfold parseBreakStatement; co

theorem parseReturnStatement_cost (hv : Start t0) (hr : RecCost t0 N r) :
    Co t0 N (base .returnStatement) r.fuel .entry (parseReturnStatement r) (fun a l => okBill .returnStatement a l = true) := by
  unfold parseReturnStatement; co

theorem parseWithStatement_cost (hv : Start t0) (hr : RecCost t0 N r) :
    Co t0 N (base .withStatement) r.fuel .entry (parseWithStatement r) (fun a l => okBill .withStatement a l = true) := by
  unfold parseWithStatement; co

theorem parseLabelledStatement_cost (hv : Start t0) (hr : RecCost t0 N r) :
    Co t0 N (base .labelledStatement) r.fuel .entry (parseLabelledStatement r) (fun a l => okBill .labelledStatement a l = true) := by
  unfold parseLabelledStatement; co

theorem parseThrowStatement_cost (hv : Start t0) (hr : RecCost t0 N r) :
    Co t0 N (base .throwStatement) r.fuel .entry (parseThrowStatement r) (fun a l => okBill .throwStatement a l = true) := by
  unfold parseThrowStatement; co

theorem parseTryStatement_cost (hv : Start t0) (hr : RecCost t0 N r) :
    Co t0 N (base .tryStatement) r.fuel .entry (parseTryStatement r) (fun a l => okBill .tryStatement a l = true) := by
  unfold parseTryStatement; co

theorem parseDebuggerStatement_cost (hv : Start t0) (hr : RecCost t0 N r) :
    Co t0 N (base .debuggerStatement) r.fuel .entry parseDebuggerStatement (fun a l => okBill .debuggerStatement a l = true) := by
  unfold parseDebuggerStatement; co

theorem parseDeclaration_cost (hv : Start t0) (hr : RecCost t0 N r) :
    Co t0 N (base .declaration) r.fuel .entry (parseDeclaration r) (fun a l => okBill .declaration a l = true) := by
  unfold parseDeclaration; co

theorem parseLetDeclaration_cost (hv : Start t0) (hr : RecCost t0 N r) :
    Co t0 N (base .letDeclaration) r.fuel .entry (parseLetDeclaration r) (fun a l => okBill .letDeclaration a l = true) := by
  unfold parseLetDeclaration; co

theorem parseConstDeclaration_cost (hv : Start t0) (hr : RecCost t0 N r) :
    Co t0 N (base .constDeclaration) r.fuel .entry (parseConstDeclaration r) (fun a l => okBill .constDeclaration a l = true) := by
  unfold parseConstDeclaration; co

theorem parseLexicalDeclarator_cost (hv : Start t0) (hr : RecCost t0 N r) (b : Bool) :
    Co t0 N (base (.lexicalDeclarator b)) r.fuel .entry (parseLexicalDeclarator r b) (fun a l => okBill (.lexicalDeclarator b) a l = true) := by
  unfold parseLexicalDeclarator; co

theorem parseClassDeclaration_cost (hv : Start t0) (hr : RecCost t0 N r) :
    Co t0 N (base .classDeclaration) r.fuel .entry (parseClassDeclaration r) (fun a l => okBill .classDeclaration a l = true) := by
  unfold parseClassDeclaration; co

theorem parseClassExpression_cost (hv : Start t0) (hr : RecCost t0 N r) :
    Co t0 N (base .classExpression) r.fuel .entry parseClassExpression (fun a l => okBill .classExpression a l = true) := by
  unfold parseClassExpression; co

theorem parseClassHeritage_cost (hv : Start t0) (hr : RecCost t0 N r) :
    Co t0 N (base .classHeritage) r.fuel .entry (parseClassHeritage r) (fun a l => okBill .classHeritage a l = true) := by
  unfold parseClassHeritage; co

theorem parseClassBody_cost (hv : Start t0) (hr : RecCost t0 N r) :
    Co t0 N (base .classBody) r.fuel .entry (parseClassBody r) (fun a l => okBill .classBody a l = true) := by
  unfold parseClassBody; co

theorem parseClassItem_cost (hv : Start t0) (hr : RecCost t0 N r) :
    Co t0 N (base .classItem) r.fuel .entry (parseClassItem r) (fun a l => okBill .classItem a l = true) := by
  unfold parseClassItem; co

theorem parseMethodTail_cost (hv : Start t0) (hr : RecCost t0 N r) (h : MethodHead) :
    Co t0 N (base (.methodTail h)) r.fuel .entry (parseMethodTail r h) (fun a l => okBill (.methodTail h) a l = true) := by
  unfold parseMethodTail; co

theorem parseImportDeclaration_cost (hv : Start t0) (hr : RecCost t0 N r) :
    Co t0 N (base .importDeclaration) r.fuel .entry (parseImportDeclaration r) (fun a l => okBill .importDeclaration a l = true) := by
  unfold parseImportDeclaration; co

theorem parseImportSpecifier_cost (hv : Start t0) (hr : RecCost t0 N r) :
    Co t0 N (base .importSpecifier) r.fuel .entry parseImportSpecifier (fun a l => okBill .importSpecifier a l = true) := by
  unfold parseImportSpecifier; co

theorem parseExportDeclaration_cost (hv : Start t0) (hr : RecCost t0 N r) :
    Co t0 N (base .exportDeclaration) r.fuel .entry (parseExportDeclaration r) (fun a l => okBill .exportDeclaration a l = true) := by
  unfold parseExportDeclaration; co

theorem parseExportSpecifier_cost (hv : Start t0) (hr : RecCost t0 N r) :
    Co t0 N (base .exportSpecifier) r.fuel .entry parseExportSpecifier (fun a l => okBill .exportSpecifier a l = true) := by
  unfold parseExportSpecifier; co

theorem assignmentRest_co (hv : Start t0) (hr : RecCost t0 N r) :
    Co t0 N (base .assignmentExpression) r.fuel (Bill.entry.seq ⟨.same, base .yieldExpression, 0⟩)
      (assignmentRest r) (fun a l => okBill .assignmentExpression a l = true) := by
  rw [assignmentRest_eq]
  co

theorem fancyRound_co (hv : Start t0) (hr : RecCost t0 N r) {a : Bool} {p : Nat} {R : Nat}
    {post : Nat ⊕ Unit → Bill → Prop} (h1 : post (.inr ()) .start)
    (h2 : ∀ (p : Nat) (l : Bill), l.lv = .strong → l.e ≤ 20 → post (.inl p) l) :
    Co t0 N R r.fuel .start (fancyRound r a p) post := by
  rw [fancyRound_eq]
  refine bind_co (takeSolid_co hv ?_ ?_ (pure_co h1) ?_)
  · intro l; rfl
  · intro l; constructor <;> rfl
  · intro b
    simp only
    refine bind_co (expectExpression_co hv ?_)
    split
    · co; exact h2 _ _ rfl (by decide)
    · co; exact h2 _ _ rfl (Nat.le_of_ble_eq_true rfl)

theorem leftHandRound_co (hv : Start t0) (hr : RecCost t0 N r) {b : Bool}
    {post : Unit ⊕ Unit → Bill → Prop} (h1 : post (.inr ()) .start)
    (h2 : ∀ l : Bill, l.lv = .strong → l.e ≤ 30 → post (.inl ()) l) :
    Co t0 N 2 r.fuel .start (leftHandRound r b) post := by
  rw [leftHandRound_eq]
  co
  all_goals first | exact h1 | exact h2 _ rfl (by decide)

theorem parseLeftHandSideExpression_cost (hv : Start t0) (hr : RecCost t0 N r) :
    Co t0 N (base .leftHandSideExpression) r.fuel .entry (parseLeftHandSideExpression r) (fun a l => okBill .leftHandSideExpression a l = true) := by
  unfold parseLeftHandSideExpression; co

theorem parseExpression_cost (hv : Start t0) (hr : RecCost t0 N r) :
    Co t0 N (base .expression) r.fuel .entry (parseExpression r) (fun a l => okBill .expression a l = true) := by
  unfold parseExpression
  refine bind_co (call_co hv hr (by evaluates) (pure_co (by evaluates)) fun _ => ?_)
  refine bind_co (expectExpression_co hv ?_)
  refine bind_co (loopWeak_co hv 0 20 (by evaluates) ?_)
  co

theorem parseAssignmentExpression_cost (hv : Start t0) (hr : RecCost t0 N r) :
    Co t0 N (base .assignmentExpression) r.fuel .entry (parseAssignmentExpression r) (fun a l => okBill .assignmentExpression a l = true) := by
  unfold parseAssignmentExpression
  co

theorem reifyArrow_cost (hv : Start t0) (hr : RecCost t0 N r) :
    Co t0 N (base .reifyArrow) r.fuel .entry (reifyArrow r) (fun a l => okBill .reifyArrow a l = true) := by
  unfold reifyArrow; co

theorem reifyAssignment_cost (hv : Start t0) (hr : RecCost t0 N r) :
    Co t0 N (base .reifyAssignment) r.fuel .entry (reifyAssignment r) (fun a l => okBill .reifyAssignment a l = true) := by
  unfold reifyAssignment; co

theorem parseYieldExpression_cost (hv : Start t0) (hr : RecCost t0 N r) :
    Co t0 N (base .yieldExpression) r.fuel .entry (parseYieldExpression r) (fun a l => okBill .yieldExpression a l = true) := by
  unfold parseYieldExpression; co

theorem parseConditionalExpression_cost (hv : Start t0) (hr : RecCost t0 N r) :
    Co t0 N (base .conditionalExpression) r.fuel .entry (parseConditionalExpression r) (fun a l => okBill .conditionalExpression a l = true) := by
  unfold parseConditionalExpression; co

theorem parseLogicalOrExpression_cost (hv : Start t0) (hr : RecCost t0 N r) :
    Co t0 N (base .logicalOrExpression) r.fuel .entry (parseLogicalOrExpression r) (fun a l => okBill .logicalOrExpression a l = true) := by
  unfold parseLogicalOrExpression; co

theorem parseFancy_cost (hv : Start t0) (hr : RecCost t0 N r) (p : Nat) :
    Co t0 N (base (.fancy p)) r.fuel .entry (parseFancy r p) (fun a l => okBill (.fancy p) a l = true) := by
  unfold parseFancy
  refine bind_co (call_co hv hr (by evaluates) (pure_co (by evaluates)) fun _ => ?_)
  refine bind_co (getFlags_co hv fun _ => ?_)
  refine bind_co (loopWeak_co hv 0 20 (by evaluates) fun _ => fancyRound_co hv hr ?_ ?_)
  · co
  · intro _ l h1 h2; simp [h1, h2]

theorem parseExponentialExpression_cost (hv : Start t0) (hr : RecCost t0 N r) :
    Co t0 N (base .exponentialExpression) r.fuel .entry (parseExponentialExpression r) (fun a l => okBill .exponentialExpression a l = true) := by
  unfold parseExponentialExpression; co

theorem parseUnaryExpression_cost (hv : Start t0) (hr : RecCost t0 N r) :
    Co t0 N (base .unaryExpression) r.fuel .entry (parseUnaryExpression r) (fun a l => okBill .unaryExpression a l = true) := by
  unfold parseUnaryExpression; co

theorem parseDeleteExpression_cost (hv : Start t0) (hr : RecCost t0 N r) :
    Co t0 N (base .deleteExpression) r.fuel .entry (parseDeleteExpression r) (fun a l => okBill .deleteExpression a l = true) := by
  unfold parseDeleteExpression; co

theorem parseVoidExpression_cost (hv : Start t0) (hr : RecCost t0 N r) :
    Co t0 N (base .voidExpression) r.fuel .entry (parseVoidExpression r) (fun a l => okBill .voidExpression a l = true) := by
  unfold parseVoidExpression; co

theorem parseTypeofExpression_cost (hv : Start t0) (hr : RecCost t0 N r) :
    Co t0 N (base .typeofExpression) r.fuel .entry (parseTypeofExpression r) (fun a l => okBill .typeofExpression a l = true) := by
  unfold parseTypeofExpression; co

theorem parsePlusExpression_cost (hv : Start t0) (hr : RecCost t0 N r) :
    Co t0 N (base .plusExpression) r.fuel .entry (parsePlusExpression r) (fun a l => okBill .plusExpression a l = true) := by
  unfold parsePlusExpression; co

theorem parseMinusExpression_cost (hv : Start t0) (hr : RecCost t0 N r) :
    Co t0 N (base .minusExpression) r.fuel .entry (parseMinusExpression r) (fun a l => okBill .minusExpression a l = true) := by
  unfold parseMinusExpression; co

theorem parseTildeExpression_cost (hv : Start t0) (hr : RecCost t0 N r) :
    Co t0 N (base .tildeExpression) r.fuel .entry (parseTildeExpression r) (fun a l => okBill .tildeExpression a l = true) := by
  unfold parseTildeExpression; co

theorem parseExclamExpression_cost (hv : Start t0) (hr : RecCost t0 N r) :
    Co t0 N (base .exclamExpression) r.fuel .entry (parseExclamExpression r) (fun a l => okBill .exclamExpression a l = true) := by
  unfold parseExclamExpression; co

theorem parseAwaitExpression_cost (hv : Start t0) (hr : RecCost t0 N r) :
    Co t0 N (base .awaitExpression) r.fuel .entry (parseAwaitExpression r) (fun a l => okBill .awaitExpression a l = true) := by
  unfold parseAwaitExpression; co

theorem parseUpdateExpression_cost (hv : Start t0) (hr : RecCost t0 N r) :
    Co t0 N (base .updateExpression) r.fuel .entry (parseUpdateExpression r) (fun a l => okBill .updateExpression a l = true) := by
  unfold parseUpdateExpression; co

theorem parseLeftHandExpression_cost (hv : Start t0) (hr : RecCost t0 N r) (b : Bool) :
    Co t0 N (base (.leftHandExpression b)) r.fuel .entry (parseLeftHandExpression r b) (fun a l => okBill (.leftHandExpression b) a l = true) := by
  unfold parseLeftHandExpression
  co_steps
  all_goals
    refine loopWeak_co hv 2 30 ?_ fun _ => leftHandRound_co hv hr ?_ ?_
    · evaluates
    · co
    · intro l h1 h2; simp [h1, h2]

theorem parseCallArguments_cost (hv : Start t0) (hr : RecCost t0 N r) :
    Co t0 N (base .callArguments) r.fuel .entry (parseCallArguments r) (fun a l => okBill .callArguments a l = true) := by
  unfold parseCallArguments; co

theorem parseMetaPropertyExpression_cost (hv : Start t0) (hr : RecCost t0 N r) :
    Co t0 N (base .metaPropertyExpression) r.fuel .entry parseMetaPropertyExpression (fun a l => okBill .metaPropertyExpression a l = true) := by
  unfold parseMetaPropertyExpression; co

theorem parseSuperExpression_cost (hv : Start t0) (hr : RecCost t0 N r) :
    Co t0 N (base .superExpression) r.fuel .entry parseSuperExpression (fun a l => okBill .superExpression a l = true) := by
  unfold parseSuperExpression; co

theorem parsePrimaryExpression_cost (hv : Start t0) (hr : RecCost t0 N r) :
    Co t0 N (base .primaryExpression) r.fuel .entry (parsePrimaryExpression r) (fun a l => okBill .primaryExpression a l = true) := by
  unfold parsePrimaryExpression; co

theorem parseThisExpression_cost (hv : Start t0) (hr : RecCost t0 N r) :
    Co t0 N (base .thisExpression) r.fuel .entry parseThisExpression (fun a l => okBill .thisExpression a l = true) := by
  unfold parseThisExpression; co

theorem parseIdentifierReferenceExpression_cost (hv : Start t0) (hr : RecCost t0 N r) :
    Co t0 N (base .identifierReferenceExpression) r.fuel .entry parseIdentifierReferenceExpression (fun a l => okBill .identifierReferenceExpression a l = true) := by
  unfold parseIdentifierReferenceExpression; co

theorem parseNullExpression_cost (hv : Start t0) (hr : RecCost t0 N r) :
    Co t0 N (base .nullExpression) r.fuel .entry parseNullExpression (fun a l => okBill .nullExpression a l = true) := by
  unfold parseNullExpression; co

theorem parseTrueExpression_cost (hv : Start t0) (hr : RecCost t0 N r) :
    Co t0 N (base .trueExpression) r.fuel .entry parseTrueExpression (fun a l => okBill .trueExpression a l = true) := by
  unfold parseTrueExpression; co

theorem parseFalseExpression_cost (hv : Start t0) (hr : RecCost t0 N r) :
    Co t0 N (base .falseExpression) r.fuel .entry parseFalseExpression (fun a l => okBill .falseExpression a l = true) := by
  unfold parseFalseExpression; co

theorem parseNumericExpression_cost (hv : Start t0) (hr : RecCost t0 N r) :
    Co t0 N (base .numericExpression) r.fuel .entry parseNumericExpression (fun a l => okBill .numericExpression a l = true) := by
  unfold parseNumericExpression; co

theorem parseStringExpression_cost (hv : Start t0) (hr : RecCost t0 N r) :
    Co t0 N (base .stringExpression) r.fuel .entry parseStringExpression (fun a l => okBill .stringExpression a l = true) := by
  unfold parseStringExpression; co

theorem parseArrayLiteralExpression_cost (hv : Start t0) (hr : RecCost t0 N r) :
    Co t0 N (base .arrayLiteralExpression) r.fuel .entry (parseArrayLiteralExpression r) (fun a l => okBill .arrayLiteralExpression a l = true) := by
  unfold parseArrayLiteralExpression; co

theorem parseObjectLiteralExpression_cost (hv : Start t0) (hr : RecCost t0 N r) :
    Co t0 N (base .objectLiteralExpression) r.fuel .entry (parseObjectLiteralExpression r) (fun a l => okBill .objectLiteralExpression a l = true) := by
  unfold parseObjectLiteralExpression; co

theorem parseObjectProperty_cost (hv : Start t0) (hr : RecCost t0 N r) :
    Co t0 N (base .objectProperty) r.fuel .entry (parseObjectProperty r) (fun a l => okBill .objectProperty a l = true) := by
  unfold parseObjectProperty; co

theorem parseArrayItem_cost (hv : Start t0) (hr : RecCost t0 N r) :
    Co t0 N (base .arrayItem) r.fuel .entry (parseArrayItem r) (fun a l => okBill .arrayItem a l = true) := by
  unfold parseArrayItem; co

theorem parseRegularExpressionLiteralExpression_cost (hv : Start t0) (hr : RecCost t0 N r) :
    Co t0 N (base .regularExpressionLiteralExpression) r.fuel .entry parseRegularExpressionLiteralExpression (fun a l => okBill .regularExpressionLiteralExpression a l = true) := by
  unfold parseRegularExpressionLiteralExpression; co

theorem parseTemplateLiteralExpression_cost (hv : Start t0) (hr : RecCost t0 N r) :
    Co t0 N (base .templateLiteralExpression) r.fuel .entry (parseTemplateLiteralExpression r) (fun a l => okBill .templateLiteralExpression a l = true) := by
  unfold parseTemplateLiteralExpression; co

theorem parseCoverParenthesizedExpression_cost (hv : Start t0) (hr : RecCost t0 N r) :
    Co t0 N (base .coverParenthesizedExpression) r.fuel .entry (parseCoverParenthesizedExpression r) (fun a l => okBill .coverParenthesizedExpression a l = true) := by
  unfold parseCoverParenthesizedExpression; co

theorem body_cost (hv : Start t0) (hr : RecCost t0 N r) (f : Fn) :
    Co t0 N (base f) r.fuel .entry (body r f) (fun a l => okBill (f) a l = true) := by
  cases f
  · exact parseScriptItem_cost hv hr
  · exact parseModuleItem_cost hv hr
  · exact parseFunctionDeclaration_cost hv hr
  · exact parseFunctionExpression_cost hv hr
  · exact parseFunctionParams_cost hv hr
  · exact parseFunctionBody_cost hv hr
  · exact parseStatement_cost hv hr
  · exact parseStatementListItem_cost hv hr
  · exact parseBlockStatement_cost hv hr
  · exact parseVariableStatement_cost hv hr
  · exact parseVarDeclarator_cost hv hr
  · exact parseBindingPattern_cost hv hr
  · exact parseObjectBindingPattern_cost hv hr
  · exact parseBindingProperty_cost hv hr
  · exact parsePropertyName_cost hv hr
  · exact parseLiteralPropertyName_cost hv hr
  · exact parseComputedPropertyName_cost hv hr
  · exact parseArrayBindingPattern_cost hv hr
  · exact parseBindingRestElement_cost hv hr
  · exact parseBindingElement_cost hv hr
  · exact parseInitializer_cost hv hr
  · exact parseEmptyStatement_cost hv hr
  · exact parseExpressionStatement_cost hv hr
  · exact parseIfStatement_cost hv hr
  · exact parseBreakableStatement_cost hv hr
  · exact parseIterationStatement_cost hv hr
  · exact parseDoWhileStatement_cost hv hr
  · exact parseWhileStatement_cost hv hr
  · exact parseForStatement_cost hv hr
  · exact parseSwitchStatement_cost hv hr
  · exact parseDefaultClause_cost hv hr
  · exact parseCaseClause_cost hv hr
  · exact parseContinueStatement_cost hv hr
  · exact parseBreakStatement_cost hv hr
  · exact parseReturnStatement_cost hv hr
  · exact parseWithStatement_cost hv hr
  · exact parseLabelledStatement_cost hv hr
  · exact parseThrowStatement_cost hv hr
  · exact parseTryStatement_cost hv hr
  · exact parseDebuggerStatement_cost hv hr
  · exact parseDeclaration_cost hv hr
  · exact parseLetDeclaration_cost hv hr
  · exact parseConstDeclaration_cost hv hr
  · exact parseLexicalDeclarator_cost hv hr _
  · exact parseClassDeclaration_cost hv hr
  · exact parseClassExpression_cost hv hr
  · exact parseClassHeritage_cost hv hr
  · exact parseClassBody_cost hv hr
  · exact parseClassItem_cost hv hr
  · exact parseMethodTail_cost hv hr _
  · exact parseImportDeclaration_cost hv hr
  · exact parseImportSpecifier_cost hv hr
  · exact parseExportDeclaration_cost hv hr
  · exact parseExportSpecifier_cost hv hr
  · exact parseLeftHandSideExpression_cost hv hr
  · exact parseExpression_cost hv hr
  · exact parseAssignmentExpression_cost hv hr
  · exact reifyArrow_cost hv hr
  · exact reifyAssignment_cost hv hr
  · exact parseYieldExpression_cost hv hr
  · exact parseConditionalExpression_cost hv hr
  · exact parseLogicalOrExpression_cost hv hr
  · exact parseFancy_cost hv hr _
  · exact parseExponentialExpression_cost hv hr
  · exact parseUnaryExpression_cost hv hr
  · exact parseDeleteExpression_cost hv hr
  · exact parseVoidExpression_cost hv hr
  · exact parseTypeofExpression_cost hv hr
  · exact parsePlusExpression_cost hv hr
  · exact parseMinusExpression_cost hv hr
  · exact parseTildeExpression_cost hv hr
  · exact parseExclamExpression_cost hv hr
  · exact parseAwaitExpression_cost hv hr
  · exact parseUpdateExpression_cost hv hr
  · exact parseLeftHandExpression_cost hv hr _
  · exact parseCallArguments_cost hv hr
  · exact parseMetaPropertyExpression_cost hv hr
  · exact parseSuperExpression_cost hv hr
  · exact parsePrimaryExpression_cost hv hr
  · exact parseThisExpression_cost hv hr
  · exact parseIdentifierReferenceExpression_cost hv hr
  · exact parseNullExpression_cost hv hr
  · exact parseTrueExpression_cost hv hr
  · exact parseFalseExpression_cost hv hr
  · exact parseNumericExpression_cost hv hr
  · exact parseStringExpression_cost hv hr
  · exact parseArrayLiteralExpression_cost hv hr
  · exact parseObjectLiteralExpression_cost hv hr
  · exact parseObjectProperty_cost hv hr
  · exact parseArrayItem_cost hv hr
  · exact parseRegularExpressionLiteralExpression_cost hv hr
  · exact parseTemplateLiteralExpression_cost hv hr
  · exact parseCoverParenthesizedExpression_cost hv hr

end

/-- Every method stays within its budget. -/
theorem runMetered_costs {t0 : Tokenizer} (hv : Start t0) (N : Nat) :
    ∀ n f, Costs t0 N n f (runMetered N n f)
  | 0, _ => fun _ _ _ _ h => absurd h (Nat.not_lt_zero _)
  | n + 1, f => costs_of_co (r := ⟨n, runMetered N n⟩) (body_cost hv ⟨runMetered_costs hv N n⟩ f)

end Jsparse
