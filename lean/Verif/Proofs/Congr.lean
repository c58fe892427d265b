import Verif.Proofs.Take
import Verif.Proofs.Head
/-!
# Reasoning about all methods at once

`Congr N N' J` says that the relation `J` between parser methods is respected by all the operations
from which the methods are built.  `body_congr` then gives it for all methods, if `J` also holds of the
error for a second default clause in a `switch`; `body_congr_but` leaves out `parse_switch_statement`.
-/

namespace Jsparse

open P

set_option linter.unusedVariables false

/-- A relation between methods that is preserved by the operations of the parser. -/
structure Congr (N N' : Nat) (J : ∀ {α : Type}, P α → P α → Prop) : Prop where
  pure : ∀ {α : Type} (a : α), J (Pure.pure a : P α) (Pure.pure a)
  bind : ∀ {α β : Type} {m m' : P α} {k k' : α → P β}, J m m' → (∀ a, J (k a) (k' a)) →
    J (m >>= k) (m' >>= k')
  fail : ∀ {α : Type} (e : ParseErr), e ≠ .duplicateDefault → J (P.fail e : P α) (P.fail e)
  flags : J getFlags getFlags
  withFlag : ∀ {α : Type} (f : Flag) (b : Bool) {m m' : P α}, J m m' →
    J (P.withFlag f b m) (P.withFlag f b m')
  expect : J expectExpression expectExpression
  look : J tokenAndLine tokenAndLine
  ahead : J identLookahead identLookahead
  take : ∀ {β : Type} (f : Bool → Token → Option β), (∀ l, f l .eof = none) → J (takeIf f) (takeIf f)
  loop : ∀ {σ β : Type} {b b' : σ → P (σ ⊕ β)}, (∀ st, J (b st) (b' st)) → ∀ st,
    J (P.loop N b st) (P.loop N' b' st)

/-- The same, but not for the operation that announces the rest of a template. -/
structure CongrBase (N N' : Nat) (J : ∀ {α : Type}, P α → P α → Prop) : Prop where
  pure : ∀ {α : Type} (a : α), J (Pure.pure a : P α) (Pure.pure a)
  bind : ∀ {α β : Type} {m m' : P α} {k k' : α → P β}, J m m' → (∀ a, J (k a) (k' a)) →
    J (m >>= k) (m' >>= k')
  fail : ∀ {α : Type} (e : ParseErr), e ≠ .duplicateDefault → J (P.fail e : P α) (P.fail e)
  flags : J getFlags getFlags
  withFlag : ∀ {α : Type} (f : Flag) (b : Bool) {m m' : P α}, (f == .template && b) = false → J m m' →
    J (P.withFlag f b m) (P.withFlag f b m')
  expect : J expectExpression expectExpression
  look : J tokenAndLine tokenAndLine
  ahead : J identLookahead identLookahead
  take : ∀ {β : Type} (f : Bool → Token → Option β), (∀ l, f l .eof = none) → J (takeIf f) (takeIf f)
  loop : ∀ {σ β : Type} {b b' : σ → P (σ ⊕ β)}, (∀ st, J (b st) (b' st)) → ∀ st,
    J (P.loop N b st) (P.loop N' b' st)

theorem Congr.base {N N' : Nat} {J : ∀ {α : Type}, P α → P α → Prop} (h : Congr N N' J) : CongrBase N N' J where
  pure := h.pure
  bind := h.bind
  fail := h.fail
  flags := h.flags
  withFlag f b _ _ _ := h.withFlag f b
  expect := h.expect
  look := h.look
  ahead := h.ahead
  take := h.take
  loop := h.loop

macro "cg" : tactic =>
  `(tactic| repeat' first | with_reducible assumption | head_step "cg" | decide | (intro _) | rfl)

section

variable {N N' : Nat} {J : ∀ {α : Type}, P α → P α → Prop}

theorem pure_cg (hJ : CongrBase N N' J) {α : Type} (a : α) : J (Pure.pure a : P α) (Pure.pure a) := hJ.pure a
theorem bind_cg (hJ : CongrBase N N' J) {α β : Type} {m m' : P α} {k k' : α → P β} (h : J m m')
    (hk : ∀ a, J (k a) (k' a)) : J (m >>= k) (m' >>= k') := hJ.bind h hk
theorem map_cg (hJ : CongrBase N N' J) {α β : Type} {f : α → β} {m m' : P α} (h : J m m') :
    J (f <$> m) (f <$> m') := hJ.bind h fun _ => hJ.pure _
theorem fail_cg (hJ : CongrBase N N' J) {α : Type} (e : ParseErr) (he : e ≠ .duplicateDefault) :
    J (P.fail e : P α) (P.fail e) := hJ.fail e he
theorem getFlags_cg (hJ : CongrBase N N' J) : J getFlags getFlags := hJ.flags
theorem withFlag_cg (hJ : CongrBase N N' J) {α : Type} (f : Flag) (b : Bool) {m m' : P α} (h : J m m')
    (hf : (f == .template && b) = false) : J (P.withFlag f b m) (P.withFlag f b m') := hJ.withFlag f b hf h
theorem expectExpression_cg (hJ : CongrBase N N' J) : J expectExpression expectExpression := hJ.expect
theorem tokenAndLine_cg (hJ : CongrBase N N' J) : J tokenAndLine tokenAndLine := hJ.look
theorem identLookahead_cg (hJ : CongrBase N N' J) : J identLookahead identLookahead := hJ.ahead
theorem takeIf_cg (hJ : CongrBase N N' J) {β : Type} (f : Bool → Token → Option β)
    (hf : ∀ l, f l .eof = none) : J (takeIf f) (takeIf f) := hJ.take f hf
theorem loop_cg (hJ : CongrBase N N' J) {σ β : Type} {b b' : σ → P (σ ⊕ β)} {st : σ}
    (h : ∀ st, J (b st) (b' st)) : J (P.loop N b st) (P.loop N' b' st) := hJ.loop h st

theorem token_cg (hJ : CongrBase N N' J) : J token token := by unfold token; cg
theorem noLineTerminator_cg (hJ : CongrBase N N' J) : J noLineTerminator noLineTerminator := by
  unfold noLineTerminator; cg

theorem punc_cg (hJ : CongrBase N N' J) (p : Punct) : J (punc p) (punc p) := by rw [punc_eq]; cg
theorem numeric_cg (hJ : CongrBase N N' J) : J numeric numeric := by rw [numeric_eq]; cg
theorem string_cg (hJ : CongrBase N N' J) : J string string := by rw [string_eq]; cg
theorem regex_cg (hJ : CongrBase N N' J) : J regex regex := by rw [regex_eq]; cg
theorem template_cg (hJ : CongrBase N N' J) : J template template := by rw [template_eq]; cg
theorem templateTail_cg (hJ : CongrBase N N' J) : J templateTail templateTail := by
  rw [templateTail_eq]; cg
theorem bindingIdentifier_cg (hJ : CongrBase N N' J) : J bindingIdentifier bindingIdentifier := by
  rw [bindingIdentifier_eq]; cg
theorem keyword_cg (hJ : CongrBase N N' J) (k : Bytes) : J (keyword k) (keyword k) := by
  rw [keyword_eq]; cg
theorem identifier_cg (hJ : CongrBase N N' J) : J identifier identifier := by rw [identifier_eq]; cg
theorem semicolonInner_cg (hJ : CongrBase N N' J) (w : Bool) :
    J (semicolonInner w) (semicolonInner w) := by
  rw [semicolonInner_eq]; cg

theorem eat_cg (hJ : CongrBase N N' J) {α : Type} {m m' : P (Option α)} (h : J m m') :
    J (eat m) (eat m') := by
  unfold eat; cg

theorem orTry_cg (hJ : CongrBase N N' J) {α : Type} {m m' k k' : P (Option α)} (h : J m m') (hk : J k k') :
    J (orTry m k) (orTry m' k') := by
  unfold orTry; cg

theorem must_cg (hJ : CongrBase N N' J) {m m' : P (Option Unit)} (h : J m m') :
    J (must m) (must m') := by
  unfold must
  exact hJ.bind (eat_cg hJ h) fun _ => hJ.pure _

theorem whileSome_cg (hJ : CongrBase N N' J) {α : Type} {m m' : P (Option α)} (h : J m m') :
    J (whileSome N m) (whileSome N' m') := by
  unfold whileSome; cg

/-- The recursive calls are related. -/
structure CallRel (J : ∀ {α : Type}, P α → P α → Prop) (r r' : Rec) : Prop where
  call : ∀ f, J (r.call f) (r'.call f)

variable {r r' : Rec}

theorem call_cg (hr : CallRel J r r') (f : Fn) : J (r.call f) (r'.call f) := hr.call f

theorem parseScriptItem_cg (hJ : CongrBase r.fuel r'.fuel J) (hr : CallRel J r r')  :
    J (parseScriptItem r) (parseScriptItem r') := by
  unfold parseScriptItem; cg

theorem parseModuleItem_cg (hJ : CongrBase r.fuel r'.fuel J) (hr : CallRel J r r')  :
    J (parseModuleItem r) (parseModuleItem r') := by
  unfold parseModuleItem; cg

theorem functionRest_cg (hJ : CongrBase r.fuel r'.fuel J) (hr : CallRel J r r') (async : Bool) (star : Bool) :
    J (functionRest r async star) (functionRest r' async star) := by
  unfold functionRest; cg

theorem functionKeyword_cg (hJ : CongrBase N N' J) (maybeAsync : Bool) :
    J (functionKeyword maybeAsync) (functionKeyword maybeAsync) := by
  unfold functionKeyword; cg

theorem parseFunctionDeclaration_cg (hJ : CongrBase r.fuel r'.fuel J) (hr : CallRel J r r')  :
    J (parseFunctionDeclaration r) (parseFunctionDeclaration r') := by
  unfold parseFunctionDeclaration; cg

theorem parseFunctionExpression_cg (hJ : CongrBase r.fuel r'.fuel J) (hr : CallRel J r r')  :
    J (parseFunctionExpression r) (parseFunctionExpression r') := by
  unfold parseFunctionExpression; cg

theorem functionParamsRound_cg (hJ : CongrBase r.fuel r'.fuel J) (hr : CallRel J r r')  :
    J (functionParamsRound r) (functionParamsRound r') := by
  unfold functionParamsRound; cg

theorem parseFunctionParams_cg (hJ : CongrBase r.fuel r'.fuel J) (hr : CallRel J r r')  :
    J (parseFunctionParams r) (parseFunctionParams r') := by
  unfold parseFunctionParams; cg

theorem parseFunctionBody_cg (hJ : CongrBase r.fuel r'.fuel J) (hr : CallRel J r r')  :
    J (parseFunctionBody r) (parseFunctionBody r') := by
  unfold parseFunctionBody; cg

theorem parseStatement_cg (hJ : CongrBase r.fuel r'.fuel J) (hr : CallRel J r r')  :
    J (parseStatement r) (parseStatement r') := by
  unfold parseStatement; cg

theorem parseStatementListItem_cg (hJ : CongrBase r.fuel r'.fuel J) (hr : CallRel J r r')  :
    J (parseStatementListItem r) (parseStatementListItem r') := by
  unfold parseStatementListItem; cg

theorem parseBlockStatement_cg (hJ : CongrBase r.fuel r'.fuel J) (hr : CallRel J r r')  :
    J (parseBlockStatement r) (parseBlockStatement r') := by
  unfold parseBlockStatement; cg

theorem commaRound_cg (hJ : CongrBase N N' J) {item item' : P (Option Unit)} (h : J item item') :
    J (commaRound item) (commaRound item') := by
  unfold commaRound; cg

theorem parseVariableStatement_cg (hJ : CongrBase r.fuel r'.fuel J) (hr : CallRel J r r')  :
    J (parseVariableStatement r) (parseVariableStatement r') := by
  unfold parseVariableStatement; cg

theorem parseVarDeclarator_cg (hJ : CongrBase r.fuel r'.fuel J) (hr : CallRel J r r')  :
    J (parseVarDeclarator r) (parseVarDeclarator r') := by
  unfold parseVarDeclarator; cg

theorem parseBindingPattern_cg (hJ : CongrBase r.fuel r'.fuel J) (hr : CallRel J r r')  :
    J (parseBindingPattern r) (parseBindingPattern r') := by
  unfold parseBindingPattern; cg

theorem objectBindingRound_cg (hJ : CongrBase r.fuel r'.fuel J) (hr : CallRel J r r')  :
    J (objectBindingRound r) (objectBindingRound r') := by
  unfold objectBindingRound; cg

theorem parseObjectBindingPattern_cg (hJ : CongrBase r.fuel r'.fuel J) (hr : CallRel J r r')  :
    J (parseObjectBindingPattern r) (parseObjectBindingPattern r') := by
  unfold parseObjectBindingPattern; cg

theorem parseBindingProperty_cg (hJ : CongrBase r.fuel r'.fuel J) (hr : CallRel J r r')  :
    J (parseBindingProperty r) (parseBindingProperty r') := by
  unfold parseBindingProperty; cg

theorem parsePropertyName_cg (hJ : CongrBase r.fuel r'.fuel J) (hr : CallRel J r r')  :
    J (parsePropertyName r) (parsePropertyName r') := by
  unfold parsePropertyName; cg

theorem parseLiteralPropertyName_cg (hJ : CongrBase N N' J)  :
    J (parseLiteralPropertyName) (parseLiteralPropertyName) := by
  unfold parseLiteralPropertyName; cg

theorem parseComputedPropertyName_cg (hJ : CongrBase r.fuel r'.fuel J) (hr : CallRel J r r')  :
    J (parseComputedPropertyName r) (parseComputedPropertyName r') := by
  unfold parseComputedPropertyName; cg

theorem arrayBindingRound_cg (hJ : CongrBase r.fuel r'.fuel J) (hr : CallRel J r r')  :
    J (arrayBindingRound r) (arrayBindingRound r') := by
  unfold arrayBindingRound; cg

theorem parseArrayBindingPattern_cg (hJ : CongrBase r.fuel r'.fuel J) (hr : CallRel J r r')  :
    J (parseArrayBindingPattern r) (parseArrayBindingPattern r') := by
  unfold parseArrayBindingPattern; cg

theorem patternOrIdentifier_cg (hJ : CongrBase r.fuel r'.fuel J) (hr : CallRel J r r')  :
    J (patternOrIdentifier r) (patternOrIdentifier r') := by
  unfold patternOrIdentifier; cg

theorem parseBindingRestElement_cg (hJ : CongrBase r.fuel r'.fuel J) (hr : CallRel J r r')  :
    J (parseBindingRestElement r) (parseBindingRestElement r') := by
  unfold parseBindingRestElement; cg

theorem parseBindingElement_cg (hJ : CongrBase r.fuel r'.fuel J) (hr : CallRel J r r')  :
    J (parseBindingElement r) (parseBindingElement r') := by
  unfold parseBindingElement; cg

theorem parseInitializer_cg (hJ : CongrBase r.fuel r'.fuel J) (hr : CallRel J r r')  :
    J (parseInitializer r) (parseInitializer r') := by
  unfold parseInitializer; cg

theorem parseEmptyStatement_cg (hJ : CongrBase N N' J)  :
    J (parseEmptyStatement) (parseEmptyStatement) := by
  unfold parseEmptyStatement; cg

theorem parseExpressionStatement_cg (hJ : CongrBase r.fuel r'.fuel J) (hr : CallRel J r r')  :
    J (parseExpressionStatement r) (parseExpressionStatement r') := by
  unfold parseExpressionStatement; cg

theorem parenExpression_cg (hJ : CongrBase r.fuel r'.fuel J) (hr : CallRel J r r')  :
    J (parenExpression r) (parenExpression r') := by
  unfold parenExpression; cg

theorem parseIfStatement_cg (hJ : CongrBase r.fuel r'.fuel J) (hr : CallRel J r r')  :
    J (parseIfStatement r) (parseIfStatement r') := by
  unfold parseIfStatement; cg

theorem parseBreakableStatement_cg (hJ : CongrBase r.fuel r'.fuel J) (hr : CallRel J r r')  :
    J (parseBreakableStatement r) (parseBreakableStatement r') := by
  unfold parseBreakableStatement; cg

theorem parseIterationStatement_cg (hJ : CongrBase r.fuel r'.fuel J) (hr : CallRel J r r')  :
    J (parseIterationStatement r) (parseIterationStatement r') := by
  unfold parseIterationStatement; cg

theorem parseDoWhileStatement_cg (hJ : CongrBase r.fuel r'.fuel J) (hr : CallRel J r r')  :
    J (parseDoWhileStatement r) (parseDoWhileStatement r') := by
  unfold parseDoWhileStatement; cg

theorem parseWhileStatement_cg (hJ : CongrBase r.fuel r'.fuel J) (hr : CallRel J r r')  :
    J (parseWhileStatement r) (parseWhileStatement r') := by
  unfold parseWhileStatement; cg

theorem forDeclRound_cg (hJ : CongrBase N N' J) {item item' : P (Option Unit)} (h : J item item') (b : Bool) :
    J (forDeclRound item b) (forDeclRound item' b) := by
  unfold forDeclRound; cg

theorem forDeclHead_cg (hJ : CongrBase r.fuel r'.fuel J) (hr : CallRel J r r') (k : ForKind)
    {item item' : P (Option Unit)} (h : J item item') :
    J (forDeclHead r k item) (forDeclHead r' k item') := by
  unfold forDeclHead; cg

theorem forHead_cg (hJ : CongrBase r.fuel r'.fuel J) (hr : CallRel J r r')  :
    J (forHead r) (forHead r') := by
  unfold forHead; cg

theorem forClassic_cg (hJ : CongrBase r.fuel r'.fuel J) (hr : CallRel J r r') (maybeFor : Bool) :
    J (forClassic r maybeFor) (forClassic r' maybeFor) := by
  unfold forClassic; cg

theorem forInOf_cg (hJ : CongrBase r.fuel r'.fuel J) (hr : CallRel J r r') (maybeX : Bool) :
    J (forInOf r maybeX) (forInOf r' maybeX) := by
  unfold forInOf; cg

theorem parseForStatement_cg (hJ : CongrBase r.fuel r'.fuel J) (hr : CallRel J r r')  :
    J (parseForStatement r) (parseForStatement r') := by
  unfold parseForStatement; cg

theorem switchRound_cg (hJ : CongrBase r.fuel r'.fuel J) (hr : CallRel J r r')
    (hf : J (P.fail .duplicateDefault : P (Bool ⊕ Unit)) (P.fail .duplicateDefault))
    (hasDefault : Bool) :
    J (switchRound r hasDefault) (switchRound r' hasDefault) := by
  unfold switchRound; cg

theorem parseSwitchStatement_cg (hJ : CongrBase r.fuel r'.fuel J) (hr : CallRel J r r')
    (hf : J (P.fail .duplicateDefault : P (Bool ⊕ Unit)) (P.fail .duplicateDefault)) :
    J (parseSwitchStatement r) (parseSwitchStatement r') := by
  unfold parseSwitchStatement; cg

theorem parseDefaultClause_cg (hJ : CongrBase r.fuel r'.fuel J) (hr : CallRel J r r')  :
    J (parseDefaultClause r) (parseDefaultClause r') := by
  unfold parseDefaultClause; cg

theorem parseCaseClause_cg (hJ : CongrBase r.fuel r'.fuel J) (hr : CallRel J r r')  :
    J (parseCaseClause r) (parseCaseClause r') := by
  unfold parseCaseClause; cg

theorem labelAndSemicolon_cg (hJ : CongrBase N N' J)  :
    J (labelAndSemicolon) (labelAndSemicolon) := by
  unfold labelAndSemicolon; cg

theorem parseContinueStatement_cg (hJ : CongrBase N N' J)  :
    J (parseContinueStatement) (parseContinueStatement) := by
  unfold parseContinueStatement; cg

theorem parseBreakStatement_cg (hJ : CongrBase N N' J)  :
    J (parseBreakStatement) (parseBreakStatement) := by
  unfold parseBreakStatement; cg

theorem parseReturnStatement_cg (hJ : CongrBase r.fuel r'.fuel J) (hr : CallRel J r r')  :
    J (parseReturnStatement r) (parseReturnStatement r') := by
  unfold parseReturnStatement; cg

theorem parseWithStatement_cg (hJ : CongrBase r.fuel r'.fuel J) (hr : CallRel J r r')  :
    J (parseWithStatement r) (parseWithStatement r') := by
  unfold parseWithStatement; cg

theorem parseLabelledStatement_cg (hJ : CongrBase r.fuel r'.fuel J) (hr : CallRel J r r')  :
    J (parseLabelledStatement r) (parseLabelledStatement r') := by
  unfold parseLabelledStatement; cg

theorem parseThrowStatement_cg (hJ : CongrBase r.fuel r'.fuel J) (hr : CallRel J r r')  :
    J (parseThrowStatement r) (parseThrowStatement r') := by
  unfold parseThrowStatement; cg

theorem parseTryStatement_cg (hJ : CongrBase r.fuel r'.fuel J) (hr : CallRel J r r')  :
    J (parseTryStatement r) (parseTryStatement r') := by
  unfold parseTryStatement; cg

theorem parseDebuggerStatement_cg (hJ : CongrBase N N' J)  :
    J (parseDebuggerStatement) (parseDebuggerStatement) := by
  unfold parseDebuggerStatement; cg

theorem parseDeclaration_cg (hJ : CongrBase r.fuel r'.fuel J) (hr : CallRel J r r')  :
    J (parseDeclaration r) (parseDeclaration r') := by
  unfold parseDeclaration; cg

theorem parseLetDeclaration_cg (hJ : CongrBase r.fuel r'.fuel J) (hr : CallRel J r r')  :
    J (parseLetDeclaration r) (parseLetDeclaration r') := by
  unfold parseLetDeclaration; cg

theorem parseConstDeclaration_cg (hJ : CongrBase r.fuel r'.fuel J) (hr : CallRel J r r')  :
    J (parseConstDeclaration r) (parseConstDeclaration r') := by
  unfold parseConstDeclaration; cg

theorem parseLexicalDeclarator_cg (hJ : CongrBase r.fuel r'.fuel J) (hr : CallRel J r r') (initializerRequired : Bool) :
    J (parseLexicalDeclarator r initializerRequired) (parseLexicalDeclarator r' initializerRequired) := by
  unfold parseLexicalDeclarator; cg

theorem parseClassDeclaration_cg (hJ : CongrBase r.fuel r'.fuel J) (hr : CallRel J r r')  :
    J (parseClassDeclaration r) (parseClassDeclaration r') := by
  unfold parseClassDeclaration; cg

theorem parseClassExpression_cg (hJ : CongrBase N N' J)  :
    J (parseClassExpression) (parseClassExpression) := by
  unfold parseClassExpression; cg

theorem parseClassHeritage_cg (hJ : CongrBase r.fuel r'.fuel J) (hr : CallRel J r r')  :
    J (parseClassHeritage r) (parseClassHeritage r') := by
  unfold parseClassHeritage; cg

theorem parseClassBody_cg (hJ : CongrBase r.fuel r'.fuel J) (hr : CallRel J r r')  :
    J (parseClassBody r) (parseClassBody r') := by
  unfold parseClassBody; cg

theorem methodHeadNoName_cg (hJ : CongrBase N N' J) (stat : Bool) (kind : MethodKind) (star : Bool) :
    J (methodHeadNoName stat kind star) (methodHeadNoName stat kind star) := by
  unfold methodHeadNoName; cg

theorem parseMethodHead_cg (hJ : CongrBase r.fuel r'.fuel J) (hr : CallRel J r r') (allowStatic : Bool) :
    J (parseMethodHead r allowStatic) (parseMethodHead r' allowStatic) := by
  unfold parseMethodHead; cg

theorem parseClassItem_cg (hJ : CongrBase r.fuel r'.fuel J) (hr : CallRel J r r')  :
    J (parseClassItem r) (parseClassItem r') := by
  unfold parseClassItem; cg

theorem methodRest_cg (hJ : CongrBase r.fuel r'.fuel J) (hr : CallRel J r r') (head : MethodHead) :
    J (methodRest r head) (methodRest r' head) := by
  unfold methodRest; cg

theorem parseMethodTail_cg (hJ : CongrBase r.fuel r'.fuel J) (hr : CallRel J r r') (head : MethodHead) :
    J (parseMethodTail r head) (parseMethodTail r' head) := by
  unfold parseMethodTail; cg

theorem specifierRound_cg (hJ : CongrBase N N' J) {item item' : P (Option Unit)} (h : J item item') :
    J (specifierRound item) (specifierRound item') := by
  unfold specifierRound; cg

theorem importClause_cg (hJ : CongrBase r.fuel r'.fuel J) (hr : CallRel J r r')  :
    J (importClause r) (importClause r') := by
  unfold importClause; cg

theorem parseImportDeclaration_cg (hJ : CongrBase r.fuel r'.fuel J) (hr : CallRel J r r')  :
    J (parseImportDeclaration r) (parseImportDeclaration r') := by
  unfold parseImportDeclaration; cg

theorem parseImportSpecifier_cg (hJ : CongrBase N N' J)  :
    J (parseImportSpecifier) (parseImportSpecifier) := by
  unfold parseImportSpecifier; cg

theorem exportDefault_cg (hJ : CongrBase r.fuel r'.fuel J) (hr : CallRel J r r')  :
    J (exportDefault r) (exportDefault r') := by
  unfold exportDefault; cg

theorem exportSpecifiers_cg (hJ : CongrBase r.fuel r'.fuel J) (hr : CallRel J r r')  :
    J (exportSpecifiers r) (exportSpecifiers r') := by
  unfold exportSpecifiers; cg

theorem exportNamed_cg (hJ : CongrBase r.fuel r'.fuel J) (hr : CallRel J r r')  :
    J (exportNamed r) (exportNamed r') := by
  unfold exportNamed; cg

theorem parseExportDeclaration_cg (hJ : CongrBase r.fuel r'.fuel J) (hr : CallRel J r r')  :
    J (parseExportDeclaration r) (parseExportDeclaration r') := by
  unfold parseExportDeclaration; cg

theorem parseExportSpecifier_cg (hJ : CongrBase N N' J)  :
    J (parseExportSpecifier) (parseExportSpecifier) := by
  unfold parseExportSpecifier; cg

theorem parseLeftHandSideExpression_cg (hJ : CongrBase r.fuel r'.fuel J) (hr : CallRel J r r')  :
    J (parseLeftHandSideExpression r) (parseLeftHandSideExpression r') := by
  unfold parseLeftHandSideExpression; cg

theorem expressionRound_cg (hJ : CongrBase r.fuel r'.fuel J) (hr : CallRel J r r')  :
    J (expressionRound r) (expressionRound r') := by
  unfold expressionRound; cg

theorem parseExpression_cg (hJ : CongrBase r.fuel r'.fuel J) (hr : CallRel J r r')  :
    J (parseExpression r) (parseExpression r') := by
  unfold parseExpression; cg

theorem assignmentRest_cg (hJ : CongrBase r.fuel r'.fuel J) (hr : CallRel J r r')  :
    J (assignmentRest r) (assignmentRest r') := by
  rw [assignmentRest_eq, assignmentRest_eq]; cg

theorem parseAssignmentExpression_cg (hJ : CongrBase r.fuel r'.fuel J) (hr : CallRel J r r')  :
    J (parseAssignmentExpression r) (parseAssignmentExpression r') := by
  rw [parseAssignmentExpression_eq, parseAssignmentExpression_eq]; cg

theorem reifyArrow_cg (hJ : CongrBase r.fuel r'.fuel J) (hr : CallRel J r r')  :
    J (reifyArrow r) (reifyArrow r') := by
  unfold reifyArrow; cg

theorem reifyAssignment_cg (hJ : CongrBase r.fuel r'.fuel J) (hr : CallRel J r r')  :
    J (reifyAssignment r) (reifyAssignment r') := by
  unfold reifyAssignment; cg

theorem parseYieldExpression_cg (hJ : CongrBase r.fuel r'.fuel J) (hr : CallRel J r r')  :
    J (parseYieldExpression r) (parseYieldExpression r') := by
  unfold parseYieldExpression; cg

theorem parseConditionalExpression_cg (hJ : CongrBase r.fuel r'.fuel J) (hr : CallRel J r r')  :
    J (parseConditionalExpression r) (parseConditionalExpression r') := by
  unfold parseConditionalExpression; cg

theorem parseLogicalOrExpression_cg (hJ : CongrBase r.fuel r'.fuel J) (hr : CallRel J r r')  :
    J (parseLogicalOrExpression r) (parseLogicalOrExpression r') := by
  unfold parseLogicalOrExpression; cg

theorem fancyRound_cg (hJ : CongrBase r.fuel r'.fuel J) (hr : CallRel J r r') (allowIn : Bool) (precedence : Nat) :
    J (fancyRound r allowIn precedence) (fancyRound r' allowIn precedence) := by
  rw [fancyRound_eq, fancyRound_eq]; cg

theorem parseFancy_cg (hJ : CongrBase r.fuel r'.fuel J) (hr : CallRel J r r') (precedence : Nat) :
    J (parseFancy r precedence) (parseFancy r' precedence) := by
  unfold parseFancy; cg

theorem parseExponentialExpression_cg (hJ : CongrBase r.fuel r'.fuel J) (hr : CallRel J r r')  :
    J (parseExponentialExpression r) (parseExponentialExpression r') := by
  unfold parseExponentialExpression; cg

theorem parseUnaryExpression_cg (hJ : CongrBase r.fuel r'.fuel J) (hr : CallRel J r r')  :
    J (parseUnaryExpression r) (parseUnaryExpression r') := by
  unfold parseUnaryExpression; cg

theorem parseDeleteExpression_cg (hJ : CongrBase r.fuel r'.fuel J) (hr : CallRel J r r')  :
    J (parseDeleteExpression r) (parseDeleteExpression r') := by
  unfold parseDeleteExpression; cg

theorem parseVoidExpression_cg (hJ : CongrBase r.fuel r'.fuel J) (hr : CallRel J r r')  :
    J (parseVoidExpression r) (parseVoidExpression r') := by
  unfold parseVoidExpression; cg

theorem parseTypeofExpression_cg (hJ : CongrBase r.fuel r'.fuel J) (hr : CallRel J r r')  :
    J (parseTypeofExpression r) (parseTypeofExpression r') := by
  unfold parseTypeofExpression; cg

theorem parsePlusExpression_cg (hJ : CongrBase r.fuel r'.fuel J) (hr : CallRel J r r')  :
    J (parsePlusExpression r) (parsePlusExpression r') := by
  unfold parsePlusExpression; cg

theorem parseMinusExpression_cg (hJ : CongrBase r.fuel r'.fuel J) (hr : CallRel J r r')  :
    J (parseMinusExpression r) (parseMinusExpression r') := by
  unfold parseMinusExpression; cg

theorem parseTildeExpression_cg (hJ : CongrBase r.fuel r'.fuel J) (hr : CallRel J r r')  :
    J (parseTildeExpression r) (parseTildeExpression r') := by
  unfold parseTildeExpression; cg

theorem parseExclamExpression_cg (hJ : CongrBase r.fuel r'.fuel J) (hr : CallRel J r r')  :
    J (parseExclamExpression r) (parseExclamExpression r') := by
  unfold parseExclamExpression; cg

theorem parseAwaitExpression_cg (hJ : CongrBase r.fuel r'.fuel J) (hr : CallRel J r r')  :
    J (parseAwaitExpression r) (parseAwaitExpression r') := by
  unfold parseAwaitExpression; cg

theorem parseUpdateExpression_cg (hJ : CongrBase r.fuel r'.fuel J) (hr : CallRel J r r')  :
    J (parseUpdateExpression r) (parseUpdateExpression r') := by
  unfold parseUpdateExpression; cg

theorem leftHandRound_cg (hJ : CongrBase r.fuel r'.fuel J) (hr : CallRel J r r') (allowCall : Bool) :
    J (leftHandRound r allowCall) (leftHandRound r' allowCall) := by
  rw [leftHandRound_eq, leftHandRound_eq]; cg

theorem parseLeftHandExpression_cg (hJ : CongrBase r.fuel r'.fuel J) (hr : CallRel J r r') (allowCall : Bool) :
    J (parseLeftHandExpression r allowCall) (parseLeftHandExpression r' allowCall) := by
  unfold parseLeftHandExpression; cg

theorem callArgumentItem_cg (hJ : CongrBase r.fuel r'.fuel J) (hr : CallRel J r r')  :
    J (callArgumentItem r) (callArgumentItem r') := by
  unfold callArgumentItem; cg

theorem callArgumentsRound_cg (hJ : CongrBase r.fuel r'.fuel J) (hr : CallRel J r r')  :
    J (callArgumentsRound r) (callArgumentsRound r') := by
  unfold callArgumentsRound; cg

theorem parseCallArguments_cg (hJ : CongrBase r.fuel r'.fuel J) (hr : CallRel J r r')  :
    J (parseCallArguments r) (parseCallArguments r') := by
  unfold parseCallArguments; cg

theorem parseMetaPropertyExpression_cg (hJ : CongrBase N N' J)  :
    J (parseMetaPropertyExpression) (parseMetaPropertyExpression) := by
  unfold parseMetaPropertyExpression; cg

theorem parseSuperExpression_cg (hJ : CongrBase N N' J)  :
    J (parseSuperExpression) (parseSuperExpression) := by
  unfold parseSuperExpression; cg

theorem parsePrimaryExpression_cg (hJ : CongrBase r.fuel r'.fuel J) (hr : CallRel J r r')  :
    J (parsePrimaryExpression r) (parsePrimaryExpression r') := by
  unfold parsePrimaryExpression; cg

theorem parseThisExpression_cg (hJ : CongrBase N N' J)  :
    J (parseThisExpression) (parseThisExpression) := by
  unfold parseThisExpression; cg

theorem parseIdentifierReferenceExpression_cg (hJ : CongrBase N N' J)  :
    J (parseIdentifierReferenceExpression) (parseIdentifierReferenceExpression) := by
  unfold parseIdentifierReferenceExpression; cg

theorem parseNullExpression_cg (hJ : CongrBase N N' J)  :
    J (parseNullExpression) (parseNullExpression) := by
  unfold parseNullExpression; cg

theorem parseTrueExpression_cg (hJ : CongrBase N N' J)  :
    J (parseTrueExpression) (parseTrueExpression) := by
  unfold parseTrueExpression; cg

theorem parseFalseExpression_cg (hJ : CongrBase N N' J)  :
    J (parseFalseExpression) (parseFalseExpression) := by
  unfold parseFalseExpression; cg

theorem parseNumericExpression_cg (hJ : CongrBase N N' J)  :
    J (parseNumericExpression) (parseNumericExpression) := by
  unfold parseNumericExpression; cg

theorem parseStringExpression_cg (hJ : CongrBase N N' J)  :
    J (parseStringExpression) (parseStringExpression) := by
  unfold parseStringExpression; cg

theorem itemCommaRound_cg (hJ : CongrBase N N' J) {item item' : P (Option Unit)} (h : J item item') :
    J (itemCommaRound item) (itemCommaRound item') := by
  unfold itemCommaRound; cg

theorem parseArrayLiteralExpression_cg (hJ : CongrBase r.fuel r'.fuel J) (hr : CallRel J r r')  :
    J (parseArrayLiteralExpression r) (parseArrayLiteralExpression r') := by
  unfold parseArrayLiteralExpression; cg

theorem parseObjectLiteralExpression_cg (hJ : CongrBase r.fuel r'.fuel J) (hr : CallRel J r r')  :
    J (parseObjectLiteralExpression r) (parseObjectLiteralExpression r') := by
  unfold parseObjectLiteralExpression; cg

theorem parseObjectProperty_cg (hJ : CongrBase r.fuel r'.fuel J) (hr : CallRel J r r')  :
    J (parseObjectProperty r) (parseObjectProperty r') := by
  unfold parseObjectProperty; cg

theorem parseArrayItem_cg (hJ : CongrBase r.fuel r'.fuel J) (hr : CallRel J r r')  :
    J (parseArrayItem r) (parseArrayItem r') := by
  unfold parseArrayItem; cg

theorem parseRegularExpressionLiteralExpression_cg (hJ : CongrBase N N' J)  :
    J (parseRegularExpressionLiteralExpression) (parseRegularExpressionLiteralExpression) := by
  unfold parseRegularExpressionLiteralExpression; cg

theorem templateRound_cg (hJ : CongrBase r.fuel r'.fuel J) (hr : CallRel J r r')  :
    J (templateRound r) (templateRound r') := by
  unfold templateRound; cg

theorem parseTemplateLiteralExpression_cg (hJ : CongrBase r.fuel r'.fuel J) (hr : CallRel J r r')
    (ht : ∀ {m m' : P Unit}, J m m' → J (P.withFlag .template true m) (P.withFlag .template true m')) :
    J (parseTemplateLiteralExpression r) (parseTemplateLiteralExpression r') := by
  have h := ht (loop_cg hJ (st := ()) fun _ => templateRound_cg hJ hr)
  unfold parseTemplateLiteralExpression; cg

theorem coverRound_cg (hJ : CongrBase r.fuel r'.fuel J) (hr : CallRel J r r')  :
    J (coverRound r) (coverRound r') := by
  unfold coverRound; cg

theorem parseCoverParenthesizedExpression_cg (hJ : CongrBase r.fuel r'.fuel J) (hr : CallRel J r r')  :
    J (parseCoverParenthesizedExpression r) (parseCoverParenthesizedExpression r') := by
  unfold parseCoverParenthesizedExpression; cg

set_option maxHeartbeats 800000 in
theorem body_congr_base (hJ : CongrBase r.fuel r'.fuel J) (hr : CallRel J r r')
    (hs : J (parseSwitchStatement r) (parseSwitchStatement r'))
    (ht : J (parseTemplateLiteralExpression r) (parseTemplateLiteralExpression r')) (f : Fn) :
    J (body r f) (body r' f) := by
  cases f <;> unfold body <;> cg

theorem body_congr_but (hJ : Congr r.fuel r'.fuel J) (hr : CallRel J r r')
    (hs : J (parseSwitchStatement r) (parseSwitchStatement r')) (f : Fn) :
    J (body r f) (body r' f) :=
  body_congr_base hJ.base hr hs (parseTemplateLiteralExpression_cg hJ.base hr (hJ.withFlag _ _)) f

theorem body_congr (hJ : Congr r.fuel r'.fuel J)
    (hf : J (P.fail .duplicateDefault : P (Bool ⊕ Unit)) (P.fail .duplicateDefault))
    (hr : CallRel J r r') (f : Fn) : J (body r f) (body r' f) :=
  body_congr_but hJ hr (parseSwitchStatement_cg hJ.base hr hf) f

end

/-- A relation for all methods, from its preservation. -/
theorem run_congr {J : ∀ {α : Type}, P α → P α → Prop} {k : Nat} (hJ : ∀ n, Congr n (n + k) J)
    (hf : J (P.fail .duplicateDefault : P (Bool ⊕ Unit)) (P.fail .duplicateDefault))
    (h0 : ∀ f, J (run 0 f) (run k f)) (n : Nat) (f : Fn) : J (run n f) (run (n + k) f) := by
  induction n generalizing f with
  | zero => rw [Nat.zero_add]; exact h0 f
  | succ n ih =>
    have : n + 1 + k = (n + k) + 1 := by omega
    rw [this]
    exact body_congr (r := ⟨n, run n⟩) (r' := ⟨n + k, run (n + k)⟩) (hJ n) hf ⟨ih⟩ f

end Jsparse
