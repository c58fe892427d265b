import Verif.Model.Parser
/-!
# The recursive-descent parser

Models src/parser/{file,functions,statements,declarations,classes,module,expressions}.rs, one
definition per Rust method.  The methods are mutually recursive.  The recursion is tied through
`Rec`: a method that calls `self.parse_x()?` runs `r.call .x`, and `run` at the end of the file
closes the knot with a bound on the depth.  `r.fuel` bounds the number of rounds of each loop.
Both bounds are shown to be irrelevant (`Verif/Props`): `parseRoot` never runs out of them.
-/

namespace Jsparse

/-- Models `MethodKind`, classes.rs:179-184. -/
inductive MethodKind where
  | get | set | none
  deriving DecidableEq, Repr

/-- Models `MethodHead`, classes.rs:186-192 (`is_ident` is always `false` and never read). -/
structure MethodHead where
  kind : MethodKind
  generator : Bool
  async : Bool
  deriving DecidableEq, Repr

/-- The names of the methods `parse_…` and `reify_…` returning `OptResult<()>`, with their
arguments. -/
inductive Fn where
  -- file.rs
  | scriptItem | moduleItem
  -- functions.rs
  | functionDeclaration | functionExpression | functionParams | functionBody
  -- statements.rs
  | statement | statementListItem | blockStatement | variableStatement | varDeclarator
  | bindingPattern | objectBindingPattern | bindingProperty | propertyName | literalPropertyName
  | computedPropertyName | arrayBindingPattern | bindingRestElement | bindingElement | initializer
  | emptyStatement | expressionStatement | ifStatement | breakableStatement | iterationStatement
  | doWhileStatement | whileStatement | forStatement | switchStatement | defaultClause
  | caseClause | continueStatement | breakStatement | returnStatement | withStatement
  | labelledStatement | throwStatement | tryStatement | debuggerStatement
  -- declarations.rs
  | declaration | letDeclaration | constDeclaration
  | lexicalDeclarator (initializerRequired : Bool)
  -- classes.rs
  | classDeclaration | classExpression | classHeritage | classBody | classItem
  | methodTail (head : MethodHead)
  -- module.rs
  | importDeclaration | importSpecifier | exportDeclaration | exportSpecifier
  -- expressions.rs
  | leftHandSideExpression | expression | assignmentExpression | reifyArrow | reifyAssignment
  | yieldExpression | conditionalExpression | logicalOrExpression | fancy (precedence : Nat)
  | exponentialExpression | unaryExpression | deleteExpression | voidExpression
  | typeofExpression | plusExpression | minusExpression | tildeExpression | exclamExpression
  | awaitExpression | updateExpression | leftHandExpression (allowCall : Bool) | callArguments
  | metaPropertyExpression | superExpression | primaryExpression | thisExpression
  | identifierReferenceExpression | nullExpression | trueExpression | falseExpression
  | numericExpression | stringExpression | arrayLiteralExpression | objectLiteralExpression
  | objectProperty | arrayItem | regularExpressionLiteralExpression | templateLiteralExpression
  | coverParenthesizedExpression
  deriving DecidableEq, Repr

/-- How a method body calls the other methods. -/
structure Rec where
  fuel : Nat
  call : Fn → P (Option Unit)

open P

/-- `Ok(TokenResult::Some(()))` -/
abbrev found : P (Option Unit) := return some ()

/-- `Ok(TokenResult::None)` -/
abbrev absent : P (Option Unit) := return none

/-! ## file.rs -/

/-- Models `parse_script_item`, file.rs:24-31. -/
def parseScriptItem (r : Rec) : P (Option Unit) := do
  expectExpression
  orTry (r.call .declaration) (r.call .statement)

/-- Models `parse_module_item`, file.rs:33-41. -/
def parseModuleItem (r : Rec) : P (Option Unit) := do
  expectExpression
  orTry (r.call .scriptItem) (orTry (r.call .importDeclaration) (r.call .exportDeclaration))

/-- Models `parse_script`, file.rs:9-15. -/
def parseScript (r : Rec) : P Unit := do
  whileSome r.fuel (r.call .scriptItem)
  let _ ← eat eof
  return ()

/-- Models `parse_module`, file.rs:16-22. -/
def parseModule (r : Rec) : P Unit := do
  whileSome r.fuel (r.call .moduleItem)
  let _ ← eat eof
  return ()

/-! ## functions.rs -/

/-- The test `if let Some(&LookaheadResult { line: false, token: IdentifierName { name } }) =
self.ident_lookahead() { name == "function" } else { false }`, functions.rs:11-18 and 60-67. -/
def isAsyncFunction : Option (Bool × Token) → Bool
  | some (false, .ident name) => name == b!"function"
  | _ => false

/-- The parameter list and body with the flags of the three kinds of functions,
functions.rs:37-54 and (the same text) 82-99. -/
def functionRest (r : Rec) (async star : Bool) : P (Option Unit) := do
  if async then
    withFlag .yield false do
      eat (r.call .functionParams)
      eat (withFlag .await true (r.call .functionBody))
      found
  else if star then
    withFlag .await false (withFlag .yield true do
      eat (r.call .functionParams)
      eat (r.call .functionBody)
      found)
  else
    withFlag .await false (withFlag .yield false do
      eat (r.call .functionParams)
      eat (r.call .functionBody)
      found)

/-- The keyword part, functions.rs:20-29 and 69-78: `none` for the early return of `try_value!`,
otherwise whether there was a star. -/
def functionKeyword (maybeAsync : Bool) : P (Option Bool) := do
  if maybeAsync then
    let some _ ← keyword b!"async" | return none
    let _ ← eat (keyword b!"function")
    return some false
  else
    let some _ ← keyword b!"function" | return none
    let star ← punc .star
    return some star.isSome

/-- Models `parse_function_declaration`, functions.rs:10-57. -/
def parseFunctionDeclaration (r : Rec) : P (Option Unit) := do
  let ahead ← identLookahead
  let maybeAsync := isAsyncFunction ahead
  let some star ← functionKeyword maybeAsync | return none
  let flags ← getFlags
  let _ ← if flags.allowDefault then bindingIdentifier else some <$> eat bindingIdentifier
  functionRest r maybeAsync star

/-- Models `parse_function_expression`, functions.rs:59-102. -/
def parseFunctionExpression (r : Rec) : P (Option Unit) := do
  let ahead ← identLookahead
  let maybeAsync := isAsyncFunction ahead
  let some star ← functionKeyword maybeAsync | return none
  let _ ← bindingIdentifier
  functionRest r maybeAsync star

/-- One round of the loop of `parse_function_params`, functions.rs:108-122; `inr` is `break`. -/
def functionParamsRound (r : Rec) : P (Unit ⊕ Unit) := do
  match ← r.call .bindingRestElement with
  | some _ => return .inr ()
  | none =>
    let more ← (do
      match ← r.call .bindingPattern with
      | some _ => do
        let _ ← r.call .initializer
        return true
      | none =>
        match ← bindingIdentifier with
        | some _ => do
          let _ ← r.call .initializer
          return true
        | none => return false : P Bool)
    if more then
      match ← punc .comma with
      | none => return .inr ()
      | some _ => return .inl ()
    else return .inr ()

/-- Models `parse_function_params`, functions.rs:104-128. -/
def parseFunctionParams (r : Rec) : P (Option Unit) := do
  let some _ ← punc .parenOpen | return none
  loop r.fuel (fun _ => functionParamsRound r) ()
  let _ ← eat (punc .parenClose)
  found

/-- Models `parse_function_body`, functions.rs:129-131. -/
def parseFunctionBody (r : Rec) : P (Option Unit) := r.call .blockStatement

/-! ## statements.rs -/

/-- Models `StatementType`, statements.rs:40-57. -/
inductive StatementType where
  | block | empty | var | if | switch | while | do | for | continue | break | return | with
  | throw | try | debugger | unknown
  deriving DecidableEq, Repr

/-- The classification in `parse_statement`, statements.rs:67-89. -/
def statementType : Token → StatementType
  | .punct .curlyOpen => .block
  | .punct .semicolon => .empty
  | .ident name =>
    if name = b!"var" then .var
    else if name = b!"if" then .if
    else if name = b!"switch" then .switch
    else if name = b!"while" then .while
    else if name = b!"do" then .do
    else if name = b!"for" then .for
    else if name = b!"continue" then .continue
    else if name = b!"break" then .break
    else if name = b!"return" then .return
    else if name = b!"with" then .with
    else if name = b!"throw" then .throw
    else if name = b!"try" then .try
    else if name = b!"debugger" then .debugger
    else .unknown
  | _ => .unknown

/-- `eat_value!(self.parse_x()?)` as the last step before `Ok(TokenResult::Some(()))`. -/
def must (m : P (Option Unit)) : P (Option Unit) := do
  eat m
  found

/-- Models `parse_statement`, statements.rs:64-118. -/
def parseStatement (r : Rec) : P (Option Unit) := do
  expectExpression
  let t ← token
  match statementType t with
  | .block => must (r.call .blockStatement)
  | .empty => must (r.call .emptyStatement)
  | .var => must (r.call .variableStatement)
  | .if => must (r.call .ifStatement)
  | .switch => must (r.call .breakableStatement)
  | .while => must (r.call .breakableStatement)
  | .do => must (r.call .breakableStatement)
  | .for => must (r.call .breakableStatement)
  | .continue => must (r.call .continueStatement)
  | .break => must (r.call .breakStatement)
  | .return => must (r.call .returnStatement)
  | .with => must (r.call .withStatement)
  | .throw => must (r.call .throwStatement)
  | .try => must (r.call .tryStatement)
  | .debugger => must (r.call .debuggerStatement)
  | .unknown => orTry (r.call .labelledStatement) (r.call .expressionStatement)

/-- Models `parse_statement_list_item`, statements.rs:120-125. -/
def parseStatementListItem (r : Rec) : P (Option Unit) :=
  orTry (r.call .declaration) (r.call .statement)

/-- Models `parse_block_statement`, statements.rs:127-139. -/
def parseBlockStatement (r : Rec) : P (Option Unit) :=
  withFlag .template false do
    let some _ ← punc .curlyOpen | return none
    whileSome r.fuel (r.call .statementListItem)
    let _ ← eat (punc .curlyClose)
    found

/-- One round of `while let Some(_) = self.punc(Comma) { eat_value!(item) }`. -/
def commaRound (item : P (Option Unit)) : P (Unit ⊕ Unit) := do
  match ← punc .comma with
  | some _ => do
    eat item
    return .inl ()
  | none => return .inr ()

/-- Models `parse_variable_statement`, statements.rs:141-153. -/
def parseVariableStatement (r : Rec) : P (Option Unit) := do
  let some _ ← keyword b!"var" | return none
  eat (withFlag .fin true (r.call .varDeclarator))
  loop r.fuel (fun _ => commaRound (withFlag .fin true (r.call .varDeclarator))) ()
  eat (semicolonInner false)
  found

/-- Models `parse_var_declarator`, statements.rs:155-163. -/
def parseVarDeclarator (r : Rec) : P (Option Unit) := do
  match ← r.call .bindingPattern with
  | some _ => do
    eat (r.call .initializer)
    found
  | none => do
    let _ ← eat bindingIdentifier
    let _ ← r.call .initializer
    found

/-- Models `parse_binding_pattern`, statements.rs:165-170. -/
def parseBindingPattern (r : Rec) : P (Option Unit) :=
  orTry (r.call .objectBindingPattern) (r.call .arrayBindingPattern)

/-- One round of the loop of `parse_object_binding_pattern`, statements.rs:178-184. -/
def objectBindingRound (r : Rec) : P (Unit ⊕ Unit) := do
  match ← r.call .bindingProperty with
  | some _ =>
    match ← punc .comma with
    | none => return .inr ()
    | some _ => return .inl ()
  | none => return .inr ()

/-- Models `parse_object_binding_pattern`, statements.rs:172-191. -/
def parseObjectBindingPattern (r : Rec) : P (Option Unit) :=
  withFlag .template false do
    let some _ ← punc .curlyOpen | return none
    loop r.fuel (fun _ => objectBindingRound r) ()
    let _ ← eat (punc .curlyClose)
    found

/-- Models `parse_binding_property`, statements.rs:197-207. -/
def parseBindingProperty (r : Rec) : P (Option Unit) := do
  let some _ ← r.call .propertyName | return none
  match ← punc .colon with
  | some _ => do
    eat (r.call .bindingElement)
    found
  | none => do
    let _ ← withFlag .fin true (r.call .initializer)
    found

/-- Models `parse_property_name`, statements.rs:209-214. -/
def parsePropertyName (r : Rec) : P (Option Unit) :=
  orTry (r.call .literalPropertyName) (r.call .computedPropertyName)

/-- Models `parse_literal_property_name`, statements.rs:216-225. -/
def parseLiteralPropertyName : P (Option Unit) := do
  match ← identifier with
  | some _ => found
  | none =>
    match ← string with
    | some _ => found
    | none =>
      match ← numeric with
      | some _ => found
      | none => absent

/-- Models `parse_computed_property_name`, statements.rs:227-236. -/
def parseComputedPropertyName (r : Rec) : P (Option Unit) := do
  let some _ ← punc .squareOpen | return none
  expectExpression
  let _ ← withFlag .fin true (r.call .assignmentExpression)
  let _ ← eat (punc .squareClose)
  found

/-- One round of the loop of `parse_array_binding_pattern`, statements.rs:242-252. -/
def arrayBindingRound (r : Rec) : P (Unit ⊕ Unit) := do
  match ← r.call .bindingRestElement with
  | some _ => return .inr ()
  | none => do
    let _ ← r.call .bindingElement
    match ← punc .comma with
    | none => return .inr ()
    | some _ => return .inl ()

/-- Models `parse_array_binding_pattern`, statements.rs:238-258. -/
def parseArrayBindingPattern (r : Rec) : P (Option Unit) := do
  let some _ ← punc .squareOpen | return none
  loop r.fuel (fun _ => arrayBindingRound r) ()
  let _ ← eat (punc .squareClose)
  found

/-- `if let TokenResult::None = self.parse_binding_pattern()? {
eat_value!(self.binding_identifier()); }`, statements.rs:263-265, 690-692, classes.rs:145-147, and
in the form `if let Some … else` expressions.rs:726-729 and 736-739. -/
def patternOrIdentifier (r : Rec) : P Unit := do
  match ← r.call .bindingPattern with
  | some _ => return ()
  | none => do
    let _ ← eat bindingIdentifier
    return ()

/-- Models `parse_binding_rest_element`, statements.rs:260-268. -/
def parseBindingRestElement (r : Rec) : P (Option Unit) := do
  let some _ ← punc .ellipsis | return none
  patternOrIdentifier r
  found

/-- Models `parse_binding_element`, statements.rs:269-276. -/
def parseBindingElement (r : Rec) : P (Option Unit) := do
  match ← r.call .bindingPattern with
  | some _ => do
    let _ ← withFlag .fin true (r.call .initializer)
    found
  | none => do
    let some _ ← bindingIdentifier | return none
    let _ ← withFlag .fin true (r.call .initializer)
    found

/-- Models `parse_initializer`, statements.rs:278-285. -/
def parseInitializer (r : Rec) : P (Option Unit) := do
  let some _ ← punc .eq | return none
  expectExpression
  must (r.call .assignmentExpression)

/-- Models `parse_empty_statement`, statements.rs:287-291. -/
def parseEmptyStatement : P (Option Unit) := do
  let some _ ← punc .semicolon | return none
  found

/-- Models `parse_expression_statement`, statements.rs:293-299. -/
def parseExpressionStatement (r : Rec) : P (Option Unit) := do
  let some _ ← withFlag .fin true (r.call .expression) | return none
  eat (semicolonInner false)
  found

/-- `eat_value!(self.punc(ParenOpen)); self.expect_expression();
eat_value!(self.with(Flag::In).parse_expression()?); eat_value!(self.punc(ParenClose));`,
statements.rs:304-309, 342-345, 355-358, 547-550, 640-643. -/
def parenExpression (r : Rec) : P Unit := do
  let _ ← eat (punc .parenOpen)
  expectExpression
  eat (withFlag .fin true (r.call .expression))
  let _ ← eat (punc .parenClose)
  return ()

/-- Models `parse_if_statement`, statements.rs:301-318. -/
def parseIfStatement (r : Rec) : P (Option Unit) := do
  let some _ ← keyword b!"if" | return none
  parenExpression r
  eat (r.call .statement)
  match ← keyword b!"else" with
  | some _ => must (r.call .statement)
  | none => found

/-- Models `parse_breakable_statement`, statements.rs:320-325. -/
def parseBreakableStatement (r : Rec) : P (Option Unit) :=
  orTry (r.call .iterationStatement) (r.call .switchStatement)

/-- Models `parse_iteration_statement`, statements.rs:327-333. -/
def parseIterationStatement (r : Rec) : P (Option Unit) :=
  orTry (r.call .doWhileStatement) (orTry (r.call .whileStatement) (r.call .forStatement))

/-- Models `parse_do_while_statement`, statements.rs:335-350. -/
def parseDoWhileStatement (r : Rec) : P (Option Unit) := do
  let some _ ← keyword b!"do" | return none
  eat (r.call .statement)
  let _ ← eat (keyword b!"while")
  parenExpression r
  eat (semicolonInner true)
  found

/-- Models `parse_while_statement`, statements.rs:352-363. -/
def parseWhileStatement (r : Rec) : P (Option Unit) := do
  let some _ ← keyword b!"while" | return none
  parenExpression r
  must (r.call .statement)

/-- The kinds of `for` heads, the first component of the tuple at statements.rs:372. -/
inductive ForKind where
  | var | const | let | expression
  deriving DecidableEq, Repr

/-- The tuple `(kind, pattern, initialized, multiple, _, left_hand)` of statements.rs:372;
`left_hand` is always `true` for `expression` and unused otherwise. -/
structure ForHead where
  kind : ForKind
  pattern : Bool
  initialized : Bool
  multiple : Bool
  deriving DecidableEq, Repr

/-- The comma loop in a `for` head, statements.rs:390-393, 415-418, 454-457; the loop variable is
`multiple`. -/
def forDeclRound (item : P (Option Unit)) (multiple : Bool) : P (Bool ⊕ Bool) := do
  match ← punc .comma with
  | some _ => do
    eat (withFlag .fin false item)
    return .inl true
  | none => return .inr multiple

/-- The declarations in a `for` head after the keyword, statements.rs:373-396 (`var`), 398-421
(`const`), 437-460 (`let`): the three are the same text up to the kind and the declarator used
after a comma. -/
def forDeclHead (r : Rec) (kind : ForKind) (item : P (Option Unit)) : P ForHead := do
  let pattern ← (do
    match ← r.call .bindingPattern with
    | some _ => return true
    | none => do
      let _ ← eat bindingIdentifier
      return false : P Bool)
  let init ← withFlag .fin false (r.call .initializer)
  let initialized := init.isSome
  let multiple ←
    if !pattern || initialized then loop r.fuel (forDeclRound item) false else pure false
  return { kind, pattern, initialized, multiple }

/-- `maybe_decl`, statements.rs:423-432. -/
def forMaybeDecl : Option (Bool × Token) → Bool
  | some (_, token) =>
    match token with
    | .ident name => name != b!"in" && name != b!"of"
    | .punct .squareOpen => true
    | .punct .curlyOpen => true
    | _ => false
  | none => false

/-- The head of a `for`, statements.rs:372-477. -/
def forHead (r : Rec) : P ForHead := do
  match ← keyword b!"var" with
  | some _ => forDeclHead r .var (r.call .varDeclarator)
  | none =>
    match ← keyword b!"const" with
    | some _ => forDeclHead r .const (r.call (.lexicalDeclarator true))
    | none => do
      let ahead ← identLookahead
      let isLet ← if forMaybeDecl ahead then keyword b!"let" else pure none
      match isLet with
      | some _ => forDeclHead r .let (r.call (.lexicalDeclarator true))
      | none => do
        let _ ← withFlag .fin false (r.call .expression)
        return { kind := .expression, pattern := false, initialized := false, multiple := false }

/-- `maybe_for`, statements.rs:479-502. -/
def ForHead.maybeFor (h : ForHead) : Bool :=
  match h.kind with
  | .var | .let => !h.pattern || h.initialized
  | .const => h.initialized
  | .expression => true

/-- `maybe_x`, statements.rs:479-502. -/
def ForHead.maybeX (h : ForHead) : Bool :=
  match h.kind with
  | .var | .let | .const => !h.multiple && !h.initialized
  | .expression => true

/-- `found`, statements.rs:504-519. -/
def forClassic (r : Rec) (maybeFor : Bool) : P Bool := do
  if maybeFor then
    match ← punc .semicolon with
    | some _ => do
      expectExpression
      let _ ← r.call .expression
      let _ ← eat (punc .semicolon)
      expectExpression
      let _ ← r.call .expression
      return true
    | none => return false
  else return false

/-- The `in`/`of` part, statements.rs:521-535. -/
def forInOf (r : Rec) (maybeX : Bool) : P Unit := do
  if maybeX then
    match ← keyword b!"in" with
    | some _ => do
      expectExpression
      eat (withFlag .fin true (r.call .assignmentExpression))
    | none =>
      match ← keyword b!"of" with
      | some _ => do
        expectExpression
        eat (withFlag .fin true (r.call .assignmentExpression))
      | none => fail .invalidFor
  else fail .badFor

/-- Models `parse_for_statement`, statements.rs:365-542. -/
def parseForStatement (r : Rec) : P (Option Unit) := do
  let some _ ← keyword b!"for" | return none
  let _ ← eat (punc .parenOpen)
  expectExpression
  let h ← forHead r
  let isFound ← forClassic r h.maybeFor
  let _ ← if isFound then pure () else forInOf r h.maybeX
  let _ ← eat (punc .parenClose)
  must (r.call .statement)

/-- One round of the loop of `parse_switch_statement`, statements.rs:559-568; the loop variable is
`has_default`. -/
def switchRound (r : Rec) (hasDefault : Bool) : P (Bool ⊕ Unit) := do
  match ← r.call .defaultClause with
  | some _ => if hasDefault then fail .duplicateDefault else return .inl true
  | none =>
    match ← r.call .caseClause with
    | some _ => return .inl hasDefault
    | none => return .inr ()

/-- Models `parse_switch_statement`, statements.rs:544-574. -/
def parseSwitchStatement (r : Rec) : P (Option Unit) := do
  let some _ ← keyword b!"switch" | return none
  parenExpression r
  withFlag .template false do
    let _ ← eat (punc .curlyOpen)
    loop r.fuel (switchRound r) false
    let _ ← eat (punc .curlyClose)
    found

/-- Models `parse_default_clause`, statements.rs:575-585. -/
def parseDefaultClause (r : Rec) : P (Option Unit) := do
  let some _ ← keyword b!"default" | return none
  let _ ← eat (punc .colon)
  whileSome r.fuel (r.call .statementListItem)
  found

/-- Models `parse_case_clause`, statements.rs:587-599. -/
def parseCaseClause (r : Rec) : P (Option Unit) := do
  let some _ ← keyword b!"case" | return none
  expectExpression
  eat (withFlag .fin true (r.call .expression))
  let _ ← eat (punc .colon)
  whileSome r.fuel (r.call .statementListItem)
  found

/-- `if self.no_line_terminator() { opt_value!(self.label_identifier()); }
eat_value!(self.semicolon());`, statements.rs:605-609 and 616-620. -/
def labelAndSemicolon : P (Option Unit) := do
  let b ← noLineTerminator
  let _ ← if b then bindingIdentifier else pure none
  eat (semicolonInner false)
  found

/-- Models `parse_continue_statement`, statements.rs:602-612. -/
def parseContinueStatement : P (Option Unit) := do
  let some _ ← keyword b!"continue" | return none
  labelAndSemicolon

/-- Models `parse_break_statement`, statements.rs:613-622. -/
def parseBreakStatement : P (Option Unit) := do
  let some _ ← keyword b!"break" | return none
  labelAndSemicolon

/-- Models `parse_return_statement`, statements.rs:624-635. -/
def parseReturnStatement (r : Rec) : P (Option Unit) := do
  let some _ ← keyword b!"return" | return none
  let b ← noLineTerminator
  let _ ← if b then (do expectExpression; withFlag .fin true (r.call .expression)) else pure none
  eat (semicolonInner false)
  found

/-- Models `parse_with_statement`, statements.rs:637-648. -/
def parseWithStatement (r : Rec) : P (Option Unit) := do
  let some _ ← keyword b!"with" | return none
  parenExpression r
  must (r.call .statement)

/-- `is_label`, statements.rs:651-658. -/
def isLabel : Option (Bool × Token) → Bool
  | some (_, token) => token == .punct .colon
  | none => false

/-- Models `parse_labelled_statement`, statements.rs:650-669. -/
def parseLabelledStatement (r : Rec) : P (Option Unit) := do
  let ahead ← identLookahead
  if isLabel ahead then
    let _ ← eat identifier
    let _ ← eat (punc .colon)
    must (r.call .statement)
  else absent

/-- Models `parse_throw_statement`, statements.rs:671-680. -/
def parseThrowStatement (r : Rec) : P (Option Unit) := do
  let some _ ← keyword b!"throw" | return none
  let b ← noLineTerminator
  if b then
    expectExpression
    eat (withFlag .fin true (r.call .expression))
    found
  else found

/-- Models `parse_try_statement`, statements.rs:682-704. -/
def parseTryStatement (r : Rec) : P (Option Unit) := do
  let some _ ← keyword b!"try" | return none
  eat (r.call .blockStatement)
  let _ ← (do
    match ← keyword b!"catch" with
    | some _ => do
      let _ ← eat (punc .parenOpen)
      patternOrIdentifier r
      let _ ← eat (punc .parenClose)
      eat (r.call .blockStatement)
    | none => return () : P Unit)
  match ← keyword b!"finally" with
  | some _ => must (r.call .blockStatement)
  | none => found

/-- Models `parse_debugger_statement`, statements.rs:706-711. -/
def parseDebuggerStatement : P (Option Unit) := do
  let some _ ← keyword b!"debugger" | return none
  eat (semicolonInner false)
  found

/-! ## declarations.rs -/

/-- Models `DeclType`, declarations.rs:13-18. -/
inductive DeclType where
  | class | function | let | const
  deriving DecidableEq, Repr

/-- The classification in `parse_declaration`, declarations.rs:20-32. -/
def declType : Token → Option DeclType
  | .ident name =>
    if name = b!"class" then some .class
    else if name = b!"function" then some .function
    else if name = b!"let" then some .let
    else if name = b!"const" then some .const
    else none
  | _ => none

/-- Models `parse_declaration`, declarations.rs:9-42. -/
def parseDeclaration (r : Rec) : P (Option Unit) := do
  expectExpression
  let t ← token
  match declType t with
  | some .class => must (r.call .classDeclaration)
  | some .function => must (r.call .functionDeclaration)
  | some .let => must (r.call .letDeclaration)
  | some .const => must (r.call .constDeclaration)
  | none => absent

/-- Models `parse_let_declaration`, declarations.rs:44-55. -/
def parseLetDeclaration (r : Rec) : P (Option Unit) := do
  let some _ ← keyword b!"let" | return none
  eat (r.call (.lexicalDeclarator false))
  loop r.fuel (fun _ => commaRound (r.call (.lexicalDeclarator false))) ()
  eat (semicolonInner false)
  found

/-- Models `parse_const_declaration`, declarations.rs:57-68. -/
def parseConstDeclaration (r : Rec) : P (Option Unit) := do
  let some _ ← keyword b!"const" | return none
  eat (r.call (.lexicalDeclarator true))
  loop r.fuel (fun _ => commaRound (r.call (.lexicalDeclarator true))) ()
  eat (semicolonInner false)
  found

/-- Models `parse_lexical_declarator`, declarations.rs:70-83. -/
def parseLexicalDeclarator (r : Rec) (initializerRequired : Bool) : P (Option Unit) := do
  match ← r.call .bindingPattern with
  | some _ => must (r.call .initializer)
  | none => do
    let _ ← eat bindingIdentifier
    if initializerRequired then must (r.call .initializer)
    else do
      let _ ← r.call .initializer
      found

/-! ## classes.rs -/

/-- Models `parse_class_declaration`, classes.rs:9-23. -/
def parseClassDeclaration (r : Rec) : P (Option Unit) := do
  let some _ ← keyword b!"class" | return none
  let flags ← getFlags
  let _ ← if flags.allowDefault then bindingIdentifier else some <$> eat bindingIdentifier
  let _ ← r.call .classHeritage
  must (r.call .classBody)

/-- Models `parse_class_expression`, classes.rs:24-28. -/
def parseClassExpression : P (Option Unit) := do
  let some _ ← keyword b!"class" | return none
  found

/-- Models `parse_class_heritage`, classes.rs:30-37. -/
def parseClassHeritage (r : Rec) : P (Option Unit) := do
  let some _ ← keyword b!"extends" | return none
  expectExpression
  must (r.call .leftHandSideExpression)

/-- Models `parse_class_body`, classes.rs:39-49. -/
def parseClassBody (r : Rec) : P (Option Unit) :=
  withFlag .template false do
    let _ ← eat (punc .curlyOpen)
    whileSome r.fuel (r.call .classItem)
    let _ ← eat (punc .curlyClose)
    found

/-- The match on `(stat, kind, star)` when there is no property name, classes.rs:108-120: the new
`kind`, or `none` for `return Ok(TokenResult::None)`.  (Clearing `stat` has no effect.) -/
def methodHeadNoName (stat : Bool) (kind : MethodKind) (star : Bool) : P (Option MethodKind) :=
  if star then fail .expectedMethodName
  else
    match kind with
    | .get => return (some .none)
    | .set => return (some .none)
    | .none => if stat then return (some .none) else return none

/-- Models `parse_method_head`, classes.rs:63-132. -/
def parseMethodHead (r : Rec) (allowStatic : Bool) : P (Option MethodHead) := do
  let stat ← if allowStatic then keyword b!"static" else pure none
  let kind ← (do
    match ← keyword b!"get" with
    | some _ => return .get
    | none =>
      match ← keyword b!"set" with
      | some _ => return .set
      | none => return .none : P MethodKind)
  let async ← (match kind with
    | .none => do
      match ← keyword b!"async" with
      | some _ => return true
      | none => return false
    | _ => return false : P Bool)
  let star ← if async then pure none else punc .star
  let noLine ← if async then noLineTerminator else pure false
  if async && noLine then
    let _ ← r.call .propertyName
    return some { kind, generator := star.isSome, async }
  else if async then
    return some { kind, generator := star.isSome, async }
  else
    match ← r.call .propertyName with
    | some _ => return some { kind, generator := star.isSome, async }
    | none =>
      match ← methodHeadNoName stat.isSome kind star.isSome with
      | some kind' => return some { kind := kind', generator := star.isSome, async }
      | none => return none

/-- Models `parse_class_item`, classes.rs:51-61. -/
def parseClassItem (r : Rec) : P (Option Unit) := do
  match ← punc .semicolon with
  | some _ => found
  | none => do
    let some head ← parseMethodHead r true | return none
    must (r.call (.methodTail head))

/-- The ordinary methods of `parse_method_tail`, classes.rs:153-172. -/
def methodRest (r : Rec) (head : MethodHead) : P (Option Unit) := do
  if head.async then
    withFlag .yield false do
      let some _ ← r.call .functionParams | return none
      eat (withFlag .await true (r.call .functionBody))
      found
  else if head.generator then
    withFlag .await false (withFlag .yield true do
      let some _ ← r.call .functionParams | return none
      eat (r.call .functionBody)
      found)
  else
    withFlag .await false (withFlag .yield false do
      let some _ ← r.call .functionParams | return none
      eat (r.call .functionBody)
      found)

/-- Models `parse_method_tail`, classes.rs:134-176. -/
def parseMethodTail (r : Rec) (head : MethodHead) : P (Option Unit) := do
  match head.kind with
  | .get => do
    let some _ ← punc .parenOpen | return none
    let _ ← eat (punc .parenClose)
    must (r.call .functionBody)
  | .set => do
    let some _ ← punc .parenOpen | return none
    patternOrIdentifier r
    let _ ← eat (punc .parenClose)
    must (r.call .functionBody)
  | .none => methodRest r head

/-! ## module.rs -/

/-- One round of `while let Some(_) = item? { if let None = self.punc(Comma) { break; } }`,
module.rs:28-32 and 87-91. -/
def specifierRound (item : P (Option Unit)) : P (Unit ⊕ Unit) := do
  match ← item with
  | some _ =>
    match ← punc .comma with
    | none => return .inr ()
    | some _ => return .inl ()
  | none => return .inr ()

/-- The `from` clause and what precedes it, module.rs:15-39. -/
def importClause (r : Rec) : P Unit := do
  let tryNames ← (do
    match ← bindingIdentifier with
    | some _ => do
      let c ← punc .comma
      return c.isSome
    | none => return true : P Bool)
  let _ ← if tryNames then (do
      match ← punc .star with
      | some _ => do
        let _ ← eat (keyword b!"as")
        let _ ← eat bindingIdentifier
        return ()
      | none => do
        let _ ← eat (punc .curlyOpen)
        loop r.fuel (fun _ => specifierRound (r.call .importSpecifier)) ()
        let _ ← eat (punc .curlyClose)
        return ())
    else pure ()
  let _ ← eat (keyword b!"from")
  let _ ← eat string
  return ()

/-- Models `parse_import_declaration`, module.rs:9-45. -/
def parseImportDeclaration (r : Rec) : P (Option Unit) := do
  let some _ ← keyword b!"import" | return none
  let _ ← (do
    match ← string with
    | some _ => return ()
    | none => importClause r : P Unit)
  eat (semicolonInner false)
  found

/-- Models `parse_import_specifier`, module.rs:47-58. -/
def parseImportSpecifier : P (Option Unit) := do
  let some _ ← identifier | return none
  match ← keyword b!"as" with
  | some _ => do
    let _ ← eat identifier
    found
  | none => found

/-- `export default …`, module.rs:63-73. -/
def exportDefault (r : Rec) : P Unit :=
  withFlag .default true do
    match ← r.call .functionDeclaration with
    | some _ => return ()
    | none =>
      match ← r.call .classDeclaration with
      | some _ => return ()
      | none => do
        eat (withFlag .fin true (r.call .expression))
        eat (semicolonInner false)

/-- `export { … }` with an optional `from`, module.rs:85-99. -/
def exportSpecifiers (r : Rec) : P Unit := do
  let _ ← eat (punc .curlyOpen)
  loop r.fuel (fun _ => specifierRound (r.call .exportSpecifier)) ()
  let _ ← eat (punc .curlyClose)
  match ← keyword b!"from" with
  | some _ => do
    let _ ← eat string
    return ()
  | none => return ()

/-- The other export declarations, module.rs:75-100. -/
def exportNamed (r : Rec) : P Unit := do
  match ← r.call .variableStatement with
  | some _ => return ()
  | none =>
    match ← r.call .letDeclaration with
    | some _ => return ()
    | none =>
      match ← r.call .constDeclaration with
      | some _ => return ()
      | none =>
        match ← punc .star with
        | some _ => do
          let _ ← eat (keyword b!"from")
          let _ ← eat string
          return ()
        | none => exportSpecifiers r

/-- Models `parse_export_declaration`, module.rs:60-106. -/
def parseExportDeclaration (r : Rec) : P (Option Unit) := do
  let some _ ← keyword b!"export" | return none
  match ← keyword b!"default" with
  | some _ => do
    exportDefault r
    found
  | none => do
    exportNamed r
    eat (semicolonInner false)
    found

/-- Models `parse_export_specifier`, module.rs:108-116. -/
def parseExportSpecifier : P (Option Unit) := do
  let some _ ← identifier | return none
  match ← keyword b!"as" with
  | some _ => do
    let _ ← eat identifier
    found
  | none => found

/-! ## expressions.rs -/

/-- Models `parse_left_hand_side_expression`, expressions.rs:9-11. -/
def parseLeftHandSideExpression (r : Rec) : P (Option Unit) := r.call (.leftHandExpression true)

/-- One round of the comma loop of `parse_expression`, expressions.rs:17-20. -/
def expressionRound (r : Rec) : P (Unit ⊕ Unit) := do
  match ← punc .comma with
  | some _ => do
    expectExpression
    eat (r.call .assignmentExpression)
    return .inl ()
  | none => return .inr ()

/-- Models `parse_expression`, expressions.rs:13-23. -/
def parseExpression (r : Rec) : P (Option Unit) := do
  let some _ ← r.call .assignmentExpression | return none
  expectExpression
  loop r.fuel (fun _ => expressionRound r) ()
  found

/-- `maybe_async_arrow`, expressions.rs:31-42. -/
def maybeAsyncArrow (flags : Flags) : Option (Bool × Token) → Bool
  | some (false, .ident name) => isBindingIdentifier flags name
  | _ => false

/-- The punctuators handled after the left-hand side, expressions.rs:83-99: `some true` for the
arrow, `some false` for an assignment operator. -/
def reifyType : Token → Option Bool
  | .punct .arrow => some true
  | .punct .eq => some false
  | .punct .starEq => some false
  | .punct .slashEq => some false
  | .punct .percentEq => some false
  | .punct .plusEq => some false
  | .punct .minusEq => some false
  | .punct .lAngleAngleEq => some false
  | .punct .rAngleAngleEq => some false
  | .punct .rAngleAngleAngleEq => some false
  | .punct .ampEq => some false
  | .punct .caretEq => some false
  | .punct .barEq => some false
  | .punct .starStarEq => some false
  | _ => none

/-- The rest of an async arrow function after `async`, expressions.rs:46-57. -/
def asyncArrowRest (r : Rec) : P (Option Unit) := do
  let ok ← noLineTerminator
  if ok then
    let _ ← eat bindingIdentifier
    let ok ← noLineTerminator
    if ok then
      let _ ← eat (punc .arrow)
      must (r.call .reifyArrow)
    else fail .asyncArrowLine
  else panic .unreachable

/-- The ordinary part of `parse_assignment_expression`, expressions.rs:63-124. -/
def assignmentRest (r : Rec) : P (Option Unit) := do
  let some _ ← r.call .conditionalExpression | return none
  let t ← token
  match reifyType t with
  | some true => do
    let _ ← pop
    must (r.call .reifyArrow)
  | some false => do
    let _ ← pop
    must (r.call .reifyAssignment)
  | none => found

/-- Models `parse_assignment_expression`, expressions.rs:24-125. -/
def parseAssignmentExpression (r : Rec) : P (Option Unit) := do
  match ← r.call .yieldExpression with
  | some _ => found
  | none => do
    let flags ← getFlags
    let ahead ← identLookahead
    let isAsync ← if maybeAsyncArrow flags ahead then keyword b!"async" else pure none
    match isAsync with
    | some _ => asyncArrowRest r
    | none => assignmentRest r

/-- Models `reify_arrow`, expressions.rs:126-133. -/
def reifyArrow (r : Rec) : P (Option Unit) := do
  expectExpression
  orTry (r.call .blockStatement) (r.call .assignmentExpression)

/-- Models `reify_assignment`, expressions.rs:134-142. -/
def reifyAssignment (r : Rec) : P (Option Unit) := do
  expectExpression
  must (r.call .assignmentExpression)

/-- Models `parse_yield_expression`, expressions.rs:144-156. -/
def parseYieldExpression (r : Rec) : P (Option Unit) := do
  let some _ ← keyword b!"yield" | return none
  let b ← noLineTerminator
  if b then
    expectExpression
    let _ ← punc .star
    expectExpression
    let _ ← r.call .expression
    found
  else found

/-- Models `parse_conditional_expression`, expressions.rs:157-169. -/
def parseConditionalExpression (r : Rec) : P (Option Unit) := do
  let some _ ← r.call .logicalOrExpression | return none
  match ← punc .question with
  | some _ => do
    expectExpression
    eat (withFlag .fin true (r.call .assignmentExpression))
    let _ ← eat (punc .colon)
    expectExpression
    must (r.call .assignmentExpression)
  | none => found

/-- Models `parse_logical_or_expression`, expressions.rs:171-173. -/
def parseLogicalOrExpression (r : Rec) : P (Option Unit) := r.call (.fancy 0)

/-- The binary operators and their precedence, expressions.rs:180-212. -/
def newPrecedence (allowIn : Bool) : Token → Option Nat
  | .punct .barBar => some 1
  | .punct .ampAmp => some 2
  | .punct .bar => some 3
  | .punct .caret => some 4
  | .punct .amp => some 5
  | .punct .eqEq => some 6
  | .punct .eqEqEq => some 6
  | .punct .exclamEq => some 6
  | .punct .exclamEqEq => some 6
  | .punct .lAngle => some 7
  | .punct .rAngle => some 7
  | .punct .lAngleEq => some 7
  | .punct .rAngleEq => some 7
  | .punct .lAngleAngle => some 8
  | .punct .rAngleAngle => some 8
  | .punct .rAngleAngleAngle => some 8
  | .punct .plus => some 9
  | .punct .minus => some 9
  | .punct .star => some 10
  | .punct .percent => some 10
  | .punct .slash => some 10
  | .punct .starStar => some 11
  | .ident name =>
    if name = b!"in" ∧ allowIn = true then some 7
    else if name = b!"instanceof" then some 7
    else none
  | _ => none

/-- One round of the loop of `parse_fancy`, expressions.rs:180-228; the loop variable is
`precedence`. -/
def fancyRound (r : Rec) (allowIn : Bool) (precedence : Nat) : P (Nat ⊕ Unit) := do
  let t ← token
  match newPrecedence allowIn t with
  | none => return .inr ()
  | some newPrec => do
    let _ ← pop
    expectExpression
    if newPrec ≥ precedence ∧ newPrec ≠ 11 then
      eat (r.call .unaryExpression)
      return .inl newPrec
    else
      eat (r.call (.fancy newPrec))
      return .inl precedence

/-- Models `parse_fancy`, expressions.rs:174-232. -/
def parseFancy (r : Rec) (precedence : Nat) : P (Option Unit) := do
  let some _ ← r.call .exponentialExpression | return none
  let flags ← getFlags
  loop r.fuel (fancyRound r flags.allowIn) precedence
  found

/-- Models `parse_exponential_expression`, expressions.rs:234-246. -/
def parseExponentialExpression (r : Rec) : P (Option Unit) := do
  let some _ ← r.call .unaryExpression | return none
  match ← punc .starStar with
  | some _ => do
    expectExpression
    must (r.call .exponentialExpression)
  | none => found

/-- Models `UnaryType`, expressions.rs:248-258. -/
inductive UnaryType where
  | delete | void | typeof | plus | minus | tilde | exclam | await | unknown
  deriving DecidableEq, Repr

/-- The classification in `parse_unary_expression`, expressions.rs:260-275. -/
def unaryType : Token → UnaryType
  | .punct .plus => .plus
  | .punct .minus => .minus
  | .punct .tilde => .tilde
  | .punct .exclam => .exclam
  | .ident name =>
    if name = b!"delete" then .delete
    else if name = b!"void" then .void
    else if name = b!"typeof" then .typeof
    else if name = b!"await" then .await
    else .unknown
  | _ => .unknown

/-- Models `parse_unary_expression`, expressions.rs:247-290. -/
def parseUnaryExpression (r : Rec) : P (Option Unit) := do
  let t ← token
  match unaryType t with
  | .delete => must (r.call .deleteExpression)
  | .void => must (r.call .voidExpression)
  | .typeof => must (r.call .typeofExpression)
  | .plus => must (r.call .plusExpression)
  | .minus => must (r.call .minusExpression)
  | .tilde => must (r.call .tildeExpression)
  | .exclam => must (r.call .exclamExpression)
  | .await => must (r.call .awaitExpression)
  | .unknown => do
    let some _ ← r.call .updateExpression | return none
    found

/-- Models `parse_delete_expression`, expressions.rs:291-299. -/
def parseDeleteExpression (r : Rec) : P (Option Unit) := do
  let some _ ← keyword b!"delete" | return none
  expectExpression
  must (r.call .unaryExpression)

/-- Models `parse_void_expression`, expressions.rs:300-307. -/
def parseVoidExpression (r : Rec) : P (Option Unit) := do
  let some _ ← keyword b!"void" | return none
  expectExpression
  must (r.call .unaryExpression)

/-- Models `parse_typeof_expression`, expressions.rs:308-315. -/
def parseTypeofExpression (r : Rec) : P (Option Unit) := do
  let some _ ← keyword b!"typeof" | return none
  expectExpression
  must (r.call .unaryExpression)

/-- Models `parse_plus_expression`, expressions.rs:316-323. -/
def parsePlusExpression (r : Rec) : P (Option Unit) := do
  let some _ ← punc .plus | return none
  expectExpression
  must (r.call .unaryExpression)

/-- Models `parse_minus_expression`, expressions.rs:324-331. -/
def parseMinusExpression (r : Rec) : P (Option Unit) := do
  let some _ ← punc .minus | return none
  expectExpression
  must (r.call .unaryExpression)

/-- Models `parse_tilde_expression`, expressions.rs:332-339. -/
def parseTildeExpression (r : Rec) : P (Option Unit) := do
  let some _ ← punc .tilde | return none
  expectExpression
  must (r.call .unaryExpression)

/-- Models `parse_exclam_expression`, expressions.rs:340-347. -/
def parseExclamExpression (r : Rec) : P (Option Unit) := do
  let some _ ← punc .exclam | return none
  expectExpression
  must (r.call .unaryExpression)

/-- Models `parse_await_expression`, expressions.rs:348-359. -/
def parseAwaitExpression (r : Rec) : P (Option Unit) := do
  let flags ← getFlags
  if flags.allowAwait then
    let some _ ← keyword b!"await" | return none
    expectExpression
    must (r.call .unaryExpression)
  else absent

/-- Models `parse_update_expression`, expressions.rs:360-385. -/
def parseUpdateExpression (r : Rec) : P (Option Unit) := do
  let op ← (do
    match ← punc .plusPlus with
    | some _ => return true
    | none => do
      let d ← punc .minusMinus
      return d.isSome : P Bool)
  if op then
    expectExpression
    must (r.call .updateExpression)
  else
    let some _ ← r.call (.leftHandExpression true) | return none
    let b ← noLineTerminator
    if b then
      match ← punc .plusPlus with
      | some _ => found
      | none => do
        let _ ← punc .minusMinus
        found
    else found

/-- Models `LeftType`, expressions.rs:402-407. -/
inductive LeftType where
  | ident | call | computed | template
  deriving DecidableEq, Repr

/-- The classification in the loop of `parse_left_hand_expression`, expressions.rs:409-416. -/
def leftType : Token → Option LeftType
  | .punct .period => some .ident
  | .punct .squareOpen => some .computed
  | .punct .parenOpen => some .call
  | .template .noSubstitution _ _ => some .template
  | .template .head _ _ => some .template
  | _ => none

/-- One round of the loop of `parse_left_hand_expression`, expressions.rs:409-435. -/
def leftHandRound (r : Rec) (allowCall : Bool) : P (Unit ⊕ Unit) := do
  let t ← token
  match leftType t with
  | none => return .inr ()
  | some .ident => do
    let _ ← pop
    let _ ← eat (withFlag .fin true identifier)
    return .inl ()
  | some .call =>
    if allowCall then do
      eat (r.call .callArguments)
      return .inl ()
    else return .inr ()
  | some .computed => do
    let _ ← pop
    eat (withFlag .fin true (r.call .expression))
    let _ ← eat (punc .squareClose)
    return .inl ()
  | some .template => do
    eat (r.call .templateLiteralExpression)
    return .inl ()

/-- Models `parse_left_hand_expression`, expressions.rs:386-439. -/
def parseLeftHandExpression (r : Rec) (allowCall : Bool) : P (Option Unit) := do
  let start ← (do
    match ← keyword b!"new" with
    | some _ => must (r.call (.leftHandExpression false))
    | none =>
      orTry (r.call .primaryExpression)
        (orTry (r.call .metaPropertyExpression) (r.call .superExpression)) : P (Option Unit))
  match start with
  | none => absent
  | some _ => do
    loop r.fuel (fun _ => leftHandRound r allowCall) ()
    found

/-- The second half of a round of `parse_call_arguments`, expressions.rs:460-467. -/
def callArgumentItem (r : Rec) : P (Unit ⊕ Unit) := do
  match ← r.call .assignmentExpression with
  | some _ =>
    match ← punc .comma with
    | some _ => return .inl ()
    | none => return .inr ()
  | none => return .inr ()

/-- One round of the loop of `parse_call_arguments`, expressions.rs:448-467. -/
def callArgumentsRound (r : Rec) : P (Unit ⊕ Unit) := do
  expectExpression
  match ← punc .ellipsis with
  | some _ => do
    expectExpression
    eat (r.call .assignmentExpression)
    match ← punc .comma with
    | some _ => callArgumentItem r
    | none => return .inr ()
  | none => callArgumentItem r

/-- Models `parse_call_arguments`, expressions.rs:442-473. -/
def parseCallArguments (r : Rec) : P (Option Unit) :=
  withFlag .fin true do
    let some _ ← punc .parenOpen | return none
    loop r.fuel (fun _ => callArgumentsRound r) ()
    let _ ← eat (punc .parenClose)
    found

/-- Models `parse_meta_property_expression`, expressions.rs:475-481. -/
def parseMetaPropertyExpression : P (Option Unit) := do
  let some _ ← keyword b!"new" | return none
  let _ ← eat (punc .period)
  let _ ← eat (keyword b!"target")
  found

/-- Models `parse_super_expression`, expressions.rs:482-486. -/
def parseSuperExpression : P (Option Unit) := do
  let some _ ← keyword b!"super" | return none
  found

/-- Models `PrimaryType`, expressions.rs:489-505. -/
inductive PrimaryType where
  | this | ident | number | string | true | false | null | array | object | regex | template
  | paren | function | class
  deriving DecidableEq, Repr

/-- The classification in `parse_primary_expression`, expressions.rs:509-537. -/
def primaryType (flags : Flags) : Token → Option PrimaryType
  | .ident name =>
    if name = b!"this" then some .this
    else if name = b!"true" then some .true
    else if name = b!"false" then some .false
    else if name = b!"null" then some .null
    else if name = b!"function" then some .function
    else if name = b!"class" then some .class
    else if isBindingIdentifier flags name = true then some .ident
    else none
  | .str _ => some .string
  | .num _ => some .number
  | .template _ _ _ => some .template
  | .regex _ _ => some .regex
  | .punct .squareOpen => some .array
  | .punct .curlyOpen => some .object
  | .punct .parenOpen => some .paren
  | _ => none

/-- Models `parse_primary_expression`, expressions.rs:488-572. -/
def parsePrimaryExpression (r : Rec) : P (Option Unit) := do
  let flags ← getFlags
  let t ← token
  match primaryType flags t with
  | none => absent
  | some .this => must (r.call .thisExpression)
  | some .ident => must (r.call .identifierReferenceExpression)
  | some .number => must (r.call .numericExpression)
  | some .string => must (r.call .stringExpression)
  | some .true => must (r.call .trueExpression)
  | some .false => must (r.call .falseExpression)
  | some .null => must (r.call .nullExpression)
  | some .array => must (r.call .arrayLiteralExpression)
  | some .object => must (r.call .objectLiteralExpression)
  | some .regex => must (r.call .regularExpressionLiteralExpression)
  | some .template => must (r.call .templateLiteralExpression)
  | some .paren => must (r.call .coverParenthesizedExpression)
  | some .function => must (r.call .functionExpression)
  | some .class => must (r.call .classExpression)

/-- Models `parse_this_expression`, expressions.rs:574-578. -/
def parseThisExpression : P (Option Unit) := do
  let some _ ← keyword b!"this" | return none
  found

/-- The test at expressions.rs:580-590. -/
def aheadIsFunction : Option (Bool × Token) → Bool
  | some (_, token) => token == .ident b!"function"
  | none => false

/-- Models `parse_identifier_reference_expression`, expressions.rs:579-595. -/
def parseIdentifierReferenceExpression : P (Option Unit) := do
  let ahead ← identLookahead
  if aheadIsFunction ahead then absent
  else
    let some _ ← bindingIdentifier | return none
    found

/-- Models `parse_null_expression`, expressions.rs:605-609. -/
def parseNullExpression : P (Option Unit) := do
  let some _ ← keyword b!"null" | return none
  found

/-- Models `parse_true_expression`, expressions.rs:610-614. -/
def parseTrueExpression : P (Option Unit) := do
  let some _ ← keyword b!"true" | return none
  found

/-- Models `parse_false_expression`, expressions.rs:615-619. -/
def parseFalseExpression : P (Option Unit) := do
  let some _ ← keyword b!"false" | return none
  found

/-- Models `parse_numeric_expression`, expressions.rs:620-624. -/
def parseNumericExpression : P (Option Unit) := do
  let some _ ← numeric | return none
  found

/-- Models `parse_string_expression`, expressions.rs:625-629. -/
def parseStringExpression : P (Option Unit) := do
  let some _ ← string | return none
  found

/-- One round of the loops of `parse_array_literal_expression` (expressions.rs:634-639) and
`parse_object_literal_expression` (651-656): an optional item, then a comma or `break`. -/
def itemCommaRound (item : P (Option Unit)) : P (Unit ⊕ Unit) := do
  let _ ← item
  match ← punc .comma with
  | none => return .inr ()
  | some _ => return .inl ()

/-- Models `parse_array_literal_expression`, expressions.rs:630-645. -/
def parseArrayLiteralExpression (r : Rec) : P (Option Unit) := do
  let some _ ← punc .squareOpen | return none
  loop r.fuel (fun _ => itemCommaRound (r.call .arrayItem)) ()
  let _ ← eat (punc .squareClose)
  found

/-- Models `parse_object_literal_expression`, expressions.rs:646-662. -/
def parseObjectLiteralExpression (r : Rec) : P (Option Unit) :=
  withFlag .template false do
    let some _ ← punc .curlyOpen | return none
    loop r.fuel (fun _ => itemCommaRound (r.call .objectProperty)) ()
    let _ ← eat (punc .curlyClose)
    found

/-- Models `parse_object_property`, expressions.rs:664-685. -/
def parseObjectProperty (r : Rec) : P (Option Unit) := do
  match ← punc .ellipsis with
  | some _ => do
    expectExpression
    must (r.call .assignmentExpression)
  | none => do
    let some head ← parseMethodHead r true | return none
    match ← punc .colon with
    | some _ => do
      expectExpression
      must (r.call .assignmentExpression)
    | none => do
      let _ ← r.call (.methodTail head)
      found

/-- Models `parse_array_item`, expressions.rs:686-692. -/
def parseArrayItem (r : Rec) : P (Option Unit) := do
  match ← punc .ellipsis with
  | some _ => must (r.call .assignmentExpression)
  | none => do
    let _ ← r.call .assignmentExpression
    found

/-- Models `parse_regular_expression_literal_expression`, expressions.rs:694-698. -/
def parseRegularExpressionLiteralExpression : P (Option Unit) := do
  let some _ ← regex | return none
  found

/-- One round of the loop of `parse_template_literal_expression`, expressions.rs:705-711. -/
def templateRound (r : Rec) : P (Unit ⊕ Unit) := do
  eat (r.call .expression)
  let next ← eat templateTail
  if next = .tail then return .inr () else return .inl ()

/-- Models `parse_template_literal_expression`, expressions.rs:699-716. -/
def parseTemplateLiteralExpression (r : Rec) : P (Option Unit) := do
  let some format ← template | return none
  if format = .head then
    withFlag .template true (loop r.fuel (fun _ => templateRound r) ())
    found
  else found

/-- One round of the comma loop of `parse_cover_parenthesized_expression`,
expressions.rs:723-733. -/
def coverRound (r : Rec) : P (Unit ⊕ Unit) := do
  match ← punc .comma with
  | some _ => do
    expectExpression
    match ← punc .ellipsis with
    | some _ => do
      patternOrIdentifier r
      return .inl ()
    | none => do
      eat (r.call .assignmentExpression)
      return .inl ()
  | none => return .inr ()

/-- Models `parse_cover_parenthesized_expression`, expressions.rs:717-746. -/
def parseCoverParenthesizedExpression (r : Rec) : P (Option Unit) := do
  let some _ ← punc .parenOpen | return none
  expectExpression
  let _ ← (do
    match ← r.call .assignmentExpression with
    | some _ => loop r.fuel (fun _ => coverRound r) ()
    | none =>
      match ← punc .ellipsis with
      | some _ => patternOrIdentifier r
      | none => return () : P Unit)
  let _ ← eat (punc .parenClose)
  found

/-! ## Tying the knot -/

/-- The body of each method. -/
def body (r : Rec) : Fn → P (Option Unit)
  | .scriptItem => parseScriptItem r
  | .moduleItem => parseModuleItem r
  | .functionDeclaration => parseFunctionDeclaration r
  | .functionExpression => parseFunctionExpression r
  | .functionParams => parseFunctionParams r
  | .functionBody => parseFunctionBody r
  | .statement => parseStatement r
  | .statementListItem => parseStatementListItem r
  | .blockStatement => parseBlockStatement r
  | .variableStatement => parseVariableStatement r
  | .varDeclarator => parseVarDeclarator r
  | .bindingPattern => parseBindingPattern r
  | .objectBindingPattern => parseObjectBindingPattern r
  | .bindingProperty => parseBindingProperty r
  | .propertyName => parsePropertyName r
  | .literalPropertyName => parseLiteralPropertyName
  | .computedPropertyName => parseComputedPropertyName r
  | .arrayBindingPattern => parseArrayBindingPattern r
  | .bindingRestElement => parseBindingRestElement r
  | .bindingElement => parseBindingElement r
  | .initializer => parseInitializer r
  | .emptyStatement => parseEmptyStatement
  | .expressionStatement => parseExpressionStatement r
  | .ifStatement => parseIfStatement r
  | .breakableStatement => parseBreakableStatement r
  | .iterationStatement => parseIterationStatement r
  | .doWhileStatement => parseDoWhileStatement r
  | .whileStatement => parseWhileStatement r
  | .forStatement => parseForStatement r
  | .switchStatement => parseSwitchStatement r
  | .defaultClause => parseDefaultClause r
  | .caseClause => parseCaseClause r
  | .continueStatement => parseContinueStatement
  | .breakStatement => parseBreakStatement
  | .returnStatement => parseReturnStatement r
  | .withStatement => parseWithStatement r
  | .labelledStatement => parseLabelledStatement r
  | .throwStatement => parseThrowStatement r
  | .tryStatement => parseTryStatement r
  | .debuggerStatement => parseDebuggerStatement
  | .declaration => parseDeclaration r
  | .letDeclaration => parseLetDeclaration r
  | .constDeclaration => parseConstDeclaration r
  | .lexicalDeclarator b => parseLexicalDeclarator r b
  | .classDeclaration => parseClassDeclaration r
  | .classExpression => parseClassExpression
  | .classHeritage => parseClassHeritage r
  | .classBody => parseClassBody r
  | .classItem => parseClassItem r
  | .methodTail h => parseMethodTail r h
  | .importDeclaration => parseImportDeclaration r
  | .importSpecifier => parseImportSpecifier
  | .exportDeclaration => parseExportDeclaration r
  | .exportSpecifier => parseExportSpecifier
  | .leftHandSideExpression => parseLeftHandSideExpression r
  | .expression => parseExpression r
  | .assignmentExpression => parseAssignmentExpression r
  | .reifyArrow => reifyArrow r
  | .reifyAssignment => reifyAssignment r
  | .yieldExpression => parseYieldExpression r
  | .conditionalExpression => parseConditionalExpression r
  | .logicalOrExpression => parseLogicalOrExpression r
  | .fancy p => parseFancy r p
  | .exponentialExpression => parseExponentialExpression r
  | .unaryExpression => parseUnaryExpression r
  | .deleteExpression => parseDeleteExpression r
  | .voidExpression => parseVoidExpression r
  | .typeofExpression => parseTypeofExpression r
  | .plusExpression => parsePlusExpression r
  | .minusExpression => parseMinusExpression r
  | .tildeExpression => parseTildeExpression r
  | .exclamExpression => parseExclamExpression r
  | .awaitExpression => parseAwaitExpression r
  | .updateExpression => parseUpdateExpression r
  | .leftHandExpression b => parseLeftHandExpression r b
  | .callArguments => parseCallArguments r
  | .metaPropertyExpression => parseMetaPropertyExpression
  | .superExpression => parseSuperExpression
  | .primaryExpression => parsePrimaryExpression r
  | .thisExpression => parseThisExpression
  | .identifierReferenceExpression => parseIdentifierReferenceExpression
  | .nullExpression => parseNullExpression
  | .trueExpression => parseTrueExpression
  | .falseExpression => parseFalseExpression
  | .numericExpression => parseNumericExpression
  | .stringExpression => parseStringExpression
  | .arrayLiteralExpression => parseArrayLiteralExpression r
  | .objectLiteralExpression => parseObjectLiteralExpression r
  | .objectProperty => parseObjectProperty r
  | .arrayItem => parseArrayItem r
  | .regularExpressionLiteralExpression => parseRegularExpressionLiteralExpression
  | .templateLiteralExpression => parseTemplateLiteralExpression r
  | .coverParenthesizedExpression => parseCoverParenthesizedExpression r

/-- The methods, with at most `n` nested calls and at most `n` rounds per loop. -/
def run : Nat → Fn → P (Option Unit)
  | 0, _ => fun _ => .timeout
  | n + 1, f => body ⟨n, run n⟩ f

/-- `Rec` with bound `n`. -/
def recOf (n : Nat) : Rec := ⟨n, run n⟩

/-- The `Parser { … }` built in `from_tokenizer`, parser/mod.rs:54-63. -/
def initState (checked : Bool) (code : Bytes) : PState := { tok := intoTokenizer checked code }

/-- `p.parse_module()` on a fresh parser, with an explicit bound. -/
def parseModuleFuel (n : Nat) (checked : Bool) (code : Bytes) : Res Unit :=
  parseModule (recOf n) (initState checked code)

/-- What a caller of `parse_root::<&str, ()>` sees. -/
inductive Outcome where
  /-- the call returns `()` -/
  | accepted
  /-- the call panics in `unwrap` because `parse_module` returned this `Err` -/
  | rejected (e : ParseErr)
  /-- the call panics somewhere else -/
  | panicked (p : Panic)
  /-- the model ran out of its recursion bound -/
  | outOfFuel
  deriving DecidableEq, Repr

def Res.outcome {α : Type} : Res α → Outcome
  | .ok _ _ => .accepted
  | .err e _ => .rejected e
  | .panic p => .panicked p
  | .timeout => .outOfFuel

/-- A recursion bound that is large enough for every text (`C24_terminates`). -/
def fuelFor (code : Bytes) : Nat := 64 * (code.length + 2)

/-- Models `parse_root::<&str, ()>(code)`, parser/mod.rs:18-24 and 52-77.  (The timing calls and the
two `println!` are not modelled.) -/
def parseRoot (checked : Bool) (code : Bytes) : Outcome :=
  (parseModuleFuel (fuelFor code) checked code).outcome

end Jsparse
