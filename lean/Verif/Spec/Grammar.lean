import Verif.Model.Tokens
/-!
# A grammar for the programs the parser accepts

A context-free grammar in the style of ECMA-262, written as data (`G`, `production`), and its
derivations (`Der`).  It does not mention the parser.  The productions follow ECMA-262 (2017); the
places where jsparse accepts more or less than that are marked "Deviation".  The grammar is over
token lists; every token comes with the flag "a line terminator precedes it".
-/

namespace Jsparse.Spec

/-- A token with the flag "a line terminator precedes it". -/
abbrev Tok := Bool × Token

/-- The parameters `[In]`, `[Yield]`, `[Await]`, `[Default]` of productions, and strict mode. -/
inductive Par where
  | in | yield | await | default | strict
  deriving DecidableEq

/-- The values of the parameters. -/
structure Ctx where
  in_ : Bool := false
  yield : Bool := false
  await : Bool := false
  default : Bool := false
  strict : Bool := false
  deriving DecidableEq

def Ctx.set (C : Ctx) (b : Bool) : Par → Ctx
  | .in => { C with in_ := b }
  | .yield => { C with yield := b }
  | .await => { C with await := b }
  | .default => { C with default := b }
  | .strict => { C with strict := b }

def Ctx.get (C : Ctx) : Par → Bool
  | .in => C.in_
  | .yield => C.yield
  | .await => C.await
  | .default => C.default
  | .strict => C.strict

/-- ReservedWord of ECMA-262, `await` and `yield` left aside. -/
def reservedWords : List Bytes :=
  [b!"break", b!"case", b!"catch", b!"class", b!"const", b!"continue", b!"debugger", b!"default",
   b!"delete", b!"do", b!"else", b!"enum", b!"export", b!"extends", b!"false", b!"finally", b!"for",
   b!"function", b!"if", b!"import", b!"in", b!"instanceof", b!"new", b!"null", b!"return", b!"super",
   b!"switch", b!"this", b!"throw", b!"true", b!"try", b!"typeof", b!"var", b!"void", b!"while",
   b!"with"]

/-- The names that are reserved in strict mode only. -/
def strictWords : List Bytes :=
  [b!"implements", b!"interface", b!"let", b!"package", b!"private", b!"protected", b!"public",
   b!"static"]

/-- The names a binding, reference or label may have.
Deviation: `await` is allowed where `[Await]` holds and not otherwise; `yield` is never allowed. -/
def BindingName (C : Ctx) (v : Bytes) : Prop :=
  v ∉ reservedWords ∧ v ≠ b!"yield" ∧ (v = b!"await" → C.await = true) ∧
    (C.strict = true → v ∉ strictWords)

/-- The words that begin an expression, besides the names. -/
def startWords : List Bytes :=
  [b!"this", b!"null", b!"true", b!"false", b!"function", b!"class", b!"new", b!"super", b!"delete",
   b!"void", b!"typeof", b!"await", b!"yield"]

/-- The punctuators that begin an expression. -/
def startPunctuators : List Punct :=
  [.parenOpen, .squareOpen, .curlyOpen, .plus, .minus, .tilde, .exclam, .plusPlus, .minusMinus]

/-- The tokens that begin an expression. -/
def Starts (C : Ctx) : Token → Prop
  | .ident n => n ∈ startWords ∨ BindingName C n
  | .punct q => q ∈ startPunctuators
  | .num _ => True
  | .str _ => True
  | .regex _ _ => True
  | .template _ _ _ => True
  | _ => False

/-- The tokens that begin a template. -/
def BeginsTemplate : Token → Prop
  | .template .noSubstitution _ _ => True
  | .template .head _ _ => True
  | _ => False

/-- AssignmentOperator, and `=`. -/
def assignmentOperators : List Punct :=
  [.eq, .starEq, .slashEq, .percentEq, .plusEq, .minusEq, .lAngleAngleEq, .rAngleAngleEq,
   .rAngleAngleAngleEq, .ampEq, .caretEq, .barEq, .starStarEq]

/-- The binary operators, except `in` and `instanceof`. -/
def binaryOperators : List Punct :=
  [.barBar, .ampAmp, .bar, .caret, .amp, .eqEq, .eqEqEq, .exclamEq, .exclamEqEq, .lAngle, .rAngle,
   .lAngleEq, .rAngleEq, .lAngleAngle, .rAngleAngle, .rAngleAngleAngle, .plus, .minus, .star,
   .percent, .slash, .starStar]

/-- Terminals. -/
inductive Term where
  /-- the name `k` -/
  | kw (k : Bytes)
  | p (q : Punct)
  /-- IdentifierName: any name, reserved or not -/
  | name
  /-- BindingIdentifier, IdentifierReference, LabelIdentifier -/
  | binding
  | num | str | regex
  | tmpl (f : TemplateFormat)
  | assignOp | binaryOp
  | eof
  deriving DecidableEq

/-- The tokens of a terminal. -/
def Term.Is (C : Ctx) : Term → Token → Prop
  | .kw k, t => t = .ident k
  | .p q, t => t = .punct q
  | .name, t => ∃ v, t = .ident v
  | .binding, t => ∃ v, t = .ident v ∧ BindingName C v
  | .num, t => ∃ v, t = .num v
  | .str, t => ∃ v, t = .str v
  | .regex, t => ∃ v f, t = .regex v f
  | .tmpl f, t => ∃ c r, t = .template f c r
  | .assignOp, t => ∃ q ∈ assignmentOperators, t = .punct q
  | .binaryOp, t => (∃ q ∈ binaryOperators, t = .punct q) ∨ t = .ident b!"instanceof" ∨
      (t = .ident b!"in" ∧ C.in_ = true)
  | .eof, t => t = .eof

/-- Getter, setter or ordinary method. -/
inductive MKind where
  | get | set | none
  deriving DecidableEq

/-- Nonterminals. -/
inductive NT where
  | Module | ModuleItem | StatementListItem | Declaration | Statement
  | Block | VariableStatement | VariableDeclaration | ExpressionStatement | IfStatement
  | BreakableStatement | IterationStatement | DoWhile | While | For | SwitchStatement
  | CaseClause | DefaultClause | ContinueStatement | BreakStatement | ReturnStatement
  | WithStatement | LabelledStatement | ThrowStatement | TryStatement | DebuggerStatement
  | LetDeclaration | ConstDeclaration | LexicalBinding (initializerRequired : Bool)
  | BindingPattern | ObjectBindingPattern | ArrayBindingPattern | BindingProperty
  | BindingElement | BindingRestElement | Initializer | PropertyName
  | FunctionDeclaration | FunctionExpression | FunctionRest (async generator : Bool)
  | FormalParameters
  | ClassDeclaration | ClassHeritage | ClassBody | ClassElement
  | MethodHead (kind : MKind) (generator async : Bool)
  | MethodTail (kind : MKind) (generator async : Bool)
  | ImportDeclaration | ImportSpecifier | ExportDeclaration | ExportSpecifier
  | Expression | AssignmentExpression | ArrowBody | YieldExpression | ConditionalExpression
  | BinaryExpression | UnaryExpression | UpdateExpression | LeftHandSideExpression (call : Bool)
  | Arguments | PrimaryExpression | ArrayLiteral | ArrayElement | ObjectLiteral
  | PropertyDefinition | TemplateLiteral | CoverParenthesized
  deriving DecidableEq

/-- Right-hand sides. -/
inductive G where
  | t (k : Term)
  | nt (n : NT)
  /-- `X[+In]` and the like: the parameters of `g` changed -/
  | par (f : Par) (b : Bool) (g : G)
  /-- `[+In]` and the like in front of an alternative: nothing, where the parameter has this value -/
  | onlyIf (f : Par) (b : Bool)
  /-- [no LineTerminator here] -/
  | noLine
  /-- nothing, where a line terminator precedes the next token -/
  | line
  /-- nothing, where the token after the next one is on the same line as the next one -/
  | sameLine
  /-- [lookahead ∉ { … }] -/
  | notAhead (ts : List Token)
  /-- [lookahead ∉ { `var`, `const`, `let [`, `let {`, `let` name }], the name being neither `in` nor
  `of` -/
  | notDeclared
  /-- [lookahead is no function declaration]; see `BeginsFunction` -/
  | notFunction
  /-- [lookahead begins no expression] -/
  | notStart
  /-- [lookahead begins no template] -/
  | noTemplate
  /-- [lookahead ≠ `async` [no LineTerminator here] BindingIdentifier] -/
  | notAsync
  /-- `;`, or automatic semicolon insertion -/
  | semi
  /-- the same after `do … while ( … )` -/
  | semiDo
  | eps
  | seq (a b : G)
  | alt (a b : G)
  | opt (a : G)
  | star (a : G)
  deriving DecidableEq

namespace G

def seqs : List G → G
  | [] => .eps
  | [g] => g
  | g :: w => .seq g (seqs w)

def alts : List G → G
  | [] => .eps
  | [g] => g
  | g :: w => .alt g (alts w)

abbrev kw (k : Bytes) : G := .t (.kw k)
abbrev p (q : Punct) : G := .t (.p q)
abbrev name : G := .t .name
abbrev binding : G := .t .binding
/-- `X[+In]` -/
abbrev inn (g : G) : G := .par .in true g
/-- `X[~In]` -/
abbrev notIn (g : G) : G := .par .in false g

abbrev expression : G := .inn (.nt .Expression)
abbrev patternOrName : G := .alt (.nt .BindingPattern) .binding
/-- `( Expression )` -/
abbrev paren : G := seqs [.p .parenOpen, expression, .p .parenClose]
/-- `, X` any number of times -/
abbrev more (g : G) : G := .star (seqs [.p .comma, g])
/-- `X ,` any number of times, then perhaps `X` -/
abbrev listed (g : G) : G := .seq (.star (seqs [g, .p .comma])) (.opt g)

end G

open G NT

/-- The tokens that begin a declaration in a list of statements. -/
def declarationWords : List Token :=
  [.ident b!"class", .ident b!"function", .ident b!"let", .ident b!"const"]

/-- The tokens that begin a statement that is neither an expression nor labelled. -/
def statementWords : List Token :=
  [.punct .curlyOpen, .punct .semicolon, .ident b!"var", .ident b!"if", .ident b!"switch",
   .ident b!"while", .ident b!"do", .ident b!"for", .ident b!"continue", .ident b!"break",
   .ident b!"return", .ident b!"with", .ident b!"throw", .ident b!"try", .ident b!"debugger"]

/-- The name of a declared function or class. -/
abbrev declaredName : G := .alt .binding (.onlyIf .default true)

/-- `async [no LineTerminator here] function` or `function` with an optional star. -/
def functionHead (nameOf : G) : G :=
  alts [seqs [kw b!"async", .noLine, kw b!"function", nameOf, .nt (.FunctionRest true false)],
        seqs [kw b!"function", nameOf, .nt (.FunctionRest false false)],
        seqs [kw b!"function", .p .star, nameOf, .nt (.FunctionRest false true)]]

/-- The declarations in the head of a `for`, after the keyword.  `first` may stand alone before
`in` or `of`. -/
def forDeclarations (kind : Bytes) (first : G) (rest : NT) : G :=
  seqs [kw kind, first, more (.notIn (.nt rest)),
    .p .semicolon, .opt (.nt .Expression), .p .semicolon, .opt (.nt .Expression)]

def inOrOf : G :=
  seqs [.alt (kw b!"in") (kw b!"of"), .inn (.nt .AssignmentExpression)]

/-- What is between the parentheses of a `for`.
Deviation: the left-hand side of `in` and `of` may be any expression, or be missing; `let` does not
declare a variable `of`. -/
def forHead : G :=
  alts
    [forDeclarations b!"var" (alts [seqs [.nt BindingPattern, .notIn (.nt Initializer)],
        seqs [.binding, .opt (.notIn (.nt Initializer))]]) VariableDeclaration,
     forDeclarations b!"let" (seqs [.notAhead [.ident b!"of"],
        alts [seqs [.nt BindingPattern, .notIn (.nt Initializer)],
          seqs [.binding, .opt (.notIn (.nt Initializer))]]]) (LexicalBinding true),
     forDeclarations b!"const" (seqs [patternOrName, .notIn (.nt Initializer)])
        (LexicalBinding true),
     seqs [alts [kw b!"var", kw b!"const", seqs [kw b!"let", .notAhead [.ident b!"of"]]], patternOrName,
        inOrOf],
     seqs [.notDeclared, .opt (.notIn (.nt Expression)), .p .semicolon, .opt (.nt Expression),
        .p .semicolon, .opt (.nt Expression)],
     seqs [.notDeclared, .alt (.notIn (.nt Expression)) .notStart, inOrOf]]

def functionParts : Bool → Bool → G
  | true, _ => seqs [.par .yield false (.nt .FormalParameters),
      .par .yield false (.par .await true (.nt .Block))]
  | false, g => seqs [.par .await false (.par .yield g (.nt .FormalParameters)),
      .par .await false (.par .yield g (.nt .Block))]

def specifiers (n : NT) : G := seqs [.p .curlyOpen, listed (.nt n), .p .curlyClose]

def starAs : G := seqs [.p .star, kw b!"as", .binding]

def importClause : G :=
  alts [.binding, starAs, specifiers ImportSpecifier,
    seqs [.binding, .p .comma, .alt starAs (specifiers ImportSpecifier)]]

/-! An expression extends as far as possible: behind it, there is no token that would continue it. -/

/-- [lookahead does not continue a left-hand side] -/
def noMember (call : Bool) : G :=
  seqs [.notAhead [.punct .period, .punct .squareOpen], .noTemplate,
    if call then .notAhead [.punct .parenOpen] else .eps]

/-- The operators of assignments, and `=>`. -/
def assigners : List Token := .punct .arrow :: assignmentOperators.map .punct

/-- The binary operators, except `in`. -/
def operators : List Token := .ident b!"instanceof" :: binaryOperators.map .punct

/-- [lookahead is no binary operator] -/
def noOperator : G :=
  .alt (seqs [.onlyIf .in true, .notAhead (.ident b!"in" :: operators)])
    (seqs [.onlyIf .in false, .notAhead operators])

/-- A BinaryExpression that extends as far as possible. -/
def operation : G := .seq (.nt BinaryExpression) noOperator

/-- The right-hand side of each nonterminal. -/
def production : NT → G
  | Module => seqs [.star (.nt ModuleItem), .t .eof]
  | ModuleItem => alts [.nt StatementListItem, .nt ImportDeclaration, .nt ExportDeclaration]
  | StatementListItem => alts [.nt Declaration, seqs [.notAhead declarationWords, .nt Statement]]
  | Declaration => alts [.nt ClassDeclaration,
      seqs [.notAhead [.ident b!"async"], .nt FunctionDeclaration], .nt LetDeclaration,
      .nt ConstDeclaration]
  -- Deviation: in ECMA-262, an expression statement does not begin with `function`, `class` or `let [`
  -- either, which jsparse excludes in lists of statements only.
  | Statement => alts [.nt Block, .p .semicolon, .nt VariableStatement, .nt IfStatement,
      .nt BreakableStatement, .nt ContinueStatement, .nt BreakStatement, .nt ReturnStatement,
      .nt WithStatement, .nt ThrowStatement, .nt TryStatement, .nt DebuggerStatement,
      seqs [.notAhead statementWords, .alt (.nt LabelledStatement) (.nt ExpressionStatement)]]
  | Block => seqs [.p .curlyOpen, .star (.nt StatementListItem), .p .curlyClose]
  | VariableStatement => seqs [kw b!"var", .inn (.nt VariableDeclaration),
      more (.inn (.nt VariableDeclaration)), .notAhead [.punct .comma], .semi]
  | VariableDeclaration => alts [seqs [.nt BindingPattern, .nt Initializer],
      seqs [.binding, .alt (.nt Initializer) (.notAhead [.punct .eq])]]
  | ExpressionStatement => seqs [expression, .semi]
  | IfStatement => seqs [kw b!"if", paren, .nt Statement,
      .alt (seqs [kw b!"else", .nt Statement]) (.notAhead [.ident b!"else"])]
  | BreakableStatement => alts [.nt IterationStatement, .nt SwitchStatement]
  | IterationStatement => alts [.nt DoWhile, .nt While, .nt For]
  | DoWhile => seqs [kw b!"do", .nt Statement, kw b!"while", paren, .semiDo]
  | While => seqs [kw b!"while", paren, .nt Statement]
  | For => seqs [kw b!"for", .p .parenOpen, forHead, .p .parenClose, .nt Statement]
  -- Deviation: a `default` clause can only be the first (ECMA-262 allows it anywhere); a later
  -- `default:` is a label, see LabelledStatement.
  | SwitchStatement => seqs [kw b!"switch", paren, .p .curlyOpen,
      .opt (.nt DefaultClause), .star (.nt CaseClause), .p .curlyClose]
  | DefaultClause => seqs [kw b!"default", .p .colon, .star (.nt StatementListItem)]
  | CaseClause => seqs [kw b!"case", expression, .p .colon, .star (.nt StatementListItem)]
  | ContinueStatement => seqs [kw b!"continue", .opt (seqs [.noLine, .opt .binding]), .semi]
  | BreakStatement => seqs [kw b!"break", .opt (seqs [.noLine, .opt .binding]), .semi]
  | ReturnStatement => seqs [kw b!"return", .opt (seqs [.noLine, .opt expression]), .semi]
  | WithStatement => seqs [kw b!"with", paren, .nt Statement]
  -- Deviation: a label may be a reserved word.
  | LabelledStatement => seqs [.name, .p .colon, .nt Statement]
  -- Deviation: no semicolon; the expression is missing if the next token is on another line.
  | ThrowStatement => seqs [kw b!"throw", .alt .line (seqs [.noLine, expression])]
  -- Deviation: both `catch` and `finally` may be missing.
  | TryStatement => seqs [kw b!"try", .nt Block,
      .alt (seqs [kw b!"catch", .p .parenOpen, patternOrName, .p .parenClose, .nt Block])
        (.notAhead [.ident b!"catch"]),
      .alt (seqs [kw b!"finally", .nt Block]) (.notAhead [.ident b!"finally"])]
  | DebuggerStatement => seqs [kw b!"debugger", .semi]
  | LetDeclaration => seqs [kw b!"let", .nt (LexicalBinding false),
      more (.nt (LexicalBinding false)), .notAhead [.punct .comma], .semi]
  | ConstDeclaration => seqs [kw b!"const", .nt (LexicalBinding true),
      more (.nt (LexicalBinding true)), .notAhead [.punct .comma], .semi]
  | LexicalBinding false => alts [seqs [.nt BindingPattern, .nt Initializer],
      seqs [.binding, .alt (.nt Initializer) (.notAhead [.punct .eq])]]
  | LexicalBinding true => alts [seqs [.nt BindingPattern, .nt Initializer],
      seqs [.binding, .nt Initializer]]
  | BindingPattern => alts [.nt ObjectBindingPattern, .nt ArrayBindingPattern]
  | ObjectBindingPattern => seqs [.p .curlyOpen, listed (.nt BindingProperty), .p .curlyClose]
  | ArrayBindingPattern => seqs [.p .squareOpen,
      .star (seqs [.opt (.nt BindingElement), .p .comma]),
      .alt (.nt BindingRestElement) (.opt (.nt BindingElement)), .p .squareClose]
  -- Deviation: the shorthand form may be any property name, not only an identifier.
  | BindingProperty => alts [seqs [.nt PropertyName, .p .colon, .nt BindingElement],
      seqs [.nt PropertyName, .opt (.inn (.nt Initializer))]]
  | BindingElement => seqs [patternOrName, .opt (.inn (.nt Initializer))]
  | BindingRestElement => seqs [.p .ellipsis, patternOrName]
  | Initializer => seqs [.p .eq, .nt AssignmentExpression]
  -- Deviation: `[` `]` is a property name.
  | PropertyName => alts [.name, .t .str, .t .num,
      seqs [.p .squareOpen, .opt (.inn (.nt AssignmentExpression)), .p .squareClose]]
  | FunctionDeclaration => functionHead declaredName
  | FunctionExpression => functionHead (.opt .binding)
  | FunctionRest a g => functionParts a g
  | FormalParameters => seqs [.p .parenOpen,
      .star (seqs [patternOrName, .opt (.nt Initializer), .p .comma]),
      .opt (.alt (.nt BindingRestElement) (seqs [patternOrName, .opt (.nt Initializer)])),
      .p .parenClose]
  | ClassDeclaration => seqs [kw b!"class", declaredName, .opt (.nt ClassHeritage), .nt ClassBody]
  | ClassHeritage => seqs [kw b!"extends", .nt (LeftHandSideExpression true)]
  | ClassBody => seqs [.p .curlyOpen, .star (.nt ClassElement), .p .curlyClose]
  | ClassElement => alts [.p .semicolon,
      alts [seqs [.nt (MethodHead .get false false), .nt (MethodTail .get false false)],
        seqs [.nt (MethodHead .get true false), .nt (MethodTail .get true false)],
        seqs [.nt (MethodHead .set false false), .nt (MethodTail .set false false)],
        seqs [.nt (MethodHead .set true false), .nt (MethodTail .set true false)],
        seqs [.nt (MethodHead .none false false), .nt (MethodTail .none false false)],
        seqs [.nt (MethodHead .none true false), .nt (MethodTail .none true false)],
        seqs [.nt (MethodHead .none false true), .nt (MethodTail .none false true)]]]
  -- Deviation: getters and setters may have a star; `async` may stand alone or be followed by a
  -- line terminator.
  | MethodHead .get false false => seqs [.opt (kw b!"static"), kw b!"get", .nt PropertyName]
  | MethodHead .get true false => seqs [.opt (kw b!"static"), kw b!"get", .p .star, .nt PropertyName]
  | MethodHead .set false false => seqs [.opt (kw b!"static"), kw b!"set", .nt PropertyName]
  | MethodHead .set true false => seqs [.opt (kw b!"static"), kw b!"set", .p .star, .nt PropertyName]
  | MethodHead .none true false => seqs [.opt (kw b!"static"), .p .star, .nt PropertyName]
  | MethodHead .none false false => alts [seqs [.opt (kw b!"static"), .notAhead [.ident b!"async"], .nt PropertyName],
      seqs [.opt (kw b!"static"), kw b!"get"], seqs [.opt (kw b!"static"), kw b!"set"],
      kw b!"static"]
  | MethodHead .none false true => seqs [.opt (kw b!"static"), kw b!"async",
      .opt (seqs [.noLine, .opt (.nt PropertyName)])]
  | MethodHead _ _ _ => .nt PropertyName
  | MethodTail .get _ _ => seqs [.p .parenOpen, .p .parenClose, .nt Block]
  | MethodTail .set _ _ => seqs [.p .parenOpen, patternOrName, .p .parenClose, .nt Block]
  | MethodTail .none g a => functionParts a g
  | ImportDeclaration => seqs [kw b!"import",
      .alt (.t .str) (seqs [importClause, kw b!"from", .t .str]), .semi]
  -- Deviation: the bound names of specifiers may be reserved words.
  | ImportSpecifier => seqs [.name, .opt (seqs [kw b!"as", .name])]
  -- Deviation: `export function` and `export class` are missing; `export var`, `let` and `const`
  -- end with a semicolon of their own and then another one.  In ECMA-262 the parameter Default does
  -- not reach into the body of the exported function or class.
  | ExportDeclaration => alts
      [seqs [kw b!"export", kw b!"default", .par .default true (.nt FunctionDeclaration)],
       seqs [kw b!"export", kw b!"default", .par .default true (.nt ClassDeclaration)],
       seqs [kw b!"export", kw b!"default", .notFunction, .notAhead [.ident b!"class"],
          .par .default true expression, .semi],
       seqs [kw b!"export", alts [.nt VariableStatement, .nt LetDeclaration, .nt ConstDeclaration,
          seqs [.p .star, kw b!"from", .t .str],
          seqs [specifiers ExportSpecifier,
            .alt (seqs [kw b!"from", .t .str]) (.notAhead [.ident b!"from"])]], .semi]]
  | ExportSpecifier => seqs [.name, .opt (seqs [kw b!"as", .name])]
  | Expression => seqs [.nt AssignmentExpression, more (.nt AssignmentExpression),
      .notAhead [.punct .comma]]
  -- Deviation: the left-hand side of `=` and the parameters of `=>` may be any conditional
  -- expression (ECMA-262 checks them after parsing).
  | AssignmentExpression => alts [.nt YieldExpression,
      seqs [kw b!"async", .noLine, .binding, .noLine, .p .arrow, .nt ArrowBody],
      seqs [.notAsync, .nt ConditionalExpression, .notAhead assigners],
      seqs [.notAsync, .nt ConditionalExpression, .p .arrow, .nt ArrowBody],
      seqs [.notAsync, .nt ConditionalExpression, .t .assignOp, .nt AssignmentExpression]]
  | ArrowBody => alts [.nt Block,
      seqs [.notAhead [.punct .curlyOpen], .nt AssignmentExpression]]
  -- Deviation: not only in generators; the operand is a whole Expression.
  | YieldExpression => seqs [kw b!"yield",
      .alt .line (seqs [.noLine, .alt (.p .star) (.notAhead [.punct .star]), .alt (.nt Expression) .notStart])]
  | ConditionalExpression => seqs [operation,
      .alt (seqs [.p .question, .inn (.nt AssignmentExpression), .p .colon,
        .nt AssignmentExpression]) (.notAhead [.punct .question])]
  -- Precedence only affects the tree, not which token lists are expressions.
  -- Deviation: a unary expression may be the left operand of `**`.
  | BinaryExpression => alts [.nt UnaryExpression,
      seqs [.nt BinaryExpression, .t .binaryOp, .nt BinaryExpression]]
  | UnaryExpression => alts [seqs [.notAhead [.ident b!"await"], .nt UpdateExpression],
      seqs [kw b!"delete", .nt UnaryExpression], seqs [kw b!"void", .nt UnaryExpression],
      seqs [kw b!"typeof", .nt UnaryExpression], seqs [.p .plus, .nt UnaryExpression],
      seqs [.p .minus, .nt UnaryExpression], seqs [.p .tilde, .nt UnaryExpression],
      seqs [.p .exclam, .nt UnaryExpression],
      seqs [.onlyIf .await true, kw b!"await", .nt UnaryExpression]]
  -- Deviation: the operand of a prefix `++` may be an update expression.
  | UpdateExpression => alts [seqs [.alt (.p .plusPlus) (.p .minusMinus), .nt UpdateExpression],
      seqs [.nt (LeftHandSideExpression true),
        .alt .line (seqs [.noLine, alts [.p .plusPlus, .p .minusMinus,
          seqs [.notAhead [.punct .plusPlus], .notAhead [.punct .minusMinus]]]])]]
  -- Deviation: `super` may stand alone; `new.target` is missing.
  | LeftHandSideExpression c => seqs
      [alts [seqs [kw b!"new", .nt (LeftHandSideExpression false)], .nt PrimaryExpression,
         kw b!"super"],
       .star (alts ([seqs [.p .period, .name],
         seqs [.p .squareOpen, expression, .p .squareClose], .nt TemplateLiteral] ++
         if c then [.nt Arguments] else [])),
       noMember c]
  -- Deviation: no two spread arguments in succession.
  | Arguments => seqs [.p .parenOpen,
      .inn (.star (seqs [.opt (seqs [.p .ellipsis, .nt AssignmentExpression, .p .comma]),
        .nt AssignmentExpression, .p .comma])),
      .inn (alts [.opt (.nt AssignmentExpression),
        seqs [.p .ellipsis, .nt AssignmentExpression,
          .opt (seqs [.p .comma, .opt (.nt AssignmentExpression)])]]), .p .parenClose]
  -- Deviation: a class expression is the word `class`; a name is not followed by `function`, not even
  -- on the next line.
  | PrimaryExpression => alts [kw b!"this", seqs [.binding, .notAhead [.ident b!"function"]], .t .num, .t .str, kw b!"true", kw b!"false",
      kw b!"null", .nt ArrayLiteral, .nt ObjectLiteral, .t .regex, .nt TemplateLiteral,
      .nt CoverParenthesized, seqs [.notAhead [.ident b!"async"], .nt FunctionExpression], kw b!"class"]
  | ArrayLiteral => seqs [.p .squareOpen, .star (seqs [.opt (.nt ArrayElement), .p .comma]),
      .opt (.nt ArrayElement), .p .squareClose]
  | ArrayElement => .opt (seqs [.opt (.p .ellipsis), .nt AssignmentExpression])
  -- Deviation: properties may be missing between commas.
  | ObjectLiteral => seqs [.p .curlyOpen, .star (seqs [.opt (.nt PropertyDefinition), .p .comma]),
      .opt (.nt PropertyDefinition), .p .curlyClose]
  -- Deviation: `static` is allowed; the shorthand form may be any property name.
  | PropertyDefinition => alts [seqs [.p .ellipsis, .nt AssignmentExpression],
      seqs [alts [.nt (MethodHead .get false false), .nt (MethodHead .get true false),
          .nt (MethodHead .set false false), .nt (MethodHead .set true false),
          .nt (MethodHead .none false false), .nt (MethodHead .none true false),
          .nt (MethodHead .none false true)],
        .opt (seqs [.p .colon, .nt AssignmentExpression])],
      alts [seqs [.nt (MethodHead .get false false), .nt (MethodTail .get false false)],
        seqs [.nt (MethodHead .get true false), .nt (MethodTail .get true false)],
        seqs [.nt (MethodHead .set false false), .nt (MethodTail .set false false)],
        seqs [.nt (MethodHead .set true false), .nt (MethodTail .set true false)],
        seqs [.nt (MethodHead .none false false), .nt (MethodTail .none false false)],
        seqs [.nt (MethodHead .none true false), .nt (MethodTail .none true false)],
        seqs [.nt (MethodHead .none false true), .nt (MethodTail .none false true)]]]
  | TemplateLiteral => alts [.t (.tmpl .noSubstitution),
      seqs [.t (.tmpl .head), .star (seqs [.nt Expression, .t (.tmpl .middle)]), .nt Expression,
        .t (.tmpl .tail)]]
  -- Deviation (a cover grammar that is not refined afterwards): `( )` is an expression, and rest
  -- elements may stand anywhere after a comma.
  | CoverParenthesized => seqs [.p .parenOpen,
      .opt (.alt (seqs [.nt AssignmentExpression,
          .star (seqs [.p .comma, .alt (seqs [.p .ellipsis, patternOrName])
            (.nt AssignmentExpression)])])
        (seqs [.p .ellipsis, patternOrName])), .p .parenClose]

/-- A semicolon may be inserted in front of this token: it follows a line terminator, or is `}`, or is
the end of the text.  (No semicolon is inserted in front of a semicolon.) -/
def InsertSemi (x : Tok) : Prop :=
  x.2 ≠ .punct .semicolon ∧ (x.1 = true ∨ x.2 = .punct .curlyClose ∨ x.2 = .eof)

/-- After `let` in the head of a `for`, this token begins what is declared. -/
def BeginsBinding (t : Token) : Prop :=
  t = .punct .squareOpen ∨ t = .punct .curlyOpen ∨
    ∃ v, t = .ident v ∧ v ≠ b!"in" ∧ v ≠ b!"of"

/-- The head of a `for` that begins with these tokens contains a declaration. -/
def BeginsForDeclaration (u : List Tok) : Prop :=
  ∃ x y v, u = x :: y :: v ∧ (x.2 = .ident b!"var" ∨ x.2 = .ident b!"const" ∨
    (x.2 = .ident b!"let" ∧ BeginsBinding y.2))

/-- These tokens begin with `function`, not followed by `function` on the same line. -/
def BeginsFunction (u : List Tok) : Prop :=
  ∃ x y v, u = x :: y :: v ∧ x.2 = .ident b!"function" ∧ ¬ (y.1 = false ∧ y.2 = .ident b!"function")

/-- These tokens begin with `async` and a name on the same line. -/
def BeginsAsync (C : Ctx) (u : List Tok) : Prop :=
  ∃ l n v, u = (l, .ident b!"async") :: (false, .ident n) :: v ∧ BindingName C n

/-- `Der C g u v`: with parameters `C`, the tokens of `u` that precede its suffix `v` are derived from
`g`.  (`u = w ++ v` where `w` is derived; the restrictions on lookahead see the beginning of `v`.) -/
inductive Der : Ctx → G → List Tok → List Tok → Prop
  | t {C k l x v} : k.Is C x → Der C (.t k) ((l, x) :: v) v
  | nt {C n u v} : Der C (production n) u v → Der C (.nt n) u v
  | par {C f b g u v} : Der (C.set b f) g u v → Der C (.par f b g) u v
  | onlyIf {C f b u} : C.get f = b → Der C (.onlyIf f b) u u
  | noLine {C x u} : x.1 = false → Der C .noLine (x :: u) (x :: u)
  | line {C x u} : x.1 = true → Der C .line (x :: u) (x :: u)
  | sameLine {C x y u} : y.1 = false → Der C .sameLine (x :: y :: u) (x :: y :: u)
  | notAhead {C ts x u} : x.2 ∉ ts → Der C (.notAhead ts) (x :: u) (x :: u)
  | notDeclared {C u} : ¬ BeginsForDeclaration u → Der C .notDeclared u u
  | notFunction {C u} : ¬ BeginsFunction u → Der C .notFunction u u
  | notStart {C x u} : ¬ Starts C x.2 → Der C .notStart (x :: u) (x :: u)
  | noTemplate {C x u} : ¬ BeginsTemplate x.2 → Der C .noTemplate (x :: u) (x :: u)
  | notAsync {C u} : ¬ BeginsAsync C u → Der C .notAsync u u
  | semi {C l u} : Der C .semi ((l, .punct .semicolon) :: u) u
  | insert {C x u} : InsertSemi x → Der C .semi (x :: u) (x :: u)
  | semiDo {C l u} : Der C .semiDo ((l, .punct .semicolon) :: u) u
  | insertDo {C x u} : x.2 ≠ .punct .semicolon → Der C .semiDo (x :: u) (x :: u)
  | eps {C u} : Der C .eps u u
  | seq {C a b u v w} : Der C a u v → Der C b v w → Der C (.seq a b) u w
  | altl {C a b u v} : Der C a u v → Der C (.alt a b) u v
  | altr {C a b u v} : Der C b u v → Der C (.alt a b) u v
  | skip {C a u} : Der C (.opt a) u u
  | opt {C a u v} : Der C a u v → Der C (.opt a) u v
  | nil {C a u} : Der C (.star a) u u
  | star {C a u v w} : Der C a u v → Der C (.star a) v w → Der C (.star a) u w

/-- A token list is a program: derived from Module, with all parameters off. -/
def Program (u : List Tok) : Prop := Der {} (.nt .Module) u []

end Jsparse.Spec
