import Verif.Proofs.Letters
/-!
# Operands on the same line
-/

namespace Jsparse

open Spec

namespace Juxtaposed

/-- The last token: `.`; the end of an operand; `class` or `let`. -/
inductive Q where
  | other | dot | operand | class
  deriving DecidableEq, Repr

inductive K where
  | dot | throw | class | let
  /-- a name that is an operand -/
  | name
  /-- another name that is not reserved -/
  | context
  /-- a word that may follow an operand, not reserved -/
  | infix
  /-- the same, reserved -/
  | infixR
  /-- a word that is an operand, reserved -/
  | value
  | reserved
  | literal | template | close | other
  deriving DecidableEq

abbrev L := Bool × K

def words : List (Nat × K) :=
  [(w!"throw", .throw), (w!"class", .class),
   (w!"let", .let), (w!"get", .context), (w!"set", .context), (w!"static", .context),
   (w!"async", .context), (w!"await", .context),
   (w!"of", .infix), (w!"as", .infix), (w!"from", .infix),
   (w!"in", .infixR), (w!"instanceof", .infixR), (w!"extends", .infixR),
   (w!"this", .value), (w!"null", .value), (w!"true", .value), (w!"false", .value),
   (w!"super", .value)]

def kind : Ltr K → K
  | .punct .period => .dot
  | .punct .curlyClose => .close
  | .eof => .close
  | .word k => k
  | .ident true => .reserved
  | .ident false => .name
  | .num => .literal
  | .str => .literal
  | .regex => .literal
  | .tmpl .noSubstitution => .template
  | _ => .other

def see (b : Bool) (l : Ltr K) : L := (b, kind l)

def isWord : K → Bool
  | .dot | .literal | .template | .close | .other => false
  | _ => true

/-- May not follow an operand on the same line. -/
def begins : K → Bool
  | .throw | .class | .let | .name | .context | .value | .reserved | .literal => true
  | _ => false

/-- May not follow `class` and `let` on the same line. -/
def notName : K → Bool
  | .throw | .class | .value | .reserved | .literal => true
  | _ => false

def plain : K → Q
  | .dot => .dot
  | .class => .class
  | .let => .class
  | .name => .operand
  | .value => .operand
  | .literal => .operand
  | .template => .operand
  | _ => .other

def step (q : Q) (l : L) : Option Q :=
  match q with
  | .dot =>
    match isWord l.2 with
    | true => some .operand
    | false => some (plain l.2)
  | .operand =>
    match begins l.2 && !l.1 with
    | true => none
    | false => some (plain l.2)
  | .class =>
    match notName l.2 && !l.1 with
    | true => none
    | false => some (plain l.2)
  | .other => some (plain l.2)

def enter (_ : Q) (_ : Br) : Option Q :=
  some .other

def next (q : Q) : Option Q := enter q .template

def leave (_ _ : Q) (b : Br) : Option Q :=
  match b with
  | .square => some .operand
  | .template => some .operand
  | _ => some .other

def states : List Q := [.other, .dot, .operand, .class]

def isClose : K → Bool
  | .close => true
  | _ => false

def isThrow : K → Bool
  | .throw => true
  | _ => false

def lens : Lens Q K L where
  states := states
  words := words
  see := see
  step := step
  enter := enter
  next := next
  leave := leave
  keeps := true
  agrees p l :=
    match p with
    | .any => true
    | .ins => l.1 || isClose l.2
    | .same => !l.1
    | .close => !l.1 && isClose l.2
  absent l := isThrow l.2
  names := [(true, .throw), (true, .class), (true, .name), (true, .let), (true, .context), (true, .infix),
    (true, .infixR), (true, .value), (true, .reserved), (false, .throw), (false, .class), (false, .name), (false, .let), (false, .context), (false, .infix), (false, .infixR), (false, .value), (false, .reserved)]
  bindings := [(true, .name), (true, .let), (true, .context), (true, .infix), (false, .name), (false, .let), (false, .context),
    (false, .infix)]
  assigns := [(true, .other), (false, .other)]
  binaries := [(true, .infixR), (true, .other), (false, .infixR), (false, .other)]

theorem right : lens.Right := by
  constructor <;> decide +kernel

-- TABLE
def rows : NT → List (Nat × List Nat)
  | .Module | .ClassElement
    => [(0, [0])]
  | .ModuleItem | .StatementListItem | .Declaration | .Statement | .VariableStatement |
    .ExpressionStatement | .IfStatement | .BreakableStatement | .IterationStatement | .While | .For |
    .CaseClause | .DefaultClause | .ReturnStatement | .WithStatement | .LabelledStatement |
    .LetDeclaration | .ConstDeclaration | .ExportDeclaration
    => [(0, [0, 4, 6, 7, 12, 14, 15]), (4, [0, 4, 6, 7, 12, 14, 15]), (6, [0, 4, 6, 7, 12, 14, 15]),
      (7, [0, 4, 6, 7, 12, 14, 15]), (12, []), (14, []), (15, [])]
  | .Block | .DoWhile | .SwitchStatement | .TryStatement | .FunctionDeclaration |
    .ClassDeclaration
    => [(0, [0]), (4, [0]), (6, [0]), (7, [0]), (12, []), (14, []), (15, [])]
  | .VariableDeclaration | .BindingProperty | .BindingElement | .ArrowBody | .ArrayElement |
    .PropertyDefinition | .LexicalBinding true
    => [(0, [0, 2, 3, 8, 10, 11])]
  | .ContinueStatement | .BreakStatement
    => [(0, [0, 4, 6, 7, 12]), (4, [0, 4, 6, 7, 12]), (6, [0, 4, 6, 7, 12]), (7, [0, 4, 6, 7, 12]),
      (12, []), (14, []), (15, [])]
  | .ThrowStatement
    => [(0, []), (4, []), (6, []), (7, []), (12, []), (14, []), (15, [])]
  | .DebuggerStatement
    => [(0, [0, 4]), (4, [0, 4]), (6, [0, 4]), (7, [0, 4]), (12, []), (14, []), (15, [])]
  | .BindingPattern
    => [(0, [0, 2]), (3, [0, 2])]
  | .ObjectBindingPattern
    => [(0, [0]), (3, [0])]
  | .ArrayBindingPattern
    => [(0, [2]), (3, [2])]
  | .BindingRestElement | .ImportSpecifier | .ExportSpecifier | .LeftHandSideExpression false |
    .MethodHead .get true false | .MethodHead .get false false | .MethodHead .set true false |
    .MethodHead .set false false | .MethodHead .none true false | .MethodHead .none false false
    => [(0, [0, 2, 3])]
  | .Initializer
    => [(0, [0, 2, 3, 8, 10, 11]), (2, [0, 2, 3, 8, 10, 11]), (3, [0, 2, 3, 8, 10, 11])]
  | .PropertyName
    => [(0, [0, 2, 3]), (8, [0, 2, 3])]
  | .FunctionExpression | .ObjectLiteral | .CoverParenthesized
    => [(0, [0]), (4, [0]), (6, [0]), (7, [0]), (8, [0]), (12, []), (14, []), (15, [])]
  | .FormalParameters | .MethodTail .none false true
    => [(0, [0]), (2, [0]), (3, [0]), (8, [0])]
  | .ClassHeritage
    => [(0, [0, 2, 3]), (2, [0, 2, 3]), (3, [0, 2, 3])]
  | .ClassBody | .Arguments | .FunctionRest true false | .FunctionRest false true | .FunctionRest
    false false | .MethodTail .get true false | .MethodTail .get false false | .MethodTail .set
    true false | .MethodTail .set false false | .MethodTail .none true false | .MethodTail .none
    false false
    => [(0, [0]), (2, [0]), (3, [0])]
  | .ImportDeclaration
    => [(0, [0, 6]), (4, [0, 6]), (6, [0, 6]), (7, [0, 6]), (12, []), (14, []), (15, [])]
  | .Expression | .AssignmentExpression | .YieldExpression | .ConditionalExpression |
    .BinaryExpression | .UnaryExpression | .UpdateExpression
    => [(0, [0, 2, 3, 8, 10, 11]), (4, [0, 2, 3, 8, 10, 11]), (6, [0, 2, 3, 8, 10, 11]), (7, [0, 2,
      3, 8, 10, 11]), (8, [0, 2, 3, 8, 10, 11]), (12, []), (14, []), (15, [])]
  | .PrimaryExpression | .LeftHandSideExpression true
    => [(0, [0, 2, 3]), (4, [0, 2, 3]), (6, [0, 2, 3]), (7, [0, 2, 3]), (8, [0, 2, 3]), (12, []),
      (14, []), (15, [])]
  | .ArrayLiteral
    => [(0, [2]), (4, [2]), (6, [2]), (7, [2]), (8, [2]), (12, []), (14, []), (15, [])]
  | .TemplateLiteral
    => [(0, [2]), (2, [2]), (3, [2]), (4, [2]), (6, [2]), (7, [2]), (8, [2]), (12, []), (14, []),
      (15, [])]
  | .LexicalBinding false
    => [(0, [0, 2, 3, 8, 10, 11]), (3, [0, 2, 3, 8, 10, 11])]
  | .MethodHead .none false true
    => [(0, [0, 2, 3, 8])]
  | _ => []

-- END

theorem closed : Closed lens.auto (tableOf states rows) :=
  closed_iff (qs := states) (by
    rintro q
    cases q <;> decide) (by decide +kernel)

end Juxtaposed

end Jsparse
