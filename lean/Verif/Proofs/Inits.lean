import Verif.Proofs.Letters
/-!
# Declarations and their initializers
-/

namespace Jsparse

open Spec

namespace Inits

/-- The last token: `.`; the word `const` or `var`; a comma between declarators (`more`); the end of a
name or pattern that needs an initializer (`bound`). -/
inductive Last where
  | other | dot | const | var | more | bound
  deriving DecidableEq, Repr

/-- The declaration at this level of brackets: none, `const` or `var`. -/
inductive Mode where
  | none | const | var
  deriving DecidableEq, Repr

abbrev Q := Mode × Last

inductive K where
  | dot | const | var | as | yield | comma | semicolon | eq | inOf | name | close | other
  deriving DecidableEq

abbrev L := Bool × K

def words : List (Nat × K) :=
  [(w!"const", .const), (w!"var", .var), (w!"as", .as), (w!"yield", .yield), (w!"in", .inOf),
   (w!"of", .inOf)]

def kind : Ltr K → K
  | .punct .period => .dot
  | .punct .comma => .comma
  | .punct .semicolon => .semicolon
  | .punct .eq => .eq
  | .punct .curlyClose => .close
  | .eof => .close
  | .word k => k
  | .ident _ => .name
  | _ => .other

def see (b : Bool) (l : Ltr K) : L := (b, kind l)

def isWord : K → Bool
  | .const | .var | .as | .yield | .inOf | .name => true
  | _ => false

/-- A token where nothing special precedes it. -/
def plain (m : Mode) (k : K) : Option Q :=
  match k, m with
  | .dot, m => some (m, .dot)
  | .const, .none => some (.const, .const)
  | .const, _ => none
  | .var, .none => some (.var, .var)
  | .var, _ => none
  | .yield, _ => some (.none, .other)
  | .semicolon, _ => some (.none, .other)
  | .comma, .none => some (.none, .other)
  | .comma, .const => some (.const, .more)
  | .comma, .var => some (.var, .more)
  | _, m => some (m, .other)

/-- A name that is declared. -/
def named : Mode → Q
  | .const => (.const, .bound)
  | m => (m, .other)

def step (q : Q) (l : L) : Option Q :=
  match q.2, l.2 with
  | .bound, .eq => some (q.1, .other)
  | .bound, .inOf => some (q.1, .other)
  | .bound, _ => none
  | .const, .name => some (.const, .bound)
  | .const, .inOf => some (.const, .bound)
  | .const, .const => none
  | .const, .var => none
  | .const, .yield => none
  | .const, _ => some (.none, .other)
  | .var, .name => some (.var, .other)
  | .var, .inOf => some (.var, .other)
  | .var, .const => none
  | .var, .var => none
  | .var, .yield => none
  | .var, _ => some (.none, .other)
  | .more, .name => some (named q.1)
  | .more, .inOf => some (named q.1)
  | .more, .as => some (named q.1)
  | .more, _ => none
  | .dot, k =>
    match isWord k with
    | true => some (q.1, .other)
    | false => plain q.1 k
  | .other, .comma => plain q.1 .comma
  | .other, k =>
    match l.1 with
    | true => plain .none k
    | false => plain q.1 k

/-- A bracket on a new line may begin a statement. -/
def before (q : Q) (l : L) : Q :=
  match q.2 with
  | .other =>
    match l.1 with
    | true => (.none, .other)
    | false => q
  | _ => q

def enter (q : Q) (_ : Br) : Option Q :=
  match q.2 with
  | .bound => none
  | _ => some (.none, .other)

def next (q : Q) : Option Q :=
  match q.2 with
  | .bound => none
  | .more => none
  | _ => some (.none, .other)

def leave (p q : Q) (b : Br) : Option Q :=
  match q.2 with
  | .bound => none
  | .more => none
  | _ =>
    match p.2, b with
    | .const, .square => some (.const, .bound)
    | .const, .curly => some (.const, .bound)
    | .const, _ => some (.none, .other)
    | .var, .square => some (.var, .bound)
    | .var, .curly => some (.var, .bound)
    | .var, _ => some (.none, .other)
    | .more, .square => some (p.1, .bound)
    | .more, .curly => some (p.1, .bound)
    | .more, _ => none
    | _, _ => some (p.1, .other)

def states : List Q :=
  [(.none, .other), (.none, .dot), (.none, .const), (.none, .var), (.none, .more), (.none, .bound),
   (.const, .other), (.const, .dot), (.const, .const), (.const, .var), (.const, .more),
   (.const, .bound),
   (.var, .other), (.var, .dot), (.var, .const), (.var, .var), (.var, .more), (.var, .bound)]

def isClose : K → Bool
  | .close => true
  | _ => false

def lens : Lens Q K L where
  states := states
  words := words
  see := see
  step := step
  before := before
  enter := enter
  next := next
  leave := leave
  keeps := true
  agrees p l :=
    match p with
    | .any => true
    | .ins => l.1 || isClose l.2
    | .same => !l.1
    | .close => !l.1 && isClose l.2
  names := [(true, .const), (true, .var), (true, .as), (true, .yield), (true, .inOf), (true,
    .name), (false, .const), (false, .var), (false, .as), (false, .yield), (false, .inOf), (false, .name)]
  bindings := [(true, .as), (true, .inOf), (true, .name), (false, .as), (false, .inOf), (false,
    .name)]
  assigns := [(true, .eq), (true, .other), (false, .eq), (false, .other)]
  binaries := [(true, .inOf), (true, .name), (true, .other), (false, .inOf), (false, .name),
    (false, .other)]

theorem right : lens.Right := by
  constructor <;> decide +kernel

-- TABLE
def rows : NT → List (Nat × List Nat)
  | .Module
    => [(0, [0, 6, 12])]
  | .ModuleItem | .StatementListItem | .CaseClause | .DefaultClause
    => [(0, [0, 18, 24, 30, 36, 54, 60, 66]), (18, [0, 18, 24, 30, 36, 54, 60, 66]), (24, [0, 18, 24,
      30, 36, 54, 60, 66]), (30, [0, 18, 24, 30, 36, 54, 60, 66]), (36, [0, 18, 24, 30, 36,
      54, 60, 66]), (54, []), (60, []), (66, [])]
  | .Declaration | .ConstDeclaration
    => [(0, [0, 18, 24, 54, 60]), (18, [0, 18, 24, 54, 60]), (24, [0, 18, 24, 54, 60]), (30, [0, 18,
      24, 54, 60]), (36, [0, 18, 24, 54, 60]), (54, []), (60, []), (66, [])]
  | .Statement | .IfStatement | .BreakableStatement | .IterationStatement | .While | .For |
    .WithStatement | .LabelledStatement
    => [(0, [0, 18, 30, 36, 54, 66]), (18, [0, 18, 30, 36, 54, 66]), (24, [0, 18, 30, 36, 54, 66]),
      (30, [0, 18, 30, 36, 54, 66]), (36, [0, 18, 30, 36, 54, 66]), (54, []), (60, []), (66,
      [])]
  | .Block | .FunctionExpression | .PrimaryExpression | .ArrayLiteral | .ObjectLiteral |
    .TemplateLiteral | .CoverParenthesized | .LeftHandSideExpression true
    => [(0, [0]), (6, [0, 6]), (12, [0, 12]), (18, [0]), (24, [0]), (30, [0]), (36, [0]), (54, []),
      (60, []), (66, [])]
  | .VariableStatement
    => [(0, [0, 18, 30, 54, 66]), (18, [0, 18, 30, 54, 66]), (24, [0, 18, 30, 54, 66]), (30, [0, 18,
      30, 54, 66]), (36, [0, 18, 30, 54, 66]), (54, []), (60, []), (66, [])]
  | .VariableDeclaration
    => [(0, [0, 36]), (15, [0, 12, 36, 48]), (16, [0, 12, 36, 48])]
  | .ExpressionStatement | .ContinueStatement | .BreakStatement | .ReturnStatement |
    .LetDeclaration
    => [(0, [0, 18, 54]), (18, [0, 18, 54]), (24, [0, 18, 54]), (30, [0, 18, 54]), (36, [0, 18, 54]),
      (54, []), (60, []), (66, [])]
  | .DoWhile | .SwitchStatement | .TryStatement | .FunctionDeclaration | .ClassDeclaration
    => [(0, [0]), (18, [0]), (24, [0]), (30, [0]), (36, [0]), (54, []), (60, []), (66, [])]
  | .ThrowStatement | .Expression
    => [(0, [0, 36]), (18, [0, 36]), (24, [0, 36]), (30, [0, 36]), (36, [0, 36]), (54, []), (60, []),
      (66, [])]
  | .DebuggerStatement | .ImportDeclaration
    => [(0, [0, 18]), (18, [0, 18]), (24, [0, 18]), (30, [0, 18]), (36, [0, 18]), (54, []), (60, []),
      (66, [])]
  | .BindingPattern | .ObjectBindingPattern | .ArrayBindingPattern
    => [(0, [0]), (8, [11]), (10, [11]), (15, [17]), (16, [17])]
  | .BindingProperty | .PropertyDefinition | .MethodHead .none false true
    => [(0, [0, 8, 15, 36])]
  | .BindingElement | .ArrayElement | .LexicalBinding false
    => [(0, [0, 36])]
  | .BindingRestElement | .ClassHeritage | .ClassBody | .ClassElement
    => [(0, [0])]
  | .Initializer
    => [(0, [0, 36]), (8, [0, 36]), (11, [0, 6, 36, 42]), (12, [0, 12, 36, 48]), (15, [0, 36]), (17,
      [0, 12, 36, 48])]
  | .PropertyName
    => [(0, [0, 8, 15]), (36, [0, 8, 15])]
  | .FormalParameters
    => [(0, [0]), (6, [0, 6]), (8, [0]), (12, [0, 12]), (15, [0]), (36, [0])]
  | .ImportSpecifier | .ExportSpecifier | .MethodHead .get true false | .MethodHead .get false
    false | .MethodHead .set true false | .MethodHead .set false false | .MethodHead .none true
    false | .MethodHead .none false false
    => [(0, [0, 8, 15])]
  | .ExportDeclaration
    => [(0, [0, 18, 24, 30, 54, 60, 66]), (18, [0, 18, 24, 30, 54, 60, 66]), (24, [0, 18, 24, 30, 54,
      60, 66]), (30, [0, 18, 24, 30, 54, 60, 66]), (36, [0, 18, 24, 30, 54, 60, 66]), (54,
      []), (60, []), (66, [])]
  | .AssignmentExpression | .ConditionalExpression | .BinaryExpression | .UnaryExpression |
    .UpdateExpression
    => [(0, [0, 36]), (6, [0, 6, 36, 42]), (12, [0, 12, 36, 48]), (18, [0, 36]), (24, [0, 36]), (30,
      [0, 36]), (36, [0, 36]), (54, []), (60, []), (66, [])]
  | .ArrowBody
    => [(0, [0, 36]), (6, [0, 6, 36, 42]), (12, [0, 12, 36, 48])]
  | .YieldExpression
    => [(0, [0, 36]), (6, [0, 36]), (12, [0, 36]), (18, [0, 36]), (24, [0, 36]), (30, [0, 36]), (36,
      [0, 36]), (54, []), (60, []), (66, [])]
  | .Arguments | .LeftHandSideExpression false | .FunctionRest true false | .FunctionRest false
    true | .FunctionRest false false
    => [(0, [0]), (6, [0, 6]), (12, [0, 12])]
  | .LexicalBinding true
    => [(0, [0, 36]), (8, [0, 6, 36, 42]), (10, [0, 6, 36, 42])]
  | .MethodTail .get true false | .MethodTail .get false false | .MethodTail .set true false
  | .MethodTail .set false false | .MethodTail .none true false | .MethodTail .none false
    false
    => [(0, [0]), (8, [0]), (15, [0])]
  | .MethodTail .none false true
    => [(0, [0]), (8, [0]), (15, [0]), (36, [0])]
  | _ => []

-- END

theorem closed : Closed lens.auto (tableOf states rows) :=
  closed_iff (qs := states) (by
    rintro ⟨b, l⟩
    cases b <;> cases l <;> decide) (by decide +kernel)

end Inits

end Jsparse
