import Verif.Proofs.Letters
/-!
# Reserved words are not names of variables, parameters, functions and labels
-/

namespace Jsparse

open Spec

namespace Names

/-- The last token: `.`; a word that is followed by a new name; `function`; the name of a function;
`catch`; a place for a new name (`bind`); `break` or `continue`; `enum` (`pend`). -/
inductive Last where
  | other | dot | decl | func | fname | catchW | bind | jump | pend
  deriving DecidableEq, Repr

/-- The state: whether the innermost bracket is a parameter list, and the last token. -/
abbrev Q := Bool × Last

inductive K where
  | dot | decl | func | catchW | jump | pend | as | yield | star | comma | ellipsis | colon | eq
  | reserved | name | other
  deriving DecidableEq

abbrev L := Bool × K

def words : List (Nat × K) :=
  [(w!"var", .decl), (w!"const", .decl), (w!"import", .decl), (w!"function", .func),
   (w!"catch", .catchW), (w!"break", .jump), (w!"continue", .jump), (w!"enum", .pend), (w!"as", .as),
   (w!"yield", .yield)]

def kind : Ltr K → K
  | .punct .period => .dot
  | .punct .star => .star
  | .punct .comma => .comma
  | .punct .ellipsis => .ellipsis
  | .punct .colon => .colon
  | .punct .eq => .eq
  | .word k => k
  | .ident true => .reserved
  | .ident false => .name
  | _ => .other

def see (b : Bool) (l : Ltr K) : L := (b, kind l)

def isWord : K → Bool
  | .decl | .func | .catchW | .jump | .pend | .as | .yield | .reserved | .name => true
  | _ => false

def bad : K → Bool
  | .decl | .func | .catchW | .jump | .pend | .yield | .reserved => true
  | _ => false

/-- The last token, where nothing special precedes it. -/
def plain (par : Bool) : K → Last
  | .dot => .dot
  | .decl => .decl
  | .func => .func
  | .catchW => .catchW
  | .jump => .jump
  | .pend => .pend
  | .comma => if par then .bind else .other
  | _ => .other

def notYield : K → Bool
  | .yield => false
  | _ => true

def follows : K → Bool
  | .colon | .comma | .eq | .as => true
  | _ => false

def stepPar (par : Bool) (q : Last) (line : Bool) (k : K) : Option Q :=
  match q with
  | .dot =>
    match isWord k with
    | true => some (par, .other)
    | false => some (par, plain par k)
  | .decl =>
    match bad k with
    | true => none
    | false => some (par, plain par k)
  | .func =>
    match k, bad k, isWord k with
    | .star, _, _ => some (par, .func)
    | _, true, _ => none
    | _, _, true => some (par, .fname)
    | _, _, _ => some (par, plain par k)
  | .bind =>
    match k, bad k with
    | .ellipsis, _ => some (par, .bind)
    | _, true => none
    | _, _ => some (par, plain par k)
  | .jump =>
    match bad k && !line with
    | true => none
    | false => some (par, plain par k)
  | .pend =>
    match follows k with
    | true => some (par, plain par k)
    | false => none
  | _ => some (par, plain par k)

def step (q : Q) (l : L) : Option Q := stepPar (q.1 && notYield l.2) q.2 l.1 l.2

def enter (q : Q) (b : Br) : Option Q :=
  match q.2, b with
  | .func, .paren => some (true, .bind)
  | .fname, .paren => some (true, .bind)
  | .catchW, .paren => some (false, .bind)
  | .pend, .paren => some (false, .other)
  | .pend, _ => none
  | _, _ => some (false, .other)

def next (q : Q) : Option Q :=
  match q.2 with
  | .pend => none
  | _ => some (false, .other)

def leave (p q : Q) (b : Br) : Option Q :=
  match q.2, b with
  | .pend, .curly => some (p.1, .other)
  | .pend, _ => none
  | _, _ => some (p.1, .other)

def states : List Q :=
  [(false, .other), (false, .dot), (false, .decl), (false, .func), (false, .fname), (false, .catchW), (false, .bind), (false, .jump), (false, .pend),
   (true, .other), (true, .dot), (true, .decl), (true, .func), (true, .fname), (true, .catchW), (true, .bind), (true, .jump), (true, .pend)]

def isOther : K → Bool
  | .other => true
  | _ => false

def lens : Lens Q K L where
  states := states
  words := words
  see := see
  step := step
  enter := enter
  next := next
  leave := leave
  keeps := true
  agrees p l :=
    match p with
    | .any => true
    | .ins => l.1 || isOther l.2
    | .same => !l.1
    | .close => !l.1 && isOther l.2
  names := [(true, .decl), (true, .func), (true, .catchW), (true, .jump), (true, .pend), (true,
    .as), (true, .yield), (true, .reserved), (true, .name), (false, .decl), (false, .func), (false, .catchW), (false, .jump), (false, .pend), (false, .as), (false, .yield), (false, .reserved), (false, .name)]
  bindings := [(true, .as), (true, .name), (false, .as), (false, .name)]
  assigns := [(true, .eq), (true, .other), (false, .eq), (false, .other)]
  binaries := [(true, .star), (true, .reserved), (true, .other), (false, .star), (false,
    .reserved), (false, .other)]

theorem right : lens.Right := by
  constructor <;> decide +kernel

-- TABLE
def rows : NT → List (Nat × List Nat)
  | .Module | .ClassHeritage | .ClassBody | .ClassElement
    => [(0, [0])]
  | .ModuleItem | .StatementListItem | .Statement
    => [(0, [0, 18, 25, 36, 54, 61]), (18, [0, 18, 25, 36, 54, 61]), (25, [0, 18, 25, 36, 54, 61]),
      (36, [0, 18, 25, 36, 54, 61]), (54, [0, 18, 54]), (61, [0, 18, 54])]
  | .Declaration | .VariableStatement | .ReturnStatement | .LetDeclaration | .ConstDeclaration |
    .ExportDeclaration
    => [(0, [0, 18, 54]), (18, [0, 18, 54]), (25, [0, 18, 54]), (36, [0, 18, 54]), (54, []), (61,
      [])]
  | .Block | .PrimaryExpression | .ArrayLiteral | .ObjectLiteral | .TemplateLiteral |
    .CoverParenthesized
    => [(0, [0]), (9, [9]), (18, [0]), (25, [0]), (36, [0]), (54, [0]), (61, [0])]
  | .VariableDeclaration | .LexicalBinding true
    => [(0, [0, 36]), (2, [0, 36])]
  | .ExpressionStatement
    => [(0, [0, 18, 54]), (18, [0, 18, 54]), (25, [0, 18, 54]), (36, [0, 18, 54]), (54, [0, 18, 54]),
      (61, [0, 18, 54])]
  | .IfStatement | .BreakableStatement | .IterationStatement | .While | .For | .CaseClause |
    .DefaultClause | .WithStatement | .LabelledStatement
    => [(0, [0, 18, 25, 36, 54, 61]), (18, [0, 18, 25, 36, 54, 61]), (25, [0, 18, 25, 36, 54, 61]),
      (36, [0, 18, 25, 36, 54, 61]), (54, []), (61, [])]
  | .DoWhile | .SwitchStatement | .TryStatement | .FunctionDeclaration | .ClassDeclaration
    => [(0, [0]), (18, [0]), (25, [0]), (36, [0]), (54, []), (61, [])]
  | .ContinueStatement | .BreakStatement
    => [(0, [0, 18, 25, 61]), (18, [0, 18, 25, 61]), (25, [0, 18, 25, 61]), (36, [0, 18, 25, 61]),
      (54, []), (61, [])]
  | .ThrowStatement
    => [(0, [0, 36]), (18, [0, 36]), (25, [0, 36]), (36, [0, 36]), (54, []), (61, [])]
  | .DebuggerStatement | .ImportDeclaration
    => [(0, [0, 18]), (18, [0, 18]), (25, [0, 18]), (36, [0, 18]), (54, []), (61, [])]
  | .BindingPattern | .ObjectBindingPattern | .ArrayBindingPattern
    => [(0, [0]), (2, [0]), (6, [0]), (15, [9])]
  | .BindingProperty | .PropertyDefinition | .MethodHead .none false true
    => [(0, [0, 2, 3, 5, 7, 8, 36])]
  | .BindingElement | .ArrayElement | .LexicalBinding false
    => [(0, [0, 36])]
  | .BindingRestElement
    => [(0, [0]), (6, [0]), (15, [9])]
  | .Initializer
    => [(0, [0, 36]), (2, [0, 36]), (3, [0, 36]), (5, [0, 36]), (7, [0, 36]), (8, [0, 36]), (9, [0,
      9, 36, 45])]
  | .PropertyName
    => [(0, [0, 2, 3, 5, 7, 8]), (36, [0, 2, 3, 5, 7, 8])]
  | .FunctionExpression
    => [(0, [0]), (9, [9]), (18, [0]), (25, [0]), (36, [0]), (54, []), (61, [])]
  | .FormalParameters
    => [(0, [0]), (2, [0]), (3, [0]), (4, [0]), (5, [0]), (7, [0]), (8, [0]), (12, [9]), (13, [9]),
      (36, [0])]
  | .ImportSpecifier | .ExportSpecifier | .MethodHead .get true false | .MethodHead .get false
    false | .MethodHead .set true false | .MethodHead .set false false | .MethodHead .none true
    false | .MethodHead .none false false
    => [(0, [0, 2, 3, 5, 7, 8])]
  | .Expression
    => [(0, [0, 36]), (18, [0, 36]), (25, [0, 36]), (36, [0, 36]), (54, [0, 36]), (61, [0, 36])]
  | .AssignmentExpression | .ConditionalExpression | .BinaryExpression | .UnaryExpression |
    .UpdateExpression
    => [(0, [0, 36]), (9, [0, 9, 36, 45]), (18, [0, 36]), (25, [0, 36]), (36, [0, 36]), (54, [0,
      36]), (61, [0, 36])]
  | .ArrowBody
    => [(0, [0, 36]), (9, [0, 9, 36, 45])]
  | .YieldExpression
    => [(0, [0, 36]), (9, [0, 36]), (18, [0, 36]), (25, [0, 36]), (36, [0, 36]), (54, []), (61, [])]
  | .Arguments
    => [(0, [0]), (9, [9])]
  | .LeftHandSideExpression true
    => [(0, [0]), (9, [0, 9]), (18, [0]), (25, [0]), (36, [0]), (54, [0]), (61, [0])]
  | .LeftHandSideExpression false
    => [(0, [0]), (9, [0, 9])]
  | .FunctionRest true false | .FunctionRest false true | .FunctionRest false false
    => [(3, [0]), (4, [0]), (12, [9]), (13, [9])]
  | .MethodTail .get true false | .MethodTail .get false false | .MethodTail .set true false
  | .MethodTail .set false false | .MethodTail .none true false | .MethodTail .none false
    false
    => [(0, [0]), (2, [0]), (3, [0]), (5, [0]), (7, [0]), (8, [0])]
  | .MethodTail .none false true
    => [(0, [0]), (2, [0]), (3, [0]), (5, [0]), (7, [0]), (8, [0]), (36, [0])]
  | _ => []

-- END

theorem closed : Closed lens.auto (tableOf states rows) :=
  closed_iff (qs := states) (by
    rintro ⟨b, l⟩
    cases b <;> cases l <;> decide) (by decide +kernel)

end Names

end Jsparse
