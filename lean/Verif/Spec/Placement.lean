import Verif.Spec.Grammar
import Verif.Spec.Nesting
/-!
# Which tokens may stand next to each other

Statements about the tokens of a program that speak of neighbouring tokens only and mention neither
the parser nor the grammar.  A token comes with the flag "a line terminator precedes it".  The words
of the language are also names of properties, so that most statements leave aside a word after `.`.
-/

namespace Jsparse.Spec

/-- The last token is `.`, so that a word after it is the name of a property. -/
def AfterDot (pre : List Tok) : Prop := (pre.map (·.2)).getLast? = some (.punct .period)

/-- A name that is reserved: a ReservedWord or `yield`. -/
def ReservedName (t : Token) : Prop := ∃ v, t = .ident v ∧ (v ∈ reservedWords ∨ v = b!"yield")

/-- The tokens that may follow a reserved word that is the name of a property, an imported or
exported name or a label: `:` `,` `=` `(` `}` `as`. -/
def nameFollow : List Token :=
  [.punct .colon, .punct .comma, .punct .eq, .punct .parenOpen, .punct .curlyClose, .ident b!"as"]

/-- Imports and exports are at the top level. -/
structure ModuleItemsOutside (u : List Tok) : Prop where
  /-- inside brackets, `import` and `export` only occur as names -/
  nested : ∀ pre k x post, u = pre ++ k :: x :: post → ¬ AfterDot pre →
    k.2 ∈ [.ident b!"import", .ident b!"export"] → nest [] (pre.map (·.2)) ≠ some [] →
    x.2 ∈ nameFollow
  /-- as the body of a statement, `import` and `export` are labels -/
  body : ∀ pre s k x post, u = pre ++ s :: k :: x :: post → ¬ AfterDot pre →
    s.2 ∈ [.ident b!"else", .ident b!"do", .punct .arrow, .punct .colon] →
    k.2 ∈ [.ident b!"import", .ident b!"export"] → x.2 = .punct .colon
  /-- the same after the condition of `if` and the heads of `for` and `with`; not for `while`, because
  after `do … while (…)` a new statement begins -/
  branch : ∀ pre s o m c k x post, u = pre ++ s :: o :: (m ++ c :: k :: x :: post) → ¬ AfterDot pre →
    s.2 ∈ [.ident b!"if", .ident b!"for", .ident b!"with"] → o.2 = .punct .parenOpen →
    Balanced (m.map (·.2)) → c.2 = .punct .parenClose →
    k.2 ∈ [.ident b!"import", .ident b!"export"] → x.2 = .punct .colon

/-- Reserved words are not names of variables, functions, parameters and jump targets. -/
structure NamesFit (u : List Tok) : Prop where
  declared : ∀ pre k x post, u = pre ++ k :: x :: post → ¬ AfterDot pre →
    k.2 ∈ [.ident b!"var", .ident b!"const", .ident b!"import"] → ¬ ReservedName x.2
  function : ∀ pre k s x post, u = pre ++ k :: (s ++ x :: post) → ¬ AfterDot pre →
    k.2 = .ident b!"function" → s.map (·.2) ∈ [[], [.punct .star]] → ¬ ReservedName x.2
  caught : ∀ pre k o x post, u = pre ++ k :: o :: x :: post → ¬ AfterDot pre →
    k.2 = .ident b!"catch" → o.2 = .punct .parenOpen → ¬ ReservedName x.2
  /-- the first parameter of a function, and any parameter (`r` is empty or `...`) after some
  parameters `d` -/
  firstParameter : ∀ pre k s n o r x post,
    u = pre ++ k :: (s ++ (n ++ o :: (r ++ x :: post))) → ¬ AfterDot pre →
    k.2 = .ident b!"function" → s.map (·.2) ∈ [[], [.punct .star]] →
    (n = [] ∨ ∃ y v, n = [y] ∧ y.2 = .ident v) → o.2 = .punct .parenOpen →
    r.map (·.2) ∈ [[], [.punct .ellipsis]] → ¬ ReservedName x.2
  parameter : ∀ pre k s n o d c r x post,
    u = pre ++ k :: (s ++ (n ++ o :: (d ++ c :: (r ++ x :: post)))) → ¬ AfterDot pre →
    k.2 = .ident b!"function" → s.map (·.2) ∈ [[], [.punct .star]] →
    (n = [] ∨ ∃ y v, n = [y] ∧ y.2 = .ident v) → o.2 = .punct .parenOpen →
    Balanced (d.map (·.2)) → (∀ y ∈ d, y.2 ≠ .ident b!"yield") → c.2 = .punct .comma →
    r.map (·.2) ∈ [[], [.punct .ellipsis]] → ¬ ReservedName x.2
  jump : ∀ pre k x post, u = pre ++ k :: x :: post → ¬ AfterDot pre →
    k.2 ∈ [.ident b!"break", .ident b!"continue"] → x.1 = false → ¬ ReservedName x.2
  /-- `enum` is only the name of a property, an imported or exported name or a label -/
  enum : ∀ pre k x post, u = pre ++ k :: x :: post → ¬ AfterDot pre →
    k.2 = .ident b!"enum" → x.2 ∈ nameFollow

/-- What must follow something that is declared and needs a value: an initializer, or the rest of a
`for` head. -/
def valueFollow : List Token := [.punct .eq, .ident b!"in", .ident b!"of"]

/-- An array or object pattern with brackets around balanced tokens. -/
def Bracketed (w : List Tok) : Prop :=
  ∃ o m c, w = o :: (m ++ [c]) ∧ Balanced (m.map (·.2)) ∧
    ((o.2 = .punct .squareOpen ∧ c.2 = .punct .squareClose) ∨
      (o.2 = .punct .curlyOpen ∧ c.2 = .punct .curlyClose))

/-- Tokens that certainly belong to one declaration: on one line, brackets balanced, without `;` and
`yield`. -/
def OneDeclaration (e : List Tok) : Prop :=
  Balanced (e.map (·.2)) ∧
    ∀ z ∈ e, z.1 = false ∧ z.2 ≠ .punct .semicolon ∧ z.2 ≠ .ident b!"yield"

/-- Constants and patterns are initialized. -/
structure InitsFit (u : List Tok) : Prop where
  const : ∀ pre k x v y post, u = pre ++ k :: x :: y :: post → ¬ AfterDot pre →
    k.2 = .ident b!"const" → x.2 = .ident v → v ≠ b!"as" → y.2 ∈ valueFollow
  pattern : ∀ pre k w y post, u = pre ++ k :: (w ++ y :: post) → ¬ AfterDot pre →
    k.2 ∈ [.ident b!"const", .ident b!"var"] → Bracketed w → y.2 ∈ valueFollow
  /-- the further declarators of one declaration -/
  nextConst : ∀ pre k x v e c x' v' y post,
    u = pre ++ k :: x :: (e ++ c :: x' :: y :: post) → ¬ AfterDot pre →
    k.2 = .ident b!"const" → x.2 = .ident v → v ≠ b!"as" → OneDeclaration e → c.2 = .punct .comma →
    x'.2 = .ident v' → y.2 ∈ valueFollow
  nextPattern : ∀ pre k x v e c w y post,
    u = pre ++ k :: x :: (e ++ c :: (w ++ y :: post)) → ¬ AfterDot pre →
    k.2 ∈ [.ident b!"const", .ident b!"var"] → x.2 = .ident v → v ≠ b!"as" → OneDeclaration e →
    c.2 = .punct .comma → Bracketed w → y.2 ∈ valueFollow

/-- The names that are words of the language in certain places only. -/
def contextWords : List Bytes :=
  [b!"let", b!"get", b!"set", b!"static", b!"async", b!"await", b!"of", b!"as", b!"from"]

/-- Tokens that end an operand wherever they occur. -/
inductive EndsOperand : Token → Prop
  | num (n) : EndsOperand (.num n)
  | str (v) : EndsOperand (.str v)
  | regex (v f) : EndsOperand (.regex v f)
  | array : EndsOperand (.punct .squareClose)
  | template (f r c) (h : f = .noSubstitution ∨ f = .tail) : EndsOperand (.template f r c)
  | name (v) (h : v ∉ reservedWords) (h' : v ≠ b!"yield") (h'' : v ∉ contextWords) :
    EndsOperand (.ident v)
  | value (v) (h : v ∈ [b!"this", b!"null", b!"true", b!"false", b!"super"]) :
    EndsOperand (.ident v)

/-- Tokens that cannot continue an expression after an operand. -/
inductive BeginsOperand : Token → Prop
  | num (n) : BeginsOperand (.num n)
  | str (v) : BeginsOperand (.str v)
  | regex (v f) : BeginsOperand (.regex v f)
  | word (v) (h : v ∉ [b!"of", b!"as", b!"from", b!"in", b!"instanceof", b!"extends"]) :
    BeginsOperand (.ident v)

/-- On one line, there is something between two operands. -/
structure OperandsSeparated (u : List Tok) : Prop where
  operands : ∀ pre x y post, u = pre ++ x :: y :: post → EndsOperand x.2 → BeginsOperand y.2 →
    y.1 = true
  /-- the name of a property, whatever it is -/
  property : ∀ pre d x v y post, u = pre ++ d :: x :: y :: post → d.2 = .punct .period →
    x.2 = .ident v → BeginsOperand y.2 → y.1 = true
  /-- `class` and `let` are not followed by a reserved word or a literal -/
  head : ∀ pre k y post, u = pre ++ k :: y :: post → ¬ AfterDot pre →
    k.2 ∈ [.ident b!"class", .ident b!"let"] → BeginsOperand y.2 → (∀ v, y.2 = .ident v →
      v ∈ reservedWords) → y.1 = true

end Jsparse.Spec
