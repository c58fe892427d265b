import Verif.Model.Bytes
/-!
# Tokens, hints and positions

Models src/tokenizer/tokens.rs and the data types of src/tokenizer/mod.rs.
-/

namespace Jsparse

/-- Models `PunctuatorToken`, src/tokenizer/tokens.rs:4-59. -/
inductive Punct where
  | curlyOpen | curlyClose | parenOpen | parenClose | squareOpen | squareClose
  | semicolon | comma | tilde | question | colon | period | ellipsis
  | lAngle | lAngleEq | lAngleAngle | lAngleAngleEq | lAngleExclamDashDash
  | rAngle | rAngleEq | rAngleAngle | rAngleAngleEq | rAngleAngleAngle | rAngleAngleAngleEq
  | exclam | exclamEq | exclamEqEq
  | eq | arrow | eqEq | eqEqEq
  | plus | plusEq | plusPlus
  | minus | minusEq | minusMinus | minusMinusAngle
  | percent | percentEq
  | star | starEq | starStar | starStarEq
  | slash | slashEq
  | amp | ampAmp | ampEq
  | bar | barBar | barEq
  | caret | caretEq
  deriving DecidableEq, Repr

/-- Models `CommentFormat`, tokens.rs:66-72. -/
inductive CommentFormat where
  | line | block | htmlOpen | htmlClose
  deriving DecidableEq, Repr

/-- Models `TemplateFormat`, tokens.rs:143-153. -/
inductive TemplateFormat where
  | noSubstitution | head | middle | tail
  deriving DecidableEq, Repr

/-- The `f64` computation that produced the value of a numeric literal.  The model does not fix a
floating-point semantics: the tokenizer records the sequence of `f64` operations it performs and
`NumExpr.eval` (Verif/Spec/Numbers.lean) gives it a meaning in a chosen arithmetic. -/
inductive NumExpr where
  /-- a small integer constant, or `(v - b'0') as f64` -/
  | lit (n : Nat)
  /-- the constant `0.1`, slice.rs:832 -/
  | tenth
  | add (a b : NumExpr)
  | mul (a b : NumExpr)
  | div (a b : NumExpr)
  /-- `10f64.powi(exp)` -/
  | powi10 (exp : Int)
  deriving DecidableEq, Repr

/-- Models `Token`, tokens.rs:175-191.  `Cow<str>` payloads are byte strings; the payload-free
structs (`WhitespaceToken`, `LineTerminatorToken`, `EOFToken`) become plain constructors. -/
inductive Token where
  | punct (p : Punct)
  | comment (format : CommentFormat) (value : Bytes)
  | whitespace
  | lineTerminator
  | regex (pattern flags : Bytes)
  | ident (name : Bytes)
  | num (value : NumExpr)
  | str (value : Bytes)
  | template (format : TemplateFormat) (cooked raw : Bytes)
  | eof
  deriving DecidableEq, Repr

/-- `impl Default for Token`, tokens.rs:193-197. -/
instance : Inhabited Token := ⟨.eof⟩

/-- Models `Hint`, src/tokenizer/mod.rs:4-23 (`Default` is all `false`). -/
structure Hint where
  expression : Bool := false
  template : Bool := false
  strict : Bool := false
  deriving DecidableEq, Repr

/-- Models `Position`, src/tokenizer/mod.rs:25-35 (`Default` is all 0). `usize` is `Nat`: offsets
are bounded by the length of an in-memory string, so they cannot overflow. -/
structure Position where
  offset : Nat := 0
  line : Nat := 0
  column : Nat := 0
  deriving DecidableEq, Repr

/-- Models `TokenRange`, src/tokenizer/mod.rs:37-41. -/
structure TokenRange where
  start : Position := {}
  stop : Position := {}
  deriving DecidableEq, Repr

end Jsparse
