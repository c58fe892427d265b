import Verif.Model.Tokens
import Verif.Spec.Text
/-!
# Tokens of the same kind
-/

namespace Jsparse.Spec

open Jsparse

/-- The words that have a meaning of their own somewhere in JavaScript. -/
def words : List Bytes :=
  [b!"as", b!"async", b!"await", b!"break", b!"case", b!"catch", b!"class", b!"const", b!"continue",
   b!"debugger", b!"default", b!"delete", b!"do", b!"else", b!"enum", b!"export", b!"extends",
   b!"false", b!"finally", b!"for", b!"from", b!"function", b!"get", b!"if", b!"implements",
   b!"import", b!"in", b!"instanceof", b!"interface", b!"let", b!"new", b!"null", b!"of",
   b!"package", b!"private", b!"protected", b!"public", b!"return", b!"set", b!"static", b!"super",
   b!"switch", b!"target", b!"this", b!"throw", b!"true", b!"try", b!"typeof", b!"var", b!"void",
   b!"while", b!"with", b!"yield"]

/-- Two tokens that differ at most in the value of a literal or in the choice of an ordinary name. -/
inductive SameKind : Token → Token → Prop
  | same (t : Token) : SameKind t t
  | name (a b : Bytes) : a ∉ words → b ∉ words → SameKind (.ident a) (.ident b)
  | number (a b : NumExpr) : SameKind (.num a) (.num b)
  | string (a b : Bytes) : SameKind (.str a) (.str b)
  | regex (p f p' f' : Bytes) : SameKind (.regex p f) (.regex p' f')
  | template (k : TemplateFormat) (c r c' r' : Bytes) : SameKind (.template k c r) (.template k c' r')

/-- Two marked tokens of the same kind: a line terminator comes before both or before neither. -/
def Alike (x y : Tok) : Prop := y.1 = x.1 ∧ SameKind x.2 y.2

/-- The same marked token, whatever the value of a number. -/
def SameTok (x y : Tok) : Prop := y.1 = x.1 ∧ (y.2 = x.2 ∨ ∃ v v', x.2 = .num v ∧ y.2 = .num v')

end Jsparse.Spec
