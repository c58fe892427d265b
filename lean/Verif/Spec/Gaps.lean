import Verif.Spec.Lexical
import Verif.Spec.Ranges
/-!
# The text between two tokens
-/

namespace Jsparse.Spec

open Jsparse

/-- One of the four line terminators (CR LF is two of them in a row). -/
def Terminator (d : Bytes) : Prop :=
  d = [0x0A] ∨ d = [0x0D] ∨ d = lineSeparator ∨ d = paragraphSeparator

instance (d : Bytes) : Decidable (Terminator d) := inferInstanceAs (Decidable (_ ∨ _))

/-- Text that separates tokens: blanks, line terminators and comments, in any order.  The flag says
whether a line terminator occurs in it. -/
inductive Gap : Bytes → Bool → Prop
  | nil : Gap [] false
  | blank (b : UInt8) (g : Bytes) (f : Bool) : Blank b → Gap g f → Gap (b :: g) f
  | newline (d g : Bytes) (f : Bool) : Terminator d → Gap g f → Gap (d ++ g) true
  | block (cs : List Char) (g : Bytes) (f : Bool) : (∀ a b, encode cs = a ++ b → b ≠ [] →
      ¬ b!"*/" <+: b ++ b!"*/") → Gap g f →
      Gap (b!"/*" ++ encode cs ++ b!"*/" ++ g) (cs.any isTerminator || f)
  | line (cs : List Char) (d g : Bytes) (f : Bool) : (∀ c ∈ cs, isTerminator c = false) →
      Terminator d → Gap g f → Gap (b!"//" ++ encode cs ++ d ++ g) true

/-- The gap begins with a blank or a line terminator, so that it ends the token before it. -/
def Separates (g : Bytes) : Prop := (∃ b r, g = b :: r ∧ Blank b) ∨ StartsLine g

/-- The token `tok`, spelled `w`, is still read as such when the text `r` follows immediately. -/
def Apart (tok : Token) (w r : Bytes) : Prop :=
  ¬ ([c!"."] <:+ w ∧ [c!"."] <+: r) ∧
  match tok with
  | .ident _ => ∀ b r', r = b :: r' → ¬ IdentPart b
  | .num _ => ∀ b r', r = b :: r' → ¬ IdentPart b ∧ b ≠ c!"." ∧
      (([c!"e"] <:+ w ∨ [c!"E"] <:+ w) → b ≠ c!"+" ∧ b ≠ c!"-")
  | .regex _ _ => ∀ b r', r = b :: r' → ¬ Lower b
  | .punct p => (∀ q, q ≠ .lAngleExclamDashDash → spelling q <+: w ++ r →
      (spelling q).length ≤ (spelling p).length) ∧
      (p = .slash → ¬ b!"/" <+: r ∧ ¬ b!"*" <+: r) ∧
      (p = .period → ∀ b r', r = b :: r' → ¬ Digit b)
  | .comment .line _ => StartsLine r
  | _ => True

end Jsparse.Spec
