import Verif.Spec.Strings
/-! # Writing tokens back, characters that start a token, longest match -/

namespace Jsparse.Spec

open Jsparse

/-- JavaScript syntax of a token.  Numbers are left out (the token does not keep their spelling); a
line terminator token may be any of the four line terminators. -/
inductive Renders : Token → Bytes → Prop
  | eof : Renders .eof []
  | punct (p) : Renders (.punct p) (spelling p)
  | ident (name) : Renders (.ident name) name
  | line (v) : Renders (.comment .line v) (b!"//" ++ v)
  | block (v) : Renders (.comment .block v) (b!"/*" ++ v ++ b!"*/")
  | regex (p f) : Renders (.regex p f) (b!"/" ++ p ++ b!"/" ++ f)
  | str (q v) : Quote q → Renders (.str v) ([q] ++ v ++ [q])
  | noSubstitution (v) : Renders (.template .noSubstitution v v) (b!"`" ++ v ++ b!"`")
  | head (v) : Renders (.template .head v v) (b!"`" ++ v ++ b!"${")
  | middle (v) : Renders (.template .middle v v) (b!"}" ++ v ++ b!"${")
  | tail (v) : Renders (.template .tail v v) (b!"}" ++ v ++ b!"`")
  | terminator (w) : w = [0x0A] ∨ w = [0x0D] ∨ w = lineSeparator ∨ w = paragraphSeparator →
      Renders .lineTerminator w

/-- The characters that start a token (or are blank): identifier characters and digits, blanks, CR and
LF, quotes and backtick, and the first characters of punctuators. -/
def Recognised (b : UInt8) : Prop :=
  IdentPart b ∨ Blank b ∨ b = 0x0A ∨ b = 0x0D ∨ Quote b ∨ b = c!"`" ∨ ∃ p, [b] <+: spelling p

/-- The text starts with a character of no token: not recognised, and not U+2028 or U+2029. -/
def Unrecognised (s : Bytes) : Prop := ∃ b r, s = b :: r ∧ ¬ Recognised b ∧ ¬ StartsLine s

/-- The text starts with a string literal that is never closed. -/
def OpenString (s : Bytes) : Prop :=
  ∃ q r, s = q :: r ∧ Quote q ∧ ∀ v rest, r = v ++ q :: rest → ¬ LooseBody q false v

/-- `p` is the longest punctuator spelled at the start of `s` (`<!--` left aside). -/
structure LongestPunct (p : Punct) (s : Bytes) : Prop where
  spelled : spelling p <+: s
  longest : ∀ q, q ≠ .lAngleExclamDashDash → spelling q <+: s →
    (spelling q).length ≤ (spelling p).length

/-- The places where a punctuator is not read although it is spelled there: comments, fractions,
regular expressions and template continuations. -/
def NotPunct (h : Hint) (s : Bytes) : Prop :=
  b!"//" <+: s ∨ b!"/*" <+: s ∨ (∃ b r, s = c!"." :: b :: r ∧ Digit b) ∨
    (b!"/" <+: s ∧ h.expression = true) ∨ (b!"}" <+: s ∧ h.template = true)

end Jsparse.Spec
