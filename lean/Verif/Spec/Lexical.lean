import Verif.Model.Tokens
/-!
# Lexical specification

Written from the ECMAScript lexical grammar, without using the functions of the model.  (Only the
data types `Token`, `Punct`, … of the model are used, because the properties talk about them.)
-/

namespace Jsparse.Spec

open Jsparse

/-- The spelling of each punctuator; the comments of src/tokenizer/tokens.rs:4-59. -/
def spelling : Punct → Bytes
  | .curlyOpen => b!"{"
  | .curlyClose => b!"}"
  | .parenOpen => b!"("
  | .parenClose => b!")"
  | .squareOpen => b!"["
  | .squareClose => b!"]"
  | .semicolon => b!";"
  | .comma => b!","
  | .tilde => b!"~"
  | .question => b!"?"
  | .colon => b!":"
  | .period => b!"."
  | .ellipsis => b!"..."
  | .lAngle => b!"<"
  | .lAngleEq => b!"<="
  | .lAngleAngle => b!"<<"
  | .lAngleAngleEq => b!"<<="
  | .lAngleExclamDashDash => b!"<!--"
  | .rAngle => b!">"
  | .rAngleEq => b!">="
  | .rAngleAngle => b!">>"
  | .rAngleAngleEq => b!">>="
  | .rAngleAngleAngle => b!">>>"
  | .rAngleAngleAngleEq => b!">>>="
  | .exclam => b!"!"
  | .exclamEq => b!"!="
  | .exclamEqEq => b!"!=="
  | .eq => b!"="
  | .arrow => b!"=>"
  | .eqEq => b!"=="
  | .eqEqEq => b!"==="
  | .plus => b!"+"
  | .plusEq => b!"+="
  | .plusPlus => b!"++"
  | .minus => b!"-"
  | .minusEq => b!"-="
  | .minusMinus => b!"--"
  | .minusMinusAngle => b!"-->"
  | .percent => b!"%"
  | .percentEq => b!"%="
  | .star => b!"*"
  | .starEq => b!"*="
  | .starStar => b!"**"
  | .starStarEq => b!"**="
  | .slash => b!"/"
  | .slashEq => b!"/="
  | .amp => b!"&"
  | .ampAmp => b!"&&"
  | .ampEq => b!"&="
  | .bar => b!"|"
  | .barBar => b!"||"
  | .barEq => b!"|="
  | .caret => b!"^"
  | .caretEq => b!"^="

/-- The blanks that occur between tokens: tab, vertical tab, form feed, space. -/
def Blank (b : UInt8) : Prop := b = 0x09 ∨ b = 0x0B ∨ b = 0x0C ∨ b = 0x20

instance (b : UInt8) : Decidable (Blank b) := inferInstanceAs (Decidable (_ ∨ _))

/-- A run of blanks. -/
def Blanks (bs : Bytes) : Prop := ∀ b ∈ bs, Blank b

instance (bs : Bytes) : Decidable (Blanks bs) := inferInstanceAs (Decidable (∀ b ∈ bs, Blank b))

/-- An ASCII decimal digit. -/
def Digit (b : UInt8) : Prop := 0x30 ≤ b ∧ b ≤ 0x39

instance (b : UInt8) : Decidable (Digit b) := inferInstanceAs (Decidable (_ ∧ _))

/-- An ASCII letter. -/
def Letter (b : UInt8) : Prop := (0x61 ≤ b ∧ b ≤ 0x7A) ∨ (0x41 ≤ b ∧ b ≤ 0x5A)

instance (b : UInt8) : Decidable (Letter b) := inferInstanceAs (Decidable (_ ∨ _))

/-- First character of an (ASCII) identifier. -/
def IdentStart (b : UInt8) : Prop := Letter b ∨ b = c!"$" ∨ b = c!"_"

instance (b : UInt8) : Decidable (IdentStart b) := inferInstanceAs (Decidable (_ ∨ _))

/-- Later character of an (ASCII) identifier. -/
def IdentPart (b : UInt8) : Prop := IdentStart b ∨ Digit b

instance (b : UInt8) : Decidable (IdentPart b) := inferInstanceAs (Decidable (_ ∨ _))

/-- UTF-8 bytes of the multi-byte characters with a lexical role. -/
def lineSeparator : Bytes := [0xE2, 0x80, 0xA8]
def paragraphSeparator : Bytes := [0xE2, 0x80, 0xA9]
def noBreakSpace : Bytes := [0xC2, 0xA0]
def byteOrderMark : Bytes := [0xEF, 0xBB, 0xBF]

/-- The text begins with a line terminator: LF, CR, U+2028 or U+2029. -/
def StartsLine (s : Bytes) : Prop :=
  [0x0A] <+: s ∨ [0x0D] <+: s ∨ lineSeparator <+: s ∨ paragraphSeparator <+: s

instance (s : Bytes) : Decidable (StartsLine s) := inferInstanceAs (Decidable (_ ∨ _))

/-- The text begins with a backtick or with `${`: the places where a template piece ends. -/
def TemplateStop (s : Bytes) : Prop := b!"`" <+: s ∨ b!"${" <+: s

/-- A lowercase ASCII letter (the flags of a regular expression). -/
def Lower (b : UInt8) : Prop := 0x61 ≤ b ∧ b ≤ 0x7A

/-- No suffix of `v`, continued by `rest`, satisfies `Q`: `Q` does not hold anywhere inside `v`. -/
def NowhereIn (v rest : Bytes) (Q : Bytes → Prop) : Prop :=
  ∀ a b, v = a ++ b → b ≠ [] → ¬ Q (b ++ rest)

end Jsparse.Spec
