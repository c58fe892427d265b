import Verif.Spec.Api
import Verif.Spec.Numbers
import Verif.Spec.Strings
import Verif.Spec.Regex
/-!
# Malformed input

The inputs on which the tokenizer is allowed to panic, and with which panic.
-/

namespace Jsparse.Spec

open Jsparse

/-- The second character of a hexadecimal, octal or binary literal. -/
def RadixLetter (b : UInt8) : Prop :=
  b = c!"x" ∨ b = c!"X" ∨ b = c!"o" ∨ b = c!"O" ∨ b = c!"b" ∨ b = c!"B"

/-- Malformed numeric literals.  The first two only matter in builds with overflow checks. -/
inductive BadNumber (checked : Bool) : Bytes → Panic → Prop
  /-- a decimal literal with an exponent of 2³¹ or more -/
  | exponent (d : Decimal) (e : Exponent) (rest : Bytes) : checked = true → d.WF → d.exp = some e →
      2 ^ 31 ≤ natVal 10 e.digits → BadNumber checked (d.text ++ rest) .overflow
  /-- `0x`, `0o`, `0b` followed by a character that sorts before the digits -/
  | below (x d : UInt8) (r : Bytes) : checked = true → RadixLetter x → d < c!"0" →
      BadNumber checked (c!"0" :: x :: d :: r) .overflow
  /-- a digit 8 or 9 in an octal literal -/
  | octal (x d e : UInt8) (ds r : Bytes) : x = c!"o" ∨ x = c!"O" →
      (∀ b ∈ ds, c!"0" ≤ b ∧ b ≤ c!"7") → e = c!"8" ∨ e = c!"9" →
      BadNumber checked (c!"0" :: x :: d :: (ds ++ e :: r)) .invalidNumber
  /-- a digit 2 to 9 in a binary literal -/
  | binary (x d e : UInt8) (ds r : Bytes) : x = c!"b" ∨ x = c!"B" →
      (∀ b ∈ ds, c!"0" ≤ b ∧ b ≤ c!"1") → c!"2" ≤ e ∧ e ≤ c!"9" →
      BadNumber checked (c!"0" :: x :: d :: (ds ++ e :: r)) .invalidNumber
  /-- `0x`, `0o`, `0b` followed by a character outside of ASCII -/
  | wide (x d : UInt8) (r : Bytes) : RadixLetter x → 0x80 ≤ d →
      BadNumber checked (c!"0" :: x :: d :: r) .strSlice

/-- Malformed input at the start of a token, with the panic it causes. -/
inductive Malformed (checked : Bool) (h : Hint) : Bytes → Panic → Prop
  /-- a no-break space or byte-order mark -/
  | wide (s : Bytes) : StartsWide s → Malformed checked h s .strSlice
  | number (s : Bytes) (p : Panic) : BadNumber checked s p → Malformed checked h s p
  /-- a template without a closing backtick or `${` -/
  | template (v : Bytes) : NowhereIn v [] TemplateStop →
      Malformed checked h (c!"`" :: v) .unterminatedTemplate
  | templateTail (v : Bytes) : h.template = true → NowhereIn v [] TemplateStop →
      Malformed checked h (c!"}" :: v) .unterminatedTemplateTail
  /-- a block comment without `*/` -/
  | comment (v : Bytes) : NowhereIn v [] (b!"*/" <+: ·) →
      Malformed checked h (c!"/" :: c!"*" :: v) .unterminatedComment
  /-- a regular expression without closing slash -/
  | regex (s : Bytes) : h.expression = true → ¬ b!"/" <+: s → ¬ b!"*" <+: s →
      (∀ v rest, s = v ++ c!"/" :: rest → ¬ RegexBody v) →
      Malformed checked h (c!"/" :: s) .unterminatedRegex
  /-- a string literal with a raw line terminator or an unknown escape -/
  | str (q : UInt8) (v e : Bytes) (p : Panic) : Quote q → LooseBody q false v → StrBad e p →
      Malformed checked h (q :: (v ++ e)) p

end Jsparse.Spec
