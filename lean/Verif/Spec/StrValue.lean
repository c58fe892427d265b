import Verif.Spec.Strings
/-! # The value of a string literal -/

namespace Jsparse.Spec

open Jsparse

def hexVal (b : UInt8) : Nat :=
  if b ≤ 0x39 then b.toNat - 0x30 else if b ≤ 0x46 then b.toNat - 0x41 + 10 else b.toNat - 0x61 + 10

/-- Value of a string of hexadecimal digits. -/
def hexNat (ds : Bytes) : Nat := ds.foldl (fun n d => n * 16 + hexVal d) 0

/-- The character denoted by a single-character escape. -/
def escapeByte (b : UInt8) : UInt8 :=
  if b = c!"b" then 0x08 else if b = c!"f" then 0x0C else if b = c!"n" then 0x0A
  else if b = c!"r" then 0x0D else if b = c!"t" then 0x09 else if b = c!"v" then 0x0B else b

/-- `Denotes q v w`: the literal `q v q` denotes the text with the bytes `w` (static semantics of
string literals, ECMAScript 12.9.4.2).  Escapes that denote half of a surrogate pair are left out, as
no `&str` can hold them. -/
inductive Denotes (q : UInt8) : Bytes → Bytes → Prop
  | nil : Denotes q [] []
  | char (b : UInt8) (v w : Bytes) : b ≠ q → b ≠ c!"\\" → ¬ StartsLine (b :: v) → Denotes q v w →
      Denotes q (b :: v) (b :: w)
  | single (b : UInt8) (v w : Bytes) : SingleEscape b → Denotes q v w →
      Denotes q (c!"\\" :: b :: v) (escapeByte b :: w)
  | zero (v w : Bytes) : Denotes q v w → Denotes q (c!"\\" :: c!"0" :: v) (0 :: w)
  | hex (a b : UInt8) (v w : Bytes) (c : Char) : HexDigit a → HexDigit b → c.toNat = hexNat [a, b] →
      Denotes q v w → Denotes q (c!"\\" :: c!"x" :: a :: b :: v) (encodeChar c ++ w)
  | unicode (d₁ d₂ d₃ d₄ : UInt8) (v w : Bytes) (c : Char) :
      HexDigit d₁ → HexDigit d₂ → HexDigit d₃ → HexDigit d₄ → c.toNat = hexNat [d₁, d₂, d₃, d₄] →
      Denotes q v w →
      Denotes q (c!"\\" :: c!"u" :: d₁ :: d₂ :: d₃ :: d₄ :: v) (encodeChar c ++ w)
  | long (ds v w : Bytes) (c : Char) : ds ≠ [] → (∀ d ∈ ds, HexDigit d) → c.toNat = hexNat ds →
      Denotes q v w →
      Denotes q (c!"\\" :: c!"u" :: c!"{" :: (ds ++ c!"}" :: v)) (encodeChar c ++ w)
  | contLf (v w : Bytes) : Denotes q v w → Denotes q (c!"\\" :: 0x0A :: v) w
  | contCr (v w : Bytes) : Denotes q v w → Denotes q (c!"\\" :: 0x0D :: v) w
  | contCrLf (v w : Bytes) : Denotes q v w → Denotes q (c!"\\" :: 0x0D :: 0x0A :: v) w
  | contLs (v w : Bytes) : Denotes q v w → Denotes q (c!"\\" :: (lineSeparator ++ v)) w
  | contPs (v w : Bytes) : Denotes q v w → Denotes q (c!"\\" :: (paragraphSeparator ++ v)) w

end Jsparse.Spec
