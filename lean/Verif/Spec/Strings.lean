import Verif.Spec.Lexical
/-!
# String literals

`StrBody q v`: `v` is the inside of a well-formed ECMAScript string literal delimited by the quote
`q`, whose escapes are single-character escapes, `\0`, `\xHH`, `\uHHHH`, `\u{H…}` and line
continuations.  Left out on purpose: "non-escape characters" such as `\a`, which the tokenizer does
not support (it panics).
-/

namespace Jsparse.Spec

open Jsparse

def HexDigit (b : UInt8) : Prop :=
  (0x30 ≤ b ∧ b ≤ 0x39) ∨ (0x61 ≤ b ∧ b ≤ 0x66) ∨ (0x41 ≤ b ∧ b ≤ 0x46)

/-- `\'  \"  \\  \b  \f  \n  \r  \t  \v` -/
def SingleEscape (b : UInt8) : Prop :=
  b = c!"'" ∨ b = c!"\"" ∨ b = c!"\\" ∨ b = c!"b" ∨ b = c!"f" ∨ b = c!"n" ∨ b = c!"r" ∨ b = c!"t"
    ∨ b = c!"v"

def Quote (q : UInt8) : Prop := q = c!"'" ∨ q = c!"\""

/-- The inside of a well-formed string literal. -/
inductive StrBody (q : UInt8) : Bytes → Prop
  | nil : StrBody q []
  /-- an ordinary character: not the quote, not a backslash, not a line terminator -/
  | char (b : UInt8) (v : Bytes) : b ≠ q → b ≠ c!"\\" → ¬ StartsLine (b :: v) → StrBody q v →
      StrBody q (b :: v)
  | single (b : UInt8) (v : Bytes) : SingleEscape b → StrBody q v → StrBody q (c!"\\" :: b :: v)
  | zero (v : Bytes) : StrBody q v → StrBody q (c!"\\" :: c!"0" :: v)
  | hex (a b : UInt8) (v : Bytes) : HexDigit a → HexDigit b → StrBody q v →
      StrBody q (c!"\\" :: c!"x" :: a :: b :: v)
  | unicode (a b c d : UInt8) (v : Bytes) : HexDigit a → HexDigit b → HexDigit c → HexDigit d →
      StrBody q v → StrBody q (c!"\\" :: c!"u" :: a :: b :: c :: d :: v)
  | long (ds v : Bytes) : ds ≠ [] → (∀ d ∈ ds, HexDigit d) → StrBody q v →
      StrBody q (c!"\\" :: c!"u" :: c!"{" :: (ds ++ c!"}" :: v))
  | contLf (v : Bytes) : StrBody q v → StrBody q (c!"\\" :: 0x0A :: v)
  | contCr (v : Bytes) : StrBody q v → StrBody q (c!"\\" :: 0x0D :: v)
  | contCrLf (v : Bytes) : StrBody q v → StrBody q (c!"\\" :: 0x0D :: 0x0A :: v)
  | contLs (v : Bytes) : StrBody q v → StrBody q (c!"\\" :: (lineSeparator ++ v))
  | contPs (v : Bytes) : StrBody q v → StrBody q (c!"\\" :: (paragraphSeparator ++ v))

/-- The language that the tokenizer actually accepts between two quotes (`ig`: a line continuation
with CR occurred earlier).  It differs from `StrBody` in that

* `\x` is followed by one arbitrary byte, `\u` by three, and `\u{` by anything up to `}`;
* after `\` CR, line feeds are accepted everywhere in the rest of the literal. -/
inductive LooseBody (q : UInt8) : Bool → Bytes → Prop
  | nil (ig : Bool) : LooseBody q ig []
  | char (ig : Bool) (b : UInt8) (v : Bytes) : b ≠ q → b ≠ c!"\\" → ¬ StartsLine (b :: v) →
      LooseBody q ig v → LooseBody q ig (b :: v)
  | lf (v : Bytes) : LooseBody q true v → LooseBody q true (0x0A :: v)
  | single (ig : Bool) (b : UInt8) (v : Bytes) : SingleEscape b ∨ b = c!"0" ∨ b = 0x0A →
      LooseBody q ig v → LooseBody q ig (c!"\\" :: b :: v)
  | hex (ig : Bool) (a : UInt8) (v : Bytes) : LooseBody q ig v →
      LooseBody q ig (c!"\\" :: c!"x" :: a :: v)
  | unicode (ig : Bool) (a b c : UInt8) (v : Bytes) : a ≠ c!"{" → LooseBody q ig v →
      LooseBody q ig (c!"\\" :: c!"u" :: a :: b :: c :: v)
  | long (ig : Bool) (ds v : Bytes) : (∀ d ∈ ds, d ≠ c!"}") → LooseBody q ig v →
      LooseBody q ig (c!"\\" :: c!"u" :: c!"{" :: (ds ++ c!"}" :: v))
  | cr (ig : Bool) (v : Bytes) : LooseBody q true v → LooseBody q ig (c!"\\" :: 0x0D :: v)
  | ls (ig : Bool) (v : Bytes) : LooseBody q ig v → LooseBody q ig (c!"\\" :: (lineSeparator ++ v))
  | ps (ig : Bool) (v : Bytes) : LooseBody q ig v →
      LooseBody q ig (c!"\\" :: (paragraphSeparator ++ v))

/-- What makes a string literal malformed, and the panic for it: a line terminator, or a backslash with
an unknown escape. -/
inductive StrBad : Bytes → Panic → Prop
  | newline (b : UInt8) (s : Bytes) : StartsLine (b :: s) → StrBad (b :: s) .newlineInString
  | numeric (b : UInt8) (s : Bytes) : (c!"1" ≤ b ∧ b ≤ c!"9") →
      StrBad (c!"\\" :: b :: s) .numericEscape
  | bad (b : UInt8) (s : Bytes) : ¬ SingleEscape b → ¬ Digit b → b ≠ c!"x" → b ≠ c!"u" →
      ¬ StartsLine (b :: s) → StrBad (c!"\\" :: b :: s) .badEscape

end Jsparse.Spec
