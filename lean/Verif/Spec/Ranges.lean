import Verif.Spec.Api
/-! # Ranges of tokens in the source -/

namespace Jsparse.Spec

open Jsparse

/-- The ranges `rs` cover the source from `i` to `j`: each one starts where the previous one ended,
except for blanks, and none reaches past the end. -/
def Tiling (code : Bytes) : Nat → List TokenRange → Nat → Prop
  | i, [], j => i = j
  | i, r :: rs, j =>
    i ≤ r.start.offset ∧ r.start.offset ≤ r.stop.offset ∧ r.stop.offset ≤ code.length ∧
    (∀ k, i ≤ k → k < r.start.offset → ∃ b, code[k]? = some b ∧ Blank b) ∧
    Tiling code r.stop.offset rs j

/-- The text of a range. -/
def text (code : Bytes) (i j : Nat) : Bytes := (code.drop i).take (j - i)

/-- Gaps and texts of the ranges glued together, starting at `i`. -/
def glue (code : Bytes) : Nat → List TokenRange → Bytes
  | _, [] => []
  | i, r :: rs =>
    text code i r.start.offset ++ text code r.start.offset r.stop.offset ++
      glue code r.stop.offset rs

/-- `i` and `j` delimit whole characters of the source. -/
def CharRange (code : Bytes) (i j : Nat) : Prop :=
  ∃ before inside after : List Char, code = encode (before ++ inside ++ after) ∧
    i = (encode before).length ∧ j = (encode (before ++ inside)).length

/-- LF, CR, U+2028, U+2029. -/
def isTerminator (c : Char) : Bool :=
  c.toNat == 0x0A || c.toNat == 0x0D || c.toNat == 0x2028 || c.toNat == 0x2029

/-- Number of line terminators in a text, CR LF counting as one. -/
def lineCount : List Char → Nat
  | [] => 0
  | c :: cs =>
    (if isTerminator c && !(c.toNat == 0x0D && cs.head?.any (·.toNat == 0x0A)) then 1 else 0) +
      lineCount cs

/-- Number of characters after the last line terminator. -/
def lastColumn (cs : List Char) : Nat := (cs.reverse.takeWhile (!isTerminator ·)).length

/-- The position stands after the characters `before` of the source; its column is right and its line
number is too large by `k`. -/
def PositionUpTo (code : Bytes) (k : Nat) (p : Position) : Prop :=
  ∃ before after : List Char, code = encode (before ++ after) ∧
    p.offset = (encode before).length ∧ p.line = lineCount before + k ∧ p.column = lastColumn before

/-- The position is the right one. -/
def RightPosition (code : Bytes) (p : Position) : Prop := PositionUpTo code 0 p

/-- The offset stands between a CR and a LF. -/
def SplitsCrLf (code : Bytes) (i : Nat) : Prop :=
  0 < i ∧ code[i - 1]? = some 0x0D ∧ code[i]? = some 0x0A

instance (code : Bytes) (i : Nat) : Decidable (SplitsCrLf code i) :=
  inferInstanceAs (Decidable (_ ∧ _))

/-- How many of the tokens start between a CR and a LF. -/
def crLfSplits (code : Bytes) (toks : List (Token × TokenRange)) : Nat :=
  toks.countP fun x => decide (SplitsCrLf code x.2.start.offset)

end Jsparse.Spec
