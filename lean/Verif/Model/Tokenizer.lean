import Verif.Model.Tokens
/-!
# The slice tokenizer

Models src/tokenizer/slice.rs function by function.  A function that in Rust writes a token through
`&mut` and returns a size returns here the pair (token, size); a panic is an `Except.error`.

Loops `for (i, &b) in bytes.iter().enumerate().skip(k)` become structural recursion over the
remaining bytes together with the index `i`.  Where such a loop slices `code[i..]` at a byte that
it has just compared with a lead byte (0xE2, 0xEF, 0xC2), the slice cannot panic because a lead
byte is always a character boundary, and the model uses the remaining bytes directly.

`checked` is the build configuration: `true` for builds with overflow checks (debug profile),
`false` for wrapping arithmetic (release profile).
-/

namespace Jsparse

/-- slice.rs:8-11 -/
def NS_LS : Bytes := [0xE2, 0x80, 0xA8]
def NS_PS : Bytes := [0xE2, 0x80, 0xA9]
def WS_NBSP : Bytes := [0xC2, 0xA0]
def WS_ZWNBSP : Bytes := [0xEF, 0xBB, 0xBF]

/-- `starts_with(NS_PS) || starts_with(NS_LS)`, used in several places of slice.rs. -/
def startsLSPS (s : Bytes) : Bool := startsWith s NS_PS || startsWith s NS_LS

/-- `b'0'...b'9'` -/
def isDigit (b : UInt8) : Bool := c!"0" ≤ b && b ≤ c!"9"

/-! ## Whitespace and positions -/

/-- The loop of `eat_whitespace`, slice.rs:28-41.  Arguments: the bytes not yet visited, `index`.
NB: for the two multi-byte spaces the code advances `index` by 1 only, and so does the model. -/
def eatWhitespaceLoop : Bytes → Nat → Nat
  | [], index => index
  | b :: bs, index =>
    if b = 0x09 ∨ b = 0x0B ∨ b = 0x0C ∨ b = 0x20 then eatWhitespaceLoop bs (index + 1)
    else if b = 0xEF ∧ startsWith (b :: bs) WS_ZWNBSP = true then eatWhitespaceLoop bs (index + 1)
    else if b = 0xC2 ∧ startsWith (b :: bs) WS_NBSP = true then eatWhitespaceLoop bs (index + 1)
    else index

/-- Models `eat_whitespace`, slice.rs:25-45. -/
def eatWhitespace (code : Bytes) (pos : Position) : Except Panic Position := do
  let rest ← sliceFrom code pos.offset
  let index := eatWhitespaceLoop rest pos.offset
  return { pos with column := pos.column + (index - pos.offset), offset := index }

/-- One iteration of the loop of `increment_position`, slice.rs:51-75.  State: line, column,
`saw_cr`. -/
def bumpChar (st : Nat × Nat × Bool) (c : Nat) : Nat × Nat × Bool :=
  let (line, column, sawCr) := st
  if c = 0x0D then (line + 1, 0, true)
  else if c = 0x0A then
    if !sawCr then (line + 1, 0, false) else (line, column, false)
  else if c = 0x2028 ∨ c = 0x2029 then (line + 1, 0, false)
  else (line, column + 1, false)

/-- Models `increment_position`, slice.rs:47-76. -/
def incrementPosition (code : Bytes) (size : Nat) (pos : Position) : Except Panic Position := do
  let text ← slice code 0 size
  let r := (codePoints text).foldl bumpChar (pos.line, pos.column, false)
  return { offset := pos.offset + size, line := r.1, column := r.2.1 }

/-! ## Numbers -/

/-- Models the result of `i32` arithmetic: in range, or a panic (overflow checks), or the value
wrapped to 32 bits. -/
def i32 (checked : Bool) (x : Int) : Except Panic Int :=
  if -2147483648 ≤ x ∧ x ≤ 2147483647 then .ok x
  else if checked then .error .overflow
  else .ok (Int.bmod x 4294967296)

/-- Models the `u8` subtraction `a - b`. -/
def subU8 (checked : Bool) (a b : UInt8) : Except Panic UInt8 :=
  if b ≤ a then .ok (a - b) else if checked then .error .overflow else .ok (a - b)

/-- `(v - b'0') as f64` for a byte `v` that is known to be at least `base`. -/
def digitLit (v base : UInt8) : NumExpr := .lit (v - base).toNat

/-- `value == 0f64` in `parse_int_literal` (slice.rs:814), decided on the recorded computation: the
value starts at 0, and multiplying a non-negative `f64` integer by 10 or adding a digit to it gives
zero only if both parts are zero.  `NumExpr.isZero_eval` proves this for exact arithmetic. -/
def NumExpr.isZero : NumExpr → Bool
  | .lit n => n == 0
  | .tenth => false
  | .add a b => a.isZero && b.isZero
  | .mul a b => a.isZero || b.isZero
  | .div a _ => a.isZero
  | .powi10 _ => false

/-- The loop of `parse_int_literal`, slice.rs:809-826. -/
def parseIntLoop : Bytes → NumExpr → Nat → NumExpr × Nat
  | [], value, i => (value, i)
  | b :: bs, value, i =>
    if b = c!"0" then
      if value.isZero then (value, i)
      else parseIntLoop bs (.mul value (.lit 10)) (i + 1)
    else if c!"1" ≤ b ∧ b ≤ c!"9" then
      parseIntLoop bs (.add (.mul value (.lit 10)) (digitLit b c!"0")) (i + 1)
    else (value, i)

/-- Models `parse_int_literal`, slice.rs:805-829. -/
def parseIntLiteral (bytes : Bytes) : NumExpr × Nat := parseIntLoop bytes (.lit 0) 0

/-- The loop of `parse_decimal_digits`, slice.rs:835-844. -/
def parseDecimalLoop : Bytes → (value factor : NumExpr) → Nat → NumExpr × Nat
  | [], value, _, i => (value, i)
  | b :: bs, value, factor, i =>
    if isDigit b then
      parseDecimalLoop bs (.add value (.mul factor (digitLit b c!"0")))
        (.div factor (.lit 10)) (i + 1)
    else (value, i)

/-- Models `parse_decimal_digits`, slice.rs:830-847. -/
def parseDecimalDigits (bytes : Bytes) : NumExpr × Nat := parseDecimalLoop bytes (.lit 0) .tenth 0

/-- The loop of `parse_exponent`, slice.rs:865-878. -/
def parseExponentLoop (checked : Bool) : Bytes → Int → Nat → Except Panic (Int × Nat)
  | [], value, i => .ok (value, i)
  | b :: bs, value, i =>
    if isDigit b then do
      let val : Int := (b - c!"0").toNat
      if val ≠ 0 ∨ value ≠ 0 then
        let value ← i32 checked (value * 10)
        let value ← i32 checked (value + val)
        parseExponentLoop checked bs value (i + 1)
      else
        parseExponentLoop checked bs value (i + 1)
    else .ok (value, i)

/-- Models `parse_exponent`, slice.rs:849-881. -/
def parseExponent (checked : Bool) (bytes : Bytes) : Except Panic (Int × Nat) := do
  let b := if 2 ≤ bytes.length then bytes[0]?.getD 0 else 0
  if b = c!"e" ∨ b = c!"E" then
    let (offset, sign) : Nat × Int :=
      if bytes[1]?.getD 0 = c!"+" then (2, 1)
      else if bytes[1]?.getD 0 = c!"-" then (2, -1)
      else (1, 1)
    let (value, i) ← parseExponentLoop checked (bytes.drop offset) 0 offset
    let e ← i32 checked (sign * value)
    return (e, i)
  else return (0, 0)

/-- Models `number`, slice.rs:115-119, together with the evaluation of its argument
`code[..offset].into()`, which may panic. -/
def number (val : NumExpr) (code : Bytes) (offset : Nat) : Except Panic (Token × Nat) := do
  let _raw ← slice code 0 offset
  return (.num val, offset)

/-- Models `&bytes[i..]` (on bytes, so only the range can be wrong; never out of range below, as
the lemma `num_tail` of Proofs/NumTotal.lean shows). -/
def bytesFrom (bytes : Bytes) (i : Nat) : Except Panic Bytes :=
  if i ≤ bytes.length then .ok (bytes.drop i) else .error .strSlice

/-- `val * 10f64.powi(exp)` if an exponent is present, slice.rs:346-349, 423-426, 530-533. -/
def scaleExp (val : NumExpr) (offset : Nat) (e : Int × Nat) : NumExpr × Nat :=
  if e.2 ≠ 0 then (.mul val (.powi10 e.1), offset + e.2) else (val, offset)

/-- Models `tok_fractional`, slice.rs:334-353. -/
def tokFractional (checked : Bool) (code : Bytes) : Except Panic (Token × Nat) := do
  let (frac, num) := parseDecimalDigits (code.drop 1)
  let val := NumExpr.add (.lit 0) frac
  let offset := 1 + num
  let e ← parseExponent checked (← bytesFrom code offset)
  let (val, offset) := scaleExp val offset e
  number val code offset

/-- Models `tok_num`, slice.rs:410-430. -/
def tokNum (checked : Bool) (code : Bytes) : Except Panic (Token × Nat) := do
  let (val, offset) := parseIntLiteral code
  let (val, offset) :=
    if code[offset]? = some c!"." then
      let (frac, num) := parseDecimalDigits (code.drop (offset + 1))
      (NumExpr.add val frac, offset + (num + 1))
    else (val, offset)
  let e ← parseExponent checked (← bytesFrom code offset)
  let (val, offset) := scaleExp val offset e
  number val code offset

/-- The hexadecimal loop, slice.rs:443-463. NB: the code adds `v - b'a'`, not `v - b'a' + 10`. -/
def hexLoop : Bytes → NumExpr → Nat → NumExpr × Nat
  | [], val, i => (val, i)
  | v :: bs, val, i =>
    if isDigit v then hexLoop bs (.add (.mul val (.lit 16)) (digitLit v c!"0")) (i + 1)
    else if c!"a" ≤ v ∧ v ≤ c!"f" then
      hexLoop bs (.add (.mul val (.lit 16)) (digitLit v c!"a")) (i + 1)
    else if c!"A" ≤ v ∧ v ≤ c!"F" then
      hexLoop bs (.add (.mul val (.lit 16)) (digitLit v c!"A")) (i + 1)
    else (val, i)

/-- The octal loop, slice.rs:472-487. -/
def octLoop : Bytes → NumExpr → Nat → Except Panic (NumExpr × Nat)
  | [], val, i => .ok (val, i)
  | v :: bs, val, i =>
    if c!"0" ≤ v ∧ v ≤ c!"7" then
      octLoop bs (.add (.mul val (.lit 8)) (digitLit v c!"0")) (i + 1)
    else if v = c!"8" ∨ v = c!"9" then .error .invalidNumber
    else .ok (val, i)

/-- The binary loop, slice.rs:496-511. -/
def binLoop : Bytes → NumExpr → Nat → Except Panic (NumExpr × Nat)
  | [], val, i => .ok (val, i)
  | v :: bs, val, i =>
    if c!"0" ≤ v ∧ v ≤ c!"1" then
      binLoop bs (.add (.mul val (.lit 2)) (digitLit v c!"0")) (i + 1)
    else if c!"2" ≤ v ∧ v ≤ c!"9" then .error .invalidNumber
    else .ok (val, i)

/-- Models `tok_zero_num`, slice.rs:432-545. -/
def tokZeroNum (checked : Bool) (code : Bytes) : Except Panic (Token × Nat) := do
  let b := if 2 < code.length then code[1]?.getD 0 else 0
  if b = c!"x" ∨ b = c!"X" then
    let d ← subU8 checked (code[2]?.getD 0) c!"0"
    let (val, i) := hexLoop (code.drop 3) (.lit d.toNat) 3
    number val code i
  else if b = c!"o" ∨ b = c!"O" then
    let d ← subU8 checked (code[2]?.getD 0) c!"0"
    let (val, i) ← octLoop (code.drop 3) (.lit d.toNat) 3
    number val code i
  else if b = c!"b" ∨ b = c!"B" then
    let d ← subU8 checked (code[2]?.getD 0) c!"0"
    let (val, i) ← binLoop (code.drop 3) (.lit d.toNat) 3
    number val code i
  else if b = c!"." then
    let (frac, num) := parseDecimalDigits (code.drop 2)
    let (val, offset) := if num ≠ 0 then (NumExpr.add (.lit 0) frac, 2 + num) else (.lit 0, 2)
    let e ← parseExponent checked (← bytesFrom code offset)
    let (val, offset) := scaleExp val offset e
    number val code offset
  else
    let (_, num) ← parseExponent checked code
    number (.lit 0) code (num + 1)

/-! ## Identifiers, templates, comments, regular expressions, strings -/

/-- `b'a'...b'z' | b'A'...b'Z' | b'0'...b'9' | b'$' | b'_'`, slice.rs:363 -/
def isIdentByte (b : UInt8) : Bool :=
  (c!"a" ≤ b && b ≤ c!"z") || (c!"A" ≤ b && b ≤ c!"Z") || (c!"0" ≤ b && b ≤ c!"9")
    || b == c!"$" || b == c!"_"

/-- The loop of `tok_ident`, slice.rs:361-372: arguments are the remaining bytes, `i`, `end`. -/
def identLoop : Bytes → Nat → Nat → Nat
  | [], _, e => e
  | b :: bs, i, e => if isIdentByte b then identLoop bs (i + 1) (i + 1) else e

/-- Models `tok_ident`, slice.rs:355-379. -/
def tokIdent (code : Bytes) : Except Panic (Token × Nat) := do
  let e := identLoop code 0 0
  let name ← slice code 0 e
  return (.ident name, e)

/-- How the template loops end. -/
inductive TemplateEnd where
  /-- at `{` after `$` -/
  | curly (i : Nat)
  /-- at a backtick -/
  | tick (i : Nat)
  deriving DecidableEq, Repr

/-- The loop shared by `tok_template_head` (slice.rs:386-404) and `tok_curly_close`
(slice.rs:652-670); the two Rust loops are the same text up to the token they build. -/
def templateLoop : Bytes → Nat → Bool → Option TemplateEnd
  | [], _, _ => none
  | b :: bs, i, breakCurly =>
    if b = c!"{" ∧ breakCurly = true then some (.curly i)
    else if b = c!"`" then some (.tick i)
    else if b = c!"$" then templateLoop bs (i + 1) true
    else templateLoop bs (i + 1) false

/-- Models `tok_template_head`, slice.rs:381-408. -/
def tokTemplateHead (code : Bytes) : Except Panic (Token × Nat) :=
  match templateLoop (code.drop 1) 1 false with
  | some (.curly i) => do
    let v ← slice code 1 (i - 1)
    return (.template .head v v, i + 1)
  | some (.tick i) => do
    let v ← slice code 1 i
    return (.template .noSubstitution v v, i + 1)
  | none => .error .unterminatedTemplate

/-- Models `tok_curly_close`, slice.rs:647-677. -/
def tokCurlyClose (code : Bytes) (hint : Hint) : Except Panic (Token × Nat) :=
  if hint.template then
    match templateLoop (code.drop 1) 1 false with
    | some (.curly i) => do
      let v ← slice code 1 (i - 1)
      return (.template .middle v v, i + 1)
    | some (.tick i) => do
      let v ← slice code 1 i
      return (.template .tail v v, i + 1)
    | none => .error .unterminatedTemplateTail
  else .ok (.punct .curlyClose, 1)

/-- The line-comment loop of `tok_slash`, slice.rs:555-567: `end`, or 0 if no terminator. -/
def lineCommentLoop : Bytes → Nat → Nat
  | [], _ => 0
  | b :: bs, i =>
    if b = 0x0D ∨ b = 0x0A then i
    else if b = 0xE2 ∧ startsLSPS (b :: bs) = true then i
    else lineCommentLoop bs (i + 1)

/-- The block-comment loop of `tok_slash`, slice.rs:576-589: index of the closing `/`. -/
def blockCommentLoop : Bytes → Nat → Bool → Option Nat
  | [], _, _ => none
  | b :: bs, i, breakSlash =>
    if b = c!"/" ∧ breakSlash = true then some i
    else if b = c!"*" then blockCommentLoop bs (i + 1) true
    else blockCommentLoop bs (i + 1) false

/-- The regular-expression loop of `tok_slash`, slice.rs:597-618: index of the closing `/`. -/
def regexLoop : Bytes → Nat → (inEscape inClass : Bool) → Option Nat
  | [], _, _, _ => none
  | b :: bs, i, inEscape, inClass =>
    if inEscape then regexLoop bs (i + 1) false inClass
    else if b = c!"\\" then regexLoop bs (i + 1) true inClass
    else if b = c!"/" ∧ inClass = false then some i
    else if b = c!"[" ∧ inClass = false then regexLoop bs (i + 1) inEscape true
    else if b = c!"]" ∧ inClass = true then regexLoop bs (i + 1) inEscape false
    else regexLoop bs (i + 1) inEscape inClass

/-- The flag loop of `tok_slash`, slice.rs:624-631.  The characters accepted are ASCII, so
`char_indices` and byte indices agree. -/
def flagLoop : Bytes → Nat → Nat
  | [], n => n
  | b :: bs, n => if c!"a" ≤ b ∧ b ≤ c!"z" then flagLoop bs (n + 1) else n

/-- Models `tok_slash`, slice.rs:547-645. -/
def tokSlash (code : Bytes) (hint : Hint) : Except Panic (Token × Nat) :=
  if code[1]? = some c!"/" then do
    let e := lineCommentLoop (code.drop 2) 2
    let e := if e = 0 then code.length else e
    let v ← slice code 2 e
    return (.comment .line v, e)
  else if code[1]? = some c!"*" then
    match blockCommentLoop (code.drop 2) 2 false with
    | some i => do
      let v ← slice code 2 (i - 1)
      return (.comment .block v, i + 1)
    | none => .error .unterminatedComment
  else if hint.expression then do
    let e := (regexLoop (code.drop 1) 1 false false).getD 1
    if e = 1 then .error .unterminatedRegex
    else
      let rest ← sliceFrom code (e + 1)
      let flagEnd := flagLoop rest (e + 1)
      let pattern ← slice code 1 e
      let flags ← slice code (e + 1) flagEnd
      return (.regex pattern flags, flagEnd)
  else if code[1]? = some c!"=" then .ok (.punct .slashEq, 2)
  else .ok (.punct .slash, 1)

/-- The mutable locals of the loop of `tok_str`, slice.rs:688-692.  `in_escape` is an `i32` that
counts bytes since a backslash; it is a `Nat` here, so the model does not exhibit the overflow of a
`\u{…` escape that is 2³¹ bytes long. -/
structure StrState where
  inEscape : Nat := 0
  inHex : Bool := false
  inUnicode : Bool := false
  inLong : Bool := false
  ignoreNl : Bool := false
  deriving DecidableEq, Repr

/-- Outcome of one iteration of the loop of `tok_str`. -/
inductive StrStep where
  | next (st : StrState)
  | stop
  | fail (p : Panic)
  deriving DecidableEq, Repr

/-- slice.rs:735-789: the part of the loop body after the first byte of an escape was examined. -/
def strStepTail (t b : UInt8) (rest : Bytes) (st : StrState) : StrStep :=
  let st := if st.inHex && st.inEscape == 3 then { st with inEscape := 0, inHex := false } else st
  let st :=
    if st.inUnicode then
      let st := if st.inEscape == 2 && b == c!"{" then { st with inLong := true } else st
      let st :=
        if !st.inLong && st.inEscape == 5 then { st with inEscape := 0, inUnicode := false } else st
      if st.inLong && b == c!"}" then
        { st with inEscape := 0, inUnicode := false, inLong := false }
      else st
    else st
  if st.inEscape ≠ 0 then .next { st with inEscape := st.inEscape + 1 }
  else if b = c!"\\" then .next { st with inEscape := 1 }
  else if b = c!"\"" ∧ t = c!"\"" then .stop
  else if b = c!"'" ∧ t = c!"'" then .stop
  else if b = 0x0A ∧ st.ignoreNl = true then .next st
  else if b = 0x0D ∨ b = 0x0A then .fail .newlineInString
  else if b = 0xE2 ∧ startsLSPS rest = true then .fail .newlineInString
  else .next st

/-- One iteration of the loop of `tok_str`, slice.rs:695-791.  `rest` is `code[i..]`, so it starts
with `b`. -/
def strStep (t b : UInt8) (rest : Bytes) (st : StrState) : StrStep :=
  if st.inEscape = 1 then
    if b = 0x0D then .next { st with ignoreNl := true, inEscape := 0 }
    else if b = 0x0A then .next { st with inEscape := 0 }
    else if b = 0xE2 ∧ startsLSPS rest = true then .next { st with inEscape := 0 }
    else if b = c!"'" ∨ b = c!"\"" ∨ b = c!"\\" ∨ b = c!"b" ∨ b = c!"f" ∨ b = c!"n" ∨ b = c!"r"
        ∨ b = c!"t" ∨ b = c!"v" then .next { st with inEscape := 0 }
    else if b = c!"0" then .next { st with inEscape := 0 }
    else if b = c!"x" then strStepTail t b rest { st with inHex := true }
    else if b = c!"u" then strStepTail t b rest { st with inUnicode := true }
    else if c!"1" ≤ b ∧ b ≤ c!"9" then .fail .numericEscape
    else .fail .badEscape
  else strStepTail t b rest st

/-- The loop of `tok_str`, slice.rs:695-791: the index of the closing quote, `none` if the text
ends first. -/
def strLoop (t : UInt8) : Bytes → Nat → StrState → Except Panic (Option Nat)
  | [], _, _ => .ok none
  | b :: bs, i, st =>
    match strStep t b (b :: bs) st with
    | .next st => strLoop t bs (i + 1) st
    | .stop => .ok (some i)
    | .fail p => .error p

/-- Models `tok_str`, slice.rs:679-802.  At most one piece is ever pushed. Without a closing quote
`pieces` is empty and `end` is still 0: the token is an empty string of size 0. -/
def tokStr (t : UInt8) (code : Bytes) : Except Panic (Token × Nat) := do
  match ← strLoop t (code.drop 1) 1 {} with
  | some i =>
    let v ← slice code 1 i
    let _raw ← slice code 0 (i + 1)
    return (.str v, i + 1)
  | none => return (.str [], 0)

/-! ## The dispatcher -/

/-- Models `punc`, slice.rs:110-113. -/
def puncTok (p : Punct) (size : Nat) : Except Panic (Token × Nat) := .ok (.punct p, size)

/-- Models `read_next`, slice.rs:141-332.  `len > k && bytes[k] == c` is `code[k]? = some c`. -/
def readNext (checked : Bool) (code : Bytes) (hint : Hint) : Except Panic (Token × Nat) :=
  match code with
  | [] => .ok (.eof, 0)
  | b :: _ =>
    if b = c!"{" then puncTok .curlyOpen 1
    else if b = c!"(" then puncTok .parenOpen 1
    else if b = c!")" then puncTok .parenClose 1
    else if b = c!"[" then puncTok .squareOpen 1
    else if b = c!"]" then puncTok .squareClose 1
    else if b = c!";" then puncTok .semicolon 1
    else if b = c!"," then puncTok .comma 1
    else if b = c!"?" then puncTok .question 1
    else if b = c!":" then puncTok .colon 1
    else if b = c!"~" then puncTok .tilde 1
    else if b = c!"." then
      if code[1]? = some c!"." ∧ code[2]? = some c!"." then puncTok .ellipsis 3
      else if (code[1]?.map isDigit).getD false = true then tokFractional checked code
      else puncTok .period 1
    else if b = c!"<" then
      if code[1]? = some c!"<" then
        if code[2]? = some c!"=" then puncTok .lAngleAngleEq 3
        else puncTok .lAngleAngle 2
      else if code[1]? = some c!"=" then puncTok .lAngleEq 2
      else puncTok .lAngle 1
    else if b = c!">" then
      if code[1]? = some c!">" then
        if code[2]? = some c!">" then
          if code[3]? = some c!"=" then puncTok .rAngleAngleAngleEq 4
          else puncTok .rAngleAngleAngle 3
        else if code[2]? = some c!"=" then puncTok .rAngleAngleEq 3
        else puncTok .rAngleAngle 2
      else if code[1]? = some c!"=" then puncTok .rAngleEq 2
      else puncTok .rAngle 1
    else if b = c!"=" then
      if code[1]? = some c!"=" then
        if code[2]? = some c!"=" then puncTok .eqEqEq 3
        else puncTok .eqEq 2
      else if code[1]? = some c!">" then puncTok .arrow 2
      else puncTok .eq 1
    else if b = c!"!" then
      if code[1]? = some c!"=" then
        if code[2]? = some c!"=" then puncTok .exclamEqEq 3
        else puncTok .exclamEq 2
      else puncTok .exclam 1
    else if b = c!"+" then
      if code[1]? = some c!"+" then puncTok .plusPlus 2
      else if code[1]? = some c!"=" then puncTok .plusEq 2
      else puncTok .plus 1
    else if b = c!"-" then
      if code[1]? = some c!"-" then
        if code[2]? = some c!">" then puncTok .minusMinusAngle 3
        else puncTok .minusMinus 2
      else if code[1]? = some c!"=" then puncTok .minusEq 2
      else puncTok .minus 1
    else if b = c!"&" then
      if code[1]? = some c!"&" then puncTok .ampAmp 2
      else if code[1]? = some c!"=" then puncTok .ampEq 2
      else puncTok .amp 1
    else if b = c!"|" then
      if code[1]? = some c!"|" then puncTok .barBar 2
      else if code[1]? = some c!"=" then puncTok .barEq 2
      else puncTok .bar 1
    else if b = c!"^" then
      if code[1]? = some c!"=" then puncTok .caretEq 2
      else puncTok .caret 1
    else if b = c!"%" then
      if code[1]? = some c!"=" then puncTok .percentEq 2
      else puncTok .percent 1
    else if b = c!"*" then
      if code[1]? = some c!"*" then
        if code[2]? = some c!"=" then puncTok .starStarEq 3
        else puncTok .starStar 2
      else if code[1]? = some c!"=" then puncTok .starEq 2
      else puncTok .star 1
    else if b = c!"/" then tokSlash code hint
    else if b = c!"}" then tokCurlyClose code hint
    else if b = c!"'" ∨ b = c!"\"" then tokStr b code
    else if b = c!"0" then tokZeroNum checked code
    else if c!"1" ≤ b ∧ b ≤ c!"9" then tokNum checked code
    else if b = c!"`" then tokTemplateHead code
    else if b = 0x09 ∨ b = 0x0B ∨ b = 0x0C ∨ b = 0x20 then .error .unreachable
    else if b = 0xEF ∧ startsWith code WS_ZWNBSP = true then .error .unreachable
    else if b = 0xC2 ∧ startsWith code WS_NBSP = true then .error .unreachable
    else if b = 0x0A ∨ b = 0x0D then .ok (.lineTerminator, 1)
    else if b = 0xE2 ∧ startsLSPS code = true then .ok (.lineTerminator, 3)
    else tokIdent code

/-! ## The tokenizer object -/

/-- Models `SliceTokenizer`, slice.rs:13-17.  `checked` is the build configuration (see the top of
this file); it is not a field of the Rust struct and never changes. -/
structure Tokenizer where
  checked : Bool
  code : Bytes
  position : Position := {}
  deriving DecidableEq, Repr

/-- Models `SliceTokenizer::next_token`, slice.rs:79-96: the token, its range, the new state. -/
def Tokenizer.nextToken (t : Tokenizer) (hint : Hint) :
    Except Panic (Token × TokenRange × Tokenizer) := do
  let start ← eatWhitespace t.code t.position
  let s ← sliceFrom t.code start.offset
  let (token, size) ← readNext t.checked s hint
  let stop ← incrementPosition s size start
  return (token, { start := start, stop := stop }, { t with position := stop })

/-- Models `<&str as IntoTokenizer>::into_tokenizer`, slice.rs:99-108. -/
def intoTokenizer (checked : Bool) (code : Bytes) : Tokenizer := { checked, code }

end Jsparse
