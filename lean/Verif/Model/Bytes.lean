/-!
# Bytes, `str` slices and panics

The tokenizer works on the UTF-8 bytes of a `&str`.  A `&str` is modelled by the list of its
bytes; the Rust type guarantees that these bytes are valid UTF-8, which is `Utf8` below and
which appears as an explicit hypothesis wherever a theorem needs it.
-/

namespace Jsparse

abbrev Bytes := List UInt8

/-- `b!"abc"` is the list of the UTF-8 bytes of the literal, like Rust's `"abc".as_bytes()`. -/
macro:max "b!" s:str : term => do
  let elems := s.getString.toUTF8.toList.map (fun b => Lean.Syntax.mkNumLit (toString b.toNat))
  `(([ $(elems.toArray),* ] : List UInt8))

/-- `c!"x"` is the byte literal `b'x'` of Rust (ASCII characters only). -/
macro:max "c!" c:str : term => do
  `(($(Lean.Syntax.mkNumLit (toString c.getString.front.toNat)) : UInt8))

/-- The ways in which the modelled code panics.  Every Rust panic path is one of these values. -/
inductive Panic where
  /-- `&code[a..b]` with an end that is out of range or inside a multi-byte character. -/
  | strSlice
  /-- arithmetic overflow in a build with overflow checks (`debug` profile). -/
  | overflow
  /-- `unimplemented!("template string")`, slice.rs:406 -/
  | unterminatedTemplate
  /-- `unimplemented!("template tail")`, slice.rs:672 -/
  | unterminatedTemplateTail
  /-- `unimplemented!("unterminated block comment")`, slice.rs:591 -/
  | unterminatedComment
  /-- `unimplemented!("unterminated regex")`, slice.rs:620 -/
  | unterminatedRegex
  /-- `unimplemented!("invalid number error")`, slice.rs:481 and slice.rs:505 -/
  | invalidNumber
  /-- `panic!("numbers not allowed")`, slice.rs:728 -/
  | numericEscape
  /-- `unimplemented!("totally bad escapes")`, slice.rs:731 -/
  | badEscape
  /-- `panic!("string with newlines")`, slice.rs:783 and slice.rs:787 -/
  | newlineInString
  /-- `unreachable!()`, slice.rs:312/315/318 and expressions.rs:47 -/
  | unreachable
  /-- `Option::unwrap` on an empty flag stack, parser/mod.rs:256 -/
  | flagStackEmpty
  /-- `self.count -= 1` with an empty lookahead buffer, parser/mod.rs:271 -/
  | bufferEmpty
  /-- `Result::unwrap` on the `Err` of `parse_module`, parser/mod.rs:45 and :69 -/
  | unwrapErr
  deriving DecidableEq, Repr

/-! ## UTF-8 -/

/-- UTF-8 encoding of one code point (RFC 3629), used to say what a valid `&str` is. -/
def encodeChar (c : Char) : Bytes :=
  let v := c.toNat
  if v < 0x80 then [UInt8.ofNat v]
  else if v < 0x800 then [UInt8.ofNat (0xC0 + v / 64), UInt8.ofNat (0x80 + v % 64)]
  else if v < 0x10000 then
    [UInt8.ofNat (0xE0 + v / 4096), UInt8.ofNat (0x80 + v / 64 % 64), UInt8.ofNat (0x80 + v % 64)]
  else
    [UInt8.ofNat (0xF0 + v / 262144), UInt8.ofNat (0x80 + v / 4096 % 64),
     UInt8.ofNat (0x80 + v / 64 % 64), UInt8.ofNat (0x80 + v % 64)]

/-- The bytes of a text. -/
def encode (cs : List Char) : Bytes := cs.flatMap encodeChar

/-- The invariant of Rust's `str`: the bytes are the UTF-8 encoding of some text. -/
def Utf8 (bs : Bytes) : Prop := ∃ cs : List Char, bs = encode cs

/-- A UTF-8 continuation byte, `10xxxxxx`. -/
def isCont (b : UInt8) : Bool := 0x80 ≤ b && b < 0xC0

/-- Models `str::is_char_boundary` of the Rust standard library: start, end, or a byte that is not
a continuation byte. -/
def isBoundary (code : Bytes) (i : Nat) : Bool :=
  i == 0 ||
  match code.drop i with
  | [] => i == code.length
  | b :: _ => !isCont b

/-- Models `&code[i..]`. -/
def sliceFrom (code : Bytes) (i : Nat) : Except Panic Bytes :=
  if isBoundary code i then .ok (code.drop i) else .error .strSlice

/-- Models `&code[a..b]`. -/
def slice (code : Bytes) (a b : Nat) : Except Panic Bytes :=
  if a ≤ b ∧ isBoundary code a = true ∧ isBoundary code b = true then
    .ok ((code.drop a).take (b - a))
  else .error .strSlice

/-- Models `core::str::validations::next_code_point`, the decoder behind `str::chars`: it reads one
code point from the front of valid UTF-8.  The shifts and masks of the library are written with
`*`, `/` and `%`.  (For a truncated sequence, which cannot occur in a `&str`, missing bytes read as
0.) -/
def nextCodePoint (x : UInt8) (rest : Bytes) : Nat × Bytes :=
  let x := x.toNat
  if x < 128 then (x, rest)
  else
    let y := (rest.headD 0).toNat % 64
    let rest := rest.drop 1
    if x < 0xE0 then (x % 32 * 64 + y, rest)
    else
      let z := (rest.headD 0).toNat % 64
      let rest := rest.drop 1
      if x < 0xF0 then (x % 32 * 4096 + (y * 64 + z), rest)
      else
        let w := (rest.headD 0).toNat % 64
        let rest := rest.drop 1
        (x % 8 * 262144 + (y * 64 + z) * 64 + w, rest)

theorem nextCodePoint_length (x : UInt8) (rest : Bytes) :
    (nextCodePoint x rest).2.length ≤ rest.length := by
  unfold nextCodePoint
  dsimp only
  split
  · exact Nat.le_refl _
  · split
    · simp
    · split
      · simp
      · simp

/-- Models `str::chars`: the code points of a piece of text. -/
def codePoints : Bytes → List Nat
  | [] => []
  | x :: rest =>
    let r := nextCodePoint x rest
    r.1 :: codePoints r.2
termination_by bs => bs.length
decreasing_by
  have := nextCodePoint_length x rest
  simp only [List.length_cons]
  omega

/-- Models `str::starts_with`. -/
def startsWith (s p : Bytes) : Bool := p.isPrefixOf s

end Jsparse
