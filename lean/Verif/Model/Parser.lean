import Verif.Model.Tokenizer
/-!
# The parser object: state, lookahead buffer, flags and token primitives

Models src/parser/mod.rs and the control-flow macros of src/parser/utils.rs.

A parser method `fn m(&mut self, …) -> Result<T>` is a function `P T`, from a parser state to a
result `Res T`.  An `Err` is propagated by `?` up to `parse_module().unwrap()`; no code runs on the
parser after it.  The state that goes with it in the model is the one in which the error arose.
-/

namespace Jsparse

/-- Models `LookaheadResult`, parser/mod.rs:126-130.  `range` is ghost state: `read_token` computes
the range of the token (`pos`, mod.rs:513) but the parser does not keep it. -/
structure Look where
  line : Bool := false
  token : Token := .eof
  range : TokenRange := {}
  deriving DecidableEq, Repr

/-- What the Rust code has of a `LookaheadResult`. -/
def Look.seen (l : Look) : Bool × Token := (l.line, l.token)

/-- Models `Flag`, parser/mod.rs:133-146. -/
inductive Flag where
  | fin | yield | await | return | default | module | strict | noop | template
  deriving DecidableEq, Repr

/-- Models `GrammarFlags`, parser/mod.rs:148-159 (`Default` is all `false`). -/
structure Flags where
  allowIn : Bool := false
  allowYield : Bool := false
  allowAwait : Bool := false
  allowReturn : Bool := false
  allowDefault : Bool := false
  isModule : Bool := false
  isStrict : Bool := false
  expectTemplate : Bool := false
  deriving DecidableEq, Repr

/-- Models `Parser`, parser/mod.rs:161-183.  `tokens: [LookaheadResult; 2]` is the two slots;
`index: u8` is only ever assigned 0 or `(index + 1) % 2`, so it is a `Bool`; `count: u8` is a `Nat`.
`log` is ghost state: the tokens removed by `pop`, oldest first.  No function reads it. -/
structure PState where
  tok : Tokenizer
  hint : Hint := {}
  flags : Flags := {}
  stack : List Flags := []
  slot0 : Look := {}
  slot1 : Look := {}
  index : Bool := false
  count : Nat := 0
  log : List Look := []
  deriving DecidableEq, Repr

/-- Reasons for an `Err` of the parser. -/
inductive ParseErr where
  /-- `ParseError {}`, utils.rs:30, raised by `eat_value!` -/
  | unexpectedToken
  /-- `bail!("Invalid for loop")`, statements.rs:530 -/
  | invalidFor
  /-- `bail!("bad for loop")`, statements.rs:533 -/
  | badFor
  /-- `bail!("duplicate default statements")`, statements.rs:561 -/
  | duplicateDefault
  /-- `bail!("Unexpected line terminator between async arrow argument and arrow")`,
  expressions.rs:51 -/
  | asyncArrowLine
  /-- `bail!("expected method name")`, classes.rs:109 -/
  | expectedMethodName
  deriving DecidableEq, Repr

/-- Outcome of running a parser method.  `timeout` is not a behaviour of the Rust code: it is what
the model answers when the recursion bound given to it is too small. -/
inductive Res (α : Type) where
  | ok (a : α) (s : PState)
  | err (e : ParseErr) (s : PState)
  | panic (p : Panic)
  | timeout
  deriving DecidableEq, Repr

/-- A parser method. -/
def P (α : Type) : Type := PState → Res α

namespace P

/-- Sequencing; errors and panics stop the computation (the `?` operator). -/
protected def bind {α β : Type} (m : P α) (k : α → P β) : P β := fun s =>
  match m s with
  | .ok a s' => k a s'
  | .err e s' => .err e s'
  | .panic p => .panic p
  | .timeout => .timeout

protected def pure {α : Type} (a : α) : P α := fun s => .ok a s

instance : Monad P where
  pure := P.pure
  bind := P.bind

/-- The current grammar flags, `self.flags`. -/
def getFlags : P Flags := fun s => .ok s.flags s
def fail {α : Type} (e : ParseErr) : P α := fun s => .err e s
def panic {α : Type} (p : Panic) : P α := fun _ => .panic p

/-- `loop { … }`: `body` returns `inl` to go round again with new values of the locals, `inr` to
`break`.  The first argument bounds the number of rounds. -/
def loop {σ β : Type} : Nat → (σ → P (σ ⊕ β)) → σ → P β
  | 0, _, _ => fun _ => .timeout
  | n + 1, body, st => do
    match ← body st with
    | .inl st' => loop n body st'
    | .inr b => return b

/-- `while let TokenResult::Some(_) = body()? { }` -/
def whileSome {α : Type} (n : Nat) (body : P (Option α)) : P Unit :=
  loop n (fun _ => do
    match ← body with
    | some _ => return .inl ()
    | none => return .inr ()) ()

/-- The macro `eat_value!`, utils.rs:58-69. -/
def eat {α : Type} (m : P (Option α)) : P α := do
  match ← m with
  | some a => return a
  | none => fail .unexpectedToken

/-- One link of the macro `try_sequence!`, utils.rs:40-54. -/
def orTry {α : Type} (m₁ m₂ : P (Option α)) : P (Option α) := do
  match ← m₁ with
  | some a => return (some a)
  | none => m₂

/-! ## Flags -/

/-- Models `push_flags`, parser/mod.rs:235-254. -/
def pushFlags (flag : Flag) (val : Bool) (s : PState) : PState :=
  let s' := { s with stack := s.flags :: s.stack }
  match flag with
  | .fin => { s' with flags := { s.flags with allowIn := val } }
  | .yield => { s' with flags := { s.flags with allowYield := val } }
  | .await => { s' with flags := { s.flags with allowAwait := val } }
  | .return => { s' with flags := { s.flags with allowReturn := val } }
  | .default => { s' with flags := { s.flags with allowDefault := val } }
  | .module => { s' with flags := { s.flags with isModule := val } }
  | .strict => { s' with flags := { s.flags with isStrict := val } }
  | .template =>
    { s' with flags := { s.flags with expectTemplate := val },
              hint := { s.hint with template := val } }
  | .noop => s'

/-- Models `pop_flags`, parser/mod.rs:255-258. -/
def popFlags : P Unit := fun s =>
  match s.stack with
  | [] => .panic .flagStackEmpty
  | f :: rest =>
    .ok () { s with flags := f, stack := rest,
                    hint := { s.hint with template := f.expectTemplate } }

/-- `self.with(flag)` (`val = true`) and `self.without(flag)` (`val = false`) followed by `m` on the
proxy: parser/mod.rs:87-124 and 223-233.  `Drop for ParserProxy` pops the flags when the proxy goes
out of scope. -/
def withFlag {α : Type} (flag : Flag) (val : Bool) (m : P α) : P α := do
  fun s => .ok () (pushFlags flag val s)
  let a ← m
  popFlags
  return a

/-- Models `expect_expression`, parser/mod.rs:186-188. -/
def expectExpression : P Unit := fun s =>
  .ok () { s with hint := { s.hint with expression := true } }

/-! ## Reading tokens -/

/-- Outcome of `read_token`. -/
inductive ReadRes where
  | ok (look : Look) (tok : Tokenizer)
  | panic (p : Panic)
  | timeout
  deriving DecidableEq, Repr

/-- The loop of `read_token`, parser/mod.rs:514-535. -/
def readTokenLoop : Nat → Tokenizer → Hint → Bool → ReadRes
  | 0, _, _, _ => .timeout
  | n + 1, tok, hint, line =>
    match tok.nextToken hint with
    | .error p => .panic p
    | .ok (token, range, tok') =>
      match token with
      | .whitespace => readTokenLoop n tok' hint line
      | .lineTerminator => readTokenLoop n tok' hint true
      | .comment _ _ =>
        readTokenLoop n tok' hint (if range.start.line ≠ range.stop.line then true else line)
      | t => .ok { line, token := t, range } tok'

/-- Models `read_token`, parser/mod.rs:507-536.  The loop bound is one more than the number of
bytes, which is enough (`readTokenLoop_ne_timeout`). `*hint = hint.expression(false)` is left to the
callers. -/
def readToken (tok : Tokenizer) (hint : Hint) : ReadRes :=
  readTokenLoop (tok.code.length + 1) tok hint false

/-- `self.tokens[self.index as usize]` -/
def cur (s : PState) : Look := if s.index then s.slot1 else s.slot0

/-- `self.tokens[((self.index + 1) % 2) as usize]` -/
def other (s : PState) : Look := if s.index then s.slot0 else s.slot1

/-- The first half of `token_and_line`, parser/mod.rs:279-285: fill the buffer if it is empty. -/
def fill : P Unit := fun s =>
  if s.count = 0 then
    match readToken s.tok s.hint with
    | .ok look tok =>
      .ok () { s with tok, hint := { s.hint with expression := false },
                      slot0 := look, index := false, count := s.count + 1 }
    | .panic p => .panic p
    | .timeout => .timeout
  else .ok () s

/-- Models `token_and_line`, parser/mod.rs:278-289. -/
def tokenAndLine : P (Bool × Token) := do
  fill
  fun s => .ok (cur s).seen s

/-- Models `token`, parser/mod.rs:260-262. -/
def token : P Token := do
  let r ← tokenAndLine
  return r.2

/-- Models `no_line_terminator`, parser/mod.rs:291-293. -/
def noLineTerminator : P Bool := do
  let r ← tokenAndLine
  return !r.1

/-- Models `pop`, parser/mod.rs:264-276.  With an empty buffer `self.count -= 1` overflows a `u8`:
the model panics (a release build would wrap to 255); `C25_no_internal_panic` shows that this cannot
happen. -/
def pop : P Token := fun s =>
  if s.count = 0 then .panic .bufferEmpty
  else
    .ok (cur s).token
      { s with
        slot0 := if s.index then s.slot0 else { s.slot0 with token := .eof }
        slot1 := if s.index then { s.slot1 with token := .eof } else s.slot1
        index := !s.index
        count := s.count - 1
        log := s.log ++ [cur s] }

/-- The reserved words that are never binding identifiers, parser/mod.rs:548-551. -/
def keywords : List Bytes :=
  [b!"break", b!"case", b!"catch", b!"class", b!"const", b!"continue", b!"debugger", b!"default",
   b!"delete", b!"do", b!"else", b!"export", b!"extends", b!"finally", b!"for", b!"function",
   b!"if", b!"import", b!"in", b!"instanceof", b!"new", b!"return", b!"super", b!"switch",
   b!"this", b!"throw", b!"try", b!"typeof", b!"var", b!"void", b!"while", b!"with", b!"yield"]

/-- Models the free function `is_binding_identifier`, parser/mod.rs:538-567. -/
def isBindingIdentifier (flags : Flags) (s : Bytes) : Bool :=
  if s = b!"yield" ∧ flags.allowYield = false then false
  else if s = b!"await" ∧ flags.allowAwait = false then false
  else if s ∈ keywords then false
  else if (s = b!"let" ∨ s = b!"static") ∧ flags.isStrict = true then false
  else if s = b!"enum" then false
  else if (s = b!"implements" ∨ s = b!"package" ∨ s = b!"protected" ∨ s = b!"interface"
      ∨ s = b!"private" ∨ s = b!"public") ∧ flags.isStrict = true then false
  else if s = b!"null" ∨ s = b!"true" ∨ s = b!"false" then false
  else true

/-- Models `ident_lookahead`, parser/mod.rs:299-319.  The hint used for the second token is a local
copy, so `self.hint` is not changed by the second `read_token`. -/
def identLookahead : P (Option (Bool × Token)) := do
  fill
  fun s =>
    if s.count < 2 then
      match (cur s).token with
      | .ident name =>
        match readToken s.tok { s.hint with expression := !isBindingIdentifier s.flags name } with
        | .ok look tok =>
          .ok (some look.seen)
            { s with tok
                     slot0 := if s.index then look else s.slot0
                     slot1 := if s.index then s.slot1 else look
                     count := s.count + 1 }
        | .panic p => .panic p
        | .timeout => .timeout
      | _ => .ok none s
    else .ok (some (other s).seen) s

/-! ## Token tests

The methods `punc`, `numeric`, … all have the shape: look at the current token; if it is the wanted
one, `pop` it and match the result again (the second match failing is `unreachable!`), otherwise
return `None` without popping. -/

/-- Models `punc`, parser/mod.rs:321-338. -/
def punc (p : Punct) : P (Option Punct) := do
  let t ← token
  if t = .punct p then
    match ← pop with
    | .punct q => return (some q)
    | _ => panic .unreachable
  else return none

/-- Models `numeric`, parser/mod.rs:340-355. -/
def numeric : P (Option NumExpr) := do
  match ← token with
  | .num _ =>
    match ← pop with
    | .num v => return (some v)
    | _ => panic .unreachable
  | _ => return none

/-- Models `string`, parser/mod.rs:357-372. -/
def string : P (Option Bytes) := do
  match ← token with
  | .str _ =>
    match ← pop with
    | .str v => return (some v)
    | _ => panic .unreachable
  | _ => return none

/-- Models `regex`, parser/mod.rs:374-389. -/
def regex : P (Option (Bytes × Bytes)) := do
  match ← token with
  | .regex _ _ =>
    match ← pop with
    | .regex p f => return (some (p, f))
    | _ => panic .unreachable
  | _ => return none

/-- The token test of `template`, parser/mod.rs:392-396. -/
def isTemplateStart : Token → Bool
  | .template .noSubstitution _ _ => true
  | .template .head _ _ => true
  | _ => false

/-- The token test of `template_tail`, parser/mod.rs:409-413. -/
def isTemplateCont : Token → Bool
  | .template .middle _ _ => true
  | .template .tail _ _ => true
  | _ => false

/-- Models `template`, parser/mod.rs:391-407; only the format of the token is used by callers. -/
def template : P (Option TemplateFormat) := do
  let t ← token
  if isTemplateStart t = true then
    match ← pop with
    | .template f _ _ => return (some f)
    | _ => panic .unreachable
  else return none

/-- Models `template_tail`, parser/mod.rs:408-424. -/
def templateTail : P (Option TemplateFormat) := do
  let t ← token
  if isTemplateCont t = true then
    match ← pop with
    | .template f _ _ => return (some f)
    | _ => panic .unreachable
  else return none

/-- Models `binding_identifier`, parser/mod.rs:426-443.  `reference_identifier` (445-447) and
`label_identifier` (449-451) are the same method. -/
def bindingIdentifier : P (Option Bytes) := do
  let flags ← getFlags
  match ← token with
  | .ident v =>
    if isBindingIdentifier flags v = true then
      match ← pop with
      | .ident v => return (some v)
      | _ => panic .unreachable
    else return none
  | _ => return none

/-- Models `keyword`, parser/mod.rs:453-470. -/
def keyword (k : Bytes) : P (Option Bytes) := do
  let t ← token
  if t = .ident k then
    match ← pop with
    | .ident v => return (some v)
    | _ => panic .unreachable
  else return none

/-- Models `identifier`, parser/mod.rs:472-487. -/
def identifier : P (Option Bytes) := do
  match ← token with
  | .ident _ =>
    match ← pop with
    | .ident v => return (some v)
    | _ => panic .unreachable
  | _ => return none

/-- Models `eof`, parser/mod.rs:489-504. -/
def eof : P (Option Unit) := do
  match ← token with
  | .eof =>
    match ← pop with
    | .eof => return (some ())
    | _ => panic .unreachable
  | _ => return none

/-- The classification in `semicolon_inner`, parser/mod.rs:197-212: `some exists`, or `none` for
the early `return TokenResult::None`. -/
def semicolonExists (wasDoWhile line : Bool) : Token → Option Bool
  | .punct .semicolon => some true
  | .punct .curlyClose => some false
  | .eof => some false
  | _ => if wasDoWhile || line then some false else none

/-- Models `semicolon_inner`, parser/mod.rs:196-221; `semicolon` (190-192) passes `false` and
`semicolon_dowhile` (193-195) passes `true`. -/
def semicolonInner (wasDoWhile : Bool) : P (Option Unit) := do
  let lt ← tokenAndLine
  match semicolonExists wasDoWhile lt.1 lt.2 with
  | none => return none
  | some true => do
    let _ ← pop
    return (some ())
  | some false => do
    expectExpression
    return (some ())

end P

end Jsparse
