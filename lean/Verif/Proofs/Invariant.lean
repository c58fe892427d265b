import Verif.Proofs.Congr
import Verif.Proofs.ReadToken
/-!
# The invariant of the parser state

The tokens removed so far, followed by the buffered ones, are the tokens delivered by the tokenizer
from the start of the text.
-/

namespace Jsparse

open Spec P

/-- The tokens delivered by `read_token` between two states of the tokenizer. -/
inductive Delivered (t0 : Tokenizer) : List Look → Tokenizer → Prop
  | nil : Delivered t0 [] t0
  | snoc {ls : List Look} {t : Tokenizer} {h : Hint} {look : Look} {t' : Tokenizer} :
      Delivered t0 ls t → ReadInfo t h look t' → Delivered t0 (ls ++ [look]) t'

theorem Delivered.calls {t0 t : Tokenizer} {ls : List Look} (h : Delivered t0 ls t) :
    ∃ toks, Calls t0 toks t ∧ ∀ rest, deliver false (toks ++ rest) = ls ++ deliver false rest := by
  induction h with
  | nil => exact ⟨[], .nil _, fun _ => rfl⟩
  | snoc _ hi ih =>
    obtain ⟨toks, h1, h2⟩ := ih
    obtain ⟨toks', h3, h4⟩ := hi.all
    refine ⟨toks ++ toks', h1.trans h3, fun rest => ?_⟩
    rw [List.append_assoc, h2, h4, List.append_assoc]
    rfl

theorem Delivered.valid {t0 t : Tokenizer} {ls : List Look} (h : Delivered t0 ls t) (hv : Valid t0) :
    Valid t := by
  obtain ⟨toks, h1, -⟩ := h.calls
  exact valid_calls hv h1

/-- Inversion: everything before the last token. -/
theorem Delivered.snoc_inv {t0 t' : Tokenizer} {ls : List Look} {look : Look}
    (h : Delivered t0 (ls ++ [look]) t') :
    ∃ t hint, Delivered t0 ls t ∧ ReadInfo t hint look t' := by
  generalize hl : ls ++ [look] = l at h
  cases h with
  | nil => simp at hl
  | snoc h1 h2 =>
    obtain ⟨rfl, hx⟩ := List.append_inj' hl rfl
    cases hx
    exact ⟨_, _, h1, h2⟩

/-- The tokens in the buffer, next one first. -/
def buf (s : PState) : List Look :=
  match s.count with
  | 0 => []
  | 1 => [cur s]
  | _ => [cur s, other s]

theorem buf_zero {s : PState} (h : s.count = 0) : buf s = [] := by unfold buf; simp only [h]
theorem buf_one {s : PState} (h : s.count = 1) : buf s = [cur s] := by unfold buf; simp only [h]
theorem buf_two {s : PState} (h : s.count = 2) : buf s = [cur s, other s] := by unfold buf; simp only [h]

/-- The invariant. -/
structure Inv (t0 : Tokenizer) (s : PState) : Prop where
  count : s.count ≤ 2
  stream : Delivered t0 (s.log ++ buf s) s.tok
  hint : s.hint.template = s.flags.expectTemplate
  second : s.count = 2 → ∃ v, (cur s).token = .ident v

theorem Inv.valid {t0 : Tokenizer} {s : PState} (h : Inv t0 s) (hv : Valid t0) : Valid s.tok :=
  h.stream.valid hv

/-- The tokenizer returns the same token of width zero forever. -/
def Stuck (s : PState) : Prop :=
  ∃ tok r, (tok = .ident [] ∨ tok = .str []) ∧ (∀ h, s.tok.nextToken h = .ok (tok, r, s.tok)) ∧
    ∀ x ∈ buf s, x = ⟨false, tok, r⟩

/-- What every method does to the state. -/
structure Step (s s' : PState) : Prop where
  flags : s'.flags = s.flags
  stack : s'.stack = s.stack
  log : ∃ l, s'.log = s.log ++ l ∧ ∀ x ∈ l, x.token ≠ .eof
  stuck : Stuck s → Stuck s'

theorem Step.refl (s : PState) : Step s s := ⟨rfl, rfl, ⟨[], by simp, by simp⟩, id⟩

theorem Step.trans {s1 s2 s3 : PState} (h : Step s1 s2) (h' : Step s2 s3) : Step s1 s3 := by
  obtain ⟨l1, h1, n1⟩ := h.log
  obtain ⟨l2, h2, n2⟩ := h'.log
  refine ⟨h'.flags.trans h.flags, h'.stack.trans h.stack, ⟨l1 ++ l2, by rw [h2, h1, List.append_assoc], ?_⟩,
    h'.stuck ∘ h.stuck⟩
  intro x hx
  rcases List.mem_append.1 hx with hx | hx
  · exact n1 x hx
  · exact n2 x hx

/-- Where the tokens removed so far end. -/
def endOf (log : List Look) : Nat :=
  match log.getLast? with
  | none => 0
  | some l => l.range.stop.offset

theorem endOf_snoc (log : List Look) (x : Look) : endOf (log ++ [x]) = x.range.stop.offset := by
  simp [endOf]

/-- The tokens are in order, and only special ones have width zero. -/
theorem Delivered.last {t0 t : Tokenizer} (hv : Valid t0) (h0 : t0.position.offset = 0)
    {ls : List Look} (h : Delivered t0 ls t) : t.position.offset = endOf ls ∧ t.code = t0.code := by
  induction h with
  | nil => exact ⟨h0, rfl⟩
  | snoc h1 hi ih =>
    obtain ⟨-, h2, h3, -⟩ := hi.width (h1.valid hv)
    exact ⟨by rw [endOf_snoc, h2], by rw [h3]; exact ih.2⟩

theorem Delivered.order {t0 t : Tokenizer} (hv : Valid t0) (h0 : t0.position.offset = 0)
    {ls : List Look} {x : Look} (h : Delivered t0 (ls ++ [x]) t) :
    endOf ls ≤ x.range.start.offset ∧ x.range.stop.offset ≤ t0.code.length ∧
    (x.range.start.offset < x.range.stop.offset ∨
      (x.range.start.offset = x.range.stop.offset ∧
        (x.token = .eof ∨ x.token = .ident [] ∨ x.token = .str []))) := by
  obtain ⟨t1, hint, h1, hi⟩ := h.snoc_inv
  obtain ⟨a, -, -, d, e⟩ := hi.width (h1.valid hv)
  obtain ⟨b, c⟩ := h1.last hv h0
  rw [b] at a
  rw [c] at d
  exact ⟨a, d, e⟩

/-! ## Primitive operations -/

theorem cur_ok (s : PState) (look : Look) (tok : Tokenizer) (hint : Hint) (n : Nat) :
    cur { s with tok := tok, hint := hint, slot0 := look, index := false, count := n } = look := rfl

/-- A stuck tokenizer delivers its token. -/
theorem stuck_read {t : Tokenizer} {tok : Token} {r : TokenRange}
    (ht : tok = .ident [] ∨ tok = .str []) (hn : ∀ h, t.nextToken h = .ok (tok, r, t)) (h : Hint) :
    readToken t h = .ok ⟨false, tok, r⟩ t := by
  unfold readToken readTokenLoop
  rw [hn h]
  rcases ht with rfl | rfl <;> rfl

theorem fill_inv {t0 : Tokenizer} {s : PState} (hv : Valid t0) (hs : Inv t0 s) :
    match fill s with
    | .ok _ s' => Inv t0 s' ∧ s'.count ≠ 0 ∧ Step s s' ∧ s'.log = s.log ∧
        (s.count ≠ 0 → s' = s)
    | .panic p => ∃ toks t h, Calls t0 toks t ∧ PanicsWith t h p
    | .err _ _ => False
    | .timeout => False := by
  unfold fill
  by_cases hc : s.count = 0
  · rw [if_pos hc]
    have hr := readToken_spec (hs.valid hv) s.hint
    have hst := hs.stream
    rw [buf_zero hc, List.append_nil] at hst
    cases h : readToken s.tok s.hint with
    | ok look tok =>
      rw [h] at hr
      simp only
      refine ⟨⟨by simp [hc], ?_, hs.hint, by simp [hc]⟩, by simp, ⟨rfl, rfl, ⟨[], by simp, by simp⟩, ?_⟩, by trivial, fun h => absurd hc h⟩
      · rw [buf_one (by simp [hc])]
        exact hst.snoc hr
      · rintro ⟨tk, r, h1, h2, h3⟩
        have := stuck_read h1 h2 s.hint
        rw [h] at this
        cases this
        refine ⟨tk, r, h1, h2, ?_⟩
        rw [buf_one (by simp [hc])]
        intro x hx
        exact List.mem_singleton.1 hx
    | panic p =>
      rw [h] at hr
      obtain ⟨toks, t1, h1, h2⟩ := hr
      obtain ⟨toks', h3, -⟩ := hst.calls
      exact ⟨_, _, _, h3.trans h1, h2⟩
    | timeout => rw [h] at hr; exact hr
  · rw [if_neg hc]
    exact ⟨hs, hc, .refl s, rfl, fun _ => rfl⟩

theorem buf_pos {s : PState} (h : s.count ≠ 0) (h2 : s.count ≤ 2) :
    buf s = cur s :: buf (popState s) := by
  have hc : s.count = 1 ∨ s.count = 2 := by omega
  have hcur : cur (popState s) = other s := by
    unfold cur other popState; cases s.index <;> rfl
  rcases hc with h | h
  · rw [buf_one h, buf_zero (by simp [popState, h])]
  · rw [buf_two h, buf_one (by simp [popState, h]), hcur]

theorem pop_inv {t0 : Tokenizer} {s : PState} (hs : Inv t0 s) (hc : s.count ≠ 0)
    (he : (cur s).token ≠ .eof) : Inv t0 (popState s) ∧ Step s (popState s) := by
  have hb := buf_pos hc hs.count
  refine ⟨⟨by have := hs.count; simp only [popState]; omega, ?_, hs.hint, ?_⟩, ⟨rfl, rfl, ⟨[cur s], rfl, ?_⟩, ?_⟩⟩
  · have := hs.stream
    rw [hb] at this
    have he : (popState s).log = s.log ++ [cur s] := rfl
    rw [he, List.append_assoc]
    exact this
  · intro h2
    have := hs.count
    simp only [popState] at h2
    omega
  · intro x hx
    rw [List.mem_singleton.1 hx]
    exact he
  · rintro ⟨tk, r, h1, h2, h3⟩
    refine ⟨tk, r, h1, h2, fun x hx => h3 x ?_⟩
    rw [hb]
    exact List.mem_cons_of_mem _ hx

/-- Removing a token of width zero leaves a stuck tokenizer. -/
theorem pop_stuck {t0 : Tokenizer} {s : PState} (hv : Valid t0) (hs : Inv t0 s) (hc : s.count ≠ 0)
    (he : (cur s).token ≠ .eof)
    (hz : (cur s).range.start.offset = (cur s).range.stop.offset) : Stuck (popState s) := by
  have hb := buf_pos hc hs.count
  have hst := hs.stream
  rw [hb] at hst
  -- the state after the current token was read
  have rep : ∀ {t h t'}, Valid t → ReadInfo t h (cur s) t' →
      ((cur s).token = .ident [] ∨ (cur s).token = .str []) ∧
      ∀ h', t'.nextToken h' = .ok ((cur s).token, (cur s).range, t') := by
    intro t h t' hvt hi
    obtain ⟨-, -, -, -, hw⟩ := hi.width hvt
    obtain ⟨toks, t1, h1, h2, -⟩ := hi.calls
    have hv1 := valid_calls hvt h1
    refine ⟨?_, ?_⟩
    · rcases hw with hw | ⟨-, hw | hw⟩
      · omega
      · exact absurd hw he
      · exact hw
    · intro h'
      refine zero_width_repeats h2 hz h' fun bl s' hi' => ?_
      have ha : Ahead t1 bl s' := ⟨hi'.unread, hi'.blanks, hi'.noBlank⟩
      exact zero_width_any_hint (ha.utf8 hv1) hi'.noBlank hi'.noWide hi'.read h'
  have hcnt : s.count = 1 ∨ s.count = 2 := by have := hs.count; omega
  rcases hcnt with h | h
  · have hb0 : buf (popState s) = [] := buf_zero (by simp [popState, h])
    rw [hb0] at hst
    obtain ⟨t1, hint, h1, hi⟩ := hst.snoc_inv
    obtain ⟨h2, h3⟩ := rep (h1.valid hv) hi
    exact ⟨_, _, h2, h3, by rw [hb0]; simp⟩
  · have hb1 : buf (popState s) = [cur (popState s)] := buf_one (by simp [popState, h])
    rw [hb1] at hst
    have : s.log ++ [cur s, cur (popState s)] = (s.log ++ [cur s]) ++ [cur (popState s)] := by simp
    rw [this] at hst
    obtain ⟨t2, hint2, h2, hi2⟩ := hst.snoc_inv
    obtain ⟨t1, hint, h1, hi⟩ := h2.snoc_inv
    obtain ⟨h3, h4⟩ := rep (h1.valid hv) hi
    have hr := hi2.read
    rw [stuck_read h3 h4] at hr
    simp only [ReadRes.ok.injEq] at hr
    obtain ⟨hr1, hr2⟩ := hr
    refine ⟨_, (cur s).range, h3, ?_, ?_⟩
    · have : (popState s).tok = t2 := hr2.symm
      rw [this]
      exact h4
    · rw [hb1]
      intro x hx
      rw [List.mem_singleton.1 hx]
      exact hr1.symm

theorem lookSecond_inv {t0 : Tokenizer} {s : PState} (hv : Valid t0) (hs : Inv t0 s)
    (hc : s.count ≠ 0) :
    match lookSecond s with
    | .ok _ s' => Inv t0 s' ∧ Step s s' ∧ s'.log = s.log
    | .panic p => ∃ toks t h, Calls t0 toks t ∧ PanicsWith t h p
    | .err _ _ => False
    | .timeout => False := by
  unfold lookSecond
  by_cases h2 : s.count < 2
  · rw [if_pos h2]
    have h1 : s.count = 1 := by omega
    have hst := hs.stream
    cases hname : (cur s).token with
    | ident name =>
      generalize hh : ({ s.hint with expression := !isBindingIdentifier s.flags name } : Hint) = hint
      have hr := readToken_spec (hs.valid hv) hint
      simp only [hh]
      cases h : readToken s.tok hint with
      | ok look tok =>
        rw [h] at hr
        have hcur : cur { s with
            tok := tok
            slot0 := if s.index then look else s.slot0
            slot1 := if s.index then s.slot1 else look
            count := s.count + 1 } = cur s := by
          unfold cur; cases hi : s.index <;> simp
        have hoth : other { s with
            tok := tok
            slot0 := if s.index then look else s.slot0
            slot1 := if s.index then s.slot1 else look
            count := s.count + 1 } = look := by
          unfold other; cases hi : s.index <;> simp
        have hbuf : buf { s with
            tok := tok
            slot0 := if s.index then look else s.slot0
            slot1 := if s.index then s.slot1 else look
            count := s.count + 1 } = buf s ++ [look] := by
          rw [buf_two (by simp [h1]), buf_one h1, hcur, hoth]; rfl
        refine ⟨⟨by simp [h1], ?_, hs.hint, fun _ => ⟨name, by rw [hcur]; exact hname⟩⟩, ⟨rfl, rfl, ⟨[], by simp, by simp⟩, ?_⟩, rfl⟩
        · rw [hbuf, ← List.append_assoc]
          exact hst.snoc hr
        · rintro ⟨tk, r, h3, h4, h5⟩
          have := stuck_read h3 h4 hint
          rw [h] at this
          cases this
          refine ⟨tk, r, h3, h4, ?_⟩
          rw [hbuf]
          intro x hx
          rcases List.mem_append.1 hx with hx | hx
          · exact h5 x hx
          · exact List.mem_singleton.1 hx
      | panic p =>
        rw [h] at hr
        obtain ⟨toks, t1, h3, h4⟩ := hr
        obtain ⟨toks', h5, -⟩ := hst.calls
        exact ⟨_, _, _, h5.trans h3, h4⟩
      | timeout => rw [h] at hr; exact hr
    | _ => exact ⟨hs, .refl s, rfl⟩
  · rw [if_neg h2]
    exact ⟨hs, .refl s, rfl⟩

/-! ## The invariant holds in all methods -/

/-- Tokens other than the end of the text were removed. -/
def Grows (s s' : PState) : Prop := ∃ l, s'.log = s.log ++ l ∧ ∀ x ∈ l, x.token ≠ .eof

theorem Grows.refl (s : PState) : Grows s s := ⟨[], by simp, by simp⟩

theorem Grows.trans {s1 s2 s3 : PState} (h : Grows s1 s2) (h' : Grows s2 s3) : Grows s1 s3 := by
  obtain ⟨l1, h1, n1⟩ := h
  obtain ⟨l2, h2, n2⟩ := h'
  refine ⟨l1 ++ l2, by rw [h2, h1, List.append_assoc], fun x hx => ?_⟩
  exact (List.mem_append.1 hx).elim (n1 x) (n2 x)

/-- The method keeps the invariant, restores the flags, and its panics come from the tokenizer. -/
def Keeps (t0 : Tokenizer) {α : Type} (m : P α) : Prop :=
  ∀ s, Inv t0 s →
    match m s with
    | .ok _ s' => Inv t0 s' ∧ Step s s'
    | .panic p => ∃ toks t h, Calls t0 toks t ∧ PanicsWith t h p
    | .err _ s' => Inv t0 s' ∧ Grows s s'
    | .timeout => True

theorem keeps_bind {t0 : Tokenizer} {α β : Type} {m : P α} {k : α → P β} (hm : Keeps t0 m)
    (hk : ∀ a, Keeps t0 (k a)) : Keeps t0 (m >>= k) := by
  intro s hs
  rw [bind_apply]
  have := hm s hs
  cases h : m s with
  | ok a s' =>
    rw [h] at this
    have h2 := hk a s' this.1
    simp only
    cases h3 : k a s' with
    | ok b s'' => rw [h3] at h2; exact ⟨h2.1, this.2.trans h2.2⟩
    | err e => rw [h3] at h2; exact ⟨h2.1, Grows.trans this.2.log h2.2⟩
    | panic p => rw [h3] at h2; exact h2
    | timeout => trivial
  | err e => rw [h] at this; exact this
  | panic p => rw [h] at this; exact this
  | timeout => trivial

theorem pushFlags_facts (f : Flag) (b : Bool) (s : PState) :
    (pushFlags f b s).stack = s.flags :: s.stack ∧ (pushFlags f b s).log = s.log ∧
    (pushFlags f b s).tok = s.tok ∧ buf (pushFlags f b s) = buf s ∧
    (pushFlags f b s).count = s.count ∧
    (s.hint.template = s.flags.expectTemplate →
      (pushFlags f b s).hint.template = (pushFlags f b s).flags.expectTemplate) ∧
    cur (pushFlags f b s) = cur s := by
  cases f <;> exact ⟨rfl, rfl, rfl, rfl, rfl, fun h => by first | exact h | rfl, rfl⟩

theorem withFlag_apply {α : Type} (f : Flag) (b : Bool) (m : P α) (s : PState) :
    withFlag f b m s = match m (pushFlags f b s) with
      | .ok a s' =>
        match popFlags s' with
        | .ok _ s'' => .ok a s''
        | .err e s => .err e s
        | .panic p => .panic p
        | .timeout => .timeout
      | .err e s => .err e s
      | .panic p => .panic p
      | .timeout => .timeout := by
  unfold withFlag
  refine (bind_apply _ _ s).trans ?_
  simp only [bind_apply]
  cases m (pushFlags f b s) with
  | ok a s' => simp only; cases popFlags s' <;> rfl
  | _ => rfl

theorem keeps_congr {t0 : Tokenizer} (hv : Valid t0) (N N' : Nat) :
    Congr N N' (fun {_} m _ => Keeps t0 m) where
  pure a := fun s hs => ⟨hs, .refl s⟩
  bind hm hk := keeps_bind hm hk
  fail e _ := fun s hs => ⟨hs, .refl s⟩
  flags := fun s hs => ⟨hs, .refl s⟩
  withFlag f b m m' hm := by
    intro s hs
    rw [withFlag_apply]
    obtain ⟨h1, h2, h3, h4, h5, h6, h7⟩ := pushFlags_facts f b s
    have hp : Inv t0 (pushFlags f b s) :=
      ⟨by rw [h5]; exact hs.count, by rw [h2, h3, h4]; exact hs.stream, h6 hs.hint,
        by rw [h5, h7]; exact hs.second⟩
    have := hm _ hp
    cases h : m (pushFlags f b s) with
    | ok a s' =>
      rw [h] at this
      obtain ⟨hi, hst⟩ := this
      have hstack : s'.stack = s.flags :: s.stack := by rw [hst.stack, h1]
      have hpop : popFlags s' = .ok () { s' with
          flags := s.flags, stack := s.stack,
          hint := { s'.hint with template := s.flags.expectTemplate } } := by
        unfold popFlags; rw [hstack]
      simp only [hpop]
      have hbuf : buf { s' with
          flags := s.flags, stack := s.stack,
          hint := { s'.hint with template := s.flags.expectTemplate } } = buf s' := rfl
      refine ⟨⟨hi.count, ?_, rfl, hi.second⟩, rfl, rfl, ?_, ?_⟩
      · rw [hbuf]; exact hi.stream
      · have := hst.log; rw [h2] at this; exact this
      · intro hk
        have : Stuck (pushFlags f b s) := by
          obtain ⟨tk, r, a1, a2, a3⟩ := hk
          exact ⟨tk, r, a1, by rw [h3]; exact a2, by rw [h4]; exact a3⟩
        exact hst.stuck this
    | err e s' =>
      rw [h] at this
      obtain ⟨l, h8, h9⟩ := this.2
      exact ⟨this.1, l, by rw [h8, h2], h9⟩
    | panic p => rw [h] at this; exact this
    | timeout => trivial
  expect := fun s hs => ⟨⟨hs.count, hs.stream, hs.hint, hs.second⟩, rfl, rfl, ⟨[], by simp, by simp⟩, id⟩
  look := by
    intro s hs
    rw [tokenAndLine_apply]
    have := fill_inv hv hs
    cases h : fill s with
    | ok a s' => rw [h] at this; exact ⟨this.1, this.2.2.1⟩
    | err e => rw [h] at this; exact this.elim
    | panic p => rw [h] at this; exact this
    | timeout => trivial
  ahead := by
    intro s hs
    rw [identLookahead_apply]
    have := fill_inv hv hs
    cases h : fill s with
    | ok a s' =>
      rw [h] at this
      obtain ⟨h1, h2, h3, -⟩ := this
      have h4 := lookSecond_inv hv h1 h2
      simp only
      cases h5 : lookSecond s' with
      | ok b s'' => rw [h5] at h4; exact ⟨h4.1, h3.trans h4.2.1⟩
      | err e => rw [h5] at h4; exact h4.elim
      | panic p => rw [h5] at h4; exact h4
      | timeout => trivial
    | err e => rw [h] at this; exact this.elim
    | panic p => rw [h] at this; exact this
    | timeout => trivial
  take f hf := by
    intro s hs
    unfold takeIf
    have := fill_inv hv hs
    cases h : fill s with
    | ok a s' =>
      rw [h] at this
      obtain ⟨h1, h2, h3, -⟩ := this
      simp only
      cases h4 : f (cur s').line (cur s').token with
      | none => exact ⟨h1, h3⟩
      | some b =>
        have he : (cur s').token ≠ .eof := by
          intro he; rw [he, hf] at h4; cases h4
        have := pop_inv h1 h2 he
        exact ⟨this.1, h3.trans this.2⟩
    | err e => rw [h] at this; exact this.elim
    | panic p => rw [h] at this; exact this
    | timeout => trivial
  loop hb st := by
    induction N generalizing st with
    | zero => intro s hs; trivial
    | succ n ih =>
      refine keeps_bind (hb st) fun x => ?_
      cases x with
      | inl st' => exact ih st'
      | inr b => exact fun s hs => ⟨hs, .refl s⟩

theorem run_keeps {t0 : Tokenizer} (hv : Valid t0) (n : Nat) (f : Fn) : Keeps t0 (run n f) :=
  run_congr (J := fun {_} m _ => Keeps t0 m) (k := 0) (fun _ => keeps_congr hv _ _)
    (fun s hs => ⟨hs, .refl s⟩) (fun _ _ _ => trivial) n f

theorem inv_initState (checked : Bool) (code : Bytes) :
    Inv (intoTokenizer checked code) (initState checked code) :=
  ⟨Nat.zero_le _, .nil, rfl, nofun⟩

/-- What `parse_module` does. -/
theorem parseModule_spec {t0 : Tokenizer} (hv : Valid t0) (n : Nat) {s : PState} (hs : Inv t0 s) :
    match parseModule (recOf n) s with
    | .ok _ s' => ∃ s1, Inv t0 s1 ∧ Step s s1 ∧ (cur s1).token = .eof ∧ s1.count = 1 ∧ s' = popState s1
    | .panic p => ∃ toks t h, Calls t0 toks t ∧ PanicsWith t h p
    | .err _ s' => Inv t0 s' ∧ Grows s s'
    | .timeout => True := by
  have hw : Keeps t0 (whileSome n (run n .moduleItem)) :=
    whileSome_cg (J := fun {_} m _ => Keeps t0 m) (m' := run n .moduleItem) (keeps_congr hv n n).base
      (run_keeps hv n .moduleItem)
  have := hw s hs
  unfold parseModule recOf
  rw [bind_apply]
  simp only
  cases h : whileSome n (run n .moduleItem) s with
  | ok u s1 =>
    rw [h] at this
    obtain ⟨h1, h2⟩ := this
    simp only [bind_apply, eat, eof_eq, takeIf]
    have hf := fill_inv hv h1
    cases h3 : fill s1 with
    | ok u s2 =>
      rw [h3] at hf
      obtain ⟨h4, h5, h6, h7, -⟩ := hf
      simp only
      cases h8 : isEof (cur s2).line (cur s2).token with
      | none => exact ⟨h4, Grows.trans h2.log h6.log⟩
      | some b =>
        have he : (cur s2).token = .eof := by
          unfold isEof at h8
          split at h8
          · assumption
          · cases h8
        refine ⟨s2, h4, h2.trans h6, he, ?_, rfl⟩
        have := h4.count
        rcases (by omega : s2.count = 1 ∨ s2.count = 2) with h9 | h9
        · exact h9
        · obtain ⟨v, hv⟩ := h4.second h9
          rw [he] at hv
          cases hv
    | err e => rw [h3] at hf; exact hf.elim
    | panic p => rw [h3] at hf; exact hf
    | timeout => trivial
  | err e => rw [h] at this; exact this
  | panic p => rw [h] at this; exact this
  | timeout => trivial

end Jsparse
