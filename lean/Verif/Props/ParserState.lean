import Verif.Proofs.Invariant
import Verif.Props.Panics
import Verif.Proofs.Eval
/-!
# C25, C26, C28, C37: the state of the parser and the tokens it consumes
-/

namespace Jsparse

open Spec P

/-! ## C25 -/

/-- **C25.** If `parse_root` panics other than by unwrapping a parse error, then the tokenizer panics
on this text. -/
theorem C25_panics_are_tokenizer_panics {checked : Bool} {code : Bytes} (hu : Utf8 code) {p : Panic}
    (h : parseRoot checked code = .panicked p) : LexPanic checked code p := by
  have := parseModule_spec (valid_intoTokenizer checked hu) (fuelFor code) (inv_initState checked code)
  unfold parseRoot parseModuleFuel at h
  cases hm : parseModule (recOf (fuelFor code)) (initState checked code) with
  | panic q =>
    rw [hm] at this h
    simp only [Res.outcome, Outcome.panicked.injEq] at h
    subst h
    exact this
  | ok a s => rw [hm] at h; simp [Res.outcome] at h
  | err e => rw [hm] at h; simp [Res.outcome] at h
  | timeout => rw [hm] at h; simp [Res.outcome] at h

/-- **C25.** The flag stack is never popped when empty, the lookahead buffer is never popped when empty,
and no `unreachable!` is reached. -/
theorem C25_no_internal_panic {checked : Bool} {code : Bytes} (hu : Utf8 code) {p : Panic}
    (h : parseRoot checked code = .panicked p) :
    p ≠ .unreachable ∧ p ≠ .flagStackEmpty ∧ p ≠ .bufferEmpty ∧ p ≠ .unwrapErr ∧
    (p = .overflow → checked = true) := by
  obtain ⟨toks, t, hint, h1, h2⟩ := C25_panics_are_tokenizer_panics hu h
  obtain ⟨a, b, c, d, e, -⟩ := C22_no_internal_panic hu h1 h2
  exact ⟨a, b, c, d, e⟩

/-- A panic behind several tokens and with a non-empty flag stack. -/
example : parseRoot true b!"f(() => { x = `a })" = .panicked .unterminatedTemplate := by
  rw [parseRoot_eval]; decide +kernel

/-! ## C28 -/

/-- What a method leaves unchanged, in any state whatsoever. -/
def Restores {α : Type} (m : P α) : Prop :=
  ∀ s a s', m s = .ok a s' → s'.flags = s.flags ∧ s'.stack = s.stack ∧
    (s.hint.template = s.flags.expectTemplate → s'.hint.template = s.hint.template) ∧
    (s.count ≤ 2 → s'.count ≤ 2)

theorem restores_bind {α β : Type} {m : P α} {k : α → P β} (hm : Restores m)
    (hk : ∀ a, Restores (k a)) : Restores (m >>= k) := by
  intro s b s' h
  rw [bind_apply] at h
  cases h1 : m s with
  | ok a s1 =>
    rw [h1] at h
    obtain ⟨a1, a2, a3, a4⟩ := hm s a s1 h1
    obtain ⟨b1, b2, b3, b4⟩ := hk a s1 b s' h
    refine ⟨b1.trans a1, b2.trans a2, fun h => ?_, fun h => b4 (a4 h)⟩
    rw [← a3 h]
    refine b3 ?_
    rw [a3 h, a1, h]
  | err e => rw [h1] at h; cases h
  | panic p => rw [h1] at h; cases h
  | timeout => rw [h1] at h; cases h

theorem restores_fill {s s' : PState} {u : Unit} (h : fill s = .ok u s') :
    s'.flags = s.flags ∧ s'.stack = s.stack ∧ s'.hint.template = s.hint.template ∧
    (s.count ≤ 2 → s'.count ≤ 2) := by
  unfold fill at h
  split at h
  · split at h
    · injection h with h1 h2
      subst h2
      exact ⟨rfl, rfl, rfl, fun _ => by simp_all⟩
    · cases h
    · cases h
  · injection h with h1 h2
    subst h2
    exact ⟨rfl, rfl, rfl, id⟩

theorem restores_congr (N N' : Nat) : Congr N N' (fun {_} m _ => Restores m) where
  pure a := by intro s b s' h; cases h; exact ⟨rfl, rfl, fun _ => rfl, id⟩
  bind hm hk := restores_bind hm hk
  fail e _ := by intro s b s' h; cases h
  flags := by intro s b s' h; cases h; exact ⟨rfl, rfl, fun _ => rfl, id⟩
  withFlag f b m m' hm := by
    intro s a s' h
    rw [withFlag_apply] at h
    obtain ⟨h1, h2, h3, h4, h5, h6, h7⟩ := pushFlags_facts f b s
    cases h8 : m (pushFlags f b s) with
    | ok x s1 =>
      rw [h8] at h
      obtain ⟨a1, a2, a3, a4⟩ := hm _ _ _ h8
      have hstack : s1.stack = s.flags :: s.stack := by rw [a2, h1]
      simp only [popFlags, hstack] at h
      cases h
      exact ⟨rfl, rfl, fun h => h.symm, fun h => a4 (by rw [h5]; exact h)⟩
    | err e => rw [h8] at h; cases h
    | panic p => rw [h8] at h; cases h
    | timeout => rw [h8] at h; cases h
  expect := by intro s b s' h; cases h; exact ⟨rfl, rfl, fun _ => rfl, id⟩
  look := by
    intro s a s' h
    rw [tokenAndLine_apply] at h
    cases h1 : fill s with
    | ok u s1 =>
      rw [h1] at h
      cases h
      obtain ⟨a1, a2, a3, a4⟩ := restores_fill h1
      exact ⟨a1, a2, fun _ => a3, a4⟩
    | _ => rw [h1] at h; cases h
  ahead := by
    intro s a s' h
    rw [identLookahead_apply] at h
    cases h1 : fill s with
    | ok u s1 =>
      rw [h1] at h
      obtain ⟨a1, a2, a3, a4⟩ := restores_fill h1
      simp only [lookSecond] at h
      split at h
      · split at h
        · split at h
          · cases h
            exact ⟨a1, a2, fun _ => a3, fun _ => by simp only; omega⟩
          · cases h
          · cases h
        · cases h
          exact ⟨a1, a2, fun _ => a3, a4⟩
      · cases h
        exact ⟨a1, a2, fun _ => a3, a4⟩
    | _ => rw [h1] at h; cases h
  take f hf := by
    intro s a s' h
    unfold takeIf at h
    cases h1 : fill s with
    | ok u s1 =>
      rw [h1] at h
      obtain ⟨a1, a2, a3, a4⟩ := restores_fill h1
      simp only at h
      split at h
      · cases h
        exact ⟨a1, a2, fun _ => a3, fun h => by have := a4 h; simp only [popState]; omega⟩
      · cases h
        exact ⟨a1, a2, fun _ => a3, a4⟩
    | _ => rw [h1] at h; cases h
  loop hb st := by
    induction N generalizing st with
    | zero => intro s a s' h; cases h
    | succ n ih =>
      refine restores_bind (hb st) fun x => ?_
      cases x with
      | inl st' => exact ih st'
      | inr b => intro s b s' h; cases h; exact ⟨rfl, rfl, fun _ => rfl, id⟩

theorem run_restores (n : Nat) (f : Fn) : Restores (run n f) :=
  run_congr (J := fun {_} m _ => Restores m) (k := 0) (fun _ => restores_congr _ _)
    (fun _ _ _ h => by cases h) (fun _ _ _ _ h => by cases h) n f

/-- **C28.** Every method, started in any state, leaves the flags, the flag stack and the template hint
as it found them. -/
theorem C28_context_restored (n : Nat) (f : Fn) {s s' : PState} {a : Option Unit}
    (hs : s.hint.template = s.flags.expectTemplate) (h : run n f s = .ok a s') :
    s'.flags = s.flags ∧ s'.stack = s.stack ∧ s'.hint.template = s.hint.template := by
  obtain ⟨h1, h2, h3, -⟩ := run_restores n f s a s' h
  exact ⟨h1, h2, h3 hs⟩

/-- **C25.** The lookahead buffer never holds more than two tokens. -/
theorem C25_buffer_bound (n : Nat) (f : Fn) {s s' : PState} {a : Option Unit}
    (hs : s.count ≤ 2) (h : run n f s = .ok a s') : s'.count ≤ 2 :=
  (run_restores n f s a s' h).2.2.2 hs

/-- A method that changes the flags on the way: the body of a generator. -/
example : (match run 100 .functionDeclaration (initState true b!"function* f() { `${ {} }`; }") with
    | .ok (some ()) s' => s'.log.length == 12 && s'.flags == {}
    | _ => false) = true := by
  rw [← runF_eq]; decide +kernel

/-! ## C26 -/

/-- **C26.** If `parse_root` accepts, the tokens consumed are the significant tokens of a run of the
tokenizer from the beginning of the text; the last one is the end of the input, and no other one is. -/
theorem C26_accepted_consumes_all {checked : Bool} {code : Bytes} (hu : Utf8 code)
    (h : parseRoot checked code = .accepted) :
    ∃ toks t s' front last, Calls (intoTokenizer checked code) toks t ∧
      parseModuleFuel (fuelFor code) checked code = .ok () s' ∧
      s'.log = deliver false toks ∧ s'.log = front ++ [last] ∧
      last.token = .eof ∧ last.range.start.offset = code.length ∧
      (∀ x ∈ front, x.token ≠ .eof) ∧ t.position.offset = code.length := by
  have hv := valid_intoTokenizer checked hu
  have := parseModule_spec hv (fuelFor code) (inv_initState checked code)
  unfold parseRoot parseModuleFuel at h
  unfold parseModuleFuel
  cases hm : parseModule (recOf (fuelFor code)) (initState checked code) with
  | ok a s' =>
    rw [hm] at this
    obtain ⟨s1, h1, h2, h3, h4, rfl⟩ := this
    have hst := h1.stream
    rw [buf_one h4] at hst
    obtain ⟨toks, h5, h6⟩ := hst.calls
    have h7 := h6 []
    simp only [List.append_nil, deliver] at h7
    obtain ⟨l, h8, h9⟩ := h2.log
    have h10 : s1.log = l := by rw [h8]; rfl
    obtain ⟨t1, hint, h11, h12⟩ := hst.snoc_inv
    obtain ⟨toks', t2, h13, h14, -⟩ := h12.calls
    rw [h3] at h14
    have hv2 : Valid t2 := valid_calls (h11.valid hv) h13
    obtain ⟨e1, e2, -⟩ := C05_eof_forever hv2 h14
    have hcode : t2.code = code := by
      rw [h13.code.1, (h11.last hv rfl).2]; rfl
    rw [hcode] at e1
    have hpos : s1.tok.position = (cur s1).range.stop := (step_width hv2 h14).2.1
    refine ⟨toks, s1.tok, popState s1, s1.log, cur s1, h5, rfl, h7.symm, rfl, h3, ?_, ?_, ?_⟩
    · omega
    · rw [h10]; exact h9
    · rw [hpos, e2]; exact e1
  | err e => rw [hm] at h; simp [Res.outcome] at h
  | panic e => rw [hm] at h; simp [Res.outcome] at h
  | timeout => rw [hm] at h; simp [Res.outcome] at h

example : parseRoot true b!"a // x\n/y" = .accepted := by
  rw [parseRoot_eval]; decide +kernel

/-! ## C37 -/

theorem callsWith_calls {h : Hint} {t t' : Tokenizer} {toks} (hc : CallsWith h t toks t') :
    Calls t toks t' := by
  induction hc with
  | nil => exact .nil _
  | cons t tok r t' toks t'' hn _ ih => exact .cons _ h _ _ _ _ _ hn ih

theorem readTokenLoop_delivers (h : Hint) : ∀ (n : Nat) (t : Tokenizer) (line : Bool),
    match readTokenLoop n t h line with
    | .ok look t' => ∃ skipped t1, CallsWith h t skipped t1 ∧ (∀ x ∈ skipped, Insignificant x.1) ∧
        t1.nextToken h = .ok (look.token, look.range, t') ∧ ¬ Insignificant look.token ∧
        (look.line = true ↔ line = true ∨ ∃ x ∈ skipped, BreaksLine x)
    | .panic p => ∃ skipped t1, CallsWith h t skipped t1 ∧ (∀ x ∈ skipped, Insignificant x.1) ∧
        PanicsWith t1 h p
    | .timeout => True := by
  intro n
  induction n with
  | zero => intro t line; trivial
  | succ n ih =>
    intro t line
    unfold readTokenLoop
    cases hn : t.nextToken h with
    | error p => exact ⟨[], t, .nil t, by simp, hn⟩
    | ok x =>
      obtain ⟨tok, r, t'⟩ := x
      have key : ∀ line', Insignificant tok →
          (line' = true ↔ line = true ∨ BreaksLine (tok, r)) →
          match readTokenLoop n t' h line' with
          | .ok look t' => ∃ skipped t1, CallsWith h t skipped t1 ∧
              (∀ x ∈ skipped, Insignificant x.1) ∧
              t1.nextToken h = .ok (look.token, look.range, t') ∧ ¬ Insignificant look.token ∧
              (look.line = true ↔ line = true ∨ ∃ x ∈ skipped, BreaksLine x)
          | .panic p => ∃ skipped t1, CallsWith h t skipped t1 ∧
              (∀ x ∈ skipped, Insignificant x.1) ∧ PanicsWith t1 h p
          | .timeout => True := by
        intro line' hi hl
        have := ih t' line'
        revert this
        cases readTokenLoop n t' h line' with
        | ok look t'' =>
          rintro ⟨sk, t1, h1, h2, h3, h4, h5⟩
          refine ⟨(tok, r) :: sk, t1, .cons _ _ _ _ _ _ hn h1, ?_, h3, h4, ?_⟩
          · intro x hx
            rcases List.mem_cons.1 hx with rfl | hx
            · exact hi
            · exact h2 x hx
          · rw [h5, hl]
            simp only [List.mem_cons, exists_eq_or_imp]
            tauto
        | panic p =>
          rintro ⟨sk, t1, h1, h2, h3⟩
          refine ⟨(tok, r) :: sk, t1, .cons _ _ _ _ _ _ hn h1, ?_, h3⟩
          intro x hx
          rcases List.mem_cons.1 hx with rfl | hx
          · exact hi
          · exact h2 x hx
        | timeout => exact id
      cases tok with
      | whitespace => exact key line trivial (by simp [BreaksLine])
      | lineTerminator => exact key true trivial (by simp [BreaksLine])
      | comment f v =>
        refine key _ trivial ?_
        by_cases hl : r.start.line ≠ r.stop.line
        · simp [hl, BreaksLine]
        · simp [hl, BreaksLine]
      | _ => exact ⟨[], t, .nil t, by simp, hn, by simp [Insignificant], by simp⟩

/-- **C37.** The token that `read_token` delivers is the first one that is not a comment or a line
terminator, and it is marked exactly if a line terminator or a comment spanning several lines came
before it; if `read_token` panics, so does the tokenizer; and `read_token` always stops. -/
theorem C37_read_token {t : Tokenizer} (hv : Valid t) (h : Hint) :
    (∃ look t' skipped t1, readToken t h = .ok look t' ∧
      CallsWith h t skipped t1 ∧ (∀ x ∈ skipped, Insignificant x.1) ∧
      t1.nextToken h = .ok (look.token, look.range, t') ∧ ¬ Insignificant look.token ∧
      (look.line = true ↔ ∃ x ∈ skipped, BreaksLine x)) ∨
    (∃ p skipped t1, readToken t h = .panic p ∧ CallsWith h t skipped t1 ∧
      (∀ x ∈ skipped, Insignificant x.1) ∧ PanicsWith t1 h p) := by
  have h1 := readTokenLoop_delivers h (t.code.length + 1) t false
  have h2 := readTokenLoop_ne_timeout hv h
  unfold readToken at h2 ⊢
  revert h1 h2
  cases readTokenLoop (t.code.length + 1) t h false with
  | ok look t' =>
    rintro ⟨sk, t1, a, b, c, d, e⟩ -
    exact .inl ⟨look, t', sk, t1, rfl, a, b, c, d, by simpa using e⟩
  | panic p =>
    rintro ⟨sk, t1, a, b, c⟩ -
    exact .inr ⟨p, sk, t1, rfl, a, b, c⟩
  | timeout => intro _ h; exact absurd rfl h

/-- The grammar gets its tokens from `read_token` only: what is consumed is the sequence of delivered
tokens (see also `C26_accepted_consumes_all`).  The comment on one line does not mark `b`, the one on
two lines does. -/
example : (match readToken (intoTokenizer true b!"/* x */ b") {} with
    | .ok look _ => look.line == false && look.token == .ident b!"b" | _ => false) = true ∧
  (match readToken (intoTokenizer true b!"/* \n */ b") {} with
    | .ok look _ => look.line == true && look.token == .ident b!"b" | _ => false) = true := by
  decide +kernel

end Jsparse
