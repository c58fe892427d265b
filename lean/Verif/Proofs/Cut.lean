import Verif.Proofs.Calm
import Verif.Proofs.Balance
import Verif.Spec.Core
import Verif.Spec.Renaming
/-!
# Texts with templates are cut into tokens as the nesting of the brackets demands

A closing brace is read as `}` or as a piece of a template, depending on the hint `template`.
`Track A s`: the tokens read so far are the beginning of `A`, or there was such a mistake.
All methods keep this.  The tokens of an accepted text are balanced, so a mistake is impossible.
-/

namespace Jsparse.Cut

open P Spec Forward

/-- One of the tokens is `}`, the other one is a piece of a template that begins with a closing brace. -/
inductive Clash : Token → Token → Prop
  | piece {f c r} : f ≠ .head → f ≠ .noSubstitution → Clash (.template f c r) (.punct .curlyClose)
  | brace {f c r} : f ≠ .head → f ≠ .noSubstitution → Clash (.punct .curlyClose) (.template f c r)

theorem Clash.symm {x y : Token} (h : Clash x y) : Clash y x := by
  cases h with
  | piece h1 h2 => exact .brace h1 h2
  | brace h1 h2 => exact .piece h1 h2

/-! ## Reading with another hint -/

theorem tokSlash_hint {s : Bytes} {h h' : Hint} (he : h.expression = h'.expression) : tokSlash s h = tokSlash s h' := by
  unfold tokSlash
  rw [he]

theorem tokCurlyClose_piece {s : Bytes} {h : Hint} (ht : h.template = true) {t : Token} {n : Nat}
    (e : tokCurlyClose s h = .ok (t, n)) : Clash t (.punct .curlyClose) := by
  unfold tokCurlyClose at e
  rw [if_pos ht] at e
  split at e
  · rename_i i _
    cases hs : slice s 1 (i - 1) with
    | error p => rw [hs] at e; cases e
    | ok v =>
      rw [hs] at e
      cases e
      exact .piece (by decide) (by decide)
  · rename_i i _
    cases hs : slice s 1 i with
    | error p => rw [hs] at e; cases e
    | ok v =>
      rw [hs] at e
      cases e
      exact .piece (by decide) (by decide)
  · cases e

theorem readNext_other {checked : Bool} {s : Bytes} {h h' : Hint} (he : h.expression = h'.expression)
    (hs : ∀ r, s ≠ c!"}" :: r) : readNext checked s h = readNext checked s h' := by
  cases s with
  | nil => rfl
  | cons b r =>
    have hb : b ≠ c!"}" := fun h => hs r (h ▸ rfl)
    simp only [readNext, if_neg hb, tokSlash_hint he]

theorem readNext_curly {checked : Bool} {r : Bytes} {h : Hint} :
    readNext checked (c!"}" :: r) h = tokCurlyClose (c!"}" :: r) h := by
  rfl

theorem readNext_clash {checked : Bool} {s : Bytes} {h h' : Hint} (he : h.expression = h'.expression) {x y : Token × Nat}
    (hx : readNext checked s h = .ok x) (hy : readNext checked s h' = .ok y) : x = y ∨ Clash x.1 y.1 := by
  have hplain : ∀ {s : Bytes} {i : Hint}, i.template = false → tokCurlyClose s i = .ok (.punct .curlyClose, 1) :=
    fun hi => by unfold tokCurlyClose; rw [if_neg (by simp [hi])]
  by_cases hs : ∃ r, s = c!"}" :: r
  · obtain ⟨r, rfl⟩ := hs
    rw [readNext_curly] at hx hy
    cases h1 : h.template <;> cases h2 : h'.template
    · rw [hplain h1] at hx
      rw [hplain h2] at hy
      exact .inl (Except.ok.inj (hx.symm.trans hy))
    · rw [hplain h1] at hx
      cases hx
      exact .inr (tokCurlyClose_piece h2 hy).symm
    · rw [hplain h2] at hy
      cases hy
      exact .inr (tokCurlyClose_piece h1 hx)
    · have : tokCurlyClose (c!"}" :: r) h = tokCurlyClose (c!"}" :: r) h' := by
        unfold tokCurlyClose
        rw [h1, h2]
      exact .inl (Except.ok.inj (hx.symm.trans (this.trans hy)))
  · rw [readNext_other he fun r h => hs ⟨r, h⟩] at hx
    exact .inl (Except.ok.inj (hx.symm.trans hy))

theorem nextToken_clash {t : Tokenizer} {h h' : Hint} (he : h.expression = h'.expression) {x y : Token × TokenRange × Tokenizer}
    (hx : t.nextToken h = .ok x) (hy : t.nextToken h' = .ok y) : x = y ∨ Clash x.1 y.1 := by
  unfold Tokenizer.nextToken at hx hy
  cases h1 : eatWhitespace t.code t.position with
  | error p => rw [h1] at hx; cases hx
  | ok start =>
  rw [h1] at hx hy
  simp only [bind, Except.bind] at hx hy
  cases h2 : sliceFrom t.code start.offset with
  | error p => rw [h2] at hx; cases hx
  | ok s =>
  rw [h2] at hx hy
  simp only at hx hy
  cases h3 : readNext t.checked s h with
  | error p => rw [h3] at hx; cases hx
  | ok a =>
  cases h4 : readNext t.checked s h' with
  | error p => rw [h4] at hy; cases hy
  | ok b =>
  rw [h3] at hx
  rw [h4] at hy
  rcases readNext_clash he h3 h4 with h | h
  · subst h
    exact .inl (Except.ok.inj (hx.symm.trans hy))
  · simp only at hx hy
    cases h5 : incrementPosition s a.2 start with
    | error p => rw [h5] at hx; cases hx
    | ok e =>
    cases h6 : incrementPosition s b.2 start with
    | error p => rw [h6] at hy; cases hy
    | ok e' =>
    rw [h5] at hx
    rw [h6] at hy
    cases hx
    cases hy
    exact .inr h

theorem readTokenLoop_clash {h h' : Hint} (he : h.expression = h'.expression) {a b : Look} {t1 t2 : Tokenizer} :
    ∀ (n : Nat) (t : Tokenizer) (line : Bool), readTokenLoop n t h line = .ok a t1 → readTokenLoop n t h' line = .ok b t2 →
      (a = b ∧ t1 = t2) ∨ Clash a.token b.token
  | 0, _, _, hx, _ => by cases hx
  | n + 1, t, line, hx, hy => by
    unfold readTokenLoop at hx hy
    cases h1 : t.nextToken h with
    | error p => rw [h1] at hx; cases hx
    | ok x =>
    cases h2 : t.nextToken h' with
    | error p => rw [h2] at hy; cases hy
    | ok y =>
    rw [h1] at hx
    rw [h2] at hy
    rcases nextToken_clash he h1 h2 with h | h
    · subst h
      obtain ⟨tok, range, t'⟩ := x
      cases tok with
      | whitespace => exact readTokenLoop_clash he n t' _ hx hy
      | lineTerminator => exact readTokenLoop_clash he n t' _ hx hy
      | comment f v => exact readTokenLoop_clash he n t' _ hx hy
      | _ =>
        cases hx
        cases hy
        exact .inl ⟨rfl, rfl⟩
    · obtain ⟨x, r, t'⟩ := x
      obtain ⟨y, r', t''⟩ := y
      replace h : Clash x y := h
      cases h with
      | piece h3 h4 =>
        cases hx
        cases hy
        exact .inr (.piece h3 h4)
      | brace h3 h4 =>
        cases hx
        cases hy
        exact .inr (.brace h3 h4)

/-- The token does not depend on the hint `expression`. -/
def Flat (t : Token) : Prop := slashy t = false ∧ isRegexTok t = false

theorem fits_or {t : Token} (h : Flat t) (i : Hint) : Fits i t ∨ Fits { i with template := !i.template } t := by
  have h1 : ∀ {j : Hint}, compat j.template t = true → Fits j t := fun hj =>
    ⟨hj, fun h' => (Bool.false_ne_true (h.1.symm.trans h')).elim, fun h' => (Bool.false_ne_true (h.2.symm.trans h')).elim⟩
  cases hi : compat i.template t with
  | true => exact .inl (h1 hi)
  | false =>
    refine .inr (h1 ?_)
    unfold compat at hi ⊢
    split at hi <;> simp_all

/-- The next token, read with any hint. -/
theorem read_any {t : Tokenizer} {x : Tok} {w : List Tok} (hs : Stream t (x :: w)) (hx : Flat x.2) {h : Hint} {look : Look}
    {t' : Tokenizer} (hr : readToken t h = .ok look t') : (look.seen = x ∧ Stream t' w) ∨ Clash look.token x.2 := by
  rcases fits_or hx h with hf | hf
  · obtain ⟨l, t1, h1, h2, h3⟩ := hs _ hf
    rw [h1] at hr
    cases hr
    exact .inl ⟨h2, h3⟩
  · obtain ⟨l, t1, h1, h2, h3⟩ := hs _ hf
    rcases readTokenLoop_clash (h := h) (h' := { h with template := !h.template }) rfl _ _ _ hr h1 with ⟨rfl, rfl⟩ | h
    · exact .inl ⟨h2, h3⟩
    · subst h2
      exact .inr h

/-! ## All methods -/

variable {A : List Tok}

/-- The tokens read are the beginning of `A`, up to a clash. -/
inductive Track (A : List Tok) (s : PState) : Prop
  | sync (w : List Tok) : Stream s.tok w → (∃ front l, (buf s).map Look.seen ++ w = front ++ [(l, .eof)]) →
      (reads s).map Look.seen ++ w = A → Track A s
  | off (p : List Tok) (x y : Tok) (q q' : List Tok) : A = p ++ x :: q → (reads s).map Look.seen = p ++ y :: q' →
      Clash y.2 x.2 → Track A s

def Keep (A : List Tok) {α : Type} (m : P α) : Prop := ∀ s, s.count ≤ 2 → Track A s → ∀ a s', m s = .ok a s' →
  s'.count ≤ 2 ∧ Track A s'

theorem Track.same {s s' : PState} (h : Track A s) (ht : s'.tok = s.tok) (hb : buf s' = buf s) (hr : reads s' = reads s) :
    Track A s' := by
  cases h with
  | sync w h1 h2 h3 => exact .sync w (ht ▸ h1) (hb ▸ h2) (hr ▸ h3)
  | off p x y q q' h1 h2 h3 => exact .off p x y q q' h1 (hr ▸ h2) h3

theorem keep_pure {α : Type} (a : α) : Keep A (pure a : P α) := fun _ hc h _ _ e => by cases e; exact ⟨hc, h⟩

theorem keep_bind {α β : Type} {m : P α} {k : α → P β} (hm : Keep A m) (hk : ∀ a, Keep A (k a)) :
    Keep A (m >>= k) := by
  intro s hc hs b s' e
  rw [bind_apply] at e
  cases h : m s with
  | ok a s1 =>
    rw [h] at e
    have h1 := hm s hc hs a s1 h
    exact hk a s1 h1.1 h1.2 b s' e
  | err => rw [h] at e; cases e
  | panic p => rw [h] at e; cases e
  | timeout => rw [h] at e; cases e

theorem keep_fail {α : Type} (e : ParseErr) : Keep A (P.fail e : P α) := fun _ _ _ _ _ h => by cases h

theorem keep_loop {σ β : Type} {b : σ → P (σ ⊕ β)} (hb : ∀ st, Keep A (b st)) :
    ∀ N st, Keep A (P.loop N b st)
  | 0, _ => fun _ _ _ _ _ h => by cases h
  | N + 1, st => by
    unfold P.loop
    refine keep_bind (hb st) fun x => ?_
    cases x with
    | inl st' => exact keep_loop hb N st'
    | inr c => exact keep_pure c

theorem keep_withFlag {α : Type} (f : Flag) (b : Bool) {m : P α} (hm : Keep A m) : Keep A (withFlag f b m) := by
  intro s hc hs a s' e
  rw [withFlag_apply] at e
  cases h : m (pushFlags f b s) with
  | ok a1 s1 =>
    rw [h] at e
    have h1 := hm (pushFlags f b s) (by cases f <;> exact hc)
      (hs.same (by cases f <;> rfl) (by cases f <;> rfl) (by cases f <;> rfl)) a1 s1 h
    simp only [popFlags] at e
    cases hst : s1.stack with
    | nil => rw [hst] at e; cases e
    | cons g st =>
      rw [hst] at e
      cases e
      exact ⟨h1.1, h1.2.same rfl rfl rfl⟩
  | err => rw [h] at e; cases e
  | panic p => rw [h] at e; cases e
  | timeout => rw [h] at e; cases e

/-- One more token is read. -/
theorem Track.read (hA : ∀ x ∈ A, Flat x.2) {s s' : PState} (h : Track A s) {i : Hint} {look : Look} {t' : Tokenizer}
    (hr : readToken s.tok i = .ok look t') (hn : buf s = [] ∨ ∃ l, buf s = [l] ∧ l.token ≠ .eof)
    (ht : s'.tok = t') (hb : buf s' = buf s ++ [look]) (hs : reads s' = reads s ++ [look]) : Track A s' := by
  cases h with
  | sync w h1 h2 h3 =>
    obtain ⟨f, l, h2⟩ := h2
    cases w with
    | nil =>
      exfalso
      rcases hn with hn | ⟨l', hn, he⟩
      · rw [hn] at h2
        simp at h2
      · rw [hn] at h2
        have : [l'.seen] = [] ++ [l'.seen] := rfl
        rw [List.append_nil, List.map_cons, List.map_nil, this] at h2
        have h := congrArg Prod.snd (List.append_inj_right' h2 rfl |> List.singleton_inj.1)
        exact he h
    | cons x w =>
      have hx : Flat x.2 := hA x (by rw [← h3]; simp)
      rcases read_any h1 hx hr with ⟨rfl, h4⟩ | h4
      · refine .sync w (ht ▸ h4) ⟨f, l, ?_⟩ ?_
        · rw [hb, ← h2]; simp
        · rw [hs, ← h3]; simp
      · refine .off ((reads s).map Look.seen) x look.seen w [] h3.symm ?_ h4
        rw [hs]; simp
  | off p x y q q' h1 h2 h3 =>
    refine .off p x y q (q' ++ [look.seen]) h1 ?_ h3
    rw [hs, List.map_append, h2]
    simp

theorem track_fill (hA : ∀ x ∈ A, Flat x.2) {s s' : PState} (hc : s.count ≤ 2) (hs : Track A s) (e : fill s = .ok () s') :
    s'.count ≤ 2 ∧ s'.count ≠ 0 ∧ Track A s' := by
  unfold fill at e
  by_cases h0 : s.count = 0
  · rw [if_pos h0] at e
    cases hr : readToken s.tok s.hint with
    | ok look t' =>
      rw [hr] at e
      cases e
      refine ⟨by simp [h0], by simp, hs.read hA hr (.inl (buf_zero h0)) rfl ?_ ?_⟩
      · rw [buf_one (by simp [h0]), buf_zero h0]
        rfl
      · rw [reads, reads, buf_one (by simp [h0]), buf_zero h0]
        simp [cur]
    | panic p => rw [hr] at e; cases e
    | timeout => rw [hr] at e; cases e
  · rw [if_neg h0] at e
    cases e
    exact ⟨hc, h0, hs⟩

theorem keep_token (hA : ∀ x ∈ A, Flat x.2) : Keep A tokenAndLine := by
  intro s hc hs a s' e
  rw [tokenAndLine_apply] at e
  cases h : fill s with
  | ok u s1 =>
    rw [h] at e
    cases e
    have := track_fill hA hc hs h
    exact ⟨this.1, this.2.2⟩
  | err => rw [h] at e; cases e
  | panic p => rw [h] at e; cases e
  | timeout => rw [h] at e; cases e

theorem track_pop {s : PState} (hs : Track A s) (h2 : s.count ≤ 2) (hc : s.count ≠ 0) (he : (cur s).token ≠ .eof) :
    Track A (popState s) := by
  have hr := Calmly.reads_pop hc h2
  cases hs with
  | sync w h3 h4 h5 =>
    obtain ⟨f, l, h4⟩ := h4
    refine .sync w h3 ?_ (by rw [hr]; exact h5)
    rw [buf_pos hc h2, List.map_cons, List.cons_append] at h4
    cases f with
    | nil =>
      simp only [List.nil_append, List.cons.injEq] at h4
      have := congrArg Prod.snd h4.1
      exact absurd this he
    | cons y f =>
      simp only [List.cons_append, List.cons.injEq] at h4
      exact ⟨f, l, h4.2⟩
  | off p x y q q' h3 h4 h5 => exact .off p x y q q' h3 (by rw [hr]; exact h4) h5

theorem keep_take (hA : ∀ x ∈ A, Flat x.2) {β : Type} (f : Bool → Token → Option β) (hf : ∀ l, f l .eof = none) :
    Keep A (takeIf f) := by
  intro s hc hs a s' e
  unfold takeIf at e
  cases h : fill s with
  | ok u s1 =>
    obtain ⟨h1, h2, h3⟩ := track_fill hA hc hs h
    rw [h] at e
    simp only at e
    cases h5 : f (cur s1).line (cur s1).token with
    | none =>
      rw [h5] at e
      cases e
      exact ⟨h1, h3⟩
    | some b =>
      rw [h5] at e
      cases e
      refine ⟨by simp only [popState]; omega, track_pop h3 h1 h2 fun he => ?_⟩
      rw [he, hf] at h5
      cases h5
  | err => rw [h] at e; cases e
  | panic p => rw [h] at e; cases e
  | timeout => rw [h] at e; cases e

theorem keep_ahead (hA : ∀ x ∈ A, Flat x.2) : Keep A identLookahead := by
  intro s hc hs a s' e
  rw [identLookahead_apply] at e
  cases h : fill s with
  | ok u s1 =>
    obtain ⟨h1, h2, h3⟩ := track_fill hA hc hs h
    rw [h] at e
    simp only at e
    unfold lookSecond at e
    by_cases hc2 : s1.count < 2
    · have hc1 : s1.count = 1 := by omega
      rw [if_pos hc2] at e
      cases ht : (cur s1).token with
      | ident name =>
        rw [ht] at e
        simp only at e
        split at e
        · rename_i hr
          cases e
          refine ⟨by simp [hc1], h3.read hA hr (.inr ⟨_, buf_one hc1, by rw [ht]; simp⟩) rfl ?_ ?_⟩
          · rw [buf_two (by simp [hc1]), buf_one hc1]
            cases hi : s1.index <;> simp [cur, other, hi]
          · rw [reads, reads, buf_two (by simp [hc1]), buf_one hc1]
            cases hi : s1.index <;> simp [cur, other, hi]
        · cases e
        · cases e
      | _ => rw [ht] at e; cases e; exact ⟨h1, h3⟩
    · rw [if_neg hc2] at e
      cases e
      exact ⟨h1, h3⟩
  | err => rw [h] at e; cases e
  | panic p => rw [h] at e; cases e
  | timeout => rw [h] at e; cases e

theorem keep_congr (hA : ∀ x ∈ A, Flat x.2) (N : Nat) : Congr N N (fun {_} m _ => Keep A m) where
  pure := keep_pure
  bind := keep_bind
  fail e _ := keep_fail e
  flags := fun _ hc hs _ _ e => by cases e; exact ⟨hc, hs⟩
  withFlag f b _ _ hm := keep_withFlag f b hm
  expect := fun _ hc hs _ _ e => by cases e; exact ⟨hc, hs.same rfl rfl rfl⟩
  look := keep_token hA
  ahead := keep_ahead hA
  take f hf := keep_take hA f hf
  loop hb st := keep_loop hb _ st

theorem run_keep (hA : ∀ x ∈ A, Flat x.2) (n : Nat) (f : Fn) : Keep A (run n f) :=
  run_congr (J := fun {_} m _ => Keep A m) (k := 0) (keep_congr hA) (keep_fail _)
    (fun _ _ _ _ _ _ h => by cases h) n f

/-- The tokens of an accepted text, up to a clash. -/
theorem parseModule_keep (hA : ∀ x ∈ A, Flat x.2) (n : Nat) {s s' : PState} (hs : Track A s) (hc : s.count ≤ 2)
    (he : ∃ f l, A = f ++ [(l, .eof)] ∧ ∀ x ∈ f, x.2 ≠ .eof) {a : Unit} (h : parseModule (recOf n) s = .ok a s') :
    s'.log.map Look.seen = A ∨
      ∃ p x y q q', A = p ++ x :: q ∧ s'.log.map Look.seen = p ++ y :: q' ∧ Clash y.2 x.2 := by
  unfold parseModule at h
  rw [bind_apply] at h
  have h1 : Keep A (whileSome (recOf n).fuel ((recOf n).call .moduleItem)) :=
    whileSome_cg (J := fun {_} m _ => Keep A m) (m' := run n .moduleItem) (keep_congr hA n).base (run_keep hA n .moduleItem)
  cases h3 : whileSome (recOf n).fuel ((recOf n).call .moduleItem) s with
  | ok a s1 =>
    rw [h3] at h
    have h2 := h1 s hc hs a s1 h3
    simp only [eat, bind_apply, eof_eq, takeIf] at h
    cases h4 : fill s1 with
    | ok u s2 =>
      rw [h4] at h
      obtain ⟨h5, h6, h7⟩ := track_fill hA h2.1 h2.2 h4
      simp only at h
      cases h8 : isEof (cur s2).line (cur s2).token with
      | none => rw [h8] at h; cases h
      | some b =>
        rw [h8] at h
        cases h
        have heof : (cur s2).token = .eof := by
          unfold isEof at h8
          split at h8
          · assumption
          · cases h8
        cases h7 with
        | sync w g1 g2 g3 =>
          obtain ⟨f, l, hA, hf⟩ := he
          rw [reads, buf_pos h6 h5] at g3
          simp only [List.map_append, List.map_cons, List.append_assoc, List.cons_append] at g3
          have h9 := Calmly.eof_last (g3.trans hA) heof hf
          rw [h9] at g3
          refine .inl ?_
          rw [← g3]
          simp [popState]
        | off p x y q q' g1 g2 g3 =>
          have hl : (popState s2).log.map Look.seen = s2.log.map Look.seen ++ [(cur s2).seen] := by simp [popState]
          rw [hl]
          rw [reads, buf_pos h6 h5, List.map_append, List.map_cons] at g2
          rcases List.append_eq_append_iff.1 g2 with ⟨as, g4, g5⟩ | ⟨bs, g4, g5⟩
          · cases as with
            | nil =>
              cases g5
              exact .inr ⟨p, x, _, q, [], g1, by rw [g4]; simp, g3⟩
            | cons z as =>
              exfalso
              obtain ⟨f, l, hA, hf⟩ := he
              obtain rfl : (cur s2).seen = z := (List.cons.inj g5).1
              rw [g1, g4, List.append_assoc, List.cons_append] at hA
              have := Calmly.eof_last hA heof hf
              simp at this
          · cases bs with
            | nil =>
              cases g5
              exact .inr ⟨p, x, _, q, [], g1, by rw [g4]; simp, g3⟩
            | cons z bs =>
              cases g5
              exact .inr ⟨p, x, _, q, bs ++ [(cur s2).seen], g1, by rw [g4]; simp, g3⟩
    | err => rw [h4] at h; cases h
    | panic p => rw [h4] at h; cases h
    | timeout => rw [h4] at h; cases h
  | err => rw [h3] at h; cases h
  | panic q => rw [h3] at h; cases h
  | timeout => rw [h3] at h; cases h

/-! ## The nesting -/

theorem nestStep_num {o : List Br} {v v' : NumExpr} : nestStep o (.num v) = nestStep o (.num v') := rfl

theorem wellCut_same {u v : List Tok} (h : List.Forall₂ SameTok u v) : ∀ {o}, WellCut o u → WellCut o v := by
  induction h with
  | nil => exact fun _ => trivial
  | @cons a b u v hx _ ih =>
    rintro o ⟨h1, h2⟩
    rcases hx.2 with hx | ⟨n, n', hx, hx'⟩
    · exact ⟨hx ▸ h1, fun o' ho => ih (h2 o' (hx ▸ ho))⟩
    · exact ⟨by rw [hx']; trivial, fun o' ho => ih (h2 o' (by rw [hx]; rw [hx'] at ho; exact ho))⟩

theorem no_clash {x y : Tok} {q q' : List Tok} (hc : Clash y.2 x.2) : ∀ {p : List Tok} {o τ : List Br},
    WellCut o (p ++ x :: q) → nest o ((p ++ y :: q').map (·.2)) = some τ → False
  | z :: p, o, τ, hw, hn => by
    simp only [List.cons_append, List.map_cons, nest] at hn
    cases hz : nestStep o z.2 with
    | none => rw [hz] at hn; cases hn
    | some o' =>
      rw [hz] at hn
      exact no_clash hc (hw.2 o' hz) hn
  | [], o, τ, ⟨hw, _⟩, hn => by
    obtain ⟨lx, x⟩ := x
    obtain ⟨ly, y⟩ := y
    simp only [List.nil_append, List.map_cons, nest] at hn
    replace hc : Clash y x := hc
    cases hc with
    | @piece f c r h1 h2 =>
      cases o with
      | nil => cases f <;> first | exact absurd rfl h1 | exact absurd rfl h2 | cases hn
      | cons b o => cases b <;> cases f <;> first | exact absurd rfl h1 | exact absurd rfl h2 | exact hw rfl | cases hn
    | @brace f c r h1 h2 =>
      have hw : o.head? = some .template := by
        cases f <;> first | exact absurd rfl h1 | exact absurd rfl h2 | exact hw
      cases o with
      | nil => cases hw
      | cons b o =>
        cases hw
        cases hn

end Jsparse.Cut
