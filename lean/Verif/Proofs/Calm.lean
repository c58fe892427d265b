import Verif.Proofs.FwdText
import Verif.Proofs.Replay
/-!
# Texts without slashes and templates are parsed without panic

`Calm A s`: all tokens to come can be read whatever the hint `expression` is, and the hint `template` is off.
The tokens read so far and those to come are `A`.
All methods keep this: the hint `template` is only set behind the first piece of a template.
-/

namespace Jsparse.Calmly

open P Spec Forward

/-- The token does not depend on the hint `expression` and is not a piece of a template. -/
def Steady (t : Token) : Prop :=
  slashy t = false ∧ isRegexTok t = false ∧ ∀ f c r, t ≠ .template f c r

theorem Steady.fits {t : Token} (h : Steady t) {i : Hint} (hi : i.template = false) : Fits i t := by
  refine ⟨?_, fun h' => ?_, fun h' => ?_⟩
  · rw [hi]
    unfold compat
    split
    · rfl
    · exact absurd rfl (h.2.2 _ _ _)
    · exact absurd rfl (h.2.2 _ _ _)
    · rfl
  · rw [h.1] at h'; cases h'
  · rw [h.2.1] at h'; cases h'

/-- The tokens to come, up to the end of the text. -/
structure Supply (A : List Tok) (s : PState) (w : List Tok) : Prop where
  stream : Stream s.tok w
  steady : ∀ x ∈ (buf s).map Look.seen ++ w, Steady x.2
  eof : ∃ front l, (buf s).map Look.seen ++ w = front ++ [(l, .eof)]
  whole : (reads s).map Look.seen ++ w = A

structure Calm (A : List Tok) (s : PState) : Prop where
  count : s.count ≤ 2
  hint : s.hint.template = false
  flags : s.flags.expectTemplate = false
  stack : ∀ f ∈ s.stack, f.expectTemplate = false
  supply : ∃ w, Supply A s w

theorem Calm.read {A : List Tok} {s : PState} (h : Calm A s) : (reads s).map Look.seen <+: A := by
  obtain ⟨w, h⟩ := h.supply
  exact ⟨w, h.whole⟩

/-- The method does not panic, and keeps all this. -/
def Soft (A : List Tok) {α : Type} (m : P α) : Prop := ∀ s, Calm A s →
  match m s with
  | .ok _ s' => Calm A s' ∧ s'.flags = s.flags ∧ s'.stack = s.stack
  | .err _ s' => (reads s').map Look.seen <+: A
  | .panic _ => False
  | .timeout => True

variable {A : List Tok}

theorem soft_pure {α : Type} (a : α) : Soft A (pure a : P α) := fun _ h => ⟨h, rfl, rfl⟩

theorem soft_bind {α β : Type} {m : P α} {k : α → P β} (hm : Soft A m) (hk : ∀ a, Soft A (k a)) :
    Soft A (m >>= k) := by
  intro s hs
  have h1 := hm s hs
  rw [bind_apply]
  cases h : m s with
  | ok a s1 =>
    rw [h] at h1
    obtain ⟨h2, h3, h4⟩ := h1
    have h5 := hk a s1 h2
    simp only
    cases h' : k a s1 with
    | ok b s2 =>
      rw [h'] at h5
      exact ⟨h5.1, h5.2.1.trans h3, h5.2.2.trans h4⟩
    | err e => rw [h'] at h5; exact h5
    | panic p => rw [h'] at h5; exact h5
    | timeout => trivial
  | err e => rw [h] at h1; exact h1
  | panic p => rw [h] at h1; exact h1
  | timeout => trivial

theorem soft_fail {α : Type} (e : ParseErr) : Soft A (P.fail e : P α) := fun _ h => h.read

theorem soft_loop {σ β : Type} {b : σ → P (σ ⊕ β)} (hb : ∀ st, Soft A (b st)) :
    ∀ N st, Soft A (P.loop N b st)
  | 0, _ => fun _ _ => trivial
  | N + 1, st => by
    unfold P.loop
    refine soft_bind (hb st) fun x => ?_
    cases x with
    | inl st' => exact soft_loop hb N st'
    | inr c => exact soft_pure c

theorem calm_push {s : PState} (hs : Calm A s) (f : Flag) (b : Bool) (hf : (f == .template && b) = false) :
    Calm A (pushFlags f b s) := by
  obtain ⟨h1, h2, h3, h4, w, h5, h6, h7, h8⟩ := hs
  have h4' : ∀ f ∈ s.flags :: s.stack, f.expectTemplate = false := by
    intro g hg
    rcases List.mem_cons.1 hg with rfl | hg
    · exact h3
    · exact h4 g hg
  cases f with
  | template =>
    have hb : b = false := by simpa using hf
    subst hb
    exact ⟨h1, rfl, rfl, h4', w, h5, h6, h7, h8⟩
  | _ => exact ⟨h1, h2, h3, h4', w, h5, h6, h7, h8⟩

theorem soft_withFlag {α : Type} (f : Flag) (b : Bool) {m : P α} (hf : (f == .template && b) = false) (hm : Soft A m) :
    Soft A (withFlag f b m) := by
  intro s hs
  have h1 := hm _ (calm_push hs f b hf)
  rw [withFlag_apply]
  cases h : m (pushFlags f b s) with
  | ok a s1 =>
    rw [h] at h1
    obtain ⟨⟨g1, g2, g3, g4, w, g5⟩, h3, h4⟩ := h1
    have h5 : s1.stack = s.flags :: s.stack := by rw [h4]; unfold pushFlags; cases f <;> rfl
    simp only [popFlags, h5]
    exact ⟨⟨g1, hs.flags, hs.flags, hs.stack, w, g5.stream, g5.steady, g5.eof, g5.whole⟩, trivial, trivial⟩
  | err e => rw [h] at h1; exact h1
  | panic p => rw [h] at h1; exact h1
  | timeout => trivial

theorem calm_fill {s : PState} (hs : Calm A s) :
    ∃ s', fill s = .ok () s' ∧ Calm A s' ∧ s'.count ≠ 0 ∧ s'.flags = s.flags ∧ s'.stack = s.stack := by
  by_cases hc : s.count = 0
  · obtain ⟨h1, h2, h3, h4, w, h5, h6, h7, h8⟩ := hs
    rw [buf_zero hc, List.map_nil, List.nil_append] at h6 h7
    rw [reads, buf_zero hc, List.append_nil] at h8
    cases w with
    | nil => obtain ⟨f, l, h7⟩ := h7; simp at h7
    | cons x w =>
      obtain ⟨look, t', hr, hx, hst⟩ := h5 s.hint ((h6 x (by simp)).fits h2)
      refine ⟨{ s with tok := t', hint := { s.hint with expression := false }, slot0 := look, index := false, count := s.count + 1 },
        by unfold fill; rw [if_pos hc, hr], ?_, by simp, rfl, rfl⟩
      refine ⟨by simp [hc], h2, h3, h4, w, hst, ?_, ?_, ?_⟩
      · rw [buf_one (by simp [hc])]
        simpa [cur, hx] using h6
      · rw [buf_one (by simp [hc])]
        simpa [cur, hx] using h7
      · rw [reads, buf_one (by simp [hc])]
        simpa [cur, hx] using h8
  · exact ⟨s, by unfold fill; rw [if_neg hc], hs, hc, rfl, rfl⟩

theorem soft_token : Soft A tokenAndLine := by
  intro s hs
  obtain ⟨s', h1, h2, -, h3, h4⟩ := calm_fill hs
  rw [tokenAndLine_apply, h1]
  exact ⟨h2, h3, h4⟩

theorem calm_cur {s : PState} (hs : Calm A s) (hc : s.count ≠ 0) : Steady (cur s).token := by
  obtain ⟨h1, -, -, -, w, -, h6, -, -⟩ := hs
  rw [buf_pos hc h1] at h6
  exact h6 (cur s).seen (by simp)

theorem reads_pop {s : PState} (hc : s.count ≠ 0) (h2 : s.count ≤ 2) : reads (popState s) = reads s := by
  rw [reads, reads, buf_pos hc h2]
  simp [popState]

theorem calm_pop {s : PState} (hs : Calm A s) (hc : s.count ≠ 0) (he : (cur s).token ≠ .eof) : Calm A (popState s) := by
  obtain ⟨h1, h2, h3, h4, w, h5, h6, ⟨f, l, h7⟩, h8⟩ := hs
  rw [buf_pos hc h1, List.map_cons, List.cons_append] at h6 h7
  refine ⟨by simp only [popState]; omega, h2, h3, h4, w, h5, fun x hx => h6 x (List.mem_cons_of_mem _ hx), ?_,
    by rw [← h8, reads_pop hc h1]⟩
  cases f with
  | nil =>
    simp only [List.nil_append, List.cons.injEq] at h7
    have := congrArg Prod.snd h7.1
    exact absurd this he
  | cons y f =>
    simp only [List.cons_append, List.cons.injEq] at h7
    exact ⟨f, l, h7.2⟩

theorem soft_take {β : Type} (f : Bool → Token → Option β) (hf : ∀ l, f l .eof = none) : Soft A (takeIf f) := by
  intro s hs
  obtain ⟨s', h1, h2, hc, h3, h4⟩ := calm_fill hs
  unfold takeIf
  rw [h1]
  simp only
  cases h5 : f (cur s').line (cur s').token with
  | none => exact ⟨h2, h3, h4⟩
  | some b =>
    refine ⟨calm_pop h2 hc ?_, h3, h4⟩
    intro he
    rw [he, hf] at h5
    cases h5

theorem soft_ahead : Soft A identLookahead := by
  intro s hs
  obtain ⟨s', h1, h2, hc, h3, h4⟩ := calm_fill hs
  rw [identLookahead_apply, h1]
  simp only
  unfold lookSecond
  by_cases hc2 : s'.count < 2
  · have hc1 : s'.count = 1 := by omega
    rw [if_pos hc2]
    cases ht : (cur s').token with
    | ident name =>
      simp only
      obtain ⟨g1, g2, g3, g4, w, g5, g6, ⟨f, l, g7⟩, g8⟩ := h2
      rw [buf_one hc1, List.map_cons, List.map_nil, List.singleton_append] at g6 g7
      cases w with
      | nil =>
        have : [(cur s').seen] = [] ++ [(cur s').seen] := rfl
        rw [this] at g7
        have h := congrArg Prod.snd (List.append_inj_right' g7 rfl |> List.singleton_inj.1)
        exact absurd (ht.symm.trans h) (by simp)
      | cons x w =>
        obtain ⟨look, t', hr, hx, hst⟩ := g5 { s'.hint with expression := !isBindingIdentifier s'.flags name }
          ((g6 x (by simp)).fits g2)
        rw [hr]
        refine ⟨⟨by simp [hc1], g2, g3, g4, w, hst, ?_, ?_, ?_⟩, h3, h4⟩
        · rw [buf_two (by simp [hc1])]
          intro y hy
          refine g6 y ?_
          rw [← hx]
          cases hi : s'.index <;> simpa [cur, other, hi] using hy
        · refine ⟨f, l, ?_⟩
          rw [buf_two (by simp [hc1]), ← g7, ← hx]
          cases hi : s'.index <;> simp [cur, other, hi]
        · rw [reads, buf_one hc1] at g8
          rw [reads, buf_two (by simp [hc1]), ← g8, ← hx]
          cases hi : s'.index <;> simp [cur, other, hi]
    | _ => exact ⟨h2, h3, h4⟩
  · rw [if_neg hc2]
    exact ⟨h2, h3, h4⟩

theorem soft_base (N N' : Nat) : CongrBase N N' (fun {_} m _ => Soft A m) where
  pure := soft_pure
  bind := soft_bind
  fail e _ := soft_fail e
  flags := fun _ hs => ⟨hs, rfl, rfl⟩
  withFlag f b _ _ hf hm := soft_withFlag f b hf hm
  expect := fun _ hs => ⟨⟨hs.count, hs.hint, hs.flags, hs.stack, hs.supply.imp fun _ h => ⟨h.stream, h.steady, h.eof, h.whole⟩⟩, rfl, rfl⟩
  look := soft_token
  ahead := soft_ahead
  take f hf := soft_take f hf
  loop hb st := soft_loop hb _ st

/-- There is no piece of a template. -/
theorem soft_template (r : Rec) : Soft A (parseTemplateLiteralExpression r) := by
  intro s hs
  obtain ⟨s', h1, h2, hc, h3, h4⟩ := calm_fill hs
  have h5 : template s = .ok none s' := by
    rw [template_eq]
    unfold takeIf
    rw [h1]
    have := (calm_cur h2 hc).2.2
    have h6 : isTemplate (cur s').line (cur s').token = none := by
      cases ht : (cur s').token with
      | template f c r => exact absurd ht (this _ _ _)
      | _ => rfl
    simp only [h6]
  unfold parseTemplateLiteralExpression
  rw [bind_apply, h5]
  exact ⟨h2, h3, h4⟩

theorem run_soft : ∀ n f, Soft A (run n f)
  | 0, _ => fun _ _ => trivial
  | n + 1, f => by
    have hr := run_soft n
    exact body_congr_base (J := fun {_} m _ => Soft A m) (r := recOf n) (r' := recOf n)
      (soft_base n n) ⟨hr⟩ (parseSwitchStatement_cg (J := fun {_} m _ => Soft A m) (r := recOf n) (r' := recOf n) (soft_base n n) ⟨hr⟩ (soft_fail _)) (soft_template _) f

theorem eof_last {p q f : List Tok} {x e : Tok} (h : p ++ x :: q = f ++ [e]) (hx : x.2 = .eof)
    (hf : ∀ y ∈ f, y.2 ≠ .eof) : q = [] := by
  rcases List.eq_nil_or_concat q with rfl | ⟨q, z, rfl⟩
  · rfl
  · rw [List.concat_eq_append, ← List.cons_append, ← List.append_assoc] at h
    have := List.append_inj_left' h rfl
    subst this
    exact absurd hx (hf x (by simp))

/-- What the parser makes of the tokens `A`. -/
theorem parseModule_calm (n : Nat) {s : PState} (hs : Calm A s) (hA : ∃ f l, A = f ++ [(l, .eof)] ∧ ∀ x ∈ f, x.2 ≠ .eof) :
    match parseModule (recOf n) s with
    | .ok _ s' => s'.log.map Look.seen = A
    | .err _ s' => (reads s').map Look.seen <+: A
    | .panic _ => False
    | .timeout => True := by
  unfold parseModule
  rw [bind_apply]
  have h1 : Soft A (whileSome (recOf n).fuel ((recOf n).call .moduleItem)) :=
    whileSome_cg (J := fun {_} m _ => Soft A m) (m' := run n .moduleItem) (soft_base n n) (run_soft n .moduleItem)
  have h2 := h1 s hs
  cases h3 : whileSome (recOf n).fuel ((recOf n).call .moduleItem) s with
  | ok a s1 =>
    rw [h3] at h2
    obtain ⟨h2, -⟩ := h2
    obtain ⟨s2, h4, h6, hc, -⟩ := calm_fill h2
    simp only [eat, bind_apply, eof_eq, takeIf, h4]
    cases h5 : isEof (cur s2).line (cur s2).token with
    | none => exact h6.read
    | some b =>
      have he : (cur s2).token = .eof := by
        unfold isEof at h5
        split at h5
        · assumption
        · cases h5
      obtain ⟨w, h7⟩ := h6.supply
      obtain ⟨f, l, hA, hf⟩ := hA
      have h8 := h7.whole
      rw [reads, buf_pos hc h6.count] at h8
      simp only [List.map_append, List.map_cons, List.append_assoc, List.cons_append] at h8
      have h9 := eof_last (h8.trans hA) he hf
      rw [h9] at h8
      show (popState s2).log.map Look.seen = A
      rw [← h8]
      simp [popState]
  | err e => rw [h3] at h2; exact h2
  | panic q => rw [h3] at h2; exact h2
  | timeout => trivial

theorem calm_init {checked : Bool} {code : Bytes} (hs : Stream (intoTokenizer checked code) A)
    (hu : ∀ x ∈ A, Steady x.2) (he : ∃ f l, A = f ++ [(l, .eof)]) : Calm A (initState checked code) :=
  ⟨by simp [initState], rfl, rfl, by simp [initState], A, hs, by simpa [buf, initState] using hu,
    by simpa [buf, initState] using he, by simp [reads, buf, initState]⟩

/-- What the parser makes of a text with steady tokens. -/
theorem calm_of_stream {checked : Bool} {code : Bytes} (n : Nat) (hs : Stream (intoTokenizer checked code) A)
    (hu : ∀ x ∈ A, Steady x.2) (he : ∃ f l, A = f ++ [(l, .eof)] ∧ ∀ x ∈ f, x.2 ≠ .eof) :
    match parseModuleFuel n checked code with
    | .ok _ s' => s'.log.map Look.seen = A
    | .err _ s' => (reads s').map Look.seen <+: A
    | .panic _ => False
    | .timeout => True :=
  parseModule_calm n (calm_init hs hu (he.imp fun _ h => h.imp fun _ h => h.1)) he

end Jsparse.Calmly
