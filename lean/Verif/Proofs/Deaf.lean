import Verif.Proofs.Sim
import Verif.Spec.Contexts
/-!
# Contexts without effect

The parser runs in the same way from two states that differ in Yield, Return and Module.
-/

namespace Jsparse

open P Spec

theorem sameContext_iff {a b : Flags} : SameContext a b ↔ LiveAlike a b := by
  constructor
  · rintro ⟨y, r, m, rfl⟩
    exact ⟨rfl, rfl, rfl, rfl, rfl⟩
  · rintro ⟨h1, h2, h3, h4, h5⟩
    refine ⟨b.allowYield, b.allowReturn, b.isModule, ?_⟩
    cases a; cases b
    simp only at h1 h2 h3 h4 h5
    simp only [h1, h2, h3, h4, h5]

/-- The two states, with a condition on the contexts of the first. -/
structure Both (U : Flags → Prop) (s t : PState) : Prop where
  same : SameButContexts s t
  all : ∀ f ∈ s.flags :: s.stack, U f

/-- The relation between the ends of the two runs. -/
inductive Ends (U : Flags → Prop) {α : Type} [Rl α] : Res α → Res α → Prop
  | ok {a b : α} {s t : PState} : Rl.rel a b → Both U s t → Ends U (.ok a s) (.ok b t)
  | err (e : ParseErr) {s t : PState} : Both U s t → Ends U (.err e s) (.err e t)
  | panic (p : Panic) : Ends U (.panic p) (.panic p)
  | timeout : Ends U .timeout .timeout

def Deaf (U : Flags → Prop) {α : Type} [Rl α] (m m' : P α) : Prop := ∀ s t, Both U s t → Ends U (m s) (m' t)

/-- A condition on contexts that does not concern the parameters other than Strict. -/
def KeptBy (U : Flags → Prop) : Prop :=
  ∀ f b (s : PState), (f == .strict) = false → U s.flags → U (pushFlags f b s).flags

section

variable {U : Flags → Prop}

theorem Both.eq {s t : PState} (h : Both U s t) : ∃ f k, t = { s with flags := f, stack := k } ∧
    SameContext s.flags f ∧ List.Forall₂ SameContext s.stack k := by
  refine ⟨t.flags, t.stack, ?_, h.same.flags, h.same.stack⟩
  have h1 := h.same.rest
  cases s; cases t
  simp only [PState.mk.injEq] at h1 ⊢
  simp [h1]

theorem deaf_pure {α : Type} [Rl α] {a b : α} (h : Rl.rel a b) : Deaf U (pure a : P α) (pure b) :=
  fun _ _ hs => .ok h hs

theorem deaf_bind {α β : Type} [Rl α] [Rl β] {m m' : P α} {k k' : α → P β} (hm : Deaf U m m')
    (hk : ∀ a a', Rl.rel a a' → Deaf U (k a) (k' a')) : Deaf U (m >>= k) (m' >>= k') := by
  intro s t hs
  rw [bind_apply, bind_apply]
  have h := hm s t hs
  generalize m s = x at h ⊢
  generalize m' t = y at h ⊢
  cases h with
  | ok ha hs => exact hk _ _ ha _ _ hs
  | err e hs => exact .err e hs
  | panic p => exact .panic p
  | timeout => exact .timeout

theorem deaf_fill : Deaf U fill fill := by
  intro s t h
  obtain ⟨f, k, rfl, h1, h2⟩ := h.eq
  unfold fill
  simp only
  split
  · cases readToken s.tok s.hint with
    | ok look tok => exact .ok rfl ⟨⟨rfl, h1, h2⟩, h.all⟩
    | panic p => exact .panic p
    | timeout => exact .timeout
  · exact .ok rfl ⟨⟨rfl, h1, h2⟩, h.all⟩

theorem deaf_look : Deaf U tokenAndLine tokenAndLine := by
  refine deaf_bind (α := Unit) deaf_fill fun _ _ _ s t h => ?_
  obtain ⟨f, k, rfl, h1, h2⟩ := h.eq
  exact .ok (Rl.refl _) h

theorem deaf_take {β : Type} [Rl β] (f : Bool → Token → Option β)
    (hf : ∀ l t t', SameKind t t' → OptRel Rl.rel (f l t) (f l t')) : Deaf U (takeIf f) (takeIf f) := by
  intro s t h
  unfold takeIf
  have h3 := deaf_fill s t h
  generalize fill s = x at h3 ⊢
  generalize fill t = y at h3 ⊢
  cases h3 with
  | @ok _ _ s t ha h =>
    obtain ⟨g, k, rfl, h1, h2⟩ := h.eq
    have hr := hf (cur s).line (cur s).token (cur s).token (.same _)
    show Ends U (match f (cur s).line (cur s).token with
      | some b => .ok (some b) (popState s)
      | none => .ok none s) (match f (cur s).line (cur s).token with
      | some b => .ok (some b) (popState { s with flags := g, stack := k })
      | none => .ok none { s with flags := g, stack := k })
    revert hr
    cases f (cur s).line (cur s).token with
    | none => exact fun _ => .ok .none h
    | some b => exact fun hr => .ok hr ⟨⟨rfl, h1, h2⟩, h.all⟩
  | err e h => exact .err e h
  | panic p => exact .panic p
  | timeout => exact .timeout

theorem deaf_ahead : Deaf U identLookahead identLookahead := by
  intro s t h
  rw [identLookahead_apply, identLookahead_apply]
  have h3 := deaf_fill s t h
  generalize fill s = x at h3 ⊢
  generalize fill t = y at h3 ⊢
  cases h3 with
  | @ok _ _ s t ha h =>
    obtain ⟨g, k, rfl, h1, h2⟩ := h.eq
    have hb := (sameContext_iff.1 h1).binding
    show Ends U (lookSecond s) (lookSecond { s with flags := g, stack := k })
    unfold lookSecond
    simp only [hb]
    split
    · change Ends U _ (match (cur s).token with | .ident name => _ | _ => _)
      cases (cur s).token with
      | ident name =>
        simp only
        cases readToken s.tok { s.hint with expression := !isBindingIdentifier s.flags name } with
        | ok look tok => exact .ok (Rl.refl _) ⟨⟨rfl, h1, h2⟩, h.all⟩
        | panic p => exact .panic p
        | timeout => exact .timeout
      | _ => exact .ok .none h
    · exact .ok (Rl.refl _) h
  | err e h => exact .err e h
  | panic p => exact .panic p
  | timeout => exact .timeout

theorem deaf_popFlags : Deaf U popFlags popFlags := by
  intro s t h
  obtain ⟨g, k, rfl, h1, h2⟩ := h.eq
  have hall := h.all
  obtain ⟨tok, hint, flags, stack, s0, s1, ix, c, log⟩ := s
  simp only at h1 h2 hall
  cases h2 with
  | nil => exact .panic _
  | @cons x y xs ys ha hk =>
    have hy : y.expectTemplate = x.expectTemplate := (sameContext_iff.1 ha).expectTemplate
    refine .ok rfl ⟨⟨?_, ha, hk⟩, fun f hf => hall f (List.mem_cons_of_mem _ hf)⟩
    simp only [hy]

theorem deaf_withFlag (hU : KeptBy U) (f : Flag) (b : Bool) (hf : (f == .strict) = false) {α : Type} [Rl α]
    {m m' : P α} (hm : Deaf U m m') : Deaf U (withFlag f b m) (withFlag f b m') := by
  refine deaf_bind (α := Unit) ?_ fun _ _ _ => deaf_bind hm fun a a' ha =>
    deaf_bind (α := Unit) ?_ fun _ _ _ => deaf_pure ha
  · intro s t h
    obtain ⟨g, k, rfl, h1, h2⟩ := h.eq
    have hl := sameContext_iff.1 h1
    refine .ok rfl ⟨⟨?_, ?_, ?_⟩, ?_⟩
    · cases f <;> rfl
    · refine sameContext_iff.2 ?_
      obtain ⟨e1, e2, e3, e4, e5⟩ := hl
      cases f <;> constructor <;> first | exact e1 | exact e2 | exact e3 | exact e4 | exact e5 | rfl
    · have : ∀ s : PState, (pushFlags f b s).stack = s.flags :: s.stack := fun s => by cases f <;> rfl
      rw [this, this]
      exact .cons h1 h2
    · intro x hx
      have : (pushFlags f b s).stack = s.flags :: s.stack := by cases f <;> rfl
      rw [this] at hx
      rcases List.mem_cons.1 hx with rfl | hx
      · exact hU f b s hf (h.all _ (List.mem_cons_self ..))
      · exact h.all x hx
  · exact deaf_popFlags

theorem deaf_sim (hU : KeptBy U) (N : Nat) : SimK N N (fun {_} [_] m m' => Deaf U m m') where
  pure a b h := deaf_pure h
  bind hm hk := deaf_bind hm hk
  fail e := fun _ _ h => .err e h
  flags := fun _ _ h => .ok (sameContext_iff.1 h.same.flags) h
  withFlag f b _ _ hf hm := deaf_withFlag hU f b hf hm
  expect := fun s t h => by
    obtain ⟨g, k, rfl, h1, h2⟩ := h.eq
    exact .ok rfl ⟨⟨rfl, h1, h2⟩, h.all⟩
  look := deaf_look
  ahead := deaf_ahead
  take f hf := deaf_take f hf
  loop hb st := by
    induction N generalizing st with
    | zero => exact fun _ _ _ => .timeout
    | succ n ih =>
      refine deaf_bind (hb st) fun x y h => ?_
      cases h
      cases x with
      | inl st' => exact ih st'
      | inr b => exact deaf_pure (Rl.refl _)

theorem run_deaf (hU : KeptBy U) (n : Nat) (f : Fn) : Deaf U (run n f) (run n f) := by
  induction n generalizing f with
  | zero => exact fun _ _ _ => .timeout
  | succ n ih =>
    exact body_sim (r := ⟨n, run n⟩) (r' := ⟨n, run n⟩) (J := fun {_} [_] m m' => Deaf U m m')
      (deaf_sim hU n) ⟨ih⟩ f

theorem parseModule_deaf (hU : KeptBy U) (n : Nat) : Deaf U (parseModule (recOf n)) (parseModule (recOf n)) := by
  unfold parseModule
  refine deaf_bind (whileSome_sg (deaf_sim hU n) (run_deaf hU n _)) fun _ _ _ => ?_
  refine deaf_bind ?_ fun _ _ _ => deaf_pure rfl
  refine eat_sg (deaf_sim hU n) ?_
  rw [eof_eq]
  refine deaf_take _ fun l t t' h => ?_
  cases h <;> first | exact .none | exact optRel_refl (fun _ => rfl) _

theorem closed_true : KeptBy fun _ => True := fun _ _ _ _ _ => trivial

theorem closed_sloppy : KeptBy fun f => f.isStrict = false := by
  intro f b s hf h
  cases f <;> first | exact h | exact absurd hf (by decide)

end

end Jsparse
