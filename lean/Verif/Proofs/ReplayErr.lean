import Verif.Proofs.ReplayKind
/-!
# Replaying a run that ends with an error

Like Proofs/ReplayKind.lean: a second tokenizer that follows the first as far as the failed run has read.
-/

namespace Jsparse

open P Spec

/-- The method does not fail. -/
def NoFail {α : Type} (m : P α) : Prop := ∀ s e s', m s ≠ .err e s'

structure ReplaysE (K : Look → Look → Prop) (F : List Look) (R : Nat → Tokenizer → Tokenizer → Prop)
    {α : Type} [Rl α] (m m' : P α) : Prop where
  ok : ReplaysK K F R m m'
  onward : ∀ s e s', s.count ≤ 2 → m s = .err e s' → s'.count ≤ 2 ∧ reads s <+: reads s'
  err : ∀ s1 s2 e s1', s1.count ≤ 2 → TwinK K R s1 s2 → m s1 = .err e s1' → reads s1' <+: F →
    ∃ s2', m' s2 = .err e s2' ∧ TwinK K R s1' s2'

section

variable {K : Look → Look → Prop} {F : List Look} {R : Nat → Tokenizer → Tokenizer → Prop}

theorem ReplaysK.noFail {α : Type} [Rl α] {m m' : P α} (h : ReplaysK K F R m m') (hq : NoFail m) :
    ReplaysE K F R m m' :=
  ⟨h, fun _ _ _ _ h => absurd h (hq _ _ _), fun _ _ _ _ _ _ h => absurd h (hq _ _ _)⟩

theorem replaysE_bind {α β : Type} [Rl α] [Rl β] {m m' : P α} {k k' : α → P β} (hm : ReplaysE K F R m m')
    (hk : ∀ a a', Rl.rel a a' → ReplaysE K F R (k a) (k' a')) :
    ReplaysE K F R (m >>= k) (m' >>= k') := by
  have hr : ∀ a, ReplaysE K F R (k a) (k' a) := fun a => hk a a (Rl.refl a)
  refine ⟨replaysK_bind hm.ok fun a a' h => (hk a a' h).ok, fun s e s' hc h => ?_,
    fun s1 s2 e s1' hc ht h hF => ?_⟩
  · rw [bind_apply] at h
    cases h1 : m s with
    | ok a s1 =>
      rw [h1] at h
      obtain ⟨h2, h3⟩ := hm.ok.1 s a s1 hc h1
      obtain ⟨h4, h5⟩ := (hr a).onward s1 e s' h2 h
      exact ⟨h4, h3.trans h5⟩
    | err e' s1 => rw [h1] at h; cases h; exact hm.onward _ _ _ hc h1
    | _ => rw [h1] at h; cases h
  · rw [bind_apply] at h
    cases h1 : m s1 with
    | ok a s =>
      rw [h1] at h
      obtain ⟨h2, h3⟩ := hm.ok.1 s1 a s hc h1
      obtain ⟨h4, h5⟩ := (hr a).onward s e s1' h2 h
      obtain ⟨a', s', h6, h8, h7⟩ := hm.ok.2 s1 s2 a s hc ht h1 (h5.trans hF)
      rw [bind_apply, h6]
      exact (hk a a' h8).err s s' e s1' h2 h7 h hF
    | err e' s =>
      rw [h1] at h
      cases h
      obtain ⟨s', h6, h7⟩ := hm.err s1 s2 _ _ hc ht h1 hF
      rw [bind_apply, h6]
      exact ⟨s', rfl, h7⟩
    | _ => rw [h1] at h; cases h

theorem noFail_fill : NoFail fill := fun _ _ _ => fill_err

theorem noFail_take {β : Type} (f : Bool → Token → Option β) : NoFail (takeIf f) := by
  intro s e s' h
  unfold takeIf at h
  cases h1 : fill s with
  | err e => exact fill_err h1
  | ok u s1 => rw [h1] at h; simp only at h; split at h <;> cases h
  | _ => rw [h1] at h; cases h

theorem noFail_ahead : NoFail identLookahead := by
  intro s e s' h
  rw [identLookahead_apply] at h
  cases h1 : fill s with
  | err e => exact fill_err h1
  | ok u s1 =>
    rw [h1] at h
    simp only [lookSecond] at h
    split at h
    · split at h
      · split at h <;> cases h
      · cases h
    · cases h
  | _ => rw [h1] at h; cases h

theorem noFail_look : NoFail tokenAndLine := by
  intro s e s' h
  rw [tokenAndLine_apply] at h
  cases h1 : fill s with
  | err e => exact fill_err h1
  | _ => rw [h1] at h; cases h

theorem noFail_pop : NoFail popFlags := by
  intro s e s' h
  unfold popFlags at h
  split at h <;> cases h

theorem replaysE_pure {α : Type} [Rl α] {a b : α} (hab : Rl.rel a b) :
    ReplaysE K F R (pure a : P α) (pure b) := (replaysK_pure hab).noFail fun _ _ _ h => by cases h

theorem replaysE_fail {α : Type} [Rl α] (e : ParseErr) : ReplaysE K F R (P.fail e : P α) (P.fail e) := by
  refine ⟨replaysK_fail e, fun s e s' hc h => ?_, fun s1 s2 e s1' hc ht h hF => ?_⟩ <;> cases h
  · exact ⟨hc, List.prefix_refl _⟩
  · exact ⟨_, rfl, ht⟩

theorem replaysE_timeout {α : Type} [Rl α] :
    ReplaysE K F R (fun _ => .timeout : P α) (fun _ => .timeout) := replaysK_timeout.noFail (fun _ _ _ h => by cases h)

theorem replaysE_withFlag (f : Flag) (b : Bool) {α : Type} [Rl α] {m m' : P α} (hm : ReplaysE K F R m m') :
    ReplaysE K F R (withFlag f b m) (withFlag f b m') := by
  refine replaysE_bind (α := Unit) ?_ fun _ _ _ => replaysE_bind hm fun a a' ha =>
    replaysE_bind (α := Unit) ?_ fun _ _ _ => replaysE_pure ha
  · exact (replaysK_push f b).noFail (fun _ _ _ h => by cases h)
  · exact replaysK_popFlags.noFail noFail_pop

theorem replaysE_sim (hK : Kinds K) (hR : FollowsK K F R) (N : Nat) :
    SimK N N (fun {_} [_] m m' => ReplaysE K F R m m') where
  pure a b h := replaysE_pure h
  bind hm hk := replaysE_bind hm hk
  fail e := replaysE_fail e
  flags := (replaysK_read (fun s => s.flags) fun _ _ h => h.flags ▸ Rl.refl _).noFail (fun _ _ _ h => by cases h)
  withFlag f b _ _ _ hm := replaysE_withFlag f b hm
  expect := replaysK_expect.noFail (fun _ _ _ h => by cases h)
  look := (replaysK_sim hK hR N).look.noFail noFail_look
  ahead := (replaysK_ahead hK hR).noFail noFail_ahead
  take f hf := (replaysK_take hK hR f hf).noFail (noFail_take f)
  loop hb st := by
    induction N generalizing st with
    | zero => exact replaysE_timeout
    | succ n ih =>
      refine replaysE_bind (hb st) fun x y h => ?_
      cases h
      cases x with
      | inl st' => exact ih st'
      | inr b => exact replaysE_pure (Rl.refl _)

theorem run_replaysE (hK : Kinds K) (hR : FollowsK K F R) (n : Nat) (f : Fn) :
    ReplaysE K F R (run n f) (run n f) := by
  induction n generalizing f with
  | zero => exact replaysE_timeout
  | succ n ih =>
    exact body_sim (r := ⟨n, run n⟩) (r' := ⟨n, run n⟩) (J := fun {_} [_] m m' => ReplaysE K F R m m')
      (replaysE_sim hK hR n) ⟨ih⟩ f

theorem parseModule_replaysE (hK : Kinds K) (hR : FollowsK K F R) (n : Nat) :
    ReplaysE K F R (parseModule (recOf n)) (parseModule (recOf n)) := by
  unfold parseModule
  refine replaysE_bind (whileSome_sg (replaysE_sim hK hR n) (run_replaysE hK hR n _)) fun _ _ _ => ?_
  refine replaysE_bind ?_ fun _ _ _ => replaysE_pure rfl
  refine eat_sg (replaysE_sim hK hR n) ?_
  rw [eof_eq]
  refine (replaysK_take hK hR _ fun l t t' h => ?_).noFail (noFail_take _)
  cases h <;> first | exact .none | exact optRel_refl (fun _ => rfl) _

theorem TwinK.reads {s1 s2 : PState} (h : TwinK K R s1 s2) (hc : s1.count ≤ 2) :
    List.Forall₂ K (reads s1) (reads s2) := by
  unfold Jsparse.reads
  refine List.rel_append h.log ?_
  have h0 := h.cur
  have h1 := h.other
  have h2 := h.count
  rcases (by omega : s1.count = 0 ∨ s1.count = 1 ∨ s1.count = 2) with hc | hc | hc
  · rw [buf_zero hc, buf_zero (h2.trans hc)]; exact .nil
  · rw [buf_one hc, buf_one (h2.trans hc)]; exact .cons h0 .nil
  · rw [buf_two hc, buf_two (h2.trans hc)]; exact .cons h0 (.cons h1 .nil)

end

/-- **Replay.**  The parser on a second text, whose tokenizer follows the failed run on the first. -/
theorem replayE {checked1 checked2 : Bool} {code1 code2 : Bytes} {s : PState} {e : ParseErr}
    {n : Nat} {K : Look → Look → Prop} (hK : Kinds K) (hi : K {} {})
    (h : parseModuleFuel n checked1 code1 = .err e s)
    {R : Nat → Tokenizer → Tokenizer → Prop} (hR : FollowsK K (reads s) R)
    (h0 : R 0 (intoTokenizer checked1 code1) (intoTokenizer checked2 code2)) :
    ∃ s', parseModuleFuel n checked2 code2 = .err e s' ∧ List.Forall₂ K (reads s) (reads s') ∧
      TwinK K R s s' := by
  have hE := parseModule_replaysE hK hR n
  obtain ⟨s', h1, h2⟩ := hE.err (initState checked1 code1)
    (initState checked2 code2) e s (Nat.zero_le _)
    ⟨h0, rfl, rfl, rfl, hi, hi, rfl, rfl, .nil⟩ h (List.prefix_refl _)
  exact ⟨s', h1, h2.reads (hE.onward _ _ _ (Nat.zero_le _) h).1, h2⟩

end Jsparse
