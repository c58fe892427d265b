import Verif.Proofs.Sim
import Verif.Proofs.Replay
/-!
# The parser on two texts with tokens of the same kind

Like Proofs/Replay.lean; the second tokenizer may answer with a token of the same kind.
-/

namespace Jsparse

open P Spec

/-- A relation between tokens that have the same line flag and are of the same kind. -/
structure Kinds (K : Look → Look → Prop) : Prop where
  line : ∀ {a b}, K a b → b.line = a.line
  token : ∀ {a b}, K a b → SameKind a.token b.token
  erase : ∀ {a b : Look}, K a b → K { a with token := .eof } { b with token := .eof }

/-- The second tokenizer follows the first along the tokens `F`, up to the values of tokens. -/
def FollowsK (K : Look → Look → Prop) (F : List Look) (R : Nat → Tokenizer → Tokenizer → Prop) : Prop :=
  ∀ pre look t1 t2 h t1', pre ++ [look] <+: F → R pre.length t1 t2 → readToken t1 h = .ok look t1' →
    ∃ look2 t2', readToken t2 h = .ok look2 t2' ∧ K look look2 ∧ R (pre.length + 1) t1' t2'

/-- The two parsers have read tokens of the same kinds. -/
structure TwinK (K : Look → Look → Prop) (R : Nat → Tokenizer → Tokenizer → Prop) (s1 s2 : PState) : Prop where
  tok : R (reads s1).length s1.tok s2.tok
  hint : s2.hint = s1.hint
  flags : s2.flags = s1.flags
  stack : s2.stack = s1.stack
  slot0 : K s1.slot0 s2.slot0
  slot1 : K s1.slot1 s2.slot1
  index : s2.index = s1.index
  count : s2.count = s1.count
  log : List.Forall₂ (K) s1.log s2.log

def ReplaysK (K : Look → Look → Prop) (F : List Look) (R : Nat → Tokenizer → Tokenizer → Prop)
    {α : Type} [Rl α] (m m' : P α) : Prop :=
  Onward m ∧ ∀ s1 s2 a s1', s1.count ≤ 2 → TwinK K R s1 s2 → m s1 = .ok a s1' → reads s1' <+: F →
    ∃ a' s2', m' s2 = .ok a' s2' ∧ Rl.rel a a' ∧ TwinK K R s1' s2'

section

variable {K : Look → Look → Prop} {F : List Look} {R : Nat → Tokenizer → Tokenizer → Prop}

theorem TwinK.cur {s1 s2 : PState} (h : TwinK K R s1 s2) : K (cur s1) (cur s2) := by
  unfold P.cur
  rw [h.index]
  split
  · exact h.slot1
  · exact h.slot0

theorem TwinK.other {s1 s2 : PState} (h : TwinK K R s1 s2) : K (other s1) (other s2) := by
  unfold P.other
  rw [h.index]
  split
  · exact h.slot0
  · exact h.slot1

theorem Kinds.seen (hK : Kinds K) {a b : Look} (h : K a b) : SeenAlike a.seen b.seen :=
  ⟨hK.line h, hK.token h⟩

theorem replaysK_pure {α : Type} [Rl α] {a b : α} (hab : Rl.rel a b) :
    ReplaysK K F R (pure a : P α) (pure b) := by
  refine ⟨fun s b s' hc h => ?_, fun s1 s2 b s1' _ ht h _ => ?_⟩ <;>
  · rw [pure_apply] at h
    injection h with h1 h2
    subst h1 h2
    first
    | exact ⟨hc, List.prefix_refl _⟩
    | exact ⟨_, s2, rfl, hab, ht⟩

theorem replaysK_bind {α β : Type} [Rl α] [Rl β] {m m' : P α} {k k' : α → P β} (hm : ReplaysK K F R m m')
    (hk : ∀ a a', Rl.rel a a' → ReplaysK K F R (k a) (k' a')) :
    ReplaysK K F R (m >>= k) (m' >>= k') := by
  have hr : ∀ a, Onward (k a) := fun a => (hk a a (Rl.refl a)).1
  refine ⟨fun s b s' hc h => ?_, fun s1 s2 b s1' hc ht h hF => ?_⟩
  · rw [bind_apply] at h
    cases h1 : m s with
    | ok a s1 =>
      rw [h1] at h
      obtain ⟨h2, h3⟩ := hm.1 s a s1 hc h1
      obtain ⟨h4, h5⟩ := hr a s1 b s' h2 h
      exact ⟨h4, h3.trans h5⟩
    | _ => rw [h1] at h; cases h
  · rw [bind_apply] at h
    cases h1 : m s1 with
    | ok a s =>
      rw [h1] at h
      obtain ⟨h2, h3⟩ := hm.1 s1 a s hc h1
      obtain ⟨h4, h5⟩ := hr a s b s1' h2 h
      obtain ⟨a', s', h6, h8, h7⟩ := hm.2 s1 s2 a s hc ht h1 (h5.trans hF)
      rw [bind_apply, h6]
      exact (hk a a' h8).2 s s' b s1' h2 h7 h hF
    | _ => rw [h1] at h; cases h

theorem replaysK_fill (hR : FollowsK K F R) : ReplaysK K F R fill fill := by
  refine ⟨fun s b s' hc h => ?_, fun s1 s2 b s1' hc ht h hF => ?_⟩
  · unfold fill at h
    split at h
    · rename_i h0
      split at h
      · injection h with h1 h2
        subst h2
        rw [reads_fill h0]
        exact ⟨by simp [h0], List.prefix_append _ _⟩
      · cases h
      · cases h
    · injection h with h1 h2
      subst h2
      exact ⟨hc, List.prefix_refl _⟩
  · unfold fill at h ⊢
    rw [ht.count, ht.hint]
    split at h
    · rename_i h0
      rw [if_pos h0]
      cases hr : readToken s1.tok s1.hint with
      | ok look t1' =>
        rw [hr] at h
        injection h with h1 h2
        subst h2
        rw [reads_fill h0] at hF
        obtain ⟨look2, t2', h3, h4, h5⟩ := hR _ _ _ _ _ _ hF ht.tok hr
        rw [h3]
        refine ⟨_, _, rfl, rfl, ⟨?_, rfl, ht.flags, ht.stack, h4, ht.slot1, rfl, rfl, ht.log⟩⟩
        rw [reads_fill h0, List.length_append]
        exact h5
      | panic p => rw [hr] at h; cases h
      | timeout => rw [hr] at h; cases h
    · rename_i h0
      rw [if_neg h0]
      injection h with h1 h2
      subst h2
      exact ⟨_, _, rfl, rfl, ht⟩

theorem forall2_snoc {α β : Type} {P : α → β → Prop} {l1 : List α} {l2 : List β} {a : α} {b : β}
    (h : List.Forall₂ P l1 l2) (hab : P a b) : List.Forall₂ P (l1 ++ [a]) (l2 ++ [b]) := by
  induction h with
  | nil => exact .cons hab .nil
  | cons h1 _ ih => exact .cons h1 ih

theorem twinK_pop (hK : Kinds K) {s1 s2 : PState} (hc : s1.count ≠ 0) (h2 : s1.count ≤ 2) (ht : TwinK K R s1 s2) :
    TwinK K R (popState s1) (popState s2) := by
  refine ⟨?_, ht.hint, ht.flags, ht.stack, ?_, ?_, ?_, ?_, ?_⟩
  · rw [reads_pop hc h2]; exact ht.tok
  · simp only [popState, ht.index]
    split
    · exact ht.slot0
    · exact hK.erase ht.slot0
  · simp only [popState, ht.index]
    split
    · exact hK.erase ht.slot1
    · exact ht.slot1
  · simp only [popState, ht.index]
  · simp only [popState, ht.count]
  · exact forall2_snoc ht.log ht.cur

theorem replaysK_take (hK : Kinds K) (hR : FollowsK K F R) {β : Type} [Rl β] (f : Bool → Token → Option β)
    (hf : ∀ l t t', SameKind t t' → OptRel Rl.rel (f l t) (f l t')) :
    ReplaysK K F R (takeIf f) (takeIf f) := by
  refine ⟨fun s b s' hc h => ?_, fun s1 s2 b s1' hc ht h hF => ?_⟩
  · unfold takeIf at h
    cases hf : fill s with
    | ok u s1 =>
      rw [hf] at h
      obtain ⟨h1, h2⟩ := (replaysK_fill hR).1 s u s1 hc hf
      have h3 := fill_count hf
      simp only at h
      split at h <;> injection h with h4 h5 <;> subst h5
      · rw [reads_pop h3 h1]
        exact ⟨by simp only [popState]; omega, h2⟩
      · exact ⟨h1, h2⟩
    | _ => rw [hf] at h; cases h
  · unfold takeIf at h ⊢
    cases hfl : fill s1 with
    | ok u s =>
      rw [hfl] at h
      obtain ⟨h1, -⟩ := (replaysK_fill hR).1 s1 u s hc hfl
      have h3 := fill_count hfl
      have hs : reads s <+: F := by
        simp only at h
        split at h <;> injection h with h4 h5 <;> subst h5
        · rwa [reads_pop h3 h1] at hF
        · exact hF
      obtain ⟨u', s', h4, -, h5⟩ := (replaysK_fill hR).2 s1 s2 u s hc ht hfl hs
      rw [h4]
      simp only at h ⊢
      have hx := hf (cur s).line _ _ (hK.token h5.cur)
      rw [(hK.line h5.cur)]
      generalize f (cur s).line (cur s').token = y at hx ⊢
      generalize f (cur s).line (cur s).token = x at hx h
      cases hx with
      | none =>
        injection h with h6 h7
        subst h6 h7
        exact ⟨_, _, rfl, .none, h5⟩
      | some hab =>
        injection h with h6 h7
        subst h6 h7
        exact ⟨_, _, rfl, .some hab, twinK_pop hK h3 h1 h5⟩
    | _ => rw [hfl] at h; cases h

theorem replaysK_push (f : Flag) (b : Bool) :
    ReplaysK (α := Unit) K F R (fun s => .ok () (pushFlags f b s)) (fun s => .ok () (pushFlags f b s)) := by
  refine ⟨fun s a s' hc h => ?_, fun s1 s2 a s1' hc ht h hF => ?_⟩
  · cases f <;>
    · injection h with h1 h2
      subst h2
      exact ⟨hc, List.prefix_refl _⟩
  · cases f <;>
    · injection h with h1 h2
      subst h1 h2
      exact ⟨_, _, rfl, rfl, ⟨ht.tok, by simp [pushFlags, ht.flags, ht.hint], by simp [pushFlags, ht.flags],
        by simp [pushFlags, ht.flags, ht.stack], ht.slot0, ht.slot1, ht.index, ht.count, ht.log⟩⟩

theorem replaysK_popFlags : ReplaysK K F R popFlags popFlags := by
  refine ⟨fun s a s' hc h => ?_, fun s1 s2 a s1' hc ht h hF => ?_⟩
  · unfold popFlags at h
    split at h
    · cases h
    · injection h with h1 h2
      subst h2
      exact ⟨hc, List.prefix_refl _⟩
  · unfold popFlags at h ⊢
    rw [ht.stack]
    split at h
    · cases h
    · rename_i hst
      injection h with h1 h2
      subst h1 h2
      exact ⟨_, _, rfl, rfl, ⟨ht.tok, by simp only [ht.hint], rfl, rfl, ht.slot0, ht.slot1, ht.index,
        ht.count, ht.log⟩⟩

theorem replaysK_withFlag (f : Flag) (b : Bool) {α : Type} [Rl α] {m m' : P α} (hm : ReplaysK K F R m m') :
    ReplaysK K F R (withFlag f b m) (withFlag f b m') := by
  refine replaysK_bind (α := Unit) ?_ fun _ _ _ => replaysK_bind hm fun a a' ha =>
    replaysK_bind (α := Unit) ?_ fun _ _ _ => replaysK_pure ha
  · exact replaysK_push f b
  · exact replaysK_popFlags

theorem replaysK_lookSecond (hK : Kinds K) (hR : FollowsK K F R) :
    (∀ s a s', s.count ≠ 0 → s.count ≤ 2 → lookSecond s = .ok a s' →
      s'.count ≤ 2 ∧ reads s <+: reads s') ∧
    ∀ s1 s2 a s1', s1.count ≠ 0 → s1.count ≤ 2 → TwinK K R s1 s2 → lookSecond s1 = .ok a s1' →
      reads s1' <+: F → ∃ a' s2', lookSecond s2 = .ok a' s2' ∧ OptRel SeenAlike a a' ∧ TwinK K R s1' s2' := by
  refine ⟨fun s a s' h0 hc h => ?_, fun s1 s2 a s1' h0 hc ht h hF => ?_⟩
  · unfold lookSecond at h
    split at h
    · have h1 : s.count = 1 := by omega
      split at h
      · split at h
        · injection h with h2 h3
          subst h3
          rw [reads_second h1]
          exact ⟨by simp [h1], List.prefix_append _ _⟩
        · cases h
        · cases h
      · injection h with h2 h3
        subst h3
        exact ⟨hc, List.prefix_refl _⟩
    · injection h with h2 h3
      subst h3
      exact ⟨hc, List.prefix_refl _⟩
  · unfold lookSecond at h ⊢
    rw [ht.count, ht.hint, ht.flags]
    split at h
    · rename_i h2
      have h1 : s1.count = 1 := by omega
      rw [if_pos h2]
      split at h
      · rename_i name hn
        obtain ⟨name2, hn2, hb⟩ : ∃ name2, (cur s2).token = .ident name2 ∧
            isBindingIdentifier s1.flags name2 = isBindingIdentifier s1.flags name := by
          have := hK.token ht.cur
          rw [hn] at this
          generalize (cur s2).token = t at this ⊢
          cases this with
          | same => exact ⟨_, rfl, rfl⟩
          | name _ b ha hb => exact ⟨b, rfl, by rw [binding_ordinary ha, binding_ordinary hb]⟩
        rw [hn2]
        simp only [hb]
        cases hr : readToken s1.tok { s1.hint with expression := !isBindingIdentifier s1.flags name } with
        | ok look t1' =>
          rw [hr] at h
          injection h with h3 h4
          subst h3 h4
          rw [reads_second h1] at hF
          obtain ⟨look2, t2', h5, h6, h7⟩ := hR _ _ _ _ _ _ hF ht.tok hr
          rw [h5]
          refine ⟨_, _, rfl, .some (hK.seen h6), ⟨?_, rfl, rfl, ht.stack, ?_, ?_, ?_, rfl, ht.log⟩⟩
          · rw [reads_second h1, List.length_append]
            exact h7
          · simp only [ht.index]
            split
            · exact h6
            · exact ht.slot0
          · simp only [ht.index]
            split
            · exact ht.slot1
            · exact h6
          · simp only [ht.index]
        | panic p => rw [hr] at h; cases h
        | timeout => rw [hr] at h; cases h
      · rename_i hn
        injection h with h3 h4
        subst h3 h4
        have hn2 : ∀ name, (cur s2).token ≠ .ident name := by
          intro name e
          have := hK.token ht.cur
          rw [e] at this
          generalize (cur s1).token = t at this hn
          cases this with
          | same => exact hn _ rfl
          | name a _ _ _ => exact hn _ rfl
        refine ⟨none, s2, ?_, .none, ht⟩
        generalize (cur s2).token = t at hn2 ⊢
        cases t <;> first | rfl | exact absurd rfl (hn2 _)
    · rename_i h2
      rw [if_neg h2]
      injection h with h3 h4
      subst h3 h4
      exact ⟨_, _, rfl, .some (hK.seen ht.other), ht⟩

theorem replaysK_ahead (hK : Kinds K) (hR : FollowsK K F R) : ReplaysK K F R identLookahead identLookahead := by
  refine ⟨fun s b s' hc h => ?_, fun s1 s2 b s1' hc ht h hF => ?_⟩
  · rw [identLookahead_apply] at h
    cases hf : fill s with
    | ok u s1 =>
      rw [hf] at h
      obtain ⟨h1, h2⟩ := (replaysK_fill hR).1 s u s1 hc hf
      obtain ⟨h3, h4⟩ := (replaysK_lookSecond hK hR).1 s1 b s' (fill_count hf) h1 h
      exact ⟨h3, h2.trans h4⟩
    | _ => rw [hf] at h; cases h
  · rw [identLookahead_apply] at h ⊢
    cases hf : fill s1 with
    | ok u s =>
      rw [hf] at h
      obtain ⟨h1, -⟩ := (replaysK_fill hR).1 s1 u s hc hf
      have h3 := fill_count hf
      obtain ⟨-, h4⟩ := (replaysK_lookSecond hK hR).1 s b s1' h3 h1 h
      obtain ⟨u', s', h5, -, h6⟩ := (replaysK_fill hR).2 s1 s2 u s hc ht hf (h4.trans hF)
      rw [h5]
      exact (replaysK_lookSecond hK hR).2 s s' b s1' h3 h1 h6 h hF
    | _ => rw [hf] at h; cases h

theorem replaysK_read {α : Type} [Rl α] (g : PState → α)
    (hg : ∀ s1 s2, TwinK K R s1 s2 → Rl.rel (g s1) (g s2)) :
    ReplaysK K F R (fun s => .ok (g s) s) (fun s => .ok (g s) s) := by
  refine ⟨fun s b s' hc h => ?_, fun s1 s2 b s1' hc ht h hF => ?_⟩ <;> injection h with h1 h2 <;>
    subst h1 h2
  · exact ⟨hc, List.prefix_refl _⟩
  · exact ⟨_, s2, rfl, hg _ _ ht, ht⟩

theorem replaysK_fail {α : Type} [Rl α] (e : ParseErr) : ReplaysK K F R (P.fail e : P α) (P.fail e) := by
  refine ⟨fun s b s' hc h => ?_, fun s1 s2 b s1' hc ht h hF => ?_⟩ <;> cases h

theorem replaysK_timeout {α : Type} [Rl α] :
    ReplaysK K F R (fun _ => .timeout : P α) (fun _ => .timeout) := by
  refine ⟨fun s b s' hc h => ?_, fun s1 s2 b s1' hc ht h hF => ?_⟩ <;> cases h

theorem replaysK_expect : ReplaysK K F R expectExpression expectExpression := by
  refine ⟨fun s b s' hc h => ?_, fun s1 s2 b s1' hc ht h hF => ?_⟩ <;> injection h with h1 h2 <;>
    subst h1 h2
  · exact ⟨hc, List.prefix_refl _⟩
  · exact ⟨_, _, rfl, rfl, ⟨ht.tok, by simp only [ht.hint], ht.flags, ht.stack, ht.slot0, ht.slot1, ht.index,
      ht.count, ht.log⟩⟩

theorem replaysK_sim (hK : Kinds K) (hR : FollowsK K F R) (N : Nat) :
    SimK N N (fun {_} [_] m m' => ReplaysK K F R m m') where
  pure a b h := replaysK_pure h
  bind hm hk := replaysK_bind hm hk
  fail e := replaysK_fail e
  flags := replaysK_read (fun s => s.flags) fun _ _ h => h.flags ▸ Rl.refl _
  withFlag f b _ _ _ hm := replaysK_withFlag f b hm
  expect := replaysK_expect
  look := replaysK_bind (α := Unit) (replaysK_fill hR) fun _ _ _ =>
    replaysK_read (fun s => (cur s).seen) fun _ _ h => hK.seen h.cur
  ahead := replaysK_ahead hK hR
  take f hf := replaysK_take hK hR f hf
  loop hb st := by
    induction N generalizing st with
    | zero => exact replaysK_timeout
    | succ n ih =>
      refine replaysK_bind (hb st) fun x y h => ?_
      cases h
      cases x with
      | inl st' => exact ih st'
      | inr b => exact replaysK_pure (Rl.refl _)

theorem run_replaysK (hK : Kinds K) (hR : FollowsK K F R) (n : Nat) (f : Fn) : ReplaysK K F R (run n f) (run n f) := by
  induction n generalizing f with
  | zero => exact replaysK_timeout
  | succ n ih =>
    exact body_sim (r := ⟨n, run n⟩) (r' := ⟨n, run n⟩) (J := fun {_} [_] m m' => ReplaysK K F R m m')
      (replaysK_sim hK hR n) ⟨ih⟩ f

theorem parseModule_replaysK (hK : Kinds K) (hR : FollowsK K F R) (n : Nat) :
    ReplaysK K F R (parseModule (recOf n)) (parseModule (recOf n)) := by
  unfold parseModule
  refine replaysK_bind (whileSome_sg (replaysK_sim hK hR n) (run_replaysK hK hR n _)) fun _ _ _ => ?_
  refine replaysK_bind ?_ fun _ _ _ => replaysK_pure rfl
  refine eat_sg (replaysK_sim hK hR n) ?_
  rw [eof_eq]
  refine replaysK_take hK hR _ fun l t t' h => ?_
  cases h <;> first | exact .none | exact optRel_refl (fun _ => rfl) _

end

/-- **Replay.**  The parser on a second text, whose tokenizer follows the accepted run on the first up to
the values of tokens. -/
theorem replayK {checked1 checked2 : Bool} {code1 code2 : Bytes} {s : PState}
    (hu1 : Utf8 code1) {n : Nat} {K : Look → Look → Prop} (hK : Kinds K) (hi : K {} {})
    (h : parseModuleFuel n checked1 code1 = .ok () s)
    {R : Nat → Tokenizer → Tokenizer → Prop} (hR : FollowsK K s.log R)
    (h0 : R 0 (intoTokenizer checked1 code1) (intoTokenizer checked2 code2)) :
    ∃ s', parseModuleFuel n checked2 code2 = .ok () s' ∧ List.Forall₂ (K) s.log s'.log := by
  have hd := parseModule_done (valid_intoTokenizer checked1 hu1) (inv_initState checked1 code1) h
  have hr : reads s = s.log := by unfold reads; rw [buf_zero hd, List.append_nil]
  obtain ⟨a, s', h1, -, h2⟩ := (parseModule_replaysK hK hR n).2 (initState checked1 code1)
    (initState checked2 code2) () s (Nat.zero_le _)
    ⟨h0, rfl, rfl, rfl, hi, hi, rfl, rfl, .nil⟩ h
    (by rw [hr]; exact List.prefix_refl _)
  exact ⟨s', h1, h2.log⟩

end Jsparse
