import Verif.Proofs.Congr
import Verif.Proofs.Invariant
/-!
# The parser on two texts with the same tokens

If a run of the parser succeeds, and a second tokenizer answers each of the calls made in it with the
same token and the same line flag, then the second run succeeds as well.
-/

namespace Jsparse

open P Spec

/-- Everything that was read so far. -/
def reads (s : PState) : List Look := s.log ++ buf s

/-- A token with its line flag, and what `v` tells of its range. -/
def Look.via {V : Type} (v : TokenRange → V) (l : Look) : (Bool × Token) × V := (l.seen, v l.range)

/-- The second tokenizer follows the first along the tokens `F`; `R k` relates the tokenizers after `k`
tokens. -/
def Follows {V : Type} (v1 v2 : TokenRange → V) (F : List Look) (R : Nat → Tokenizer → Tokenizer → Prop) : Prop :=
  ∀ pre look t1 t2 h t1', pre ++ [look] <+: F → R pre.length t1 t2 → readToken t1 h = .ok look t1' →
    ∃ look2 t2', readToken t2 h = .ok look2 t2' ∧ look2.via v2 = look.via v1 ∧ R (pre.length + 1) t1' t2'

/-- The two parsers have read the same tokens. -/
structure Twin {V : Type} (v1 v2 : TokenRange → V) (R : Nat → Tokenizer → Tokenizer → Prop) (s1 s2 : PState) : Prop where
  tok : R (reads s1).length s1.tok s2.tok
  hint : s2.hint = s1.hint
  flags : s2.flags = s1.flags
  stack : s2.stack = s1.stack
  slot0 : s2.slot0.via v2 = s1.slot0.via v1
  slot1 : s2.slot1.via v2 = s1.slot1.via v1
  index : s2.index = s1.index
  count : s2.count = s1.count
  log : s2.log.map (Look.via v2) = s1.log.map (Look.via v1)

/-- The method reads on. -/
def Onward {α : Type} (m : P α) : Prop :=
  ∀ s a s', s.count ≤ 2 → m s = .ok a s' → s'.count ≤ 2 ∧ reads s <+: reads s'

def Replays {V : Type} (v1 v2 : TokenRange → V) (F : List Look) (R : Nat → Tokenizer → Tokenizer → Prop) {α : Type} (m m' : P α) : Prop :=
  Onward m ∧ ∀ s1 s2 a s1', s1.count ≤ 2 → Twin v1 v2 R s1 s2 → m s1 = .ok a s1' → reads s1' <+: F →
    ∃ s2', m' s2 = .ok a s2' ∧ Twin v1 v2 R s1' s2'

section

variable {V : Type} {v1 v2 : TokenRange → V} {F : List Look} {R : Nat → Tokenizer → Tokenizer → Prop}

theorem Twin.cur {s1 s2 : PState} (h : Twin v1 v2 R s1 s2) : (cur s2).via v2 = (cur s1).via v1 := by
  unfold P.cur
  rw [h.index]
  split
  · exact h.slot1
  · exact h.slot0

theorem Twin.other {s1 s2 : PState} (h : Twin v1 v2 R s1 s2) : (other s2).via v2 = (other s1).via v1 := by
  unfold P.other
  rw [h.index]
  split
  · exact h.slot0
  · exact h.slot1

theorem seen_eq {a b : Look} (h : a.via v2 = b.via v1) : a.line = b.line ∧ a.token = b.token := by
  have h := (Prod.mk.inj h).1
  unfold Look.seen at h
  injection h with h1 h2
  exact ⟨h1, h2⟩

theorem replays_pure {α : Type} (a : α) : Replays v1 v2 F R (pure a : P α) (pure a) := by
  refine ⟨fun s b s' hc h => ?_, fun s1 s2 b s1' _ ht h _ => ?_⟩ <;>
  · rw [pure_apply] at h
    injection h with h1 h2
    subst h1 h2
    first
    | exact ⟨hc, List.prefix_refl _⟩
    | exact ⟨s2, rfl, ht⟩

theorem replays_bind {α β : Type} {m m' : P α} {k k' : α → P β} (hm : Replays v1 v2 F R m m')
    (hk : ∀ a, Replays v1 v2 F R (k a) (k' a)) : Replays v1 v2 F R (m >>= k) (m' >>= k') := by
  refine ⟨fun s b s' hc h => ?_, fun s1 s2 b s1' hc ht h hF => ?_⟩
  · rw [bind_apply] at h
    cases h1 : m s with
    | ok a s1 =>
      rw [h1] at h
      obtain ⟨h2, h3⟩ := hm.1 s a s1 hc h1
      obtain ⟨h4, h5⟩ := (hk a).1 s1 b s' h2 h
      exact ⟨h4, h3.trans h5⟩
    | _ => rw [h1] at h; cases h
  · rw [bind_apply] at h
    cases h1 : m s1 with
    | ok a s =>
      rw [h1] at h
      obtain ⟨h2, h3⟩ := hm.1 s1 a s hc h1
      obtain ⟨h4, h5⟩ := (hk a).1 s b s1' h2 h
      obtain ⟨s', h6, h7⟩ := hm.2 s1 s2 a s hc ht h1 (h5.trans hF)
      rw [bind_apply, h6]
      exact (hk a).2 s s' b s1' h2 h7 h hF
    | _ => rw [h1] at h; cases h

theorem reads_fill {s : PState} (hc : s.count = 0) (look : Look) (tok : Tokenizer) (hint : Hint) :
    reads { s with tok := tok, hint := hint, slot0 := look, index := false, count := s.count + 1 }
      = reads s ++ [look] := by
  unfold reads
  rw [buf_zero hc, buf_one (by simp [hc])]
  simp [cur]

theorem replays_fill (hR : Follows v1 v2 F R) : Replays v1 v2 F R fill fill := by
  refine ⟨fun s b s' hc h => ?_, fun s1 s2 b s1' hc ht h hF => ?_⟩
  · unfold fill at h
    split at h
    · rename_i h0
      split at h
      · injection h with h1 h2
        subst h2
        rw [reads_fill h0]
        exact ⟨by simp [h0], List.prefix_append _ _⟩
      · cases h
      · cases h
    · injection h with h1 h2
      subst h2
      exact ⟨hc, List.prefix_refl _⟩
  · unfold fill at h ⊢
    rw [ht.count, ht.hint]
    split at h
    · rename_i h0
      rw [if_pos h0]
      cases hr : readToken s1.tok s1.hint with
      | ok look t1' =>
        rw [hr] at h
        injection h with h1 h2
        subst h2
        rw [reads_fill h0] at hF
        obtain ⟨look2, t2', h3, h4, h5⟩ := hR _ _ _ _ _ _ hF ht.tok hr
        rw [h3]
        refine ⟨_, rfl, ⟨?_, rfl, ht.flags, ht.stack, h4, ht.slot1, rfl, rfl, ht.log⟩⟩
        rw [reads_fill h0, List.length_append]
        exact h5
      | panic p => rw [hr] at h; cases h
      | timeout => rw [hr] at h; cases h
    · rename_i h0
      rw [if_neg h0]
      injection h with h1 h2
      subst h2
      exact ⟨_, rfl, ht⟩

theorem reads_pop {s : PState} (hc : s.count ≠ 0) (h2 : s.count ≤ 2) : reads (popState s) = reads s := by
  unfold reads
  rw [buf_pos hc h2]
  simp [popState]

theorem twin_pop {s1 s2 : PState} (hc : s1.count ≠ 0) (h2 : s1.count ≤ 2) (ht : Twin v1 v2 R s1 s2) :
    Twin v1 v2 R (popState s1) (popState s2) := by
  have key : ∀ {a b : Look}, a.via v2 = b.via v1 →
      Look.via v2 { a with token := .eof } = Look.via v1 { b with token := .eof } := by
    intro a b h
    have h1 := (seen_eq h).1
    have h2 := (Prod.mk.inj h).2
    unfold Look.via Look.seen
    simp only [h1, h2]
  have e0 := key ht.slot0
  have e1 := key ht.slot1
  refine ⟨?_, ht.hint, ht.flags, ht.stack, ?_, ?_, ?_, ?_, ?_⟩
  · rw [reads_pop hc h2]; exact ht.tok
  · simp only [popState, ht.index]
    split
    · exact ht.slot0
    · exact e0
  · simp only [popState, ht.index]
    split
    · exact e1
    · exact ht.slot1
  · simp only [popState, ht.index]
  · simp only [popState, ht.count]
  · simp only [popState, List.map_append, List.map_cons, List.map_nil, ht.log, ht.cur]

theorem replays_take (hR : Follows v1 v2 F R) {β : Type} (f : Bool → Token → Option β) :
    Replays v1 v2 F R (takeIf f) (takeIf f) := by
  refine ⟨fun s b s' hc h => ?_, fun s1 s2 b s1' hc ht h hF => ?_⟩
  · unfold takeIf at h
    cases hf : fill s with
    | ok u s1 =>
      rw [hf] at h
      obtain ⟨h1, h2⟩ := (replays_fill hR).1 s u s1 hc hf
      have h3 := fill_count hf
      simp only at h
      split at h <;> injection h with h4 h5 <;> subst h5
      · rw [reads_pop h3 h1]
        exact ⟨by simp only [popState]; omega, h2⟩
      · exact ⟨h1, h2⟩
    | _ => rw [hf] at h; cases h
  · unfold takeIf at h ⊢
    cases hf : fill s1 with
    | ok u s =>
      rw [hf] at h
      obtain ⟨h1, -⟩ := (replays_fill hR).1 s1 u s hc hf
      have h3 := fill_count hf
      have hs : reads s <+: F := by
        simp only at h
        split at h <;> injection h with h4 h5 <;> subst h5
        · rwa [reads_pop h3 h1] at hF
        · exact hF
      obtain ⟨s', h4, h5⟩ := (replays_fill hR).2 s1 s2 u s hc ht hf hs
      rw [h4]
      simp only at h ⊢
      obtain ⟨e1, e2⟩ := seen_eq h5.cur
      rw [e1, e2]
      split at h <;> injection h with h6 h7 <;> subst h6 h7
      · exact ⟨_, rfl, twin_pop h3 h1 h5⟩
      · exact ⟨_, rfl, h5⟩
    | _ => rw [hf] at h; cases h

theorem replays_withFlag (f : Flag) (b : Bool) {α : Type} {m m' : P α} (hm : Replays v1 v2 F R m m') :
    Replays v1 v2 F R (withFlag f b m) (withFlag f b m') := by
  refine replays_bind ?_ fun _ => replays_bind hm fun a => replays_bind ?_ fun _ => replays_pure _
  · refine ⟨fun s a s' hc h => ?_, fun s1 s2 a s1' hc ht h hF => ?_⟩
    · cases f <;>
      · injection h with h1 h2
        subst h2
        exact ⟨hc, List.prefix_refl _⟩
    · cases f <;>
      · injection h with h1 h2
        subst h1 h2
        exact ⟨_, rfl, ⟨ht.tok, by simp [pushFlags, ht.flags, ht.hint], by simp [pushFlags, ht.flags],
          by simp [pushFlags, ht.flags, ht.stack], ht.slot0, ht.slot1, ht.index, ht.count, ht.log⟩⟩
  · refine ⟨fun s a s' hc h => ?_, fun s1 s2 a s1' hc ht h hF => ?_⟩
    · unfold popFlags at h
      split at h
      · cases h
      · injection h with h1 h2
        subst h2
        exact ⟨hc, List.prefix_refl _⟩
    · unfold popFlags at h ⊢
      rw [ht.stack]
      split at h
      · cases h
      · rename_i hst
        injection h with h1 h2
        subst h1 h2
        exact ⟨_, rfl, ⟨ht.tok, by simp only [ht.hint], rfl, rfl, ht.slot0, ht.slot1, ht.index, ht.count, ht.log⟩⟩

theorem reads_second {s : PState} (hc : s.count = 1) (look : Look) (tok : Tokenizer) :
    reads { s with tok := tok
                   slot0 := if s.index then look else s.slot0
                   slot1 := if s.index then s.slot1 else look
                   count := s.count + 1 } = reads s ++ [look] := by
  unfold reads
  rw [buf_one hc, buf_two (by simp [hc]), List.append_assoc]
  unfold cur other
  cases s.index <;> rfl

theorem replays_lookSecond (hR : Follows v1 v2 F R) :
    (∀ s a s', s.count ≠ 0 → s.count ≤ 2 → lookSecond s = .ok a s' →
      s'.count ≤ 2 ∧ reads s <+: reads s') ∧
    ∀ s1 s2 a s1', s1.count ≠ 0 → s1.count ≤ 2 → Twin v1 v2 R s1 s2 → lookSecond s1 = .ok a s1' →
      reads s1' <+: F → ∃ s2', lookSecond s2 = .ok a s2' ∧ Twin v1 v2 R s1' s2' := by
  refine ⟨fun s a s' h0 hc h => ?_, fun s1 s2 a s1' h0 hc ht h hF => ?_⟩
  · unfold lookSecond at h
    split at h
    · have h1 : s.count = 1 := by omega
      split at h
      · split at h
        · injection h with h2 h3
          subst h3
          rw [reads_second h1]
          exact ⟨by simp [h1], List.prefix_append _ _⟩
        · cases h
        · cases h
      · injection h with h2 h3
        subst h3
        exact ⟨hc, List.prefix_refl _⟩
    · injection h with h2 h3
      subst h3
      exact ⟨hc, List.prefix_refl _⟩
  · unfold lookSecond at h ⊢
    rw [ht.count, (seen_eq ht.cur).2, ht.hint, ht.flags]
    split at h
    · rename_i h2
      have h1 : s1.count = 1 := by omega
      rw [if_pos h2]
      split at h
      · rename_i name hn
        cases hr : readToken s1.tok { s1.hint with expression := !isBindingIdentifier s1.flags name } with
        | ok look t1' =>
          rw [hr] at h
          injection h with h3 h4
          subst h3 h4
          rw [reads_second h1] at hF
          obtain ⟨look2, t2', h5, h6, h7⟩ := hR _ _ _ _ _ _ hF ht.tok hr
          rw [h5]
          have h8 : look2.seen = look.seen := (Prod.mk.inj h6).1
          simp only [h8]
          refine ⟨_, rfl, ⟨?_, rfl, rfl, ht.stack, ?_, ?_, ?_, rfl, ht.log⟩⟩
          · rw [reads_second h1, List.length_append]
            exact h7
          · simp only [ht.index]
            split
            · exact h6
            · exact ht.slot0
          · simp only [ht.index]
            split
            · exact ht.slot1
            · exact h6
          · simp only [ht.index]
        | panic p => rw [hr] at h; cases h
        | timeout => rw [hr] at h; cases h
      · rename_i hn
        injection h with h3 h4
        subst h3 h4
        exact ⟨s2, rfl, ht⟩
    · rename_i h2
      rw [if_neg h2]
      injection h with h3 h4
      subst h3 h4
      exact ⟨_, by rw [(Prod.mk.inj ht.other).1], ht⟩

theorem replays_ahead (hR : Follows v1 v2 F R) : Replays v1 v2 F R identLookahead identLookahead := by
  refine ⟨fun s b s' hc h => ?_, fun s1 s2 b s1' hc ht h hF => ?_⟩
  · rw [identLookahead_apply] at h
    cases hf : fill s with
    | ok u s1 =>
      rw [hf] at h
      obtain ⟨h1, h2⟩ := (replays_fill hR).1 s u s1 hc hf
      obtain ⟨h3, h4⟩ := (replays_lookSecond hR).1 s1 b s' (fill_count hf) h1 h
      exact ⟨h3, h2.trans h4⟩
    | _ => rw [hf] at h; cases h
  · rw [identLookahead_apply] at h ⊢
    cases hf : fill s1 with
    | ok u s =>
      rw [hf] at h
      obtain ⟨h1, -⟩ := (replays_fill hR).1 s1 u s hc hf
      have h3 := fill_count hf
      obtain ⟨-, h4⟩ := (replays_lookSecond hR).1 s b s1' h3 h1 h
      obtain ⟨s', h5, h6⟩ := (replays_fill hR).2 s1 s2 u s hc ht hf (h4.trans hF)
      rw [h5]
      exact (replays_lookSecond hR).2 s s' b s1' h3 h1 h6 h hF
    | _ => rw [hf] at h; cases h

theorem replays_read {α : Type} (g : PState → α) (hg : ∀ s1 s2, Twin v1 v2 R s1 s2 → g s2 = g s1) :
    Replays v1 v2 F R (fun s => .ok (g s) s) (fun s => .ok (g s) s) := by
  refine ⟨fun s b s' hc h => ?_, fun s1 s2 b s1' hc ht h hF => ?_⟩ <;> injection h with h1 h2 <;>
    subst h1 h2
  · exact ⟨hc, List.prefix_refl _⟩
  · exact ⟨s2, by simp only [hg _ _ ht], ht⟩

theorem replays_fail {α : Type} (e : ParseErr) : Replays v1 v2 F R (P.fail e : P α) (P.fail e) := by
  refine ⟨fun s b s' hc h => ?_, fun s1 s2 b s1' hc ht h hF => ?_⟩ <;> cases h

theorem replays_timeout {α : Type} : Replays v1 v2 F R (fun _ => .timeout : P α) (fun _ => .timeout) := by
  refine ⟨fun s b s' hc h => ?_, fun s1 s2 b s1' hc ht h hF => ?_⟩ <;> cases h

theorem replays_expect : Replays v1 v2 F R expectExpression expectExpression := by
  refine ⟨fun s b s' hc h => ?_, fun s1 s2 b s1' hc ht h hF => ?_⟩ <;> injection h with h1 h2 <;>
    subst h1 h2
  · exact ⟨hc, List.prefix_refl _⟩
  · exact ⟨_, rfl, ⟨ht.tok, by simp only [ht.hint], ht.flags, ht.stack, ht.slot0, ht.slot1, ht.index,
      ht.count, ht.log⟩⟩

theorem replays_congr (hR : Follows v1 v2 F R) (N : Nat) : Congr N N (fun {_} m m' => Replays v1 v2 F R m m') where
  pure a := replays_pure a
  bind hm hk := replays_bind hm hk
  fail e _ := replays_fail e
  flags := replays_read (fun s => s.flags) fun _ _ h => h.flags
  withFlag f b m m' hm := replays_withFlag f b hm
  expect := replays_expect
  look := replays_bind (replays_fill hR) fun _ =>
    replays_read (fun s => (cur s).seen) fun _ _ h => (Prod.mk.inj h.cur).1
  ahead := replays_ahead hR
  take f _ := replays_take hR f
  loop hb st := by
    induction N generalizing st with
    | zero => exact replays_timeout
    | succ n ih =>
      refine replays_bind (hb st) fun x => ?_
      cases x with
      | inl st' => exact ih st'
      | inr b => exact replays_pure _

theorem run_replays (hR : Follows v1 v2 F R) (n : Nat) (f : Fn) : Replays v1 v2 F R (run n f) (run n f) :=
  run_congr (J := fun {_} m m' => Replays v1 v2 F R m m') (k := 0) (fun _ => replays_congr hR _)
    (replays_fail _)
    (fun _ => replays_timeout) n f

theorem parseModule_replays (hR : Follows v1 v2 F R) (n : Nat) :
    Replays v1 v2 F R (parseModule (recOf n)) (parseModule (recOf n)) := by
  unfold parseModule
  refine replays_bind (whileSome_cg (replays_congr hR n).base (run_replays hR n _)) fun _ => ?_
  refine replays_bind ?_ fun _ => replays_pure _
  refine eat_cg (replays_congr hR n).base ?_
  rw [eof_eq]
  exact replays_take hR _

end

theorem parseModule_done {t0 : Tokenizer} (hv : Spec.Valid t0) {n : Nat} {s s' : PState}
    (hs : Inv t0 s) (h : parseModule (recOf n) s = .ok () s') : s'.count = 0 := by
  have := parseModule_spec hv n hs
  rw [h] at this
  obtain ⟨s1, -, -, -, h1, rfl⟩ := this
  simp [popState, h1]

/-- **Replay.**  The parser on a second text, whose tokenizer follows the accepted run on the first. -/
theorem replay {checked1 checked2 : Bool} {code1 code2 : Bytes} {s : PState}
    (hu1 : Utf8 code1) {n : Nat} {V : Type} {v1 v2 : TokenRange → V}
    (hv : v2 {} = v1 {})
    (h : parseModuleFuel n checked1 code1 = .ok () s)
    {R : Nat → Tokenizer → Tokenizer → Prop} (hR : Follows v1 v2 s.log R)
    (h0 : R 0 (intoTokenizer checked1 code1) (intoTokenizer checked2 code2)) :
    ∃ s', parseModuleFuel n checked2 code2 = .ok () s' ∧
      s'.log.map (Look.via v2) = s.log.map (Look.via v1) ∧
      R s.log.length s.tok s'.tok := by
  have hd := parseModule_done (valid_intoTokenizer checked1 hu1) (inv_initState checked1 code1) h
  have hr : reads s = s.log := by unfold reads; rw [buf_zero hd, List.append_nil]
  obtain ⟨s', h1, h2⟩ := (parseModule_replays hR n).2 (initState checked1 code1)
    (initState checked2 code2) () s (Nat.zero_le _) 
    ⟨h0, rfl, rfl, rfl, congrArg _ hv, congrArg _ hv, rfl, rfl, rfl⟩ h
    (by rw [hr]; exact List.prefix_refl _)
  exact ⟨s', h1, h2.log, by have := h2.tok; rwa [hr] at this⟩

end Jsparse
