import Verif.Proofs.Switch
import Verif.Proofs.Congr
/-!
# The error for a second default clause
-/

namespace Jsparse

open P

/-- The method never fails with "duplicate default statements". -/
def NoSecond {α : Type} (m : P α) : Prop := ∀ s s', m s ≠ .err .duplicateDefault s'

theorem noSecond_bind {α β : Type} {m : P α} {k : α → P β} (hm : NoSecond m) (hk : ∀ a, NoSecond (k a)) :
    NoSecond (m >>= k) := by
  intro s s' h
  rw [bind_apply] at h
  cases h1 : m s with
  | ok a s1 => rw [h1] at h; exact hk a s1 s' h
  | err e => rw [h1] at h; injection h with h; subst h; exact hm s _ h1
  | _ => rw [h1] at h; cases h

theorem noSecond_eat {α : Type} {m : P (Option α)} (hm : NoSecond m) : NoSecond (eat m) := by
  unfold eat
  refine noSecond_bind hm fun o => ?_
  cases o <;> exact fun _ _ h => by cases h

theorem noSecond_take {β : Type} (f : Bool → Token → Option β) : NoSecond (takeIf f) := by
  intro s s' h
  unfold takeIf at h
  cases h1 : fill s with
  | err e => exact fill_err h1
  | ok u s1 => rw [h1] at h; simp only at h; split at h <;> cases h
  | _ => rw [h1] at h; cases h

theorem noSecond_loop {σ β : Type} {b : σ → P (σ ⊕ β)} (hb : ∀ st, NoSecond (b st)) :
    ∀ N st, NoSecond (P.loop N b st)
  | 0, _ => fun _ _ h => by cases h
  | N + 1, st => by
    unfold P.loop
    refine noSecond_bind (hb st) fun x => ?_
    cases x with
    | inl st' => exact noSecond_loop hb N st'
    | inr c => exact fun _ _ h => by cases h

theorem noSecond_withFlag {α : Type} (f : Flag) (b : Bool) {m : P α} (hm : NoSecond m) :
    NoSecond (withFlag f b m) := by
  unfold withFlag
  refine noSecond_bind (fun _ _ h => by cases h) fun _ => noSecond_bind hm fun _ =>
    noSecond_bind (fun s s' h => ?_) fun _ _ _ h => by cases h
  unfold popFlags at h
  split at h <;> cases h

theorem noSecond_congr (N N' : Nat) : Congr N N' (fun {_} m _ => NoSecond m) where
  pure _ := fun _ _ h => by cases h
  bind := noSecond_bind
  fail e he := fun s s' h => by injection h with h; exact he h
  flags := fun s s' h => by cases h
  withFlag f b m m' hm := noSecond_withFlag f b hm
  expect := fun s s' h => by cases h
  look := fun s s' h => by
    rw [tokenAndLine_apply] at h
    cases h1 : fill s with
    | err e => exact fill_err h1
    | _ => rw [h1] at h; cases h
  ahead := fun s s' h => by
    rw [identLookahead_apply] at h
    cases h1 : fill s with
    | err e => exact fill_err h1
    | ok u s1 =>
      rw [h1] at h
      simp only [lookSecond] at h
      split at h
      · split at h
        · split at h <;> cases h
        · cases h
      · cases h
    | _ => rw [h1] at h; cases h
  take f _ := noSecond_take f
  loop hb st := noSecond_loop hb _ st

theorem switchLoop_noSecond {n : Nat} (hr : ∀ f, NoSecond (run n f)) (k : Nat) :
    ∀ (st : Bool) (s s' : PState), (st = true → NoDefault s) →
    P.loop k (switchRound (recOf n)) st s ≠ .err .duplicateDefault s' := by
  induction k with
  | zero => intro st s _ _ h; cases h
  | succ k ih =>
    intro st s s' hn h
    unfold P.loop switchRound at h
    rw [bind_apply, bind_apply] at h
    cases h1 : (recOf n).call .defaultClause s with
    | err e => rw [h1] at h; injection h with h; subst h; exact hr _ _ _ h1
    | panic p => rw [h1] at h; cases h
    | timeout => rw [h1] at h; cases h
    | ok o s1 =>
      rw [h1] at h
      cases o with
      | some u =>
        cases st with
        | true => exact default_none (hn rfl) h1
        | false => exact ih true s1 s' (fun _ => clause_some (.inl rfl) h1) h
      | none =>
        simp only [bind_apply] at h
        cases h2 : (recOf n).call .caseClause s1 with
        | err e => rw [h2] at h; injection h with h; subst h; exact hr _ _ _ h2
        | panic p => rw [h2] at h; cases h
        | timeout => rw [h2] at h; cases h
        | ok o s2 =>
          rw [h2] at h
          cases o with
          | some u => exact ih st s2 s' (fun _ => clause_some (.inr rfl) h2) h
          | none => cases h

theorem parseSwitchStatement_noSecond {n : Nat} (hr : ∀ f, NoSecond (run n f)) :
    NoSecond (parseSwitchStatement (recOf n)) := by
  have hJ := (noSecond_congr n n).base
  unfold parseSwitchStatement
  refine noSecond_bind (keyword_cg hJ _) fun o => ?_
  cases o with
  | none => exact fun _ _ h => by cases h
  | some k =>
    refine noSecond_bind (parenExpression_cg (r := recOf n) (r' := recOf n) hJ ⟨hr⟩) fun _ =>
      noSecond_withFlag _ _ (noSecond_bind (noSecond_eat (punc_cg hJ _)) fun _ => noSecond_bind ?_ fun _ =>
      noSecond_bind (noSecond_eat (punc_cg hJ _)) fun _ _ _ h => by cases h)
    exact fun s s' => switchLoop_noSecond hr _ false s s' fun h => by cases h

theorem run_noSecond : ∀ n f, NoSecond (run n f)
  | 0, _ => fun _ _ h => by cases h
  | n + 1, f => by
    have hr := run_noSecond n
    exact body_congr_but (J := fun {_} m _ => NoSecond m) (r := recOf n) (r' := recOf n)
      (noSecond_congr n n) ⟨hr⟩ (parseSwitchStatement_noSecond hr) f

theorem parseModule_noSecond (n : Nat) : NoSecond (parseModule (recOf n)) := by
  have hJ := (noSecond_congr n n).base
  have hr := run_noSecond n .moduleItem
  unfold parseModule
  refine noSecond_bind (whileSome_cg (J := fun {_} m _ => NoSecond m) (m' := run n .moduleItem) hJ hr)
    fun _ => ?_
  rw [eof_eq]
  exact noSecond_bind (noSecond_eat (noSecond_take _)) fun _ _ _ h => by cases h

end Jsparse
