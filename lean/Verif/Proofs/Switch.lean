import Verif.Proofs.Trial
/-!
# The clauses of a `switch`

The statements of a clause end where neither a declaration nor a statement begins.  By then
`parse_labelled_statement` has looked at two tokens, so the next two are not a name that begins no
statement of its own, such as `default`, and a colon.
-/

namespace Jsparse

open P

/-- The next token has been read; if it is the word `default` then so has the one after it, and that
is no colon. -/
def NoDefault (s : PState) : Prop :=
  ∃ x rest, buf s = x :: rest ∧
    (x.token = .ident b!"default" → ∃ y, rest = [y] ∧ y.token ≠ .punct .colon)

theorem buf_length (s : PState) : (buf s).length ≤ 2 := by
  unfold buf
  split <;> simp

theorem NoDefault.still {s s' : PState} (h : NoDefault s) (hs : Still s s') : NoDefault s' := by
  obtain ⟨x, rest, h1, h2⟩ := h
  obtain ⟨t, ht⟩ := hs.buf
  rw [h1] at ht
  refine ⟨x, rest ++ t, ht.symm, fun hx => ?_⟩
  obtain ⟨y, rfl, hy⟩ := h2 hx
  have := buf_length s'
  rw [← ht] at this
  cases t with
  | nil => exact ⟨y, rfl, hy⟩
  | cons z t => simp at this

theorem bind_inv {α β : Type} {m : P α} {k : α → P β} {s s' : PState} {b : β}
    (h : (m >>= k) s = .ok b s') : ∃ a s1, m s = .ok a s1 ∧ k a s1 = .ok b s' := by
  rw [bind_apply] at h
  cases h1 : m s with
  | ok a s1 => rw [h1] at h; exact ⟨a, s1, rfl, h⟩
  | _ => rw [h1] at h; cases h

theorem orTry_none {α : Type} {m k : P (Option α)} {s s' : PState} (h : orTry m k s = .ok none s') :
    ∃ s1, m s = .ok none s1 ∧ k s1 = .ok none s' := by
  obtain ⟨a, s1, h1, h2⟩ := bind_inv h
  cases a with
  | some a => cases h2
  | none => exact ⟨s1, h1, h2⟩

theorem must_none {m : P (Option Unit)} {s s' : PState} : must m s ≠ .ok none s' := by
  intro h
  obtain ⟨a, s1, -, h2⟩ := bind_inv h
  cases h2

theorem run_still {n : Nat} {f : Fn} {s s' : PState} (h : run n f s = .ok none s') : Still s s' := by
  obtain ⟨l, h1, h2⟩ := run_ab n f s s none s' (.refl s) h
  have : l = .still := h1
  subst this
  exact h2

theorem labelled_none {n : Nat} {s s' : PState} (hc : s.count ≠ 0)
    (h : run n .labelledStatement s = .ok none s') : NoDefault s' := by
  cases n with
  | zero => cases h
  | succ n =>
    obtain ⟨o, s1, h1, h2⟩ := bind_inv h
    split at h2
    · obtain ⟨_, _, _, h3⟩ := bind_inv h2
      obtain ⟨_, _, _, h4⟩ := bind_inv h3
      exact absurd h4 must_none
    · rename_i hl
      cases h2
      rw [identLookahead_apply] at h1
      have hf : fill s = .ok () s := by unfold fill; rw [if_neg hc]
      rw [hf] at h1
      simp only [lookSecond] at h1
      split at h1
      · rename_i hc2
        have hc1 : s.count = 1 := by omega
        split at h1
        · split at h1
          · rename_i look tok _
            injection h1 with h1 h2
            subst h1 h2
            refine ⟨cur s, [look], ?_, fun _ => ⟨look, rfl, fun hy => hl ?_⟩⟩
            · cases hi : s.index <;> simp [buf, hc1, cur, other, hi]
            · simp [isLabel, Look.seen, hy]
          · cases h1
          · cases h1
        · rename_i hx
          injection h1 with h1 h2
          subst h2
          exact ⟨cur s, [], buf_one hc1, fun h => absurd h (hx _)⟩
      · rename_i hc2
        injection h1 with h1 h2
        subst h1 h2
        refine ⟨cur s, [other s], ?_, fun _ => ⟨_, rfl, fun hy => hl ?_⟩⟩
        · unfold buf
          split
          · omega
          · omega
          · rfl
        · simp [isLabel, Look.seen, hy]

theorem item_none {n : Nat} {s s' : PState} (h : run n .statementListItem s = .ok none s') :
    NoDefault s' := by
  cases n with
  | zero => cases h
  | succ n =>
    obtain ⟨s1, -, h1⟩ := orTry_none h
    change run n .statement s1 = _ at h1
    cases n with
    | zero => cases h1
    | succ n =>
      obtain ⟨_, s2, -, h2⟩ := bind_inv h1
      obtain ⟨t, s3, h3, h4⟩ := bind_inv h2
      simp only [token, bind_apply, tokenAndLine_apply] at h3
      cases h5 : fill s2 with
      | ok u s4 =>
        rw [h5] at h3
        injection h3 with _ h3
        subst h3
        generalize statementType t = st at h4
        cases st
        case unknown =>
          obtain ⟨s5, h6, h7⟩ := orTry_none h4
          exact (labelled_none (fill_count h5) h6).still (run_still h7)
        all_goals exact absurd h4 must_none
      | _ => rw [h5] at h3; cases h3

theorem whileSome_item {n k : Nat} {s s' : PState} {u : Unit}
    (h : whileSome k (run n .statementListItem) s = .ok u s') : NoDefault s' := by
  unfold whileSome at h
  induction k generalizing s with
  | zero => cases h
  | succ k ih =>
    obtain ⟨x, s1, h1, h2⟩ := bind_inv h
    obtain ⟨o, s2, h3, h4⟩ := bind_inv h1
    cases o with
    | some a =>
      cases h4
      exact ih h2
    | none =>
      cases h4
      cases h2
      exact item_none h3

/-- After a clause no `default:` follows. -/
theorem clause_some {n : Nat} {f : Fn} (hf : f = .defaultClause ∨ f = .caseClause) {s s' : PState}
    (h : run n f s = .ok (some ()) s') : NoDefault s' := by
  cases n with
  | zero => cases h
  | succ n =>
    rcases hf with rfl | rfl
    · obtain ⟨o, s1, -, h1⟩ := bind_inv h
      cases o with
      | none => cases h1
      | some k =>
        obtain ⟨_, s2, -, h2⟩ := bind_inv h1
        obtain ⟨_, s3, h3, h4⟩ := bind_inv h2
        cases h4
        exact whileSome_item h3
    · obtain ⟨o, s1, -, h1⟩ := bind_inv h
      cases o with
      | none => cases h1
      | some k =>
        obtain ⟨_, s2, -, h2⟩ := bind_inv h1
        obtain ⟨_, s3, -, h3⟩ := bind_inv h2
        obtain ⟨_, s4, -, h4⟩ := bind_inv h3
        obtain ⟨_, s5, h5, h6⟩ := bind_inv h4
        cases h6
        exact whileSome_item h5

/-- There is no default clause where no `default:` follows. -/
theorem default_none {n : Nat} {s s' : PState} (hs : NoDefault s) :
    run n .defaultClause s ≠ .ok (some ()) s' := by
  intro h
  cases n with
  | zero => cases h
  | succ n =>
    obtain ⟨x, rest, h1, h2⟩ := hs
    have hc : s.count ≠ 0 := by
      intro hc
      rw [buf_zero hc] at h1
      cases h1
    have hx : cur s = x := by
      unfold buf at h1
      split at h1
      · cases h1
      · cases h1; rfl
      · cases h1; rfl
    obtain ⟨o, s1, h3, h4⟩ := bind_inv h
    have hf : fill s = .ok () s := by unfold fill; rw [if_neg hc]
    rw [keyword_eq] at h3
    unfold takeIf at h3
    rw [hf] at h3
    simp only [isKeyword] at h3
    split at h3
    · rename_i b hb
      split at hb
      · rename_i hd
        rw [hx] at hd
        obtain ⟨y, rfl, hy⟩ := h2 hd
        injection h3 with h3 h5
        subst h3 h5
        obtain ⟨_, s2, h6, -⟩ := bind_inv h4
        obtain ⟨o, s3, h7, h8⟩ := bind_inv h6
        have hc2 : s.count ≠ 1 := by
          intro hc2
          rw [buf_one hc2] at h1
          cases h1
        have ho : other s = y := by
          unfold buf at h1
          split at h1
          · cases h1
          · cases h1
          · cases h1; rfl
        have hcur : cur (popState s) = other s := by
          unfold cur other popState; cases s.index <;> rfl
        have hf2 : fill (popState s) = .ok () (popState s) := by
          unfold fill
          rw [if_neg]
          simp only [popState]
          omega
        rw [punc_eq] at h7
        unfold takeIf at h7
        rw [hf2] at h7
        simp only [isPunc, hcur, ho, if_neg hy] at h7
        cases h7
        cases h8
      · cases hb
    · cases h3
      cases h4

end Jsparse
