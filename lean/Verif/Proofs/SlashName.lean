import Verif.Proofs.Replay
import Verif.Proofs.GapScan
/-!
# The token after a name at the start of a statement
-/

namespace Jsparse

open P Spec

/-- Nothing that was read is lost. -/
theorem onward_congr (N : Nat) : Congr N N (fun {_} m m' => Replays (V := Unit) (fun _ => ()) (fun _ => ()) []
    (fun _ _ _ => True) m m') :=
  replays_congr (fun _ _ _ _ _ _ h => absurd (List.prefix_nil.1 h) (by simp)) N

theorem run_onward_replays (n : Nat) (f : Fn) : Replays (V := Unit) (fun _ => ()) (fun _ => ()) []
    (fun _ _ _ => True) (run n f) (run n f) :=
  run_replays (fun _ _ _ _ _ _ h => absurd (List.prefix_nil.1 h) (by simp)) n f

theorem run_onward (n : Nat) (f : Fn) : Onward (run n f) := (run_onward_replays n f).1

/-- The state after `expect_expression`. -/
def expecting (s : PState) : PState := { s with hint := { s.hint with expression := true } }

theorem expect_apply (s : PState) : expectExpression s = .ok () (expecting s) := rfl

theorem expecting_idem (s : PState) : expecting (expecting s) = expecting s := rfl

theorem fill_full {s : PState} (h : s.count ≠ 0) : fill s = .ok () s := by
  unfold fill
  rw [if_neg h]

theorem token_full {s : PState} (h : s.count ≠ 0) : token s = .ok (cur s).token s := by
  unfold token
  rw [bind_apply, tokenAndLine_apply, fill_full h]
  rfl

theorem token_fill {s s1 : PState} (h : fill s = .ok () s1) : token s = .ok (cur s1).token s1 := by
  unfold token
  rw [bind_apply, tokenAndLine_apply, h]
  rfl

theorem cur_expecting (s : PState) : cur (expecting s) = cur s := rfl

theorem reads_expecting (s : PState) : reads (expecting s) = reads s := rfl

theorem binding_not_keyword {fl : Flags} {name : Bytes} (h : isBindingIdentifier fl name = true) :
    ∀ k ∈ keywords, name ≠ k := by
  rintro k hk rfl
  simp [isBindingIdentifier, hk] at h

/-- A name that can be used as a variable starts no statement of its own kind. -/
theorem statementType_binding {fl : Flags} {name : Bytes} (h : isBindingIdentifier fl name = true) :
    statementType (.ident name) = .unknown := by
  have hk := binding_not_keyword h
  simp only [statementType]
  repeat rw [if_neg (hk _ (by decide))]

theorem declType_binding {fl : Flags} {name : Bytes} (h : isBindingIdentifier fl name = true)
    (hl : name ≠ b!"let") : declType (.ident name) = none := by
  have hk := binding_not_keyword h
  simp only [declType]
  rw [if_neg (hk _ (by decide)), if_neg (hk _ (by decide)), if_neg hl, if_neg (hk _ (by decide))]

/-- The second token is read with the expression hint off. -/
def SecondRead (s1 s' : PState) : Prop :=
  ∃ look t, readToken s1.tok { s1.hint with expression := false } = .ok look t ∧
    reads s1 ++ [look] <+: reads s'

theorem lookSecond_name {s s2 : PState} {o : Option (Bool × Token)} {name : Bytes} (hc : s.count = 1)
    (ht : (cur s).token = .ident name) (hb : isBindingIdentifier s.flags name = true)
    (h : lookSecond s = .ok o s2) :
    ∃ look t, readToken s.tok { s.hint with expression := false } = .ok look t ∧
      reads s2 = reads s ++ [look] ∧ s2.count = 2 := by
  unfold lookSecond at h
  rw [if_pos (by omega), ht] at h
  simp only [hb, Bool.not_true] at h
  cases hr : readToken s.tok { s.hint with expression := false } with
  | ok look t =>
    rw [hr] at h
    injection h with _ h
    subst h
    refine ⟨look, t, rfl, ?_, by simp [hc]⟩
    have e1 : buf s = [cur s] := buf_one hc
    unfold reads
    rw [e1]
    cases hi : s.index <;> simp [buf, hc, cur, other, hi]
  | panic p => rw [hr] at h; cases h
  | timeout => rw [hr] at h; cases h

theorem unknown_second {n : Nat} {s s' : PState} {a : Option Unit} {name : Bytes} (hc : s.count = 1)
    (ht : (cur s).token = .ident name) (hb : isBindingIdentifier s.flags name = true)
    (h : orTry (run n .labelledStatement) (run n .expressionStatement) s = .ok a s') : SecondRead s s' := by
  have hc0 : s.count ≠ 0 := by omega
  cases n with
  | zero => cases h
  | succ n =>
    have hK : ∀ o, Replays (V := Unit) (fun _ => ()) (fun _ => ()) [] (fun _ _ _ => True)
        (orTry (if isLabel o = true then do
            let _ ← eat identifier
            let _ ← eat (punc .colon)
            must (run n .statement)
          else absent) (run (n + 1) .expressionStatement))
        (orTry (if isLabel o = true then do
            let _ ← eat identifier
            let _ ← eat (punc .colon)
            must (run n .statement)
          else absent) (run (n + 1) .expressionStatement)) := by
      intro o
      have hJ := (onward_congr n).base
      refine orTry_cg hJ ?_ (run_onward_replays _ _)
      split
      · have := run_onward_replays n .statement
        cg
      · cg
    simp only [orTry, bind_apply, run, body, parseLabelledStatement, identLookahead_apply,
      fill_full hc0] at h
    cases h2 : lookSecond s with
    | ok o s2 =>
      rw [h2] at h
      obtain ⟨look, t, h3, h4, h5⟩ := lookSecond_name hc ht hb h2
      refine ⟨look, t, h3, ?_⟩
      rw [← h4]
      exact ((hK o).1 s2 a s' (by omega) h).2
    | _ => rw [h2] at h; cases h

theorem fill_inv_cases {s s1 : PState} (h : fill s = .ok () s1) :
    s1.flags = s.flags ∧ (s.count ≤ 1 → s1.count = 1) ∧ reads s1 = reads s ++ (if s.count = 0 then [cur s1] else []) := by
  unfold fill at h
  split at h
  · rename_i h0
    cases hr : readToken s.tok s.hint with
    | ok look t =>
      rw [hr] at h
      injection h with _ h
      subst h
      refine ⟨rfl, fun _ => by simp [h0], ?_⟩
      simp [reads, buf, h0, cur]
    | panic p => rw [hr] at h; cases h
    | timeout => rw [hr] at h; cases h
  · rename_i h0
    injection h with _ h
    subst h
    exact ⟨rfl, fun _ => by omega, by simp [h0]⟩

/-- The methods that start a statement. -/
def starts : List Fn := [.statement, .statementListItem, .scriptItem, .moduleItem]

section

variable {s s1 s' : PState} {a : Option Unit} {name : Bytes} (hc : s.count ≤ 1)
  (h1 : fill (expecting s) = .ok () s1) (ht : (cur s1).token = .ident name)
  (hb : isBindingIdentifier s.flags name = true)

include hc h1 ht hb

theorem statement_start {n : Nat} (h : run n .statement s = .ok a s') : SecondRead s1 s' := by
  obtain ⟨h2, h3, -⟩ := fill_inv_cases h1
  cases n with
  | zero => cases h
  | succ n =>
    refine unknown_second (n := n) (a := a) (h3 hc) ht (by rw [h2]; exact hb) ?_
    simp only [run, body, parseStatement, bind_apply, expect_apply, token_fill h1] at h
    rw [ht, statementType_binding hb] at h
    exact h

omit hc in
theorem declaration_none {n : Nat} (hl : name ≠ b!"let") : run (n + 1) .declaration s = .ok none s1 := by
  simp only [run, body, parseDeclaration, bind_apply, expect_apply, token_fill h1]
  rw [ht, declType_binding hb hl]
  rfl

end

theorem list_start {s s1 s' : PState} {a : Option Unit} {name : Bytes} (hc : s.count ≤ 1)
    (h1 : fill (expecting s) = .ok () s1) (ht : (cur s1).token = .ident name)
    (hb : isBindingIdentifier s.flags name = true) (hl : name ≠ b!"let") {n : Nat}
    (h : orTry (run n .declaration) (run n .statement) s = .ok a s') : SecondRead s1 s' := by
  cases n with
  | zero => cases h
  | succ n =>
    obtain ⟨h2, h3, -⟩ := fill_inv_cases h1
    have h3 := h3 hc
    unfold orTry at h
    rw [bind_apply, declaration_none h1 ht hb hl] at h
    exact statement_start (s := s1) (s1 := expecting s1) (by omega)
      (fill_full (by simp [expecting, h3])) ht (by rw [h2]; exact hb) h

theorem onward_orTry {m k : P (Option Unit)} (hm : Onward m) (hk : Onward k) : Onward (orTry m k) := by
  intro s a s' hc h
  unfold orTry at h
  rw [bind_apply] at h
  cases h1 : m s with
  | ok b s1 =>
    rw [h1] at h
    obtain ⟨h2, h3⟩ := hm s b s1 hc h1
    cases b with
    | some b => injection h with _ h; subst h; exact ⟨h2, h3⟩
    | none =>
      obtain ⟨h4, h5⟩ := hk s1 a s' h2 h
      exact ⟨h4, h3.trans h5⟩
  | _ => rw [h1] at h; cases h

theorem orTry_first {m k : P (Option Unit)} (hk : Onward k) {s s' : PState} {a : Option Unit}
    (h : orTry m k s = .ok a s') (hm : Onward m) (hc : s.count ≤ 2) :
    ∃ b s1, m s = .ok b s1 ∧ reads s1 <+: reads s' := by
  unfold orTry at h
  rw [bind_apply] at h
  cases h1 : m s with
  | ok b s1 =>
    rw [h1] at h
    refine ⟨b, s1, rfl, ?_⟩
    cases b with
    | some b => injection h with _ h; subst h; exact List.prefix_refl _
    | none => exact (hk s1 a s' (hm s none s1 hc h1).1 h).2
  | _ => rw [h1] at h; cases h

/-- All the methods that start a statement. -/
theorem any_start {f : Fn} (hf : f ∈ starts) {s s1 s' : PState} {a : Option Unit} {name : Bytes}
    (hc : s.count ≤ 1) (h1 : fill (expecting s) = .ok () s1) (ht : (cur s1).token = .ident name)
    (hb : isBindingIdentifier s.flags name = true) (hl : name ≠ b!"let") {n : Nat}
    (h : run n f s = .ok a s') : SecondRead s1 s' := by
  simp only [starts, List.mem_cons, List.not_mem_nil, or_false] at hf
  rcases hf with rfl | rfl | rfl | rfl
  · exact statement_start hc h1 ht hb h
  · cases n with
    | zero => cases h
    | succ n => exact list_start hc h1 ht hb hl h
  · cases n with
    | zero => cases h
    | succ n => exact list_start (s := expecting s) hc h1 ht hb hl h
  · cases n with
    | zero => cases h
    | succ n =>
      have h' : orTry (run n .scriptItem) (orTry (run n .importDeclaration) (run n .exportDeclaration))
        (expecting s) = .ok a s' := h
      obtain ⟨b, s2, h2, h3⟩ := orTry_first (onward_orTry (run_onward _ _) (run_onward _ _)) h'
        (run_onward _ _) (Nat.le_succ_of_le hc)
      cases n with
      | zero => cases h2
      | succ n =>
        obtain ⟨look, t, h4, h5⟩ := list_start (s := expecting (expecting s)) hc h1 ht hb hl h2
        exact ⟨look, t, h4, h5.trans h3⟩

/-- Without the expression hint, a slash that opens no comment is an operator. -/
theorem scan_slash {c : Bool} {h : Hint} (hx : h.expression = false) {r : Bytes} (hc : NoComment r)
    {f : Bool} {z w r'} (hs : Scan c h (c!"/" :: r) f z w r') :
    z = (f, .punct .slashEq) ∨ z = (f, .punct .slash) := by
  have key : ∀ {tok : Token} {v q bl t : Bytes} {n : Nat}, One c h (c!"/" :: r) tok v q bl t n →
      tok = .punct .slashEq ∨ tok = .punct .slash := by
    intro tok v q bl t n ho
    obtain ⟨rfl, ht⟩ := blanks_unique (bl := []) (s := c!"/" :: r) ho.text (by simp [Blanks]) ho.blanks
      (noBlankHead_cons (by decide)) ho.noBlank
    have hr : readNext c (c!"/" :: r) h = .ok (tok, n) := by rw [ht]; exact ho.read
    change tokSlash (c!"/" :: r) h = .ok (tok, n) at hr
    by_cases he : b!"=" <+: r
    · obtain ⟨r', rfl⟩ := he
      have := (tokSlash_slashEq (rest := r') hx).symm.trans hr
      simp only [Except.ok.injEq, Prod.mk.injEq] at this
      exact .inl this.1.symm
    · have := (tokSlash_slash hx hc he).symm.trans hr
      simp only [Except.ok.injEq, Prod.mk.injEq] at this
      exact .inr this.1.symm
  cases hs with
  | skip ho hi _ => rcases key ho with rfl | rfl <;> exact hi.elim
  | tok ho _ => rcases key ho with rfl | rfl <;> simp

theorem secondRead_slash {s1 s' : PState} (h : SecondRead s1 s') (hv : Valid s1.tok) {g r : Bytes}
    {fl : Bool} (hu : unread s1.tok = g ++ c!"/" :: r) (hg : Gap g fl) (hc : NoComment r) :
    ∃ look, reads s1 ++ [look] <+: reads s' ∧ look.line = fl ∧
      (look.token = .punct .slash ∨ look.token = .punct .slashEq) := by
  obtain ⟨look, t, h1, h2⟩ := h
  obtain ⟨w, h3, -⟩ := scan_of_readToken hv h1
  rw [hu] at h3
  rw [scan_gap hg (hu ▸ hv.unread_utf8)] at h3
  refine ⟨look, h2, ?_⟩
  rcases scan_slash (by rfl) hc h3 with h4 | h4 <;>
    simp only [Look.seen, Prod.mk.injEq, Bool.false_or] at h4
  · exact ⟨h4.1, .inr h4.2⟩
  · exact ⟨h4.1, .inl h4.2⟩

theorem whileSome_step {n : Nat} {m : P (Option Unit)} {s : PState} :
    whileSome (n + 1) m s = match m s with
      | .ok (some _) s' => whileSome n m s'
      | .ok none s' => .ok () s'
      | .err e s => .err e s
      | .panic p => .panic p
      | .timeout => .timeout := by
  unfold whileSome
  rw [loop, bind_apply, bind_apply]
  cases m s with
  | ok a s' => cases a <;> rfl
  | _ => rfl

theorem replays_end : Replays (V := Unit) (fun _ => ()) (fun _ => ()) [] (fun _ _ _ => True)
    (do let _ ← eat eof; return ()) (do let _ ← eat eof; return ()) := by
  refine replays_bind (eat_cg (onward_congr 0).base ?_) fun _ => replays_pure _
  rw [eof_eq]
  exact replays_take (fun _ _ _ _ _ _ h => absurd (List.prefix_nil.1 h) (by simp)) _

/-- The first thing `parse_module` does. -/
theorem module_first {n : Nat} {s s' : PState} (hc : s.count ≤ 2)
    (h : parseModule (recOf n) s = .ok () s') :
    ∃ a s1, run n .moduleItem s = .ok a s1 ∧ reads s1 <+: reads s' := by
  cases n with
  | zero => cases h
  | succ n =>
    unfold parseModule at h
    rw [bind_apply] at h
    have e1 : (recOf (n + 1)).fuel = n + 1 := rfl
    have e2 : (recOf (n + 1)).call = run (n + 1) := rfl
    rw [e1, e2, whileSome_step] at h
    cases h1 : run (n + 1) .moduleItem s with
    | ok a s1 =>
      refine ⟨a, s1, rfl, ?_⟩
      rw [h1] at h
      have hs1 := (run_onward (n + 1) .moduleItem s a s1 hc h1).1
      have he : Onward (do let _ ← eat eof; return ()) := replays_end.1
      have hw : Onward (do
          whileSome n (run (n + 1) .moduleItem)
          let _ ← eat eof
          return ()) :=
        (replays_bind (whileSome_cg (onward_congr n).base (run_onward_replays (n + 1) .moduleItem)) fun _ =>
          replays_end).1
      cases a with
      | none => exact (he s1 () s' hs1 h).2
      | some a => exact (hw s1 () s' hs1 h).2
    | _ => rw [h1] at h; cases h

theorem declaration_fill {n : Nat} {s s' : PState} (hc : s.count ≤ 1) {a : Option Unit}
    (h : run n .declaration s = .ok a s') :
    ∃ s1, fill (expecting s) = .ok () s1 ∧ reads s1 <+: reads s' := by
  cases n with
  | zero => cases h
  | succ n =>
    let k : Token → P (Option Unit) := fun t => match declType t with
      | some .class => must (run n .classDeclaration)
      | some .function => must (run n .functionDeclaration)
      | some .let => must (run n .letDeclaration)
      | some .const => must (run n .constDeclaration)
      | none => absent
    have hk : ∀ t, Onward (k t) := by
      intro t
      have hJ := (onward_congr n).base
      have : Replays (V := Unit) (fun _ => ()) (fun _ => ()) [] (fun _ _ _ => True) (k t) (k t) := by
        simp only [k]
        split
        · exact must_cg hJ (run_onward_replays n _)
        · exact must_cg hJ (run_onward_replays n _)
        · exact must_cg hJ (run_onward_replays n _)
        · exact must_cg hJ (run_onward_replays n _)
        · exact replays_pure _
      exact this.1
    have h' : (token >>= k) (expecting s) = .ok a s' := h
    rw [bind_apply] at h'
    cases hf : fill (expecting s) with
    | ok u s1 =>
      refine ⟨s1, rfl, ?_⟩
      rw [token_fill hf] at h'
      exact (hk _ s1 a s' (by have := (fill_inv_cases hf).2.1 hc; omega) h').2
    | _ =>
      simp only [token, bind_apply, tokenAndLine_apply, hf] at h'
      cases h'

theorem moduleItem_fill {n : Nat} {s s' : PState} (hc : s.count ≤ 1) {a : Option Unit}
    (h : run n .moduleItem s = .ok a s') :
    ∃ s1, fill (expecting s) = .ok () s1 ∧ reads s1 <+: reads s' := by
  match n with
  | 0 | 1 => cases h
  | n + 2 =>
    have h' : orTry (run (n + 1) .scriptItem) (orTry (run (n + 1) .importDeclaration)
      (run (n + 1) .exportDeclaration)) (expecting s) = .ok a s' := h
    obtain ⟨b, s2, h2, h3⟩ := orTry_first (onward_orTry (run_onward _ _) (run_onward _ _)) h'
      (run_onward _ _) (Nat.le_succ_of_le hc)
    have h4 : orTry (run n .declaration) (run n .statement) (expecting s) = .ok b s2 := h2
    obtain ⟨c, s3, h5, h6⟩ := orTry_first (run_onward _ _) h4 (run_onward _ _) (Nat.le_succ_of_le hc)
    obtain ⟨s1, h7, h8⟩ := declaration_fill (s := expecting s) hc h5
    exact ⟨s1, h7, h8.trans (h6.trans h3)⟩

end Jsparse
