import Verif.Proofs.FwdSem
/-!
# Expressions of the fragment
-/

namespace Jsparse.Forward

open P Spec FNT

/-- Do the first step. -/
macro "fb " t:term : tactic => `(tactic| (refine Fwd.bind $t ?_; try dsimp only))

/-! ## What the token behind an expression is not -/

theorem rank_member {a : Bool} {x : Tok} (h : Low 5 (rank a x)) : leftType x.2 = none := by
  obtain ⟨l, t⟩ := x
  cases t with
  | punct q => cases q <;> first | rfl | (revert h; simp [Low, rank, assignmentOperators, binaryOperators]; done)
  | template f _ _ => cases f <;> first | rfl | (revert h; simp [Low, rank])
  | _ => rfl

theorem rank_member' {a : Bool} {x : Tok} (h : Low 6 (rank a x)) : leftType x.2 = none ∨ leftType x.2 = some .call := by
  obtain ⟨l, t⟩ := x
  cases t with
  | punct q =>
    cases q <;> first | exact .inl rfl | exact .inr rfl | (revert h; simp [Low, rank, assignmentOperators, binaryOperators]; done)
  | template f _ _ => cases f <;> first | exact .inl rfl | (revert h; simp [Low, rank])
  | _ => exact .inl rfl

theorem rank_postfix {a : Bool} {x : Tok} (h : rank a x ≤ 4) (hl : x.1 = false) :
    x.2 ≠ .punct .plusPlus ∧ x.2 ≠ .punct .minusMinus := by
  obtain ⟨l, t⟩ := x
  obtain rfl : l = false := hl
  constructor
  · rintro rfl
    revert h
    simp [rank, assignmentOperators, binaryOperators]
  · rintro rfl
    revert h
    simp [rank, assignmentOperators, binaryOperators]

theorem rank_operator {a : Bool} {x : Tok} (h : Low 3 (rank a x)) : newPrecedence a x.2 = none := by
  obtain ⟨l, t⟩ := x
  cases t with
  | punct q => cases q <;> first | rfl | (revert h; simp [Low, rank, assignmentOperators, binaryOperators]; done)
  | ident n =>
    unfold newPrecedence
    simp only
    by_cases h1 : n = b!"in"
    · subst h1
      cases a
      · rfl
      · revert h
        simp [Low, rank]
    · by_cases h2 : n = b!"instanceof"
      · subst h2
        revert h
        simp [Low, rank]
      · simp [h1, h2]
  | _ => rfl

theorem rank_starStar {a : Bool} {x : Tok} (h : Low 3 (rank a x)) : x.2 ≠ .punct .starStar := by
  intro hx
  have := rank_operator h
  rw [hx] at this
  cases this

theorem rank_question {a : Bool} {x : Tok} (h : Low 2 (rank a x)) : x.2 ≠ .punct .question := by
  obtain ⟨l, t⟩ := x
  rintro rfl
  revert h
  simp [Low, rank, assignmentOperators]

theorem rank_reify {a : Bool} {x : Tok} (h : Low 1 (rank a x)) : reifyType x.2 = none := by
  obtain ⟨l, t⟩ := x
  cases t with
  | punct q => cases q <;> first | rfl | (revert h; simp [Low, rank, assignmentOperators]; done)
  | _ => rfl

theorem rank_comma {a : Bool} {x : Tok} (h : Low 0 (rank a x)) : x.2 ≠ .punct .comma := by
  obtain ⟨l, t⟩ := x
  rintro rfl
  revert h
  simp [Low, rank]

/-! ## First tokens once more -/

/-- No unary operator; with `lx`, `await` as a name is none. -/
def NoOp (lx : Bool) (t : Token) : Prop := unaryType t = .unknown ∨ lx = true ∧ t = .ident b!"await"

theorem NoOp.unknown {lx : Bool} {x : Tok} {u : List Tok} (h : NoOp lx x.2) (hx : lx = true → NotNext b!"await" (x :: u)) :
    NoOp false x.2 := by
  rcases h with h | ⟨rfl, h⟩
  · exact .inl h
  · obtain ⟨l, t⟩ := x
    cases h
    exact (hx rfl l u rfl).elim

/-- The first token of a left-hand side. -/
def LhsHead (lx : Bool) (t : Token) : Prop :=
  Starts false t ∧ NoOp lx t ∧ t ≠ .punct .plusPlus ∧ t ≠ .punct .minusMinus

/-- A left-hand side that is not behind a word that takes `await` as a name. -/
theorem strict_head {lx : Bool} {u : List Tok} (h : HeadIs (LhsHead lx) u) (hu : lx = true → NotNext b!"await" u) :
    HeadIs (LhsHead false) u := by
  obtain ⟨x, w, rfl, h⟩ := h
  exact ⟨x, w, rfl, h.1, h.2.1.unknown hu, h.2.2⟩

theorem plain_unary {lx : Bool} {C : Ctx} {n : Bytes} (h : Named lx C n) : NoOp lx (.ident n) := by
  rcases h with h | ⟨rfl, rfl, -⟩
  · refine .inl ?_
    simp [unaryType, h.ne (k := b!"delete") (by decide), h.ne (k := b!"void") (by decide),
      h.ne (k := b!"typeof") (by decide), h.ne (k := b!"await") (by decide)]
  · exact .inr ⟨rfl, rfl⟩

theorem prim_head {lx : Bool} {C f e g u v} (h : FragX lx C (prim f e g) u v) :
    HeadIs (fun t => LhsHead lx t ∧ t ≠ .ident b!"new") u := by
  cases h
  case name h _ _ =>
    refine headIs_cons.2 ⟨⟨named_starts _ h, plain_unary h, by simp, by simp⟩, ?_⟩
    intro hn
    injection hn with hn
    exact h.ne (k := b!"new") (by decide) hn
  case word h =>
    refine headIs_cons.2 ?_
    have : ∀ k ∈ [b!"this", b!"null", b!"true", b!"false"], k ∈ headWords ∧ unaryType (.ident k) = .unknown ∧
      k ≠ b!"new" := by decide
    obtain ⟨h1, h2, h3⟩ := this _ h
    exact ⟨⟨word_starts _ h1, .inl h2, by simp, by simp⟩, by simpa using h3⟩
  all_goals
    refine headIs_cons.2 ⟨⟨?_, .inl rfl, by simp, by simp⟩, by simp⟩
    first | exact trivial | (show _ ∈ _; decide) | exact word_starts _ (by decide)

theorem lhs_head {lx : Bool} {C c f e g u v} (h : FragX lx C (FNT.lhs c f e g) u v) : HeadIs (LhsHead lx) u := by
  cases h
  case lhs h _ => exact (prim_head h).mono fun _ h => h.1
  all_goals exact headIs_cons.2 ⟨word_starts _ (by decide), .inl rfl, by simp, by simp⟩

theorem update_head {lx : Bool} {C f e g u v} (h : FragX lx C (update f e g) u v) :
    HeadIs (fun t => Starts false t ∧ NoOp lx t) u := by
  cases h
  case plain h => exact (lhs_head h).mono fun _ h => ⟨h.1, h.2.1⟩
  case «postfix» h => exact (lhs_head h).mono fun _ h => ⟨h.1, h.2.1⟩
  case «prefix» hq _ _ =>
    refine headIs_cons.2 ?_
    have : ∀ q ∈ [Punct.plusPlus, .minusMinus], q ∈ [Punct.squareOpen, .curlyOpen, .parenOpen, .plusPlus,
      .minusMinus, .plus, .minus, .tilde, .exclam] ∧ unaryType (.punct q) = .unknown := by decide
    exact ⟨(this _ hq).1, .inl (this _ hq).2⟩
  case prefixUpdate hq _ =>
    refine headIs_cons.2 ?_
    have : ∀ q ∈ [Punct.plusPlus, .minusMinus], q ∈ [Punct.squareOpen, .curlyOpen, .parenOpen, .plusPlus,
      .minusMinus, .plus, .minus, .tilde, .exclam] ∧ unaryType (.punct q) = .unknown := by decide
    exact ⟨(this _ hq).1, .inl (this _ hq).2⟩

/-! ## From left-hand sides to expressions -/

section lifts

variable {fl : Flags} {f e g : Bool} {u v : List Tok}

theorem lift_lhs {lx c : Bool} {e₀ g₀ : Bool} {u₁ : List Tok} (hu : HeadIs (fun t => LhsHead lx t ∧ t ≠ .ident b!"new") u)
    (h : Fwd (fun n => run n .primaryExpression) (E f) fl u (some ()) (T e₀ g₀) u₁)
    (hn : HeadIs (NextOk fl false e₀) u₁)
    (h₁ : LoopFwd (fun n _ => leftHandRound (recOf n) c) () (L g₀) fl u₁ () (L g) v) :
    Fwd (fun n => run n (.leftHandExpression c)) (E f) fl u (some ()) (L g) v := by
  obtain ⟨x, u', rfl, hx, hnew⟩ := hu
  refine Fwd.call ?_
  show Fwd (fun n => parseLeftHandExpression (recOf n) c) _ _ _ _ _ _
  unfold parseLeftHandExpression
  refine Fwd.bind (a := some ()) (u₁ := u₁) (m₁ := T e₀ g₀) ?_ ?_
  · fb Fwd.noKeyword (hx.1.ready fun _ => rfl) hnew
    exact Fwd.orTry_first h
  · dsimp only
    obtain ⟨y, w, rfl, hy⟩ := hn
    refine Fwd.bind (a := ()) ?_ Fwd.pure
    refine LoopFwd.fwd (LoopFwd.enter (fun n => ff_leftHandRound _ _) (hy.ready ?_) h₁)
    rintro rfl
    rfl

theorem Follow.up {k k' : Nat} (hv : Follow fl k e v) (hE : Ended v) (hk : k ≤ 4 ∧ k ≤ k' := by decide) :
    Follow fl k' e v := by
  obtain ⟨x, v', rfl, hx, h | ⟨-, h5, h7⟩⟩ := hv
  · exact ⟨x, v', rfl, hx, .of (Nat.le_trans h hk.2)⟩
  · exact absurd (rank_continues h5 h7) (hE x v' rfl)

theorem ended_pt {l q} (h : ¬ Continues (pt false q) := by decide) : Ended (pt l q :: v) := by
  intro x v' hx
  cases hx
  revert h
  cases q <;> simp [Continues]

theorem lift_update {lx : Bool} (hu : HeadIs (LhsHead lx) u)
    (h : Fwd (fun n => run n (.leftHandExpression true)) (E f) fl u (some ()) (L g) v) (hv : Follow fl 4 e v)
    (hE : Ended v) :
    Fwd (fun n => run n .updateExpression) (E f) fl u (some ()) (L g) v := by
  obtain ⟨x, u', rfl, hx⟩ := hu
  obtain ⟨y, w, rfl, hy, hr⟩ := hv.ended hE
  refine Fwd.call ?_
  show Fwd (fun n => parseUpdateExpression (recOf n)) _ _ _ _ _ _
  unfold parseUpdateExpression
  refine Fwd.bind (a := false) (u₁ := x :: u') (m₁ := E f) ?_ ?_
  · fb Fwd.noPunc (hx.1.ready fun _ => rfl) hx.2.2.1
    fb Fwd.noPunc (hx.1.ready fun _ => rfl) hx.2.2.2
    exact Fwd.pure
  · simp only [Bool.false_eq_true, if_false]
    fb h
    fb Fwd.noLine (hy.ready fun _ => rfl)
    cases hl : y.1 with
    | true =>
      simp only [Bool.not_true, Bool.false_eq_true, if_false]
      exact Fwd.pure
    | false =>
      have := rank_postfix hr hl
      simp only [Bool.not_false, if_true]
      fb Fwd.noPunc (hy.ready fun _ => rfl) this.1
      fb Fwd.noPunc (hy.ready fun _ => rfl) this.2
      exact Fwd.pure

theorem lift_unary (hu : HeadIs (fun t => Starts false t ∧ NoOp false t) u) {m : Mode}
    (h : Fwd (fun n => run n .updateExpression) (E f) fl u (some ()) m v) :
    Fwd (fun n => run n .unaryExpression) (E f) fl u (some ()) m v := by
  obtain ⟨x, u', rfl, hx, hq⟩ := hu
  refine Fwd.call ?_
  show Fwd (fun n => parseUnaryExpression (recOf n)) _ _ _ _ _ _
  unfold parseUnaryExpression
  fb Fwd.token (hx.ready fun _ => rfl)
  rw [hq.resolve_right (by simp)]
  fb h
  exact Fwd.pure

theorem fancy_stop {p : Nat} (hv : Follow fl 3 e v) :
    LoopFwd (fun n => fancyRound (recOf n) fl.allowIn) p (L g) fl v () (L g) v := by
  obtain ⟨y, w, rfl, hy⟩ := hv
  refine LoopFwd.stop ?_
  unfold fancyRound
  fb Fwd.token (hy.ready fun _ => rfl)
  rw [rank_operator hy.2]
  exact Fwd.pure

theorem fancy_enter {p : Nat} {k : Nat} {w : List Tok} (hv : Follow fl k e v)
    {g' : Bool} (h : LoopFwd (fun n => fancyRound (recOf n) fl.allowIn) p (L g) fl v () (L g') w) :
    LoopFwd (fun n => fancyRound (recOf n) fl.allowIn) p (T e g) fl v () (L g') w := by
  obtain ⟨y, w, rfl, hy⟩ := hv
  refine LoopFwd.enter (fun n => ff_fancyRound _ _ _) (hy.ready ?_) h
  rintro rfl
  rfl

theorem lift_exponential (h : Fwd (fun n => run n .unaryExpression) (E f) fl u (some ()) (T e g) v) {k : Nat}
    (hv : Follow fl k e v) (hs : HeadIs (· ≠ .punct .starStar) v) :
    Fwd (fun n => run n .exponentialExpression) (E f) fl u (some ()) (L g) v := by
  obtain ⟨y, w, rfl, hy⟩ := hv
  refine Fwd.call ?_
  show Fwd (fun n => parseExponentialExpression (recOf n)) _ _ _ _ _ _
  unfold parseExponentialExpression
  fb h
  refine Fwd.bind (Fwd.noPunc (hy.ready ?_) (headIs_cons.1 hs)) Fwd.pure
  rintro rfl
  rfl

theorem lift_fancy {g₁ : Bool} {u₁ : List Tok} {p : Nat}
    (h : Fwd (fun n => run n .exponentialExpression) (E f) fl u (some ()) (L g₁) u₁)
    (h₁ : LoopFwd (fun n => fancyRound (recOf n) fl.allowIn) p (L g₁) fl u₁ () (L g) v) :
    Fwd (fun n => run n (.fancy p)) (E f) fl u (some ()) (L g) v := by
  refine Fwd.call ?_
  show Fwd (fun n => parseFancy (recOf n) p) _ _ _ _ _ _
  unfold parseFancy
  fb h
  fb Fwd.getFlags
  fb h₁.fwd
  exact Fwd.pure

theorem lift_logical (h : Fwd (fun n => run n (.fancy 0)) (E f) fl u (some ()) (L g) v) :
    Fwd (fun n => run n .logicalOrExpression) (E f) fl u (some ()) (L g) v :=
  Fwd.call h

theorem lift_cond (h : Fwd (fun n => run n .logicalOrExpression) (E f) fl u (some ()) (L g) v)
    (hv : Follow fl 2 e v) : Fwd (fun n => run n .conditionalExpression) (E f) fl u (some ()) (L g) v := by
  obtain ⟨y, w, rfl, hy⟩ := hv
  refine Fwd.call ?_
  show Fwd (fun n => parseConditionalExpression (recOf n)) _ _ _ _ _ _
  unfold parseConditionalExpression
  fb h
  fb Fwd.noPunc (hy.ready fun _ => rfl) (rank_question hy.2)
  exact Fwd.pure

/-- All steps from a left-hand side to a ConditionalExpression. -/
theorem lift_all (hu : HeadIs (LhsHead false) u)
    (h : Fwd (fun n => run n (.leftHandExpression true)) (E f) fl u (some ()) (L g) v) (hv : Follow fl 2 e v)
    (hE : Ended v) :
    Fwd (fun n => run n .conditionalExpression) (E f) fl u (some ()) (L g) v := by
  have h₁ := lift_update hu h (hv.mono (by omega)) hE
  have h₂ := lift_unary (hu.mono fun _ h => ⟨h.1, h.2.1⟩) h₁
  have h₃ := lift_exponential (e := e) (h₂.post (m₁ := T e g) (by cases e <;> cases g <;> rfl)) hv (by
    obtain ⟨y, w, rfl, hy⟩ := hv
    exact headIs_cons.2 (rank_starStar (hy.mono (k' := 3) (by omega)).2))
  exact lift_cond (lift_logical (lift_fancy h₃ (fancy_stop (hv.mono (by omega))))) hv

/-- `parse_assignment_expression` up to `assignmentRest`. -/
theorem assign_enter {C : Ctx} (ha : Keen C fl) (hu : HeadIs (Starts false) u) (hs : Second fl false u)
    (hn : LoneAsync C u) {m : Mode}
    (h : Fwd (fun n => assignmentRest (recOf n)) (E f) fl u (some ()) m v) :
    Fwd (fun n => run n .assignmentExpression) (E f) fl u (some ()) m v := by
  obtain ⟨x, u', rfl, hx⟩ := hu
  refine Fwd.call ?_
  show Fwd (fun n => parseAssignmentExpression (recOf n)) _ _ _ _ _ _
  unfold parseAssignmentExpression
  have hy : Fwd (fun n => run n .yieldExpression) (E f) fl (x :: u') none (E f) (x :: u') := by
    refine Fwd.call ?_
    show Fwd (fun n => parseYieldExpression (recOf n)) _ _ _ _ _ _
    unfold parseYieldExpression
    fb Fwd.noKeyword (hx.ready fun _ => rfl) hx.word
    exact Fwd.pure
  fb hy
  fb Fwd.getFlags
  cases hw : isWord x.2 with
  | false =>
    fb Fwd.one (hx.ready fun _ => rfl) hw
    simp only [maybeAsyncArrow, Bool.false_eq_true, if_false]
    fb Fwd.pure
    exact h
  | true =>
    obtain ⟨l, t⟩ := x
    obtain ⟨n, rfl⟩ : ∃ n, t = .ident n := by
      cases t <;> first | exact ⟨_, rfl⟩ | cases hw
    obtain ⟨y, w, rfl, hy, -⟩ := hs l n u' rfl
    refine Fwd.bind (Fwd.two (hx.ready fun _ => rfl) hy) ?_
    have h' := h.pre (m₁ := (E f).fill.two) (by cases f <;> rfl)
    cases hm : maybeAsyncArrow fl (some y) with
    | false =>
      simp only [Bool.false_eq_true, if_false]
      fb Fwd.pure
      exact h'
    | true =>
      simp only [if_true]
      have hk : Token.ident n ≠ .ident b!"async" := by
        obtain ⟨l', t'⟩ := y
        cases t' with
        | ident k =>
          intro h
          injection h with h
          subst h
          cases l' with
          | true => cases hm
          | false =>
            have hr : ∀ k ∈ reservedWords ++ [b!"yield"], k ∈ keywords ++ [b!"null", b!"true", b!"false", b!"enum"] := by
              decide +kernel
            have hm : isBindingIdentifier fl k = true := hm
            rcases hn _ _ _ rfl with hk | hk | ⟨rfl, hc⟩
            · rw [keyword_binding (hr k (by simp [hk]))] at hm
              cases hm
            · rw [keyword_binding (hr k (by simp [hk]))] at hm
              cases hm
            · simp [isBindingIdentifier, ha.2, hc] at hm
        | _ => cases l' <;> cases hm
      fb Fwd.noKeyword (x := kw l n) (hx.ready fun _ => rfl) hk
      exact h'

theorem assign_value {C : Ctx} (ha : Keen C fl) (hu : HeadIs (Starts false) u) (hs : Second fl false u)
    (hn : LoneAsync C u)
    (h : Fwd (fun n => run n .conditionalExpression) (E f) fl u (some ()) (T false g) v)
    (hv : Follow fl 1 false v) :
    Fwd (fun n => run n .assignmentExpression) (E f) fl u (some ()) (L g) v := by
  refine assign_enter ha hu hs hn ?_
  obtain ⟨y, w, rfl, hy⟩ := hv
  unfold assignmentRest
  fb h
  fb Fwd.token (hy.ready (by simp))
  rw [rank_reify hy.2]
  exact Fwd.pure

theorem expr_last (hv : Follow fl 0 false v) :
    LoopFwd (fun n _ => expressionRound (recOf n)) () (T false g) fl v () (L g) v := by
  obtain ⟨y, w, rfl, hy⟩ := hv
  refine LoopFwd.stop ?_
  unfold expressionRound
  fb Fwd.noPunc (hy.ready (by simp)) (rank_comma hy.2)
  exact Fwd.pure

theorem lift_expr {g₀ : Bool} {u₁ : List Tok}
    (h : Fwd (fun n => run n .assignmentExpression) (E f) fl u (some ()) (T false g₀) u₁)
    (h₁ : LoopFwd (fun n _ => expressionRound (recOf n)) () (T false false) fl u₁ () (L false) v) :
    Fwd (fun n => run n .expression) (E f) fl u (some ()) (L false) v := by
  refine Fwd.call ?_
  show Fwd (fun n => parseExpression (recOf n)) _ _ _ _ _ _
  unfold parseExpression
  fb h
  fb Fwd.expect
  fb (h₁.pre (by cases g₀ <;> rfl)).fwd
  exact Fwd.pure

end lifts

/-! ## Binary operators -/

section binary

variable {lx : Bool} {C : Ctx} {fl : Flags} {f e g : Bool} {u v : List Tok}

theorem unary_starts (h : FragX lx C (unary f e g) u v) : HeadIs (Starts false) u := heads h rfl
theorem binary_starts (h : FragX lx C (binary f g) u v) : HeadIs (Starts false) u := heads h rfl

/-- A method that is called behind `expect_expression`. -/
theorem enter_X {F : Nat → P (Option Unit)} {b : Bool} (hF : ∀ n, FillFirst (F n)) (hu : HeadIs (Starts b) u) {a : Option Unit}
    {m : Mode} (h : Fwd F (E true) fl u a m v) : Fwd F X fl u a m v := by
  obtain ⟨x, u', rfl, hx⟩ := hu
  exact Fwd.enter hF (hx.ready fun _ => rfl) (h.pre rfl)

theorem sem_operand (h : FragX lx C (unary f e g) u v) (ih : Sem C (unary f e g) u v) : Sem C (binary f g) u v := by
  intro fl ha hv
  have h₁ := ih fl ha ((hv.mono (by omega)).slash e)
  refine ⟨⟨g, v, lift_exponential h₁ (hv.slash e) ?_, fun p => fancy_stop hv⟩,
    e, g, v, h₁, fun p => fancy_enter (hv.slash e) (fancy_stop hv)⟩
  obtain ⟨y, w, rfl, hy⟩ := hv
  exact headIs_cons.2 (rank_starStar hy.2)

/-- The rest behind an operator. -/
theorem operator_loop {g₀ : Bool} {x : Tok} {u' : List Tok} {p' : Nat} {p : Nat}
    (hx : newPrecedence fl.allowIn x.2 = some p') (hc : compat fl.expectTemplate x.2 = true)
    (hu : HeadIs (Starts false) u') (ih : SemOf fl u' v (binary true g)) (hv : Follow fl 3 false v)
    (ht : Mode.expect (Mode.pop (isWord x.2) (L g₀).fill) = X) :
    LoopFwd (fun n => fancyRound (recOf n) fl.allowIn) p (L g₀) fl (x :: u') () (L g) v := by
  obtain ⟨⟨g₁, u₁, h₁, l₁⟩, e₂, g₂, u₂, h₂, l₂⟩ := ih hv
  have hr : Ready (L g₀) fl x.2 := ⟨by simp [Mode.ready], hc⟩
  by_cases hp : p' ≥ p ∧ p' ≠ 11
  · refine LoopFwd.next (st' := p') ?_ (l₂ p')
    unfold fancyRound
    fb Fwd.token hr
    simp only [hx]
    fb Fwd.pop ⟨rfl, rfl⟩
    refine Fwd.bind Fwd.expect ?_
    simp only [hp, ne_eq, not_false_eq_true, and_self, if_true]
    refine Fwd.bind (Fwd.eat (a := ()) ?_) Fwd.pure
    rw [ht]
    exact enter_X ff_unary hu h₂
  · refine LoopFwd.next (st' := p) ?_ (fancy_stop hv)
    unfold fancyRound
    fb Fwd.token hr
    simp only [hx]
    fb Fwd.pop ⟨rfl, rfl⟩
    refine Fwd.bind Fwd.expect ?_
    simp only [hp, if_false]
    refine Fwd.bind (Fwd.eat (a := ()) ?_) Fwd.pure
    rw [ht]
    exact enter_X (ff_fancy _) hu (lift_fancy h₁ (l₁ _))

theorem precedence_some {a : Bool} {q : Punct} (h : q ∈ binaryOperators) :
    ∃ p, newPrecedence a (.punct q) = some p := by
  have : ∀ q ∈ binaryOperators, (newPrecedence false (.punct q)).isSome = true ∧
    newPrecedence true (.punct q) = newPrecedence false (.punct q) := by decide
  obtain ⟨h1, h2⟩ := this q h
  obtain ⟨p, hp⟩ := Option.isSome_iff_exists.1 h1
  cases a
  · exact ⟨p, hp⟩
  · exact ⟨p, h2.trans hp⟩

theorem operator_compat {b : Bool} {q : Punct} (h : q ∈ binaryOperators) : compat b (.punct q) = true := by
  have : ∀ q ∈ binaryOperators, ∀ b, compat b (.punct q) = true := by decide
  exact this q h b

theorem operator_rank {a l : Bool} {q : Punct} (h : q ∈ binaryOperators) : rank a (pt l q) = 4 := by
  have : ∀ q ∈ binaryOperators, ∀ a l, rank a (pt l q) = 4 := by decide
  exact this q h a l

theorem sem_operator {g₀ l q u'} (hq : q ∈ binaryOperators) (he : q = .slash → e = true)
    (hu' : HeadIs (Starts false) u') (ih₁ : Sem C (unary f e g₀) u (pt l q :: u'))
    (ih₂ : Sem C (binary true g) u' v) : Sem C (binary f g) u v := by
  intro fl ha hv
  have hf : Follow fl 4 e (pt l q :: u') :=
    follow_cons.2 ⟨operator_nextOk hq he, by rw [operator_rank hq]; exact .of (Nat.le_refl _)⟩
  have h₁ := ih₁ fl ha hf
  obtain ⟨p', hp'⟩ := precedence_some (a := fl.allowIn) hq
  have hl : ∀ p g₀, LoopFwd (fun n => fancyRound (recOf n) fl.allowIn) p (L g₀) fl (pt l q :: u') () (L g) v :=
    fun p g₀ => operator_loop hp' (operator_compat hq) hu' (ih₂ fl ha) hv (by cases g₀ <;> rfl)
  refine ⟨?_, e, g₀, _, h₁, fun p => fancy_enter hf (hl p g₀)⟩
  by_cases hs : q = .starStar
  · subst hs
    obtain ⟨g₁, u₁, h₂, l₂⟩ := (ih₂ fl ha hv).1
    refine ⟨g₁, u₁, ?_, l₂⟩
    refine Fwd.call ?_
    show Fwd (fun n => parseExponentialExpression (recOf n)) _ _ _ _ _ _
    unfold parseExponentialExpression
    fb h₁
    fb Fwd.punc ⟨rfl, rfl⟩
    fb Fwd.expect
    refine Fwd.must ?_
    exact enter_X ff_exponential hu' h₂
  · exact ⟨g₀, _, lift_exponential h₁ hf (headIs_cons.2 (by simpa using hs)), fun p => hl p g₀⟩

theorem sem_wordOp {g₀ l k u'} {x : Nat} (hk : ∀ fl, Agree C fl → newPrecedence fl.allowIn (.ident k) = some x)
    (hr : ∀ a, rank a (kw l k) ≤ 4)
    (hu' : HeadIs (Starts false) u') (ih₁ : Sem C (unary f e g₀) u (kw l k :: u'))
    (ih₂ : Sem C (binary true g) u' v) : Sem C (binary f g) u v := by
  intro fl ha hv
  have hf : Follow fl 4 e (kw l k :: u') := follow_cons.2 ⟨word_nextOk, .of (hr _)⟩
  have h₁ := ih₁ fl ha hf
  have hl : ∀ p g₀, LoopFwd (fun n => fancyRound (recOf n) fl.allowIn) p (L g₀) fl (kw l k :: u') () (L g) v :=
    fun p g₀ => operator_loop (hk fl ha) rfl hu' (ih₂ fl ha) hv (by cases g₀ <;> rfl)
  exact ⟨⟨g₀, _, lift_exponential h₁ hf (headIs_cons.2 (by simp)), fun p => hl p g₀⟩,
    e, g₀, _, h₁, fun p => fancy_enter hf (hl p g₀)⟩

theorem sem_instanceof {g₀ l u'} (hu' : HeadIs (Starts false) u')
    (ih₁ : Sem C (unary f e g₀) u (kw l b!"instanceof" :: u')) (ih₂ : Sem C (binary true g) u' v) :
    Sem C (binary f g) u v := sem_wordOp (x := 7) (fun _ _ => rfl) (fun _ => by simp [rank]) hu' ih₁ ih₂

theorem sem_isIn {g₀ l u'} (hC : C.in_ = true) (hu' : HeadIs (Starts false) u')
    (ih₁ : Sem C (unary f e g₀) u (kw l b!"in" :: u')) (ih₂ : Sem C (binary true g) u' v) :
    Sem C (binary f g) u v :=
  sem_wordOp (x := 7) (fun fl ha => by rw [ha.in_, hC]; rfl) (fun a => by cases a <;> simp [rank]) hu' ih₁ ih₂

end binary

/-! ## Unary operators -/

section unary

variable {lx : Bool} {C : Ctx} {fl : Flags} {f e g : Bool} {u v : List Tok}

theorem sem_plain (hE : Ended v) (h : FragX lx C (FNT.lhs true f e g) u v) (ih : Sem C (FNT.lhs true f e g) u v) :
    Sem C (update f e g) u v := by
  intro fl ha hv
  refine (lift_update (lhs_head h) (ih fl ha ?_) hv hE).post (by cases e <;> cases g <;> rfl)
  exact hv.up hE

theorem sem_postfix {q} (hq : q ∈ [Punct.plusPlus, .minusMinus]) (h : FragX lx C (FNT.lhs true f e g) u (pt false q :: v))
    (ih : Sem C (FNT.lhs true f e g) u (pt false q :: v)) : Sem C (update f g true) u v := by
  intro fl ha hv
  have hf : Follow fl 5 e (pt false q :: v) := by
    simp only [List.mem_cons, List.not_mem_nil, or_false] at hq
    rcases hq with rfl | rfl <;> exact follow_punct (hk := by cases fl.allowIn <;> decide)
  have h₁ := ih fl ha hf
  obtain ⟨x, u', rfl, hx⟩ := lhs_head h
  refine Fwd.call ?_
  show Fwd (fun n => parseUpdateExpression (recOf n)) _ _ _ _ _ _
  unfold parseUpdateExpression
  refine Fwd.bind (a := false) (u₁ := x :: u') (m₁ := E f) ?_ ?_
  · fb Fwd.noPunc (hx.1.ready fun _ => rfl) hx.2.2.1
    fb Fwd.noPunc (hx.1.ready fun _ => rfl) hx.2.2.2
    exact Fwd.pure
  · simp only [Bool.false_eq_true, if_false]
    fb h₁
    simp only [List.mem_cons, List.not_mem_nil, or_false] at hq
    rcases hq with rfl | rfl
    · fb Fwd.noLine ⟨rfl, rfl⟩
      simp only [Bool.not_false, if_true]
      fb Fwd.punc ⟨rfl, rfl⟩
      exact Fwd.pure.post (by cases g <;> rfl)
    · fb Fwd.noLine ⟨rfl, rfl⟩
      simp only [Bool.not_false, if_true]
      fb Fwd.noPunc ⟨rfl, rfl⟩ (by simp)
      fb Fwd.punc ⟨rfl, rfl⟩
      exact Fwd.pure.post (by cases g <;> rfl)

theorem sem_prefixUpdate {l q} (hq : q ∈ [Punct.plusPlus, .minusMinus]) (h : FragX lx C (update true e g) u v)
    (ih : Sem C (update true e g) u v) : Sem C (update f e g) (pt l q :: u) v := by
  intro fl ha hv
  have h₁ := ih fl ha hv
  refine Fwd.call ?_
  show Fwd (fun n => parseUpdateExpression (recOf n)) _ _ _ _ _ _
  unfold parseUpdateExpression
  refine Fwd.bind (a := true) (u₁ := u) (m₁ := { z0 := true, z1 := !f }) ?_ ?_
  · simp only [List.mem_cons, List.not_mem_nil, or_false] at hq
    rcases hq with rfl | rfl
    · fb Fwd.punc ⟨rfl, rfl⟩
      exact Fwd.pure
    · fb Fwd.noPunc ⟨rfl, rfl⟩ (by simp)
      fb Fwd.punc ⟨rfl, rfl⟩
      exact Fwd.pure
  · simp only [if_true]
    fb Fwd.expect
    exact Fwd.must (enter_X ff_update ((update_head h).mono fun _ h => h.1) h₁)

theorem sem_prefix {l q} (hE : Ended v) (hq : q ∈ [Punct.plusPlus, .minusMinus]) (h : FragX lx C (FNT.lhs true true e g) u v)
    (ih : Sem C (FNT.lhs true true e g) u v) : Sem C (update f e g) (pt l q :: u) v :=
  sem_prefixUpdate hq (.plain hE h) (sem_plain hE h ih)

theorem sem_updated (hA : lx = true → NotNext b!"await" u) (h : FragX lx C (update f e g) u v) (ih : Sem C (update f e g) u v) :
    Sem C (unary f e g) u v := by
  intro fl ha hv
  refine lift_unary ?_ (ih fl ha hv)
  obtain ⟨x, w, rfl, hx⟩ := update_head h
  exact ⟨x, w, rfl, hx.1, hx.2.unknown hA⟩

theorem sem_unaryOp {l q} (hq : q ∈ [Punct.plus, .minus, .tilde, .exclam]) (h : FragX lx C (unary true e g) u v)
    (ih : Sem C (unary true e g) u v) : Sem C (unary f e g) (pt l q :: u) v := by
  intro fl ha hv
  have h₁ := Fwd.must (enter_X ff_unary (unary_starts h) (ih fl ha hv))
  refine Fwd.call ?_
  show Fwd (fun n => parseUnaryExpression (recOf n)) _ _ _ _ _ _
  unfold parseUnaryExpression
  simp only [List.mem_cons, List.not_mem_nil, or_false] at hq
  rcases hq with rfl | rfl | rfl | rfl
  · fb Fwd.token ⟨rfl, rfl⟩
    refine Fwd.must (Fwd.call ?_)
    show Fwd (fun n => parsePlusExpression (recOf n)) _ _ _ _ _ _
    unfold parsePlusExpression
    fb Fwd.punc ⟨rfl, rfl⟩
    fb Fwd.expect
    exact h₁
  · fb Fwd.token ⟨rfl, rfl⟩
    refine Fwd.must (Fwd.call ?_)
    show Fwd (fun n => parseMinusExpression (recOf n)) _ _ _ _ _ _
    unfold parseMinusExpression
    fb Fwd.punc ⟨rfl, rfl⟩
    fb Fwd.expect
    exact h₁
  · fb Fwd.token ⟨rfl, rfl⟩
    refine Fwd.must (Fwd.call ?_)
    show Fwd (fun n => parseTildeExpression (recOf n)) _ _ _ _ _ _
    unfold parseTildeExpression
    fb Fwd.punc ⟨rfl, rfl⟩
    fb Fwd.expect
    exact h₁
  · fb Fwd.token ⟨rfl, rfl⟩
    refine Fwd.must (Fwd.call ?_)
    show Fwd (fun n => parseExclamExpression (recOf n)) _ _ _ _ _ _
    unfold parseExclamExpression
    fb Fwd.punc ⟨rfl, rfl⟩
    fb Fwd.expect
    exact h₁

/-- A method that is called behind a word and `expect_expression`. -/
theorem enter_word {F : Nat → P (Option Unit)} {b : Bool} (hF : ∀ n, FillFirst (F n)) (hu : HeadIs (Starts b) u) {a : Option Unit}
    {m : Mode} (h : Fwd F (E false) fl u a m v) : Fwd F S.expect fl u a m v := by
  obtain ⟨x, u', rfl, hx⟩ := hu
  exact Fwd.enter hF (hx.ready fun _ => rfl) (h.pre rfl)

theorem sem_unaryWord {l k} (hk : k ∈ [b!"delete", b!"void", b!"typeof"]) (h : FragX lx C (unary false e g) u v)
    (ih : Sem C (unary false e g) u v) : Sem C (unary f e g) (kw l k :: u) v := by
  intro fl ha hv
  have h₁ := Fwd.must (enter_word ff_unary (unary_starts h) (ih fl ha hv))
  refine Fwd.call ?_
  show Fwd (fun n => parseUnaryExpression (recOf n)) _ _ _ _ _ _
  unfold parseUnaryExpression
  simp only [List.mem_cons, List.not_mem_nil, or_false] at hk
  rcases hk with rfl | rfl | rfl
  · fb Fwd.token ⟨rfl, rfl⟩
    refine Fwd.must (Fwd.call ?_)
    show Fwd (fun n => parseDeleteExpression (recOf n)) _ _ _ _ _ _
    unfold parseDeleteExpression
    fb Fwd.keyword ⟨rfl, rfl⟩
    fb Fwd.expect
    exact h₁.pre (by cases f <;> rfl)
  · fb Fwd.token ⟨rfl, rfl⟩
    refine Fwd.must (Fwd.call ?_)
    show Fwd (fun n => parseVoidExpression (recOf n)) _ _ _ _ _ _
    unfold parseVoidExpression
    fb Fwd.keyword ⟨rfl, rfl⟩
    fb Fwd.expect
    exact h₁.pre (by cases f <;> rfl)
  · fb Fwd.token ⟨rfl, rfl⟩
    refine Fwd.must (Fwd.call ?_)
    show Fwd (fun n => parseTypeofExpression (recOf n)) _ _ _ _ _ _
    unfold parseTypeofExpression
    fb Fwd.keyword ⟨rfl, rfl⟩
    fb Fwd.expect
    exact h₁.pre (by cases f <;> rfl)

theorem sem_await {l} (hC : C.await = true) (h : FragX lx C (unary false e g) u v)
    (ih : Sem C (unary false e g) u v) : Sem C (unary f e g) (kw l b!"await" :: u) v := by
  intro fl ha hv
  have h₁ := Fwd.must (enter_word ff_unary (unary_starts h) (ih fl ha hv))
  refine Fwd.call ?_
  show Fwd (fun n => parseUnaryExpression (recOf n)) _ _ _ _ _ _
  unfold parseUnaryExpression
  fb Fwd.token ⟨rfl, rfl⟩
  refine Fwd.must (Fwd.call ?_)
  show Fwd (fun n => parseAwaitExpression (recOf n)) _ _ _ _ _ _
  unfold parseAwaitExpression
  fb Fwd.getFlags
  rw [ha.await, hC]
  simp only [if_true]
  fb Fwd.keyword ⟨rfl, rfl⟩
  fb Fwd.expect
  exact h₁.pre (by cases f <;> rfl)

end unary

end Jsparse.Forward
