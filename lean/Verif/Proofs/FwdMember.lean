import Verif.Proofs.FwdTerm
/-!
# Members, calls, assignments, arrow functions
-/

namespace Jsparse.Forward

open P Spec FNT

/-! ## Members and calls -/

section tails

variable {lx : Bool} {C : Ctx} {fl : Flags} {c f e g e₀ g₀ : Bool} {u v : List Tok}

theorem tail_stop (hv : Follow fl (lhsBound c) e v) :
    LoopFwd (fun n _ => leftHandRound (recOf n) c) () (L g) fl v () (L g) v := by
  obtain ⟨y, w, rfl, hy⟩ := hv
  refine LoopFwd.stop ?_
  unfold leftHandRound
  fb Fwd.token (hy.ready fun _ => rfl)
  cases c with
  | true =>
    rw [rank_member hy.2]
    exact Fwd.pure
  | false =>
    rcases rank_member' hy.2 with h | h
    · rw [h]
      exact Fwd.pure
    · rw [h]
      exact Fwd.pure

theorem sem_tailNil : Sem C (tail c e g e g) v v := fun _ _ hv => tail_stop hv

/-- The next round. -/
theorem tail_enter {m : Mode} (hu : HeadIs (NextOk fl false e₀) u) (hm : e₀ = true → m.z1 = false)
    (hL : m.fill.le (L g₀) = true) {w : List Tok}
    (h : LoopFwd (fun n _ => leftHandRound (recOf n) c) () (L g₀) fl u () (L g) w) :
    LoopFwd (fun n _ => leftHandRound (recOf n) c) () m fl u () (L g) w := by
  obtain ⟨y, w', rfl, hy⟩ := hu
  exact LoopFwd.enter (fun n => ff_leftHandRound _ _) (hy.ready hm) (h.pre hL)

theorem tail_next (h : FragX lx C (tail c e₀ g₀ e g) u v) (ha : Agree C fl) (hv : Follow fl (lhsBound c) e v) :
    HeadIs (NextOk fl false e₀) u := seconds h fl false ha.keen hv.next

theorem tail_follow (h : FragX lx C (tail c e₀ g₀ e g) u v) (ha : Agree C fl) (hv : Follow fl (lhsBound c) e v) :
    Follow fl 7 e₀ u := by
  obtain ⟨y, w, rfl, hy⟩ := tail_next h ha hv
  refine follow_cons.2 ⟨hy, ?_⟩
  cases h
  case tailNil =>
    exact (follow_cons.1 hv).2.mono (by cases c <;> decide) (.inr (by cases c <;> decide))
  case tailDot => exact .of (rank_punct (by decide))
  case tailIndex => exact .of (rank_punct (by decide))
  case tailCall => exact .of (rank_punct (by decide))
  case tailTemplate => exact .of (by simp [rank])
  case tailSubst => exact .of (by simp [rank])

theorem sem_tailDot {l l' n} (h : FragX lx C (tail c true true e g) u v) (ih : Sem C (tail c true true e g) u v) :
    Sem C (tail c e₀ g₀ e g) (pt l .period :: kw l' n :: u) v := by
  intro fl ha hv
  refine LoopFwd.next (st' := ()) (m₁ := { z0 := true }) (u₁ := u) ?_
    (tail_enter (tail_next h ha hv) (fun _ => rfl) rfl (ih fl ha hv))
  unfold leftHandRound
  fb Fwd.token (x := pt l .period) ⟨rfl, rfl⟩
  show Fwd (fun n => do
    let _ ← pop
    let _ ← eat (withFlag .fin true identifier)
    return (Sum.inl () : Unit ⊕ Unit)) _ _ _ _ _ _
  fb Fwd.pop ⟨rfl, rfl⟩
  fb Fwd.eat (Fwd.withFlag (Fwd.identifier ⟨rfl, rfl⟩))
  exact Fwd.pure

theorem sem_tailIndex {l l' u'} (hr : NotRegex u) (h : FragX lx { C with in_ := true } (FNT.expr true) u (pt l' .squareClose :: u'))
    (h₁ : FragX lx C (tail c false true e g) u' v)
    (ih : Sem { C with in_ := true } (FNT.expr true) u (pt l' .squareClose :: u')) (ih₁ : Sem C (tail c false true e g) u' v) :
    Sem C (tail c e₀ g₀ e g) (pt l .squareOpen :: u) v := by
  intro fl ha hv
  refine LoopFwd.next (st' := ()) (m₁ := Z) (u₁ := u') ?_
    (tail_enter (tail_next h₁ ha hv) (by simp) rfl (ih₁ fl ha hv))
  unfold leftHandRound
  fb Fwd.token (x := pt l .squareOpen) ⟨rfl, rfl⟩
  show Fwd (fun n => do
    let _ ← pop
    eat (withFlag .fin true ((recOf n).call .expression))
    let _ ← eat (punc .squareClose)
    return (Sum.inl () : Unit ⊕ Unit)) _ _ _ _ _ _
  fb Fwd.pop ⟨rfl, rfl⟩
  fb Fwd.eat (Fwd.withFlag ((enter_Z ff_expression hr (expr_starts h) (ih _ ha.in_true follow_pt)).pre (by cases g₀ <;> rfl)))
  fb Fwd.eat (Fwd.punc ⟨rfl, rfl⟩)
  exact Fwd.pure

theorem sem_tailTemplate {l x y} (h : FragX lx C (tail c g₀ true e g) u v) (ih : Sem C (tail c g₀ true e g) u v) :
    Sem C (tail c e₀ g₀ e g) ((l, .template .noSubstitution x y) :: u) v := by
  intro fl ha hv
  refine LoopFwd.next (st' := ()) (m₁ := { z0 := true, z1 := !g₀ }) (u₁ := u) ?_
    (tail_enter (tail_next h ha hv) (by rintro rfl; rfl) rfl (ih fl ha hv))
  unfold leftHandRound
  fb Fwd.token (x := (l, .template .noSubstitution x y)) ⟨rfl, rfl⟩
  show Fwd (fun n => do
    eat ((recOf n).call .templateLiteralExpression)
    return (Sum.inl () : Unit ⊕ Unit)) _ _ _ _ _ _
  fb Fwd.eat (plain_template (f := g₀).pre (by cases g₀ <;> rfl))
  exact Fwd.pure

theorem sem_tailSubst {l x y u'} (h₁ : FragX lx C (tail c false true e g) u' v)
    (ih : Sem C FNT.template u u') (ih₁ : Sem C (tail c false true e g) u' v) :
    Sem C (tail c e₀ g₀ e g) ((l, .template .head x y) :: u) v := by
  intro fl ha hv
  refine LoopFwd.next (st' := ()) (m₁ := Z) (u₁ := u') ?_
    (tail_enter (tail_next h₁ ha hv) (by simp) rfl (ih₁ fl ha hv))
  unfold leftHandRound
  fb Fwd.token (x := (l, .template .head x y)) ⟨rfl, rfl⟩
  show Fwd (fun n => do
    eat ((recOf n).call .templateLiteralExpression)
    return (Sum.inl () : Unit ⊕ Unit)) _ _ _ _ _ _
  fb Fwd.eat ((subst_template (f := g₀) ha ih).pre (by cases g₀ <;> rfl))
  exact Fwd.pure

theorem sem_tailCall {e₁ l l' u'} (h₁ : FragX lx C (tail true e₁ true e g) u' v)
    (ih : Sem { C with in_ := true } (args true e₁) u (pt l' .parenClose :: u')) (ih₁ : Sem C (tail true e₁ true e g) u' v) :
    Sem C (tail true e₀ g₀ e g) (pt l .parenOpen :: u) v := by
  intro fl ha hv
  refine LoopFwd.next (st' := ()) (m₁ := { z0 := true, z1 := !e₁ }) (u₁ := u') ?_
    (tail_enter (tail_next h₁ ha hv) (by rintro rfl; rfl) rfl (ih₁ fl ha hv))
  unfold leftHandRound
  fb Fwd.token (x := pt l .parenOpen) ⟨rfl, rfl⟩
  show Fwd (fun n => do
    eat ((recOf n).call .callArguments)
    return (Sum.inl () : Unit ⊕ Unit)) _ _ _ _ _ _
  refine Fwd.bind (Fwd.eat (a := ()) (Fwd.call ?_)) Fwd.pure
  show Fwd (fun n => parseCallArguments (recOf n)) _ _ _ _ _ _
  unfold parseCallArguments
  refine Fwd.withFlag ?_
  fb Fwd.punc ⟨rfl, rfl⟩
  fb LoopFwd.fwd ((ih _ ha.in_true (headIs_cons.2 rfl)).pre (by cases g₀ <;> rfl))
  fb Fwd.eat (Fwd.punc ⟨rfl, rfl⟩)
  exact Fwd.pure

theorem sem_lhs {u'} (h : FragX lx C (prim f e₀ g₀) u u') (h₁ : FragX lx C (tail c e₀ g₀ e g) u' v)
    (ih : Sem C (prim f e₀ g₀) u u') (ih₁ : Sem C (tail c e₀ g₀ e g) u' v) : Sem C (FNT.lhs c f e g) u v :=
  fun fl ha hv => lift_lhs (prim_head h) (ih fl ha (tail_follow h₁ ha hv)) (tail_next h₁ ha hv) (ih₁ fl ha hv)

/-- `new` and what follows it. -/
theorem new_lhs {l w} (hr : NotRegex u) {lx : Bool} (hu : HeadIs (LhsHead lx) u)
    (h : Fwd (fun n => run n (.leftHandExpression false)) (E f) fl u (some ()) (L g₀) w)
    (h₁ : LoopFwd (fun n _ => leftHandRound (recOf n) c) () (L g₀) fl w () (L g) v) :
    Fwd (fun n => run n (.leftHandExpression c)) (E f) fl (kw l b!"new" :: u) (some ()) (L g) v := by
  obtain ⟨x, u', rfl, hx⟩ := hu
  refine Fwd.call ?_
  show Fwd (fun n => parseLeftHandExpression (recOf n) c) _ _ _ _ _ _
  unfold parseLeftHandExpression
  refine Fwd.bind (a := some ()) (u₁ := w) (m₁ := L g₀) ?_ ?_
  · fb Fwd.keyword ⟨rfl, rfl⟩
    refine Fwd.must (Fwd.enter (ff_leftHand _) (hx.1.ready fun h => ?_) (h.pre (by cases f <;> rfl)))
    rw [notRegex_tok hr] at h
    cases h
  · dsimp only
    exact Fwd.bind (a := ()) (LoopFwd.fwd h₁) Fwd.pure

theorem sem_new {l} (hr : NotRegex u) (h : FragX lx C (FNT.lhs false f e g) u v) (ih : Sem C (FNT.lhs false f e g) u v) :
    Sem C (FNT.lhs c f e g) (kw l b!"new" :: u) v :=
  fun fl ha hv => new_lhs hr (lhs_head h) (ih fl ha (hv.mono (by cases c <;> decide) (.inr (by cases c <;> decide)))) (tail_stop hv)

theorem sem_newCall {e₁ l l' l'' u' u''} (hr : NotRegex u) (h : FragX lx C (FNT.lhs false f e₀ g₀) u (pt l' .parenOpen :: u'))
    (h₁ : FragX lx C (tail true e₁ true e g) u'' v)
    (ih : Sem C (FNT.lhs false f e₀ g₀) u (pt l' .parenOpen :: u'))
    (ih₁ : Sem { C with in_ := true } (args true e₁) u' (pt l'' .parenClose :: u''))
    (ih₂ : Sem C (tail true e₁ true e g) u'' v) : Sem C (FNT.lhs true f e g) (kw l b!"new" :: u) v :=
  fun fl ha hv => new_lhs hr (lhs_head h) (ih fl ha follow_pt) (sem_tailCall (e₀ := e₀) h₁ ih₁ ih₂ fl ha hv)

theorem sem_super {l} (h : FragX lx C (tail c false f e g) u v) (ih : Sem C (tail c false f e g) u v) :
    Sem C (FNT.lhs c f e g) (kw l b!"super" :: u) v := by
  intro fl ha hv
  refine Fwd.call ?_
  show Fwd (fun n => parseLeftHandExpression (recOf n) c) _ _ _ _ _ _
  unfold parseLeftHandExpression
  refine Fwd.bind (a := some ()) (u₁ := u) (m₁ := T f f) ?_ ?_
  · fb Fwd.noKeyword (x := kw l b!"super") ⟨rfl, rfl⟩ (by simp)
    refine Fwd.orTry_second (u₁ := kw l b!"super" :: u) (m₁ := E f) ?_
      (Fwd.orTry_second (u₁ := kw l b!"super" :: u) (m₁ := E f) ?_ ?_)
    · refine Fwd.call ?_
      show Fwd (fun n => parsePrimaryExpression (recOf n)) _ _ _ _ _ _
      unfold parsePrimaryExpression
      fb Fwd.getFlags
      fb Fwd.token (x := kw l b!"super") ⟨rfl, rfl⟩
      have : primaryType fl (.ident b!"super") = none := by
        simp [primaryType, keyword_binding (fl := fl) (n := b!"super") (by decide)]
      rw [this]
      exact Fwd.pure
    · refine Fwd.call ?_
      show Fwd (fun n => parseMetaPropertyExpression) _ _ _ _ _ _
      unfold parseMetaPropertyExpression
      fb Fwd.noKeyword (x := kw l b!"super") ⟨rfl, rfl⟩ (by simp)
      exact Fwd.pure
    · refine Fwd.call ?_
      show Fwd (fun n => parseSuperExpression) _ _ _ _ _ _
      unfold parseSuperExpression
      fb Fwd.keyword ⟨rfl, rfl⟩
      exact Fwd.pure
  · dsimp only
    refine Fwd.bind (a := ()) (LoopFwd.fwd ?_) Fwd.pure
    exact tail_enter (tail_next h ha hv) (by simp) (by cases f <;> rfl) (ih fl ha hv)

end tails

/-! ## Arguments -/

section args

variable {lx : Bool} {C : Ctx} {fl : Flags} {g : Bool} {u v : List Tok}

theorem item_last {m : Mode} (h : Fwd (fun n => run n .assignmentExpression) m fl u (some ()) (T false g) v)
    (hv : HeadIs (· = .punct .parenClose) v) : Fwd (fun n => callArgumentItem (recOf n)) m fl u (.inr ()) (L g) v := by
  obtain ⟨⟨l, t⟩, w, rfl, hx⟩ := hv
  obtain rfl : t = _ := hx
  unfold callArgumentItem
  fb h
  fb Fwd.noPunc (x := pt l .parenClose) ⟨rfl, rfl⟩ (by simp)
  exact Fwd.pure

theorem item_next {m : Mode} {l} (h : Fwd (fun n => run n .assignmentExpression) m fl u (some ()) (T false g) (pt l .comma :: v)) :
    Fwd (fun n => callArgumentItem (recOf n)) m fl u (.inl ()) Z v := by
  unfold callArgumentItem
  fb h
  fb Fwd.punc ⟨rfl, rfl⟩
  exact Fwd.pure.post (by cases g <;> rfl)

theorem item_none {m : Mode} (hv : HeadIs (· = .punct .parenClose) v) :
    Fwd (fun n => callArgumentItem (recOf n)) m fl v (.inr ()) m.fill v := by
  obtain ⟨⟨l, t⟩, w, rfl, hx⟩ := hv
  obtain rfl : t = _ := hx
  unfold callArgumentItem
  fb no_assignment (x := pt l .parenClose) (stops_punct (by decide) (by simp)) rfl _
  exact Fwd.pure

/-- A round without an ellipsis. -/
theorem round_item {x : Tok} {a : Unit ⊕ Unit} {m : Mode} (hx : x.2 ≠ .punct .ellipsis) (hr : Ready X fl x.2)
    (h : Fwd (fun n => callArgumentItem (recOf n)) { o0 := true } fl (x :: u) a m v) :
    Fwd (fun n => callArgumentsRound (recOf n)) Z fl (x :: u) a m v := by
  unfold callArgumentsRound
  fb Fwd.expect
  fb Fwd.noPunc hr hx
  exact h

theorem sem_argsNil {s} : Sem C (args s true) v v := by
  intro fl ha hv
  cases s with
  | true =>
    refine LoopFwd.stop ?_
    obtain ⟨⟨l, t⟩, w, rfl, hx⟩ := hv
    obtain rfl : t = _ := hx
    exact round_item (x := pt l .parenClose) (by simp) ⟨rfl, rfl⟩ ((item_none (headIs_cons.2 rfl)).post rfl)
  | false => exact .inl ((item_none hv).post rfl)

theorem sem_argsLast {s} (hr : s = false → NotRegex u) (h : FragX lx C (assign true g) u v) (ih : Sem C (assign true g) u v) :
    Sem C (args s g) u v := by
  intro fl ha hv
  have hf : Follow fl 1 false v := by
    obtain ⟨⟨l, t⟩, w, rfl, hx⟩ := hv
    obtain rfl : t = _ := hx
    exact follow_pt
  have h₁ := ih fl ha hf
  cases s with
  | true =>
    refine LoopFwd.stop ?_
    obtain ⟨x, u', rfl, hx⟩ := assign_starts h
    exact round_item hx.punct (hx.ready fun _ => rfl) ((item_last h₁ hv).pre rfl)
  | false => exact .inl (item_last (enter_Z ff_assignment (hr rfl) (assign_starts h) h₁) hv)

theorem sem_argsCons {s g₁ l u'} (hr : s = false → NotRegex u) (h : FragX lx C (assign true g₁) u (pt l .comma :: u'))
    (ih : Sem C (assign true g₁) u (pt l .comma :: u')) (ih₁ : Sem C (args true g) u' v) : Sem C (args s g) u v := by
  intro fl ha hv
  have h₁ := ih fl ha follow_pt
  cases s with
  | true =>
    refine LoopFwd.next (st' := ()) ?_ (ih₁ fl ha hv)
    obtain ⟨x, w, rfl, hx⟩ := assign_starts h
    exact round_item hx.punct (hx.ready fun _ => rfl) ((item_next h₁).pre rfl)
  | false => exact .inr ⟨u', item_next (enter_Z ff_assignment (hr rfl) (assign_starts h) h₁), ih₁ fl ha hv⟩

theorem sem_argsSpreadLast {l} (h : FragX lx C (assign true g) u v) (ih : Sem C (assign true g) u v) :
    Sem C (args true g) (pt l .ellipsis :: u) v := by
  intro fl ha hv
  obtain ⟨⟨l', t⟩, w, rfl, hx⟩ := hv
  obtain rfl : t = _ := hx
  refine LoopFwd.stop ?_
  unfold callArgumentsRound
  fb Fwd.expect
  fb Fwd.punc ⟨rfl, rfl⟩
  fb Fwd.expect
  fb Fwd.eat (enter_X ff_assignment (assign_starts h) (ih fl ha follow_pt))
  fb Fwd.noPunc (x := pt l' .parenClose) ⟨rfl, rfl⟩ (by simp)
  exact Fwd.pure

theorem sem_argsSpread {g₁ l l' u'} (h : FragX lx C (assign true g₁) u (pt l' .comma :: u'))
    (ih : Sem C (assign true g₁) u (pt l' .comma :: u')) (ih₁ : Sem C (args false g) u' v) :
    Sem C (args true g) (pt l .ellipsis :: u) v := by
  intro fl ha hv
  have key : ∀ a m w, Fwd (fun n => callArgumentItem (recOf n)) Z fl u' a m w →
      Fwd (fun n => callArgumentsRound (recOf n)) Z fl (pt l .ellipsis :: u) a m w := by
    intro a m w hi
    unfold callArgumentsRound
    fb Fwd.expect
    fb Fwd.punc ⟨rfl, rfl⟩
    fb Fwd.expect
    fb Fwd.eat (enter_X ff_assignment (assign_starts h) (ih fl ha follow_pt))
    fb Fwd.punc ⟨rfl, rfl⟩
    exact hi.pre (by cases g₁ <;> rfl)
  rcases ih₁ fl ha hv with h₁ | ⟨u₁, h₁, h₂⟩
  · exact LoopFwd.stop (key _ _ _ h₁)
  · exact LoopFwd.next (st' := ()) (key _ _ _ h₁) h₂

/-! ## Array elements -/

theorem no_item {x : Tok} (hx : x.2 = .punct .squareClose ∨ x.2 = .punct .comma) :
    Fwd (fun n => run n .arrayItem) Z fl (x :: u) (some ()) (L true) (x :: u) := by
  have hs : Stops fl x.2 := by
    rcases hx with h | h <;> rw [h] <;> exact stops_punct (by decide) (by simp)
  refine Fwd.call ?_
  show Fwd (fun n => parseArrayItem (recOf n)) _ _ _ _ _ _
  unfold parseArrayItem
  fb Fwd.noPunc (hs.ready _) (by rcases hx with h | h <;> rw [h] <;> simp)
  fb no_assignment hs (by rcases hx with h | h <;> rw [h] <;> rfl) _
  exact Fwd.pure.post rfl

theorem array_item (hr : NotRegex u) (hu : HeadIs (Starts true) u)
    (h : Fwd (fun n => run n .assignmentExpression) (E true) fl u (some ()) (T false g) v) :
    Fwd (fun n => run n .arrayItem) Z fl u (some ()) (T false g) v := by
  obtain ⟨x, u', rfl, hx⟩ := hu
  refine Fwd.call ?_
  show Fwd (fun n => parseArrayItem (recOf n)) _ _ _ _ _ _
  unfold parseArrayItem
  fb Fwd.noPunc (hx.ready fun h => by rw [notRegex_tok hr] at h; cases h) hx.punct
  fb h.pre (m₁ := { o0 := true }) rfl
  exact Fwd.pure

theorem array_spread {l} (hr : NotRegex u) (hu : HeadIs (Starts true) u)
    (h : Fwd (fun n => run n .assignmentExpression) (E true) fl u (some ()) (T false g) v) :
    Fwd (fun n => run n .arrayItem) Z fl (pt l .ellipsis :: u) (some ()) (T false g) v := by
  refine Fwd.call ?_
  show Fwd (fun n => parseArrayItem (recOf n)) _ _ _ _ _ _
  unfold parseArrayItem
  fb Fwd.punc ⟨rfl, rfl⟩
  exact Fwd.must ((enter_Z ff_assignment hr hu h).pre rfl)

theorem comma_last {F : Nat → P (Option Unit)} {a : Option Unit} {q : Punct} {m : Mode} (hq : q ≠ .comma)
    (h : Fwd F Z fl u a m v) (hc : compat fl.expectTemplate (.punct q) = true) (hs : slashy (.punct q) = false)
    (hv : HeadIs (· = .punct q) v) (hm : m.le S = true) :
    LoopFwd (fun n _ => itemCommaRound (F n)) () Z fl u () (L false) v := by
  obtain ⟨⟨l, t⟩, w, rfl, hx⟩ := hv
  obtain rfl : t = _ := hx
  refine LoopFwd.stop ?_
  unfold itemCommaRound
  fb h.post hm
  fb Fwd.noPunc (x := pt l q) ⟨by simp [Mode.ready, hs, isRegexTok], hc⟩ (by simpa using hq)
  exact Fwd.pure

theorem comma_next {F : Nat → P (Option Unit)} {a : Option Unit} {l} {m : Mode} {w : List Tok}
    (h : Fwd F Z fl u a m (pt l .comma :: v)) (hm : m.le S = true)
    (h₁ : LoopFwd (fun n _ => itemCommaRound (F n)) () Z fl v () (L false) w) :
    LoopFwd (fun n _ => itemCommaRound (F n)) () Z fl u () (L false) w := by
  refine LoopFwd.next (st' := ()) ?_ h₁
  unfold itemCommaRound
  fb h.post hm
  fb Fwd.punc ⟨rfl, rfl⟩
  exact Fwd.pure.post rfl

theorem sem_elemsNil : Sem C elems v v := by
  intro fl ha hv
  refine comma_last (q := .squareClose) (m := L true) (a := some ()) (by decide) ?_ rfl rfl hv rfl
  obtain ⟨x, w, rfl, hx⟩ := hv
  exact no_item (.inl hx)

theorem sem_elemsHole {l} (ih : Sem C elems u v) : Sem C elems (pt l .comma :: u) v :=
  fun fl ha hv => comma_next (a := some ()) (no_item (.inr rfl)) rfl (ih fl ha hv)

theorem square_follow {k : Nat} (hv : HeadIs (· = .punct .squareClose) v) : Follow fl k false v := by
  obtain ⟨⟨l, t⟩, w, rfl, hx⟩ := hv
  obtain rfl : t = _ := hx
  exact follow_pt (h := ⟨Nat.zero_le _, by decide⟩)

theorem sem_elemsLast (hr : NotRegex u) (h : FragX lx C (assign true g) u v) (ih : Sem C (assign true g) u v) :
    Sem C elems u v :=
  fun fl ha hv => comma_last (q := .squareClose) (by decide)
    (array_item hr (assign_starts h) (ih fl ha (square_follow hv))) rfl rfl hv (by cases g <;> rfl)

theorem sem_elemsCons {l u'} (hr : NotRegex u) (h : FragX lx C (assign true g) u (pt l .comma :: u'))
    (ih : Sem C (assign true g) u (pt l .comma :: u')) (ih₁ : Sem C elems u' v) : Sem C elems u v :=
  fun fl ha hv => comma_next (array_item hr (assign_starts h) (ih fl ha follow_pt)) (by cases g <;> rfl) (ih₁ fl ha hv)

theorem sem_elemsSpreadLast {l} (hr : NotRegex u) (h : FragX lx C (assign true g) u v) (ih : Sem C (assign true g) u v) :
    Sem C elems (pt l .ellipsis :: u) v :=
  fun fl ha hv => comma_last (q := .squareClose) (by decide)
    (array_spread hr (assign_starts h) (ih fl ha (square_follow hv))) rfl rfl hv (by cases g <;> rfl)

theorem sem_elemsSpread {l l' u'} (hr : NotRegex u) (h : FragX lx C (assign true g) u (pt l' .comma :: u'))
    (ih : Sem C (assign true g) u (pt l' .comma :: u')) (ih₁ : Sem C elems u' v) :
    Sem C elems (pt l .ellipsis :: u) v :=
  fun fl ha hv => comma_next (array_spread hr (assign_starts h) (ih fl ha follow_pt)) (by cases g <;> rfl) (ih₁ fl ha hv)

end args

end Jsparse.Forward
