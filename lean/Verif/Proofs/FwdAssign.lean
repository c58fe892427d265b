import Verif.Proofs.FwdMember
/-!
# Conditional expressions, assignments, arrow functions
-/

namespace Jsparse.Forward

open P Spec FNT

section assign

variable {lx : Bool} {C : Ctx} {fl : Flags} {f e g : Bool} {u v : List Tok}

theorem binary_logical (hv : Follow fl 3 false v) (h : SemOf fl u v (binary f g)) :
    Fwd (fun n => run n .logicalOrExpression) (E f) fl u (some ()) (L g) v := by
  obtain ⟨⟨g₁, u₁, h1, h2⟩, -⟩ := h hv
  exact lift_logical (lift_fancy h1 (h2 0))

theorem sem_unconditional (ih : Sem C (binary f g) u v) : Sem C (FNT.cond f g) u v :=
  fun fl ha hv => (lift_cond (binary_logical (hv.mono (by omega)) (ih fl ha)) (hv.mono (by omega))).post (by cases g <;> rfl)

theorem sem_conditional {g₀ g₁ l l' u' u''} (h₁ : FragX lx { C with in_ := true } (assign true g₁) u' (pt l' .colon :: u''))
    (h₂ : FragX lx C (assign true g) u'' v) (ih : Sem C (binary f g₀) u (pt l .question :: u'))
    (ih₁ : Sem { C with in_ := true } (assign true g₁) u' (pt l' .colon :: u'')) (ih₂ : Sem C (assign true g) u'' v) :
    Sem C (FNT.cond f g) u v := by
  intro fl ha hv
  refine Fwd.call ?_
  show Fwd (fun n => parseConditionalExpression (recOf n)) _ _ _ _ _ _
  unfold parseConditionalExpression
  fb binary_logical follow_pt (ih fl ha)
  fb Fwd.punc ⟨rfl, rfl⟩
  fb Fwd.expect
  fb Fwd.eat (Fwd.withFlag ((enter_X ff_assignment (assign_starts h₁) (ih₁ _ ha.in_true follow_pt)).pre (by cases g₀ <;> rfl)))
  fb Fwd.eat (Fwd.punc ⟨rfl, rfl⟩)
  fb Fwd.expect
  exact Fwd.must ((enter_X ff_assignment (assign_starts h₂) (ih₂ fl ha hv)).pre (by cases g₁ <;> rfl))

theorem sem_value (hA : lx = true → LoneAsync C u) (h : FragX lx C (FNT.cond f g) u v) (ih : Sem C (FNT.cond f g) u v) : Sem C (assign f g) u v :=
  fun fl ha hv => (assign_value ha.keen (heads h rfl) (seconds h fl false ha.keen hv.next) (lone hA (asyncs h)) (ih fl ha hv) hv).post
    (by cases g <;> rfl)

theorem assignment_rank {a l : Bool} {q : Punct} (h : q ∈ assignmentOperators) : rank a (pt l q) ≤ 2 := by
  have : ∀ q ∈ assignmentOperators, rank true (true, .punct q) ≤ 2 ∧ q ≠ .plusPlus ∧ q ≠ .minusMinus := by decide
  exact rank_punct (this q h)

theorem sem_assignment {g₀ l q u'} (hA : lx = true → LoneAsync C u) (hW : lx = true → NotNext b!"await" u) (hq : q ∈ assignmentOperators) (he : q = .slashEq → e = true)
    (h : FragX lx C (FNT.lhs true f e g₀) u (pt l q :: u')) (h₁ : FragX lx C (assign true g) u' v)
    (ih : Sem C (FNT.lhs true f e g₀) u (pt l q :: u')) (ih₁ : Sem C (assign true g) u' v) :
    Sem C (assign f g) u v := by
  intro fl ha hv
  have hn : NextOk fl false e (.punct q) := assignment_nextOk hq he
  have hf : Follow fl 2 e (pt l q :: u') := follow_cons.2 ⟨hn, .of (assignment_rank hq)⟩
  refine assign_enter ha.keen ((lhs_head h).mono fun _ h => h.1) (seconds h fl false ha.keen hf.next) (lone hA (asyncs h)) ?_
  unfold assignmentRest
  have hE : Ended (pt l q :: u') := by
    have : ∀ q ∈ assignmentOperators, ¬ Continues (pt false q) := by decide
    exact ended_pt (this q hq)
  fb lift_all (strict_head (lhs_head h) hW) (ih fl ha (hf.up hE)) hf hE
  fb Fwd.token (hn.ready fun _ => rfl)
  have : ∀ q ∈ assignmentOperators, reifyType (.punct q) = some false := by decide
  rw [this q hq]
  show Fwd (fun n => do
    let _ ← pop
    must ((recOf n).call .reifyAssignment)) _ _ _ _ _ _
  fb Fwd.pop ⟨rfl, rfl⟩
  refine Fwd.must (Fwd.call ?_)
  show Fwd (fun n => reifyAssignment (recOf n)) _ _ _ _ _ _
  unfold reifyAssignment
  fb Fwd.expect
  exact Fwd.must ((enter_X ff_assignment (assign_starts h₁) (ih₁ fl ha hv)).pre (by cases g₀ <;> rfl))

theorem sem_assignTo {g₀ l q u'} (hA : lx = true → LoneAsync C u) (hq : q ∈ assignmentOperators) (he : q ≠ .slashEq)
    (h : FragX lx C (binary f g₀) u (pt l q :: u')) (h₁ : FragX lx C (assign true g) u' v)
    (ih : Sem C (binary f g₀) u (pt l q :: u')) (ih₁ : Sem C (assign true g) u' v) :
    Sem C (assign f g) u v := by
  intro fl ha hv
  have hn : NextOk fl false false (.punct q) := assignment_nextOk hq fun h => absurd h he
  have hf : Follow fl 2 false (pt l q :: u') := follow_cons.2 ⟨hn, .of (assignment_rank hq)⟩
  refine assign_enter ha.keen (binary_starts h) (seconds h fl false ha.keen hf.next) (lone hA (asyncs h)) ?_
  unfold assignmentRest
  fb (lift_cond (binary_logical (hf.mono (by omega)) (ih fl ha)) (hf.mono (by omega))).post (m₁ := T false g₀) (by cases g₀ <;> rfl)
  fb Fwd.token (hn.ready nofun)
  have : ∀ q ∈ assignmentOperators, reifyType (.punct q) = some false := by decide
  rw [this q hq]
  show Fwd (fun n => do
    let _ ← pop
    must ((recOf n).call .reifyAssignment)) _ _ _ _ _ _
  fb Fwd.pop ⟨rfl, rfl⟩
  refine Fwd.must (Fwd.call ?_)
  show Fwd (fun n => reifyAssignment (recOf n)) _ _ _ _ _ _
  unfold reifyAssignment
  fb Fwd.expect
  exact Fwd.must ((enter_X ff_assignment (assign_starts h₁) (ih₁ fl ha hv)).pre (by cases g₀ <;> rfl))

theorem noWord_pt {l q} : NoWord (pt l q :: v) := by
  intro l' k w h
  injection h with h _
  injection h with _ h
  cases h

theorem asyncOk_pt {x : Tok} {l q} : AsyncOk (x :: pt l q :: v) := by
  intro l' l'' k w h
  injection h with _ h
  exact noWord_pt _ _ _ h

theorem _root_.Jsparse.Spec.NoWord.next {k : Bytes} (h : NoWord v) : NotNext k v := fun l w => h l k w

theorem kw_next {l : Bool} {n k : Bytes} (h : n ≠ k) : NotNext k (kw l n :: v) := by
  rintro l' w hw
  cases hw
  exact h rfl

theorem name_lhs {l n} (h : PlainName n) (hv : NoWord v) : FragX lx C (FNT.lhs true f true f) (kw l n :: v) v :=
  .lhs (.name (.inl h) (fun _ _ => hv) hv.next) .tailNil

theorem sem_nameLhs {l n} (h : PlainName n) (hv : NoWord v) : Sem C (FNT.lhs true f true f) (kw l n :: v) v :=
  sem_lhs (lx := false) (.name (.inl h) (fun _ _ => hv) hv.next) .tailNil (sem_name (lx := false) (.inl h) hv.next) sem_tailNil

theorem name_cond {l n} (h : PlainName n) (hw : NoWord v) (ha : Agree C fl) (hv : Follow fl 2 true v) (hE : Ended v) :
    Fwd (fun n => run n .conditionalExpression) (E f) fl (kw l n :: v) (some ()) (T false f) v :=
  have h1 : FragX false C (FNT.lhs true f true f) (kw l n :: v) v := name_lhs h hw
  (lift_all (lhs_head h1) (sem_nameLhs h hw fl ha (hv.up hE)) hv hE).post (by cases f <;> rfl)

/-- The rest of an arrow function. -/
theorem arrow_rest {l} (h : Fwd (fun n => run n .conditionalExpression) (E f) fl u (some ()) (T false g) (pt l .arrow :: v))
    {g' : Bool} {w : List Tok} (h₁ : Fwd (fun n => run n .reifyArrow) Z fl v (some ()) (T false g') w) :
    Fwd (fun n => assignmentRest (recOf n)) (E f) fl u (some ()) (T false g') w := by
  unfold assignmentRest
  fb h
  fb Fwd.token (x := pt l .arrow) ⟨rfl, rfl⟩
  show Fwd (fun n => do
    let _ ← pop
    must ((recOf n).call .reifyArrow)) _ _ _ _ _ _
  fb Fwd.pop ⟨rfl, rfl⟩
  exact Fwd.must (h₁.pre (by cases g <;> rfl))

theorem sem_arrowName {l n} (hn : PlainName n) (ih : Sem C (arrowBody g) u v) :
    Sem C (assign f g) (kw l n :: pt false .arrow :: u) v := by
  intro fl ha hv
  refine assign_enter ha.keen (headIs_cons.2 (plain_starts _ hn))
    (second_word (headIs_cons.2 (NextOk.look (e := false) punct_nextOk (by simp)))) ?_ ?_
  · exact asyncOk_pt.lone
  · exact arrow_rest (name_cond hn noWord_pt ha follow_pt ended_pt) (ih fl ha hv)

theorem sem_arrow {l l' u'} (ih : Sem C arrowParams u (pt l' .parenClose :: pt false .arrow :: u'))
    (ih₁ : Sem C (arrowBody g) u' v) : Sem C (assign f g) (pt l .parenOpen :: u) v := by
  intro fl ha hv
  have hp : LhsHead false (.punct .parenOpen) := ⟨by show _ ∈ _; decide, .inl rfl, by simp, by simp⟩
  refine assign_enter ha.keen (headIs_cons.2 hp.1) (second_cons rfl) (asyncOk_cons (by simp)).lone ?_
  have h₁ : Fwd (fun n => run n .primaryExpression) (E f) fl (pt l .parenOpen :: u) (some ()) (T false true) (pt false .arrow :: u') :=
    cover_prim (ih fl ha (headIs_cons.2 rfl)).1 rfl
  have hf : Follow fl 2 false (pt false .arrow :: u') := follow_pt
  have h₂ := lift_lhs (c := true) (headIs_cons.2 ⟨hp, by simp⟩) h₁ hf.next (tail_stop (hf.up ended_pt))
  exact arrow_rest (g := true) ((lift_all (headIs_cons.2 hp) h₂ hf ended_pt).post rfl) (ih₁ fl ha hv)

theorem async_name {l n} (hn : Named lx C n) (ha : Agree C fl) {m : Mode}
    (h : Fwd (fun n => run n .reifyArrow) Z fl u (some ()) m v) :
    Fwd (fun n => run n .assignmentExpression) (E f) fl (kw l b!"async" :: kw false n :: pt false .arrow :: u) (some ()) m v := by
  refine Fwd.call ?_
  show Fwd (fun n => parseAssignmentExpression (recOf n)) _ _ _ _ _ _
  unfold parseAssignmentExpression
  fb no_yield (x := kw l b!"async") (by simp) ⟨rfl, rfl⟩
  fb Fwd.getFlags
  refine Fwd.bind (Fwd.two ⟨rfl, rfl⟩ (NextOk.look (fl := fl) (e := false) (col := false) word_nextOk (by simp)).1) ?_
  have : maybeAsyncArrow fl (some (kw false n)) = true := named_binding ha.keen hn
  rw [this]
  simp only [if_true]
  fb Fwd.keyword ⟨rfl, rfl⟩
  unfold asyncArrowRest
  fb Fwd.noLine (x := kw false n) ⟨rfl, rfl⟩
  simp only [Bool.not_false, if_true]
  fb Fwd.eat (Fwd.binding ⟨rfl, rfl⟩ (named_binding ha.keen hn))
  fb Fwd.noLine (x := pt false .arrow) ⟨rfl, rfl⟩
  simp only [Bool.not_false, if_true]
  fb Fwd.eat (Fwd.punc ⟨rfl, rfl⟩)
  exact Fwd.must (h.pre (by cases f <;> rfl))

theorem sem_asyncArrow {l n} (hn : Named lx C n) (ih : Sem C (arrowBody g) u v) :
    Sem C (assign f g) (kw l b!"async" :: kw false n :: pt false .arrow :: u) v :=
  fun fl ha hv => async_name hn ha (ih fl ha hv)

/-- The parameters are read as the arguments of a call. -/
theorem sem_asyncArrows {e : Bool} {l l' l'' u'}
    (h : FragX lx { C with in_ := true } (args true e) u (pt l'' .parenClose :: pt false .arrow :: u'))
    (ih : Sem { C with in_ := true } (args true e) u (pt l'' .parenClose :: pt false .arrow :: u'))
    (ih₁ : Sem C (arrowBody g) u' v) : Sem C (assign f g) (kw l b!"async" :: pt l' .parenOpen :: u) v := by
  intro fl ha hv
  have hn : PlainName b!"async" := by decide
  have ht : FragX lx C (tail true true f e true) (pt l' .parenOpen :: u) (pt false .arrow :: u') := .tailCall h .tailNil
  have h₁ : FragX lx C (FNT.lhs true f e true) (kw l b!"async" :: pt l' .parenOpen :: u) (pt false .arrow :: u') :=
    .lhs (.name (.inl hn) (fun _ _ => noWord_pt) noWord_pt.next) ht
  have s₁ : Sem C (FNT.lhs true f e true) (kw l b!"async" :: pt l' .parenOpen :: u) (pt false .arrow :: u') :=
    sem_lhs (.name (.inl hn) (fun _ _ => noWord_pt) noWord_pt.next) ht (sem_name (lx := false) (.inl hn) noWord_pt.next) (sem_tailCall (lx := false) .tailNil ih sem_tailNil)
  refine assign_enter ha.keen (headIs_cons.2 (plain_starts _ hn))
    (second_word (headIs_cons.2 (NextOk.look (e := false) punct_nextOk (by simp)))) asyncOk_pt.lone ?_
  have hf : Follow fl 2 e (pt false .arrow :: u') := follow_pt
  exact arrow_rest (g := true) ((lift_all (strict_head (lhs_head h₁) fun _ => kw_next (by decide)) (s₁ fl ha (hf.up ended_pt)) hf ended_pt).post rfl) (ih₁ fl ha hv)

theorem follow_zero (hv : Follow fl 1 false v) (hc : ∀ l v', v ≠ pt l .comma :: v') : Follow fl 0 false v := by
  obtain ⟨⟨l, t⟩, w, rfl, hy, hr⟩ := hv
  refine follow_cons.2 ⟨hy, ?_⟩
  have hne : t ≠ .punct .comma := fun h => hc l w (by rw [h])
  have hz : rank fl.allowIn (l, t) ≤ 1 → rank fl.allowIn (l, t) ≤ 0 := by
    revert hne
    clear hr hc hy
    cases t with
    | punct q =>
      cases q <;> simp [rank, assignmentOperators, binaryOperators] <;> cases l <;> simp
    | ident n =>
      simp only [rank]
      repeat' split
      all_goals simp
    | template k _ _ => cases k <;> simp [rank]
    | _ => simp [rank]
  rcases hr with hr | ⟨-, hr⟩
  · exact .inl (hz hr)
  · exact .inr ⟨by decide, hr⟩

/-- `yield` without operand, or with one that reaches up to `v`. -/
theorem yield_of {l} (h : Fwd (fun n => do
      let b ← noLineTerminator
      if b then
        expectExpression
        let _ ← punc .star
        expectExpression
        let _ ← (recOf n).call .expression
        found
      else found) S fl u (some ()) (T false false) v) :
    Fwd (fun n => run n .assignmentExpression) (E f) fl (kw l b!"yield" :: u) (some ()) (T false false) v := by
  refine Fwd.call ?_
  show Fwd (fun n => parseAssignmentExpression (recOf n)) _ _ _ _ _ _
  unfold parseAssignmentExpression
  refine Fwd.bind (a := some ()) (Fwd.call ?_) Fwd.pure
  show Fwd (fun n => parseYieldExpression (recOf n)) _ _ _ _ _ _
  unfold parseYieldExpression
  fb Fwd.keyword ⟨rfl, rfl⟩
  exact h.pre (by cases f <;> rfl)

theorem yield_star {l} (hu : HeadIs (Starts true) u)
    (h : Fwd (fun n => run n .expression) (E true) fl u (some ()) (L false) v) :
    Fwd (fun n => run n .assignmentExpression) (E f) fl (kw l b!"yield" :: pt false .star :: u) (some ()) (T false false) v := by
  refine yield_of ?_
  fb Fwd.noLine (x := pt false .star) ⟨rfl, rfl⟩
  simp only [Bool.not_false, if_true]
  fb Fwd.expect
  fb Fwd.punc ⟨rfl, rfl⟩
  fb Fwd.expect
  fb enter_X ff_expression hu h
  exact Fwd.pure.post rfl

theorem sem_yieldStar {l} (hc : ∀ l v', v ≠ pt l .comma :: v') (h : FragX lx C (assign true g) u v)
    (ih : Sem C (assign true g) u v) : Sem C (assign f false) (kw l b!"yield" :: pt false .star :: u) v :=
  fun fl ha hv => yield_star (assign_starts h) (lift_expr (ih fl ha hv) (expr_last (follow_zero hv hc)))

theorem sem_yieldBare {l x} (hx : x.1 = true ∨ Closing x.2) : Sem C (assign f false) (kw l b!"yield" :: x :: v) (x :: v) := by
  intro fl ha hv
  have hf := follow_cons.1 hv
  have hr : ∀ m : Mode, Ready m fl x.2 := fun m => hf.ready (by simp)
  refine yield_of ?_
  fb Fwd.noLine (hr _)
  cases hl : x.1 with
  | true =>
    simp only [Bool.not_true, Bool.false_eq_true, if_false]
    exact Fwd.pure.post rfl
  | false =>
    rw [hl] at hx
    have he : Closing x.2 := by simpa using hx
    have hs : Stops fl x.2 ∧ isWord x.2 = false ∧ x.2 ≠ .punct .star := by
      have hc := hf.1.1
      simp only [Closing, List.mem_cons, List.not_mem_nil, or_false] at he
      rcases he with he | he | he | he | he | he | he <;> rw [he] at hc ⊢
      · exact ⟨stops_punct (by decide) (by simp), rfl, by simp⟩
      · exact ⟨stops_punct (by decide) (by simp), rfl, by simp⟩
      · exact ⟨stops_punct (by decide) (by simp), rfl, by simp⟩
      · exact ⟨stops_punct (by decide) fun _ => (by simpa [compat] using hc), rfl, by simp⟩
      · exact ⟨stops_punct (by decide) (by simp), rfl, by simp⟩
      · exact ⟨stops_punct (by decide) (by simp), rfl, by simp⟩
      · exact ⟨stops_eof, rfl, by simp⟩
    simp only [Bool.not_false, if_true]
    fb Fwd.expect
    fb Fwd.noPunc (hr _) hs.2.2
    fb Fwd.expect
    fb no_expression_of (no_assignment hs.1 hs.2.1 _)
    exact Fwd.pure.post rfl

theorem yield_plain {l} (hl : NoLine u) (hr : NotRegex u) (hu : HeadIs (Starts true) u)
    (h : Fwd (fun n => run n .expression) (E false) fl u (some ()) (L false) v) :
    Fwd (fun n => run n .assignmentExpression) (E f) fl (kw l b!"yield" :: u) (some ()) (T false false) v := by
  obtain ⟨x, u', rfl, hx⟩ := hu
  refine yield_of ?_
  have hr : ∀ m : Mode, Ready m fl x.2 := fun m => hx.ready fun h => by rw [notRegex_tok hr] at h; cases h
  fb Fwd.noLine (hr _)
  rw [hl _ _ rfl]
  simp only [Bool.not_false, if_true]
  fb Fwd.expect
  fb Fwd.noPunc (hr _) hx.punct
  fb Fwd.expect
  fb h.pre rfl
  exact Fwd.pure.post rfl

theorem sem_yield {l} (hl : NoLine u) (hr : NotRegex u) (hc : ∀ l v', v ≠ pt l .comma :: v')
    (h : FragX lx C (assign false g) u v) (ih : Sem C (assign false g) u v) :
    Sem C (assign f false) (kw l b!"yield" :: u) v :=
  fun fl ha hv => yield_plain hl hr (assign_starts h) (lift_expr (ih fl ha hv) (expr_last (follow_zero hv hc)))

theorem sem_yieldMore {l} (hl : NoLine u) (hr : NotRegex u) (h : FragX lx C (FNT.expr false) u v) (ih : Sem C (FNT.expr false) u v) :
    Sem C (FNT.expr f) (kw l b!"yield" :: u) v :=
  fun fl ha hv => lift_expr (yield_plain hl hr (expr_starts h) (ih fl ha hv)) (expr_last hv)

theorem sem_yieldStarMore {l} (h : FragX lx C (FNT.expr true) u v) (ih : Sem C (FNT.expr true) u v) :
    Sem C (FNT.expr f) (kw l b!"yield" :: pt false .star :: u) v :=
  fun fl ha hv => lift_expr (yield_star (expr_starts h) (ih fl ha hv)) (expr_last hv)

theorem sem_yieldAny {l} (hl : NoLine u) (hr : NotRegex u) (hc : ∀ l v', v ≠ pt l .comma :: v')
    (h : FragX lx C (FNT.expr false) u v) (ih : Sem C (FNT.expr false) u v) :
    Sem C (assign f false) (kw l b!"yield" :: u) v :=
  fun fl ha hv => yield_plain hl hr (expr_starts h) (ih fl ha (follow_zero hv hc))

theorem sem_yieldAnyStar {l} (hc : ∀ l v', v ≠ pt l .comma :: v') (h : FragX lx C (FNT.expr true) u v)
    (ih : Sem C (FNT.expr true) u v) : Sem C (assign f false) (kw l b!"yield" :: pt false .star :: u) v :=
  fun fl ha hv => yield_star (expr_starts h) (ih fl ha (follow_zero hv hc))

theorem sem_yieldOpen {l} (hl : NoLine u) (hr : NotRegex u) (h : FragX lx C (exprOpen false) u v)
    (ih : Sem C (exprOpen false) u v) : Sem C (assignOpen f) (kw l b!"yield" :: u) v :=
  fun fl ha hv => yield_plain hl hr (heads h rfl) (ih fl ha hv).1

theorem sem_yieldOpenStar {l} (h : FragX lx C (exprOpen true) u v)
    (ih : Sem C (exprOpen true) u v) : Sem C (assignOpen f) (kw l b!"yield" :: pt false .star :: u) v :=
  fun fl ha hv => yield_star (heads h rfl) (ih fl ha hv).1

theorem sem_yieldEmpty {l x} (hx : x.1 = true ∨ Idle x.2 ∧ x.2 ≠ Token.punct .star) :
    Sem C (assignOpen f) (kw l b!"yield" :: x :: v) (x :: v) := by
  intro fl ha hv
  have hv := headIs_cons.1 hv
  have hr : ∀ m : Mode, Ready m fl x.2 := fun m => hv.ready (by simp)
  refine yield_of ?_
  fb Fwd.noLine (hr _)
  cases hl : x.1 with
  | true =>
    simp only [Bool.not_true, Bool.false_eq_true, if_false]
    exact Fwd.pure.post rfl
  | false =>
    rw [hl] at hx
    have he : Idle x.2 ∧ x.2 ≠ Token.punct .star := by simpa using hx
    have hs := stops_idle he.1 hv.1
    simp only [Bool.not_false, if_true]
    fb Fwd.expect
    fb Fwd.noPunc (hr _) he.2
    fb Fwd.expect
    fb no_expression_of (no_assignment hs.1 hs.2 _)
    exact Fwd.pure.post rfl

theorem sem_yieldEmptyStar {l x} (hx : Idle x.2) :
    Sem C (assignOpen f) (kw l b!"yield" :: pt false .star :: x :: v) (x :: v) := by
  intro fl ha hv
  have hv := headIs_cons.1 hv
  have hs := stops_idle hx hv.1
  refine yield_of ?_
  fb Fwd.noLine (x := pt false .star) ⟨rfl, rfl⟩
  simp only [Bool.not_false, if_true]
  fb Fwd.expect
  fb Fwd.punc ⟨rfl, rfl⟩
  fb Fwd.expect
  fb no_expression_of (no_assignment hs.1 hs.2 _)
  exact Fwd.pure.post rfl

theorem cover_last (hv : Follow fl 0 false v) {m : Mode} (hr : HeadIs (Ready m fl) v) :
    LoopFwd (fun n _ => coverRound (recOf n)) () m fl v () m.fill v := by
  obtain ⟨y, w, rfl, hy⟩ := hv
  refine LoopFwd.stop ?_
  unfold coverRound
  fb Fwd.noPunc (headIs_cons.1 hr) (rank_comma hy.2)
  exact Fwd.pure

theorem cover_next {g₁ : Bool} {l u'} {m : Mode} (hm : m.le S = true) (hu : HeadIs (Starts true) u)
    (h : Fwd (fun n => run n .assignmentExpression) (E true) fl u (some ()) (T false g₁) u')
    {m' : Mode} {w : List Tok} (h₁ : LoopFwd (fun n _ => coverRound (recOf n)) () (T false g₁) fl u' () m' w) :
    LoopFwd (fun n _ => coverRound (recOf n)) () m fl (pt l .comma :: u) () m' w := by
  refine LoopFwd.pre (m := S) (LoopFwd.next (st' := ()) ?_ h₁) hm
  unfold coverRound
  fb Fwd.punc ⟨rfl, rfl⟩
  fb Fwd.expect
  obtain ⟨x, w, rfl, hx⟩ := hu
  fb Fwd.noPunc (hx.ready fun _ => rfl) hx.punct
  fb Fwd.eat (h.pre rfl)
  exact Fwd.pure

theorem sem_moreNil : Sem C (more g g) v v := by
  intro fl ha hv
  refine ⟨expr_last hv, (cover_last hv ?_).post (by cases g <;> rfl)⟩
  obtain ⟨y, w, rfl, hy⟩ := hv
  exact headIs_cons.2 (hy.ready (by simp))

theorem sem_moreCons {g₀ g₁ l u'} (h : FragX lx C (assign true g₁) u u') (h₁ : FragX lx C (more g₁ g) u' v)
    (ih : Sem C (assign true g₁) u u') (ih₁ : Sem C (more g₁ g) u' v) :
    Sem C (more g₀ g) (pt l .comma :: u) v := by
  intro fl ha hv
  have h₂ := ih fl ha (more_follow h₁ hv)
  refine ⟨LoopFwd.next (st' := ()) ?_ (ih₁ fl ha hv).1,
    cover_next (by cases g₀ <;> rfl) (assign_starts h) h₂ (ih₁ fl ha hv).2⟩
  unfold expressionRound
  fb Fwd.punc ⟨rfl, rfl⟩
  fb Fwd.expect
  fb Fwd.eat (enter_X ff_assignment (assign_starts h) h₂)
  exact Fwd.pure.post (by cases g₁ <;> rfl)

theorem sem_expr {g₀ u'} (h₁ : FragX lx C (more g₀ g) u' v) (ih : Sem C (assign f g₀) u u') (ih₁ : Sem C (more g₀ g) u' v) :
    Sem C (FNT.expr f) u v :=
  fun fl ha hv => lift_expr (ih fl ha (more_follow h₁ hv)) (ih₁ fl ha hv).1

/-! ## Arrow functions -/

theorem target_fwd {pat : Bool} (h : Target fl pat u v) : Fwd (fun n => patternOrIdentifier (recOf n)) S fl u () S v := by
  unfold patternOrIdentifier
  cases pat with
  | true =>
    fb h
    exact Fwd.pure
  | false =>
    obtain ⟨h1, x, h2⟩ := h
    fb h1
    fb Fwd.eat h2
    exact Fwd.pure

theorem paren_follow {k : Nat} (hv : HeadIs (· = .punct .parenClose) v) : Follow fl k false v := by
  obtain ⟨⟨l, t⟩, w, rfl, hx⟩ := hv
  obtain rfl : t = _ := hx
  exact follow_pt (h := ⟨Nat.zero_le _, by decide⟩)

theorem paren_last {m : Mode} (hv : HeadIs (· = .punct .parenClose) v) :
    LoopFwd (fun n _ => coverRound (recOf n)) () m fl v () m.fill v := by
  refine cover_last (paren_follow hv) ?_
  obtain ⟨⟨l, t⟩, w, rfl, hx⟩ := hv
  obtain rfl : t = _ := hx
  exact headIs_cons.2 ((stops_punct (by decide) (by simp)).ready _)

theorem sem_arrowNil : Sem C arrowParams v v := by
  intro fl ha hv
  obtain ⟨⟨l, t⟩, w, rfl, hx⟩ := hv
  obtain rfl : t = _ := hx
  refine ⟨?_, fun h => absurd rfl (headIs_cons.1 h)⟩
  unfold coverInner
  fb no_assignment (x := pt l .parenClose) (stops_punct (by decide) (by simp)) rfl _
  fb Fwd.noPunc (x := pt l .parenClose) ⟨rfl, rfl⟩ (by simp)
  exact Fwd.pure.post rfl

theorem sem_parenEmpty {l l'} : Sem C (prim f false true) (pt l .parenOpen :: pt l' .parenClose :: v) v :=
  fun fl ha _ => cover_prim (m := S) (l' := l') (sem_arrowNil (C := C) fl ha (headIs_cons.2 rfl)).1 rfl

theorem sem_arrowRest {l} (ih : Sem C target u v) : Sem C arrowParams (pt l .ellipsis :: u) v := by
  intro fl ha hv
  obtain ⟨pat, ht⟩ := ih fl ha
  constructor
  · unfold coverInner
    fb no_assignment (x := pt l .ellipsis) (stops_punct (by decide) (by simp)) rfl _
    fb Fwd.punc ⟨rfl, rfl⟩
    exact (target_fwd ht).pre rfl
  · intro _ l'
    refine LoopFwd.next (st' := ()) (m₁ := S) (u₁ := v) ?_ ((paren_last hv).post rfl)
    unfold coverRound
    fb Fwd.punc ⟨rfl, rfl⟩
    fb Fwd.expect
    fb Fwd.punc ⟨rfl, rfl⟩
    fb (target_fwd ht).pre rfl
    exact Fwd.pure

theorem param_starts (h : FragX lx C arrowParam u v) : HeadIs (Starts true) u := heads h rfl

theorem param_follow {k : Nat} (hk : 1 ≤ k) (hv : HeadIs (fun t => t = .punct .comma ∨ t = .punct .parenClose) v) :
    Follow fl k false v ∧ NoWord v ∧ Ended v := by
  obtain ⟨⟨l, t⟩, w, rfl, hx⟩ := hv
  rcases hx with hx | hx <;> obtain rfl : t = _ := hx
  · exact ⟨follow_pt (h := ⟨hk, by decide⟩), noWord_pt, ended_pt⟩
  · exact ⟨follow_pt (h := ⟨Nat.zero_le _, by decide⟩), noWord_pt, ended_pt⟩

theorem sem_arrowLast (h : FragX lx C arrowParam u v) (ih : Sem C arrowParam u v) : Sem C arrowParams u v := by
  intro fl ha hv
  have h₁ := ih fl ha (hv.mono fun _ h => .inr h)
  constructor
  · unfold coverInner
    fb enter_X ff_assignment (param_starts h) h₁
    exact LoopFwd.fwd ((paren_last hv).post rfl)
  · intro _ l
    exact cover_next rfl (param_starts h) h₁ ((paren_last hv).post rfl)

/-! ## Rest elements in parentheses -/

theorem sem_coverNil : Sem C coverRest v v :=
  fun _ _ hv => ⟨hv.mono fun _ h => .inr h, (paren_last hv).post rfl⟩

theorem sem_coverCons {l u'} (h : FragX lx C (assign true g) u u') (ih : Sem C (assign true g) u u')
    (ih₁ : Sem C coverRest u' v) : Sem C coverRest (pt l .comma :: u) v := by
  intro fl ha hv
  obtain ⟨h₁, h₂⟩ := ih₁ fl ha hv
  exact ⟨headIs_cons.2 (.inl rfl),
    cover_next rfl (assign_starts h) (ih fl ha (param_follow (by omega) h₁).1) (h₂.pre (by cases g <;> rfl))⟩

theorem sem_coverTarget {l l' u'} (ih : Sem C target u u') (ih₁ : Sem C coverRest u' v) :
    Sem C coverRest (pt l .comma :: pt l' .ellipsis :: u) v := by
  intro fl ha hv
  obtain ⟨pat, ht⟩ := ih fl ha
  refine ⟨headIs_cons.2 (.inl rfl), LoopFwd.next (st' := ()) (m₁ := S) (u₁ := u') ?_ (ih₁ fl ha hv).2⟩
  unfold coverRound
  fb Fwd.punc ⟨rfl, rfl⟩
  fb Fwd.expect
  fb Fwd.punc ⟨rfl, rfl⟩
  fb (target_fwd ht).pre rfl
  exact Fwd.pure

theorem sem_parenCover {l l' u₁} (h : FragX lx C (assign true g) u u₁) (ih : Sem C (assign true g) u u₁)
    (ih₁ : Sem C coverRest u₁ (pt l' .parenClose :: v)) : Sem C (prim f false true) (pt l .parenOpen :: u) v := by
  intro fl ha _
  obtain ⟨h₁, h₂⟩ := ih₁ fl ha (headIs_cons.2 rfl)
  refine cover_prim (m := S) (l' := l') ?_ rfl
  unfold coverInner
  fb enter_X ff_assignment (assign_starts h) (ih fl ha (param_follow (by omega) h₁).1)
  exact LoopFwd.fwd (h₂.pre (by cases g <;> rfl))

theorem sem_parenRest {l l' l''} (ih : Sem C target u (pt l' .parenClose :: v)) :
    Sem C (prim f false true) (pt l .parenOpen :: pt l'' .ellipsis :: u) v :=
  fun fl ha _ => cover_prim (m := S) (l' := l') (sem_arrowRest (C := C) ih fl ha (headIs_cons.2 rfl)).1 rfl

theorem sem_arrowCons {l x u'} (hx : x.2 ≠ Token.punct .parenClose) (h : FragX lx C arrowParam u (pt l .comma :: x :: u'))
    (ih : Sem C arrowParam u (pt l .comma :: x :: u')) (ih₁ : Sem C arrowParams (x :: u') v) : Sem C arrowParams u v := by
  intro fl ha hv
  have h₁ := ih fl ha (headIs_cons.2 (.inl rfl))
  have h₂ := ((ih₁ fl ha hv).2 (headIs_cons.2 hx) l).pre (m₁ := T false false) rfl
  constructor
  · unfold coverInner
    fb enter_X ff_assignment (param_starts h) h₁
    exact LoopFwd.fwd h₂
  · intro _ l
    exact cover_next rfl (param_starts h) h₁ h₂

theorem sem_arrowParam {l n} (hn : PlainName n) : Sem C arrowParam (kw l n :: v) v := by
  intro fl ha hv
  obtain ⟨hf, hw, hE⟩ := param_follow (fl := fl) (Nat.le_refl 1) hv
  have h1 : FragX false C (FNT.lhs true true true true) (kw l n :: v) v := name_lhs hn hw
  exact (sem_value (lx := false) nofun (.unconditional (.operand (.updated nofun (.plain hE h1))))
    (fun _ ha hv => name_cond hn hw ha ((hv.mono (by omega)).slash _) hE) fl ha hf).post rfl

theorem sem_arrowDefault {l l' n} (hn : PlainName n) (h : FragX lx C (assign true g) u v) (ih : Sem C (assign true g) u v) :
    Sem C arrowParam (kw l n :: pt l' .eq :: u) v :=
  fun fl ha hv => (sem_assignment (f := true) (fun _ => asyncOk_pt.lone) (fun _ => kw_next (hn.ne (by decide))) (by decide) (by simp) (name_lhs hn noWord_pt) h (sem_nameLhs hn noWord_pt) ih
    fl ha (param_follow (Nat.le_refl 1) hv).1).post (by cases g <;> rfl)

theorem pattern_async (h : FragX lx C pattern u v) : AsyncOk u := by
  obtain ⟨x, w, rfl, hx⟩ := heads h rfl
  refine asyncOk_cons ?_
  rcases hx with hx | hx <;> rw [hx] <;> simp

theorem pattern_next {k : Bytes} (h : FragX lx C pattern u v) : NotNext k u := by
  rintro l w rfl
  have := headIs_cons.1 (heads h rfl)
  rcases this with h | h <;> cases h

theorem sem_arrowPattern (hp : FragX lx C pattern u v) (h : FragX lx C (prim true e g) u v) (ih : Sem C (prim true e g) u v) : Sem C arrowParam u v := by
  intro fl ha hv
  obtain ⟨hf, -, hE⟩ := param_follow (fl := fl) (Nat.le_refl 1) hv
  have h1 : FragX lx C (FNT.lhs true true e g) u v := .lhs h .tailNil
  refine (sem_value (fun _ => (pattern_async hp).lone) (.unconditional (.operand (.updated (fun _ => pattern_next hp) (.plain hE h1)))) (fun fl ha hv => ?_) fl ha hf).post
    (by cases g <;> rfl)
  exact (lift_all (strict_head (lhs_head h1) fun _ => pattern_next hp) (sem_lhs h .tailNil ih sem_tailNil fl ha ((hv.slash e).up hE)) ((hv.slash e).mono (by decide)) hE).post
    (by cases g <;> rfl)

theorem sem_arrowPatternDefault {g₀ l u'} (hp : FragX lx C pattern u (pt l .eq :: u')) (h : FragX lx C (prim true e g₀) u (pt l .eq :: u')) (h₁ : FragX lx C (assign true g) u' v)
    (ih : Sem C (prim true e g₀) u (pt l .eq :: u')) (ih₁ : Sem C (assign true g) u' v) : Sem C arrowParam u v :=
  fun fl ha hv => (sem_assignment (f := true) (fun _ => (pattern_async hp).lone) (fun _ => pattern_next hp) (by decide) (by simp) (.lhs h .tailNil) h₁ (sem_lhs h .tailNil ih sem_tailNil) ih₁
    fl ha (param_follow (Nat.le_refl 1) hv).1).post (by cases g <;> rfl)

theorem sem_bodyBlock (ih : Sem C block u v) : Sem C (arrowBody true) u v := by
  intro fl ha _
  refine Fwd.call ?_
  show Fwd (fun n => reifyArrow (recOf n)) _ _ _ _ _ _
  unfold reifyArrow
  fb Fwd.expect
  exact Fwd.orTry_first (((ih fl ha).pre rfl).post rfl)

theorem no_block {m : Mode} {x : Tok} (hx : x.2 ≠ .punct .curlyOpen) (hr : ∀ fl, Ready m fl x.2) :
    Fwd (fun n => run n .blockStatement) m fl (x :: u) none m.fill (x :: u) := by
  refine Fwd.call ?_
  show Fwd (fun n => parseBlockStatement (recOf n)) _ _ _ _ _ _
  unfold parseBlockStatement
  refine Fwd.withFlag ?_
  fb Fwd.noPunc (hr _) hx
  exact Fwd.pure

theorem sem_bodyExpr {x} (hx : x.2 ≠ Token.punct .curlyOpen) (h : FragX lx C (assign true g) (x :: u) v)
    (ih : Sem C (assign true g) (x :: u) v) : Sem C (arrowBody g) (x :: u) v := by
  intro fl ha hv
  refine Fwd.call ?_
  show Fwd (fun n => reifyArrow (recOf n)) _ _ _ _ _ _
  unfold reifyArrow
  fb Fwd.expect
  have hs := headIs_cons.1 (assign_starts h)
  exact Fwd.orTry_second (no_block hx fun fl => hs.ready fun _ => rfl) ((ih fl ha hv).pre rfl)

/-! ## What ends with the block of an arrow function -/

theorem assignOpen_starts (h : FragX lx C (assignOpen f) u v) : HeadIs (Starts true) u := heads h rfl

theorem exprOpen_starts (h : FragX lx C (exprOpen f) u v) : HeadIs (Starts true) u := heads h rfl

theorem sem_conditionalOpen {g₀ g₁ l l' u' u''}
    (h₁ : FragX lx { C with in_ := true } (assign true g₁) u' (pt l' .colon :: u''))
    (h₂ : FragX lx C (assignOpen true) u'' v) (ih : Sem C (binary f g₀) u (pt l .question :: u'))
    (ih₁ : Sem { C with in_ := true } (assign true g₁) u' (pt l' .colon :: u'')) (ih₂ : Sem C (assignOpen true) u'' v) :
    Sem C (condOpen f) u v := by
  intro fl ha hv
  refine Fwd.call ?_
  show Fwd (fun n => parseConditionalExpression (recOf n)) _ _ _ _ _ _
  unfold parseConditionalExpression
  fb binary_logical follow_pt (ih fl ha)
  fb Fwd.punc ⟨rfl, rfl⟩
  fb Fwd.expect
  fb Fwd.eat (Fwd.withFlag ((enter_X ff_assignment (assign_starts h₁) (ih₁ _ ha.in_true follow_pt)).pre (by cases g₀ <;> rfl)))
  fb Fwd.eat (Fwd.punc ⟨rfl, rfl⟩)
  fb Fwd.expect
  exact Fwd.must ((enter_X ff_assignment (assignOpen_starts h₂) (ih₂ fl ha hv)).pre (by cases g₁ <;> rfl))

theorem sem_valueOpen {x} (hA : lx = true → LoneAsync C u) (h : FragX lx C (condOpen f) u (x :: v)) (hx : x.2 ∉ assigners) (ih : Sem C (condOpen f) u (x :: v)) :
    Sem C (assignOpen f) u (x :: v) := by
  intro fl ha hv
  refine assign_enter ha.keen (heads h rfl) (seconds h fl false ha.keen) (lone hA (asyncs h)) ?_
  unfold assignmentRest
  fb ih fl ha hv
  fb Fwd.token ((headIs_cons.1 hv).ready (by simp))
  have : reifyType x.2 = none := by
    revert hx
    generalize x.2 = t
    cases t with
    | punct q => intro h; cases q <;> first | rfl | exact absurd (by simp [assigners, assignmentOperators]) h
    | _ => exact fun _ => rfl
  rw [this]
  exact Fwd.pure.post rfl

theorem sem_closeOpen (ih : Sem C (assignOpen f) u v) : Sem C (assign f false) u v :=
  fun fl ha hv => ih fl ha hv.next

theorem assigner_rank {a l : Bool} {q : Punct} (h : q ∈ Punct.arrow :: assignmentOperators) : rank a (pt l q) ≤ 2 := by
  rcases List.mem_cons.1 h with rfl | h
  · simp [rank]
  · exact assignment_rank h

theorem sem_assignee {l q} (hq : q ∈ Punct.arrow :: assignmentOperators) (he : q ≠ .slashEq)
    (ih : Sem C (binary f g) u (pt l q :: v)) : Sem C (assignee f) u (pt l q :: v) := by
  intro fl ha
  have hf : Follow fl 2 false (pt l q :: v) := follow_cons.2 ⟨assigner_nextOk hq he, .of (assigner_rank hq)⟩
  exact (lift_cond (binary_logical (hf.mono (by omega)) (ih fl ha)) (hf.mono (by omega))).post (by cases g <;> rfl)

theorem sem_assigneeOpen {l q} (hq : q ∈ Punct.arrow :: assignmentOperators) (he : q ≠ .slashEq)
    (ih : Sem C (condOpen f) u (pt l q :: v)) : Sem C (assignee f) u (pt l q :: v) :=
  fun fl ha => ih fl ha (headIs_cons.2 (assigner_nextOk hq he))

theorem assignee_enter (hA : lx = true → LoneAsync C u) (ha : Agree C fl) (h : FragX lx C (assignee f) u v) {m : Mode} {w : List Tok}
    (h₁ : Fwd (fun n => assignmentRest (recOf n)) (E f) fl u (some ()) m w) :
    Fwd (fun n => run n .assignmentExpression) (E f) fl u (some ()) m w :=
  assign_enter ha.keen (heads h rfl) (seconds h fl false ha.keen) (lone hA (asyncs h)) h₁

theorem assignee_ready {l q} (h : FragX lx C (assignee f) u (pt l q :: v)) : NextOk fl false false (.punct q) := by
  cases h with
  | assignee _ hq he => exact assigner_nextOk hq he
  | assigneeOpen hq he => exact assigner_nextOk hq he

theorem assign_rest {l q} (hq : q ∈ assignmentOperators) (hn : NextOk fl false false (.punct q))
    (h : Fwd (fun n => run n .conditionalExpression) (E f) fl u (some ()) (T false false) (pt l q :: v)) {m : Mode}
    {w : List Tok} (hv : HeadIs (Starts true) v)
    (h₁ : Fwd (fun n => run n .assignmentExpression) (E true) fl v (some ()) m w) :
    Fwd (fun n => assignmentRest (recOf n)) (E f) fl u (some ()) m w := by
  unfold assignmentRest
  fb h
  fb Fwd.token (hn.ready nofun)
  have : ∀ q ∈ assignmentOperators, reifyType (.punct q) = some false := by decide
  rw [this q hq]
  show Fwd (fun n => do
    let _ ← pop
    must ((recOf n).call .reifyAssignment)) _ _ _ _ _ _
  fb Fwd.pop ⟨rfl, rfl⟩
  refine Fwd.must (Fwd.call ?_)
  show Fwd (fun n => reifyAssignment (recOf n)) _ _ _ _ _ _
  unfold reifyAssignment
  fb Fwd.expect
  exact Fwd.must ((enter_X ff_assignment hv h₁).pre rfl)

theorem sem_assignAny {l q u'} (hA : lx = true → LoneAsync C u) (hq : q ∈ assignmentOperators) (h : FragX lx C (assignee f) u (pt l q :: u'))
    (h₁ : FragX lx C (assign true g) u' v) (ih : Sem C (assignee f) u (pt l q :: u')) (ih₁ : Sem C (assign true g) u' v) :
    Sem C (assign f g) u v :=
  fun fl ha hv => assignee_enter hA ha h (assign_rest hq (assignee_ready h) (ih fl ha) (assign_starts h₁) (ih₁ fl ha hv))

theorem sem_assignAnyOpen {l q u'} (hA : lx = true → LoneAsync C u) (hq : q ∈ assignmentOperators) (h : FragX lx C (assignee f) u (pt l q :: u'))
    (h₁ : FragX lx C (assignOpen true) u' v) (ih : Sem C (assignee f) u (pt l q :: u')) (ih₁ : Sem C (assignOpen true) u' v) :
    Sem C (assignOpen f) u v :=
  fun fl ha hv => assignee_enter hA ha h (assign_rest hq (assignee_ready h) (ih fl ha) (assignOpen_starts h₁) (ih₁ fl ha hv))

theorem body_value {x} (hx : x.2 ≠ Token.punct .curlyOpen) (hs : HeadIs (Starts true) (x :: u)) {m : Mode}
    (h : Fwd (fun n => run n .assignmentExpression) (E true) fl (x :: u) (some ()) m v) :
    Fwd (fun n => run n .reifyArrow) Z fl (x :: u) (some ()) m v := by
  refine Fwd.call ?_
  show Fwd (fun n => reifyArrow (recOf n)) _ _ _ _ _ _
  unfold reifyArrow
  fb Fwd.expect
  exact Fwd.orTry_second (no_block hx fun fl => (headIs_cons.1 hs).ready fun _ => rfl) (h.pre rfl)

theorem sem_arrowAny {l x u'} (hA : lx = true → LoneAsync C u) (h : FragX lx C (assignee f) u (pt l .arrow :: x :: u')) (hx : x.2 ≠ Token.punct .curlyOpen)
    (h₁ : FragX lx C (assign true g) (x :: u') v) (ih : Sem C (assignee f) u (pt l .arrow :: x :: u'))
    (ih₁ : Sem C (assign true g) (x :: u') v) : Sem C (assign f g) u v :=
  fun fl ha hv => assignee_enter hA ha h (arrow_rest (ih fl ha) (body_value hx (assign_starts h₁) (ih₁ fl ha hv)))

theorem sem_arrowAnyOpen {l x u'} (hA : lx = true → LoneAsync C u) (h : FragX lx C (assignee f) u (pt l .arrow :: x :: u')) (hx : x.2 ≠ Token.punct .curlyOpen)
    (h₁ : FragX lx C (assignOpen true) (x :: u') v) (ih : Sem C (assignee f) u (pt l .arrow :: x :: u'))
    (ih₁ : Sem C (assignOpen true) (x :: u') v) : Sem C (assignOpen f) u v :=
  fun fl ha hv => assignee_enter hA ha h (arrow_rest (ih fl ha) (body_value hx (assignOpen_starts h₁) (ih₁ fl ha hv)))

theorem body_block (ha : Agree C fl) (ih : Sem C block u v) :
    Fwd (fun n => run n .reifyArrow) Z fl u (some ()) (T false false) v := by
  refine Fwd.call ?_
  show Fwd (fun n => reifyArrow (recOf n)) _ _ _ _ _ _
  unfold reifyArrow
  fb Fwd.expect
  exact Fwd.orTry_first (((ih fl ha).pre rfl).post rfl)

theorem sem_arrowBlock {l u'} (hA : lx = true → LoneAsync C u) (h : FragX lx C (assignee f) u (pt l .arrow :: u')) (ih : Sem C (assignee f) u (pt l .arrow :: u'))
    (ih₁ : Sem C block u' v) : Sem C (assignOpen f) u v :=
  fun fl ha hv => assignee_enter hA ha h (arrow_rest (ih fl ha) (body_block ha ih₁))

theorem sem_asyncBlock {l n} (hn : Named lx C n) (ih : Sem C block u v) :
    Sem C (assignOpen f) (kw l b!"async" :: kw false n :: pt false .arrow :: u) v :=
  fun fl ha hv => async_name hn ha (body_block ha ih)

theorem sem_asyncOpen {l n x} (hn : Named lx C n) (hx : x.2 ≠ Token.punct .curlyOpen)
    (h : FragX lx C (assignOpen true) (x :: u) v) (ih : Sem C (assignOpen true) (x :: u) v) :
    Sem C (assignOpen f) (kw l b!"async" :: kw false n :: pt false .arrow :: x :: u) v :=
  fun fl ha hv => async_name hn ha (body_value hx (assignOpen_starts h) (ih fl ha hv))

theorem expr_next {g : Bool} {l u'} (hu : HeadIs (Starts true) u)
    (h : Fwd (fun n => run n .assignmentExpression) (E true) fl u (some ()) (T false g) u')
    (h₁ : LoopFwd (fun n _ => expressionRound (recOf n)) () (T false false) fl u' () (L false) v) :
    LoopFwd (fun n _ => expressionRound (recOf n)) () (T false false) fl (pt l .comma :: u) () (L false) v := by
  refine LoopFwd.next (st' := ()) ?_ h₁
  unfold expressionRound
  fb Fwd.punc ⟨rfl, rfl⟩
  fb Fwd.expect
  fb Fwd.eat (enter_X ff_assignment hu h)
  exact Fwd.pure.post (by cases g <;> rfl)

theorem sem_exprOpen {x} (hx : x.2 ≠ Token.punct .comma) (h : FragX lx C (assignOpen f) u (x :: v))
    (ih : Sem C (assignOpen f) u (x :: v)) : Sem C (exprOpen f) u (x :: v) := by
  intro fl ha hv
  have hs : LoopFwd (fun n _ => expressionRound (recOf n)) () (T false false) fl (x :: v) () (L false) (x :: v) := by
    refine LoopFwd.stop ?_
    unfold expressionRound
    fb Fwd.noPunc ((headIs_cons.1 hv).ready (by simp)) hx
    exact Fwd.pure
  refine ⟨lift_expr (ih fl ha hv) hs, ?_⟩
  rintro rfl l
  exact expr_next (assignOpen_starts h) (ih fl ha hv) hs

theorem sem_exprOpenMore {l u'} (h : FragX lx C (assign f g) u (pt l .comma :: u')) (ih : Sem C (assign f g) u (pt l .comma :: u'))
    (ih₁ : Sem C (exprOpen true) u' v) : Sem C (exprOpen f) u v := by
  intro fl ha hv
  have hs := (ih₁ fl ha hv).2 rfl l
  refine ⟨lift_expr (ih fl ha follow_pt) hs, ?_⟩
  rintro rfl l
  exact expr_next (assign_starts h) (ih fl ha follow_pt) hs

end assign

end Jsparse.Forward
