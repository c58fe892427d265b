import Verif.Proofs.FwdExpr
/-!
# Primary expressions, members, calls, assignments, arrow functions
-/

namespace Jsparse.Forward

open P Spec FNT

/-! ## Where no expression begins -/

/-- No expression begins with this token. -/
structure Stops (fl : Flags) (t : Token) : Prop where
  ready : ∀ m, Ready m fl t
  prim : primaryType fl t = none
  unary : unaryType t = .unknown
  inc : t ≠ .punct .plusPlus
  dec : t ≠ .punct .minusMinus
  new : t ≠ .ident b!"new"
  super : t ≠ .ident b!"super"
  yield : t ≠ .ident b!"yield"

theorem stops_punct {fl : Flags} {q : Punct}
    (hq : q ∈ [Punct.parenClose, .squareClose, .curlyClose, .semicolon, .colon, .comma, .ellipsis])
    (hc : q = .curlyClose → fl.expectTemplate = false) : Stops fl (.punct q) := by
  have : ∀ q ∈ [Punct.parenClose, .squareClose, .curlyClose, .semicolon, .colon, .comma, .ellipsis],
    slashy (.punct q) = false ∧ q ≠ .plusPlus ∧ q ≠ .minusMinus ∧ unaryType (.punct q) = .unknown ∧
      q ≠ .squareOpen ∧ q ≠ .curlyOpen ∧ q ≠ .parenOpen := by decide
  obtain ⟨h1, h2, h3, h4, h5, h6, h7⟩ := this q hq
  refine ⟨fun m => ⟨by simp [Mode.ready, h1, isRegexTok], ?_⟩, ?_, h4, by simpa using h2, by simpa using h3,
    by simp, by simp, by simp⟩
  · cases q <;> first | rfl | simp [compat, hc rfl]
  · cases q <;> first | rfl | contradiction

theorem stops_eof {fl : Flags} : Stops fl .eof :=
  ⟨fun m => ⟨by simp [Mode.ready, slashy, isRegexTok], rfl⟩, rfl, rfl, by simp, by simp, by simp, by simp, by simp⟩

theorem stops_idle {fl : Flags} {t : Token} (h : Idle t) (hc : compat fl.expectTemplate t = true) :
    Stops fl t ∧ isWord t = false := by
  cases t with
  | punct q =>
    have h' : ∀ q : Punct, q ∉ [Punct.parenOpen, .squareOpen, .curlyOpen, .plus, .minus, .tilde, .exclam, .plusPlus, .minusMinus,
      .slash, .slashEq] → slashy (.punct q) = false ∧ q ≠ .plusPlus ∧ q ≠ .minusMinus ∧ unaryType (.punct q) = .unknown ∧
      q ≠ .squareOpen ∧ q ≠ .curlyOpen ∧ q ≠ .parenOpen := by intro q; cases q <;> decide
    obtain ⟨h1, h2, h3, h4, h5, h6, h7⟩ := h' q h
    refine ⟨⟨fun m => ⟨by simp [Mode.ready, h1, isRegexTok], hc⟩, ?_, h4, by simpa using h2, by simpa using h3,
      by simp, by simp, by simp⟩, rfl⟩
    cases q <;> first | rfl | contradiction
  | eof => exact ⟨stops_eof, rfl⟩
  | _ => exact h.elim

section none

variable {fl : Flags} {x : Tok} {u : List Tok}

theorem no_leftHand {b : Bool} (h : Stops fl x.2) (m : Mode) :
    Fwd (fun n => run n (.leftHandExpression b)) m fl (x :: u) none m.fill (x :: u) := by
  refine Fwd.call ?_
  show Fwd (fun n => parseLeftHandExpression (recOf n) b) _ _ _ _ _ _
  unfold parseLeftHandExpression
  refine Fwd.bind (a := none) (u₁ := x :: u) (m₁ := m.fill) ?_ Fwd.pure
  fb Fwd.noKeyword (h.ready _) h.new
  refine Fwd.orTry_second (u₁ := x :: u) (m₁ := m.fill) ?_ (Fwd.orTry_second (u₁ := x :: u) (m₁ := m.fill) ?_ ?_)
  · refine Fwd.call ?_
    show Fwd (fun n => parsePrimaryExpression (recOf n)) _ _ _ _ _ _
    unfold parsePrimaryExpression
    fb Fwd.getFlags
    fb Fwd.token (h.ready _)
    rw [h.prim]
    exact Fwd.pure
  · refine Fwd.call ?_
    show Fwd (fun n => parseMetaPropertyExpression) _ _ _ _ _ _
    unfold parseMetaPropertyExpression
    fb Fwd.noKeyword (h.ready _) h.new
    exact Fwd.pure
  · refine Fwd.call ?_
    show Fwd (fun n => parseSuperExpression) _ _ _ _ _ _
    unfold parseSuperExpression
    fb Fwd.noKeyword (h.ready _) h.super
    exact Fwd.pure

theorem no_conditional (h : Stops fl x.2) (m : Mode) :
    Fwd (fun n => run n .conditionalExpression) m fl (x :: u) none m.fill (x :: u) := by
  have h1 : Fwd (fun n => run n .updateExpression) m.fill fl (x :: u) none m.fill (x :: u) := by
    refine Fwd.call ?_
    show Fwd (fun n => parseUpdateExpression (recOf n)) _ _ _ _ _ _
    unfold parseUpdateExpression
    refine Fwd.bind (a := false) (u₁ := x :: u) (m₁ := m.fill) ?_ ?_
    · fb Fwd.noPunc (h.ready _) h.inc
      fb Fwd.noPunc (h.ready _) h.dec
      exact Fwd.pure
    · simp only [Bool.false_eq_true, if_false]
      fb no_leftHand h _
      exact Fwd.pure
  have h2 : Fwd (fun n => run n .unaryExpression) m fl (x :: u) none m.fill (x :: u) := by
    refine Fwd.call ?_
    show Fwd (fun n => parseUnaryExpression (recOf n)) _ _ _ _ _ _
    unfold parseUnaryExpression
    fb Fwd.token (h.ready _)
    rw [h.unary]
    fb h1
    exact Fwd.pure
  have h3 : Fwd (fun n => run n .exponentialExpression) m fl (x :: u) none m.fill (x :: u) := by
    refine Fwd.call ?_
    show Fwd (fun n => parseExponentialExpression (recOf n)) _ _ _ _ _ _
    unfold parseExponentialExpression
    fb h2
    exact Fwd.pure
  have h4 : Fwd (fun n => run n (.fancy 0)) m fl (x :: u) none m.fill (x :: u) := by
    refine Fwd.call ?_
    show Fwd (fun n => parseFancy (recOf n) 0) _ _ _ _ _ _
    unfold parseFancy
    fb h3
    exact Fwd.pure
  have h5 : Fwd (fun n => run n .logicalOrExpression) m fl (x :: u) none m.fill (x :: u) := Fwd.call h4
  refine Fwd.call ?_
  show Fwd (fun n => parseConditionalExpression (recOf n)) _ _ _ _ _ _
  unfold parseConditionalExpression
  fb h5
  exact Fwd.pure

theorem no_yield (h : x.2 ≠ .ident b!"yield") {m : Mode} (hr : Ready m fl x.2) :
    Fwd (fun n => run n .yieldExpression) m fl (x :: u) none m.fill (x :: u) := by
  refine Fwd.call ?_
  show Fwd (fun n => parseYieldExpression (recOf n)) _ _ _ _ _ _
  unfold parseYieldExpression
  fb Fwd.noKeyword hr h
  exact Fwd.pure

/-- At a token that is not a word. -/
theorem no_assignment (h : Stops fl x.2) (hw : isWord x.2 = false) (m : Mode) :
    Fwd (fun n => run n .assignmentExpression) m fl (x :: u) none m.fill (x :: u) := by
  refine Fwd.call ?_
  show Fwd (fun n => parseAssignmentExpression (recOf n)) _ _ _ _ _ _
  unfold parseAssignmentExpression
  fb no_yield h.yield (h.ready _)
  fb Fwd.getFlags
  fb Fwd.one (h.ready _) hw
  simp only [maybeAsyncArrow, Bool.false_eq_true, if_false]
  fb Fwd.pure
  unfold assignmentRest
  fb no_conditional h _
  exact Fwd.pure

/-- At a word. -/
theorem no_assignment_word {l k y} (h : Stops fl (.ident k)) (ha : k ≠ b!"async") (hy : LookOk fl k y.2) (m : Mode) :
    Fwd (fun n => run n .assignmentExpression) m fl (kw l k :: y :: u) none m.fill.two (kw l k :: y :: u) := by
  refine Fwd.call ?_
  show Fwd (fun n => parseAssignmentExpression (recOf n)) _ _ _ _ _ _
  unfold parseAssignmentExpression
  fb no_yield (x := kw l k) h.yield (h.ready _)
  fb Fwd.getFlags
  refine Fwd.bind (Fwd.two (h.ready _) hy) ?_
  have hr : Fwd (fun n => assignmentRest (recOf n)) m.fill.two fl (kw l k :: y :: u) none m.fill.two (kw l k :: y :: u) := by
    unfold assignmentRest
    fb no_conditional (x := kw l k) h _
    exact Fwd.pure
  cases maybeAsyncArrow fl (some y) with
  | false =>
    simp only [Bool.false_eq_true, if_false]
    fb Fwd.pure
    exact hr
  | true =>
    simp only [if_true]
    fb Fwd.noKeyword (x := kw l k) (h.ready _) (by simpa using ha)
    exact hr

theorem no_expression_of {m m' : Mode} {v : List Tok}
    (h : Fwd (fun n => run n .assignmentExpression) m fl v none m' v) :
    Fwd (fun n => run n .expression) m fl v none m' v := by
  refine Fwd.call ?_
  show Fwd (fun n => parseExpression (recOf n)) _ _ _ _ _ _
  unfold parseExpression
  fb h
  exact Fwd.pure

end none

/-! ## Primary expressions -/

theorem Agree.in_true {C : Ctx} {fl : Flags} (ha : Agree C fl) :
    Agree { C with in_ := true } (Fwd.setFlag .fin true fl) := ⟨rfl, ha.await, ha.strict, ha.default⟩

theorem Agree.in_false {C : Ctx} {fl : Flags} (ha : Agree C fl) :
    Agree { C with in_ := false } (Fwd.setFlag .fin false fl) := ⟨rfl, ha.await, ha.strict, ha.default⟩

theorem Agree.template {C : Ctx} {fl : Flags} (ha : Agree C fl) {b : Bool} :
    Agree C (Fwd.setFlag .template b fl) := ⟨ha.in_, ha.await, ha.strict, ha.default⟩

section prim

variable {lx : Bool} {C : Ctx} {fl : Flags} {f e g : Bool} {u v : List Tok}

theorem assign_starts (h : FragX lx C (assign f g) u v) : HeadIs (Starts true) u := heads h rfl
theorem expr_starts (h : FragX lx C (FNT.expr f) u v) : HeadIs (Starts true) u := heads h rfl

theorem rank_punct {a l : Bool} {q : Punct} {k : Nat} (h : rank true (true, .punct q) ≤ k ∧ q ≠ .plusPlus ∧ q ≠ .minusMinus) :
    rank a (pt l q) ≤ k := by
  obtain ⟨h1, h2, h3⟩ := h
  refine Nat.le_trans (Nat.le_of_eq ?_) h1
  cases q <;> first | rfl | contradiction

theorem follow_pt {k : Nat} {l : Bool} {q : Punct}
    (h : rank true (true, .punct q) ≤ k ∧ q ≠ .plusPlus ∧ q ≠ .minusMinus := by decide)
    (h' : slashy (.punct q) = false ∧ q ≠ .curlyClose := by decide) : Follow fl k e (pt l q :: v) :=
  follow_punct (h := h') (hk := rank_punct h)

/-- The closing token of a pair. -/
theorem follow_curly {k : Nat} {l : Bool} (h : fl.expectTemplate = false) : Follow fl k e (pt l .curlyClose :: v) := by
  refine follow_cons.2 ⟨⟨by simp [compat, h], rfl, ?_, ?_⟩, ?_⟩
  · intro h; cases h
  · intro h; cases h
  · exact .of (Nat.le_trans (rank_punct (k := 0) (by decide)) (Nat.zero_le _))

theorem more_follow {g₀ : Bool} (h : FragX lx C (more g₀ g) u v) (hv : Follow fl 0 false v) : Follow fl 1 false u := by
  cases h
  case moreNil => exact hv.mono (by omega)
  case moreCons => exact follow_pt

theorem plain_primary {n : Bytes} (hs : Keen C fl) (h : Named lx C n) :
    primaryType fl (.ident n) = some .ident := by
  simp [primaryType, h.ne (k := b!"this") (by decide), h.ne (k := b!"true") (by decide),
    h.ne (k := b!"false") (by decide), h.ne (k := b!"null") (by decide), h.ne (k := b!"function") (by decide),
    h.ne (k := b!"class") (by decide), named_binding hs h]

theorem sem_name {l n} (h : Named lx C n) (hn : NotNext b!"function" v) : Sem C (prim f true f) (kw l n :: v) v := by
  intro fl ha hv
  obtain ⟨y, w, rfl, hy⟩ := hv
  refine Fwd.call ?_
  show Fwd (fun n => parsePrimaryExpression (recOf n)) _ _ _ _ _ _
  unfold parsePrimaryExpression
  fb Fwd.getFlags
  fb Fwd.token (x := kw l n) ⟨rfl, rfl⟩
  rw [plain_primary ha.keen h]
  refine Fwd.must (Fwd.call ?_)
  show Fwd (fun n => parseIdentifierReferenceExpression) _ _ _ _ _ _
  unfold parseIdentifierReferenceExpression
  fb Fwd.two ⟨rfl, rfl⟩ (hy.1.look fun _ => named_binding ha.keen h).1
  have : aheadIsFunction (some y) = false := by
    obtain ⟨l', t⟩ := y
    have ht : t ≠ .ident b!"function" := by
      rintro rfl
      exact hn _ _ rfl
    simpa [aheadIsFunction] using ht
  rw [this]
  simp only [Bool.false_eq_true, if_false]
  fb Fwd.binding ⟨rfl, rfl⟩ (named_binding ha.keen h)
  exact Fwd.pure.post (by cases f <;> rfl)

theorem sem_word {l k} (hk : k ∈ [b!"this", b!"null", b!"true", b!"false"]) :
    Sem C (prim f false f) (kw l k :: v) v := by
  intro fl ha _
  refine Fwd.call ?_
  show Fwd (fun n => parsePrimaryExpression (recOf n)) _ _ _ _ _ _
  unfold parsePrimaryExpression
  fb Fwd.getFlags
  fb Fwd.token (x := kw l k) ⟨rfl, rfl⟩
  simp only [List.mem_cons, List.not_mem_nil, or_false] at hk
  rcases hk with rfl | rfl | rfl | rfl
  · refine Fwd.must (Fwd.call ?_)
    show Fwd (fun n => parseThisExpression) _ _ _ _ _ _
    unfold parseThisExpression
    fb Fwd.keyword ⟨rfl, rfl⟩
    exact Fwd.pure.post (by cases f <;> rfl)
  · refine Fwd.must (Fwd.call ?_)
    show Fwd (fun n => parseNullExpression) _ _ _ _ _ _
    unfold parseNullExpression
    fb Fwd.keyword ⟨rfl, rfl⟩
    exact Fwd.pure.post (by cases f <;> rfl)
  · refine Fwd.must (Fwd.call ?_)
    show Fwd (fun n => parseTrueExpression) _ _ _ _ _ _
    unfold parseTrueExpression
    fb Fwd.keyword ⟨rfl, rfl⟩
    exact Fwd.pure.post (by cases f <;> rfl)
  · refine Fwd.must (Fwd.call ?_)
    show Fwd (fun n => parseFalseExpression) _ _ _ _ _ _
    unfold parseFalseExpression
    fb Fwd.keyword ⟨rfl, rfl⟩
    exact Fwd.pure.post (by cases f <;> rfl)

theorem sem_classWord {l} : Sem C (prim f false f) (kw l b!"class" :: v) v := by
  intro fl ha _
  refine Fwd.call ?_
  show Fwd (fun n => parsePrimaryExpression (recOf n)) _ _ _ _ _ _
  unfold parsePrimaryExpression
  fb Fwd.getFlags
  fb Fwd.token (x := kw l b!"class") ⟨rfl, rfl⟩
  refine Fwd.must (Fwd.call ?_)
  show Fwd (fun n => parseClassExpression) _ _ _ _ _ _
  unfold parseClassExpression
  fb Fwd.keyword ⟨rfl, rfl⟩
  exact Fwd.pure.post (by cases f <;> rfl)

theorem sem_num {l x} : Sem C (prim f f true) ((l, .num x) :: v) v := by
  intro fl ha _
  refine Fwd.call ?_
  show Fwd (fun n => parsePrimaryExpression (recOf n)) _ _ _ _ _ _
  unfold parsePrimaryExpression
  fb Fwd.getFlags
  fb Fwd.token (x := (l, .num x)) ⟨rfl, rfl⟩
  refine Fwd.must (Fwd.call ?_)
  show Fwd (fun n => parseNumericExpression) _ _ _ _ _ _
  unfold parseNumericExpression
  fb Fwd.numeric ⟨rfl, rfl⟩
  exact Fwd.pure.post (by cases f <;> rfl)

theorem sem_str {l x} : Sem C (prim f f true) ((l, .str x) :: v) v := by
  intro fl ha _
  refine Fwd.call ?_
  show Fwd (fun n => parsePrimaryExpression (recOf n)) _ _ _ _ _ _
  unfold parsePrimaryExpression
  fb Fwd.getFlags
  fb Fwd.token (x := (l, .str x)) ⟨rfl, rfl⟩
  refine Fwd.must (Fwd.call ?_)
  show Fwd (fun n => parseStringExpression) _ _ _ _ _ _
  unfold parseStringExpression
  fb Fwd.string ⟨rfl, rfl⟩
  exact Fwd.pure.post (by cases f <;> rfl)

theorem sem_regex {l x y} : Sem C (prim f f true) ((l, .regex x y) :: v) v := by
  intro fl ha _
  refine Fwd.call ?_
  show Fwd (fun n => parsePrimaryExpression (recOf n)) _ _ _ _ _ _
  unfold parsePrimaryExpression
  fb Fwd.getFlags
  fb Fwd.token (x := (l, .regex x y)) ⟨rfl, rfl⟩
  refine Fwd.must (Fwd.call ?_)
  show Fwd (fun n => parseRegularExpressionLiteralExpression) _ _ _ _ _ _
  unfold parseRegularExpressionLiteralExpression
  fb Fwd.regex ⟨rfl, rfl⟩
  exact Fwd.pure.post (by cases f <;> rfl)

theorem sem_array {l l'} (ih : Sem C elems u (pt l' .squareClose :: v)) :
    Sem C (prim f false true) (pt l .squareOpen :: u) v := by
  intro fl ha _
  refine Fwd.call ?_
  show Fwd (fun n => parsePrimaryExpression (recOf n)) _ _ _ _ _ _
  unfold parsePrimaryExpression
  fb Fwd.getFlags
  fb Fwd.token (x := pt l .squareOpen) ⟨rfl, rfl⟩
  refine Fwd.must (Fwd.call ?_)
  show Fwd (fun n => parseArrayLiteralExpression (recOf n)) _ _ _ _ _ _
  unfold parseArrayLiteralExpression
  fb Fwd.punc ⟨rfl, rfl⟩
  fb LoopFwd.fwd ((ih fl ha (headIs_cons.2 rfl)).pre (by cases f <;> rfl))
  fb Fwd.eat (Fwd.punc ⟨rfl, rfl⟩)
  exact Fwd.pure.post rfl

theorem sem_object {l l'} (ih : Sem C props u (pt l' .curlyClose :: v)) :
    Sem C (prim f false true) (pt l .curlyOpen :: u) v := by
  intro fl ha _
  refine Fwd.call ?_
  show Fwd (fun n => parsePrimaryExpression (recOf n)) _ _ _ _ _ _
  unfold parsePrimaryExpression
  fb Fwd.getFlags
  fb Fwd.token (x := pt l .curlyOpen) ⟨rfl, rfl⟩
  refine Fwd.must (Fwd.call ?_)
  show Fwd (fun n => parseObjectLiteralExpression (recOf n)) _ _ _ _ _ _
  unfold parseObjectLiteralExpression
  refine Fwd.withFlag ?_
  fb Fwd.punc ⟨rfl, rfl⟩
  fb LoopFwd.fwd ((ih _ ha.template rfl (headIs_cons.2 rfl)).pre (by cases f <;> rfl))
  fb Fwd.eat (Fwd.punc ⟨rfl, rfl⟩)
  exact Fwd.pure.post rfl

/-- A parenthesized expression or the parameters of an arrow function. -/
theorem cover_prim {l l'} {m m' : Mode} (h : Fwd (fun n => coverInner (recOf n)) X fl u () m (pt l' .parenClose :: v))
    (hm : Mode.le (m.fill.pop false) m' = true) :
    Fwd (fun n => run n .primaryExpression) (E f) fl (pt l .parenOpen :: u) (some ()) m' v := by
  refine Fwd.call ?_
  show Fwd (fun n => parsePrimaryExpression (recOf n)) _ _ _ _ _ _
  unfold parsePrimaryExpression
  fb Fwd.getFlags
  fb Fwd.token (x := pt l .parenOpen) ⟨rfl, rfl⟩
  refine Fwd.must (Fwd.call ?_)
  show Fwd (fun n => parseCoverParenthesizedExpression (recOf n)) _ _ _ _ _ _
  simp only [parseCover_eq]
  fb Fwd.punc ⟨rfl, rfl⟩
  fb Fwd.expect
  fb h
  fb Fwd.eat (Fwd.punc ⟨by simp [Mode.ready, slashy, isRegexTok], rfl⟩)
  exact Fwd.pure.post hm

theorem sem_paren {g₀ l l' u₁} (h₁ : FragX lx C (assign true g₀) u u₁) (h₂ : FragX lx C (more g₀ g) u₁ (pt l' .parenClose :: v))
    (ih₁ : Sem C (assign true g₀) u u₁) (ih₂ : Sem C (more g₀ g) u₁ (pt l' .parenClose :: v)) :
    Sem C (prim f g true) (pt l .parenOpen :: u) v := by
  intro fl ha _
  have hf : Follow fl 0 false (pt l' .parenClose :: v) := follow_pt
  refine cover_prim (m := L g) (l' := l') ?_ (by cases g <;> rfl)
  unfold coverInner
  fb enter_X ff_assignment (assign_starts h₁) (ih₁ fl ha (more_follow h₂ hf))
  exact LoopFwd.fwd (ih₂ fl ha hf).2

theorem fwd_functionRest {star : Bool} (ha : Agree C fl)
    (ih : Sem { C with await := false, yield := star } function u v) :
    Fwd (fun n => functionRest (recOf n) false star) S fl u (some ()) Z v := by
  unfold functionRest
  cases star with
  | false =>
    simp only [Bool.false_eq_true, if_false]
    refine Fwd.withFlag (Fwd.withFlag ?_)
    obtain ⟨u₁, h1, h2⟩ := ih (Fwd.setFlag .yield false (Fwd.setFlag .await false fl)) ⟨ha.in_, rfl, ha.strict, ha.default⟩
    fb Fwd.eat h1
    fb Fwd.eat h2
    exact Fwd.pure
  | true =>
    simp only [Bool.false_eq_true, if_false, if_true]
    refine Fwd.withFlag (Fwd.withFlag ?_)
    obtain ⟨u₁, h1, h2⟩ := ih (Fwd.setFlag .yield true (Fwd.setFlag .await false fl)) ⟨ha.in_, rfl, ha.strict, ha.default⟩
    fb Fwd.eat h1
    fb Fwd.eat h2
    exact Fwd.pure

/-- A function expression behind its first token. -/
theorem func_prim {l y w} (hy : Quiet y.2) (hn : y.2 ≠ .ident b!"function")
    (h : Fwd (fun n => do
      let star ← punc .star
      let _ ← bindingIdentifier
      functionRest (recOf n) false star.isSome) S fl (y :: w) (some ()) Z v) :
    Fwd (fun n => run n .primaryExpression) (E f) fl (kw l b!"function" :: y :: w) (some ()) (T false true) v := by
  refine Fwd.call ?_
  show Fwd (fun n => parsePrimaryExpression (recOf n)) _ _ _ _ _ _
  unfold parsePrimaryExpression
  fb Fwd.getFlags
  fb Fwd.token (x := kw l b!"function") ⟨rfl, rfl⟩
  refine Fwd.must (Fwd.call ?_)
  show Fwd (fun n => parseFunctionExpression (recOf n)) _ _ _ _ _ _
  unfold parseFunctionExpression
  refine Fwd.bind (Fwd.two ⟨rfl, rfl⟩ ⟨hy.2.2 _, fun h => (by rw [hy.1] at h; cases h), fun h => (by rw [hy.2.1] at h; cases h)⟩) ?_
  have : isAsyncFunction (some y) = false := by
    obtain ⟨l', t⟩ := y
    cases l' <;> cases t <;> first | rfl | (simpa [isAsyncFunction] using hn)
  simp only [this]
  unfold functionKeyword
  simp only [Bool.false_eq_true, if_false]
  intro K s hs
  obtain ⟨s₁, ⟨N₁, e₁⟩, a₁⟩ := (Fwd.keyword (fl := fl) (l := l) (u := y :: w) (k := b!"function") (m := (E f).fill.fill.two) ⟨rfl, rfl⟩) K s hs
  obtain ⟨s₂, ⟨N₂, e₂⟩, a₂⟩ := (h.post (m₁ := T false true) rfl) K s₁ (a₁.weaken (by cases f <;> rfl))
  refine ⟨s₂, ⟨max N₁ N₂, fun n hn => ?_⟩, a₂⟩
  have h1 := e₁ n (by omega)
  have h2 := e₂ n (by omega)
  rw [← h2]
  simp only [bind_apply, h1]
  cases punc .star s₁ <;> rfl

theorem sem_func {l} (h : FragX lx { C with await := false, yield := false } function u v)
    (ih : Sem { C with await := false, yield := false } function u v) :
    Sem C (prim f false true) (kw l b!"function" :: u) v := by
  intro fl ha _
  obtain ⟨⟨l', t⟩, w, rfl, hx⟩ := heads h rfl
  obtain rfl : t = .punct .parenOpen := hx
  refine func_prim ⟨rfl, rfl, fun _ => rfl⟩ (by simp) ?_
  fb Fwd.noPunc (x := pt l' .parenOpen) ⟨rfl, rfl⟩ (by simp)
  fb Fwd.noBinding (x := pt l' .parenOpen) ⟨rfl, rfl⟩ (by simp)
  exact (fwd_functionRest ha ih).pre rfl

theorem sem_funcName {l l' n} (hn : Named lx C n) (ih : Sem { C with await := false, yield := false } function u v) :
    Sem C (prim f false true) (kw l b!"function" :: kw l' n :: u) v := by
  intro fl ha _
  refine func_prim (quiet_word n) (by simpa using hn.ne (k := b!"function") (by decide)) ?_
  fb Fwd.noPunc (x := kw l' n) ⟨rfl, rfl⟩ (by simp)
  fb Fwd.binding ⟨rfl, rfl⟩ (named_binding ha.keen hn)
  exact (fwd_functionRest ha ih).pre rfl

theorem sem_gen {l l'} (h : FragX lx { C with await := false, yield := true } function u v)
    (ih : Sem { C with await := false, yield := true } function u v) :
    Sem C (prim f false true) (kw l b!"function" :: pt l' .star :: u) v := by
  intro fl ha _
  obtain ⟨⟨l'', t⟩, w, rfl, hx⟩ := heads h rfl
  obtain rfl : t = .punct .parenOpen := hx
  refine func_prim ⟨rfl, rfl, fun _ => rfl⟩ (by simp) ?_
  fb Fwd.punc ⟨rfl, rfl⟩
  fb Fwd.noBinding (x := pt l'' .parenOpen) ⟨rfl, rfl⟩ (by simp)
  exact (fwd_functionRest ha ih).pre rfl

theorem sem_genName {l l' l'' n} (hn : Named lx C n) (ih : Sem { C with await := false, yield := true } function u v) :
    Sem C (prim f false true) (kw l b!"function" :: pt l' .star :: kw l'' n :: u) v := by
  intro fl ha _
  refine func_prim ⟨rfl, rfl, fun _ => rfl⟩ (by simp) ?_
  fb Fwd.punc ⟨rfl, rfl⟩
  fb Fwd.binding ⟨rfl, rfl⟩ (named_binding ha.keen hn)
  exact (fwd_functionRest ha ih).pre rfl

theorem plain_template {l c x} : Fwd (fun n => run n .templateLiteralExpression) (E f) fl
    ((l, .template .noSubstitution c x) :: v) (some ()) { z0 := true, z1 := !f } v := by
  refine Fwd.call ?_
  show Fwd (fun n => parseTemplateLiteralExpression (recOf n)) _ _ _ _ _ _
  unfold parseTemplateLiteralExpression
  fb Fwd.templateStart ⟨rfl, rfl⟩ (.inl rfl)
  exact Fwd.pure

theorem subst_template {l c x} (ha : Agree C fl) (ih : Sem C FNT.template u v) :
    Fwd (fun n => run n .templateLiteralExpression) (E f) fl ((l, .template .head c x) :: u) (some ()) Z v := by
  refine Fwd.call ?_
  show Fwd (fun n => parseTemplateLiteralExpression (recOf n)) _ _ _ _ _ _
  unfold parseTemplateLiteralExpression
  fb Fwd.templateStart ⟨rfl, rfl⟩ (.inr rfl)
  simp only [if_true]
  fb Fwd.withFlag (LoopFwd.fwd ((ih _ ha.template rfl).pre (by cases f <;> rfl)))
  exact Fwd.pure

theorem sem_plainTemplate {l c x} : Sem C (prim f f true) ((l, .template .noSubstitution c x) :: v) v := by
  intro fl ha _
  refine Fwd.call ?_
  show Fwd (fun n => parsePrimaryExpression (recOf n)) _ _ _ _ _ _
  unfold parsePrimaryExpression
  fb Fwd.getFlags
  fb Fwd.token (x := (l, .template .noSubstitution c x)) ⟨rfl, rfl⟩
  refine Fwd.must ?_
  exact ((plain_template (f := f)).pre (by cases f <;> rfl)).post (by cases f <;> rfl)

theorem sem_substTemplate {l c x} (ih : Sem C FNT.template u v) :
    Sem C (prim f false true) ((l, .template .head c x) :: u) v := by
  intro fl ha _
  refine Fwd.call ?_
  show Fwd (fun n => parsePrimaryExpression (recOf n)) _ _ _ _ _ _
  unfold parsePrimaryExpression
  fb Fwd.getFlags
  fb Fwd.token (x := (l, .template .head c x)) ⟨rfl, rfl⟩
  refine Fwd.must ?_
  exact ((subst_template (f := f) ha ih).pre (by cases f <;> rfl)).post rfl

/-- A method that is called behind a token without `expect_expression`. -/
theorem enter_Z {F : Nat → P (Option Unit)} {b : Bool} (hF : ∀ n, FillFirst (F n)) (hr : NotRegex u)
    (hu : HeadIs (Starts b) u) {a : Option Unit} {m : Mode} (h : Fwd F (E true) fl u a m v) : Fwd F Z fl u a m v := by
  obtain ⟨x, u', rfl, hx⟩ := hu
  exact Fwd.enter hF (hx.ready fun h => by rw [notRegex_tok hr] at h; cases h) (h.pre rfl)

theorem template_follow {l f c x} (hf : f = TemplateFormat.middle ∨ f = .tail) (ht : fl.expectTemplate = true) :
    Follow fl 0 false ((l, .template f c x) :: v) := by
  refine follow_cons.2 ⟨⟨?_, rfl, fun h => (by cases h), fun h => (by cases h)⟩, ?_⟩
  · rcases hf with rfl | rfl <;> exact ht
  · rcases hf with rfl | rfl <;> exact .of (by simp [rank])

theorem sem_templateLast {l c x} (hr : NotRegex u) (h : FragX lx C (FNT.expr true) u ((l, .template .tail c x) :: v))
    (ih : Sem C (FNT.expr true) u ((l, .template .tail c x) :: v)) : Sem C FNT.template u v := by
  intro fl ha ht
  refine LoopFwd.stop ?_
  unfold templateRound
  fb Fwd.eat (enter_Z ff_expression hr (expr_starts h) (ih fl ha (template_follow (.inr rfl) ht)))
  fb Fwd.eat (Fwd.templateNext ⟨rfl, ht⟩ (.inr rfl))
  simp only [if_true]
  exact Fwd.pure

theorem sem_templateCons {l c x u'} (hr : NotRegex u) (h : FragX lx C (FNT.expr true) u ((l, .template .middle c x) :: u'))
    (ih : Sem C (FNT.expr true) u ((l, .template .middle c x) :: u')) (ih₁ : Sem C FNT.template u' v) :
    Sem C FNT.template u v := by
  intro fl ha ht
  refine LoopFwd.next (st' := ()) ?_ (ih₁ fl ha ht)
  unfold templateRound
  fb Fwd.eat (enter_Z ff_expression hr (expr_starts h) (ih fl ha (template_follow (.inl rfl) ht)))
  fb Fwd.eat (Fwd.templateNext ⟨rfl, ht⟩ (.inl rfl))
  simp only [reduceCtorEq, if_false]
  exact Fwd.pure

end prim

end Jsparse.Forward
