import Verif.Proofs.FwdClass
/-!
# Statements and declarations
-/

namespace Jsparse.Forward

open P Spec FNT

section stmt_

variable {lx : Bool} {C : Ctx} {fl : Flags} {f e g : Bool} {u v : List Tok} {m : Mode}

/-! ## Semicolons -/

theorem _root_.Jsparse.Spec.Begins.low {x : Tok} (h : Begins x.2) {a : Bool} : Low 0 (rank a x) := by
  obtain ⟨l, t⟩ := x
  cases t with
  | punct q =>
    cases q <;> first
      | exact h.elim
      | (simp [Low, rank, assignmentOperators, binaryOperators]; done)
      | (cases l <;> simp [Low, rank, assignmentOperators, binaryOperators]; done)
  | ident n =>
    have : n ∉ [b!"in", b!"instanceof"] := h
    simp_all [Low, rank]
  | template f => cases f <;> first | exact h.elim | (simp [Low, rank]; done)
  | regex => exact h.elim
  | _ => exact .of (Nat.le_refl 0)

theorem _root_.Jsparse.Spec.Begins.notColon {t : Token} (h : Begins t) : t ≠ .punct .colon := by
  rintro rfl
  exact h

theorem _root_.Jsparse.Spec.Inserts.plain {x : Tok} (h : Inserts x) (ht : fl.expectTemplate = false) : Plain fl x.2 := by
  rcases h with h | h | h
  · rw [h]; exact curly_plain ht
  · rw [h]; exact fun m => ⟨by simp [Mode.ready, slashy, isRegexTok], rfl⟩
  · exact h.2.quiet.plain

theorem _root_.Jsparse.Spec.Inserts.calm {x : Tok} (h : Inserts x) : Calm x.2 := by
  rcases h with h | h | h
  · rw [h]; exact ⟨rfl, rfl, rfl⟩
  · rw [h]; exact ⟨rfl, rfl, rfl⟩
  · exact h.2.quiet.calm

theorem _root_.Jsparse.Spec.Inserts.fol {x : Tok} (h : Inserts x) (ht : fl.expectTemplate = false) : Fol fl 0 false x := by
  obtain ⟨l, t⟩ := x
  have hc := h.calm
  refine ⟨⟨by rw [ht]; exact hc.2.2, hc.2.1, fun hs => ?_, fun h => by cases h⟩, ?_⟩
  · rw [hc.1] at hs; cases hs
  · rcases h with h | h | h
    · obtain rfl : t = _ := h
      exact .of (rank_punct (by decide))
    · obtain rfl : t = _ := h
      exact .of (Nat.le_refl 0)
    · exact h.2.low

theorem semi_follow (h : Semi u v) (ht : fl.expectTemplate = false) : Follow fl 0 false u := by
  cases h with
  | token => exact follow_pt
  | insert h => exact follow_cons.2 (h.fol ht)

/-- The token behind an expression statement can be looked at and is no colon. -/
theorem semi_next (h : Semi u v) (ht : fl.expectTemplate = false) : HeadIs (NextOk fl true false) u := by
  cases h with
  | token => exact headIs_cons.2 punct_nextOk
  | insert h =>
    have := (h.fol ht).1
    refine headIs_cons.2 ⟨this.1, this.2.1, this.2.2.1, fun _ => ?_⟩
    rcases h with h | h | h
    · simp [h]
    · simp [h]
    · exact h.2.notColon

theorem Fwd.semicolon {l w} (hr : Ready m fl (.punct .semicolon)) :
    Fwd (fun _ => semicolonInner w) m fl (pt l .semicolon :: u) (some ()) (m.fill.pop false) u := by
  simp only [semicolonInner_eq]
  fb Fwd.take (f := isSemicolon) (a := ()) (x := pt l .semicolon) hr rfl
  exact Fwd.pure

theorem Fwd.noSemicolon {w} {x : Tok} (hr : Plain fl x.2) (hx : x.2 ≠ .punct .semicolon)
    (h : semicolonExists w x.1 x.2 = some false) :
    Fwd (fun _ => semicolonInner w) m fl (x :: u) (some ()) m.fill.fill.expect (x :: u) := by
  simp only [semicolonInner_eq]
  fb Fwd.leave (f := isSemicolon) (hr _) (by simp [isSemicolon, hx])
  fb Fwd.tokenAndLine (hr _)
  rw [h]
  fb Fwd.expect
  exact Fwd.pure

theorem semi_fwd (h : Semi u v) (ht : fl.expectTemplate = false) :
    Fwd (fun _ => semicolonInner false) S fl u (some ()) S v := by
  cases h with
  | token => exact (Fwd.semicolon ⟨rfl, rfl⟩).post rfl
  | @insert x v h =>
    refine (Fwd.noSemicolon (h.plain ht) ?_ ?_).post rfl
    · rcases h with h | h | h
      · simp [h]
      · simp [h]
      · intro h'; rw [h'] at h; exact h.2
    · obtain ⟨l, t⟩ := x
      rcases h with h | h | ⟨h, h'⟩
      · obtain rfl : t = _ := h
        rfl
      · obtain rfl : t = _ := h
        rfl
      · obtain rfl : l = true := h
        cases t with
        | punct q => cases q <;> first | rfl | exact h'.elim
        | _ => rfl

theorem semiDo_fwd (h : SemiDo u v) (hv : HeadIs Calm v) (ht : fl.expectTemplate = false) :
    Fwd (fun _ => semicolonInner true) S fl u (some ()) S v := by
  cases h with
  | token => exact (Fwd.semicolon ⟨rfl, rfl⟩).post rfl
  | @insert x v h =>
    have hp : Plain fl x.2 := fun _ => (headIs_cons.1 hv).ready ht
    refine (Fwd.noSemicolon hp h ?_).post rfl
    obtain ⟨l, t⟩ := x
    cases t with
    | punct q => cases q <;> first | rfl | exact absurd rfl h
    | _ => rfl

/-- A semicolon or nothing that is an expression. -/
theorem semi_head (h : Semi u v) (ht : fl.expectTemplate = false) :
    ∃ x w, u = x :: w ∧ Plain fl x.2 ∧ (x.1 = false → Stops fl x.2 ∧ isWord x.2 = false) := by
  cases h with
  | @token l w =>
    exact ⟨_, _, rfl, fun m => ⟨rfl, rfl⟩, fun _ => ⟨stops_punct (q := .semicolon) (by decide) (by simp), rfl⟩⟩
  | @insert x w h =>
    refine ⟨x, w, rfl, h.plain ht, fun hl => ?_⟩
    rcases h with h | h | h
    · rw [h]; exact ⟨stops_punct (by decide) fun _ => ht, rfl⟩
    · rw [h]; exact ⟨stops_eof, rfl⟩
    · rw [hl] at h; cases h.1

/-! ## The dispatch of statements -/

theorem calm_ready (h : HeadIs Calm v) (ht : fl.expectTemplate = false) : HeadIs (Plain fl) v :=
  h.mono fun _ h _ => h.ready ht

theorem statement_of {x : Tok} (hx : Quiet x.2) {a : Option Unit} {m' : Mode}
    (h : Fwd (fun n => match statementType x.2 with
      | .block => must ((recOf n).call .blockStatement)
      | .empty => must ((recOf n).call .emptyStatement)
      | .var => must ((recOf n).call .variableStatement)
      | .if => must ((recOf n).call .ifStatement)
      | .switch => must ((recOf n).call .breakableStatement)
      | .while => must ((recOf n).call .breakableStatement)
      | .do => must ((recOf n).call .breakableStatement)
      | .for => must ((recOf n).call .breakableStatement)
      | .continue => must ((recOf n).call .continueStatement)
      | .break => must ((recOf n).call .breakStatement)
      | .return => must ((recOf n).call .returnStatement)
      | .with => must ((recOf n).call .withStatement)
      | .throw => must ((recOf n).call .throwStatement)
      | .try => must ((recOf n).call .tryStatement)
      | .debugger => must ((recOf n).call .debuggerStatement)
      | .unknown => orTry ((recOf n).call .labelledStatement) ((recOf n).call .expressionStatement))
      V fl (x :: u) a m' v) :
    Fwd (fun n => run n .statement) W fl (x :: u) a m' v := by
  refine Fwd.call ?_
  show Fwd (fun n => parseStatement (recOf n)) _ _ _ _ _ _
  unfold parseStatement
  fb Fwd.expect
  fb Fwd.token (hx.ready _ _)
  exact h.pre rfl

theorem no_declaration {x : Tok} (hx : Quiet x.2)
    (h : x.2 ∉ [Token.ident b!"class", .ident b!"function", .ident b!"let", .ident b!"const"]) :
    Fwd (fun n => run n .declaration) W fl (x :: u) none W (x :: u) := by
  refine Fwd.call ?_
  show Fwd (fun n => parseDeclaration (recOf n)) _ _ _ _ _ _
  unfold parseDeclaration
  fb Fwd.expect
  fb Fwd.token (hx.ready _ _)
  have : declType x.2 = none := by
    simp only [List.mem_cons, List.not_mem_nil, or_false, not_or] at h
    cases ht : x.2 with
    | ident n =>
      rw [ht] at h
      simp only [Token.ident.injEq] at h
      simp [declType, h]
    | _ => rfl
  rw [this]
  exact Fwd.pure.post rfl

/-! ## Blocks and lists of statements -/

theorem no_declaration_close (ht : fl.expectTemplate = false) {l} :
    Fwd (fun n => run n .declaration) W fl (pt l .curlyClose :: v) none V (pt l .curlyClose :: v) := by
  refine Fwd.call ?_
  show Fwd (fun n => parseDeclaration (recOf n)) _ _ _ _ _ _
  unfold parseDeclaration
  fb Fwd.expect
  fb Fwd.token (x := pt l .curlyClose) (curly_plain ht _)
  exact Fwd.pure.post rfl

/-- No statement begins with a token that begins no expression. -/
theorem no_statement {x : Tok} (hx : Stops fl x.2) (hw : isWord x.2 = false) (hs : statementType x.2 = .unknown)
    (hx' : Stops (Fwd.setFlag .fin true fl) x.2) :
    Fwd (fun n => run n .statement) W fl (x :: v) none V (x :: v) := by
  refine Fwd.call ?_
  show Fwd (fun n => parseStatement (recOf n)) _ _ _ _ _ _
  unfold parseStatement
  fb Fwd.expect
  fb Fwd.token (hx.ready _)
  rw [hs]
  refine Fwd.orTry_second (u₁ := x :: v) (m₁ := V) (Fwd.call ?_) (Fwd.call ?_)
  · show Fwd (fun n => parseLabelledStatement (recOf n)) _ _ _ _ _ _
    unfold parseLabelledStatement
    fb Fwd.one (hx.ready _) hw
    exact Fwd.pure.post rfl
  · show Fwd (fun n => parseExpressionStatement (recOf n)) _ _ _ _ _ _
    unfold parseExpressionStatement
    fb Fwd.withFlag (no_expression_of (no_assignment hx' hw _))
    exact Fwd.pure.post rfl

theorem items_close (ht : fl.expectTemplate = false) {l} :
    LoopFwd (whileBody .statementListItem) () W fl (pt l .curlyClose :: v) () V (pt l .curlyClose :: v) := by
  refine LoopFwd.stop ?_
  unfold whileBody
  refine Fwd.bind (a := none) (u₁ := pt l .curlyClose :: v) (m₁ := V) (Fwd.call ?_) Fwd.pure
  show Fwd (fun n => parseStatementListItem (recOf n)) _ _ _ _ _ _
  unfold parseStatementListItem
  exact Fwd.orTry_second (no_declaration_close ht) ((no_statement (x := pt l .curlyClose)
    (stops_punct (by decide) fun _ => ht) rfl rfl (stops_punct (by decide) fun _ => ht)).pre rfl)

theorem sem_block {l l'} (ih : Sem C items u (pt l' .curlyClose :: v)) : Sem C block (pt l .curlyOpen :: u) v := by
  intro fl ha
  refine Fwd.call ?_
  show Fwd (fun n => parseBlockStatement (recOf n)) _ _ _ _ _ _
  unfold parseBlockStatement
  refine Fwd.withFlag ?_
  fb Fwd.punc ⟨rfl, rfl⟩
  obtain ⟨-, hr⟩ := ih _ (ha.template (b := false)) rfl (headIs_cons.2 ⟨rfl, rfl, rfl⟩)
  fb LoopFwd.whileSome ((hr V _ ((items_close rfl).pre rfl)).pre rfl)
  fb Fwd.eat (Fwd.punc ⟨rfl, rfl⟩)
  exact Fwd.pure.post rfl

theorem sem_itemsNil : Sem C items v v := fun _ _ _ hv => ⟨hv, fun _ _ h => h⟩

theorem item_head (h : FragX lx C item u v) : HeadIs Quiet u := heads h rfl

theorem sem_itemsCons {u'} (h : FragX lx C item u u') (ih : Sem C item u u') (ih₁ : Sem C items u' v) :
    Sem C items u v := by
  intro fl ha ht hv
  obtain ⟨hc, hr⟩ := ih₁ fl ha ht hv
  refine ⟨(item_head h).mono fun _ h => h.calm, fun m w hl => LoopFwd.next (st' := ()) ?_ (hr m w hl)⟩
  unfold whileBody
  refine Fwd.bind (a := some ()) (u₁ := u') (m₁ := S) (Fwd.call ?_) Fwd.pure
  show Fwd (fun n => parseStatementListItem (recOf n)) _ _ _ _ _ _
  unfold parseStatementListItem
  rcases ih fl ha ht hc with h1 | ⟨h1, h2⟩
  · exact Fwd.orTry_first (h1.pre rfl)
  · exact Fwd.orTry_second (h1.pre rfl) h2

theorem sem_itemStmt (h : FragX lx C stmt u v) (hd : ∀ x u', u = x :: u' → x.2 ∉ declarationWords)
    (ih : Sem C stmt u v) : Sem C item u v := by
  intro fl ha ht hv
  refine .inr ⟨?_, ih fl ha ht hv⟩
  obtain ⟨x, w, rfl, hx⟩ := heads h rfl
  exact no_declaration hx (hd _ _ rfl)

/-! ## Declarations -/

theorem declaration_of {l k} {f : Fn} (h : Fwd (fun n => run n f) V fl (kw l k :: u) (some ()) S v)
    (hk : ∀ n, (match declType (.ident k) with
      | some .class => must ((recOf n).call .classDeclaration)
      | some .function => must ((recOf n).call .functionDeclaration)
      | some .let => must ((recOf n).call .letDeclaration)
      | some .const => must ((recOf n).call .constDeclaration)
      | none => absent) = must (run n f)) :
    Fwd (fun n => run n .declaration) W fl (kw l k :: u) (some ()) S v := by
  refine Fwd.call ?_
  show Fwd (fun n => parseDeclaration (recOf n)) _ _ _ _ _ _
  unfold parseDeclaration
  fb Fwd.expect
  fb Fwd.token (x := kw l k) ⟨rfl, rfl⟩
  exact (Fwd.must (h.pre rfl)).congr hk

/-- The optional name of a declaration. -/
theorem declared_name {l n} (hn : Named lx C n) (ha : Agree C fl) :
    Fwd (fun _ => if fl.allowDefault then bindingIdentifier else some <$> eat bindingIdentifier) S fl (kw l n :: v)
      (some n) S v := by
  have h : Fwd (fun _ => bindingIdentifier) S fl (kw l n :: v) (some n) S v :=
    (Fwd.binding ⟨rfl, rfl⟩ (named_binding ha.keen hn)).post rfl
  cases fl.allowDefault with
  | true => exact h
  | false => exact Fwd.bind (Fwd.eat h) Fwd.pure

theorem function_start {l y w} (hy : Quiet y.2) (hn : y.2 ≠ .ident b!"function") {a : Option Unit} {m' : Mode}
    (h : Fwd (fun n => do
      let star ← punc .star
      let flags ← getFlags
      let _ ← if flags.allowDefault then bindingIdentifier else some <$> eat bindingIdentifier
      functionRest (recOf n) false star.isSome) S fl (y :: w) a m' v) :
    Fwd (fun n => run n .functionDeclaration) V fl (kw l b!"function" :: y :: w) a m' v := by
  refine Fwd.call ?_
  show Fwd (fun n => parseFunctionDeclaration (recOf n)) _ _ _ _ _ _
  unfold parseFunctionDeclaration
  refine Fwd.bind (Fwd.two ⟨rfl, rfl⟩ ⟨hy.2.2 _, fun h => (by rw [hy.1] at h; cases h), fun h => (by rw [hy.2.1] at h; cases h)⟩) ?_
  have : isAsyncFunction (some y) = false := by
    obtain ⟨l', t⟩ := y
    cases l' <;> cases t <;> first | rfl | (simpa [isAsyncFunction] using hn)
  simp only [this]
  unfold functionKeyword
  simp only [Bool.false_eq_true, if_false]
  intro K s hs
  obtain ⟨s₁, ⟨N₁, e₁⟩, a₁⟩ := (Fwd.keyword (fl := fl) (l := l) (u := y :: w) (k := b!"function") (m := V.fill.two) ⟨rfl, rfl⟩) K s hs
  obtain ⟨s₂, ⟨N₂, e₂⟩, a₂⟩ := h K s₁ (a₁.weaken rfl)
  refine ⟨s₂, ⟨max N₁ N₂, fun n hn => ?_⟩, a₂⟩
  have h1 := e₁ n (by omega)
  have h2 := e₂ n (by omega)
  rw [← h2]
  simp only [bind_apply, h1]
  cases punc .star s₁ <;> rfl

/-- The name and the rest of a function. -/
theorem function_named {l n} {star : Bool} (hn : Named lx C n) (ha : Agree C fl)
    (ih : Sem { C with await := false, yield := star } function u v) :
    Fwd (fun n => do
      let flags ← getFlags
      let _ ← if flags.allowDefault then bindingIdentifier else some <$> eat bindingIdentifier
      functionRest (recOf n) false star) S fl (kw l n :: u) (some ()) Z v := by
  fb Fwd.getFlags
  have h : Fwd (fun _ => bindingIdentifier) S fl (kw l n :: u) (some n) S u :=
    (Fwd.binding ⟨rfl, rfl⟩ (named_binding ha.keen hn)).post rfl
  cases fl.allowDefault with
  | true =>
    simp only [if_true]
    fb h
    exact fwd_functionRest ha ih
  | false =>
    simp only [Bool.false_eq_true, if_false]
    fb Fwd.bind (Fwd.eat h) Fwd.pure
    exact fwd_functionRest ha ih

theorem func_decl {l l' n} (hn : Named lx C n) (ha : Agree C fl)
    (ih : Sem { C with await := false, yield := false } function u v) :
    Fwd (fun n => run n .functionDeclaration) V fl (kw l b!"function" :: kw l' n :: u) (some ()) Z v := by
  refine function_start (quiet_word n) (by simpa using hn.ne (k := b!"function") (by decide)) ?_
  fb Fwd.noPunc (x := kw l' n) ⟨rfl, rfl⟩ (by simp)
  exact (function_named hn ha ih).pre rfl

/-- A function without a name. -/
theorem function_anon {l} {star : Bool} {w : List Tok} (hd : fl.allowDefault = true) (ha : Agree C fl)
    (ih : Sem { C with await := false, yield := star } function (pt l .parenOpen :: w) v) :
    Fwd (fun n => do
      let flags ← getFlags
      let _ ← if flags.allowDefault then bindingIdentifier else some <$> eat bindingIdentifier
      functionRest (recOf n) false star) S fl (pt l .parenOpen :: w) (some ()) Z v := by
  fb Fwd.getFlags
  simp only [hd, if_true]
  fb Fwd.noBinding (x := pt l .parenOpen) ⟨rfl, rfl⟩ (by simp)
  exact (fwd_functionRest ha ih).pre rfl

theorem func_anon {l} (hd : fl.allowDefault = true) (ha : Agree C fl) (h : FragX lx { C with await := false, yield := false } function u v)
    (ih : Sem { C with await := false, yield := false } function u v) :
    Fwd (fun n => run n .functionDeclaration) V fl (kw l b!"function" :: u) (some ()) Z v := by
  obtain ⟨⟨l₁, t⟩, w, rfl, hx⟩ := heads h rfl
  obtain rfl : t = _ := hx
  refine function_start (y := pt l₁ .parenOpen) ⟨rfl, rfl, fun _ => rfl⟩ (by simp) ?_
  fb Fwd.noPunc (x := pt l₁ .parenOpen) ⟨rfl, rfl⟩ (by simp)
  exact (function_anon hd ha ih).pre rfl

theorem gen_anon {l l'} (hd : fl.allowDefault = true) (ha : Agree C fl) (h : FragX lx { C with await := false, yield := true } function u v)
    (ih : Sem { C with await := false, yield := true } function u v) :
    Fwd (fun n => run n .functionDeclaration) V fl (kw l b!"function" :: pt l' .star :: u) (some ()) Z v := by
  obtain ⟨⟨l₁, t⟩, w, rfl, hx⟩ := heads h rfl
  obtain rfl : t = _ := hx
  refine function_start (y := pt l' .star) ⟨rfl, rfl, fun _ => rfl⟩ (by simp) ?_
  fb Fwd.punc ⟨rfl, rfl⟩
  exact (function_anon hd ha ih).pre rfl

theorem sem_funcAnon {l} (hd : C.default = true) (h : FragX lx { C with await := false, yield := false } function u v)
    (ih : Sem { C with await := false, yield := false } function u v) : Sem C item (kw l b!"function" :: u) v :=
  fun _ ha _ _ => .inl (declaration_of (f := .functionDeclaration) ((func_anon (ha.default hd) ha h ih).post rfl) fun _ => rfl)

theorem sem_genAnon {l l'} (hd : C.default = true) (h : FragX lx { C with await := false, yield := true } function u v)
    (ih : Sem { C with await := false, yield := true } function u v) : Sem C item (kw l b!"function" :: pt l' .star :: u) v :=
  fun _ ha _ _ => .inl (declaration_of (f := .functionDeclaration) ((gen_anon (ha.default hd) ha h ih).post rfl) fun _ => rfl)

theorem sem_funcDecl {l l' n} (hn : Named lx C n) (ih : Sem { C with await := false, yield := false } function u v) :
    Sem C item (kw l b!"function" :: kw l' n :: u) v :=
  fun _ ha _ _ => .inl (declaration_of (f := .functionDeclaration) ((func_decl hn ha ih).post rfl) fun _ => rfl)

theorem sem_genDecl {l l' l'' n} (hn : Named lx C n) (ih : Sem { C with await := false, yield := true } function u v) :
    Sem C item (kw l b!"function" :: pt l' .star :: kw l'' n :: u) v := by
  intro fl ha _ _
  refine .inl (declaration_of (f := .functionDeclaration) ?_ fun _ => rfl)
  refine function_start ⟨rfl, rfl, fun _ => rfl⟩ (by simp) ?_
  fb Fwd.punc ⟨rfl, rfl⟩
  exact ((function_named hn ha ih).pre rfl).post rfl

theorem class_decl {l l' n} (hn : Named lx C n) (ha : Agree C fl) (ih : Sem C classTail u v) :
    Fwd (fun n => run n .classDeclaration) V fl (kw l b!"class" :: kw l' n :: u) (some ()) Z v := by
  obtain ⟨a, u₁, h1, h2⟩ := ih fl ha
  have h : Fwd (fun _ => bindingIdentifier) S fl (kw l' n :: u) (some n) S u :=
    (Fwd.binding ⟨rfl, rfl⟩ (named_binding ha.keen hn)).post rfl
  refine Fwd.call ?_
  show Fwd (fun n => parseClassDeclaration (recOf n)) _ _ _ _ _ _
  unfold parseClassDeclaration
  fb Fwd.keyword ⟨rfl, rfl⟩
  fb Fwd.getFlags
  cases fl.allowDefault with
  | true =>
    simp only [if_true]
    fb h.pre rfl
    fb h1
    exact Fwd.must h2
  | false =>
    simp only [Bool.false_eq_true, if_false]
    fb Fwd.bind (Fwd.eat (h.pre rfl)) Fwd.pure
    fb h1
    exact Fwd.must h2

theorem class_anon {l} (hd : fl.allowDefault = true) (ha : Agree C fl) (h : FragX lx C classTail u v) (ih : Sem C classTail u v) :
    Fwd (fun n => run n .classDeclaration) V fl (kw l b!"class" :: u) (some ()) Z v := by
  obtain ⟨a, u₁, h1, h2⟩ := ih fl ha
  obtain ⟨x, w, rfl, hx⟩ := heads h rfl
  have hq : Quiet x.2 ∧ ∀ n, x.2 = .ident n → isBindingIdentifier fl n = false := by
    rcases hx with hx | hx <;> rw [hx]
    · exact ⟨⟨rfl, rfl, fun _ => rfl⟩, by simp⟩
    · exact ⟨⟨rfl, rfl, fun _ => rfl⟩, fun n h => by injection h with h; subst h; exact keyword_binding (by decide)⟩
  refine Fwd.call ?_
  show Fwd (fun n => parseClassDeclaration (recOf n)) _ _ _ _ _ _
  unfold parseClassDeclaration
  fb Fwd.keyword ⟨rfl, rfl⟩
  fb Fwd.getFlags
  simp only [hd, if_true]
  fb Fwd.noBinding (hq.1.ready _ _) hq.2
  fb h1.pre rfl
  exact Fwd.must h2

theorem sem_classAnon {l} (hd : C.default = true) (h : FragX lx C classTail u v) (ih : Sem C classTail u v) :
    Sem C item (kw l b!"class" :: u) v :=
  fun _ ha _ _ => .inl (declaration_of (f := .classDeclaration) ((class_anon (ha.default hd) ha h ih).post rfl) fun _ => rfl)

theorem sem_classDecl {l l' n} (hn : Named lx C n) (ih : Sem C classTail u v) :
    Sem C item (kw l b!"class" :: kw l' n :: u) v :=
  fun _ ha _ _ => .inl (declaration_of (f := .classDeclaration) ((class_decl hn ha ih).post rfl) fun _ => rfl)

/-! ## Declarators -/

theorem Declr.lexical {b : Bool} (h : Declr fl b u v) :
    Fwd (fun n => run n (.lexicalDeclarator b)) S fl u (some ()) S v := by
  obtain ⟨pat, ini, u₁, ht, hi, hb⟩ := h
  replace ht := ht fl.allowIn
  refine Fwd.call ?_
  show Fwd (fun n => parseLexicalDeclarator (recOf n) b) _ _ _ _ _ _
  unfold parseLexicalDeclarator
  cases pat with
  | true =>
    obtain rfl := hb (.inr rfl)
    fb ht
    exact Fwd.must hi
  | false =>
    obtain ⟨h1, y, h2⟩ := ht
    fb h1
    fb Fwd.eat h2
    cases b with
    | true =>
      obtain rfl := hb (.inl rfl)
      simp only [if_true]
      exact Fwd.must hi
    | false =>
      simp only [Bool.false_eq_true, if_false]
      fb hi
      exact Fwd.pure

theorem Declr.var (h : Declr fl f u v) : Fwd (fun n => run n .varDeclarator) S fl u (some ()) S v := by
  obtain ⟨pat, ini, u₁, ht, hi, hb⟩ := h
  replace ht := ht fl.allowIn
  refine Fwd.call ?_
  show Fwd (fun n => parseVarDeclarator (recOf n)) _ _ _ _ _ _
  unfold parseVarDeclarator
  cases pat with
  | true =>
    obtain rfl := hb (.inr rfl)
    fb ht
    fb Fwd.eat hi
    exact Fwd.pure
  | false =>
    obtain ⟨h1, y, h2⟩ := ht
    fb h1
    fb Fwd.eat h2
    fb hi
    exact Fwd.pure

theorem Agree.setIn {c : Bool} (ha : Agree C fl) : Agree { C with in_ := c } (Fwd.setFlag .fin c fl) :=
  ⟨rfl, ha.await, ha.strict, ha.default⟩

theorem sem_declrName {l n} (hn : Named lx C n) : Sem C (declr false) (kw l n :: v) v := by
  intro fl ha hv
  refine ⟨false, none, v, fun c => name_target hn ha.keen.setIn, ?_, by simp⟩
  obtain ⟨x, w, rfl, hx⟩ := hv
  refine no_init_S ?_ (hx.ready (by simp))
  intro h
  have := hx.2
  rw [show x = (x.1, .punct .eq) by rw [← h]] at this
  simp [Low, rank, assignmentOperators] at this

theorem sem_declrInit {b l n} (hn : Named lx C n) (ih : Sem C init u v) : Sem C (declr b) (kw l n :: u) v :=
  fun fl ha hv => ⟨false, some (), u, fun _ => name_target hn ha.keen.setIn, ih fl ha hv, fun _ => rfl⟩

theorem sem_declrPattern {b u'} (ih : ∀ c, Sem { C with in_ := c } pattern u u') (ih₁ : Sem C init u' v) :
    Sem C (declr b) u v :=
  fun fl ha hv => ⟨true, some (), u', fun c => ih c _ ha.setIn, ih₁ fl ha hv, fun _ => rfl⟩

theorem sem_declrsLast {b b'} (ih : Sem C (declr b) u v) : Sem C (declrs b b') u v :=
  fun fl ha hv => .last (ih fl ha (hv.mono (by omega)))

theorem sem_declrsCons {b b' l u'} (ih : Sem C (declr b) u (pt l .comma :: u')) (ih₁ : Sem C (declrs b' b') u' v) :
    Sem C (declrs b b') u v :=
  fun fl ha hv => .cons (ih fl ha follow_pt) (ih₁ fl ha hv)

theorem sem_openLast {l n} (hn : Named lx C n) : Sem C (openDeclrs false) (kw l n :: v) v := by
  intro fl ha ht hv
  refine .last ⟨false, none, v, fun c => name_target hn ha.keen.setIn, ?_, by simp⟩
  obtain ⟨x, w, rfl, hx, hs⟩ := hv
  exact no_init_S (fun h => hs (by rw [h]; decide)) (hx.ready ht)

theorem sem_openCons {b l u'} (ih : Sem C (declr b) u (pt l .comma :: u')) (ih₁ : Sem C (openDeclrs b) u' v) :
    Sem C (openDeclrs b) u v :=
  fun fl ha ht hv => .cons (ih fl ha follow_pt) (ih₁ fl ha ht hv)

theorem calm_next (hv : HeadIs Calm v) (ht : fl.expectTemplate = false) : HeadIs (NextOk fl false false) v :=
  hv.mono fun _ h => ⟨by rw [ht]; exact h.2.2, h.2.1, fun hs => (by rw [h.1] at hs; cases hs), nofun⟩

theorem initOpen_fwd {l} (h : FragX lx C (assignOpen true) u v) (ih : Sem C (assignOpen true) u v) (ha : Agree C fl)
    (ht : fl.expectTemplate = false) (hv : HeadIs Calm v) :
    Fwd (fun n => run n .initializer) S fl (pt l .eq :: u) (some ()) S v := by
  refine Fwd.call ?_
  show Fwd (fun n => parseInitializer (recOf n)) _ _ _ _ _ _
  unfold parseInitializer
  fb Fwd.punc ⟨rfl, rfl⟩
  fb Fwd.expect
  exact Fwd.must ((enter_X ff_assignment (assignOpen_starts h) (ih fl ha (calm_next hv ht))).post rfl)

theorem sem_openInit {b l l' n} (hn : Named lx C n) (h : FragX lx C (assignOpen true) u v) (ih : Sem C (assignOpen true) u v) :
    Sem C (openDeclrs b) (kw l n :: pt l' .eq :: u) v :=
  fun _ ha ht hv => .last ⟨false, some (), _, fun _ => name_target hn ha.keen.setIn,
    initOpen_fwd h ih ha ht (hv.mono fun _ h => h.1), fun _ => rfl⟩

theorem sem_openPattern {b l u'} (h : FragX lx C (assignOpen true) u' v)
    (ih : ∀ c, Sem { C with in_ := c } pattern u (pt l .eq :: u')) (ih₁ : Sem C (assignOpen true) u' v) :
    Sem C (openDeclrs b) u v :=
  fun _ ha ht hv => .last ⟨true, some (), _, fun c => ih c _ ha.setIn,
    initOpen_fwd h ih₁ ha ht (hv.mono fun _ h => h.1), fun _ => rfl⟩

theorem comma_round {F : Nat → P (Option Unit)} {l u'} (h : Fwd F S fl u (some ()) S u') :
    Fwd (fun n => commaRound (F n)) S fl (pt l .comma :: u) (.inl ()) S u' := by
  unfold commaRound
  fb Fwd.punc ⟨rfl, rfl⟩
  fb Fwd.eat (h.pre rfl)
  exact Fwd.pure

theorem comma_done {F : Nat → P (Option Unit)} {k : Bool} (hv : Follow fl 0 k v) (hk : k = false) :
    LoopFwd (fun n _ => commaRound (F n)) () S fl v () S v := by
  subst hk
  obtain ⟨x, w, rfl, hx⟩ := hv
  refine LoopFwd.stop ?_
  unfold commaRound
  fb Fwd.noPunc (hx.ready (by simp)) (by
    intro h
    have := hx.2
    rw [show x = (x.1, .punct .comma) by rw [← h]] at this
    simp [Low, rank] at this)
  exact Fwd.pure.post rfl

theorem comma_stop {F : Nat → P (Option Unit)} {x : Tok} (hx : Plain fl x.2) (hs : x.2 ≠ .punct .comma) :
    LoopFwd (fun n _ => commaRound (F n)) () S fl (x :: v) () S (x :: v) := by
  refine LoopFwd.stop ?_
  unfold commaRound
  fb Fwd.noPunc (hx _) hs
  exact Fwd.pure.post rfl

theorem decls_loop {F : Nat → P (Option Unit)} {fl' : Flags} {b b' : Bool}
    (hF : ∀ b u v, Declr fl' b u v → (b = b' ∨ b = f) → Fwd F S fl u (some ()) S v) (h : Decls fl' b b' u v) (hb : b = b' ∨ b = f)
    (hv : LoopFwd (fun n _ => commaRound (F n)) () S fl v () S v) :
    ∃ u₁, Fwd F S fl u (some ()) S u₁ ∧ LoopFwd (fun n _ => commaRound (F n)) () S fl u₁ () S v := by
  induction h with
  | last h => exact ⟨_, hF _ _ _ h hb, hv⟩
  | cons h _ ih =>
    obtain ⟨u₁, h1, h2⟩ := ih hF (.inl rfl) hv
    exact ⟨_, hF _ _ _ h hb, LoopFwd.next (st' := ()) (comma_round h1) h2⟩

/-- A semicolon is inserted before a token of the next line. -/
theorem line_fwd {x : Tok} (hl : x.1 = true) (hs : x.2 ≠ .punct .semicolon) (hx : Plain fl x.2) :
    Fwd (fun _ => semicolonInner false) S fl (x :: v) (some ()) S (x :: v) := by
  refine (Fwd.noSemicolon hx hs ?_).post rfl
  obtain ⟨l, t⟩ := x
  obtain rfl : l = true := hl
  cases t with
  | punct q => cases q <;> first | rfl | exact absurd rfl hs
  | _ => rfl

theorem let_fwd {l u'} (hd : Decls fl false false u u')
    (hc : LoopFwd (fun n _ => commaRound (run n (.lexicalDeclarator false))) () S fl u' () S u')
    (h : Fwd (fun _ => semicolonInner false) S fl u' (some ()) S v) :
    Fwd (fun n => run n .letDeclaration) V fl (kw l b!"let" :: u) (some ()) S v := by
  obtain ⟨u₁, h1, h2⟩ := decls_loop (f := false) (F := fun n => run n (.lexicalDeclarator false))
    (fun b _ _ hd hb => by obtain rfl : b = false := by (rcases hb with h | h <;> exact h)
                           exact hd.lexical) hd (.inl rfl) hc
  refine Fwd.call ?_
  show Fwd (fun n => parseLetDeclaration (recOf n)) _ _ _ _ _ _
  unfold parseLetDeclaration
  fb Fwd.keyword ⟨rfl, rfl⟩
  fb Fwd.eat (h1.pre rfl)
  fb LoopFwd.fwd h2
  fb Fwd.eat h
  exact Fwd.pure

theorem let_decl {l u'} (ht : fl.expectTemplate = false) (ha : Agree C fl) (ih : Sem C (declrs false false) u u')
    (h : Semi u' v) : Fwd (fun n => run n .letDeclaration) V fl (kw l b!"let" :: u) (some ()) S v :=
  have hf := semi_follow (fl := fl) h ht
  let_fwd (ih fl ha hf) (comma_done hf rfl) (semi_fwd h ht)

theorem let_open {l} {x : Tok} (ht : fl.expectTemplate = false) (ha : Agree C fl) (ih : Sem C (openDeclrs false) u (x :: v))
    (hl : x.1 = true) (hs : x.2 ∉ [Token.punct .comma, .punct .eq, .punct .semicolon]) (hv : HeadIs Calm (x :: v)) :
    Fwd (fun n => run n .letDeclaration) V fl (kw l b!"let" :: u) (some ()) S (x :: v) :=
  have hp := headIs_cons.1 (calm_ready hv ht)
  let_fwd (ih fl ha ht (headIs_cons.2 ⟨headIs_cons.1 hv, hs⟩)) (comma_stop hp fun h => hs (by rw [h]; decide))
    (line_fwd hl (fun h => hs (by rw [h]; decide)) hp)

theorem const_fwd {l u'} (hd : Decls fl true true u u')
    (hc : LoopFwd (fun n _ => commaRound (run n (.lexicalDeclarator true))) () S fl u' () S u')
    (h : Fwd (fun _ => semicolonInner false) S fl u' (some ()) S v) :
    Fwd (fun n => run n .constDeclaration) V fl (kw l b!"const" :: u) (some ()) S v := by
  obtain ⟨u₁, h1, h2⟩ := decls_loop (f := true) (F := fun n => run n (.lexicalDeclarator true))
    (fun b _ _ hd hb => by obtain rfl : b = true := by (rcases hb with h | h <;> exact h)
                           exact hd.lexical) hd (.inl rfl) hc
  refine Fwd.call ?_
  show Fwd (fun n => parseConstDeclaration (recOf n)) _ _ _ _ _ _
  unfold parseConstDeclaration
  fb Fwd.keyword ⟨rfl, rfl⟩
  fb Fwd.eat (h1.pre rfl)
  fb LoopFwd.fwd h2
  fb Fwd.eat h
  exact Fwd.pure

theorem const_decl {l u'} (ht : fl.expectTemplate = false) (ha : Agree C fl) (ih : Sem C (declrs true true) u u')
    (h : Semi u' v) : Fwd (fun n => run n .constDeclaration) V fl (kw l b!"const" :: u) (some ()) S v :=
  have hf := semi_follow (fl := fl) h ht
  const_fwd (ih fl ha hf) (comma_done hf rfl) (semi_fwd h ht)

theorem const_open {l} {x : Tok} (ht : fl.expectTemplate = false) (ha : Agree C fl) (ih : Sem C (openDeclrs true) u (x :: v))
    (hl : x.1 = true) (hs : x.2 ∉ [Token.punct .comma, .punct .eq, .punct .semicolon]) (hv : HeadIs Calm (x :: v)) :
    Fwd (fun n => run n .constDeclaration) V fl (kw l b!"const" :: u) (some ()) S (x :: v) :=
  have hp := headIs_cons.1 (calm_ready hv ht)
  const_fwd (ih fl ha ht (headIs_cons.2 ⟨headIs_cons.1 hv, hs⟩)) (comma_stop hp fun h => hs (by rw [h]; decide))
    (line_fwd hl (fun h => hs (by rw [h]; decide)) hp)

theorem var_fwd {l u'} (hd : Decls (Fwd.setFlag .fin true fl) false false u u')
    (hc : LoopFwd (fun n _ => commaRound (withFlag .fin true (run n .varDeclarator))) () S fl u' () S u')
    (h : Fwd (fun _ => semicolonInner false) S fl u' (some ()) S v) :
    Fwd (fun n => run n .variableStatement) V fl (kw l b!"var" :: u) (some ()) S v := by
  obtain ⟨u₁, h1, h2⟩ := decls_loop (f := false) (F := fun n => withFlag .fin true (run n .varDeclarator))
    (fun b _ _ hd _ => Fwd.withFlag hd.var) hd (.inl rfl) hc
  refine Fwd.call ?_
  show Fwd (fun n => parseVariableStatement (recOf n)) _ _ _ _ _ _
  unfold parseVariableStatement
  fb Fwd.keyword ⟨rfl, rfl⟩
  fb Fwd.eat (h1.pre rfl)
  fb LoopFwd.fwd h2
  fb Fwd.eat h
  exact Fwd.pure

theorem var_decl {l u'} (ht : fl.expectTemplate = false) (ha : Agree C fl)
    (ih : Sem { C with in_ := true } (declrs false false) u u') (h : Semi u' v) :
    Fwd (fun n => run n .variableStatement) V fl (kw l b!"var" :: u) (some ()) S v :=
  var_fwd (ih _ ha.in_true (semi_follow (fl := Fwd.setFlag .fin true fl) h ht))
    (comma_done (semi_follow (fl := fl) h ht) rfl) (semi_fwd h ht)

theorem var_open {l} {x : Tok} (ht : fl.expectTemplate = false) (ha : Agree C fl)
    (ih : Sem { C with in_ := true } (openDeclrs false) u (x :: v))
    (hl : x.1 = true) (hs : x.2 ∉ [Token.punct .comma, .punct .eq, .punct .semicolon]) (hv : HeadIs Calm (x :: v)) :
    Fwd (fun n => run n .variableStatement) V fl (kw l b!"var" :: u) (some ()) S (x :: v) :=
  have hp := headIs_cons.1 (calm_ready hv ht)
  var_fwd (ih _ ha.in_true ht (headIs_cons.2 ⟨headIs_cons.1 hv, hs⟩)) (comma_stop hp fun h => hs (by rw [h]; decide))
    (line_fwd hl (fun h => hs (by rw [h]; decide)) hp)

theorem sem_letOpen {l} {x : Tok} (ih : Sem C (openDeclrs false) u (x :: v)) (hl : x.1 = true)
    (hs : x.2 ∉ [Token.punct .comma, .punct .eq, .punct .semicolon]) : Sem C item (kw l b!"let" :: u) (x :: v) :=
  fun _ ha ht hv => .inl (declaration_of (f := .letDeclaration) (let_open ht ha ih hl hs hv) fun _ => rfl)

theorem sem_letDecl {l u'} (ih : Sem C (declrs false false) u u') (h : Semi u' v) :
    Sem C item (kw l b!"let" :: u) v :=
  fun _ ha ht _ => .inl (declaration_of (f := .letDeclaration) (let_decl ht ha ih h) fun _ => rfl)

theorem in_follow {l} (hi : fl.allowIn = false) : Follow fl 0 false (kw l b!"in" :: v) :=
  follow_cons.2 ⟨⟨rfl, rfl, fun h => (by cases h), fun h => by cases h⟩, .of (by simp [rank, hi])⟩

theorem in_line : Fwd (fun _ => semicolonInner false) S fl (kw true b!"in" :: v) (some ()) S (kw true b!"in" :: v) :=
  line_fwd rfl (by simp) (quiet_word _).plain

theorem let_in {l} (hi : C.in_ = false) (ha : Agree C fl) (ih : Sem C (declrs false false) u (kw true b!"in" :: v)) :
    Fwd (fun n => run n .letDeclaration) V fl (kw l b!"let" :: u) (some ()) S (kw true b!"in" :: v) :=
  have hf := in_follow (fl := fl) (ha.in_.trans hi)
  let_fwd (ih fl ha hf) (comma_done hf rfl) in_line

theorem const_in {l} (hi : C.in_ = false) (ha : Agree C fl) (ih : Sem C (declrs true true) u (kw true b!"in" :: v)) :
    Fwd (fun n => run n .constDeclaration) V fl (kw l b!"const" :: u) (some ()) S (kw true b!"in" :: v) :=
  have hf := in_follow (fl := fl) (ha.in_.trans hi)
  const_fwd (ih fl ha hf) (comma_done hf rfl) in_line

theorem sem_letIn {l} (hi : C.in_ = false) (ih : Sem C (declrs false false) u (kw true b!"in" :: v)) :
    Sem C item (kw l b!"let" :: u) (kw true b!"in" :: v) :=
  fun _ ha _ _ => .inl (declaration_of (f := .letDeclaration) (let_in hi ha ih) fun _ => rfl)

theorem sem_constIn {l} (hi : C.in_ = false) (ih : Sem C (declrs true true) u (kw true b!"in" :: v)) :
    Sem C item (kw l b!"const" :: u) (kw true b!"in" :: v) :=
  fun _ ha _ _ => .inl (declaration_of (f := .constDeclaration) (const_in hi ha ih) fun _ => rfl)

theorem sem_constOpen {l} {x : Tok} (ih : Sem C (openDeclrs true) u (x :: v)) (hl : x.1 = true)
    (hs : x.2 ∉ [Token.punct .comma, .punct .eq, .punct .semicolon]) : Sem C item (kw l b!"const" :: u) (x :: v) :=
  fun _ ha ht hv => .inl (declaration_of (f := .constDeclaration) (const_open ht ha ih hl hs hv) fun _ => rfl)

theorem sem_constDecl {l u'} (ih : Sem C (declrs true true) u u') (h : Semi u' v) :
    Sem C item (kw l b!"const" :: u) v :=
  fun _ ha ht _ => .inl (declaration_of (f := .constDeclaration) (const_decl ht ha ih h) fun _ => rfl)

theorem rawSemi_fwd (h : RawSemi u v) (hv : HeadIs Calm v) (ht : fl.expectTemplate = false) :
    Fwd (fun _ => semicolonInner false) S fl u (some ()) S v := by
  cases h with
  | token => exact (Fwd.semicolon ⟨rfl, rfl⟩).post rfl
  | insert h =>
    obtain ⟨h1, h2 | h2 | h2⟩ := h
    · exact line_fwd h2 h1 (headIs_cons.1 (calm_ready hv ht))
    · exact semi_fwd (.insert (.inl h2)) ht
    · exact semi_fwd (.insert (.inr (.inl h2))) ht

/-- The first of two semicolons. -/
theorem rawSemi_calm (h : RawSemi u v) (hv : HeadIs Calm v) : HeadIs Calm u := by
  cases h with
  | token => exact headIs_cons.2 ⟨rfl, rfl, rfl⟩
  | insert => exact hv

/-! ## Simple statements -/

theorem sem_blockStmt (h : FragX lx C block u v) (ih : Sem C block u v) : Sem C stmt u v := by
  intro fl ha ht hv
  have h1 := ih fl ha
  obtain ⟨⟨l, t⟩, w, rfl, hx⟩ := heads h rfl
  obtain rfl : t = _ := hx
  refine statement_of ⟨rfl, rfl, fun _ => rfl⟩ ?_
  exact Fwd.must ((h1.pre rfl).post rfl)

theorem sem_empty {l} : Sem C stmt (pt l .semicolon :: v) v := by
  intro fl ha ht hv
  refine statement_of ⟨rfl, rfl, fun _ => rfl⟩ (Fwd.must (Fwd.call ?_))
  show Fwd (fun n => parseEmptyStatement) _ _ _ _ _ _
  unfold parseEmptyStatement
  fb Fwd.punc ⟨rfl, rfl⟩
  exact Fwd.pure.post rfl

theorem sem_var {l u'} (ih : Sem { C with in_ := true } (declrs false false) u u') (h : Semi u' v) :
    Sem C stmt (kw l b!"var" :: u) v := by
  intro fl ha ht hv
  exact statement_of (quiet_word _) (Fwd.must (var_decl ht ha ih h))

theorem sem_varOpen {l} {x : Tok} (ih : Sem { C with in_ := true } (openDeclrs false) u (x :: v)) (hl : x.1 = true)
    (hs : x.2 ∉ [Token.punct .comma, .punct .eq, .punct .semicolon]) : Sem C stmt (kw l b!"var" :: u) (x :: v) :=
  fun _ ha ht hv => statement_of (quiet_word _) (Fwd.must (var_open ht ha ih hl hs hv))

theorem starts_unknown {t : Token} (h : Starts true t) (hc : t ≠ .punct .curlyOpen) : statementType t = .unknown := by
  cases t with
  | punct q =>
    have hq : q ∈ [Punct.squareOpen, .curlyOpen, .parenOpen, .plusPlus, .minusMinus, .plus, .minus, .tilde, .exclam] := h
    cases q <;> first | rfl | exact absurd rfl hc | (simp at hq)
  | ident n =>
    have hn : ∀ k ∈ [b!"var", b!"if", b!"switch", b!"while", b!"do", b!"for", b!"continue", b!"break", b!"return",
        b!"with", b!"throw", b!"try", b!"debugger"], n ≠ k := by
      have key : ∀ k ∈ [b!"var", b!"if", b!"switch", b!"while", b!"do", b!"for", b!"continue", b!"break", b!"return",
        b!"with", b!"throw", b!"try", b!"debugger"], k ∈ reservedWords ++ [b!"await", b!"yield"] ∧
          k ∉ headWords ∧ k ≠ b!"yield" := by decide
      intro k hk
      exact HeadWord.ne (b := true) h (key k hk).1 (key k hk).2.1 fun _ => (key k hk).2.2
    simp only [List.forall_mem_cons] at hn
    obtain ⟨h1, h2, h3, h4, h5, h6, h7, h8, h9, h10, h11, h12, h13, -⟩ := hn
    simp [statementType, h1, h2, h3, h4, h5, h6, h7, h8, h9, h10, h11, h12, h13]
  | _ => rfl

/-- Whether the statement is a label is looked up. -/
theorem lookahead_fwd {x : Tok} (hx : Quiet x.2) (hs : Second fl true (x :: u)) :
    Fwd (fun n => run n .labelledStatement) V fl (x :: u) none V (x :: u) := by
  refine Fwd.call ?_
  show Fwd (fun n => parseLabelledStatement (recOf n)) _ _ _ _ _ _
  unfold parseLabelledStatement
  cases hw : isWord x.2 with
  | false =>
    fb Fwd.one (hx.ready _ _) hw
    exact Fwd.pure.post rfl
  | true =>
    obtain ⟨l, t⟩ := x
    cases t with
    | ident n =>
      obtain ⟨y, w, rfl, hy, hc⟩ := hs l n u rfl
      fb Fwd.two ⟨rfl, rfl⟩ hy
      have : isLabel (some y) = false := by
        show (y.2 == _) = false
        simpa using hc rfl
      rw [this]
      exact Fwd.pure.post rfl
    | _ => cases hw

theorem sem_exprStmt {x u'} (hx : x.2 ≠ Token.punct .curlyOpen)
    (hr : NotRegex (x :: u)) (h : FragX lx { C with in_ := true } (FNT.expr false) (x :: u) u')
    (ih : Sem { C with in_ := true } (FNT.expr false) (x :: u) u') (hv : Semi u' v) : Sem C stmt (x :: u) v := by
  intro fl ha ht _
  have hs : Starts true x.2 := headIs_cons.1 (expr_starts h)
  have hq := hs.quiet (notRegex_tok hr)
  refine statement_of hq ?_
  rw [starts_unknown hs hx]
  refine Fwd.orTry_second (lookahead_fwd hq (seconds h fl true ha.keen (semi_next hv ht))) (Fwd.call ?_)
  show Fwd (fun n => parseExpressionStatement (recOf n)) _ _ _ _ _ _
  unfold parseExpressionStatement
  fb Fwd.withFlag ((ih _ ha.in_true (semi_follow (fl := Fwd.setFlag .fin true fl) hv ht)).pre rfl)
  fb Fwd.eat ((semi_fwd hv ht).pre rfl)
  exact Fwd.pure

theorem sem_exprStmtOpen {x y} (hx : x.2 ≠ Token.punct .curlyOpen)
    (hr : NotRegex (x :: u)) (h : FragX lx { C with in_ := true } (FNT.exprOpen false) (x :: u) (y :: v))
    (ih : Sem { C with in_ := true } (FNT.exprOpen false) (x :: u) (y :: v)) (hl : y.1 = true) (hy : y.2 ≠ .punct .semicolon)
    (hy' : y.2 ≠ .punct .colon) : Sem C stmt (x :: u) (y :: v) := by
  intro fl ha ht hv
  have hs : Starts true x.2 := headIs_cons.1 (exprOpen_starts h)
  have hq := hs.quiet (notRegex_tok hr)
  refine statement_of hq ?_
  rw [starts_unknown hs hx]
  refine Fwd.orTry_second (lookahead_fwd hq (seconds h fl true ha.keen ?_)) (Fwd.call ?_)
  · have hn := headIs_cons.1 (calm_next (fl := fl) hv ht)
    exact headIs_cons.2 ⟨hn.1, hn.2.1, hn.2.2.1, fun _ => hy'⟩
  show Fwd (fun n => parseExpressionStatement (recOf n)) _ _ _ _ _ _
  unfold parseExpressionStatement
  fb Fwd.withFlag ((ih _ ha.in_true (calm_next (fl := Fwd.setFlag .fin true fl) hv ht)).1.pre rfl)
  fb Fwd.eat ((line_fwd hl hy (headIs_cons.1 (calm_ready hv ht))).pre rfl)
  exact Fwd.pure

theorem paren_fwd {l l'} (ha : Agree C fl) (h : FragX lx { C with in_ := true } (FNT.expr true) u (pt l' .parenClose :: v))
    (ih : Sem { C with in_ := true } (FNT.expr true) u (pt l' .parenClose :: v)) :
    Fwd (fun n => parenExpression (recOf n)) S fl (pt l .parenOpen :: u) () Z v := by
  unfold parenExpression
  fb Fwd.eat (Fwd.punc ⟨rfl, rfl⟩)
  fb Fwd.expect
  fb Fwd.eat (Fwd.withFlag (enter_X ff_expression (expr_starts h) (ih _ ha.in_true follow_pt)))
  fb Fwd.eat (Fwd.punc ⟨rfl, rfl⟩)
  exact Fwd.pure.post rfl

theorem calm_word {k : Bytes} : Calm (.ident k) := (quiet_word k).calm

theorem not_else {k : Bytes} (hn : NotNext k v) : ∀ x w, v = x :: w → x.2 ≠ .ident k := by
  rintro ⟨l, t⟩ w rfl h
  obtain rfl : t = _ := h
  exact hn l w rfl

theorem sem_ifThen {l l' l'' u'} (h : FragX lx { C with in_ := true } (FNT.expr true) u (pt l'' .parenClose :: u'))
    (ih : Sem { C with in_ := true } (FNT.expr true) u (pt l'' .parenClose :: u')) (ih₁ : Sem C stmt u' v)
    (hn : NotNext b!"else" v) : Sem C stmt (kw l b!"if" :: pt l' .parenOpen :: u) v := by
  intro fl ha ht hv
  refine statement_of (quiet_word _) (Fwd.must (Fwd.call ?_))
  show Fwd (fun n => parseIfStatement (recOf n)) _ _ _ _ _ _
  unfold parseIfStatement
  fb Fwd.keyword ⟨rfl, rfl⟩
  fb (paren_fwd ha h ih).pre rfl
  fb Fwd.eat ((ih₁ fl ha ht hv).pre rfl)
  obtain ⟨x, w, rfl, hx⟩ := calm_ready hv ht
  fb Fwd.noKeyword (hx _) (not_else hn _ _ rfl)
  exact Fwd.pure.post rfl

theorem sem_ifElse {l l' l'' l₁ u' u''} (h : FragX lx { C with in_ := true } (FNT.expr true) u (pt l'' .parenClose :: u'))
    (ih : Sem { C with in_ := true } (FNT.expr true) u (pt l'' .parenClose :: u'))
    (ih₁ : Sem C stmt u' (kw l₁ b!"else" :: u'')) (ih₂ : Sem C stmt u'' v) :
    Sem C stmt (kw l b!"if" :: pt l' .parenOpen :: u) v := by
  intro fl ha ht hv
  refine statement_of (quiet_word _) (Fwd.must (Fwd.call ?_))
  show Fwd (fun n => parseIfStatement (recOf n)) _ _ _ _ _ _
  unfold parseIfStatement
  fb Fwd.keyword ⟨rfl, rfl⟩
  fb (paren_fwd ha h ih).pre rfl
  fb Fwd.eat ((ih₁ fl ha ht (headIs_cons.2 calm_word)).pre rfl)
  fb Fwd.keyword ⟨rfl, rfl⟩
  exact Fwd.must ((ih₂ fl ha ht hv).pre rfl)

/-! ## Loops -/

theorem no_doWhile {x : Tok} (hx : x.2 ≠ .ident b!"do") (hr : Ready m fl x.2) :
    Fwd (fun n => run n .doWhileStatement) m fl (x :: u) none m.fill (x :: u) := by
  refine Fwd.call ?_
  show Fwd (fun n => parseDoWhileStatement (recOf n)) _ _ _ _ _ _
  unfold parseDoWhileStatement
  fb Fwd.noKeyword hr hx
  exact Fwd.pure

theorem no_while {x : Tok} (hx : x.2 ≠ .ident b!"while") (hr : Ready m fl x.2) :
    Fwd (fun n => run n .whileStatement) m fl (x :: u) none m.fill (x :: u) := by
  refine Fwd.call ?_
  show Fwd (fun n => parseWhileStatement (recOf n)) _ _ _ _ _ _
  unfold parseWhileStatement
  fb Fwd.noKeyword hr hx
  exact Fwd.pure

theorem no_for {x : Tok} (hx : x.2 ≠ .ident b!"for") (hr : Ready m fl x.2) :
    Fwd (fun n => run n .forStatement) m fl (x :: u) none m.fill (x :: u) := by
  refine Fwd.call ?_
  show Fwd (fun n => parseForStatement (recOf n)) _ _ _ _ _ _
  unfold parseForStatement
  fb Fwd.noKeyword hr hx
  exact Fwd.pure

theorem iteration_of {a : Unit} {m' : Mode} (h : Fwd (fun n => run n .iterationStatement) V fl u (some a) m' v) :
    Fwd (fun n => run n .breakableStatement) V fl u (some a) m' v := by
  refine Fwd.call ?_
  show Fwd (fun n => parseBreakableStatement (recOf n)) _ _ _ _ _ _
  unfold parseBreakableStatement
  exact Fwd.orTry_first h

theorem sem_while {l l' l'' u'} (h : FragX lx { C with in_ := true } (FNT.expr true) u (pt l'' .parenClose :: u'))
    (ih : Sem { C with in_ := true } (FNT.expr true) u (pt l'' .parenClose :: u')) (ih₁ : Sem C stmt u' v) :
    Sem C stmt (kw l b!"while" :: pt l' .parenOpen :: u) v := by
  intro fl ha ht hv
  refine statement_of (quiet_word _) (Fwd.must (iteration_of (Fwd.call ?_)))
  show Fwd (fun n => parseIterationStatement (recOf n)) _ _ _ _ _ _
  unfold parseIterationStatement
  refine Fwd.orTry_second (no_doWhile (x := kw l b!"while") (by simp) ⟨rfl, rfl⟩) (Fwd.orTry_first (Fwd.call ?_))
  show Fwd (fun n => parseWhileStatement (recOf n)) _ _ _ _ _ _
  unfold parseWhileStatement
  fb Fwd.keyword ⟨rfl, rfl⟩
  fb (paren_fwd ha h ih).pre rfl
  exact Fwd.must ((ih₁ fl ha ht hv).pre rfl)

theorem sem_doWhile {l l' l'' l₁ u' u''}
    (h : FragX lx { C with in_ := true } (FNT.expr true) u' (pt l₁ .parenClose :: u''))
    (ih : Sem C stmt u (kw l' b!"while" :: pt l'' .parenOpen :: u'))
    (ih₁ : Sem { C with in_ := true } (FNT.expr true) u' (pt l₁ .parenClose :: u'')) (hs : SemiDo u'' v) :
    Sem C stmt (kw l b!"do" :: u) v := by
  intro fl ha ht hv
  refine statement_of (quiet_word _) (Fwd.must (iteration_of (Fwd.call ?_)))
  show Fwd (fun n => parseIterationStatement (recOf n)) _ _ _ _ _ _
  unfold parseIterationStatement
  refine Fwd.orTry_first (Fwd.call ?_)
  show Fwd (fun n => parseDoWhileStatement (recOf n)) _ _ _ _ _ _
  unfold parseDoWhileStatement
  fb Fwd.keyword ⟨rfl, rfl⟩
  fb Fwd.eat ((ih fl ha ht (headIs_cons.2 calm_word)).pre rfl)
  fb Fwd.eat (Fwd.keyword ⟨rfl, rfl⟩)
  fb (paren_fwd ha h ih₁).pre rfl
  fb Fwd.eat ((semiDo_fwd hs hv ht).pre rfl)
  exact Fwd.pure

/-- A `for` statement from its parts. -/
theorem for_stmt {l l' l'' u₁ u₂ u'} {hd : ForHead} {found : Bool} {m₁ m₂ : Mode} (ha : Agree C fl) (ht : fl.expectTemplate = false)
    (hv : HeadIs Calm v) (h₁ : Fwd (fun n => forHead (recOf n)) X fl u hd m₁ u₁)
    (h₂ : Fwd (fun n => forClassic (recOf n) hd.maybeFor) m₁ fl u₁ found m₂ u₂)
    (h₃ : found = true ∧ m₂ = S ∧ u₂ = pt l'' .parenClose :: u' ∨
      found = false ∧ Fwd (fun n => forInOf (recOf n) hd.maybeX) m₂ fl u₂ () S (pt l'' .parenClose :: u'))
    (ih : Sem C stmt u' v) :
    Fwd (fun n => run n .statement) W fl (kw l b!"for" :: pt l' .parenOpen :: u) (some ()) S v := by
  refine statement_of (quiet_word _) (Fwd.must (iteration_of (Fwd.call ?_)))
  show Fwd (fun n => parseIterationStatement (recOf n)) _ _ _ _ _ _
  unfold parseIterationStatement
  refine Fwd.orTry_second (no_doWhile (x := kw l b!"for") (by simp) ⟨rfl, rfl⟩)
    (Fwd.orTry_second (no_while (x := kw l b!"for") (by simp) ⟨rfl, rfl⟩) (Fwd.call ?_))
  show Fwd (fun n => parseForStatement (recOf n)) _ _ _ _ _ _
  unfold parseForStatement
  fb Fwd.keyword ⟨rfl, rfl⟩
  fb Fwd.eat (Fwd.punc ⟨rfl, rfl⟩)
  fb Fwd.expect
  fb h₁
  fb h₂
  rcases h₃ with ⟨rfl, rfl, rfl⟩ | ⟨rfl, h₃⟩
  · simp only [if_true]
    fb Fwd.eat (Fwd.punc ⟨rfl, rfl⟩)
    exact Fwd.must ((ih fl ha ht hv).pre rfl)
  · simp only [Bool.false_eq_true, if_false]
    fb h₃
    fb Fwd.eat (Fwd.punc ⟨rfl, rfl⟩)
    exact Fwd.must ((ih fl ha ht hv).pre rfl)

theorem forRest_open (h : FragX lx C forRest u v) : ∃ l w, u = pt l .semicolon :: w := by
  obtain ⟨⟨l, t⟩, w, rfl, hx⟩ := heads h rfl
  obtain rfl : t = _ := hx
  exact ⟨l, w, rfl⟩

theorem forMaybeDecl_begins {y : Tok} (h : forMaybeDecl (some y) = true) : BeginsBinding y.2 := by
  obtain ⟨l, t⟩ := y
  cases t with
  | punct q => cases q <;> first | exact .inl rfl | exact .inr (.inl rfl) | cases h
  | ident n =>
    refine .inr (.inr ⟨n, rfl, ?_⟩)
    simpa [forMaybeDecl] using h
  | _ => cases h

theorem not_declared {x : Tok} (h1 : x.2 ≠ .ident b!"var") (h2 : x.2 ≠ .ident b!"const") (h3 : x.2 ≠ .ident b!"let") :
    ¬ BeginsForDeclaration (x :: u) := by
  rintro ⟨x', y, w, hu, h⟩
  injection hu with hu _
  subst hu
  rcases h with h | h | ⟨h, -⟩
  · exact h1 h
  · exact h2 h
  · exact h3 h

/-- The head is an expression or nothing. -/
theorem for_expr {x : Tok} (hr : Ready X fl x.2) (h1 : x.2 ≠ .ident b!"var") (h2 : x.2 ≠ .ident b!"const") 
    (h3 : ¬ BeginsForDeclaration (x :: u)) (hs : Second fl false (x :: u)) {a : Option Unit} {m' : Mode}
    (h : Fwd (fun n => run n .expression) m (Fwd.setFlag .fin false fl) (x :: u) a m' v) (hm : X.fill.le m = true)
    (hm' : isWord x.2 = true → m = E true) :
    Fwd (fun n => forHead (recOf n)) X fl (x :: u) ⟨.expression, false, false, false⟩ m' v := by
  have hr' : Ready X.fill fl x.2 := ⟨by simp [Mode.ready, Mode.fill], hr.2⟩
  have hr'' : Ready X.fill.two fl x.2 := ⟨by simp [Mode.ready, Mode.fill, Mode.two], hr.2⟩
  unfold forHead
  fb Fwd.noKeyword hr h1
  fb Fwd.noKeyword hr' h2
  cases hw : isWord x.2 with
  | false =>
    fb Fwd.one hr' hw
    simp only [forMaybeDecl, Bool.false_eq_true, if_false]
    fb Fwd.pure
    fb Fwd.withFlag (h.pre hm)
    exact Fwd.pure
  | true =>
    obtain rfl := hm' hw
    obtain ⟨l, t⟩ := x
    cases t with
    | ident n =>
      obtain ⟨y, w, rfl, hy, -⟩ := hs l n u rfl
      fb Fwd.two ⟨rfl, rfl⟩ hy
      cases hd : forMaybeDecl (some y) with
      | true =>
        simp only [if_true]
        fb Fwd.noKeyword (x := kw l n) ⟨rfl, rfl⟩ fun hl => h3 ⟨_, _, _, rfl, .inr (.inr ⟨hl, forMaybeDecl_begins hd⟩)⟩
        fb Fwd.withFlag (h.pre rfl)
        exact Fwd.pure
      | false =>
        simp only [Bool.false_eq_true, if_false]
        fb Fwd.pure
        fb Fwd.withFlag (h.pre rfl)
        exact Fwd.pure
    | _ => cases hw

theorem sem_forPlain {l l' l'' u'} (h : FragX lx C forRest u (pt l'' .parenClose :: u'))
    (ih : Sem C forRest u (pt l'' .parenClose :: u')) (ih₁ : Sem C stmt u' v) :
    Sem C stmt (kw l b!"for" :: pt l' .parenOpen :: u) v := by
  intro fl ha ht hv
  have h2 := ih fl ha (headIs_cons.2 rfl)
  obtain ⟨l₁, w, rfl⟩ := forRest_open h
  refine for_stmt ha ht hv (for_expr (m := X.fill) (a := none) (x := pt l₁ .semicolon) ⟨rfl, rfl⟩ (by simp) (by simp)
    (not_declared (by simp) (by simp) (by simp)) (second_cons rfl) ?_ rfl (by simp [isWord]))
    h2 (.inl ⟨rfl, rfl, rfl⟩) ih₁
  exact (no_expression_of (no_assignment (x := pt l₁ .semicolon) (stops_punct (q := .semicolon) (by decide) (by simp)) rfl _)).post rfl

theorem for_words {t : Token} (h : Starts true t) : t ≠ .ident b!"var" ∧ t ≠ .ident b!"const" :=
  ⟨h.word, h.word⟩

theorem sem_forExpr {l l' l'' u' u''} (hd : ¬ BeginsForDeclaration u) (h : FragX lx { C with in_ := false } (FNT.expr true) u u')
    (hr : FragX lx C forRest u' (pt l'' .parenClose :: u'')) (ih : Sem { C with in_ := false } (FNT.expr true) u u')
    (ih₁ : Sem C forRest u' (pt l'' .parenClose :: u'')) (ih₂ : Sem C stmt u'' v) :
    Sem C stmt (kw l b!"for" :: pt l' .parenOpen :: u) v := by
  intro fl ha ht hv
  have h2 := ih₁ fl ha (headIs_cons.2 rfl)
  obtain ⟨l₁, w, rfl⟩ := forRest_open hr
  have hi := ih _ ha.in_false follow_pt
  have hs := seconds h fl false ha.keen (headIs_cons.2 punct_nextOk)
  obtain ⟨x, w', rfl, hx⟩ := expr_starts h
  have hw := for_words hx
  exact for_stmt ha ht hv (for_expr (hx.ready fun _ => rfl) hw.1 hw.2 hd hs (hi.post rfl) rfl fun _ => rfl) h2 (.inl ⟨rfl, rfl, rfl⟩) ih₂

theorem inOf_open (h : FragX lx C inOf u v) : ∃ l k w, k ∈ [b!"in", b!"of"] ∧ u = kw l k :: w := by
  cases h with
  | inOf hk _ => exact ⟨_, _, _, hk, rfl⟩

theorem inOf_follow {l k} (hk : k ∈ [b!"in", b!"of"]) (hi : fl.allowIn = false) : Follow fl 0 false (kw l k :: v) := by
  refine follow_cons.2 ⟨⟨rfl, rfl, fun h => (by cases h), fun h => by cases h⟩, ?_⟩
  simp only [List.mem_cons, List.not_mem_nil, or_false] at hk
  rcases hk with rfl | rfl
  · exact .of (by simp [rank, hi])
  · exact .of (by simp [rank])

theorem for_in_expr {l l' l'' u' u''} (hd : ¬ BeginsForDeclaration u) (he : FragX lx { C with in_ := false } (FNT.expr true) u u')
    (hr : FragX lx C inOf u' (pt l'' .parenClose :: u'')) (hi : Sem { C with in_ := false } (FNT.expr true) u u')
    (ih₁ : Sem C inOf u' (pt l'' .parenClose :: u'')) (ih₂ : Sem C stmt u'' v) :
    Sem C stmt (kw l b!"for" :: pt l' .parenOpen :: u) v := by
  intro fl ha ht hv
  have h2 := ih₁ fl ha (headIs_cons.2 rfl)
  obtain ⟨l₁, k, w, hk, rfl⟩ := inOf_open hr
  replace hi := hi _ ha.in_false (inOf_follow hk rfl)
  have hs := seconds he fl false ha.keen (headIs_cons.2 word_nextOk)
  obtain ⟨x, w', rfl, hx⟩ := expr_starts he
  have hw := for_words hx
  refine for_stmt (l'' := l'') (found := false) (m₁ := S) (m₂ := S) ha ht hv (for_expr (hx.ready fun _ => rfl) hw.1 hw.2 hd hs (hi.post rfl) rfl fun _ => rfl) ?_ (.inr ⟨rfl, h2⟩) ih₂
  unfold forClassic
  simp only [ForHead.maybeFor, if_true]
  fb Fwd.noPunc (x := kw l₁ k) ⟨rfl, rfl⟩ (by simp)
  exact Fwd.pure.post rfl

theorem sem_forInExpr {l l' l'' u' u''} (hA : lx = true → LoneAsync C u) (hW : lx = true → NotNext b!"await" u) (hd : ¬ BeginsForDeclaration u) (h : FragX lx { C with in_ := false } (FNT.lhs true true e g) u u')
    (hr : FragX lx C inOf u' (pt l'' .parenClose :: u'')) (ih : Sem { C with in_ := false } (FNT.lhs true true e g) u u')
    (ih₁ : Sem C inOf u' (pt l'' .parenClose :: u'')) (ih₂ : Sem C stmt u'' v) :
    Sem C stmt (kw l b!"for" :: pt l' .parenOpen :: u) v := by
  have hE : Ended u' := by
    obtain ⟨_, k, w, -, rfl⟩ := inOf_open hr
    intro x v' hx
    cases hx
    exact id
  have k1 : FragX lx { C with in_ := false } (update true e g) u _ := .plain hE h
  have k2 : FragX lx { C with in_ := false } (unary true e g) u _ := .updated hW k1
  have k3 : FragX lx { C with in_ := false } (FNT.cond true g) u _ := .unconditional (.operand k2)
  exact for_in_expr hd (.expr (.value hA k3) .moreNil) hr
    (sem_expr (lx := lx) .moreNil (sem_value hA k3 (sem_unconditional (sem_operand k2 (sem_updated hW k1 (sem_plain hE h ih))))) sem_moreNil) ih₁ ih₂

theorem sem_forInAny {l l' l'' u' u''} (hd : ¬ BeginsForDeclaration u) (h : FragX lx { C with in_ := false } (FNT.expr true) u u')
    (hr : FragX lx C inOf u' (pt l'' .parenClose :: u'')) (ih : Sem { C with in_ := false } (FNT.expr true) u u')
    (ih₁ : Sem C inOf u' (pt l'' .parenClose :: u'')) (ih₂ : Sem C stmt u'' v) :
    Sem C stmt (kw l b!"for" :: pt l' .parenOpen :: u) v := for_in_expr hd h hr ih ih₁ ih₂

/-! ## Declarations in the head of a loop -/

def forKind : Kind → ForKind
  | .var => .var
  | .let => .let
  | .const => .const

def forItem : Kind → Fn
  | .var => .varDeclarator
  | .let => .lexicalDeclarator true
  | .const => .lexicalDeclarator true

theorem for_declared {l k u₁} {hd : ForHead} (hu : HeadIs (fun t => t = .punct .curlyOpen ∨ t = .punct .squareOpen ∨ ∃ n, t = .ident n ∧ NameWord n) u)
    (hn : k = Kind.let → NotNext b!"of" u)
    (h : Fwd (fun n => forDeclHead (recOf n) (forKind k) (run n (forItem k))) S fl u hd S u₁) :
    Fwd (fun n => forHead (recOf n)) X fl (kw l (Kind.word k) :: u) hd S u₁ := by
  unfold forHead
  cases k with
  | var =>
    fb Fwd.keyword (k := b!"var") ⟨rfl, rfl⟩
    exact h.pre rfl
  | const =>
    fb Fwd.noKeyword (x := kw l b!"const") ⟨rfl, rfl⟩ (by simp)
    fb Fwd.keyword (k := b!"const") ⟨rfl, rfl⟩
    exact h.pre rfl
  | «let» =>
    fb Fwd.noKeyword (x := kw l b!"let") ⟨rfl, rfl⟩ (by simp)
    fb Fwd.noKeyword (x := kw l b!"let") ⟨rfl, rfl⟩ (by simp)
    obtain ⟨⟨l', t⟩, w, rfl, ht⟩ := hu
    have hm : forMaybeDecl (some (l', t)) = true ∧ LookOk fl b!"let" t := by
      rcases ht with ht | ht | ⟨n, ht, hp⟩
      · obtain rfl : t = _ := ht
        exact ⟨rfl, rfl, fun h => (by cases h), fun h => by cases h⟩
      · obtain rfl : t = _ := ht
        exact ⟨rfl, rfl, fun h => (by cases h), fun h => by cases h⟩
      · obtain rfl : t = _ := ht
        refine ⟨?_, rfl, fun h => (by cases h), fun h => by cases h⟩
        have h1 : n ≠ b!"in" := hp.ne (by decide)
        have h2 : n ≠ b!"of" := fun h => hn rfl l' w (by rw [h])
        simp [forMaybeDecl, h1, h2]
    fb Fwd.two (n := b!"let") ⟨rfl, rfl⟩ hm.2
    rw [hm.1]
    simp only [if_true]
    fb Fwd.keyword (k := b!"let") ⟨rfl, rfl⟩
    exact h.pre rfl

theorem for_round {F : Nat → P (Option Unit)} {l u'} {b : Bool} (h : Fwd F S (Fwd.setFlag .fin false fl) u (some ()) S u') :
    Fwd (fun n => forDeclRound (F n) b) S fl (pt l .comma :: u) (.inl true) S u' := by
  unfold forDeclRound
  fb Fwd.punc ⟨rfl, rfl⟩
  fb Fwd.eat (Fwd.withFlag (h.pre rfl))
  exact Fwd.pure

theorem for_done {F : Nat → P (Option Unit)} {b : Bool} {x : Tok} (hx : x.2 ≠ .punct .comma) (hr : Ready S fl x.2) :
    LoopFwd (fun n b => forDeclRound (F n) b) b S fl (x :: u) b S (x :: u) := by
  refine LoopFwd.stop ?_
  unfold forDeclRound
  fb Fwd.noPunc hr hx
  exact Fwd.pure.post rfl

theorem forItem_fwd {k : Kind} (h : Declr fl (k != Kind.var) u v) : Fwd (fun n => run n (forItem k)) S fl u (some ()) S v := by
  cases k with
  | var => exact h.var
  | «let» => exact h.lexical
  | const => exact h.lexical

theorem for_decls {k : Kind} {b b' : Bool} {x : Tok} (hx : x.2 ≠ .punct .comma) (hr : Ready S fl x.2)
    (h : Decls (Fwd.setFlag .fin false fl) b b' u (x :: v)) (hb' : b' = (k != Kind.var)) :
    ∃ u₁, Declr (Fwd.setFlag .fin false fl) b u u₁ ∧
      ∀ c, ∃ d, LoopFwd (fun n b => forDeclRound (run n (forItem k)) b) c S fl u₁ d S (x :: v) := by
  generalize hw : x :: v = w at h ⊢
  induction h with
  | last h =>
    subst hw
    exact ⟨_, h, fun c => ⟨c, for_done hx hr⟩⟩
  | cons h _ ih =>
    obtain ⟨u₁, h1, h2⟩ := ih hb' hw
    obtain ⟨d, h2⟩ := h2 true
    subst hb'
    exact ⟨_, h, fun c => ⟨d, LoopFwd.next (st' := true) (for_round (forItem_fwd h1)) h2⟩⟩

theorem declr_head {b : Bool} (h : FragX lx C (declrs b f) u v) :
    HeadIs (fun t => t = .punct .curlyOpen ∨ t = .punct .squareOpen ∨ ∃ n, t = .ident n ∧ NameWord n) u := heads h rfl

theorem sem_forDecl {l l' l'' l₁ k u' u''} (hn : k = Kind.let → NotNext b!"of" u)
    (h : FragX lx { C with in_ := false } (declrs (k == Kind.const) (k != Kind.var)) u u')
    (hr : FragX lx C forRest u' (pt l'' .parenClose :: u''))
    (ih : Sem { C with in_ := false } (declrs (k == Kind.const) (k != Kind.var)) u u')
    (ih₁ : Sem C forRest u' (pt l'' .parenClose :: u'')) (ih₂ : Sem C stmt u'' v) :
    Sem C stmt (kw l b!"for" :: pt l' .parenOpen :: kw l₁ (Kind.word k) :: u) v := by
  intro fl ha ht hv
  have h2 := ih₁ fl ha (headIs_cons.2 rfl)
  obtain ⟨l₂, w, rfl⟩ := forRest_open hr
  obtain ⟨u₁, ⟨pat, ini, u₂, htg, hi, hb⟩, hl⟩ := for_decls (x := pt l₂ .semicolon) (by simp) ⟨rfl, rfl⟩
    (ih _ ha.in_false follow_pt) rfl
  replace htg : Target fl pat u u₂ := htg fl.allowIn
  obtain ⟨d, hl⟩ := hl false
  have hp : (!pat || ini.isSome) = true := by
    cases pat with
    | false => rfl
    | true => rw [hb (.inr rfl)]; rfl
  have hd : Fwd (fun n => forDeclHead (recOf n) (forKind k) (run n (forItem k))) S fl u
      ⟨forKind k, pat, ini.isSome, d⟩ S (pt l₂ .semicolon :: w) := by
    unfold forDeclHead
    refine Fwd.bind (a := pat) (u₁ := u₂) (m₁ := S) ?_ ?_
    · cases pat with
      | true =>
        fb htg
        exact Fwd.pure
      | false =>
        obtain ⟨h1, y, h2⟩ := htg
        fb h1
        fb Fwd.eat h2
        exact Fwd.pure
    fb Fwd.withFlag hi
    rw [hp]
    simp only [if_true]
    fb LoopFwd.fwd hl
    exact Fwd.pure
  refine for_stmt (l'' := l'') (u₂ := pt l'' .parenClose :: u'') (found := true) ha ht hv (for_declared (declr_head h) hn hd) ?_ (.inl ⟨rfl, rfl, rfl⟩) ih₂
  have hm : ForHead.maybeFor ⟨forKind k, pat, ini.isSome, d⟩ = true := by
    cases k with
    | var => exact hp
    | «let» => exact hp
    | const => rw [hb (.inl rfl)]; rfl
  rw [hm]
  exact h2

theorem sem_forInDecl {l l' l'' l₁ k u' u''} (hn : k = Kind.let → NotNext b!"of" u) (h : FragX lx C target u u')
    (hr : FragX lx C inOf u' (pt l'' .parenClose :: u'')) (ih : Sem C target u u')
    (ih₁ : Sem C inOf u' (pt l'' .parenClose :: u'')) (ih₂ : Sem C stmt u'' v) :
    Sem C stmt (kw l b!"for" :: pt l' .parenOpen :: kw l₁ (Kind.word k) :: u) v := by
  intro fl ha ht hv
  have h2 := ih₁ fl ha (headIs_cons.2 rfl)
  obtain ⟨l₂, j, w, hj, rfl⟩ := inOf_open hr
  obtain ⟨pat, htg⟩ := ih fl ha
  have hd : Fwd (fun n => forDeclHead (recOf n) (forKind k) (run n (forItem k))) S fl u
      ⟨forKind k, pat, false, false⟩ S (kw l₂ j :: w) := by
    unfold forDeclHead
    refine Fwd.bind (a := pat) (u₁ := kw l₂ j :: w) (m₁ := S) ?_ ?_
    · cases pat with
      | true =>
        fb htg
        exact Fwd.pure
      | false =>
        obtain ⟨h1, y, h2⟩ := htg
        fb h1
        fb Fwd.eat h2
        exact Fwd.pure
    fb Fwd.withFlag (no_init_S (x := kw l₂ j) (by simp) ⟨rfl, rfl⟩)
    cases pat with
    | true =>
      simp only [Bool.not_true, Option.isSome_none, Bool.or_self, Bool.false_eq_true, if_false]
      fb Fwd.pure
      exact Fwd.pure
    | false =>
      simp only [Bool.not_false, Option.isSome_none, Bool.or_false, if_true]
      fb LoopFwd.fwd (for_done (x := kw l₂ j) (by simp) ⟨rfl, rfl⟩)
      exact Fwd.pure
  refine for_stmt (l'' := l'') (found := false) (m₁ := S) (m₂ := S) ha ht hv (for_declared (heads h rfl) hn hd) (u₂ := kw l₂ j :: w) ?_ (.inr ⟨rfl, ?_⟩) ih₂
  · unfold forClassic
    cases ForHead.maybeFor ⟨forKind k, pat, false, false⟩ with
    | false => exact Fwd.pure
    | true =>
      simp only [if_true]
      fb Fwd.noPunc (x := kw l₂ j) ⟨rfl, rfl⟩ (by simp)
      exact Fwd.pure.post rfl
  · have hm : ForHead.maybeX ⟨forKind k, pat, false, false⟩ = true := by cases k <;> rfl
    rw [hm]
    exact h2

theorem for_rest {l l' u'} {a b : Option Unit} (h₁ : Fwd (fun n => run n .expression) X fl u a S (pt l' .semicolon :: u'))
    (h₂ : Fwd (fun n => run n .expression) X fl u' b S v) :
    Fwd (fun n => forClassic (recOf n) true) S fl (pt l .semicolon :: u) true S v := by
  unfold forClassic
  simp only [if_true]
  fb Fwd.punc ⟨rfl, rfl⟩
  fb Fwd.expect
  fb h₁
  fb Fwd.eat (Fwd.punc ⟨rfl, rfl⟩)
  fb Fwd.expect
  fb h₂
  exact Fwd.pure

theorem rest_some (h : FragX lx C (FNT.expr true) u v) (h₁ : Fwd (fun n => run n .expression) (E true) fl u (some ()) (L false) v) :
    Fwd (fun n => run n .expression) X fl u (some ()) S v :=
  (enter_X ff_expression (expr_starts h) h₁).post rfl

theorem rest_none {q : Punct} (hq : q ∈ [Punct.parenClose, .semicolon]) (hv : HeadIs (· = .punct q) v) :
    Fwd (fun n => run n .expression) X fl v none S v := by
  obtain ⟨⟨l, t⟩, w, rfl, hx⟩ := hv
  obtain rfl : t = _ := hx
  refine (no_expression_of (no_assignment (x := pt l q) (stops_punct (q := q) ?_ ?_) rfl _)).post rfl
  · revert q; decide
  · rintro rfl; exact absurd hq (by decide)

theorem sem_forRest {l l'} : Sem C forRest (pt l .semicolon :: pt l' .semicolon :: v) v :=
  fun _ _ hv => for_rest (rest_none (q := .semicolon) (by decide) (headIs_cons.2 rfl)) (rest_none (q := .parenClose) (by decide) hv)

theorem sem_forRestL {l l'} (h : FragX lx C (FNT.expr true) u (pt l' .semicolon :: v))
    (ih : Sem C (FNT.expr true) u (pt l' .semicolon :: v)) : Sem C forRest (pt l .semicolon :: u) v :=
  fun fl ha hv => for_rest (rest_some h (ih fl ha follow_pt)) (rest_none (q := .parenClose) (by decide) hv)

theorem sem_forRestR {l l'} (h : FragX lx C (FNT.expr true) u v) (ih : Sem C (FNT.expr true) u v) :
    Sem C forRest (pt l .semicolon :: pt l' .semicolon :: u) v :=
  fun fl ha hv => for_rest (rest_none (q := .semicolon) (by decide) (headIs_cons.2 rfl)) (rest_some h (ih fl ha (paren_follow hv)))

theorem sem_forRestLR {l l' u'} (h : FragX lx C (FNT.expr true) u (pt l' .semicolon :: u')) (h₁ : FragX lx C (FNT.expr true) u' v)
    (ih : Sem C (FNT.expr true) u (pt l' .semicolon :: u')) (ih₁ : Sem C (FNT.expr true) u' v) :
    Sem C forRest (pt l .semicolon :: u) v :=
  fun fl ha hv => for_rest (rest_some h (ih fl ha follow_pt)) (rest_some h₁ (ih₁ fl ha (paren_follow hv)))

theorem sem_inOf {l k} (hk : k ∈ [b!"in", b!"of"]) (h : FragX lx { C with in_ := true } (assign true g) u v)
    (ih : Sem { C with in_ := true } (assign true g) u v) : Sem C inOf (kw l k :: u) v := by
  intro fl ha hv
  have h1 : Fwd (fun n => P.eat (withFlag .fin true (run n .assignmentExpression))) X fl u () S v :=
    Fwd.eat (Fwd.withFlag ((enter_X ff_assignment (assign_starts h) (ih _ ha.in_true (paren_follow hv))).post (by cases g <;> rfl)))
  unfold forInOf
  simp only [if_true]
  simp only [List.mem_cons, List.not_mem_nil, or_false] at hk
  rcases hk with rfl | rfl
  · fb Fwd.keyword ⟨rfl, rfl⟩
    fb Fwd.expect
    exact h1
  · fb Fwd.noKeyword (x := kw l b!"of") ⟨rfl, rfl⟩ (by simp)
    fb Fwd.keyword ⟨rfl, rfl⟩
    fb Fwd.expect
    exact h1

theorem stops_in : Stops fl (.ident b!"in") :=
  ⟨fun m => ⟨by simp [Mode.ready, slashy, isRegexTok], rfl⟩, by
    simp [primaryType, keyword_binding (fl := fl) (n := b!"in") (by decide)], by decide, by simp, by simp, by simp, by simp, by simp⟩

theorem sem_forInNone {l l' l'' l₁ u'} (h : FragX lx { C with in_ := true } (assign false g) u (pt l'' .parenClose :: u'))
    (ih : Sem { C with in_ := true } (assign false g) u (pt l'' .parenClose :: u')) (ih₁ : Sem C stmt u' v) :
    Sem C stmt (kw l b!"for" :: pt l' .parenOpen :: kw l₁ b!"in" :: u) v := by
  intro fl ha ht hv
  have h2 := ih _ ha.in_true follow_pt
  have hin : ∀ fl, isBindingIdentifier fl b!"in" = false := fun fl => keyword_binding (by decide)
  obtain ⟨y, w, rfl, hy⟩ := assign_starts h
  refine for_stmt (l'' := l'') (found := false) (m₂ := (E true).fill.two.fill) ha ht hv (for_expr (x := kw l₁ b!"in") ⟨rfl, rfl⟩ (by simp) (by simp)
    (not_declared (by simp) (by simp) (by simp)) (second_word (headIs_cons.2 (hy.look fun _ => hin _)))
    (no_expression_of (no_assignment_word stops_in (by decide) (hy.look (col := false) fun _ => hin _).1 (E true))) rfl fun _ => rfl)
    (u₂ := kw l₁ b!"in" :: y :: w) ?_ (.inr ⟨rfl, ?_⟩) ih₁
  · unfold forClassic
    simp only [ForHead.maybeFor, if_true]
    fb Fwd.noPunc (x := kw l₁ b!"in") ⟨rfl, rfl⟩ (by simp)
    exact Fwd.pure
  · unfold forInOf
    simp only [ForHead.maybeX, if_true]
    fb Fwd.keyword (k := b!"in") ⟨rfl, rfl⟩
    fb Fwd.expect
    exact Fwd.eat (Fwd.withFlag ((h2.pre rfl).post (by cases g <;> rfl)))

/-! ## `switch` -/

theorem not_case {x : Tok} (h1 : x.2 ≠ .ident b!"default") (h2 : x.2 ≠ .ident b!"case") (hr : Plain fl x.2) {d : Bool} :
    Fwd (fun n => switchRound (recOf n) d) m fl (x :: u) (.inr ()) m.fill (x :: u) := by
  unfold switchRound
  refine Fwd.bind (a := none) (u₁ := x :: u) (m₁ := m.fill) (Fwd.call ?_) ?_
  · show Fwd (fun n => parseDefaultClause (recOf n)) _ _ _ _ _ _
    unfold parseDefaultClause
    fb Fwd.noKeyword (hr _) h1
    exact Fwd.pure
  dsimp only
  refine Fwd.bind (a := none) (u₁ := x :: u) (m₁ := m.fill) (Fwd.call ?_) Fwd.pure
  show Fwd (fun n => parseCaseClause (recOf n)) _ _ _ _ _ _
  unfold parseCaseClause
  fb Fwd.noKeyword (hr _) h2
  exact Fwd.pure

theorem sem_clausesNil {b} : Sem C (clauses b) v v := by
  intro fl ha ht hv
  obtain ⟨⟨l, t⟩, w, rfl, hx⟩ := hv
  obtain rfl : t = _ := hx
  have hl : ∀ {m : Mode} d, (m.fill.le V = true) →
      LoopFwd (fun n => switchRound (recOf n)) d m fl (pt l .curlyClose :: w) () V (pt l .curlyClose :: w) := fun d hm =>
    LoopFwd.stop ((not_case (x := pt l .curlyClose) (by simp) (by simp) (curly_plain ht)).post hm)
  refine ⟨headIs_cons.2 ⟨rfl, rfl, rfl⟩, ?_⟩
  cases b with
  | true => exact hl _ rfl
  | false => exact ⟨_, (items_close ht).pre rfl, fun d => hl d rfl⟩

/-- An expression behind a keyword. -/
theorem keyword_expr {m' : Mode} (ha : Agree C fl) (h : FragX lx { C with in_ := true } (FNT.expr false) u v)
    (ih : Sem { C with in_ := true } (FNT.expr false) u v) (hv : Follow (Fwd.setFlag .fin true fl) 0 false v)
    (hm : m.z0 = false) (hm' : m.fill.le (E false) = true) (hs : (L false).le m' = true) :
    Fwd (fun n => withFlag .fin true (run n .expression)) m fl u (some ()) m' v := by
  refine Fwd.withFlag ?_
  have h1 := ih _ ha.in_true hv
  obtain ⟨x, w, rfl, hx⟩ := expr_starts h
  exact (Fwd.enter ff_expression (hx.ready fun _ => hm) (h1.pre hm')).post hs

theorem keyword_open {m' : Mode} (ha : Agree C fl) (h : FragX lx { C with in_ := true } (FNT.exprOpen false) u v)
    (ih : Sem { C with in_ := true } (FNT.exprOpen false) u v) (hv : HeadIs Calm v) (ht : fl.expectTemplate = false)
    (hm : m.z0 = false) (hm' : m.fill.le (E false) = true) (hs : (L false).le m' = true) :
    Fwd (fun n => withFlag .fin true (run n .expression)) m fl u (some ()) m' v := by
  refine Fwd.withFlag ?_
  have h1 := (ih _ ha.in_true (calm_next (fl := Fwd.setFlag .fin true fl) hv ht)).1
  obtain ⟨x, w, rfl, hx⟩ := exprOpen_starts h
  exact (Fwd.enter ff_expression (hx.ready fun _ => hm) (h1.pre hm')).post hs

theorem case_round {l l' u' u₁ d} (ha : Agree C fl)
    (h : FragX lx { C with in_ := true } (FNT.expr false) u (pt l' .colon :: u'))
    (ih : Sem { C with in_ := true } (FNT.expr false) u (pt l' .colon :: u'))
    (hl : LoopFwd (whileBody .statementListItem) () S fl u' () V u₁) :
    Fwd (fun n => switchRound (recOf n) d) V fl (kw l b!"case" :: u) (.inl d) V u₁ := by
  unfold switchRound
  refine Fwd.bind (a := none) (u₁ := kw l b!"case" :: u) (m₁ := V) (Fwd.call ?_) ?_
  · show Fwd (fun n => parseDefaultClause (recOf n)) _ _ _ _ _ _
    unfold parseDefaultClause
    fb Fwd.noKeyword (x := kw l b!"case") ⟨rfl, rfl⟩ (by simp)
    exact Fwd.pure.post rfl
  dsimp only
  refine Fwd.bind (a := some ()) (u₁ := u₁) (m₁ := V) (Fwd.call ?_) Fwd.pure
  show Fwd (fun n => parseCaseClause (recOf n)) _ _ _ _ _ _
  unfold parseCaseClause
  fb Fwd.keyword ⟨rfl, rfl⟩
  fb Fwd.expect
  fb Fwd.eat (keyword_expr (m' := S) ha h ih follow_pt rfl rfl rfl)
  fb Fwd.eat (Fwd.punc ⟨rfl, rfl⟩)
  fb LoopFwd.whileSome (hl.pre rfl)
  exact Fwd.pure

/-- The statements of a clause end before `case`. -/
theorem items_case {l l' u'} (h : FragX lx { C with in_ := true } (FNT.expr false) u (pt l' .colon :: u')) :
    LoopFwd (whileBody .statementListItem) () W fl (kw l b!"case" :: u) () V (kw l b!"case" :: u) := by
  obtain ⟨y, w, rfl, hy⟩ := expr_starts h
  have hk : ∀ fl : Flags, LookOk fl b!"case" y.2 := fun fl => (Starts.look (col := false) hy fun _ => keyword_binding (by decide)).1
  have hs : ∀ fl : Flags, Stops fl (.ident b!"case") := fun fl =>
    ⟨fun _ => ⟨rfl, rfl⟩, by
      have : isBindingIdentifier fl b!"case" = false := keyword_binding (by decide)
      simp [primaryType, this], rfl, by simp, by simp, by simp, by simp, by simp⟩
  refine LoopFwd.stop ?_
  unfold whileBody
  refine Fwd.bind (a := none) (u₁ := kw l b!"case" :: y :: w) (m₁ := V) (Fwd.call ?_) Fwd.pure
  show Fwd (fun n => parseStatementListItem (recOf n)) _ _ _ _ _ _
  unfold parseStatementListItem
  refine Fwd.orTry_second (no_declaration (x := kw l b!"case") (quiet_word _) (by simp)) ?_
  refine statement_of (x := kw l b!"case") (quiet_word _) ?_
  refine Fwd.orTry_second (lookahead_fwd (x := kw l b!"case") (quiet_word _)
    (second_word (headIs_cons.2 (Starts.look hy fun _ => keyword_binding (by decide))))) (Fwd.call ?_)
  show Fwd (fun n => parseExpressionStatement (recOf n)) _ _ _ _ _ _
  unfold parseExpressionStatement
  fb Fwd.withFlag (no_expression_of (no_assignment_word (hs _) (by decide) (hk _) _))
  exact Fwd.pure.post rfl

theorem ff_default : ∀ n, FillFirst (run n .defaultClause)
  | 0 => FillFirst.run_zero _
  | _ + 1 => .bind (ff_keyword _)

theorem sem_clausesCase {b l l' u' u''} (h : FragX lx { C with in_ := true } (FNT.expr false) u (pt l' .colon :: u'))
    (ih : Sem { C with in_ := true } (FNT.expr false) u (pt l' .colon :: u')) (ih₁ : Sem C items u' u'')
    (ih₂ : Sem C (clauses false) u'' v) : Sem C (clauses b) (kw l b!"case" :: u) v := by
  intro fl ha ht hv
  obtain ⟨hc, u₁, hl, hr⟩ := ih₂ fl ha ht hv
  obtain ⟨-, hi⟩ := ih₁ fl ha ht hc
  refine ⟨headIs_cons.2 calm_word, ?_⟩
  have h1 : ∀ d, LoopFwd (fun n => switchRound (recOf n)) d V fl (kw l b!"case" :: u) () V v := fun d =>
    LoopFwd.next (st' := d) (case_round ha h ih (hi _ _ hl)) (hr d)
  cases b with
  | true =>
    exact LoopFwd.enter (x := kw l b!"case") (fun n => .bind (ff_default n)) ⟨rfl, rfl⟩ ((h1 false).pre rfl)
  | false => exact ⟨_, (items_case h).pre rfl, h1⟩

theorem sem_clausesDefault {l l' u'} (ih : Sem C items u u') (ih₁ : Sem C (clauses false) u' v) :
    Sem C (clauses true) (kw l b!"default" :: pt l' .colon :: u) v := by
  intro fl ha ht hv
  obtain ⟨hc, u₁, hl, hr⟩ := ih₁ fl ha ht hv
  obtain ⟨-, hi⟩ := ih fl ha ht hc
  refine ⟨headIs_cons.2 calm_word, LoopFwd.next (st' := true) (m₁ := V) ?_ (hr true)⟩
  unfold switchRound
  refine Fwd.bind (a := some ()) (u₁ := u₁) (m₁ := V) (Fwd.call ?_) Fwd.pure
  show Fwd (fun n => parseDefaultClause (recOf n)) _ _ _ _ _ _
  unfold parseDefaultClause
  fb Fwd.keyword ⟨rfl, rfl⟩
  fb Fwd.eat (Fwd.punc ⟨rfl, rfl⟩)
  fb LoopFwd.whileSome ((hi _ _ hl).pre rfl)
  exact Fwd.pure

/-- A statement with a label. -/
theorem label_fwd {l l' n} (hn : statementType (.ident n) = .unknown) (ih : Fwd (fun n => run n .statement) W fl u (some ()) S v) :
    Fwd (fun n => run n .statement) W fl (kw l n :: pt l' .colon :: u) (some ()) S v := by
  refine statement_of (x := kw l n) (quiet_word _) ?_
  rw [show statementType (kw l n).2 = .unknown from hn]
  refine Fwd.orTry_first (Fwd.call ?_)
  show Fwd (fun n => parseLabelledStatement (recOf n)) _ _ _ _ _ _
  unfold parseLabelledStatement
  fb Fwd.two (y := pt l' .colon) ⟨rfl, rfl⟩ ⟨rfl, fun h => (by cases h), fun h => (by cases h)⟩
  rw [show isLabel (some (pt l' .colon)) = true from rfl]
  simp only [if_true]
  fb Fwd.eat (Fwd.identifier (l := l) (n := n) ⟨rfl, rfl⟩)
  fb Fwd.eat (Fwd.punc ⟨rfl, rfl⟩)
  exact Fwd.must (ih.pre rfl)

theorem sem_clausesLater {l l' u' u''} (ih : Sem C stmt u u') (ih₁ : Sem C items u' u'')
    (ih₂ : Sem C (clauses false) u'' v) : Sem C (clauses false) (kw l b!"default" :: pt l' .colon :: u) v := by
  intro fl ha ht hv
  obtain ⟨hc, u₁, hl, hr⟩ := ih₂ fl ha ht hv
  obtain ⟨hc', hi⟩ := ih₁ fl ha ht hc
  refine ⟨headIs_cons.2 calm_word, u₁, LoopFwd.next (st' := ()) (m₁ := S) ?_ (hi _ _ hl), hr⟩
  unfold whileBody
  refine Fwd.bind (a := some ()) (u₁ := u') (m₁ := S) (Fwd.call ?_) Fwd.pure
  show Fwd (fun n => parseStatementListItem (recOf n)) _ _ _ _ _ _
  unfold parseStatementListItem
  refine Fwd.orTry_second ((no_declaration (x := kw l b!"default") (quiet_word _) (by simp)).pre rfl) ?_
  exact label_fwd rfl (ih fl ha ht hc')

theorem sem_switch {l l' l'' l₁ l₂ u'}
    (h : FragX lx { C with in_ := true } (FNT.expr true) u (pt l'' .parenClose :: pt l₁ .curlyOpen :: u'))
    (ih : Sem { C with in_ := true } (FNT.expr true) u (pt l'' .parenClose :: pt l₁ .curlyOpen :: u'))
    (ih₁ : Sem C (clauses true) u' (pt l₂ .curlyClose :: v)) :
    Sem C stmt (kw l b!"switch" :: pt l' .parenOpen :: u) v := by
  intro fl ha ht hv
  refine statement_of (quiet_word _) (Fwd.must (Fwd.call ?_))
  show Fwd (fun n => parseBreakableStatement (recOf n)) _ _ _ _ _ _
  unfold parseBreakableStatement
  refine Fwd.orTry_second (u₁ := kw l b!"switch" :: pt l' .parenOpen :: u) (m₁ := V) (Fwd.call ?_) (Fwd.call ?_)
  · show Fwd (fun n => parseIterationStatement (recOf n)) _ _ _ _ _ _
    unfold parseIterationStatement
    refine Fwd.orTry_second (no_doWhile (x := kw l b!"switch") (by simp) ⟨rfl, rfl⟩)
      (Fwd.orTry_second (no_while (x := kw l b!"switch") (by simp) ⟨rfl, rfl⟩)
        ((no_for (x := kw l b!"switch") (by simp) ⟨rfl, rfl⟩).post rfl))
  show Fwd (fun n => parseSwitchStatement (recOf n)) _ _ _ _ _ _
  unfold parseSwitchStatement
  fb Fwd.keyword ⟨rfl, rfl⟩
  fb (paren_fwd ha h ih).pre rfl
  refine Fwd.withFlag ?_
  fb Fwd.eat (Fwd.punc ⟨rfl, rfl⟩)
  obtain ⟨-, hl⟩ := ih₁ _ (ha.template (b := false)) rfl (headIs_cons.2 rfl)
  fb LoopFwd.fwd (hl.pre rfl)
  fb Fwd.eat (Fwd.punc (curly_plain rfl _))
  exact Fwd.pure.post rfl

/-! ## Jumps -/

theorem label_none (h : Semi u v) (ht : fl.expectTemplate = false) :
    Fwd (fun _ => labelAndSemicolon) S fl u (some ()) S v := by
  have hs := semi_fwd h ht
  obtain ⟨x, w, rfl, hp, hx⟩ := semi_head h ht
  unfold labelAndSemicolon
  fb Fwd.noLine (hp _)
  cases hl : x.1 with
  | true =>
    simp only [Bool.not_true, Bool.false_eq_true, if_false]
    fb Fwd.pure
    fb Fwd.eat (hs.pre rfl)
    exact Fwd.pure
  | false =>
    simp only [Bool.not_false, if_true]
    obtain ⟨-, hw⟩ := hx hl
    fb Fwd.noBinding (hp _) (fun n hn => by rw [hn] at hw; cases hw)
    fb Fwd.eat (hs.pre rfl)
    exact Fwd.pure

theorem label_some {n} (hn : Named lx C n) (ha : Agree C fl) (h : Semi u v) (ht : fl.expectTemplate = false) :
    Fwd (fun _ => labelAndSemicolon) S fl (kw false n :: u) (some ()) S v := by
  unfold labelAndSemicolon
  fb Fwd.noLine (x := kw false n) ⟨rfl, rfl⟩
  simp only [Bool.not_false, if_true]
  fb Fwd.binding ⟨rfl, rfl⟩ (named_binding ha.keen hn)
  fb Fwd.eat ((semi_fwd h ht).pre rfl)
  exact Fwd.pure

theorem jump_fwd {l k} (hk : k ∈ [b!"break", b!"continue"]) (h : Fwd (fun _ => labelAndSemicolon) S fl u (some ()) S v) :
    Fwd (fun n => run n .statement) W fl (kw l k :: u) (some ()) S v := by
  refine statement_of (x := kw l k) (quiet_word _) ?_
  simp only [List.mem_cons, List.not_mem_nil, or_false] at hk
  rcases hk with rfl | rfl
  · refine Fwd.must (Fwd.call ?_)
    show Fwd (fun n => parseBreakStatement) _ _ _ _ _ _
    unfold parseBreakStatement
    fb Fwd.keyword ⟨rfl, rfl⟩
    exact h.pre rfl
  · refine Fwd.must (Fwd.call ?_)
    show Fwd (fun n => parseContinueStatement) _ _ _ _ _ _
    unfold parseContinueStatement
    fb Fwd.keyword ⟨rfl, rfl⟩
    exact h.pre rfl

theorem sem_jump {l k} (hk : k ∈ [b!"break", b!"continue"]) (h : Semi u v) : Sem C stmt (kw l k :: u) v :=
  fun _ _ ht _ => jump_fwd hk (label_none h ht)

theorem sem_jumpTo {l k n} (hk : k ∈ [b!"break", b!"continue"]) (hn : Named lx C n) (h : Semi u v) :
    Sem C stmt (kw l k :: kw false n :: u) v :=
  fun _ ha ht _ => jump_fwd hk (label_some hn ha h ht)

theorem sem_jumpLine {l k} {x : Tok} (hk : k ∈ [b!"break", b!"continue"]) (hl : x.1 = true)
    (hs : x.2 ≠ .punct .semicolon) : Sem C stmt (kw l k :: x :: v) (x :: v) := by
  intro fl ha ht hv
  have hp := headIs_cons.1 (calm_ready hv ht)
  refine jump_fwd hk ?_
  unfold labelAndSemicolon
  fb Fwd.noLine (hp _)
  rw [hl]
  simp only [Bool.not_true, Bool.false_eq_true, if_false]
  fb Fwd.pure
  fb Fwd.eat ((line_fwd hl hs hp).pre rfl)
  exact Fwd.pure

theorem sem_jumpToLine {l k n} {x : Tok} (hk : k ∈ [b!"break", b!"continue"]) (hn : Named lx C n) (hl : x.1 = true)
    (hs : x.2 ≠ .punct .semicolon) : Sem C stmt (kw l k :: kw false n :: x :: v) (x :: v) := by
  intro fl ha ht hv
  have hp := headIs_cons.1 (calm_ready hv ht)
  refine jump_fwd hk ?_
  unfold labelAndSemicolon
  fb Fwd.noLine (x := kw false n) ⟨rfl, rfl⟩
  simp only [Bool.not_false, if_true]
  fb Fwd.binding ⟨rfl, rfl⟩ (named_binding ha.keen hn)
  fb Fwd.eat ((line_fwd hl hs hp).pre rfl)
  exact Fwd.pure

theorem sem_returnLine {l} {x : Tok} (hl : x.1 = true)
    (hs : x.2 ≠ .punct .semicolon) : Sem C stmt (kw l b!"return" :: x :: v) (x :: v) := by
  intro fl ha ht hv
  have hp := headIs_cons.1 (calm_ready hv ht)
  refine statement_of (quiet_word _) (Fwd.must (Fwd.call ?_))
  show Fwd (fun n => parseReturnStatement (recOf n)) _ _ _ _ _ _
  unfold parseReturnStatement
  fb Fwd.keyword ⟨rfl, rfl⟩
  fb Fwd.noLine (hp _)
  rw [hl]
  simp only [Bool.not_true, Bool.false_eq_true, if_false]
  fb Fwd.pure
  fb Fwd.eat ((line_fwd hl hs hp).pre rfl)
  exact Fwd.pure

theorem sem_return {l} (h : Semi u v) : Sem C stmt (kw l b!"return" :: u) v := by
  intro fl ha ht hv
  have hs := semi_fwd h ht
  obtain ⟨x, w, rfl, hp, hx⟩ := semi_head (fl := Fwd.setFlag .fin true fl) h ht
  refine statement_of (quiet_word _) (Fwd.must (Fwd.call ?_))
  show Fwd (fun n => parseReturnStatement (recOf n)) _ _ _ _ _ _
  unfold parseReturnStatement
  fb Fwd.keyword ⟨rfl, rfl⟩
  fb Fwd.noLine (hp _)
  cases hl : x.1 with
  | true =>
    simp only [Bool.not_true, Bool.false_eq_true, if_false]
    fb Fwd.pure
    fb Fwd.eat (hs.pre rfl)
    exact Fwd.pure
  | false =>
    simp only [Bool.not_false, if_true]
    obtain ⟨hx, hw⟩ := hx hl
    refine Fwd.bind (a := none) (u₁ := x :: w) (m₁ := S) ?_ ?_
    · fb Fwd.expect
      exact (Fwd.withFlag (no_expression_of (no_assignment hx hw _))).post rfl
    fb Fwd.eat (hs.pre rfl)
    exact Fwd.pure

theorem noLine_head {x : Tok} (h : NoLine (x :: u)) : x.1 = false := h _ _ rfl

theorem sem_returnExpr {l u'} (hl : NoLine u) (hr : NotRegex u) (h : FragX lx { C with in_ := true } (FNT.expr false) u u')
    (ih : Sem { C with in_ := true } (FNT.expr false) u u') (hs : Semi u' v) :
    Sem C stmt (kw l b!"return" :: u) v := by
  intro fl ha ht hv
  have h1 : Fwd (fun n => withFlag .fin true (run n .expression)) (Mode.expect (Mode.fill S)) fl u (some ()) S u' :=
    keyword_expr ha h ih (semi_follow hs ht) rfl rfl rfl
  obtain ⟨x, w, rfl, hx⟩ := expr_starts h
  refine statement_of (quiet_word _) (Fwd.must (Fwd.call ?_))
  show Fwd (fun n => parseReturnStatement (recOf n)) _ _ _ _ _ _
  unfold parseReturnStatement
  fb Fwd.keyword ⟨rfl, rfl⟩
  fb Fwd.noLine ((hx.quiet (notRegex_tok hr)).ready _ _)
  rw [noLine_head hl]
  simp only [Bool.not_false, if_true]
  refine Fwd.bind (a := some ()) (u₁ := u') (m₁ := S) ?_ ?_
  · fb Fwd.expect
    exact h1.pre rfl
  fb Fwd.eat ((semi_fwd hs ht).pre rfl)
  exact Fwd.pure

theorem sem_returnOpen {l} {x : Tok} (hl : NoLine u) (hr : NotRegex u)
    (h : FragX lx { C with in_ := true } (FNT.exprOpen false) u (x :: v))
    (ih : Sem { C with in_ := true } (FNT.exprOpen false) u (x :: v)) (hx : x.1 = true) (hs : x.2 ≠ .punct .semicolon) :
    Sem C stmt (kw l b!"return" :: u) (x :: v) := by
  intro fl ha ht hv
  have h1 : Fwd (fun n => withFlag .fin true (run n .expression)) (Mode.expect (Mode.fill S)) fl u (some ()) S (x :: v) :=
    keyword_open ha h ih hv ht rfl rfl rfl
  obtain ⟨y, w, rfl, hy⟩ := exprOpen_starts h
  refine statement_of (quiet_word _) (Fwd.must (Fwd.call ?_))
  show Fwd (fun n => parseReturnStatement (recOf n)) _ _ _ _ _ _
  unfold parseReturnStatement
  fb Fwd.keyword ⟨rfl, rfl⟩
  fb Fwd.noLine ((hy.quiet (notRegex_tok hr)).ready _ _)
  rw [noLine_head hl]
  simp only [Bool.not_false, if_true]
  refine Fwd.bind (a := some ()) (u₁ := x :: v) (m₁ := S) ?_ ?_
  · fb Fwd.expect
    exact h1.pre rfl
  fb Fwd.eat ((line_fwd hx hs (headIs_cons.1 (calm_ready hv ht))).pre rfl)
  exact Fwd.pure

theorem sem_with {l l' l'' u'} (h : FragX lx { C with in_ := true } (FNT.expr true) u (pt l'' .parenClose :: u'))
    (ih : Sem { C with in_ := true } (FNT.expr true) u (pt l'' .parenClose :: u')) (ih₁ : Sem C stmt u' v) :
    Sem C stmt (kw l b!"with" :: pt l' .parenOpen :: u) v := by
  intro fl ha ht hv
  refine statement_of (quiet_word _) (Fwd.must (Fwd.call ?_))
  show Fwd (fun n => parseWithStatement (recOf n)) _ _ _ _ _ _
  unfold parseWithStatement
  fb Fwd.keyword ⟨rfl, rfl⟩
  fb (paren_fwd ha h ih).pre rfl
  exact Fwd.must ((ih₁ fl ha ht hv).pre rfl)

theorem sem_label {l l' n} (hn : Named lx C n) (ih : Sem C stmt u v) : Sem C stmt (kw l n :: pt l' .colon :: u) v :=
  fun fl ha ht hv => label_fwd (starts_unknown (named_starts true hn) (by simp)) (ih fl ha ht hv)

theorem word_unknown {n : Bytes} (h : Token.ident n ∉ statementWords) : statementType (.ident n) = .unknown := by
  simp only [statementWords, List.mem_cons, Token.ident.injEq, List.not_mem_nil, or_false, not_or, reduceCtorEq,
    false_or, not_false_eq_true, true_and] at h
  obtain ⟨h1, h2, h3, h4, h5, h6, h7, h8, h9, h10, h11, h12, h13⟩ := h
  simp [statementType, h1, h2, h3, h4, h5, h6, h7, h8, h9, h10, h11, h12, h13]

theorem sem_labelAny {l l' n} (hn : Token.ident n ∉ statementWords) (ih : Sem C stmt u v) :
    Sem C stmt (kw l n :: pt l' .colon :: u) v :=
  fun fl ha ht hv => label_fwd (word_unknown hn) (ih fl ha ht hv)

theorem _root_.Jsparse.Spec.ExprEnds.follow {x : Tok} (hx : ExprEnds x) (ht : fl.expectTemplate = false) :
    Follow fl 0 false (x :: v) := by
  obtain ⟨l, t⟩ := x
  rcases hx with hx | hx | hx
  · obtain rfl : t = _ := hx
    exact follow_pt
  · exact semi_follow (Semi.insert hx) ht
  · exact follow_cons.2 ⟨hx.quiet.nextOk hx.notColon, hx.low⟩

theorem sem_throwAny {l x} (hl : NoLine u) (hr : NotRegex u) (h : FragX lx { C with in_ := true } (FNT.expr false) u (x :: v))
    (ih : Sem { C with in_ := true } (FNT.expr false) u (x :: v)) (hx : ExprEnds x) :
    Sem C stmt (kw l b!"throw" :: u) (x :: v) := by
  intro fl ha ht hv
  have h1 : Fwd (fun n => withFlag .fin true (run n .expression)) (Mode.expect (Mode.fill S)) fl u (some ()) S (x :: v) :=
    keyword_expr ha h ih (hx.follow ht) rfl rfl rfl
  obtain ⟨y, w, rfl, hy⟩ := expr_starts h
  refine statement_of (quiet_word _) (Fwd.must (Fwd.call ?_))
  show Fwd (fun n => parseThrowStatement (recOf n)) _ _ _ _ _ _
  unfold parseThrowStatement
  fb Fwd.keyword ⟨rfl, rfl⟩
  fb Fwd.noLine ((hy.quiet (notRegex_tok hr)).ready _ _)
  rw [noLine_head hl]
  simp only [Bool.not_false, if_true]
  fb Fwd.expect
  fb Fwd.eat (h1.pre rfl)
  exact Fwd.pure

theorem sem_throwOpen {l} (hl : NoLine u) (hr : NotRegex u) (h : FragX lx { C with in_ := true } (FNT.exprOpen false) u v)
    (ih : Sem { C with in_ := true } (FNT.exprOpen false) u v) : Sem C stmt (kw l b!"throw" :: u) v := by
  intro fl ha ht hv
  have h1 : Fwd (fun n => withFlag .fin true (run n .expression)) (Mode.expect (Mode.fill S)) fl u (some ()) S v :=
    keyword_open ha h ih hv ht rfl rfl rfl
  obtain ⟨y, w, rfl, hy⟩ := exprOpen_starts h
  refine statement_of (quiet_word _) (Fwd.must (Fwd.call ?_))
  show Fwd (fun n => parseThrowStatement (recOf n)) _ _ _ _ _ _
  unfold parseThrowStatement
  fb Fwd.keyword ⟨rfl, rfl⟩
  fb Fwd.noLine ((hy.quiet (notRegex_tok hr)).ready _ _)
  rw [noLine_head hl]
  simp only [Bool.not_false, if_true]
  fb Fwd.expect
  fb Fwd.eat (h1.pre rfl)
  exact Fwd.pure

theorem sem_throw {l x} (hl : NoLine u) (hr : NotRegex u) (h : FragX lx { C with in_ := true } (FNT.expr false) u (x :: v))
    (ih : Sem { C with in_ := true } (FNT.expr false) u (x :: v)) (hx : x.2 = .punct .semicolon ∨ Inserts x) :
    Sem C stmt (kw l b!"throw" :: u) (x :: v) :=
  sem_throwAny hl hr h ih (hx.imp_right .inl)

theorem sem_throwLine {l} {x : Tok} (hl : x.1 = true) : Sem C stmt (kw l b!"throw" :: x :: v) (x :: v) := by
  intro fl ha ht hv
  have hp := headIs_cons.1 (calm_ready hv ht)
  refine statement_of (quiet_word _) (Fwd.must (Fwd.call ?_))
  show Fwd (fun n => parseThrowStatement (recOf n)) _ _ _ _ _ _
  unfold parseThrowStatement
  fb Fwd.keyword ⟨rfl, rfl⟩
  fb Fwd.noLine (hp _)
  rw [hl]
  simp only [Bool.not_true, Bool.false_eq_true, if_false]
  exact Fwd.pure.post rfl

/-! ## `try` -/

theorem catch_fwd {l l' l'' u'} {pat : Bool} (h : Target fl pat u (pt l'' .parenClose :: u'))
    (h₁ : Fwd (fun n => run n .blockStatement) W fl u' (some ()) Z v) :
    Fwd (fun n => (do
      match ← keyword b!"catch" with
      | some _ => do
        let _ ← P.eat (punc .parenOpen)
        patternOrIdentifier (recOf n)
        let _ ← P.eat (punc .parenClose)
        P.eat ((recOf n).call .blockStatement)
      | none => return () : P Unit)) Z fl (kw l b!"catch" :: pt l' .parenOpen :: u) () Z v := by
  fb Fwd.keyword ⟨rfl, rfl⟩
  fb Fwd.eat (Fwd.punc ⟨rfl, rfl⟩)
  fb (target_fwd h).pre rfl
  fb Fwd.eat (Fwd.punc ⟨rfl, rfl⟩)
  exact Fwd.eat (h₁.pre rfl)

theorem sem_tryFinally {l l' u'} (ih : Sem C block u (kw l' b!"finally" :: u')) (ih₁ : Sem C block u' v) :
    Sem C stmt (kw l b!"try" :: u) v := by
  intro fl ha ht hv
  refine statement_of (quiet_word _) (Fwd.must (Fwd.call ?_))
  show Fwd (fun n => parseTryStatement (recOf n)) _ _ _ _ _ _
  unfold parseTryStatement
  fb Fwd.keyword ⟨rfl, rfl⟩
  fb Fwd.eat ((ih fl ha).pre rfl)
  refine Fwd.bind (a := ()) (u₁ := kw l' b!"finally" :: u') (m₁ := S) ?_ ?_
  · fb Fwd.noKeyword (x := kw l' b!"finally") ⟨rfl, rfl⟩ (by simp)
    exact Fwd.pure.post rfl
  fb Fwd.keyword ⟨rfl, rfl⟩
  exact Fwd.must (((ih₁ fl ha).pre rfl).post rfl)

theorem sem_tryOnly {l} (ih : Sem C block u v) (hc : NotNext b!"catch" v) (hf : NotNext b!"finally" v) :
    Sem C stmt (kw l b!"try" :: u) v := by
  intro fl ha ht hv
  refine statement_of (quiet_word _) (Fwd.must (Fwd.call ?_))
  show Fwd (fun n => parseTryStatement (recOf n)) _ _ _ _ _ _
  unfold parseTryStatement
  fb Fwd.keyword ⟨rfl, rfl⟩
  fb Fwd.eat ((ih fl ha).pre rfl)
  obtain ⟨x, w, rfl, hx⟩ := calm_ready hv ht
  refine Fwd.bind (a := ()) (u₁ := x :: w) (m₁ := S) ?_ ?_
  · fb Fwd.noKeyword (hx _) (not_else hc _ _ rfl)
    exact Fwd.pure.post rfl
  fb Fwd.noKeyword (hx _) (not_else hf _ _ rfl)
  exact Fwd.pure.post rfl

theorem sem_tryCatch {l l' l'' l₁ u' u''} (ih : Sem C block u (kw l' b!"catch" :: pt l'' .parenOpen :: u'))
    (ih₁ : Sem C target u' (pt l₁ .parenClose :: u'')) (ih₂ : Sem C block u'' v) (hn : NotNext b!"finally" v) :
    Sem C stmt (kw l b!"try" :: u) v := by
  intro fl ha ht hv
  obtain ⟨pat, h1⟩ := ih₁ fl ha
  refine statement_of (quiet_word _) (Fwd.must (Fwd.call ?_))
  show Fwd (fun n => parseTryStatement (recOf n)) _ _ _ _ _ _
  unfold parseTryStatement
  fb Fwd.keyword ⟨rfl, rfl⟩
  fb Fwd.eat ((ih fl ha).pre rfl)
  fb catch_fwd h1 (ih₂ fl ha)
  obtain ⟨x, w, rfl, hx⟩ := calm_ready hv ht
  fb Fwd.noKeyword (hx _) (not_else hn _ _ rfl)
  exact Fwd.pure.post rfl

theorem sem_tryBoth {l l' l'' l₁ l₂ u' u'' u₁} (ih : Sem C block u (kw l' b!"catch" :: pt l'' .parenOpen :: u'))
    (ih₁ : Sem C target u' (pt l₁ .parenClose :: u'')) (ih₂ : Sem C block u'' (kw l₂ b!"finally" :: u₁))
    (ih₃ : Sem C block u₁ v) : Sem C stmt (kw l b!"try" :: u) v := by
  intro fl ha ht hv
  obtain ⟨pat, h1⟩ := ih₁ fl ha
  refine statement_of (quiet_word _) (Fwd.must (Fwd.call ?_))
  show Fwd (fun n => parseTryStatement (recOf n)) _ _ _ _ _ _
  unfold parseTryStatement
  fb Fwd.keyword ⟨rfl, rfl⟩
  fb Fwd.eat ((ih fl ha).pre rfl)
  fb catch_fwd h1 (ih₂ fl ha)
  fb Fwd.keyword ⟨rfl, rfl⟩
  exact Fwd.must (((ih₃ fl ha).pre rfl).post rfl)

theorem sem_debugger {l} (h : Semi u v) : Sem C stmt (kw l b!"debugger" :: u) v := by
  intro fl ha ht hv
  refine statement_of (quiet_word _) (Fwd.must (Fwd.call ?_))
  show Fwd (fun n => parseDebuggerStatement) _ _ _ _ _ _
  unfold parseDebuggerStatement
  fb Fwd.keyword ⟨rfl, rfl⟩
  fb Fwd.eat ((semi_fwd h ht).pre rfl)
  exact Fwd.pure

theorem sem_debuggerLine {l} {x : Tok} (hl : x.1 = true)
    (hs : x.2 ≠ .punct .semicolon) : Sem C stmt (kw l b!"debugger" :: x :: v) (x :: v) := by
  intro fl ha ht hv
  have hp := headIs_cons.1 (calm_ready hv ht)
  refine statement_of (quiet_word _) (Fwd.must (Fwd.call ?_))
  show Fwd (fun n => parseDebuggerStatement) _ _ _ _ _ _
  unfold parseDebuggerStatement
  fb Fwd.keyword ⟨rfl, rfl⟩
  fb Fwd.eat ((line_fwd hl hs hp).pre rfl)
  exact Fwd.pure

end stmt_

end Jsparse.Forward
