import Verif.Proofs.FwdStmt

/-!
# Modules of the fragment

`import` and `export` declarations, the items of a module, the whole program.
-/

namespace Jsparse.Forward

open P Spec FNT

section module_

variable {lx : Bool} {C : Ctx} {fl : Flags} {u v : List Tok} {m : Mode} {e g f : Bool}

/-! ## Items -/

theorem script_item {a : Option Unit} {m' : Mode} (h : Fwd (fun n => orTry (run n .declaration) (run n .statement)) W fl u a m' v) :
    Fwd (fun n => run n .scriptItem) W fl u a m' v := by
  refine Fwd.call ?_
  show Fwd (fun n => parseScriptItem (recOf n)) _ _ _ _ _ _
  unfold parseScriptItem
  fb Fwd.expect
  exact h.pre rfl

/-- `import` and `export` begin neither a declaration nor a statement. -/
theorem no_script {l k y} (hk : k ∈ [b!"import", b!"export"]) (hy : Quiet y.2) (hc : y.2 ≠ .punct .colon) :
    Fwd (fun n => run n .scriptItem) W fl (kw l k :: y :: u) none V (kw l k :: y :: u) := by
  have key : ∀ k ∈ [b!"import", b!"export"], Token.ident k ∉ [Token.ident b!"class", .ident b!"function", .ident b!"let", .ident b!"const"] ∧
      statementType (.ident k) = .unknown ∧ k ∈ keywords ++ [b!"null", b!"true", b!"false", b!"enum"] ∧ unaryType (.ident k) = .unknown ∧ k ≠ b!"new" ∧
      k ≠ b!"super" ∧ k ≠ b!"yield" ∧ k ≠ b!"async" ∧
      k ∉ [b!"this", b!"function", b!"class", b!"null", b!"true", b!"false"] := by decide
  obtain ⟨h1, h2, h3, h4, h5, h6, h7, h8, h9⟩ := key k hk
  have hl : ∀ fl, LookOk fl k y.2 := fun fl => ⟨hy.2.2 _, fun h => (by rw [hy.1] at h; cases h), fun h => (by rw [hy.2.1] at h; cases h)⟩
  have hs : ∀ fl : Flags, Stops fl (.ident k) := fun fl =>
    ⟨fun _ => ⟨rfl, rfl⟩, by
      have : isBindingIdentifier fl k = false := keyword_binding h3
      simp only [List.mem_cons, List.not_mem_nil, not_or] at h9
      simp [primaryType, this, h9], h4, by simp, by simp, by simpa using h5, by simpa using h6, by simpa using h7⟩
  refine script_item (Fwd.orTry_second (no_declaration (x := kw l k) (quiet_word _) h1) ?_)
  refine statement_of (x := kw l k) (quiet_word _) ?_
  rw [show statementType (kw l k).2 = .unknown from h2]
  refine Fwd.orTry_second (lookahead_fwd (x := kw l k) (quiet_word _)
    (second_word (headIs_cons.2 ⟨hl _, fun _ => hc⟩))) (Fwd.call ?_)
  show Fwd (fun n => parseExpressionStatement (recOf n)) _ _ _ _ _ _
  unfold parseExpressionStatement
  fb Fwd.withFlag (no_expression_of (no_assignment_word (hs _) h8 (hl _) _))
  exact Fwd.pure.post rfl

theorem no_import {x : Tok} (hx : x.2 ≠ .ident b!"import") (hr : Ready m fl x.2) :
    Fwd (fun n => run n .importDeclaration) m fl (x :: u) none m.fill (x :: u) := by
  refine Fwd.call ?_
  show Fwd (fun n => parseImportDeclaration (recOf n)) _ _ _ _ _ _
  unfold parseImportDeclaration
  fb Fwd.noKeyword hr hx
  exact Fwd.pure

theorem no_export {x : Tok} (hx : x.2 ≠ .ident b!"export") (hr : Ready m fl x.2) :
    Fwd (fun n => run n .exportDeclaration) m fl (x :: u) none m.fill (x :: u) := by
  refine Fwd.call ?_
  show Fwd (fun n => parseExportDeclaration (recOf n)) _ _ _ _ _ _
  unfold parseExportDeclaration
  fb Fwd.noKeyword hr hx
  exact Fwd.pure

theorem import_item {l y} (hy : Quiet y.2) (hc : y.2 ≠ .punct .colon)
    (h : Fwd (fun n => run n .importDeclaration) V fl (kw l b!"import" :: y :: u) (some ()) S v) :
    Fwd (fun n => run n .moduleItem) W fl (kw l b!"import" :: y :: u) (some ()) S v := by
  refine Fwd.call ?_
  show Fwd (fun n => parseModuleItem (recOf n)) _ _ _ _ _ _
  unfold parseModuleItem
  fb Fwd.expect
  exact Fwd.orTry_second ((no_script (by decide) hy hc).pre rfl) (Fwd.orTry_first h)

theorem export_item {l y} (hy : Quiet y.2) (hc : y.2 ≠ .punct .colon)
    (h : Fwd (fun n => run n .exportDeclaration) V fl (kw l b!"export" :: y :: u) (some ()) S v) :
    Fwd (fun n => run n .moduleItem) W fl (kw l b!"export" :: y :: u) (some ()) S v := by
  refine Fwd.call ?_
  show Fwd (fun n => parseModuleItem (recOf n)) _ _ _ _ _ _
  unfold parseModuleItem
  fb Fwd.expect
  exact Fwd.orTry_second ((no_script (by decide) hy hc).pre rfl)
    (Fwd.orTry_second (no_import (x := kw l b!"export") (by simp) ⟨rfl, rfl⟩) (h.pre rfl))

theorem sem_moduleItem (ih : Sem C item u v) : Sem C moduleItem u v := by
  intro fl ha ht hv
  refine Fwd.call ?_
  show Fwd (fun n => parseModuleItem (recOf n)) _ _ _ _ _ _
  unfold parseModuleItem
  fb Fwd.expect
  refine Fwd.orTry_first ((script_item ?_).pre rfl)
  rcases ih fl ha ht hv with h1 | ⟨h1, h2⟩
  · exact Fwd.orTry_first h1
  · exact Fwd.orTry_second h1 h2

theorem sem_moduleItemsNil : Sem C moduleItems v v := by
  intro fl ha ht hv
  obtain ⟨⟨l, t⟩, w, rfl, hx⟩ := hv
  obtain rfl : t = _ := hx
  refine ⟨headIs_cons.2 ⟨rfl, rfl, rfl⟩, LoopFwd.stop ?_⟩
  unfold whileBody
  refine Fwd.bind (a := none) (u₁ := (l, .eof) :: w) (m₁ := V) (Fwd.call ?_) Fwd.pure
  show Fwd (fun n => parseModuleItem (recOf n)) _ _ _ _ _ _
  unfold parseModuleItem
  fb Fwd.expect
  refine Fwd.orTry_second (u₁ := (l, .eof) :: w) (m₁ := V) ((script_item ?_).pre rfl) ?_
  · exact Fwd.orTry_second (no_declaration (x := (l, .eof)) ⟨rfl, rfl, fun _ => rfl⟩ (by simp))
      (no_statement (x := (l, .eof)) stops_eof rfl rfl stops_eof)
  · exact Fwd.orTry_second (no_import (x := (l, .eof)) (by simp) ⟨rfl, rfl⟩)
      ((no_export (x := (l, .eof)) (by simp) ⟨rfl, rfl⟩).post rfl)

theorem moduleItem_head (h : FragX lx C moduleItem u v) : HeadIs Quiet u := heads h rfl

theorem sem_moduleItemsCons {u'} (h : FragX lx C moduleItem u u') (ih : Sem C moduleItem u u') (ih₁ : Sem C moduleItems u' v) :
    Sem C moduleItems u v := by
  intro fl ha ht hv
  obtain ⟨hc, hl⟩ := ih₁ fl ha ht hv
  refine ⟨(moduleItem_head h).mono fun _ h => h.calm, LoopFwd.next (st' := ()) (m₁ := S) ?_ (hl.pre rfl)⟩
  unfold whileBody
  exact Fwd.bind (a := some ()) (u₁ := u') (m₁ := S) (ih fl ha ht hc) Fwd.pure

theorem sem_program {l} (ih : Sem C moduleItems u [(l, .eof)]) : Sem C program u [] := by
  intro fl ha ht
  obtain ⟨-, hl⟩ := ih fl ha ht (headIs_cons.2 rfl)
  unfold parseModule
  fb LoopFwd.whileSome hl
  fb Fwd.eat (Fwd.eof ⟨rfl, rfl⟩)
  exact Fwd.pure.post rfl

/-! ## Specifiers -/

theorem specifier {l n x} (hx : x.2 ≠ .ident b!"as") (hr : Plain fl x.2) :
    Fwd (fun n => run n .importSpecifier) S fl (kw l n :: x :: u) (some ()) S (x :: u) ∧
    Fwd (fun n => run n .exportSpecifier) S fl (kw l n :: x :: u) (some ()) S (x :: u) := by
  constructor
  · refine Fwd.call ?_
    show Fwd (fun n => parseImportSpecifier) _ _ _ _ _ _
    unfold parseImportSpecifier
    fb Fwd.identifier ⟨rfl, rfl⟩
    fb Fwd.noKeyword (hr _) hx
    exact Fwd.pure.post rfl
  · refine Fwd.call ?_
    show Fwd (fun n => parseExportSpecifier) _ _ _ _ _ _
    unfold parseExportSpecifier
    fb Fwd.identifier ⟨rfl, rfl⟩
    fb Fwd.noKeyword (hr _) hx
    exact Fwd.pure.post rfl

theorem specifier_as {l l' l'' n n'} :
    Fwd (fun n => run n .importSpecifier) S fl (kw l n :: kw l' b!"as" :: kw l'' n' :: u) (some ()) S u ∧
    Fwd (fun n => run n .exportSpecifier) S fl (kw l n :: kw l' b!"as" :: kw l'' n' :: u) (some ()) S u := by
  constructor
  · refine Fwd.call ?_
    show Fwd (fun n => parseImportSpecifier) _ _ _ _ _ _
    unfold parseImportSpecifier
    fb Fwd.identifier ⟨rfl, rfl⟩
    fb Fwd.keyword ⟨rfl, rfl⟩
    fb Fwd.eat (Fwd.identifier ⟨rfl, rfl⟩)
    exact Fwd.pure.post rfl
  · refine Fwd.call ?_
    show Fwd (fun n => parseExportSpecifier) _ _ _ _ _ _
    unfold parseExportSpecifier
    fb Fwd.identifier ⟨rfl, rfl⟩
    fb Fwd.keyword ⟨rfl, rfl⟩
    fb Fwd.eat (Fwd.identifier ⟨rfl, rfl⟩)
    exact Fwd.pure.post rfl

theorem specifier_end {F : Nat → P (Option Unit)} {x : Tok} (h : Fwd F S fl u (some ()) S (x :: v)) (hx : x.2 ≠ .punct .comma) (hr : Plain fl x.2) :
    LoopFwd (fun n _ => specifierRound (F n)) () S fl u () (L false) (x :: v) := by
  refine LoopFwd.stop ?_
  unfold specifierRound
  fb h
  fb Fwd.noPunc (hr _) hx
  exact Fwd.pure.post rfl

theorem specifier_next {F : Nat → P (Option Unit)} {l u'} (h : Fwd F S fl u (some ()) S (pt l .comma :: u'))
    (hl : LoopFwd (fun n _ => specifierRound (F n)) () S fl u' () (L false) v) :
    LoopFwd (fun n _ => specifierRound (F n)) () S fl u () (L false) v := by
  refine LoopFwd.next (st' := ()) (m₁ := S) ?_ hl
  unfold specifierRound
  fb h
  fb Fwd.punc ⟨rfl, rfl⟩
  exact Fwd.pure.post rfl

theorem sem_specifiersNil : Sem C FNT.specifiers v v := by
  intro fl ha ht hv
  obtain ⟨⟨l, t⟩, w, rfl, hx⟩ := hv
  obtain rfl : t = _ := hx
  constructor
  · refine LoopFwd.stop ?_
    unfold specifierRound
    refine Fwd.bind (a := none) (u₁ := pt l .curlyClose :: w) (m₁ := L false) (Fwd.call ?_) Fwd.pure
    show Fwd (fun n => parseImportSpecifier) _ _ _ _ _ _
    unfold parseImportSpecifier
    fb Fwd.noIdentifier (x := pt l .curlyClose) (curly_plain ht _) rfl
    exact Fwd.pure.post rfl
  · refine LoopFwd.stop ?_
    unfold specifierRound
    refine Fwd.bind (a := none) (u₁ := pt l .curlyClose :: w) (m₁ := L false) (Fwd.call ?_) Fwd.pure
    show Fwd (fun n => parseExportSpecifier) _ _ _ _ _ _
    unfold parseExportSpecifier
    fb Fwd.noIdentifier (x := pt l .curlyClose) (curly_plain ht _) rfl
    exact Fwd.pure.post rfl

theorem sem_specifiersLast {l n} : Sem C FNT.specifiers (kw l n :: v) v := by
  intro fl ha ht hv
  obtain ⟨⟨l', t⟩, w, rfl, hx⟩ := hv
  obtain rfl : t = _ := hx
  obtain ⟨h1, h2⟩ := specifier (fl := fl) (l := l) (n := n) (u := w) (x := pt l' .curlyClose) (by simp) (curly_plain ht)
  exact ⟨specifier_end h1 (by simp) (curly_plain ht), specifier_end h2 (by simp) (curly_plain ht)⟩

theorem sem_specifiersAsLast {l l' l'' n n'} : Sem C FNT.specifiers (kw l n :: kw l' b!"as" :: kw l'' n' :: v) v := by
  intro fl ha ht hv
  obtain ⟨⟨l, t⟩, w, rfl, hx⟩ := hv
  obtain rfl : t = _ := hx
  exact ⟨specifier_end specifier_as.1 (by simp) (curly_plain ht), specifier_end specifier_as.2 (by simp) (curly_plain ht)⟩

theorem sem_specifiersCons {l l' n} (ih : Sem C FNT.specifiers u v) : Sem C FNT.specifiers (kw l n :: pt l' .comma :: u) v := by
  intro fl ha ht hv
  obtain ⟨h1, h2⟩ := ih fl ha ht hv
  obtain ⟨h3, h4⟩ := specifier (fl := fl) (l := l) (n := n) (u := u) (x := pt l' .comma) (by simp) (fun _ => ⟨rfl, rfl⟩)
  exact ⟨specifier_next h3 h1, specifier_next h4 h2⟩

theorem sem_specifiersAs {l l' l'' l₁ n n'} (ih : Sem C FNT.specifiers u v) :
    Sem C FNT.specifiers (kw l n :: kw l' b!"as" :: kw l'' n' :: pt l₁ .comma :: u) v := by
  intro fl ha ht hv
  obtain ⟨h1, h2⟩ := ih fl ha ht hv
  exact ⟨specifier_next specifier_as.1 h1, specifier_next specifier_as.2 h2⟩

/-! ## `import` -/

theorem Quiet.punct {q : Punct} (h : q ∈ [Punct.curlyOpen, .star]) : Quiet (.punct q) ∧ Token.punct q ≠ .punct .colon := by
  simp only [List.mem_cons, List.not_mem_nil, or_false] at h
  rcases h with rfl | rfl <;> exact ⟨⟨rfl, rfl, fun _ => rfl⟩, by simp⟩

theorem from_fwd {l l' x} : Fwd (fun _ => do
    let _ ← P.eat (keyword b!"from")
    let _ ← P.eat string
    return ()) S fl (kw l b!"from" :: (l', .str x) :: u) () S u := by
  fb Fwd.eat (Fwd.keyword ⟨rfl, rfl⟩)
  fb Fwd.eat (Fwd.string ⟨rfl, rfl⟩)
  exact Fwd.pure.post rfl

theorem import_clause {l y w} (hy : Quiet y.2) (hc : y.2 ≠ .punct .colon) (hs : ∀ x, y.2 ≠ .str x)
    (h : Fwd (fun n => importClause (recOf n)) S fl (y :: u) () S w) (h₁ : RawSemi w v) (hv : HeadIs Calm v) (ht : fl.expectTemplate = false) :
    Fwd (fun n => run n .moduleItem) W fl (kw l b!"import" :: y :: u) (some ()) S v := by
  refine import_item hy hc (Fwd.call ?_)
  show Fwd (fun n => parseImportDeclaration (recOf n)) _ _ _ _ _ _
  unfold parseImportDeclaration
  fb Fwd.keyword ⟨rfl, rfl⟩
  refine Fwd.bind (a := ()) (u₁ := w) (m₁ := S) ?_ ?_
  · fb Fwd.noString (hy.ready _ _) hs
    exact h.pre rfl
  fb Fwd.eat (rawSemi_fwd h₁ hv ht)
  exact Fwd.pure

theorem sem_importFile {l l' x} (h : RawSemi u v) : Sem C moduleItem (kw l b!"import" :: (l', .str x) :: u) v := by
  intro fl ha ht hv
  refine import_item ⟨rfl, rfl, fun _ => rfl⟩ (by simp) (Fwd.call ?_)
  show Fwd (fun n => parseImportDeclaration (recOf n)) _ _ _ _ _ _
  unfold parseImportDeclaration
  fb Fwd.keyword ⟨rfl, rfl⟩
  refine Fwd.bind (a := ()) (u₁ := u) (m₁ := S) ?_ ?_
  · fb Fwd.string ⟨rfl, rfl⟩
    exact Fwd.pure.post rfl
  fb Fwd.eat (rawSemi_fwd h hv ht)
  exact Fwd.pure

/-- The default name. -/
theorem import_name {l n x} {b : Bool} {w : List Tok} (hn : Named lx C n) (ha : Agree C fl)
    (h : Fwd (fun _ => punc .comma) S fl u (if b then some x else none) S w) :
    Fwd (fun _ => (do
      match ← bindingIdentifier with
      | some _ => do
        let c ← punc .comma
        return c.isSome
      | none => return true : P Bool)) S fl (kw l n :: u) b S w := by
  fb Fwd.binding ⟨rfl, rfl⟩ (named_binding ha.keen hn)
  fb h.pre rfl
  cases b <;> exact Fwd.pure

theorem import_noName {q : Punct} {l : Bool} (hq : q ∈ [Punct.curlyOpen, .star]) :
    Fwd (fun _ => (do
      match ← bindingIdentifier with
      | some _ => do
        let c ← punc .comma
        return c.isSome
      | none => return true : P Bool)) S fl (pt l q :: u) true S (pt l q :: u) := by
  fb Fwd.noBinding (x := pt l q) ((Quiet.punct hq).1.ready _ _) (by simp)
  exact Fwd.pure.post rfl

theorem sem_importDefault {l l' l'' l₁ n x} (hn : Named lx C n) (h : RawSemi u v) :
    Sem C moduleItem (kw l b!"import" :: kw l' n :: kw l'' b!"from" :: (l₁, .str x) :: u) v := by
  intro fl ha ht hv
  refine import_clause (quiet_word _) (by simp) (by simp) ?_ h hv ht
  unfold importClause
  fb import_name (b := false) (x := .comma) hn ha ((Fwd.noPunc (x := kw l'' b!"from") ⟨rfl, rfl⟩ (by simp)).post rfl)
  simp only [Bool.false_eq_true, if_false]
  exact from_fwd

theorem star_fwd {l l' l'' n} (hn : Named lx C n) (ha : Agree C fl) : Fwd (fun k => (do
      match ← punc .star with
      | some _ => do
        let _ ← P.eat (keyword b!"as")
        let _ ← P.eat bindingIdentifier
        return ()
      | none => do
        let _ ← P.eat (punc .curlyOpen)
        loop (recOf k).fuel (fun _ => specifierRound ((recOf k).call .importSpecifier)) ()
        let _ ← P.eat (punc .curlyClose)
        return () : P Unit)) S fl (pt l .star :: kw l' b!"as" :: kw l'' n :: u) () S u := by
  fb Fwd.punc ⟨rfl, rfl⟩
  fb Fwd.eat (Fwd.keyword ⟨rfl, rfl⟩)
  fb Fwd.eat (Fwd.binding ⟨rfl, rfl⟩ (named_binding ha.keen hn))
  exact Fwd.pure.post rfl

theorem names_fwd {l l'} (ha : Agree C fl) (ht : fl.expectTemplate = false) (ih : Sem C FNT.specifiers u (pt l' .curlyClose :: v)) :
    Fwd (fun k => (do
      match ← punc .star with
      | some _ => do
        let _ ← P.eat (keyword b!"as")
        let _ ← P.eat bindingIdentifier
        return ()
      | none => do
        let _ ← P.eat (punc .curlyOpen)
        loop (recOf k).fuel (fun _ => specifierRound ((recOf k).call .importSpecifier)) ()
        let _ ← P.eat (punc .curlyClose)
        return () : P Unit)) S fl (pt l .curlyOpen :: u) () S v := by
  fb Fwd.noPunc (x := pt l .curlyOpen) ⟨rfl, rfl⟩ (by simp)
  fb Fwd.eat (Fwd.punc ⟨rfl, rfl⟩)
  fb LoopFwd.fwd ((ih fl ha ht (headIs_cons.2 rfl)).1.pre rfl)
  fb Fwd.eat (Fwd.punc (curly_plain ht _))
  exact Fwd.pure.post rfl

theorem sem_importStar {l l' l'' l₁ l₂ l₃ n x} (hn : Named lx C n) (h : RawSemi u v) :
    Sem C moduleItem (kw l b!"import" :: pt l' .star :: kw l'' b!"as" :: kw l₁ n ::
      kw l₂ b!"from" :: (l₃, .str x) :: u) v := by
  intro fl ha ht hv
  refine import_clause ⟨rfl, rfl, fun _ => rfl⟩ (by simp) (by simp) ?_ h hv ht
  unfold importClause
  fb import_noName (by decide)
  simp only [if_true]
  fb star_fwd hn ha
  exact from_fwd

theorem sem_importNames {l l' l'' l₁ l₂ x u'}
    (ih : Sem C FNT.specifiers u (pt l'' .curlyClose :: kw l₁ b!"from" :: (l₂, .str x) :: u')) (h : RawSemi u' v) :
    Sem C moduleItem (kw l b!"import" :: pt l' .curlyOpen :: u) v := by
  intro fl ha ht hv
  refine import_clause ⟨rfl, rfl, fun _ => rfl⟩ (by simp) (by simp) ?_ h hv ht
  unfold importClause
  fb import_noName (by decide)
  simp only [if_true]
  fb names_fwd ha ht ih
  exact from_fwd

theorem sem_importBoth {l l' l'' l₁ l₂ l₃ l₄ n x u'} (hn : Named lx C n)
    (ih : Sem C FNT.specifiers u (pt l₂ .curlyClose :: kw l₃ b!"from" :: (l₄, .str x) :: u')) (h : RawSemi u' v) :
    Sem C moduleItem (kw l b!"import" :: kw l' n :: pt l'' .comma :: pt l₁ .curlyOpen :: u) v := by
  intro fl ha ht hv
  refine import_clause (quiet_word _) (by simp) (by simp) ?_ h hv ht
  unfold importClause
  fb import_name (b := true) (x := .comma) hn ha ((Fwd.punc ⟨rfl, rfl⟩).post rfl)
  simp only [if_true]
  fb names_fwd ha ht ih
  exact from_fwd

theorem sem_importBothStar {l l' l'' l₁ l₂ l₃ l₄ l₅ n n' x} (hn : Named lx C n) (hn' : Named lx C n') (h : RawSemi u v) :
    Sem C moduleItem (kw l b!"import" :: kw l' n :: pt l'' .comma :: pt l₁ .star :: kw l₂ b!"as" ::
      kw l₃ n' :: kw l₄ b!"from" :: (l₅, .str x) :: u) v := by
  intro fl ha ht hv
  refine import_clause (quiet_word _) (by simp) (by simp) ?_ h hv ht
  unfold importClause
  fb import_name (b := true) (x := .comma) hn ha ((Fwd.punc ⟨rfl, rfl⟩).post rfl)
  simp only [if_true]
  fb star_fwd hn' ha
  exact from_fwd

/-! ## `export` -/

theorem export_named {l y w} (hy : Quiet y.2) (hc : y.2 ≠ .punct .colon) (hd : y.2 ≠ .ident b!"default")
    (h : Fwd (fun n => exportNamed (recOf n)) S fl (y :: u) () S w) (h₁ : RawSemi w v) (hv : HeadIs Calm v) (ht : fl.expectTemplate = false) :
    Fwd (fun n => run n .moduleItem) W fl (kw l b!"export" :: y :: u) (some ()) S v := by
  refine export_item hy hc (Fwd.call ?_)
  show Fwd (fun n => parseExportDeclaration (recOf n)) _ _ _ _ _ _
  unfold parseExportDeclaration
  fb Fwd.keyword ⟨rfl, rfl⟩
  fb Fwd.noKeyword (hy.ready _ _) hd
  fb h.pre rfl
  fb Fwd.eat (rawSemi_fwd h₁ hv ht)
  exact Fwd.pure

theorem no_var {x : Tok} (hx : x.2 ≠ .ident b!"var") (hr : Ready m fl x.2) :
    Fwd (fun n => run n .variableStatement) m fl (x :: u) none m.fill (x :: u) := by
  refine Fwd.call ?_
  show Fwd (fun n => parseVariableStatement (recOf n)) _ _ _ _ _ _
  unfold parseVariableStatement
  fb Fwd.noKeyword hr hx
  exact Fwd.pure

theorem no_let {x : Tok} (hx : x.2 ≠ .ident b!"let") (hr : Ready m fl x.2) :
    Fwd (fun n => run n .letDeclaration) m fl (x :: u) none m.fill (x :: u) := by
  refine Fwd.call ?_
  show Fwd (fun n => parseLetDeclaration (recOf n)) _ _ _ _ _ _
  unfold parseLetDeclaration
  fb Fwd.noKeyword hr hx
  exact Fwd.pure

theorem no_const {x : Tok} (hx : x.2 ≠ .ident b!"const") (hr : Ready m fl x.2) :
    Fwd (fun n => run n .constDeclaration) m fl (x :: u) none m.fill (x :: u) := by
  refine Fwd.call ?_
  show Fwd (fun n => parseConstDeclaration (recOf n)) _ _ _ _ _ _
  unfold parseConstDeclaration
  fb Fwd.noKeyword hr hx
  exact Fwd.pure

theorem ff_var : ∀ n, FillFirst (run n .variableStatement)
  | 0 => FillFirst.run_zero _
  | _ + 1 => .bind (ff_keyword _)

theorem sem_exportVar {l l' u' u''} (ih : Sem { C with in_ := true } (declrs false false) u u') (h : Semi u' u'') (h₁ : RawSemi u'' v) :
    Sem C moduleItem (kw l b!"export" :: kw l' b!"var" :: u) v := by
  intro fl ha ht hv
  refine export_named (quiet_word _) (by simp) (by simp) ?_ h₁ hv ht
  unfold exportNamed
  fb Fwd.enter (x := kw l' b!"var") ff_var ⟨rfl, rfl⟩ ((var_decl ht ha ih h).pre rfl)
  exact Fwd.pure

theorem sem_exportVarOpen {l l'} {x : Tok} (ih : Sem { C with in_ := true } (openDeclrs false) u (x :: v)) (hl : x.1 = true)
    (hs : x.2 ∉ [Token.punct .comma, .punct .eq, .punct .semicolon]) :
    Sem C moduleItem (kw l b!"export" :: kw l' b!"var" :: u) (x :: v) := by
  intro fl ha ht hv
  refine export_named (w := x :: v) (quiet_word _) (by simp) (by simp) ?_ (.insert ⟨fun h => hs (by rw [h]; decide), .inl hl⟩) hv ht
  unfold exportNamed
  fb Fwd.enter (x := kw l' b!"var") ff_var ⟨rfl, rfl⟩ ((var_open ht ha ih hl hs hv).pre rfl)
  exact Fwd.pure

theorem sem_exportLetOpen {l l'} {x : Tok} (ih : Sem C (openDeclrs false) u (x :: v)) (hl : x.1 = true)
    (hs : x.2 ∉ [Token.punct .comma, .punct .eq, .punct .semicolon]) :
    Sem C moduleItem (kw l b!"export" :: kw l' b!"let" :: u) (x :: v) := by
  intro fl ha ht hv
  refine export_named (w := x :: v) (quiet_word _) (by simp) (by simp) ?_ (.insert ⟨fun h => hs (by rw [h]; decide), .inl hl⟩) hv ht
  unfold exportNamed
  fb no_var (x := kw l' b!"let") (by simp) ⟨rfl, rfl⟩
  fb (let_open ht ha ih hl hs hv).pre rfl
  exact Fwd.pure

theorem sem_exportLet {l l' u' u''} (ih : Sem C (declrs false false) u u') (h : Semi u' u'') (h₁ : RawSemi u'' v) :
    Sem C moduleItem (kw l b!"export" :: kw l' b!"let" :: u) v := by
  intro fl ha ht hv
  refine export_named (quiet_word _) (by simp) (by simp) ?_ h₁ hv ht
  unfold exportNamed
  fb no_var (x := kw l' b!"let") (by simp) ⟨rfl, rfl⟩
  fb (let_decl ht ha ih h).pre rfl
  exact Fwd.pure

theorem sem_exportConst {l l' u' u''} (ih : Sem C (declrs true true) u u') (h : Semi u' u'') (h₁ : RawSemi u'' v) :
    Sem C moduleItem (kw l b!"export" :: kw l' b!"const" :: u) v := by
  intro fl ha ht hv
  refine export_named (quiet_word _) (by simp) (by simp) ?_ h₁ hv ht
  unfold exportNamed
  fb no_var (x := kw l' b!"const") (by simp) ⟨rfl, rfl⟩
  fb no_let (x := kw l' b!"const") (by simp) ⟨rfl, rfl⟩
  fb (const_decl ht ha ih h).pre rfl
  exact Fwd.pure

theorem sem_exportConstOpen {l l'} {x : Tok} (ih : Sem C (openDeclrs true) u (x :: v)) (hl : x.1 = true)
    (hs : x.2 ∉ [Token.punct .comma, .punct .eq, .punct .semicolon]) :
    Sem C moduleItem (kw l b!"export" :: kw l' b!"const" :: u) (x :: v) := by
  intro fl ha ht hv
  refine export_named (w := x :: v) (quiet_word _) (by simp) (by simp) ?_ (.insert ⟨fun h => hs (by rw [h]; decide), .inl hl⟩) hv ht
  unfold exportNamed
  fb no_var (x := kw l' b!"const") (by simp) ⟨rfl, rfl⟩
  fb no_let (x := kw l' b!"const") (by simp) ⟨rfl, rfl⟩
  fb (const_open ht ha ih hl hs hv).pre rfl
  exact Fwd.pure

theorem sem_exportLetIn {l l'} (hi : C.in_ = false) (ih : Sem C (declrs false false) u (kw true b!"in" :: v)) :
    Sem C moduleItem (kw l b!"export" :: kw l' b!"let" :: u) (kw true b!"in" :: v) := by
  intro fl ha ht hv
  refine export_named (w := kw true b!"in" :: v) (quiet_word _) (by simp) (by simp) ?_ (.insert ⟨by simp, .inl rfl⟩) hv ht
  unfold exportNamed
  fb no_var (x := kw l' b!"let") (by simp) ⟨rfl, rfl⟩
  fb (let_in hi ha ih).pre rfl
  exact Fwd.pure

theorem sem_exportConstIn {l l'} (hi : C.in_ = false) (ih : Sem C (declrs true true) u (kw true b!"in" :: v)) :
    Sem C moduleItem (kw l b!"export" :: kw l' b!"const" :: u) (kw true b!"in" :: v) := by
  intro fl ha ht hv
  refine export_named (w := kw true b!"in" :: v) (quiet_word _) (by simp) (by simp) ?_ (.insert ⟨by simp, .inl rfl⟩) hv ht
  unfold exportNamed
  fb no_var (x := kw l' b!"const") (by simp) ⟨rfl, rfl⟩
  fb no_let (x := kw l' b!"const") (by simp) ⟨rfl, rfl⟩
  fb (const_in hi ha ih).pre rfl
  exact Fwd.pure

theorem sem_exportStar {l l' l'' l₁ x} (h : RawSemi u v) :
    Sem C moduleItem (kw l b!"export" :: pt l' .star :: kw l'' b!"from" :: (l₁, .str x) :: u) v := by
  intro fl ha ht hv
  refine export_named ⟨rfl, rfl, fun _ => rfl⟩ (by simp) (by simp) ?_ h hv ht
  unfold exportNamed
  fb no_var (x := pt l' .star) (by simp) ⟨rfl, rfl⟩
  fb no_let (x := pt l' .star) (by simp) ⟨rfl, rfl⟩
  fb no_const (x := pt l' .star) (by simp) ⟨rfl, rfl⟩
  fb Fwd.punc ⟨rfl, rfl⟩
  exact from_fwd.pre rfl

theorem export_names {l l'} (ha : Agree C fl) (ht : fl.expectTemplate = false) (ih : Sem C FNT.specifiers u (pt l' .curlyClose :: v)) {w : List Tok}
    (h : Fwd (fun _ => (do
      match ← keyword b!"from" with
      | some _ => do
        let _ ← P.eat string
        return ()
      | none => return () : P Unit)) S fl v () S w) :
    Fwd (fun n => exportNamed (recOf n)) S fl (pt l .curlyOpen :: u) () S w := by
  unfold exportNamed
  fb no_var (x := pt l .curlyOpen) (by simp) ⟨rfl, rfl⟩
  fb no_let (x := pt l .curlyOpen) (by simp) ⟨rfl, rfl⟩
  fb no_const (x := pt l .curlyOpen) (by simp) ⟨rfl, rfl⟩
  fb Fwd.noPunc (x := pt l .curlyOpen) ⟨rfl, rfl⟩ (by simp)
  unfold exportSpecifiers
  fb Fwd.eat (Fwd.punc ⟨rfl, rfl⟩)
  fb LoopFwd.fwd ((ih fl ha ht (headIs_cons.2 rfl)).2.pre rfl)
  fb Fwd.eat (Fwd.punc (curly_plain ht _))
  exact h.pre rfl

theorem sem_exportNames {l l' l'' u'} (ih : Sem C FNT.specifiers u (pt l'' .curlyClose :: u')) (h : RawSemi u' v)
    (hn : NotNext b!"from" u') : Sem C moduleItem (kw l b!"export" :: pt l' .curlyOpen :: u) v := by
  intro fl ha ht hv
  refine export_named ⟨rfl, rfl, fun _ => rfl⟩ (by simp) (by simp) (export_names ha ht ih ?_) h hv ht
  obtain ⟨x, w, rfl, hp⟩ := calm_ready (rawSemi_calm h hv) ht
  fb Fwd.noKeyword (hp _) (not_else hn _ _ rfl)
  exact Fwd.pure.post rfl

theorem sem_exportNamesFrom {l l' l'' l₁ l₂ x u'}
    (ih : Sem C FNT.specifiers u (pt l'' .curlyClose :: kw l₁ b!"from" :: (l₂, .str x) :: u')) (h : RawSemi u' v) :
    Sem C moduleItem (kw l b!"export" :: pt l' .curlyOpen :: u) v := by
  intro fl ha ht hv
  refine export_named ⟨rfl, rfl, fun _ => rfl⟩ (by simp) (by simp) (export_names ha ht ih ?_) h hv ht
  fb Fwd.keyword ⟨rfl, rfl⟩
  fb Fwd.eat (Fwd.string ⟨rfl, rfl⟩)
  exact Fwd.pure.post rfl

theorem Agree.exported (ha : Agree C fl) : Agree { C with default := true } (Fwd.setFlag .default true fl) :=
  ⟨ha.in_, ha.await, ha.strict, fun _ => rfl⟩

/-- The part behind `export default`. -/
theorem export_default {l l'} (h : Fwd (fun n => (do
      match ← (recOf n).call .functionDeclaration with
      | some _ => return ()
      | none =>
        match ← (recOf n).call .classDeclaration with
        | some _ => return ()
        | none => do
          P.eat (withFlag .fin true ((recOf n).call .expression))
          P.eat (semicolonInner false) : P Unit)) Z (Fwd.setFlag .default true fl) u () S v) :
    Fwd (fun n => run n .moduleItem) W fl (kw l b!"export" :: kw l' b!"default" :: u) (some ()) S v := by
  refine export_item (quiet_word _) (by simp) (Fwd.call ?_)
  show Fwd (fun n => parseExportDeclaration (recOf n)) _ _ _ _ _ _
  unfold parseExportDeclaration
  fb Fwd.keyword ⟨rfl, rfl⟩
  fb Fwd.keyword ⟨rfl, rfl⟩
  unfold exportDefault
  fb Fwd.withFlag (h.pre rfl)
  exact Fwd.pure

theorem no_function {x : Tok} (hx : x.2 ≠ .ident b!"function") (hx' : FuncOk (x :: u)) (hq : Quiet x.2)
    {col : Bool} (hs : Second fl col (x :: u)) :
    Fwd (fun n => run n .functionDeclaration) Z fl (x :: u) none (E true) (x :: u) := by
  have hk : ∀ {m : Mode} b, m.fill.le (E true) = true → (b = true → x.2 ≠ .ident b!"async") →
      Fwd (fun _ => functionKeyword b) m fl (x :: u) none (E true) (x :: u) := by
    intro m b hm hx'
    unfold functionKeyword
    cases b with
    | true =>
      simp only [if_true]
      fb Fwd.noKeyword (hq.ready _ _) (hx' rfl)
      exact Fwd.pure.post hm
    | false =>
      simp only [Bool.false_eq_true, if_false]
      fb Fwd.noKeyword (hq.ready _ _) hx
      exact Fwd.pure.post hm
  refine Fwd.call ?_
  show Fwd (fun n => parseFunctionDeclaration (recOf n)) _ _ _ _ _ _
  unfold parseFunctionDeclaration
  cases hw : isWord x.2 with
  | false =>
    fb Fwd.one (hq.ready _ _) hw
    fb hk _ rfl nofun
    exact Fwd.pure
  | true =>
    obtain ⟨l, t⟩ := x
    cases t with
    | ident n =>
      obtain ⟨y, w, rfl, hy, -⟩ := hs l n u rfl
      fb Fwd.two ⟨rfl, rfl⟩ hy
      refine Fwd.bind (hk (isAsyncFunction (some y)) rfl fun h e => ?_) Fwd.pure
      obtain ⟨l', t⟩ := y
      cases e
      cases l' <;> cases t <;> simp only [isAsyncFunction, Bool.false_eq_true] at h
      obtain rfl := eq_of_beq h
      exact hx' _ _ _ rfl
    | _ => cases hw

theorem no_class {x : Tok} (hx : x.2 ≠ .ident b!"class") (hr : Ready m fl x.2) :
    Fwd (fun n => run n .classDeclaration) m fl (x :: u) none m.fill (x :: u) := by
  refine Fwd.call ?_
  show Fwd (fun n => parseClassDeclaration (recOf n)) _ _ _ _ _ _
  unfold parseClassDeclaration
  fb Fwd.noKeyword hr hx
  exact Fwd.pure

theorem sem_exportExpr {l l' x u'} (hx : x.2 ∉ [Token.ident b!"function", .ident b!"class"])
    (hr : NotRegex (x :: u)) (h : FragX lx { C with default := true, in_ := true } (FNT.expr true) (x :: u) u')
    (ih : Sem { C with default := true, in_ := true } (FNT.expr true) (x :: u) u') (hv : Semi u' v) :
    Sem C moduleItem (kw l b!"export" :: kw l' b!"default" :: x :: u) v := by
  intro fl ha ht _
  have hs : Starts true x.2 := headIs_cons.1 (expr_starts h)
  have hq := hs.quiet (notRegex_tok hr)
  simp only [List.mem_cons, List.not_mem_nil, or_false, not_or] at hx
  refine export_default ?_
  fb no_function hx.1 (funcs h) hq (seconds h _ true ha.exported.keen (semi_next hv ht))
  fb no_class hx.2 (hq.ready _ _)
  fb Fwd.eat (Fwd.withFlag ((ih _ ha.exported.in_true (semi_follow hv ht)).pre rfl))
  exact Fwd.eat ((semi_fwd (fl := Fwd.setFlag .default true fl) hv ht).pre rfl)

theorem sem_exportExprOpen {l l' x y} (hx : x.2 ∉ [Token.ident b!"function", .ident b!"class"])
    (hr : NotRegex (x :: u)) (h : FragX lx { C with default := true, in_ := true } (FNT.exprOpen true) (x :: u) (y :: v))
    (ih : Sem { C with default := true, in_ := true } (FNT.exprOpen true) (x :: u) (y :: v)) (hl : y.1 = true)
    (hy : y.2 ≠ .punct .semicolon) :
    Sem C moduleItem (kw l b!"export" :: kw l' b!"default" :: x :: u) (y :: v) := by
  intro fl ha ht hv
  have hs : Starts true x.2 := headIs_cons.1 (exprOpen_starts h)
  have hq := hs.quiet (notRegex_tok hr)
  simp only [List.mem_cons, List.not_mem_nil, or_false, not_or] at hx
  refine export_default ?_
  fb no_function hx.1 (funcs h) hq (seconds h _ false ha.exported.keen (calm_next hv ht))
  fb no_class hx.2 (hq.ready _ _)
  fb Fwd.eat (Fwd.withFlag ((ih _ ha.exported.in_true (calm_next hv ht)).1.pre rfl))
  exact Fwd.eat ((line_fwd (fl := Fwd.setFlag .default true fl) hl hy (headIs_cons.1 (calm_ready hv ht))).pre rfl)

theorem ff_functionDeclaration : ∀ n, FillFirst (run n .functionDeclaration)
  | 0 => FillFirst.run_zero _
  | _ + 1 => .bind (by
      intro s s' hs
      rw [identLookahead_apply, identLookahead_apply, hs, fill_again hs])

theorem sem_exportFunc {l l' l''} (h : FragX lx { C with default := true, await := false, yield := false } function u v)
    (ih : Sem { C with default := true, await := false, yield := false } function u v) :
    Sem C moduleItem (kw l b!"export" :: kw l' b!"default" :: kw l'' b!"function" :: u) v := by
  intro fl ha ht hv
  refine export_default ?_
  fb Fwd.enter (x := kw l'' b!"function") ff_functionDeclaration ⟨rfl, rfl⟩ ((func_anon rfl ha.exported h ih).pre rfl)
  exact Fwd.pure.post rfl

/-- An async function behind its two keywords. -/
theorem async_start {l w} {a : Option Unit} {m' : Mode}
    (h : Fwd (fun n => do
      let flags ← getFlags
      let _ ← if flags.allowDefault then bindingIdentifier else some <$> eat bindingIdentifier
      functionRest (recOf n) true false) S fl w a m' v) :
    Fwd (fun n => run n .functionDeclaration) V fl (kw l b!"async" :: kw false b!"function" :: w) a m' v := by
  refine Fwd.call ?_
  show Fwd (fun n => parseFunctionDeclaration (recOf n)) _ _ _ _ _ _
  unfold parseFunctionDeclaration
  refine Fwd.bind (Fwd.two (y := kw false b!"function") ⟨rfl, rfl⟩ ⟨rfl, nofun, nofun⟩) ?_
  show Fwd (fun n => do
      let some star ← functionKeyword true | return none
      let flags ← getFlags
      let _ ← if flags.allowDefault then bindingIdentifier else some <$> eat bindingIdentifier
      functionRest (recOf n) true star) _ _ _ _ _ _
  have hk : Fwd (fun _ => functionKeyword true) V.fill.two fl (kw l b!"async" :: kw false b!"function" :: w)
      (some false) S w := by
    unfold functionKeyword
    simp only [if_true]
    fb Fwd.keyword ⟨rfl, rfl⟩
    fb Fwd.eat (Fwd.keyword ⟨rfl, rfl⟩)
    exact Fwd.pure.post rfl
  fb hk
  exact h

theorem async_rest {l l' u'} (ha : Agree C fl) (ih₁ : Sem { C with yield := false } params u (pt l' .parenClose :: u'))
    (ih₂ : Sem { C with await := true, yield := false } block u' v) :
    Fwd (fun n => functionRest (recOf n) true false) S fl (pt l .parenOpen :: u) (some ()) Z v := by
  unfold functionRest
  simp only [if_true]
  refine Fwd.withFlag ?_
  fb Fwd.eat (params_fwd (ih₁ (Fwd.setFlag .yield false fl) ⟨ha.in_, ha.await, ha.strict, ha.default⟩))
  fb Fwd.eat (Fwd.withFlag (body_fwd (ih₂ _ ⟨ha.in_, rfl, ha.strict, ha.default⟩)))
  exact Fwd.pure

theorem sem_exportAsync {l l' l'' l₁ l₂ u'}
    (ih₁ : Sem { C with default := true, yield := false } params u (pt l₂ .parenClose :: u'))
    (ih₂ : Sem { C with default := true, await := true, yield := false } block u' v) :
    Sem C moduleItem (kw l b!"export" :: kw l' b!"default" :: kw l'' b!"async" :: kw false b!"function" ::
      pt l₁ .parenOpen :: u) v := by
  intro fl ha ht hv
  refine export_default ?_
  have h1 : Fwd (fun n => run n .functionDeclaration) V (Fwd.setFlag .default true fl)
      (kw l'' b!"async" :: kw false b!"function" :: pt l₁ .parenOpen :: u) (some ()) Z v := by
    refine async_start ?_
    fb Fwd.getFlags
    show Fwd (fun n => do
      let _ ← bindingIdentifier
      functionRest (recOf n) true false) _ _ _ _ _ _
    fb Fwd.noBinding (x := pt l₁ .parenOpen) ⟨rfl, rfl⟩ (by simp)
    exact (async_rest ha.exported ih₁ ih₂).pre rfl
  fb Fwd.enter (x := kw l'' b!"async") ff_functionDeclaration ⟨rfl, rfl⟩ (h1.pre rfl)
  exact Fwd.pure.post rfl

theorem sem_exportAsyncName {l l' l'' l₁ l₂ l₃ n u'} (hn : Named lx C n)
    (ih₁ : Sem { C with default := true, yield := false } params u (pt l₂ .parenClose :: u'))
    (ih₂ : Sem { C with default := true, await := true, yield := false } block u' v) :
    Sem C moduleItem (kw l b!"export" :: kw l' b!"default" :: kw l'' b!"async" :: kw false b!"function" ::
      kw l₃ n :: pt l₁ .parenOpen :: u) v := by
  intro fl ha ht hv
  refine export_default ?_
  have h1 : Fwd (fun n => run n .functionDeclaration) V (Fwd.setFlag .default true fl)
      (kw l'' b!"async" :: kw false b!"function" :: kw l₃ n :: pt l₁ .parenOpen :: u) (some ()) Z v := by
    refine async_start ?_
    fb Fwd.getFlags
    show Fwd (fun n => do
      let _ ← bindingIdentifier
      functionRest (recOf n) true false) _ _ _ _ _ _
    fb Fwd.binding ⟨rfl, rfl⟩ (named_binding ha.keen hn)
    exact (async_rest ha.exported ih₁ ih₂).pre rfl
  fb Fwd.enter (x := kw l'' b!"async") ff_functionDeclaration ⟨rfl, rfl⟩ (h1.pre rfl)
  exact Fwd.pure.post rfl

theorem sem_exportGen {l l' l'' l₂} (h : FragX lx { C with default := true, await := false, yield := true } function u v)
    (ih : Sem { C with default := true, await := false, yield := true } function u v) :
    Sem C moduleItem (kw l b!"export" :: kw l' b!"default" :: kw l'' b!"function" :: pt l₂ .star :: u) v := by
  intro fl ha ht hv
  refine export_default ?_
  fb Fwd.enter (x := kw l'' b!"function") ff_functionDeclaration ⟨rfl, rfl⟩ ((gen_anon rfl ha.exported h ih).pre rfl)
  exact Fwd.pure.post rfl

theorem sem_exportGenName {l l' l'' l₁ l₂ n} (hn : Named lx C n)
    (ih : Sem { C with default := true, await := false, yield := true } function u v) :
    Sem C moduleItem (kw l b!"export" :: kw l' b!"default" :: kw l'' b!"function" :: pt l₁ .star :: kw l₂ n :: u) v := by
  intro fl ha ht hv
  refine export_default ?_
  have h1 : Fwd (fun n => run n .functionDeclaration) V (Fwd.setFlag .default true fl)
      (kw l'' b!"function" :: pt l₁ .star :: kw l₂ n :: u) (some ()) Z v := by
    refine function_start (y := pt l₁ .star) ⟨rfl, rfl, fun _ => rfl⟩ (by simp) ?_
    fb Fwd.punc ⟨rfl, rfl⟩
    exact (function_named hn.exported ha.exported ih).pre rfl
  fb Fwd.enter (x := kw l'' b!"function") ff_functionDeclaration ⟨rfl, rfl⟩ (h1.pre rfl)
  exact Fwd.pure.post rfl

theorem sem_exportFuncName {l l' l'' l₁ n} (hn : Named lx C n)
    (ih : Sem { C with default := true, await := false, yield := false } function u v) :
    Sem C moduleItem (kw l b!"export" :: kw l' b!"default" :: kw l'' b!"function" :: kw l₁ n :: u) v := by
  intro fl ha ht hv
  refine export_default ?_
  fb Fwd.enter (x := kw l'' b!"function") ff_functionDeclaration ⟨rfl, rfl⟩ ((func_decl hn.exported ha.exported ih).pre rfl)
  exact Fwd.pure.post rfl

theorem sem_exportClass {l l' l''} (h : FragX lx { C with default := true } classTail u v)
    (ih : Sem { C with default := true } classTail u v) :
    Sem C moduleItem (kw l b!"export" :: kw l' b!"default" :: kw l'' b!"class" :: u) v := by
  intro fl ha ht hv
  obtain ⟨x, w, rfl, hx⟩ := heads h rfl
  have hq : Quiet x.2 := by rcases hx with hx | hx <;> rw [hx] <;> exact ⟨rfl, rfl, fun _ => rfl⟩
  refine export_default ?_
  fb no_function (col := true) (x := kw l'' b!"class") (by simp) (AsyncOk.func asyncOk_word) (quiet_word _)
    (second_word (headIs_cons.2 ⟨⟨hq.2.2 _, fun h => (by rw [hq.1] at h; cases h), fun h => (by rw [hq.2.1] at h; cases h)⟩,
      fun _ => by rcases hx with hx | hx <;> rw [hx] <;> simp⟩))
  fb (class_anon rfl ha.exported h ih).pre rfl
  exact Fwd.pure.post rfl

theorem sem_exportClassName {l l' l'' l₁ n} (hn : Named lx C n) (ih : Sem { C with default := true } classTail u v) :
    Sem C moduleItem (kw l b!"export" :: kw l' b!"default" :: kw l'' b!"class" :: kw l₁ n :: u) v := by
  intro fl ha ht hv
  refine export_default ?_
  fb no_function (col := true) (x := kw l'' b!"class") (by simp) (AsyncOk.func asyncOk_word) (quiet_word _)
    (second_word (headIs_cons.2 ⟨⟨rfl, fun h => (by cases h), fun h => (by cases h)⟩, fun _ => by simp⟩))
  fb (class_decl hn.exported ha.exported ih).pre rfl
  exact Fwd.pure.post rfl

end module_

end Jsparse.Forward
