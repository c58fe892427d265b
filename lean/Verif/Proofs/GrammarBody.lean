import Verif.Proofs.GrammarWp
/-!
# Every method reads its grammar symbol
-/

namespace Jsparse

open Spec P

set_option linter.unusedVariables false

theorem grPost_intro {f : Fn} {u : Unit} {w : List G} (h : fits (symOf f) w = true) :
    grPost f (some u) w := h

/-- Unfold a method and match what it has read at the end. -/
macro "gr" : tactic =>
  `(tactic| repeat' first
    | with_reducible assumption
    | with_reducible trivial
    | exact True.intro
    | exact grPost_intro (by decide +kernel)
    | wp_step "gr"
    | decide +kernel
    | with_reducible intro _)

macro "gr_loop " gs:term:max ge:term:max : tactic =>
  `(tactic| (refine loop_star_gr $gs $ge (fun _ => ?_) (fun _ => ?_) <;> gr))

section

variable {r : Rec} {C : Ctx} {w : List G}

theorem parseIfStatement_gr (hr : RecGr r) : Gr C [] (parseIfStatement r) (grPost .ifStatement) := by
  unfold parseIfStatement
  rw [show keyword b!"else" = keywordOr b!"else" from rfl]
  gr

theorem parseTryStatement_gr (hr : RecGr r) : Gr C [] (parseTryStatement r) (grPost .tryStatement) := by
  unfold parseTryStatement
  rw [show keyword b!"catch" = keywordOr b!"catch" from rfl,
    show keyword b!"finally" = keywordOr b!"finally" from rfl]
  gr

theorem identLookahead_none {s s' : PState} (h : identLookahead s = .ok none s') :
    s'.count ≠ 0 ∧ ∀ v, (cur s').token ≠ .ident v := by
  rw [identLookahead_apply] at h
  cases hf : fill s with
  | ok u s1 =>
    rw [hf] at h
    simp only [lookSecond] at h
    split at h
    · split at h
      · split at h
        · cases h
        · cases h
        · cases h
      · rename_i hn
        cases h
        exact ⟨fill_count hf, hn⟩
    · cases h
  | _ => rw [hf] at h; cases h

theorem parseIdentifierReferenceExpression_gr :
    Gr C [] parseIdentifierReferenceExpression (grPost .identifierReferenceExpression) := by
  unfold parseIdentifierReferenceExpression
  intro s0 s a s' hl hm
  obtain ⟨x, s1, h1, h2⟩ := bind_inv hm
  obtain ⟨i1, h3⟩ := identLookahead_facts h1
  have hl1 := hl.idle i1
  split at h2
  · cases h2
    exact ⟨[], trivial, hl1⟩
  · rename_i hx
    obtain ⟨o, s2, h4, h5⟩ := bind_inv h2
    obtain ⟨w', hw, hd⟩ := bindingIdentifier_gr (C := C) (w := [])
      (post := fun o w' => o = none ∨ w' = [.binding]) (.inl rfl) (fun _ => .inr rfl) s0 s1 o s2 hl1 h4
    cases o with
    | none =>
      cases h5
      exact ⟨w', trivial, hd⟩
    | some b =>
      cases h5
      obtain rfl : w' = [.binding] := by rcases hw with h | h; cases h; exact h
      refine ⟨[.binding, .notAhead [.ident b!"function"]], grPost_intro (by decide +kernel), ?_⟩
      refine idle_symbol hd fun L hL => ?_
      cases x with
      | none =>
        obtain ⟨hc, hk⟩ := identLookahead_none h1
        rw [bindingIdentifier_eq] at h4
        obtain ⟨F, s3, h6, h7⟩ := bind_inv h4
        cases h6
        unfold takeIf at h7
        rw [show fill s1 = .ok () s1 by unfold fill; rw [if_neg hc]] at h7
        simp only at h7
        split at h7
        · rename_i h8
          unfold isBinding at h8
          split at h8
          · exact absurd ‹_› (hk _)
          · cases h8
        · cases h7
      | some y =>
        obtain ⟨hc, hc2, rfl⟩ := h3 y rfl
        have hc2 : s1.count = 2 := by have := hl1.count; omega
        rw [bindingIdentifier_eq] at h4
        obtain ⟨F, s3, h6, h7⟩ := bind_inv h4
        cases h6
        unfold takeIf at h7
        rw [show fill s1 = .ok () s1 by unfold fill; rw [if_neg hc]] at h7
        simp only at h7
        split at h7
        · cases h7
          have hpre : Pre L s1 := by
            have : (popState s1).log ++ buf (popState s1) = s1.log ++ buf s1 := by
              rw [buf_pos hc hl1.count]
              simp [popState]
            unfold Pre at hL ⊢
            rwa [this] at hL
          have h9 := remaining_two hpre hc2
          have h10 : remaining L (popState s1) = (remaining L s1).tail := by
            simp [remaining, popState]
          rw [h10, h9]
          refine .notAhead fun h => hx ?_
          rw [List.mem_singleton] at h
          simp only [aheadIsFunction, h]
          rfl
        · cases h7

/-! ## Loops -/

theorem parseFunctionParams_gr (hr : RecGr r) :
    Gr C [] (parseFunctionParams r) (grPost .functionParams) := by
  unfold parseFunctionParams
  gr
  gr_loop (.seqs [.patternOrName, .opt (.nt .Initializer), .p .comma])
    (.opt (.alt (.nt .BindingRestElement) (.seqs [.patternOrName, .opt (.nt .Initializer)])))

theorem statementType_unknown {t : Token} (h : t ∉ statementWords) : statementType t = .unknown := by
  unfold statementWords at h
  simp only [List.mem_cons, List.not_mem_nil, or_false, not_or] at h
  unfold statementType
  split
  · exact absurd rfl h.1
  · exact absurd rfl h.2.1
  · simp only [Token.ident.injEq] at h
    simp only [h, if_false]
  · rfl

theorem parseStatement_gr (hr : RecGr r) : Gr C [] (parseStatement r) (grPost .statement) := by
  unfold parseStatement
  refine bind_gr (expectExpression_gr (bind_gr (tokenNot_gr statementWords (fun t ht => ?_)
    fun t ht => ?_)))
  · simp only [statementWords, List.mem_cons, List.not_mem_nil, or_false] at ht
    rcases ht with rfl | rfl | rfl | rfl | rfl | rfl | rfl | rfl | rfl | rfl | rfl | rfl | rfl |
      rfl | rfl
    all_goals gr
  · rw [statementType_unknown ht]
    gr

theorem parseVariableStatement_gr (hr : RecGr r) :
    Gr C [] (parseVariableStatement r) (grPost .variableStatement) := by
  unfold parseVariableStatement commaRound
  rw [show punc .comma = puncOr .comma from rfl]
  gr
  gr_loop (.seqs [.p .comma, .inn (.nt .VariableDeclaration)]) (.notAhead [.punct .comma])

theorem parseObjectBindingPattern_gr (hr : RecGr r) :
    Gr C [] (parseObjectBindingPattern r) (grPost .objectBindingPattern) := by
  unfold parseObjectBindingPattern
  gr
  gr_loop (.seqs [.nt .BindingProperty, .p .comma]) (.opt (.nt .BindingProperty))

theorem parseArrayBindingPattern_gr (hr : RecGr r) :
    Gr C [] (parseArrayBindingPattern r) (grPost .arrayBindingPattern) := by
  unfold parseArrayBindingPattern
  gr
  gr_loop (.seqs [.opt (.nt .BindingElement), .p .comma])
    (.alt (.nt .BindingRestElement) (.opt (.nt .BindingElement)))

theorem parseSwitchStatement_gr (hr : RecGr r) :
    Gr C [] (parseSwitchStatement r) (grPost .switchStatement) := by
  unfold parseSwitchStatement
  gr
  exact switchLoop_gr hr (by gr)

theorem parseLetDeclaration_gr (hr : RecGr r) :
    Gr C [] (parseLetDeclaration r) (grPost .letDeclaration) := by
  unfold parseLetDeclaration commaRound
  rw [show punc .comma = puncOr .comma from rfl]
  gr
  gr_loop (.seqs [.p .comma, .nt (.LexicalBinding false)]) (.notAhead [.punct .comma])

theorem parseConstDeclaration_gr (hr : RecGr r) :
    Gr C [] (parseConstDeclaration r) (grPost .constDeclaration) := by
  unfold parseConstDeclaration commaRound
  rw [show punc .comma = puncOr .comma from rfl]
  gr
  gr_loop (.seqs [.p .comma, .nt (.LexicalBinding true)]) (.notAhead [.punct .comma])

theorem parseExpression_gr (hr : RecGr r) : Gr C [] (parseExpression r) (grPost .expression) := by
  unfold parseExpression expressionRound
  rw [show punc .comma = puncOr .comma from rfl]
  gr
  gr_loop (.seqs [.p .comma, .nt .AssignmentExpression]) (.notAhead [.punct .comma])

theorem parseConditionalExpression_gr (hr : RecGr r) :
    Gr C [] (parseConditionalExpression r) (grPost .conditionalExpression) := by
  unfold parseConditionalExpression
  rw [show punc .question = puncOr .question from rfl]
  gr

theorem parseYieldExpression_gr (hr : RecGr r) :
    Gr C [] (parseYieldExpression r) (grPost .yieldExpression) := by
  unfold parseYieldExpression
  rw [show punc .star = puncOr .star from rfl]
  gr

theorem parseUpdateExpression_gr (hr : RecGr r) :
    Gr C [] (parseUpdateExpression r) (grPost .updateExpression) := by
  unfold parseUpdateExpression
  rw [show punc .plusPlus = puncOr .plusPlus from rfl, show punc .minusMinus = puncOr .minusMinus from rfl]
  gr

theorem parseCallArguments_gr (hr : RecGr r) :
    Gr C [] (parseCallArguments r) (grPost .callArguments) := by
  unfold parseCallArguments
  gr
  gr_loop (.seqs [.opt (.seqs [.p .ellipsis, .nt .AssignmentExpression, .p .comma]),
      .nt .AssignmentExpression, .p .comma])
    (.alts [.opt (.nt .AssignmentExpression), .seqs [.p .ellipsis, .nt .AssignmentExpression,
      .opt (.seqs [.p .comma, .opt (.nt .AssignmentExpression)])]])

theorem parseArrayLiteralExpression_gr (hr : RecGr r) :
    Gr C [] (parseArrayLiteralExpression r) (grPost .arrayLiteralExpression) := by
  unfold parseArrayLiteralExpression
  gr
  gr_loop (.seqs [.opt (.nt .ArrayElement), .p .comma]) (.opt (.nt .ArrayElement))

theorem parseObjectLiteralExpression_gr (hr : RecGr r) :
    Gr C [] (parseObjectLiteralExpression r) (grPost .objectLiteralExpression) := by
  unfold parseObjectLiteralExpression
  gr
  gr_loop (.seqs [.opt (.nt .PropertyDefinition), .p .comma]) (.opt (.nt .PropertyDefinition))

theorem parseTemplateLiteralExpression_gr (hr : RecGr r) :
    Gr C [] (parseTemplateLiteralExpression r) (grPost .templateLiteralExpression) := by
  unfold parseTemplateLiteralExpression
  gr
  gr_loop (.seqs [.nt .Expression, .t (.tmpl .middle)]) (.seqs [.nt .Expression, .t (.tmpl .tail)])

theorem parseCoverParenthesizedExpression_gr (hr : RecGr r) :
    Gr C [] (parseCoverParenthesizedExpression r) (grPost .coverParenthesizedExpression) := by
  unfold parseCoverParenthesizedExpression
  gr
  gr_loop (.seqs [.p .comma, .alt (.seqs [.p .ellipsis, .patternOrName]) (.nt .AssignmentExpression)])
    .eps

theorem parseImportDeclaration_gr (hr : RecGr r) :
    Gr C [] (parseImportDeclaration r) (grPost .importDeclaration) := by
  unfold parseImportDeclaration
  gr
  all_goals gr_loop (.seqs [.nt .ImportSpecifier, .p .comma]) (.opt (.nt .ImportSpecifier))

theorem parseExportDeclaration_gr (hr : RecGr r) :
    Gr C [] (parseExportDeclaration r) (grPost .exportDeclaration) := by
  have e : exportSpecifiers r = (do
      let _ ← eat (punc .curlyOpen)
      loop r.fuel (fun _ => specifierRound (r.call .exportSpecifier)) ()
      let _ ← eat (punc .curlyClose)
      match ← keywordOr b!"from" with
      | some _ => do
        let _ ← eat string
        return ()
      | none => return ()) := rfl
  unfold parseExportDeclaration exportNamed
  rw [e]
  gr
  all_goals gr_loop (.seqs [.nt .ExportSpecifier, .p .comma]) (.opt (.nt .ExportSpecifier))

/-! ## Functions, classes and methods -/

/-- Where a flag is set, the grammar parameter is on. -/
theorem onlyIf_gr {α : Type} (f : Par) {m : P α} {post : α → List G → Prop} (hf : C.get f = true)
    (h : Gr C (w ++ [.onlyIf f true]) m post) : Gr C w m post :=
  h.of_mono fun u v hd => derL_append hd (derL_single.2 (.onlyIf hf))

/-- The name in `parse_function_declaration` and `parse_class_declaration`. -/
def declName (F : Flags) : P (Option Bytes) :=
  if F.allowDefault then bindingIdentifier else some <$> eat bindingIdentifier

theorem declName_gr {F : Flags} (hF : ctxOf F = C) {post : Option Bytes → List G → Prop}
    (h : ∀ o, post o (w ++ [declaredName])) : Gr C w (declName F) post := by
  unfold declName
  refine Gr.fold ?_
  split
  · rename_i hd
    refine onlyIf_gr .default (by rw [← hF]; exact hd) ?_
    exact bindingIdentifier_gr ⟨declaredName, by decide +kernel, h _⟩
      fun b => ⟨declaredName, by decide +kernel, h _⟩
  · exact map_gr (eat_gr (bindingIdentifier_gr trivial
      fun b => ⟨declaredName, by decide +kernel, h _⟩))

theorem functionRest_gr (hr : RecGr r) {a g : Bool} (hag : (a && g) = false)
    {post : Option Unit → List G → Prop} (h : post (some ()) (w ++ [.nt (.FunctionRest a g)])) :
    Gr C w (functionRest r a g) post := by
  refine Gr.fold ?_
  have key : Gr C [] (functionRest r a g) fun o w' => match o with
      | none => False
      | some _ => fits (.nt (.FunctionRest a g)) w' = true := by
    cases a <;> cases g
    · unfold functionRest; gr
    · unfold functionRest; gr
    · unfold functionRest; gr
    · cases hag
  refine key.mono fun o w' hw => ⟨.nt (.FunctionRest a g), ?_, ?_⟩
  · cases o
    · exact hw.elim
    · exact hw
  · cases o
    · exact hw.elim
    · exact h

theorem functionKeyword_gr {b : Bool} (hb : b = true → w = [.sameLine])
    {post : Option Bool → List G → Prop} (hn : ∀ w', post none w')
    (ha : b = true → post (some false) [.kw b!"async", .noLine, .kw b!"function"])
    (hf : b = false → post (some false) (app w (.kw b!"function")))
    (hs : b = false → post (some true) (app (app w (.kw b!"function")) (.p .star))) :
    Gr C w (functionKeyword b) post := by
  cases b with
  | true =>
    rw [hb rfl]
    have h : post (some false) (app (app [.sameLine] (.kw b!"async")) (.kw b!"function")) := ha rfl
    unfold functionKeyword
    gr
    exact hn _
  | false =>
    have hf := hf rfl
    have hs := hs rfl
    unfold functionKeyword
    gr
    · exact hn _
    · exact hf
    · exact hs

/-- `parse_function_declaration` after the lookahead. -/
def functionDeclarationRest (r : Rec) (b : Bool) : P (Option Unit) := do
  let some star ← functionKeyword b | return none
  let flags ← getFlags
  let _ ← declName flags
  functionRest r b star

theorem parseFunctionDeclaration_eq (r : Rec) : parseFunctionDeclaration r =
    identLookahead >>= fun o => functionDeclarationRest r (isAsyncFunction o) := by
  unfold parseFunctionDeclaration functionDeclarationRest
  congr 1
  funext o
  dsimp only
  congr 1
  funext star
  cases star with
  | none => rfl
  | some star =>
    dsimp only
    congr 1
    funext F
    unfold declName
    cases F.allowDefault <;> rfl

theorem parseFunctionDeclaration_gr (hr : RecGr r) :
    Gr C [] (parseFunctionDeclaration r) (grPost .functionDeclaration) := by
  rw [parseFunctionDeclaration_eq]
  have rest : ∀ (b : Bool) (w : List G), (b = true → w = [.sameLine]) → (w = [] ∨ w = [.sameLine]) →
      Gr C w (functionDeclarationRest r b) (grPost .functionDeclaration) := by
    intro b w hb hw
    cases b with
    | true => gr
    | false => rcases hw with rfl | rfl <;> gr
  refine bind_gr (identLookahead_gr ?_ (fun t => ?_) fun t => ?_)
  · exact rest _ _ (by intro h; cases h) (.inl rfl)
  · exact rest _ _ (by intro h; cases h) (.inl rfl)
  · exact rest _ _ (fun _ => rfl) (.inr rfl)

theorem parseFunctionExpression_gr (hr : RecGr r) :
    Gr C [] (parseFunctionExpression r) (grPost .functionExpression) := by
  unfold parseFunctionExpression
  have rest : ∀ (b : Bool) (w : List G), (b = true → w = [.sameLine]) → (w = [] ∨ w = [.sameLine]) →
      Gr C w (do
        let some star ← functionKeyword b | return none
        let _ ← bindingIdentifier
        functionRest r b star) (grPost .functionExpression) := by
    intro b w hb hw
    cases b with
    | true => gr
    | false => rcases hw with rfl | rfl <;> gr
  refine bind_gr (identLookahead_gr ?_ (fun t => ?_) fun t => ?_)
  · exact rest _ _ (by intro h; cases h) (.inl rfl)
  · exact rest _ _ (by intro h; cases h) (.inl rfl)
  · exact rest _ _ (fun _ => rfl) (.inr rfl)

theorem parseClassDeclaration_eq (r : Rec) : parseClassDeclaration r = (do
      let some _ ← keyword b!"class" | return none
      let flags ← getFlags
      let _ ← declName flags
      let _ ← r.call .classHeritage
      must (r.call .classBody)) := by
  unfold parseClassDeclaration
  congr 1
  funext o
  cases o with
  | none => rfl
  | some _ =>
    dsimp only
    congr 1
    funext F
    unfold declName
    cases F.allowDefault <;> rfl

theorem parseClassDeclaration_gr (hr : RecGr r) :
    Gr C [] (parseClassDeclaration r) (grPost .classDeclaration) := by
  rw [parseClassDeclaration_eq]
  gr

/-- The symbol of a method head. -/
def headSym (h : MethodHead) : G := .nt (.MethodHead (mkindOf h.kind) h.generator h.async)

/-- The method heads there are. -/
def headKinds : List MethodHead :=
  [⟨.get, false, false⟩, ⟨.get, true, false⟩, ⟨.set, false, false⟩, ⟨.set, true, false⟩,
   ⟨.none, false, false⟩, ⟨.none, true, false⟩, ⟨.none, false, true⟩]

theorem parseMethodHead_gr (hr : RecGr r) {b : Bool} {post : Option MethodHead → List G → Prop}
    (hn : ∀ w', post none w')
    (h1 : post (some ⟨.get, false, false⟩) (w ++ [.nt (.MethodHead .get false false)]))
    (h2 : post (some ⟨.get, true, false⟩) (w ++ [.nt (.MethodHead .get true false)]))
    (h3 : post (some ⟨.set, false, false⟩) (w ++ [.nt (.MethodHead .set false false)]))
    (h4 : post (some ⟨.set, true, false⟩) (w ++ [.nt (.MethodHead .set true false)]))
    (h5 : post (some ⟨.none, false, false⟩) (w ++ [.nt (.MethodHead .none false false)]))
    (h6 : post (some ⟨.none, true, false⟩) (w ++ [.nt (.MethodHead .none true false)]))
    (h7 : post (some ⟨.none, false, true⟩) (w ++ [.nt (.MethodHead .none false true)])) :
    Gr C w (parseMethodHead r b) post := by
  have key : Gr C [] (parseMethodHead r b) fun o w' => match o with
      | none => True
      | some h => (h ∈ headKinds ∧ fits (headSym h) w' = true) := by
    cases b <;> unfold parseMethodHead <;> rw [show keyword b!"async" = keywordOr b!"async" from rfl] <;> gr
    all_goals simp only [Option.isSome_some]
    all_goals decide +kernel
  intro s0 s a s' hl hm
  cases a with
  | none =>
    obtain ⟨w', -, h⟩ := key s s none s' (.refl hl.count hl.flags) hm
    exact ⟨_, hn _, hl.trans h⟩
  | some k =>
    obtain ⟨w', ⟨hk, hf⟩, h⟩ := key s s _ s' (.refl hl.count hl.flags) hm
    refine ⟨w ++ [headSym k], ?_, hl.trans (h.mono fun u v hd => derL_single.2 (fits_sound hf hd))⟩
    simp only [headKinds, List.mem_cons, List.not_mem_nil, or_false] at hk
    rcases hk with rfl | rfl | rfl | rfl | rfl | rfl | rfl <;> assumption

theorem parseClassItem_gr (hr : RecGr r) :
    Gr C [] (parseClassItem r) (grPost .classItem) := by
  unfold parseClassItem
  gr

theorem parseObjectProperty_gr (hr : RecGr r) :
    Gr C [] (parseObjectProperty r) (grPost .objectProperty) := by
  unfold parseObjectProperty
  gr

theorem parseMethodTail_gr (hr : RecGr r) {h : MethodHead} :
    Gr C [] (parseMethodTail r h) (grPost (.methodTail h)) := by
  obtain ⟨k, g, a⟩ := h
  cases k <;> cases g <;> cases a <;> unfold parseMethodTail <;> gr

/-! ## The head of a `for` -/

theorem forDeclLoop_gr (hr : RecGr r) {f : Fn} {n : Nat} {post : Bool → List G → Prop}
    (hf : withFlagSym .fin false (symOf f) = .notIn (symOf f))
    (h1 : post false w) (h2 : post true (w ++ [.star (.seqs [.p .comma, .notIn (symOf f)])])) :
    Gr C w (loop n (forDeclRound (r.call f)) false) post := by
  refine loop_inv_gr (fun st w' => (st = false ∧ w' = w) ∨
    (st = true ∧ w' = w ++ [.star (.seqs [.p .comma, .notIn (symOf f)])])) ?_ n false w (.inl ⟨rfl, rfl⟩)
  intro st w' hi
  have key : Gr C [] (forDeclRound (r.call f) st) fun x w1 => match x with
      | .inl st' => st' = true ∧ w1 = [.p .comma, .notIn (symOf f)]
      | .inr st' => st' = st ∧ w1 = [] := by
    unfold forDeclRound
    gr
    exact ⟨rfl, by simp [app, hf]⟩
  intro s0 s x s' hl hm
  obtain ⟨w1, hx, hd⟩ := key s s x s' (.refl hl.count hl.flags) hm
  cases x with
  | inr b =>
    obtain ⟨rfl, rfl⟩ := hx
    refine ⟨w', ?_, by simpa using hl.trans hd⟩
    rcases hi with ⟨rfl, rfl⟩ | ⟨rfl, rfl⟩
    · exact h1
    · exact h2
  | inl b =>
    obtain ⟨rfl, rfl⟩ := hx
    refine ⟨_, .inr ⟨rfl, rfl⟩, (hl.trans hd).mono fun u v h => ?_⟩
    rw [derL_append_iff] at h
    obtain ⟨m, h3, h4⟩ := h
    have h5 : Der C (.seqs [.p .comma, .notIn (symOf f)]) m v := by
      obtain ⟨m1, ha, m2, hb, rfl⟩ := h4
      exact .seq ha hb
    rcases hi with ⟨rfl, rfl⟩ | ⟨rfl, rfl⟩
    · exact derL_append h3 (derL_single.2 (.star h5 .nil))
    · rw [derL_append_iff] at h3
      obtain ⟨m', h6, h7⟩ := h3
      exact derL_append h6 (derL_single.2 (star_snoc (derL_single.1 h7) h5))

/-- The tests for the keywords in the head of a `for`. -/
def forWord : P (Option ForKind) := do
  match ← keyword b!"var" with
  | some _ => return some .var
  | none =>
    match ← keyword b!"const" with
    | some _ => return some .const
    | none => do
      let ahead ← identLookahead
      if forMaybeDecl ahead then
        match ← keyword b!"let" with
        | some _ => return some .let
        | none => return none
      else return none

theorem forHead_eq (r : Rec) : forHead r = (do
      match ← forWord with
      | some .var => forDeclHead r .var (r.call .varDeclarator)
      | some .const => forDeclHead r .const (r.call (.lexicalDeclarator true))
      | some .let => forDeclHead r .let (r.call (.lexicalDeclarator true))
      | _ => do
        let _ ← withFlag .fin false (r.call .expression)
        return { kind := .expression, pattern := false, initialized := false,
                 multiple := false }) := by
  unfold forHead forWord
  funext s
  simp only [bind_apply]
  cases keyword b!"var" s with
  | ok o s1 =>
    cases o with
    | some _ => rfl
    | none =>
      simp only [bind_apply]
      cases keyword b!"const" s1 with
      | ok o s2 =>
        cases o with
        | some _ => rfl
        | none =>
          simp only [bind_apply]
          cases identLookahead s2 with
          | ok a s3 =>
            dsimp only
            split
            · rw [bind_apply, bind_apply]
              cases keyword b!"let" s3 with
              | ok o s4 => cases o <;> rfl
              | _ => rfl
            · rfl
          | _ => rfl
      | _ => rfl
  | _ => rfl

theorem keyword_idle {k : Bytes} {s s' : PState} (h : keyword k s = .ok none s') : Idle s s' := by
  rw [keyword_eq] at h
  unfold takeIf at h
  cases h1 : fill s with
  | ok u s1 =>
    rw [h1] at h
    simp only at h
    split at h
    · cases h
    · cases h
      exact fill_idle h1
  | _ => rw [h1] at h; cases h

theorem Idle.remaining {s s' : PState} (h : Idle s s') (hc : s.count ≤ 2) {L : List Tok}
    (hL : Pre L s') : Pre L s ∧ Jsparse.remaining L s' = Jsparse.remaining L s := by
  refine ⟨(h.d hc rfl).grow L hL, ?_⟩
  unfold Jsparse.remaining
  rw [h.still.log]

/-- Where a keyword was not found. -/
theorem keyword_first {k : Bytes} {s s' : PState} (hc : s.count ≤ 2)
    (h : keyword k s = .ok none s') {L : List Tok} (hL : Pre L s') {x : Tok} {v : List Tok}
    (hv : remaining L s' = x :: v) : x.2 ≠ .ident k := by
  obtain ⟨h1, h2⟩ := keyword_none h
  rw [remaining_cur hL h1 ((keyword_idle h).count hc)] at hv
  injection hv with hv
  rw [← hv]
  exact h2

theorem notDeclared_d {w : List G} {s0 s : PState} (h : D C w s0 s)
    (hu : ∀ L, Pre L s → ¬ BeginsForDeclaration (remaining L s)) :
    D C (w ++ [.notDeclared]) s0 s :=
  h.trans ⟨h.count, h.flags, rfl, rfl, fun _ h => h,
    fun L hL => derL_single.2 (.notDeclared (hu L hL))⟩

theorem keyword_some_d {w : List G} {s0 s s' : PState} {k : Bytes} {b : Bytes} (h : D C w s0 s)
    (hm : keyword k s = .ok (some b) s') : D C (app w (.kw k)) s0 s' := by
  obtain ⟨w', hp, hd⟩ := keyword_gr (post := fun a w' => a.isSome → w' = app w (.kw k))
    (fun h => by cases h) (fun _ _ => rfl) s0 s (some b) s' h hm
  rw [hp rfl] at hd
  exact hd

/-- The token behind `let`. -/
theorem forLet_second {s : PState} {x : Option (Bool × Token)} (hc : s.count ≤ 2)
    (hx : ∀ y, x = some y → s.count ≠ 0 ∧ 2 ≤ s.count ∧ y = (other s).seen) (hd : forMaybeDecl x = true)
    {L : List Tok} (hL : Pre L s) : ∃ y z v, remaining L s = y :: z :: v ∧ z.2 ∉ [Token.ident b!"of"] := by
  cases x with
  | none => cases hd
  | some x =>
    obtain ⟨-, h1, h2⟩ := hx x rfl
    refine ⟨_, _, _, remaining_two hL (by omega), fun h => ?_⟩
    rw [← h2] at h
    obtain ⟨l, t⟩ := x
    obtain rfl : t = _ := List.mem_singleton.1 h
    simp [forMaybeDecl] at hd

theorem forWord_gr {post : Option ForKind → List G → Prop} (hn : post none (w ++ [.notDeclared]))
    (hv : post (some .var) (app w (.kw b!"var"))) (hc : post (some .const) (app w (.kw b!"const")))
    (hs : post (some .let) (app w (.kw b!"let") ++ [.notAhead [.ident b!"of"]])) : Gr C w forWord post := by
  intro s0 s a s' h hm
  unfold forWord at hm
  rw [bind_apply] at hm
  cases h1 : keyword b!"var" s with
  | ok o s1 =>
    rw [h1] at hm
    cases o with
    | some b => cases hm; exact ⟨_, hv, keyword_some_d h h1⟩
    | none =>
      have d1 := h.idle (keyword_idle h1)
      simp only at hm
      rw [bind_apply] at hm
      cases h2 : keyword b!"const" s1 with
      | ok o s2 =>
        rw [h2] at hm
        cases o with
        | some b => cases hm; exact ⟨_, hc, keyword_some_d d1 h2⟩
        | none =>
          have d2 := d1.idle (keyword_idle h2)
          simp only at hm
          rw [bind_apply] at hm
          cases h3 : identLookahead s2 with
          | ok x s3 =>
            rw [h3] at hm
            obtain ⟨i3, h3'⟩ := identLookahead_facts h3
            have d3 := d2.idle i3
            have rest : ∀ s4, Idle s3 s4 → (∀ L, Pre L s4 → ∀ y z v,
                remaining L s4 = y :: z :: v → y.2 = .ident b!"let" → ¬ BeginsBinding z.2) →
                D C (w ++ [.notDeclared]) s0 s4 := by
              intro s4 i4 hl
              refine notDeclared_d (d3.idle i4) ?_
              rintro L hL ⟨y, z, v, hy, hb⟩
              have r4 := i4.remaining d3.count hL
              have r3 := i3.remaining d2.count r4.1
              have r2 := (keyword_idle h2).remaining d1.count r3.1
              rcases hb with hb | hb | ⟨hb, hz⟩
              · rw [r4.2, r3.2, r2.2] at hy
                exact keyword_first h.count h1 r2.1 hy hb
              · rw [r4.2, r3.2] at hy
                exact keyword_first d1.count h2 r3.1 hy hb
              · exact hl L hL y z v hy hb hz
            cases hd : forMaybeDecl x with
            | true =>
              simp only [hd] at hm
              change (keyword b!"let" >>= _) s3 = _ at hm
              rw [bind_apply] at hm
              cases h4 : keyword b!"let" s3 with
              | ok o s4 =>
                rw [h4] at hm
                cases o with
                | some b =>
                  cases hm
                  refine ⟨_, hs, (keyword_some_d d3 h4).trans ⟨(keyword_some_d d3 h4).count, (keyword_some_d d3 h4).flags,
                    rfl, rfl, fun _ h => h, fun L hL => derL_single.2 ?_⟩⟩
                  have k := keyword_some_d (D.refl d3.count d3.flags) h4
                  obtain ⟨y, ⟨l, z⟩, v, hr, hz⟩ := forLet_second d3.count h3' hd (k.grow L hL)
                  have hk := derL_single.1 (k.der L hL)
                  rw [hr] at hk
                  generalize remaining L _ = v' at hk ⊢
                  cases hk
                  exact .notAhead hz
                | none =>
                  cases hm
                  refine ⟨_, hn, rest _ (keyword_idle h4) fun L hL y z v hy hb => ?_⟩
                  exact absurd hb (keyword_first d3.count h4 hL hy)
              | _ => rw [h4] at hm; cases hm
            | false =>
              simp only [hd] at hm
              cases hm
              refine ⟨_, hn, rest _ (.refl _) fun L hL y z v hv hy hb => ?_⟩
              cases x with
              | none =>
                obtain ⟨hc, hk⟩ := identLookahead_none h3
                rw [remaining_cur hL hc d3.count] at hv
                injection hv with hv
                rw [← hv] at hy
                exact hk _ hy
              | some x =>
                obtain ⟨h4, h5, h6⟩ := h3' x rfl
                have hc : s'.count = 2 := by have := d3.count; omega
                rw [remaining_two hL hc] at hv
                cases hv
                rw [← h6] at hb
                revert hd hb
                obtain ⟨l, t⟩ := x
                simp only [forMaybeDecl]
                rintro hd (rfl | rfl | ⟨u, rfl, h7, h8⟩)
                · cases hd
                · cases hd
                · simp [h7, h8] at hd
          | _ => rw [h3] at hm; cases hm
      | _ => rw [h2] at hm; cases hm
  | _ => rw [h1] at hm; cases hm

theorem parseForStatement_gr (hr : RecGr r) :
    Gr C [] (parseForStatement r) (grPost .forStatement) := by
  unfold parseForStatement
  simp only [forHead_eq]
  gr
  all_goals refine forDeclLoop_gr hr rfl ?_ ?_ <;> gr

/-! ## Expressions -/

theorem reify_gr {post : Option Bool → List G → Prop} (hn : post none (w ++ [.notAhead assigners]))
    (ha : post (some true) (app w (.p .arrow))) (hs : post (some false) (app w (.t .assignOp))) :
    Gr C w (takeIf isReify) post := by
  refine takeIfNot_gr assigners ?_ hn fun l t b h => ?_
  · intro l t h ht
    have : ∀ t ∈ assigners, reifyType t ≠ none := by decide +kernel
    exact this t ht h
  unfold isReify reifyType at h
  split at h <;> cases h
  · exact ⟨.p .arrow, rfl, ha⟩
  all_goals exact ⟨.assignOp, ⟨_, by decide +kernel, rfl⟩, hs⟩

theorem assignmentRest_gr (hr : RecGr r) (hw : w = [.notAsync]) :
    Gr C w (assignmentRest r) (grPost .assignmentExpression) := by
  subst hw
  rw [assignmentRest_eq]
  refine bind_gr (call_gr hr (pure_gr trivial) (bind_gr (reify_gr ?_ ?_ ?_))) <;> gr

/-- Looking for `async` and a name, expressions.rs:30-43. -/
def asyncAhead : P (Option Bytes) := do
  let flags ← getFlags
  let ahead ← identLookahead
  if maybeAsyncArrow flags ahead then keyword b!"async" else pure none

theorem binding_of_name {F : Flags} {v : Bytes} (h : BindingName (ctxOf F) v) : isBindingIdentifier F v = true := by
  obtain ⟨h1, h2, h3, h4⟩ := h
  have key : ∀ v ∈ keywords, v ∈ reservedWords ∨ v = b!"yield" := by decide +kernel
  have hk : v ∉ keywords := fun h => (key v h).elim h1 h2
  have hs : F.isStrict = true → v ∉ strictWords := h4
  have ha : v = b!"await" → F.allowAwait = true := h3
  have hw : v ≠ b!"enum" ∧ v ≠ b!"null" ∧ v ≠ b!"true" ∧ v ≠ b!"false" := by
    refine ⟨?_, ?_, ?_, ?_⟩ <;> (rintro rfl; exact h1 (by decide +kernel))
  unfold isBindingIdentifier
  rw [if_neg (by simp [h2]), if_neg (by rintro ⟨h, h'⟩; rw [ha h] at h'; cases h'), if_neg hk,
    if_neg, if_neg hw.1, if_neg, if_neg (by simp [hw.2])]
  · rintro ⟨h, h'⟩
    refine hs h' ?_
    rcases h with rfl | rfl | rfl | rfl | rfl | rfl <;> decide +kernel
  · rintro ⟨h, h'⟩
    refine hs h' ?_
    rcases h with rfl | rfl <;> decide +kernel

theorem asyncAhead_gr {post : Option Bytes → List G → Prop} (hn : post none (w ++ [.notAsync]))
    (hs : ∀ b, post (some b) (app (w ++ [.sameLine]) (.kw b!"async"))) : Gr C w asyncAhead post := by
  intro s0 s a s' hl hm
  obtain ⟨F, s1, h1, h2⟩ := bind_inv hm
  cases h1
  obtain ⟨x, s2, h3, h4⟩ := bind_inv h2
  obtain ⟨i2, h5⟩ := identLookahead_facts h3
  have hl2 := hl.idle i2
  have hF : ctxOf s.flags = C := hl.flags
  -- what is known if the tokens do not begin with `async` and a name
  have done : ∀ s', D C w s0 s' → (∀ L, Pre L s' → ¬ BeginsAsync C (remaining L s')) →
      D C (w ++ [.notAsync]) s0 s' := fun s' hd h => idle_symbol hd fun L hL => .notAsync (h L hL)
  split at h4
  · rename_i hm'
    cases a with
    | some b =>
      have hd : D C (w ++ [.sameLine]) s0 s2 := by
        obtain ⟨y, rfl⟩ : ∃ y, x = some y := by
          cases x with
          | none => cases hm'
          | some y => exact ⟨y, rfl⟩
        obtain ⟨h6, h7, h8⟩ := h5 y rfl
        have hc : s2.count = 2 := by have := hl2.count; omega
        refine idle_symbol hl2 fun L hL => ?_
        rw [remaining_two hL hc]
        refine .sameLine ?_
        rw [← h8]
        obtain ⟨l, t⟩ := y
        cases l with
        | false => rfl
        | true => cases t <;> cases hm'
      obtain ⟨w', hw, hd⟩ := keyword_gr (C := C) (post := fun o w' => o ≠ none → w' = app (w ++ [.sameLine]) (.kw b!"async"))
        (fun h => absurd rfl h) (fun _ _ => rfl) s0 s2 _ s' hd h4
      exact ⟨_, hs b, hw (by simp) ▸ hd⟩
    | none =>
      obtain ⟨w', hw, hd⟩ := keyword_gr (C := C) (post := fun o w' => o = none → w' = w)
        (fun _ => rfl) (fun _ h => by cases h) s0 s2 _ s' hl2 h4
      obtain ⟨hc, hk⟩ := keyword_none h4
      cases hw rfl
      refine ⟨_, hn, done _ hd fun L hL => ?_⟩
      rintro ⟨l, n, v, hv, hb⟩
      rw [remaining_cur hL hc hd.count] at hv
      injection hv with hv
      exact hk (by rw [show (cur s').token = (cur s').seen.2 from rfl, hv])
  · cases h4
    refine ⟨_, hn, done _ hl2 fun L hL => ?_⟩
    rintro ⟨l, n, v, hv, hb⟩
    cases x with
    | none =>
      obtain ⟨hc, hk⟩ := identLookahead_none h3
      rw [remaining_cur hL hc hl2.count] at hv
      injection hv with hv
      exact hk b!"async" (by rw [show (cur s').token = (cur s').seen.2 from rfl, hv])
    | some x =>
      obtain ⟨h6, h7, h8⟩ := h5 x rfl
      have hc : s'.count = 2 := by have := hl2.count; omega
      rw [remaining_two hL hc] at hv
      injection hv with _ hv
      injection hv with hv _
      rw [← h8] at hv
      subst hv
      rename_i hm'
      refine hm' ?_
      subst hF
      exact binding_of_name hb

theorem assignment_eq (r : Rec) : parseAssignmentExpression r = (do
    match ← r.call .yieldExpression with
    | some _ => found
    | none => do
      match ← asyncAhead with
      | some _ => asyncArrowRest r
      | none => assignmentRest r) := by
  unfold parseAssignmentExpression asyncAhead
  funext s
  simp only [bind_apply]
  cases r.call .yieldExpression s with
  | ok o s1 =>
    cases o with
    | some _ => rfl
    | none =>
      simp only [bind_apply]
      cases getFlags s1 with
      | ok f s2 =>
        simp only [bind_apply]
        cases identLookahead s2 with
        | ok a s3 => cases h : maybeAsyncArrow f a <;> simp [h] <;> rfl
        | _ => rfl
      | _ => rfl
  | _ => rfl

theorem parseAssignmentExpression_gr (hr : RecGr r) :
    Gr C [] (parseAssignmentExpression r) (grPost .assignmentExpression) := by
  rw [assignment_eq]
  gr

theorem parseDeclaration_gr (hr : RecGr r) : Gr C [] (parseDeclaration r) (grPost .declaration) := by
  unfold parseDeclaration
  refine bind_gr (expectExpression_gr (bind_gr (tokenNot_gr [.ident b!"async"] ?_ ?_)))
  · intro a ha
    rw [List.mem_singleton.1 ha]
    gr
  · intro a ha
    gr

theorem parseUnaryExpression_gr (hr : RecGr r) : Gr C [] (parseUnaryExpression r) (grPost .unaryExpression) := by
  unfold parseUnaryExpression
  refine bind_gr (tokenNot_gr [.ident b!"await"] ?_ ?_)
  · intro a ha
    rw [List.mem_singleton.1 ha]
    show Gr C [] (must (r.call .awaitExpression)) _
    gr
  · intro a ha
    gr

theorem parsePrimaryExpression_gr (hr : RecGr r) : Gr C [] (parsePrimaryExpression r) (grPost .primaryExpression) := by
  unfold parsePrimaryExpression
  refine bind_gr (getFlags_gr fun F hF => bind_gr (tokenNot_gr [.ident b!"async"] ?_ ?_))
  · intro a ha
    rw [List.mem_singleton.1 ha]
    have : primaryType F (.ident b!"async") = some .ident ∨ primaryType F (.ident b!"async") = none := by
      simp [primaryType]
    rcases this with h | h <;> rw [h] <;> gr
  · intro a ha
    gr

theorem operator_gr {F : Flags} (hF : ctxOf F = C) {post : Option Nat → List G → Prop}
    (hn : post none (w ++ [noOperator])) (hs : ∀ n, post (some n) (app w (.t .binaryOp))) :
    Gr C w (takeIf (isOperator F.allowIn)) post := by
  have hin : C.get .in = F.allowIn := by rw [← hF]; rfl
  have hops : ∀ b, ∀ t ∈ operators, newPrecedence b t ≠ none := by decide +kernel
  have hi : newPrecedence true (.ident b!"in") ≠ none := by decide +kernel
  have key : ∀ t, newPrecedence F.allowIn t = none → ∀ l u,
      Der C noOperator ((l, t) :: u) ((l, t) :: u) := by
    intro t h l u
    cases hb : F.allowIn with
    | true =>
      rw [hb] at h hin
      refine .altl (.seq (.onlyIf hin) (.notAhead fun hm => ?_))
      rcases List.mem_cons.1 hm with rfl | hm
      · exact hi h
      · exact hops _ _ hm h
    | false =>
      rw [hb] at h hin
      exact .altr (.seq (.onlyIf hin) (.notAhead fun hm => hops _ _ hm h))
  intro s0 s a s' hl hm
  unfold takeIf at hm
  cases h1 : fill s with
  | ok u s1 =>
    rw [h1] at hm
    simp only at hm
    have hi := hl.idle (fill_idle h1)
    cases h2 : isOperator F.allowIn (cur s1).line (cur s1).token with
    | some b =>
      rw [h2] at hm
      cases hm
      refine ⟨_, hs b, hi.app (pop_d (fill_count h1) hi.count hi.flags ?_)⟩
      unfold isOperator newPrecedence at h2
      split at h2
      case h_23 n =>
        split at h2
        · rename_i hn
          obtain ⟨hn, hi⟩ := hn
          rw [‹(cur s1).token = _›, hn]
          exact .inr (.inr ⟨rfl, by rw [← hF]; exact hi⟩)
        · split at h2
          · rename_i hn
            rw [‹(cur s1).token = _›, hn]; exact .inr (.inl rfl)
          · cases h2
      case h_24 => cases h2
      all_goals
        rw [‹(cur s1).token = _›]
        exact .inl ⟨_, List.mem_of_elem_eq_true rfl, rfl⟩
    | none =>
      rw [h2] at hm
      cases hm
      refine ⟨_, hn, idle_symbol hi fun L hL => ?_⟩
      rw [remaining_cur hL (fill_count h1) hi.count]
      exact key _ h2 _ _
  | _ => rw [h1] at hm; cases hm

theorem der_binary {op : Punct} (hop : op ∈ binaryOperators) {u v : List Tok}
    (h : DerL C [.nt .UnaryExpression, .p op, .nt .BinaryExpression] u v) :
    Der C (.nt .BinaryExpression) u v := by
  obtain ⟨m1, h1, m2, h2, m3, h3, rfl⟩ := h
  refine .nt (.altr (.seq (.nt (.altl h1)) (.seq (v := m2) ?_ h3)))
  cases h2 with
  | t h => exact .t (.inl ⟨op, hop, h⟩)

theorem noOperator_nothing {u v : List Tok} (h : Der C noOperator u v) : u = v := by
  cases h with
  | altl h => cases h with | seq h1 h2 => cases h1; cases h2; rfl
  | altr h => cases h with | seq h1 h2 => cases h1; cases h2; rfl

theorem parseFancy_gr (hr : RecGr r) {p : Nat} :
    Gr C [] (parseFancy r p) (grPost (.fancy p)) := by
  unfold parseFancy
  refine bind_gr (call_gr hr (pure_gr trivial) (bind_gr (getFlags_gr fun F hF => bind_gr ?_)))
  refine loop_inv_gr (fun _ w => w = [.nt .BinaryExpression]) (fun st w hw => ?_) r.fuel p _ rfl
  subst hw
  have key : Gr C [.nt .BinaryExpression] (fancyRound r F.allowIn st) fun x w' => match x with
      | .inl _ => w' = [.nt .BinaryExpression, .t .binaryOp, .nt .UnaryExpression] ∨
          w' = [.nt .BinaryExpression, .t .binaryOp, operation]
      | .inr _ => w' = [.nt .BinaryExpression, noOperator] := by
    rw [fancyRound_eq]
    refine bind_gr (operator_gr hF ?_ fun n => ?_) <;> gr
    exact .inr rfl
  intro s0 s x s' hl hm
  obtain ⟨w1, hx, hd⟩ := key s0 s x s' hl hm
  have hb : fits operation [.nt .BinaryExpression, noOperator] = true := by decide +kernel
  cases x with
  | inr b => exact ⟨w1, by rw [hx]; exact pure_gr (grPost_intro hb), hd⟩
  | inl b =>
    refine ⟨_, rfl, hd.mono fun u v h => derL_single.2 ?_⟩
    rcases hx with rfl | rfl <;> obtain ⟨m1, h1, m2, h2, m3, h3, rfl⟩ := h
    · exact .nt (.altr (.seq h1 (.seq h2 (.nt (.altl h3)))))
    · cases h3 with
      | seq h3 h4 =>
        cases noOperator_nothing h4
        exact .nt (.altr (.seq h1 (.seq h2 h3)))

theorem parseExponentialExpression_gr (hr : RecGr r) :
    Gr C [] (parseExponentialExpression r) fun o w => o = none ∨
      ∀ u v, DerL C w u v → Der C (symOf .exponentialExpression) u v := by
  unfold parseExponentialExpression
  gr
  · exact .inl rfl
  · refine .inr fun u v h => ?_
    obtain ⟨m, h, rfl⟩ := h
    exact .nt (.altl h)
  · exact .inr fun u v h => der_binary (by decide +kernel) h

theorem parseAwaitExpression_gr (hr : RecGr r) :
    Gr C [] (parseAwaitExpression r) (grPost .awaitExpression) := by
  unfold parseAwaitExpression
  refine bind_gr (getFlags_gr fun F hF => ?_)
  split
  · rename_i h
    refine onlyIf_gr .await (by rw [← hF]; exact h) ?_
    gr
  · gr

theorem parseLexicalDeclarator_gr (hr : RecGr r) {b : Bool} :
    Gr C [] (parseLexicalDeclarator r b) (grPost (.lexicalDeclarator b)) := by
  unfold parseLexicalDeclarator
  cases b <;> gr

theorem isMember_gr {post : Option Bool → List G → Prop} 
    (hn : post none (w ++ [.notAhead [.punct .period, .punct .squareOpen]]))
    (ht : post (some true) (app w (.p .period)))
    (hf : post (some false) (app w (.p .squareOpen))) : Gr C w (takeIf isMember) post := by
  refine takeIfNot_gr _ ?_ hn fun l t b h => ?_
  · intro l t h ht
    have : ∀ t ∈ [Token.punct .period, .punct .squareOpen], isMember false t ≠ none := by decide +kernel
    exact this t ht h
  unfold isMember at h
  split at h
  · cases h; exact ⟨.p .period, ‹_›, ht⟩
  · split at h
    · cases h; exact ⟨.p .squareOpen, ‹_›, hf⟩
    · cases h

/-- What may follow an operand: members, templates and (if `b`) arguments. -/
def memberSym (b : Bool) : G :=
  .alts ([.seqs [.p .period, .name], .seqs [.p .squareOpen, .expression, .p .squareClose],
    .nt .TemplateLiteral] ++ if b then [.nt .Arguments] else [])

theorem leftHandLoop_gr (hr : RecGr r) {b : Bool} {n : Nat} {post : Unit → List G → Prop}
    (h : post () (w ++ [.star (memberSym b), noMember b])) :
    Gr C w (loop n (fun _ => leftHandRound r b) ()) post := by
  refine loop_star_gr (memberSym b) (noMember b) (fun st => ?_) fun _ => h
  rw [leftHandRound_eq]
  have hp : ∀ a, leftType a = some .call → a ∈ [Token.punct .parenOpen] := by
    intro a h
    unfold leftType at h
    split at h <;> first | exact List.mem_singleton.2 rfl | cases h
  refine bind_gr (isMember_gr ?_ ?_ ?_)
  · refine bind_gr (tokenNoTemplate_gr [.punct .parenOpen] (fun a ha => ?_) (fun a ha _ => ?_) fun a ha hb => ?_)
    · have hl : leftType a = some .template := by
        unfold BeginsTemplate at ha
        split at ha <;> first | rfl | exact ha.elim
      rw [hl]
      cases b <;> gr
    · cases List.mem_singleton.1 ha
      cases b <;> gr
    · cases hl : leftType a with
      | none => cases b <;> gr
      | some k =>
        cases k with
        | call => exact absurd (hp a hl) ha
        | template =>
          refine absurd ?_ hb
          unfold leftType at hl
          split at hl <;> first | trivial | cases hl
        | _ => cases b <;> gr
  all_goals cases b <;> gr

/-- `new` was tried before, so it is not the next token: there is no `new.target`. -/
def metaCall (r : Rec) : P (Option Unit) := r.call .metaPropertyExpression

theorem metaCall_gr (hr : RecGr r) {post : Option Unit → List G → Prop} (hw : w = [.notAhead [.ident b!"new"]])
    (hn : post none w) : Gr C w (metaCall r) post := by
  subst hw
  intro s0 s a s' hl hm
  cases a with
  | none => exact ⟨_, hn, hl.idle (call_idle hr hm)⟩
  | some u =>
    refine absurd (call_d hr hl hm) (D.absurd fun u v h => ?_)
    obtain ⟨m1, h1, m2, h2, -⟩ := h
    cases h1 with
    | notAhead hx =>
      cases h2 with
      | seq h2 _ =>
        cases h2 with
        | t hk => exact hx (List.mem_singleton.2 hk)

theorem parseLeftHandExpression_gr (hr : RecGr r) {b : Bool} :
    Gr C [] (parseLeftHandExpression r b) (grPost (.leftHandExpression b)) := by
  unfold parseLeftHandExpression
  rw [show keyword b!"new" = keywordOr b!"new" from rfl,
    show r.call .metaPropertyExpression = metaCall r from rfl]
  cases b <;> gr
  all_goals refine leftHandLoop_gr hr ?_
  all_goals gr

/-! ## All methods -/

theorem Gr.sound {f : Fn} {m : P (Option Unit)} (h : Gr C [] m (grPost f)) :
    Gr C [] m fun o w => o = none ∨ ∀ u v, DerL C w u v → Der C (symOf f) u v := by
  refine h.mono fun o w hw => ?_
  cases o with
  | none => exact .inl rfl
  | some _ => exact .inr fun u v hd => fits_sound hw hd

theorem body_gr (hr : RecGr r) (f : Fn) : Gr C [] (body r f) fun o w => o = none ∨
    ∀ u v, DerL C w u v → Der C (symOf f) u v := by
  cases f
  case exponentialExpression => exact parseExponentialExpression_gr hr
  all_goals refine Gr.sound ?_
  all_goals unfold body
  case methodTail h => exact parseMethodTail_gr hr
  case fancy p => exact parseFancy_gr hr
  case lexicalDeclarator b => exact parseLexicalDeclarator_gr hr
  case leftHandExpression b => exact parseLeftHandExpression_gr hr
  case yieldExpression => exact parseYieldExpression_gr hr
  all_goals gr

/-- It never returns nothing. -/
def Finds (m : P (Option Unit)) : Prop := ∀ s s', m s ≠ .ok none s'

theorem finds_bind {α : Type} {m : P α} {k : α → P (Option Unit)} (h : ∀ a, Finds (k a)) :
    Finds (m >>= k) := by
  intro s s' hm
  rw [bind_apply] at hm
  cases h1 : m s with
  | ok a s1 => rw [h1] at hm; exact h a s1 s' hm
  | _ => rw [h1] at hm; cases hm

theorem finds_found : Finds found := by
  intro s s' h
  cases h

theorem finds_must {m : P (Option Unit)} : Finds (must m) := finds_bind fun _ => finds_found

theorem finds_withFlag {f : Flag} {b : Bool} {m : P (Option Unit)} (h : Finds m) : Finds (withFlag f b m) := by
  intro s s' hm
  rw [withFlag_apply] at hm
  split at hm
  · rename_i a s1 h1
    split at hm
    · cases hm
      exact h _ _ h1
    all_goals cases hm
  all_goals cases hm

theorem finds_functionRest {r : Rec} {async star : Bool} : Finds (functionRest r async star) := by
  have h : ∀ {m m' : P Unit}, Finds (do m; m'; found) := finds_bind fun _ => finds_bind fun _ => finds_found
  unfold functionRest
  split
  · exact finds_withFlag h
  · split
    · exact finds_withFlag (finds_withFlag h)
    · exact finds_withFlag (finds_withFlag h)

/-- A method that begins with a token. -/
theorem take_avoids {β : Type} {f : Bool → Token → Option β} {t : Token} (hf : ∀ l, f l t ≠ none)
    {k : Option β → P (Option Unit)} (hk : ∀ b, Finds (k (some b))) (hn : k none = pure none)
    {s s' : PState} (h : (takeIf f >>= k) s = .ok none s') : Avoids [t] s' := by
  rw [bind_apply] at h
  unfold takeIf at h
  cases h1 : fill s with
  | ok u s1 =>
    rw [h1] at h
    simp only at h
    cases h2 : f (cur s1).line (cur s1).token with
    | none =>
      rw [h2] at h
      simp only [hn] at h
      cases h
      refine .inr ⟨fill_count h1, fun hm => ?_⟩
      rw [List.mem_singleton.1 hm] at h2
      exact hf _ h2
    | some b =>
      rw [h2] at h
      exact absurd h (hk b _ _)
  | _ => rw [h1] at h; cases h

theorem declType_none {t : Token} (h : declType t = none) : t ∉ declarationWords := by
  intro hm
  simp only [declarationWords, List.mem_cons, List.not_mem_nil, or_false] at hm
  rcases hm with rfl | rfl | rfl | rfl <;> revert h <;> decide +kernel

theorem run_shun (n : Nat) (f : Fn) (s s' : PState) (h : run n f s = .ok none s') :
    Avoids (shuns f) s' := by
  cases n with
  | zero => cases h
  | succ n =>
    change body (recOf n) f s = .ok none s' at h
    cases f <;> try exact .inl rfl
    case initializer =>
      change parseInitializer _ s = _ at h
      unfold parseInitializer at h
      rw [punc_eq] at h
      refine take_avoids ?_ ?_ ?_ h
      · intro l; simp [isPunc]
      · exact fun b => finds_bind fun _ => finds_must
      · rfl
    case blockStatement =>
      change parseBlockStatement _ s = _ at h
      unfold parseBlockStatement at h
      rw [withFlag_apply, punc_eq] at h
      split at h
      · rename_i a s1 h1
        split at h
        · rename_i heq
          cases h
          unfold popFlags at heq
          split at heq
          · cases heq
          · injection heq with _ hs
            subst hs
            have hA : Avoids [.punct .curlyOpen] s1 := by
              refine take_avoids ?_ ?_ ?_ h1
              · intro l; simp [isPunc]
              · exact fun b => finds_bind fun _ => finds_bind fun _ => finds_found
              · rfl
            exact hA
        all_goals cases h
      all_goals cases h
    case declaration =>
      change (expectExpression >>= fun _ => token >>= fun t => _) s = _ at h
      rw [bind_apply] at h
      simp only [expectExpression] at h
      rw [bind_apply] at h
      simp only [token, bind_apply, tokenAndLine_apply] at h
      split at h
      · rename_i t s1 h1
        cases h2 : fill { s with hint := { s.hint with expression := true } } with
        | ok u s2 =>
          rw [h2] at h1
          injection h1 with ht hs
          subst ht hs
          cases hd : declType (cur s2).seen.2 with
          | none =>
            rw [hd] at h
            cases h
            exact .inr ⟨fill_count h2, declType_none hd⟩
          | some d =>
            rw [hd] at h
            cases d <;> exact absurd h (finds_must _ _)
        | _ => rw [h2] at h1; cases h1
      all_goals cases h
    case classDeclaration =>
      change parseClassDeclaration _ s = _ at h
      rw [parseClassDeclaration_eq, keyword_eq] at h
      refine take_avoids ?_ ?_ ?_ h
      · intro l; simp [isKeyword]
      · exact fun b => finds_bind fun _ => finds_bind fun _ => finds_bind fun _ => finds_must
      · rfl

theorem run_func (n : Nat) (s s' : PState) (hc : s.count ≤ 2) (h : run n .functionDeclaration s = .ok none s') :
    ∀ L, Pre L s' → ¬ BeginsFunction (remaining L s') := by
  cases n with
  | zero => cases h
  | succ n =>
    change parseFunctionDeclaration _ s = .ok none s' at h
    rw [parseFunctionDeclaration_eq, bind_apply] at h
    cases h1 : identLookahead s with
    | ok o s1 =>
      rw [h1] at h
      obtain ⟨i1, h1'⟩ := identLookahead_facts h1
      have hc1 := i1.count hc
      simp only [functionDeclarationRest, bind_apply] at h
      cases h2 : functionKeyword (isAsyncFunction o) s1 with
      | ok star s2 =>
        rw [h2] at h
        cases star with
        | some star => exact absurd h (finds_bind (fun _ => finds_bind fun _ => finds_functionRest) _ _)
        | none =>
          cases h
          rintro L hL ⟨x, y, v, hv, hx, hy⟩
          cases ho : isAsyncFunction o with
          | true =>
            rw [ho] at h2
            replace h2 : keyword b!"async" s1 = .ok none s' := by
              simp only [functionKeyword, if_true, bind_apply] at h2
              split at h2
              · rename_i a s3 h3
                cases a with
                | none => cases h2; exact h3
                | some a =>
                  simp only [bind_apply] at h2
                  split at h2 <;> cases h2
              all_goals cases h2
            obtain ⟨r1, r2⟩ := (keyword_idle h2).remaining hc1 hL
            cases o with
            | none => cases ho
            | some o =>
              obtain ⟨-, h4, rfl⟩ := h1' o rfl
              rw [r2, remaining_two r1 (by omega)] at hv
              injection hv with _ hv
              injection hv with hv _
              rw [hv] at ho
              obtain ⟨l, t⟩ := y
              cases l <;> cases t <;> simp only [isAsyncFunction, Bool.false_eq_true] at ho
              exact hy ⟨rfl, by rw [eq_of_beq ho]⟩
          | false =>
            rw [ho] at h2
            replace h2 : keyword b!"function" s1 = .ok none s' := by
              simp only [functionKeyword, Bool.false_eq_true, if_false, bind_apply] at h2
              split at h2
              · rename_i a s3 h3
                cases a with
                | none => cases h2; exact h3
                | some a =>
                  simp only [bind_apply] at h2
                  split at h2 <;> cases h2
              all_goals cases h2
            exact keyword_first hc1 h2 hL hv hx
      | _ => rw [h2] at h; cases h
    | _ => rw [h1] at h; cases h

/-! ## In front of which tokens an expression is not found -/

/-- Where it returns nothing, the next token has not the property `ts`, and has been read if some token has it. -/
def Refuses {β : Type} (fl : Flags) (ts : Token → Prop) (m : P (Option β)) : Prop :=
  ∀ s s', s.flags = fl → s.count ≤ 2 → m s = .ok none s' →
    Idle s s' ∧ ∀ L, Pre L s' → ((∃ t, ts t) → remaining L s' ≠ []) ∧ ∀ x v, remaining L s' = x :: v → ¬ ts x.2

theorem _root_.Jsparse.Idle.trans {s s1 s' : PState} (h : Idle s s1) (h' : Idle s1 s') : Idle s s' :=
  ⟨h.still.trans h'.still, h'.flags.trans h.flags, h'.stack.trans h.stack, fun hc => h'.count (h.count hc)⟩

theorem Refuses.of {β : Type} {fl : Flags} {ts ts' : Token → Prop} {m : P (Option β)} (h : Refuses fl ts m)
    (ht : ∀ t, ts' t → ts t) : Refuses fl ts' m := fun s s' hf hc hm =>
  ⟨(h s s' hf hc hm).1, fun L hL =>
    ⟨fun ⟨t, h'⟩ => ((h s s' hf hc hm).2 L hL).1 ⟨t, ht t h'⟩, fun x v hv hx => ((h s s' hf hc hm).2 L hL).2 x v hv (ht _ hx)⟩⟩

theorem refuses_none {β : Type} {fl : Flags} : Refuses fl (fun _ => False) (pure none : P (Option β)) := by
  intro s s' _ _ h
  cases h
  exact ⟨.refl s, fun _ _ => ⟨fun ⟨_, h⟩ => h.elim, fun _ _ _ => id⟩⟩

theorem Refuses.then {β : Type} {fl : Flags} {ts ts' : Token → Prop} {m : P (Option β)}
    {k : Option β → P (Option Unit)} (h : Refuses fl ts m) (hk : ∀ b, Finds (k (some b)))
    (hn : Refuses fl ts' (k none)) : Refuses fl (fun t => ts t ∨ ts' t) (m >>= k) := by
  intro s s' hf hc hm
  rw [bind_apply] at hm
  cases h1 : m s with
  | ok a s1 =>
    rw [h1] at hm
    cases a with
    | some b => exact absurd hm (hk b _ _)
    | none =>
      obtain ⟨i1, r1⟩ := h s s1 hf hc h1
      obtain ⟨i2, r2⟩ := hn s1 s' (i1.flags.trans hf) (i1.count hc) hm
      refine ⟨i1.trans i2, fun L hL => ?_⟩
      obtain ⟨p1, p2⟩ := i2.remaining (i1.count hc) hL
      refine ⟨?_, fun x v hv => ?_⟩
      · rintro ⟨t, ht | ht⟩
        · exact p2 ▸ (r1 L p1).1 ⟨t, ht⟩
        · exact (r2 L hL).1 ⟨t, ht⟩
      · rintro (hx | hx)
        · exact (r1 L p1).2 x v (p2 ▸ hv) hx
        · exact (r2 L hL).2 x v hv hx
  | _ => rw [h1] at hm; cases hm

theorem Refuses.bind {β : Type} {fl : Flags} {ts : Token → Prop} {m : P (Option β)}
    {k : Option β → P (Option Unit)} (h : Refuses fl ts m) (hk : ∀ b, Finds (k (some b)))
    (hn : k none = pure none) : Refuses fl ts (m >>= k) :=
  (h.then hk (hn ▸ refuses_none)).of fun _ => .inl

theorem Refuses.orTry {fl : Flags} {ts ts' : Token → Prop} {m m' : P (Option Unit)}
    (h : Refuses fl ts m) (h' : Refuses fl ts' m') : Refuses fl (fun t => ts t ∨ ts' t) (P.orTry m m') :=
  h.then (fun _ _ _ h => by cases h) h'

theorem Refuses.behind {α : Type} {fl : Flags} {ts : Token → Prop} {m : P α} {k : α → P (Option Unit)}
    (hm : ∀ s a s', m s = .ok a s' → Idle s s') (h : ∀ a, Refuses fl ts (k a)) : Refuses fl ts (m >>= k) := by
  intro s s' hf hc hms
  rw [bind_apply] at hms
  cases h1 : m s with
  | ok a s1 =>
    rw [h1] at hms
    have i1 := hm s a s1 h1
    obtain ⟨i2, r2⟩ := h a s1 s' (i1.flags.trans hf) (i1.count hc) hms
    exact ⟨i1.trans i2, r2⟩
  | _ => rw [h1] at hms; cases hms

theorem refuses_flags {fl : Flags} {ts : Token → Prop} {k : Flags → P (Option Unit)} (h : Refuses fl ts (k fl)) :
    Refuses fl ts (getFlags >>= k) := by
  intro s s' hf hc hm
  subst hf
  exact h s s' rfl hc hm

/-- A method that looks at the next token. -/
theorem refuses_token {fl : Flags} {ts ts' : Token → Prop} {k : Token → P (Option Unit)}
    (h1 : ∀ t, ts t → Finds (k t)) (h2 : ∀ t, ¬ ts t → Refuses fl ts' (k t)) :
    Refuses fl (fun t => ts t ∨ ts' t) (token >>= k) := by
  intro s s' hf hc hm
  simp only [token, bind_apply, tokenAndLine_apply] at hm
  cases h3 : fill s with
  | ok u s1 =>
    rw [h3] at hm
    have i1 := fill_idle h3
    replace hm : k (cur s1).token s1 = .ok none s' := hm
    by_cases ht : ts (cur s1).token
    · exact absurd hm (h1 _ ht _ _)
    · obtain ⟨i2, r2⟩ := h2 _ ht s1 s' (i1.flags.trans hf) (i1.count hc) hm
      refine ⟨i1.trans i2, fun L hL => ?_⟩
      obtain ⟨p1, p2⟩ := i2.remaining (i1.count hc) hL
      have hrem := remaining_cur p1 (fill_count h3) (i1.count hc)
      rw [← p2] at hrem
      refine ⟨fun _ => (by rw [hrem]; simp), fun x v hv => ?_⟩
      rintro (hx | hx)
      · rw [hrem] at hv
        injection hv with hv
        rw [← hv] at hx
        exact ht hx
      · exact (r2 L hL).2 x v hv hx
  | _ => rw [h3] at hm; cases hm

theorem refuses_take {β : Type} {f : Bool → Token → Option β} {fl : Flags} {t : Token} (hf : ∀ l, f l t ≠ none) :
    Refuses fl (· = t) (takeIf f) := by
  intro s s' hfl hc h
  unfold takeIf at h
  cases h1 : fill s with
  | ok u s1 =>
    rw [h1] at h
    simp only at h
    have i1 := fill_idle h1
    cases h2 : f (cur s1).line (cur s1).token with
    | none =>
      rw [h2] at h
      cases h
      refine ⟨i1, fun L hL => ⟨fun _ => (by rw [remaining_cur hL (fill_count h1) (i1.count hc)]; simp), fun x v hv hx => ?_⟩⟩
      rw [remaining_cur hL (fill_count h1) (i1.count hc)] at hv
      injection hv with hv
      rw [← hv] at hx
      replace hx : (cur s').token = t := hx
      rw [hx] at h2
      exact hf _ h2
    | some b => rw [h2] at h; cases h
  | _ => rw [h1] at h; cases h

theorem refuses_keyword {fl : Flags} {k : Bytes} : Refuses fl (· = .ident k) (keyword k) := by
  rw [keyword_eq]
  exact refuses_take fun l => by simp [isKeyword]

theorem refuses_punc {fl : Flags} {q : Punct} : Refuses fl (· = .punct q) (punc q) := by
  rw [punc_eq]
  exact refuses_take fun l => by simp [isPunc]

theorem finds_ite {c : Bool} {a b : P (Option Unit)} (ha : Finds a) (hb : Finds b) : Finds (if c then a else b) := by
  cases c
  · exact hb
  · exact ha

theorem refuses_super {fl : Flags} (n : Nat) : Refuses fl (· = .ident b!"super") (run n .superExpression) := by
  cases n with
  | zero => intro _ _ _ _ h; cases h
  | succ n => exact refuses_keyword.bind (fun _ => finds_found) rfl

theorem refuses_meta {fl : Flags} (n : Nat) : Refuses fl (· = .ident b!"new") (run n .metaPropertyExpression) := by
  cases n with
  | zero => intro _ _ _ _ h; cases h
  | succ n => exact refuses_keyword.bind (fun _ => finds_bind fun _ => finds_bind fun _ => finds_found) rfl

theorem refuses_primary {fl : Flags} (n : Nat) :
    Refuses fl (fun t => primaryType fl t ≠ none) (run n .primaryExpression) := by
  cases n with
  | zero => intro _ _ _ _ h; cases h
  | succ n =>
    refine refuses_flags ((refuses_token (ts := fun t => primaryType fl t ≠ none) (ts' := fun _ => False)
      (fun t ht => ?_) fun t ht => ?_).of fun _ => .inl)
    · cases h : primaryType fl t with
      | none => exact absurd h ht
      | some d => simp only []; cases d <;> exact finds_must
    · rw [Decidable.not_not.1 ht]
      exact refuses_none

theorem refuses_left {fl : Flags} (n : Nat) :
    Refuses fl (fun t => t = .ident b!"new" ∨ primaryType fl t ≠ none ∨ t = .ident b!"super")
      (run n (.leftHandExpression true)) := by
  cases n with
  | zero => intro _ _ _ _ h; cases h
  | succ n =>
    refine Refuses.bind (ts := fun t => t = .ident b!"new" ∨ primaryType fl t ≠ none ∨ t = .ident b!"super")
      (m := do
        match ← keyword b!"new" with
        | some _ => must ((recOf n).call (.leftHandExpression false))
        | none =>
          P.orTry ((recOf n).call .primaryExpression)
            (P.orTry ((recOf n).call .metaPropertyExpression) ((recOf n).call .superExpression))) ?_
      (fun _ => finds_bind fun _ => finds_found) rfl
    refine (refuses_keyword.then (fun _ => finds_must)
      ((refuses_primary n).orTry ((refuses_meta n).orTry (refuses_super n)))).of fun t ht => ?_
    rcases ht with h | h | h
    · exact .inl h
    · exact .inr (.inl h)
    · exact .inr (.inr (.inr h))

theorem refuses_update {fl : Flags} (n : Nat) :
    Refuses fl (fun t => t = .punct .plusPlus ∨ t = .punct .minusMinus ∨ t = .ident b!"new" ∨
      primaryType fl t ≠ none ∨ t = .ident b!"super") (run n .updateExpression) := by
  cases n with
  | zero => intro _ _ _ _ h; cases h
  | succ n =>
    change Refuses fl _ (parseUpdateExpression (recOf n))
    have e : parseUpdateExpression (recOf n) = (do
        match ← punc .plusPlus with
        | some _ => do expectExpression; must ((recOf n).call .updateExpression)
        | none => do
          match ← punc .minusMinus with
          | some _ => do expectExpression; must ((recOf n).call .updateExpression)
          | none => do
            let some _ ← (recOf n).call (.leftHandExpression true) | return none
            let b ← noLineTerminator
            if b then
              match ← punc .plusPlus with
              | some _ => found
              | none => do
                let _ ← punc .minusMinus
                found
            else found) := by
      funext s
      simp only [parseUpdateExpression, bind_apply]
      cases punc .plusPlus s with
      | ok a s1 =>
        cases a with
        | some a => rfl
        | none =>
          simp only [bind_apply]
          cases punc .minusMinus s1 with
          | ok a s2 => cases a <;> rfl
          | _ => rfl
      | _ => rfl
    rw [e]
    have hd : ∀ b, Finds (do
        match ← punc b with
        | some _ => found
        | none => do
          let _ ← punc .minusMinus
          found) := fun b => finds_bind fun a => by
      cases a with
      | some _ => exact finds_found
      | none => exact finds_bind fun _ => finds_found
    refine refuses_punc.then (fun _ => finds_bind fun _ => finds_must)
      (refuses_punc.then (fun _ => finds_bind fun _ => finds_must)
      ((refuses_left n).bind (fun _ => finds_bind fun b => finds_ite (hd _) finds_found) rfl))

theorem refuses_unary {fl : Flags} (n : Nat) :
    Refuses fl (fun t => unaryType t ≠ .unknown ∨ t = .punct .plusPlus ∨ t = .punct .minusMinus ∨
      t = .ident b!"new" ∨ primaryType fl t ≠ none ∨ t = .ident b!"super") (run n .unaryExpression) := by
  cases n with
  | zero => intro _ _ _ _ h; cases h
  | succ n =>
    refine refuses_token (fun t ht => ?_) fun t ht => ?_
    · cases h : unaryType t <;> first | exact absurd h ht | exact finds_must
    · rw [Decidable.not_not.1 ht]
      exact (refuses_update n).bind (fun _ => finds_found) rfl

theorem refuses_conditional {fl : Flags} (n : Nat) :
    Refuses fl (fun t => unaryType t ≠ .unknown ∨ t = .punct .plusPlus ∨ t = .punct .minusMinus ∨
      t = .ident b!"new" ∨ primaryType fl t ≠ none ∨ t = .ident b!"super") (run n .conditionalExpression) := by
  have zero : ∀ {f ts}, Refuses fl ts (run 0 f) := fun _ _ _ _ h => by cases h
  rcases n with _ | _ | _ | _ | n <;> try exact zero
  · exact (zero (f := .logicalOrExpression)).bind (fun _ => finds_bind fun a => by
      cases a <;> [exact finds_found; exact finds_bind fun _ => finds_bind fun _ => finds_bind fun _ => finds_bind fun _ => finds_must]) rfl
  all_goals
    refine Refuses.bind (m := run _ .logicalOrExpression) ?_ (fun _ => finds_bind fun a => by
      cases a <;> [exact finds_found; exact finds_bind fun _ => finds_bind fun _ => finds_bind fun _ => finds_bind fun _ => finds_must]) rfl
  · exact zero (f := .fancy 0)
  · exact (zero (f := .exponentialExpression)).bind (fun _ => finds_bind fun _ => finds_bind fun _ => finds_found) rfl
  · refine Refuses.bind (m := run _ .exponentialExpression) ?_ (fun _ => finds_bind fun _ => finds_bind fun _ => finds_found) rfl
    refine (refuses_unary n).bind (fun _ => finds_bind fun a => ?_) rfl
    cases a <;> [exact finds_found; exact finds_bind fun _ => finds_must]

theorem identLookahead_idle (s : PState) (a : Option (Bool × Token)) (s' : PState)
    (h : identLookahead s = .ok a s') : Idle s s' := (identLookahead_facts h).1

theorem finds_asyncArrow {r : Rec} : Finds (asyncArrowRest r) := by
  refine finds_bind fun a => ?_
  cases a
  · intro s s' h; cases h
  refine finds_bind fun _ => finds_bind fun a => ?_
  cases a
  · intro s s' h; cases h
  exact finds_bind fun _ => finds_must

theorem refuses_expression {fl : Flags} (n : Nat) :
    Refuses fl (fun t => t = .ident b!"yield" ∨ unaryType t ≠ .unknown ∨ t = .punct .plusPlus ∨
      t = .punct .minusMinus ∨ t = .ident b!"new" ∨ primaryType fl t ≠ none ∨ t = .ident b!"super")
      (run n .expression) := by
  have zero : ∀ {f ts}, Refuses fl ts (run 0 f) := fun _ _ _ _ h => by cases h
  rcases n with _ | n
  · exact zero
  refine Refuses.bind (m := run n .assignmentExpression) ?_ (fun _ => finds_bind fun _ => finds_bind fun _ => finds_found) rfl
  rcases n with _ | n
  · exact zero
  refine Refuses.then (m := run n .yieldExpression) ?_ (fun _ => finds_found) ?_
  · rcases n with _ | n
    · exact zero
    · exact refuses_keyword.bind (fun _ => finds_bind fun b => finds_ite (finds_bind fun _ => finds_bind fun _ =>
        finds_bind fun _ => finds_bind fun _ => finds_found) finds_found) rfl
  · refine refuses_flags (Refuses.behind identLookahead_idle fun a => ?_)
    have rest : Refuses fl (fun t => unaryType t ≠ .unknown ∨ t = .punct .plusPlus ∨ t = .punct .minusMinus ∨
        t = .ident b!"new" ∨ primaryType fl t ≠ none ∨ t = .ident b!"super") (assignmentRest (recOf n)) := by
      refine (refuses_conditional n).bind (fun _ => finds_bind fun t => ?_) rfl
      cases h : reifyType t with
      | none => exact finds_found
      | some b => cases b <;> exact finds_bind fun _ => finds_must
    simp only []
    split
    · exact ((refuses_keyword.of (ts' := fun _ => False) fun _ => False.elim).then (fun _ => finds_asyncArrow) rest).of
        fun _ => .inr
    · exact rest

theorem starts_type {F : Flags} {t : Token} (h : Starts (ctxOf F) t) :
    t = .ident b!"yield" ∨ unaryType t ≠ .unknown ∨ t = .punct .plusPlus ∨
      t = .punct .minusMinus ∨ t = .ident b!"new" ∨ primaryType F t ≠ none ∨ t = .ident b!"super" := by
  have prim : primaryType F t ≠ none → t = .ident b!"yield" ∨ unaryType t ≠ .unknown ∨ t = .punct .plusPlus ∨
      t = .punct .minusMinus ∨ t = .ident b!"new" ∨ primaryType F t ≠ none ∨ t = .ident b!"super" :=
    fun h => .inr (.inr (.inr (.inr (.inr (.inl h)))))
  cases t with
  | ident n =>
    rcases h with h | h
    · simp only [startWords, List.mem_cons, List.not_mem_nil, or_false] at h
      rcases h with rfl | rfl | rfl | rfl | rfl | rfl | rfl | rfl | rfl | rfl | rfl | rfl | rfl <;>
        first
        | (exact .inl rfl)
        | (exact .inr (.inl (by decide +kernel)))
        | (exact .inr (.inr (.inr (.inr (.inl rfl)))))
        | (exact .inr (.inr (.inr (.inr (.inr (.inr rfl))))))
        | (exact prim (by simp [primaryType]))
    · refine prim ?_
      have := binding_of_name h
      simp only [primaryType]
      repeat' split
      all_goals simp_all
  | punct q =>
    simp only [Starts, startPunctuators, List.mem_cons, List.not_mem_nil, or_false] at h
    rcases h with rfl | rfl | rfl | rfl | rfl | rfl | rfl | rfl | rfl <;>
      first
      | (refine prim ?_; simp [primaryType]; done)
      | (exact .inr (.inr (.inl rfl)))
      | (exact .inr (.inr (.inr (.inl rfl))))
      | (exact .inr (.inl (by decide +kernel)))
  | num v => exact prim (by simp [primaryType])
  | str v => exact prim (by simp [primaryType])
  | regex v f => exact prim (by simp [primaryType])
  | template f a b => exact prim (by simp [primaryType])
  | _ => exact h.elim

theorem run_start (n : Nat) (s s' : PState) (hc : s.count ≤ 2) (h : run n .expression s = .ok none s') (L : List Tok)
    (hL : Pre L s') : ∃ x v, remaining L s' = x :: v ∧ ¬ Starts (ctxOf s.flags) x.2 := by
  obtain ⟨h1, h2⟩ := (refuses_expression n s s' rfl hc h).2 L hL
  cases hr : remaining L s' with
  | nil => exact absurd hr (h1 ⟨_, .inl rfl⟩)
  | cons x v => exact ⟨x, v, rfl, fun hx => h2 x v hr (starts_type hx)⟩

theorem run_gr : ∀ (n : Nat) (C : Ctx) (f : Fn), Gr C [] (run n f) fun o w => o = none ∨
    ∀ u v, DerL C w u v → Der C (symOf f) u v
  | 0, _, _ => fun _ _ _ _ _ hm => by cases hm
  | n + 1, C, f => body_gr ⟨⟨fun f => run_ab n f⟩, fun f => run_restores n f, fun C f => run_gr n C f, run_shun n, run_func n, run_start n,
    fun _ hf _ _ h => clause_some hf h, fun _ _ h => default_none h⟩ f

theorem recGr (n : Nat) : RecGr (recOf n) :=
  ⟨⟨fun f => run_ab n f⟩, fun f => run_restores n f, run_gr n, run_shun n, run_func n, run_start n,
    fun _ hf _ _ h => clause_some hf h, fun _ _ h => default_none h⟩

/-- The tokens a successful `parse_module` has consumed. -/
theorem parseModule_program {n : Nat} {t0 : Tokenizer} (hv : Valid t0) {s s' : PState}
    (hs : Inv t0 s) (h0 : s.log = []) (hf : ctxOf s.flags = {})
    (h : parseModule (recOf n) s = .ok () s') : Program (s'.log.map Look.seen) := by
  have key : Gr {} [] (parseModule (recOf n)) fun _ w => fits (.nt .Module) w = true := by
    have hr := recGr n
    unfold parseModule
    gr
  have hp := parseModule_spec hv n hs
  rw [h] at hp
  obtain ⟨s1, h1, -, -, h2, rfl⟩ := hp
  obtain ⟨w, hw, hd⟩ := key s s _ _ (.refl hs.count hf) h
  have hbuf : buf (popState s1) = [] := buf_zero (by simp [popState, h2])
  have hL : Pre ((popState s1).log.map Look.seen) (popState s1) := by
    unfold Pre
    rw [hbuf, List.append_nil]
    exact List.prefix_rfl
  have := fits_sound hw (hd.der _ hL)
  unfold remaining at this
  rw [h0] at this
  have hd : List.drop (popState s1).log.length ((popState s1).log.map Look.seen) = [] :=
    List.drop_of_length_le (by rw [List.length_map])
  rw [hd] at this
  exact this

end

end Jsparse
