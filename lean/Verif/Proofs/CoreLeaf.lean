import Verif.Proofs.Core

/-!
# The meaning of the nonterminals on core tokens
-/

namespace Jsparse.Core

open Spec NT

/-- A declarator; a name without initializer, or the block of an arrow function, may be followed by a token that
continues expressions. -/
def Declr (C : Ctx) (b : Bool) (u v : List Tok) : Prop :=
  F C (.declr b) u v ∧ (Stops C 1 v ∨ F C (.openDeclrs b) u v)

/-- Declarators. -/
def Declrs (C : Ctx) (b : Bool) (u v : List Tok) : Prop :=
  F C (.declrs b b) u v ∧ (Stops C 1 v ∨ F C (.openDeclrs b) u v)

/-- Perhaps with `static` in front. -/
def Static (R : List Tok → List Tok → Prop) (u v : List Tok) : Prop := R u v ∨ ∃ l u', u = kw l b!"static" :: u' ∧ R u' v

/-- The parameters and the body of an async function. -/
def AsyncRest (C : Ctx) (u v : List Tok) : Prop := ∃ l l' u' u'', u = pt l .parenOpen :: u' ∧
  F { C with yield := false } .params u' (pt l' .parenClose :: u'') ∧ F { C with await := true, yield := false } .block u'' v

/-- The text does not begin with `async`. -/
def NotAsync (u : List Tok) : Prop := ∀ l u', u ≠ kw l b!"async" :: u'

/-- Declarations of functions; the name may be missing. -/
inductive FuncDecl (C : Ctx) : List Tok → List Tok → Prop
  | func {l l' n u v} : Named true C n → F { C with await := false, yield := false } .function u v →
      FuncDecl C (kw l b!"function" :: kw l' n :: u) v
  | gen {l l' l'' n u v} : Named true C n → F { C with await := false, yield := true } .function u v →
      FuncDecl C (kw l b!"function" :: pt l' .star :: kw l'' n :: u) v
  | funcAnon {l u v} : C.default = true → F { C with await := false, yield := false } .function u v →
      FuncDecl C (kw l b!"function" :: u) v
  | genAnon {l l' u v} : C.default = true → F { C with await := false, yield := true } .function u v →
      FuncDecl C (kw l b!"function" :: pt l' .star :: u) v
  | async {l l' n u v} : Named true C n → AsyncRest C u v →
      FuncDecl C (kw l b!"async" :: kw false b!"function" :: kw l' n :: u) v
  | asyncAnon {l u v} : C.default = true → AsyncRest C u v →
      FuncDecl C (kw l b!"async" :: kw false b!"function" :: u) v

/-- Declarations of classes; the name may be missing. -/
inductive ClassDecl (C : Ctx) : List Tok → List Tok → Prop
  | name {l l' n u v} : Named true C n → F C .classTail u v → ClassDecl C (kw l b!"class" :: kw l' n :: u) v
  | anon {l u v} : C.default = true → F C .classTail u v → ClassDecl C (kw l b!"class" :: u) v

/-- `name`, or `name as name` -/
def Specifier (u v : List Tok) : Prop := ∃ l n u', u = kw l n :: u' ∧ (u' = v ∨ ∃ l' l'' n', u' = kw l' b!"as" :: kw l'' n' :: v)

/-- Declarations of variables behind their keyword. -/
def VarDecl (C : Ctx) (b : Bool) (u v : List Tok) : Prop := Fresh v →
  (∃ w, F C (.declrs b b) u w ∧ Semi w v) ∨
    (∃ x v', v = x :: v' ∧ F C (.openDeclrs b) u (x :: v') ∧ x.1 = true ∧
      x.2 ∉ [Token.punct .comma, .punct .eq, .punct .semicolon]) ∨
    C.in_ = false ∧ ∃ v', v = kw true b!"in" :: v' ∧ F C (.declrs b b) u v

theorem FuncDecl.item {C : Ctx} {u v : List Tok} (h : FuncDecl C u v) (hu : NotAsync u) : F C .item u v := by
  cases h with
  | func hn h => exact .funcDecl hn h
  | gen hn h => exact .genDecl hn h
  | funcAnon hd h => exact .funcAnon rfl hd h
  | genAnon hd h => exact .genAnon rfl hd h
  | async | asyncAnon => exact absurd rfl (hu _ _)

theorem ClassDecl.item {C : Ctx} {u v : List Tok} (h : ClassDecl C u v) : F C .item u v := by
  cases h with
  | name hn h => exact .classDecl hn h
  | anon hd h => exact .classAnon rfl hd h

/-- What a nonterminal derives on core tokens, in terms of the fragment. -/
@[reducible] def Leaf : NT → Ctx → List Tok → List Tok → Prop
  | Module, C, u, v => v = [] → F C .program u []
  | ModuleItem, C, u, v => Fresh v → F C .moduleItem u v
  | StatementListItem, C, u, v => Fresh v → F C .item u v
  | Declaration, C, u, v => Fresh v → F C .item u v
  | FunctionDeclaration, C, u, v => FuncDecl C u v
  | LetDeclaration, C, u, v => ∃ l u', u = kw l b!"let" :: u' ∧ VarDecl C false u' v
  | ConstDeclaration, C, u, v => ∃ l u', u = kw l b!"const" :: u' ∧ VarDecl C true u' v
  | Statement, C, u, v => Fresh v → F C .stmt u v
  | VariableStatement, C, u, v => ∃ l u', u = kw l b!"var" :: u' ∧ VarDecl { C with in_ := true } false u' v
  | IfStatement, C, u, v => Fresh v → F C .stmt u v
  | BreakableStatement, C, u, v => Fresh v → F C .stmt u v
  | IterationStatement, C, u, v => Fresh v → F C .stmt u v
  | DoWhile, C, u, v => Fresh v → F C .stmt u v
  | While, C, u, v => Fresh v → F C .stmt u v
  | For, C, u, v => Fresh v → F C .stmt u v
  | SwitchStatement, C, u, v => Fresh v → F C .stmt u v
  | ContinueStatement, C, u, v => Fresh v → F C .stmt u v
  | BreakStatement, C, u, v => Fresh v → F C .stmt u v
  | ReturnStatement, C, u, v => Fresh v → F C .stmt u v
  | WithStatement, C, u, v => Fresh v → F C .stmt u v
  | TryStatement, C, u, v => Fresh v → F C .stmt u v
  | DebuggerStatement, C, u, v => Fresh v → F C .stmt u v
  | Block, C, u, v => F C .block u v
  | LabelledStatement, C, u, v => ∃ l n l' u', u = kw l n :: pt l' .colon :: u' ∧ (Fresh v → F C .stmt u' v)
  | ExpressionStatement, C, u, v => Fresh v → (∃ u', Expr { C with in_ := true } u u' ∧ Semi u' v) ∨
      ∃ x v', v = x :: v' ∧ ExprOpen { C with in_ := true } u v ∧ x.1 = true ∧ x.2 ≠ .punct .semicolon
  | ThrowStatement, C, u, v => Fresh v → F C .stmt u v
  | CaseClause, C, u, v => ∃ l l' u₁ u₂, u = kw l b!"case" :: u₁ ∧ Expr { C with in_ := true } u₁ (pt l' .colon :: u₂) ∧
      (Fresh v → F C .items u₂ v)
  | DefaultClause, C, u, v => ∃ l l' u₁, u = kw l b!"default" :: pt l' .colon :: u₁ ∧ (Fresh v → F C .items u₁ v)
  | VariableDeclaration, C, u, v => Declr C false u v
  | LexicalBinding b, C, u, v => Declr C b u v
  | BindingPattern, C, u, v => F C .pattern u v
  | ObjectBindingPattern, C, u, v => F C .pattern u v
  | ArrayBindingPattern, C, u, v => F C .pattern u v
  | BindingProperty, C, u, v => F C .binding u v
  | BindingElement, C, u, v => F C .element u v
  | BindingRestElement, C, u, v => ∃ l u', u = pt l .ellipsis :: u' ∧ F C .target u' v
  | Initializer, C, u, v => ∃ l u', u = pt l .eq :: u' ∧ Assigned C u' v
  | PropertyName, C, u, v => F C .key u v
  | FunctionExpression, C, u, v => NotAsync u → Prim C u v
  | FunctionRest false g, C, u, v => F { C with await := false, yield := g } .function u v
  | FunctionRest true _, C, u, v => AsyncRest C u v
  | FormalParameters, C, u, v => ∃ l l' u', u = pt l .parenOpen :: u' ∧ F C .params u' (pt l' .parenClose :: v)
  | ClassDeclaration, C, u, v => ClassDecl C u v
  | ClassHeritage, C, u, v => ∃ l u', u = kw l b!"extends" :: u' ∧ Left C true u' v
  | ClassBody, C, u, v => ∃ l l' u', u = pt l .curlyOpen :: u' ∧ F C .elements u' (pt l' .curlyClose :: v)
  | ClassElement, C, u, v => (∃ l, u = pt l .semicolon :: v) ∨ Static (F C .method) u v
  | NT.MethodHead .none false false, C, u, v => Static (fun u v => NotNext b!"async" u ∧ F C .key u v) u v
  | NT.MethodHead .none true false, C, u, v => Static (fun u v => ∃ l u', u = pt l .star :: u' ∧ F C .key u' v) u v
  | NT.MethodHead .none false true, C, u, v =>
      Static (fun u v => ∃ l u', u = kw l b!"async" :: u' ∧ (u' = v ∨ NoLine u' ∧ F C .key u' v)) u v
  | NT.MethodHead .get false false, C, u, v => Static (fun u v => ∃ l u', u = kw l b!"get" :: u' ∧ F C .key u' v) u v
  | NT.MethodHead .get true false, C, u, v =>
      Static (fun u v => ∃ l l' u', u = kw l b!"get" :: pt l' .star :: u' ∧ F C .key u' v) u v
  | NT.MethodHead .set false false, C, u, v => Static (fun u v => ∃ l u', u = kw l b!"set" :: u' ∧ F C .key u' v) u v
  | NT.MethodHead .set true false, C, u, v =>
      Static (fun u v => ∃ l l' u', u = kw l b!"set" :: pt l' .star :: u' ∧ F C .key u' v) u v
  | NT.MethodTail .get _ _, C, u, v => ∃ l l' u', u = pt l .parenOpen :: pt l' .parenClose :: u' ∧ F C .block u' v
  | NT.MethodTail .set _ _, C, u, v => ∃ l l' u' u'', u = pt l .parenOpen :: u' ∧ F C .target u' (pt l' .parenClose :: u'') ∧
      F C .block u'' v
  | NT.MethodTail .none _ true, C, u, v => AsyncRest C u v
  | NT.MethodTail .none g false, C, u, v => F { C with await := false, yield := g } .function u v
  | Expression, C, u, v => Expr C u v ∧ ∃ x v', v = x :: v' ∧ (Forward.Low 0 (Forward.rank C.in_ x) ∨ ExprOpen C u v) ∧ Spec.Core x
  | AssignmentExpression, C, u, v => Assigned C u v
  | YieldExpression, C, u, v => Assigned C u v
  | ArrowBody, C, u, v => F C .block u v ∨ ∃ x u', u = x :: u' ∧ x.2 ≠ .punct .curlyOpen ∧ Assigned C u v
  | ConditionalExpression, C, u, v => (Binary C u v ∧ Stops C 2 v) ∨ ((∀ f, ∃ g, F C (.cond f g) u v) ∧ Stops C 1 v) ∨
      CondOpen C u v
  | BinaryExpression, C, u, v => Binary C u v ∧ Stops C 4 v
  | UnaryExpression, C, u, v => Unary C u v ∧ Stops C 4 v
  | UpdateExpression, C, u, v => Update C u v ∧ Stops C 4 v
  | LeftHandSideExpression c, C, u, v => Left C c u v ∧ Stops C (Forward.lhsBound c) v
  | Arguments, C, u, v => ∃ l l' u', u = pt l .parenOpen :: u' ∧ Args { C with in_ := true } u' (pt l' .parenClose :: v)
  | PrimaryExpression, C, u, v => Prim C u v
  | ArrayLiteral, C, u, v => Prim C u v
  | ObjectLiteral, C, u, v => Prim C u v
  | CoverParenthesized, C, u, v => Prim C u v
  | ArrayElement, C, u, v => u = v ∨ Value C u v ∨ ∃ l u', u = pt l .ellipsis :: u' ∧ NotRegex u' ∧ Value C u' v
  | PropertyDefinition, C, u, v => F C .prop u v
  | ImportDeclaration, C, u, v => F C .moduleItem u v
  | ExportDeclaration, C, u, v => Fresh v → F C .moduleItem u v
  | ImportSpecifier, _, u, v => Specifier u v
  | ExportSpecifier, _, u, v => Specifier u v
  | TemplateLiteral, C, u, v => (∃ l x y, u = (l, .template .noSubstitution x y) :: v) ∨
      ∃ l x y u', u = (l, .template .head x y) :: u' ∧ F C .template u' v
  -- not reached
  | _, _, _, _ => True

section
variable {C : Ctx} {u v w : List Tok}

theorem i_word {k : Bytes} (h : I Leaf (.t (.kw k)) C u v) : ∃ l, u = kw l k :: v ∧ CoreList (kw l k :: v) := by
  obtain ⟨l, x, rfl, rfl, h⟩ := h
  exact ⟨l, rfl, h⟩

theorem i_punct {q : Punct} (h : I Leaf (.t (.p q)) C u v) : ∃ l, u = pt l q :: v ∧ q ∉ leftOutPunctuators := by
  obtain ⟨l, x, rfl, rfl, h⟩ := h
  exact ⟨l, rfl, core_punct h.head⟩

theorem i_gone {q : Punct} (h : I Leaf (.t (.p q)) C u v) (hq : q ∈ leftOutPunctuators) : False := by
  obtain ⟨l, -, h⟩ := i_punct h
  exact h hq

theorem i_binding (h : I Leaf (.t .binding) C u v) : ∃ l n, u = kw l n :: v ∧ Named true C n := by
  obtain ⟨l, x, rfl, ⟨n, rfl, hn⟩, h⟩ := h
  exact ⟨l, n, rfl, named_of hn⟩

theorem i_nt {n : NT} (hC : CtxOk C) (h : I Leaf (.nt n) C u v) : Leaf n C u v := h.2 hC

theorem i_in {b : Bool} {n : NT} (hC : CtxOk C) (h : I Leaf (.par .in b (.nt n)) C u v) : Leaf n { C with in_ := b } u v :=
  h.2 (ctxOk_in.2 hC)

theorem i_paren (hC : CtxOk C) (h : I Leaf G.paren C u v) : ∃ l l' u',
    u = pt l .parenOpen :: u' ∧ Expr { C with in_ := true } u' (pt l' .parenClose :: v) := by
  obtain ⟨_, h1, _, h2, h3⟩ := h
  obtain ⟨l, rfl, -⟩ := i_punct h1
  obtain ⟨l', rfl, -⟩ := i_punct h3
  exact ⟨l, l', _, rfl, (i_in hC h2).1⟩

theorem i_target (hC : CtxOk C) (h : I Leaf G.patternOrName C u v) : F C .target u v := by
  rcases h with h | h
  · exact .targetPattern (i_nt hC h)
  · obtain ⟨l, n, rfl, hn⟩ := i_binding h
    exact .targetName hn

/-! ## Programs and statements -/

theorem fresh_starts {b : Bool} {x : Tok} (h : Forward.Starts b x.2) : Fresh (x :: u) := by
  refine fresh_cons.2 fun hm => ?_
  obtain ⟨l, t⟩ := x
  cases t with
  | punct q =>
    have hm : q ∈ oddPuncts := hm
    simp only [oddPuncts, List.mem_cons, List.not_mem_nil, or_false] at hm
    rcases hm with rfl | rfl | rfl | rfl | rfl | rfl <;> exact h.punct (by decide) rfl
  | template f => cases f <;> first | exact hm | exact h
  | _ => exact hm

theorem fresh_stmt (h : F C .stmt u v) : Fresh u := by
  cases h with
  | blockStmt h => cases h; exact fresh_pt
  | empty => exact fresh_pt
  | exprStmt _ _ _ h => exact fresh_starts (Forward.headIs_cons.1 (Forward.heads h rfl))
  | exprStmtOpen _ _ h => exact fresh_starts (Forward.headIs_cons.1 (Forward.heads h rfl))
  | _ => exact fresh_kw

theorem fresh_item (h : F C .item u v) : Fresh u := by
  cases h with
  | itemStmt h => exact fresh_stmt h
  | _ => exact fresh_kw

theorem fresh_moduleItem (h : F C .moduleItem u v) : Fresh u := by
  cases h with
  | moduleItem h => exact fresh_item h
  | _ => exact fresh_kw

theorem leaf_Module (hC : CtxOk C) (h : I Leaf (production Module) C u v) : Leaf Module C u v := by
  rintro rfl
  obtain ⟨w, h1, l, x, rfl, rfl, -⟩ := h
  refine .program (l := l) (h1.fold (S := fun u v => Fresh v → F C .moduleItems u v ∧ Fresh u) (fun h => ⟨.moduleItemsNil, h⟩)
    (fun _ _ h ih hv => ?_) (fresh_cons.2 (show ¬ Odd Token.eof from id))).1
  have h' := i_nt hC h (ih hv).2
  exact ⟨.moduleItemsCons h' (ih hv).1, fresh_moduleItem h'⟩

theorem leaf_ModuleItem (hC : CtxOk C) (h : I Leaf (production ModuleItem) C u v) : Leaf ModuleItem C u v := by
  rcases h with h | h | h
  · exact fun hv => .moduleItem (i_nt hC h hv)
  · exact fun _ => i_nt hC h
  · exact i_nt hC h

theorem leaf_StatementListItem (hC : CtxOk C) (h : I Leaf (production StatementListItem) C u v) :
    Leaf StatementListItem C u v := by
  rcases h with h | ⟨_, ⟨rfl, x, w, rfl, hx, -⟩, h⟩
  · exact i_nt hC h
  · refine fun hv => .itemStmt (i_nt hC h hv) ?_
    rintro y u' h
    cases h
    exact hx

theorem notAsync_of {x : Tok} (hx : x.2 ∉ [Token.ident b!"async"]) : NotAsync (x :: u) := by
  intro l u' h
  cases h
  exact hx (List.mem_singleton.2 rfl)

theorem leaf_Declaration (hC : CtxOk C) (h : I Leaf (production Declaration) C u v) : Leaf Declaration C u v := by
  intro hv
  rcases h with h | ⟨_, ⟨rfl, x, w, rfl, hx, -⟩, h⟩ | h | h
  · exact ClassDecl.item (i_nt hC h)
  · exact FuncDecl.item (i_nt hC h) (notAsync_of hx)
  · obtain ⟨l, u', rfl, hd⟩ := i_nt hC h
    rcases hd hv with ⟨w, hd, hs⟩ | ⟨x, v', rfl, ho, hl, hx⟩ | ⟨hi, v', rfl, hd⟩
    · exact .letDecl hd hs
    · exact .letOpen ho hl hx
    · exact .letIn rfl hi hd
  · obtain ⟨l, u', rfl, hd⟩ := i_nt (n := ConstDeclaration) hC h
    rcases hd hv with ⟨w, hd, hs⟩ | ⟨x, v', rfl, ho, hl, hx⟩ | ⟨hi, v', rfl, hd⟩
    · exact .constDecl hd hs
    · exact .constOpen ho hl hx
    · exact .constIn rfl hi hd

theorem leaf_Statement (hC : CtxOk C) (hu : CoreList u) (h : I Leaf (production Statement) C u v) : Leaf Statement C u v := by
  intro hv
  rcases h with h | h | h | h | h | h | h | h | h | h | h | h | ⟨_, ⟨rfl, x, w, rfl, hx, -⟩, h⟩
  · exact .blockStmt (i_nt hC h)
  · obtain ⟨l, rfl, -⟩ := i_punct h
    exact .empty
  · obtain ⟨l, u', rfl, hd⟩ := i_nt hC h
    rcases hd hv with ⟨w, hd, hs⟩ | ⟨x, v', rfl, ho, hl, hx⟩ | ⟨hi, -⟩
    · exact .var hd hs
    · exact .varOpen ho hl hx
    · cases hi
  · exact i_nt hC h hv
  · exact i_nt hC h hv
  · exact i_nt hC h hv
  · exact i_nt hC h hv
  · exact i_nt hC h hv
  · exact i_nt hC h hv
  · exact i_nt hC h hv
  · exact i_nt hC h hv
  · exact i_nt hC h hv
  · rcases h with h | h
    · obtain ⟨l, n, l', u', h', hl⟩ := i_nt hC h
      cases h'
      exact .labelAny rfl hx (hl hv)
    · have hx' : x.2 ≠ .punct .curlyOpen := by
        obtain ⟨l, t⟩ := x
        rintro rfl
        exact hx (show Token.punct .curlyOpen ∈ statementWords by decide)
      rcases i_nt hC h hv with ⟨u', h, hs⟩ | ⟨y, v', rfl, h, hy⟩
      · exact .exprStmt hx' nofun hu.notRegex (h _) hs
      · exact .exprStmtOpen hx' hu.notRegex (h _) hy.1 hy.2 fun h' => fresh_cons.1 hv (h' ▸ by decide)

theorem i_items (hC : CtxOk C) (h : I Leaf (.star (.nt StatementListItem)) C u v) : Fresh v → F C .items u v := by
  intro hv
  refine (Rep.fold (S := fun u v => Fresh v → F C .items u v ∧ Fresh u) h (fun h => ⟨.itemsNil, h⟩)
    (fun _ _ h ih hv => ?_) hv).1
  have h' := i_nt hC h (ih hv).2
  exact ⟨.itemsCons h' (ih hv).1, fresh_item h'⟩

theorem leaf_Block (hC : CtxOk C) (h : I Leaf (production Block) C u v) : Leaf Block C u v := by
  obtain ⟨_, h1, _, h2, h3⟩ := h
  obtain ⟨l, rfl, -⟩ := i_punct h1
  obtain ⟨l', rfl, -⟩ := i_punct h3
  exact .block (i_items hC h2 fresh_pt)

theorem notAhead_ne {q : Punct} {x : Tok} (h : x.2 ∉ [Token.punct q]) : x.2 ≠ .punct q := fun h' => h (List.mem_singleton.2 h')

/-- One declaration or several. -/
theorem i_declrs {b : Bool} {g : G} {C' : Ctx} (hg : ∀ {u v}, I Leaf g C u v → Declr C' b u v) (h1 : I Leaf g C u w)
    (h2 : I Leaf (.star (.seq (.p .comma) g)) C w v) : Declrs C' b u v := by
  replace h2 : Rep (fun u v => ∃ l u', u = pt l .comma :: u' ∧ Declr C' b u' v) w v := Rep.mono h2 fun u v h => by
    obtain ⟨_, h1, h2⟩ := h
    obtain ⟨l, rfl, -⟩ := i_punct h1
    exact ⟨l, _, rfl, hg h2⟩
  replace h1 := hg h1
  induction h2 generalizing u with
  | nil => exact ⟨.declrsLast h1.1, h1.2⟩
  | cons h _ ih =>
    obtain ⟨l, u', rfl, h⟩ := h
    have ih := ih h
    exact ⟨.declrsCons h1.1 ih.1, ih.2.imp_right fun h => .openCons h1.1 h⟩

theorem rank_drop {a : Bool} {x : Tok} {k k' : Nat} (h : Forward.rank a x ≤ k) (hk : ∀ m, k' < m → m ≤ k → Forward.rank a x ≠ m) :
    Forward.rank a x ≤ k' := by
  by_cases h' : Forward.rank a x ≤ k'
  · exact h'
  · exact absurd rfl (hk _ (by omega) h)

theorem rank_eq {a l : Bool} {t : Token} {m : Nat} (h : Forward.rank a (l, t) = m) (hm : m ≠ 0) :
    (∃ q, t = .punct q ∧ Forward.rank a (l, .punct q) = m) ∨
    (t = .ident b!"instanceof" ∨ t = .ident b!"in" ∧ a = true) ∧ m = 4 ∨ ((∀ l, ¬ Spec.Core (l, t)) ∨ BeginsTemplate t ∧ m = 7) ∧ 7 ≤ m := by
  cases t with
  | punct q => exact .inl ⟨q, rfl, h⟩
  | ident n =>
    refine .inr (.inl ?_)
    simp only [Forward.rank] at h
    split at h
    · subst n
      exact ⟨.inl rfl, h.symm⟩
    · split at h
      · subst n
        split at h
        · exact ⟨.inr ⟨rfl, ‹_›⟩, h.symm⟩
        · exact absurd h.symm hm
      · exact absurd h.symm hm
  | template f => cases f <;> first | exact absurd h.symm hm | exact .inr (.inr ⟨.inr ⟨trivial, h.symm⟩, h ▸ Nat.le_refl _⟩)
  | regex => exact .inr (.inr ⟨.inl fun _ => id, h ▸ (show 7 ≤ 8 by decide)⟩)
  | _ => exact absurd h.symm hm

theorem low_drop {k k' r : Nat} (h : Forward.Low k r) (hk : r ≤ k → r ≤ k') (h' : k' ≤ 4 := by omega) : Forward.Low k' r :=
  h.imp hk fun h => ⟨h', h.2⟩

theorem rank_comma {a : Bool} {x : Tok} (h : Forward.Low 1 (Forward.rank a x)) (hx : x.2 ≠ .punct .comma) :
    Forward.Low 0 (Forward.rank a x) := by
  obtain ⟨l, t⟩ := x
  refine low_drop h fun h => rank_drop h fun m h1 h2 hm => ?_
  obtain rfl : m = 1 := by omega
  rcases rank_eq hm (by decide) with ⟨q, rfl, hq⟩ | ⟨-, h⟩ | ⟨-, h⟩
  · revert hq hx
    cases a <;> cases l <;> cases q <;> decide
  · cases h
  · omega

theorem rank_assign {a : Bool} {x : Tok} (h : Forward.Low 2 (Forward.rank a x)) (hx : x.2 ∉ assigners) :
    Forward.Low 1 (Forward.rank a x) := by
  obtain ⟨l, t⟩ := x
  refine low_drop h fun h => rank_drop h fun m h1 h2 hm => ?_
  obtain rfl : m = 2 := by omega
  rcases rank_eq hm (by decide) with ⟨q, rfl, hq⟩ | ⟨-, h⟩ | ⟨-, h⟩
  · revert hq hx
    cases a <;> cases l <;> cases q <;> decide
  · cases h
  · omega

theorem rank_cond {a : Bool} {x : Tok} (h : Forward.Low 3 (Forward.rank a x)) (hx : x.2 ≠ .punct .question) :
    Forward.Low 2 (Forward.rank a x) := by
  obtain ⟨l, t⟩ := x
  refine low_drop h fun h => rank_drop h fun m h1 h2 hm => ?_
  obtain rfl : m = 3 := by omega
  rcases rank_eq hm (by decide) with ⟨q, rfl, hq⟩ | ⟨-, h⟩ | ⟨-, h⟩
  · revert hq hx
    cases a <;> cases l <;> cases q <;> decide
  · cases h
  · omega

theorem rank_binary {a : Bool} {x : Tok} (h : Forward.Low 4 (Forward.rank a x)) (hx : x.2 ∉ operators)
    (hi : a = true → x.2 ≠ .ident b!"in") : Forward.Low 3 (Forward.rank a x) := by
  obtain ⟨l, t⟩ := x
  refine low_drop h fun h => rank_drop h fun m h1 h2 hm => ?_
  obtain rfl : m = 4 := by omega
  rcases rank_eq hm (by decide) with ⟨q, rfl, hq⟩ | ⟨rfl | ⟨rfl, ha⟩, -⟩ | ⟨-, h⟩
  · revert hq hx
    clear hi
    cases a <;> cases l <;> cases q <;> decide
  · exact hx (List.mem_cons_self ..)
  · exact hi ha rfl
  · omega

theorem rank_update {a : Bool} {x : Tok} (h : Forward.rank a x ≤ 5)
    (hx : x.2 = .punct .plusPlus ∨ x.2 = .punct .minusMinus → x.1 = true) : Forward.rank a x ≤ 4 := by
  obtain ⟨l, t⟩ := x
  refine rank_drop h fun m h1 h2 hm => ?_
  obtain rfl : m = 5 := by omega
  rcases rank_eq hm (by decide) with ⟨q, rfl, hq⟩ | ⟨-, h⟩ | ⟨-, h⟩
  · revert hq hx
    cases a <;> cases l <;> cases q <;> decide
  · cases h
  · omega

theorem ended_of {a : Bool} {x : Tok} (h : Forward.rank a x ≤ 4) : Ended (x :: w) := by
  rintro y v' hy hc
  cases hy
  obtain ⟨l, t⟩ := x
  cases t with
  | punct q =>
    cases q <;> first
      | exact hc.elim
      | (cases (show l = false from hc); revert h; simp [Forward.rank, assignmentOperators, binaryOperators]; done)
      | (revert h; simp [Forward.rank, assignmentOperators, binaryOperators]; done)
  | template f => cases f <;> first | exact hc.elim | (revert h; simp [Forward.rank]; done)
  | _ => exact hc.elim

theorem rank_core {a : Bool} {x : Tok} (hc : Spec.Core x) : Forward.Low 4 (Forward.rank a x) := by
  by_cases h : Forward.rank a x ≤ 4
  · exact .of h
  refine .inr ⟨Nat.le_refl _, by omega, Nat.le_of_not_lt fun h8 => ?_⟩
  obtain ⟨l, t⟩ := x
  rcases rank_eq (a := a) (l := l) (t := t) rfl (by omega) with ⟨q, rfl, hq⟩ | ⟨-, h⟩ | ⟨h, -⟩
  · revert h8
    clear hc h hq
    cases a <;> cases l <;> cases q <;> decide
  · omega
  · exact h.elim (fun h => h _ hc) fun h => by omega

theorem rank_le8 {a : Bool} {x : Tok} : Forward.rank a x ≤ 8 := by
  unfold Forward.rank
  repeat' split
  all_goals omega

theorem rank_left {a c : Bool} {x : Tok} (hc : Spec.Core x) (hx : x.2 ∉ [Token.punct .period, .punct .squareOpen])
    (ht : ¬ BeginsTemplate x.2) (hp : c = true → x.2 ≠ .punct .parenOpen) : Forward.rank a x ≤ Forward.lhsBound c := by
  obtain ⟨l, t⟩ := x
  refine rank_drop (k := 8) rank_le8 fun m h1 h2 hm => ?_
  have h5 : 5 < m := by
    revert h1
    cases c <;> simp only [Forward.lhsBound] <;> intro h1 <;> simp at h1 <;> omega
  rcases rank_eq hm (by omega) with ⟨q, rfl, hq⟩ | ⟨-, h⟩ | ⟨h, -⟩
  · subst hq
    revert h1 h5 hx hp
    clear hc h2 hm ht
    cases a <;> cases c <;> cases l <;> cases q <;> decide
  · omega
  · exact h.elim (fun h => h _ hc) fun h => ht h.1

theorem Stops.comma {x : Tok} (h : Stops C 1 (x :: w)) (hx : x.2 ≠ .punct .comma) : Stops C 0 (x :: w) :=
  stops_cons.2 (rank_comma (stops_cons.1 h) hx)

/-- A semicolon behind declarators. -/
theorem Declrs.semi {b : Bool} (h : Declrs C b u w) (hw : w.head?.map Prod.snd ≠ some (.punct .comma)) (hs : RawSemi w v)
    (hc : CoreList w) (hv : Fresh v) : Semi w v ∨
    (∃ x w', v = x :: w' ∧ F C (.openDeclrs b) u (x :: w') ∧ x.1 = true ∧
      x.2 ∉ [Token.punct .comma, .punct .eq, .punct .semicolon]) ∨
    C.in_ = false ∧ ∃ v', v = kw true b!"in" :: v' ∧ F C (.declrs b b) u v := by
  obtain ⟨hd, h | h⟩ := h
  · cases hs with
    | token => exact .inl .token
    | @insert x w hs =>
      have h := stops_cons.1 (h.comma fun h => hw (by simp [h]))
      by_cases hx : x.2 = .ident b!"in" ∧ C.in_ = false
      · refine .inr (.inr ⟨hx.2, w, ?_, ?_⟩)
        · obtain ⟨l, t⟩ := x
          obtain ⟨rfl, -⟩ := hx
          rcases hs.2 with h | h | h
          · cases h; rfl
          · cases h
          · cases h
        · exact hd
      · exact .inl (.insert (inserts_of hc.head h (fresh_cons.1 hv) (fun h => by simpa [h] using hx) hs))
  · rcases hs.or with hs | ⟨y, w'', rfl, rfl, hl, hn⟩
    · exact .inl hs
    · refine .inr (.inl ⟨_, _, rfl, h, hl, ?_⟩)
      simp only [List.head?_cons, Option.map_some, ne_eq, Option.some.injEq] at hw
      have he : y.2 ≠ .punct .eq := fun h => fresh_cons.1 hv (by rw [h]; decide)
      simp [hw, hn, he]

theorem Declrs.decl {b : Bool} (h : Declrs C b u w) (hw : w.head?.map Prod.snd ≠ some (.punct .comma)) (hs : RawSemi w v)
    (hc : CoreList w) : VarDecl C b u v := fun hv =>
  (h.semi hw hs hc hv).imp_left fun hs => ⟨_, h.1, hs⟩

theorem leaf_VariableStatement (hC : CtxOk C) (h : I Leaf (production VariableStatement) C u v) :
    Leaf VariableStatement C u v := by
  obtain ⟨_, h1, _, h2, _, h3, _, ⟨rfl, x, w, rfl, hx, -⟩, h4, hc⟩ := h
  obtain ⟨l, rfl, -⟩ := i_word h1
  exact ⟨l, _, rfl, (i_declrs (i_in hC) h2 h3).decl (by simpa using notAhead_ne hx) h4 hc⟩

theorem leaf_LetDeclaration (hC : CtxOk C) (h : I Leaf (production LetDeclaration) C u v) :
    Leaf LetDeclaration C u v := by
  obtain ⟨_, h1, _, h2, _, h3, _, ⟨rfl, x, w, rfl, hx, -⟩, h4, hc⟩ := h
  obtain ⟨l, rfl, -⟩ := i_word h1
  exact ⟨l, _, rfl, (i_declrs (i_nt hC) h2 h3).decl (by simpa using notAhead_ne hx) h4 hc⟩

theorem leaf_ConstDeclaration (hC : CtxOk C) (h : I Leaf (production ConstDeclaration) C u v) :
    Leaf ConstDeclaration C u v := by
  obtain ⟨_, h1, _, h2, _, h3, _, ⟨rfl, x, w, rfl, hx, -⟩, h4, hc⟩ := h
  obtain ⟨l, rfl, -⟩ := i_word h1
  exact ⟨l, _, rfl, (i_declrs (i_nt hC) h2 h3).decl (by simpa using notAhead_ne hx) h4 hc⟩

theorem init_of (h : Leaf Initializer C u v) : F C .init u v := by
  obtain ⟨l, u', rfl, h⟩ := h
  obtain ⟨g, h⟩ := h.1 true
  exact .init h

theorem i_initializer (hC : CtxOk C) (h : I Leaf (.opt (.nt Initializer)) C u v) : u = v ∨ F C .init u v :=
  h.imp_right fun h => init_of (i_nt (n := Initializer) hC h)

theorem declr_pattern {b : Bool} (h : F C .pattern u w) (h1 : Leaf Initializer C w v) : Declr C b u v := by
  refine ⟨.declrPattern h (init_of h1), ?_⟩
  obtain ⟨l, u', rfl, -, h1⟩ := h1
  exact h1.imp_right fun h1 => .openPattern h (h1 _)

theorem declr_init {b l : Bool} {n : Bytes} (hn : Named true C n) (h1 : Leaf Initializer C u v) : Declr C b (kw l n :: u) v := by
  refine ⟨.declrInit hn (init_of h1), ?_⟩
  obtain ⟨l, u', rfl, -, h1⟩ := h1
  exact h1.imp_right fun h1 => .openInit hn (h1 _)

theorem leaf_VariableDeclaration (hC : CtxOk C) (h : I Leaf (production VariableDeclaration) C u v) :
    Leaf VariableDeclaration C u v := by
  rcases h with ⟨_, h1, h2⟩ | ⟨_, h1, h2⟩
  · exact declr_pattern (i_nt hC h1) (i_nt hC h2)
  · obtain ⟨l, n, rfl, hn⟩ := i_binding h1
    rcases h2 with h2 | ⟨rfl, x, w, rfl, hx, -⟩
    · exact declr_init hn (i_nt hC h2)
    · exact ⟨.declrName hn, .inr (.openLast hn)⟩

theorem leaf_LexicalBinding {b : Bool} (hC : CtxOk C) (h : I Leaf (production (LexicalBinding b)) C u v) :
    Leaf (LexicalBinding b) C u v := by
  cases b with
  | false => exact leaf_VariableDeclaration hC h
  | true =>
    rcases h with ⟨_, h1, h2⟩ | ⟨_, h1, h2⟩
    · exact declr_pattern (i_nt hC h1) (i_nt hC h2)
    · obtain ⟨l, n, rfl, hn⟩ := i_binding h1
      exact declr_init hn (i_nt hC h2)

/-- A semicolon behind an expression. -/
theorem expr_semi (hi : C.in_ = true) (h : Leaf Expression C u w) (hs : RawSemi w v) (hc : CoreList w) (hv : Fresh v) : Semi w v ∨
    ∃ x v', w = x :: v' ∧ v = x :: v' ∧ ExprOpen C u (x :: v') ∧ x.1 = true ∧ x.2 ≠ .punct .semicolon := by
  obtain ⟨-, x, w', rfl, hx | hx, -⟩ := h
  · exact .inl (hs.semi (C := C) hc (stops_cons.2 hx) hv hi)
  · rcases hs.or with hs | ⟨y, w'', hy, rfl, hl, hn⟩
    · exact .inl hs
    · exact .inr ⟨y, w'', hy, rfl, hy ▸ hx, hl, hn⟩

theorem leaf_ExpressionStatement (hC : CtxOk C) (h : I Leaf (production ExpressionStatement) C u v) :
    Leaf ExpressionStatement C u v := by
  intro hv
  obtain ⟨_, h1, h2, hc⟩ := h
  have h1 := i_in hC h1
  rcases expr_semi rfl h1 h2 hc hv with h | ⟨x, v', rfl, rfl, h⟩
  · exact .inl ⟨_, h1.1, h⟩
  · exact .inr ⟨x, v', rfl, h⟩

theorem notNext_of {k : Bytes} {x : Tok} (hx : x.2 ∉ [Token.ident k]) : NotNext k (x :: w) := by
  rintro l v' h
  cases h
  exact hx (List.mem_singleton.2 rfl)

theorem leaf_IfStatement (hC : CtxOk C) (h : I Leaf (production IfStatement) C u v) : Leaf IfStatement C u v := by
  obtain ⟨_, h1, _, h2, _, h3, h4⟩ := h
  obtain ⟨l, rfl, -⟩ := i_word h1
  obtain ⟨l', l'', u', rfl, hp⟩ := i_paren hC h2
  have h3 := i_nt hC h3
  intro hv
  rcases h4 with ⟨_, h4, h5⟩ | ⟨rfl, x, w, rfl, hx, -⟩
  · obtain ⟨l₁, rfl, -⟩ := i_word h4
    exact .ifElse (hp _) (h3 fresh_kw) (i_nt hC h5 hv)
  · exact .ifThen (hp _) (h3 hv) (notNext_of hx)

theorem leaf_BreakableStatement (hC : CtxOk C) (h : I Leaf (production BreakableStatement) C u v) :
    Leaf BreakableStatement C u v := by
  rcases h with h | h <;> exact i_nt hC h

theorem leaf_IterationStatement (hC : CtxOk C) (h : I Leaf (production IterationStatement) C u v) :
    Leaf IterationStatement C u v := by
  rcases h with h | h | h <;> exact i_nt hC h

theorem leaf_DoWhile (hC : CtxOk C) (h : I Leaf (production DoWhile) C u v) : Leaf DoWhile C u v := by
  obtain ⟨_, h1, _, h2, _, h3, _, h4, h5⟩ := h
  obtain ⟨l, rfl, -⟩ := i_word h1
  obtain ⟨l', rfl, -⟩ := i_word h3
  obtain ⟨l'', l₁, u', rfl, hp⟩ := i_paren hC h4
  exact fun _ => .doWhile (i_nt hC h2 fresh_kw) (hp _) h5

theorem leaf_While (hC : CtxOk C) (h : I Leaf (production While) C u v) : Leaf While C u v := by
  obtain ⟨_, h1, _, h2, h3⟩ := h
  obtain ⟨l, rfl, -⟩ := i_word h1
  obtain ⟨l'', l₁, u', rfl, hp⟩ := i_paren hC h2
  exact fun hv => .while (hp _) (i_nt hC h3 hv)

/-! ### The head of a `for` -/

/-- The constructs that do not depend on `[In]`. -/
def anyIn : FNT → Bool
  | .pattern | .bindings | .binding | .element | .target | .elisions | .key => true
  | _ => false

theorem frag_in {n : FNT} (h : F C n u v) (hn : anyIn n = true) (b : Bool) : F { C with in_ := b } n u v := by
  induction h <;> first | (cases hn; done) | skip
  case keyName => exact .keyName
  case keyStr => exact .keyStr
  case keyNum => exact .keyNum
  case keyEmpty h => exact .keyEmpty h
  case keyExpr h _ => exact .keyExpr h
  case objectPattern ih => exact .objectPattern (ih rfl)
  case arrayPattern ih => exact .arrayPattern (ih rfl)
  case bindingsNil => exact .bindingsNil
  case bindingsLast ih => exact .bindingsLast (ih rfl)
  case bindingsCons ih1 ih2 => exact .bindingsCons (ih1 rfl) (ih2 rfl)
  case targetName h => exact .targetName h
  case targetPattern ih => exact .targetPattern (ih rfl)
  case bindName h => exact .bindName h
  case bindDefault h h1 _ => exact .bindDefault h h1
  case bindAny h _ ih => exact .bindAny h (ih rfl)
  case bindAnyDefault h _ h1 ih _ => exact .bindAnyDefault h (ih rfl) h1
  case bindKey ih1 ih2 => exact .bindKey (ih1 rfl) (ih2 rfl)
  case elisionsNil => exact .elisionsNil
  case elisionsRest ih => exact .elisionsRest (ih rfl)
  case elisionsHole ih => exact .elisionsHole (ih rfl)
  case elisionsLast ih => exact .elisionsLast (ih rfl)
  case elisionsCons ih1 ih2 => exact .elisionsCons (ih1 rfl) (ih2 rfl)
  case element ih => exact .element (ih rfl)
  case elementDefault h1 ih _ => exact .elementDefault (ih rfl) h1

theorem i_forRest (hC : CtxOk C) (h : I Leaf (G.seqs [.p .semicolon, .opt (.nt Expression), .p .semicolon, .opt (.nt Expression)]) C u v) :
    F C .forRest u v := by
  obtain ⟨_, h1, _, h2, _, h3, h4⟩ := h
  obtain ⟨l, rfl, -⟩ := i_punct h1
  obtain ⟨l', rfl, -⟩ := i_punct h3
  rcases h2 with rfl | h2 <;> rcases h4 with rfl | h4
  · exact .forRest
  · exact .forRestR ((i_nt hC h4).1 _)
  · exact .forRestL ((i_nt hC h2).1 _)
  · exact .forRestLR ((i_nt hC h2).1 _) ((i_nt hC h4).1 _)

theorem i_inOf (hC : CtxOk C) (h : I Leaf inOrOf C u v) : F C .inOf u v := by
  obtain ⟨_, h1 | h1, h2⟩ := h
  all_goals
    obtain ⟨l, rfl, -⟩ := i_word h1
    obtain ⟨g, h⟩ := (i_in hC h2).1 true
    exact .inOf (by decide) h

/-- The declarators in the head of a `for`. -/
theorem i_forDeclrs {b b' : Bool} {n : NT} (hn : ∀ C u v, Leaf n C u v → Declr C b' u v) (hC : CtxOk C)
    (h1 : F { C with in_ := false } (.declr b) u w) (h2 : I Leaf (.star (.seq (.p .comma) (.notIn (.nt n)))) C w v) :
    F { C with in_ := false } (.declrs b b') u v := by
  cases h2 with
  | nil => exact .declrsLast h1
  | cons h h2 =>
    obtain ⟨_, h3, h4⟩ := h
    obtain ⟨l, rfl, -⟩ := i_punct h3
    exact .declrsCons h1 (i_declrs (fun h => hn _ _ _ (i_in hC h)) h4 h2).1

theorem i_forFirst (hC : CtxOk C) (h : I Leaf (G.alts [G.seqs [.nt BindingPattern, .notIn (.nt Initializer)],
    G.seqs [.binding, .opt (.notIn (.nt Initializer))]]) C u v) : F { C with in_ := false } (.declr false) u v := by
  rcases h with ⟨_, h1, h2⟩ | ⟨_, h1, h2⟩
  · exact .declrPattern (frag_in (i_nt hC h1) rfl _) (init_of (i_in hC h2))
  · obtain ⟨l, n, rfl, hn⟩ := i_binding h1
    rcases h2 with rfl | h2
    · exact .declrName hn
    · exact .declrInit hn (init_of (i_in hC h2))

theorem leaf_For (hC : CtxOk C) (h : I Leaf (production For) C u v) : Leaf For C u v := by
  intro hv
  obtain ⟨_, h1, _, ⟨l', _, rfl, rfl, hc⟩, _, h3, _, h4, h5⟩ := h
  obtain ⟨l, rfl, -⟩ := i_word h1
  obtain ⟨l'', rfl, -⟩ := i_punct h4
  have h5 := i_nt hC h5 hv
  rcases h3 with ⟨_, h6, _, h7, _, h8, h9⟩ | ⟨_, h6, _, ⟨_, ⟨rfl, x, w, rfl, hx, -⟩, h7⟩, _, h8, h9⟩ |
    ⟨_, h6, _, h7, _, h8, h9⟩ | ⟨_, h6, _, h7, h8⟩ | ⟨_, ⟨rfl, hd⟩, _, h6, h7⟩ | ⟨_, ⟨rfl, hd⟩, _, h6, h7⟩
  · obtain ⟨l₁, rfl, -⟩ := i_word h6
    exact .forDecl (k := .var) nofun (i_forDeclrs (fun _ _ _ h => h) hC (i_forFirst hC h7) h8) (i_forRest hC h9) h5
  · obtain ⟨l₁, rfl, -⟩ := i_word h6
    exact .forDecl (k := .let) (fun _ => notNext_of hx) (i_forDeclrs (fun _ _ _ h => h) hC (i_forFirst hC h7) h8) (i_forRest hC h9) h5
  · obtain ⟨l₁, rfl, -⟩ := i_word h6
    refine .forDecl (k := .const) nofun (i_forDeclrs (b := true) (fun _ _ _ h => h) hC ?_ h8) (i_forRest hC h9) h5
    obtain ⟨_, h1 | h1, h2⟩ := h7
    · exact .declrPattern (frag_in (i_nt hC h1) rfl _) (init_of (i_in hC h2))
    · obtain ⟨l, n, rfl, hn⟩ := i_binding h1
      exact .declrInit hn (init_of (i_in hC h2))
  · rcases h6 with h6 | h6 | ⟨_, h6, rfl, x, w, rfl, hx, -⟩
    · obtain ⟨l₁, rfl, -⟩ := i_word h6
      exact .forInDecl (k := .var) nofun (i_target hC h7) (i_inOf hC h8) h5
    · obtain ⟨l₁, rfl, -⟩ := i_word h6
      exact .forInDecl (k := .const) nofun (i_target hC h7) (i_inOf hC h8) h5
    · obtain ⟨l₁, rfl, -⟩ := i_word h6
      exact .forInDecl (k := .let) (fun _ => notNext_of hx) (i_target hC h7) (i_inOf hC h8) h5
  · rcases h6 with rfl | h6
    · exact .forPlain (i_forRest hC h7) h5
    · exact .forExpr hd ((i_in hC h6).1 _) (i_forRest hC h7) h5
  · rcases h6 with h6 | ⟨rfl, x, w, rfl, hs, -⟩
    · exact .forInAny rfl hd ((i_in hC h6).1 _) (i_inOf hC h7) h5
    · obtain ⟨_, h8 | h8, h9⟩ := h7
      · obtain ⟨l₁, h, -⟩ := i_word h8
        cases h
        obtain ⟨g, h⟩ := (i_in hC h9).1 false
        exact .forInNone rfl h h5
      · obtain ⟨l₁, h, -⟩ := i_word h8
        cases h
        exact absurd (.inr ⟨by decide, by decide, fun h => absurd h (by decide), fun _ => by decide⟩) hs

theorem leaf_With (hC : CtxOk C) (h : I Leaf (production WithStatement) C u v) : Leaf WithStatement C u v := by
  obtain ⟨_, h1, _, h2, h3⟩ := h
  obtain ⟨l, rfl, -⟩ := i_word h1
  obtain ⟨l'', l₁, u', rfl, hp⟩ := i_paren hC h2
  exact fun hv => .with (hp _) (i_nt hC h3 hv)

theorem i_clauses (hC : CtxOk C) (h : I Leaf (.star (.nt CaseClause)) C u v) (hv : Fresh v) :
    (F C (.clauses false) u v ∧ F C (.clauses true) u v) ∧ Fresh u := by
  refine Rep.fold (S := fun u v => Fresh v → (F C (.clauses false) u v ∧ F C (.clauses true) u v) ∧ Fresh u) h
    (fun hv => ⟨⟨.clausesNil, .clausesNil⟩, hv⟩) ?_ hv
  intro u w h ih hv
  obtain ⟨l, l', u₁, u₂, rfl, h1, h2⟩ := i_nt hC h
  have ih := ih hv
  have h2 := h2 ih.2
  exact ⟨⟨.clausesCase (h1 _) h2 ih.1.1, .clausesCase (h1 _) h2 ih.1.1⟩, fresh_kw⟩

theorem leaf_SwitchStatement (hC : CtxOk C) (h : I Leaf (production SwitchStatement) C u v) : Leaf SwitchStatement C u v := by
  intro hv
  obtain ⟨_, h1, _, h2, _, h3, _, h4, _, h5, h6⟩ := h
  obtain ⟨l, rfl, -⟩ := i_word h1
  obtain ⟨l', l'', u', rfl, hp⟩ := i_paren hC h2
  obtain ⟨l₁, rfl, -⟩ := i_punct h3
  obtain ⟨l₂, rfl, -⟩ := i_punct h6
  have h5 := i_clauses hC h5 fresh_pt
  refine .switch (hp _) (l₂ := l₂) ?_
  rcases h4 with rfl | h4
  · exact h5.1.2
  · obtain ⟨k, k', u₁, rfl, hd⟩ := i_nt hC h4
    exact .clausesDefault (hd h5.2) h5.1.1

theorem leaf_CaseClause (hC : CtxOk C) (h : I Leaf (production CaseClause) C u v) : Leaf CaseClause C u v := by
  obtain ⟨_, h1, _, h2, _, h3, h4⟩ := h
  obtain ⟨l, rfl, -⟩ := i_word h1
  obtain ⟨l', rfl, -⟩ := i_punct h3
  exact ⟨l, l', _, _, rfl, (i_in hC h2).1, i_items hC h4⟩

theorem leaf_DefaultClause (hC : CtxOk C) (h : I Leaf (production DefaultClause) C u v) : Leaf DefaultClause C u v := by
  obtain ⟨_, h1, _, h3, h4⟩ := h
  obtain ⟨l, rfl, -⟩ := i_word h1
  obtain ⟨l', rfl, -⟩ := i_punct h3
  exact ⟨l, l', _, rfl, i_items hC h4⟩

theorem i_jump {k : Bytes} (hk : k ∈ [b!"break", b!"continue"])
    (h : I Leaf (.seq (.kw k) (.seq (.opt (.seq .noLine (.opt .binding))) .semi)) C u v) : F C .stmt u v := by
  obtain ⟨_, h1, _, h2, h3, -⟩ := h
  obtain ⟨l, rfl, -⟩ := i_word h1
  have alone : ∀ {w}, RawSemi w v → F C .stmt (kw l k :: w) v := fun h => by
    rcases h.or with h | ⟨x, w', rfl, rfl, hx, hn⟩
    · exact .jump hk h
    · exact .jumpLine hk hx hn
  rcases h2 with rfl | ⟨_, ⟨rfl, x, w, rfl, hx⟩, rfl | h2⟩
  · exact alone h3
  · exact alone h3
  · obtain ⟨l', n, h', hn⟩ := i_binding h2
    cases h'
    obtain rfl : l' = false := hx
    rcases h3.or with h | ⟨x, w', rfl, rfl, hx, hn'⟩
    · exact .jumpTo hk hn h
    · exact .jumpToLine hk hn hx hn'

theorem leaf_Return (hC : CtxOk C) (h : I Leaf (production ReturnStatement) C u v) : Leaf ReturnStatement C u v := by
  intro hv
  obtain ⟨_, h1, _, h2, h3, hc⟩ := h
  obtain ⟨l, rfl, -⟩ := i_word h1
  have alone : ∀ {w}, RawSemi w v → F C .stmt (kw l b!"return" :: w) v := fun h => by
    rcases h.or with h | ⟨x, w', rfl, rfl, hx, hn⟩
    · exact .return h
    · exact .returnLine hx hn
  rcases h2 with rfl | ⟨_, ⟨rfl, x, w, rfl, hx⟩, rfl | h2⟩
  · exact alone h3
  · exact alone h3
  · have hl : NoLine (x :: w) := by
      rintro y v' h
      cases h
      exact hx
    have he := i_in hC h2
    rcases expr_semi rfl he h3 hc hv with h | ⟨y, v', rfl, rfl, h, hy⟩
    · exact .returnExpr hl h2.1.notRegex (he.1 _) h
    · exact .returnOpen hl h2.1.notRegex (h _) hy.1 hy.2

theorem leaf_Throw (hC : CtxOk C) (h : I Leaf (production ThrowStatement) C u v) : Leaf ThrowStatement C u v := by
  intro hv
  obtain ⟨_, h1, h2⟩ := h
  obtain ⟨l, rfl, -⟩ := i_word h1
  rcases h2 with ⟨rfl, x, w, rfl, hx⟩ | ⟨_, ⟨rfl, x, w, rfl, hx⟩, h2⟩
  · exact .throwLine rfl hx
  · have hl : NoLine (x :: w) := by
      rintro y v' h
      cases h
      exact hx
    obtain ⟨he, y, w', rfl, hy | hy, hc⟩ := i_in hC h2
    · exact .throwAny rfl hl h2.1.notRegex (he _) (exprEnds_of hc hy (fresh_cons.1 hv))
    · exact .throwOpen rfl hl h2.1.notRegex (hy _)

theorem leaf_Labelled (hC : CtxOk C) (h : I Leaf (production LabelledStatement) C u v) : Leaf LabelledStatement C u v := by
  obtain ⟨_, ⟨l, _, rfl, ⟨n, rfl⟩, -⟩, _, h2, h3⟩ := h
  obtain ⟨l', rfl, -⟩ := i_punct h2
  exact ⟨l, n, l', _, rfl, i_nt hC h3⟩

theorem leaf_Try (hC : CtxOk C) (h : I Leaf (production TryStatement) C u v) : Leaf TryStatement C u v := by
  intro _
  obtain ⟨_, h1, _, h2, _, h3, h4⟩ := h
  obtain ⟨l, rfl, -⟩ := i_word h1
  have h2 := i_nt hC h2
  rcases h3 with ⟨_, h5, _, h6, _, h7, _, h8, h9⟩ | ⟨rfl, x, w, rfl, hx, -⟩
  · obtain ⟨l', rfl, -⟩ := i_word h5
    obtain ⟨l'', rfl, -⟩ := i_punct h6
    obtain ⟨l₁, rfl, -⟩ := i_punct h8
    have h7 := i_target hC h7
    have h9 := i_nt hC h9
    rcases h4 with ⟨_, h4, h10⟩ | ⟨rfl, x, w, rfl, hx, -⟩
    · obtain ⟨l₂, rfl, -⟩ := i_word h4
      exact .tryBoth h2 h7 h9 (i_nt hC h10)
    · exact .tryCatch h2 h7 h9 (notNext_of hx)
  · rcases h4 with ⟨_, h4, h10⟩ | ⟨rfl, _, _, h', hx', -⟩
    · obtain ⟨l₂, h', -⟩ := i_word h4
      rw [h'] at h2
      exact .tryFinally h2 (i_nt hC h10)
    · cases h'
      exact .tryOnly rfl h2 (notNext_of hx) (notNext_of hx')

theorem leaf_Debugger (h : I Leaf (production DebuggerStatement) C u v) : Leaf DebuggerStatement C u v := by
  intro _
  obtain ⟨_, h1, h2, -⟩ := h
  obtain ⟨l, rfl, -⟩ := i_word h1
  rcases h2.or with h | ⟨x, w', rfl, rfl, hx, hn⟩
  · exact .debugger h
  · exact .debuggerLine hx hn

/-! ## Patterns and functions -/

theorem leaf_BindingPattern (hC : CtxOk C) (h : I Leaf (production BindingPattern) C u v) : Leaf BindingPattern C u v := by
  rcases h with h | h <;> exact i_nt hC h

theorem leaf_ObjectBindingPattern (hC : CtxOk C) (h : I Leaf (production ObjectBindingPattern) C u v) :
    Leaf ObjectBindingPattern C u v := by
  obtain ⟨_, h1, _, ⟨_, h2, h3⟩, h4⟩ := h
  obtain ⟨l, rfl, -⟩ := i_punct h1
  obtain ⟨l', rfl, -⟩ := i_punct h4
  refine .objectPattern (l' := l') ?_
  refine Rep.fold (S := fun u _ => F C .bindings u (pt l' .curlyClose :: v)) h2 ?_ ?_
  · rcases h3 with rfl | h3
    · exact .bindingsNil
    · exact .bindingsLast (i_nt hC h3)
  · rintro u w ⟨_, h1, h2⟩ ih
    obtain ⟨l, rfl, -⟩ := i_punct h2
    exact .bindingsCons (i_nt hC h1) ih

theorem leaf_ArrayBindingPattern (hC : CtxOk C) (h : I Leaf (production ArrayBindingPattern) C u v) :
    Leaf ArrayBindingPattern C u v := by
  obtain ⟨_, h1, _, h2, _, h3, h4⟩ := h
  obtain ⟨l, rfl, -⟩ := i_punct h1
  obtain ⟨l', rfl, -⟩ := i_punct h4
  refine .arrayPattern (l' := l') ?_
  refine Rep.fold (S := fun u _ => F C .elisions u (pt l' .squareClose :: v)) h2 ?_ ?_
  · rcases h3 with h3 | rfl | h3
    · obtain ⟨l, u', rfl, ht⟩ := i_nt hC h3
      exact .elisionsRest ht
    · exact .elisionsNil
    · exact .elisionsLast (i_nt hC h3)
  · rintro u w ⟨_, h1, h2⟩ ih
    obtain ⟨l, rfl, -⟩ := i_punct h2
    rcases h1 with rfl | h1
    · exact .elisionsHole ih
    · exact .elisionsCons (i_nt hC h1) ih

theorem leaf_BindingProperty (hC : CtxOk C) (h : I Leaf (production BindingProperty) C u v) : Leaf BindingProperty C u v := by
  rcases h with ⟨_, h1, _, h2, h3⟩ | ⟨_, h1, h2⟩
  · obtain ⟨l, rfl, -⟩ := i_punct h2
    exact .bindKey (i_nt hC h1) (i_nt hC h3)
  · rcases h2 with rfl | h2
    · exact .bindAny rfl (i_nt hC h1)
    · exact .bindAnyDefault rfl (i_nt hC h1) (init_of (i_in hC h2))

theorem leaf_BindingElement (hC : CtxOk C) (h : I Leaf (production BindingElement) C u v) : Leaf BindingElement C u v := by
  obtain ⟨_, h1, h2⟩ := h
  rcases h2 with rfl | h2
  · exact .element (i_target hC h1)
  · exact .elementDefault (i_target hC h1) (init_of (i_in hC h2))

theorem leaf_Initializer (hC : CtxOk C) (h : I Leaf (production Initializer) C u v) : Leaf Initializer C u v := by
  obtain ⟨_, h1, h2⟩ := h
  obtain ⟨l, rfl, -⟩ := i_punct h1
  exact ⟨l, _, rfl, i_nt hC h2⟩

theorem leaf_PropertyName (hC : CtxOk C) (h : I Leaf (production PropertyName) C u v) : Leaf PropertyName C u v := by
  rcases h with ⟨l, x, rfl, ⟨n, rfl⟩, -⟩ | ⟨l, x, rfl, ⟨n, rfl⟩, -⟩ | ⟨l, x, rfl, ⟨n, rfl⟩, -⟩ | ⟨_, h1, _, h2, h3⟩
  · exact .keyName
  · exact .keyStr
  · exact .keyNum
  · obtain ⟨l, rfl, -⟩ := i_punct h1
    obtain ⟨l', rfl, -⟩ := i_punct h3
    rcases h2 with rfl | h2
    · exact .keyEmpty rfl
    · obtain ⟨g, h⟩ := (i_in hC h2).1 true
      exact .keyExpr h

theorem i_function {g : Bool} (hC : CtxOk C) (h : I Leaf (functionParts false g) C u v) :
    F { C with await := false, yield := g } .function u v := by
  obtain ⟨_, h1, h2⟩ := h
  have hC' : CtxOk { C with await := false, yield := g } := ctxOk_fn hC
  obtain ⟨l, l', u', rfl, hp⟩ := h1.2 hC'
  exact .function hp (h2.2 hC')

theorem i_async {g : Bool} (hC : CtxOk C) (h : I Leaf (functionParts true g) C u v) : AsyncRest C u v := by
  obtain ⟨_, h1, h2⟩ := h
  obtain ⟨l, l', u', rfl, hp⟩ := h1.2 ⟨hC.1⟩
  exact ⟨l, l', u', _, rfl, hp, h2.2 ⟨hC.1⟩⟩

/-- `async function` -/
theorem i_asyncWords {g : G} (h : I Leaf (G.seqs [.kw b!"async", .noLine, .kw b!"function", g]) C u v) :
    ∃ l u', u = kw l b!"async" :: kw false b!"function" :: u' ∧ I Leaf g C u' v := by
  obtain ⟨_, h1, _, ⟨rfl, x, w, rfl, hx⟩, _, h2, h3⟩ := h
  obtain ⟨l, rfl, -⟩ := i_word h1
  obtain ⟨l', h, -⟩ := i_word h2
  cases h
  obtain rfl : l' = false := hx
  exact ⟨l, _, rfl, h3⟩

theorem i_declared (h : I Leaf declaredName C u v) : (∃ l n, u = kw l n :: v ∧ Named true C n) ∨ u = v ∧ C.default = true := by
  rcases h with h | ⟨rfl, h⟩
  · exact .inl (i_binding h)
  · exact .inr ⟨rfl, h⟩

theorem leaf_FunctionDeclaration (hC : CtxOk C) (h : I Leaf (production FunctionDeclaration) C u v) :
    Leaf FunctionDeclaration C u v := by
  rcases h with h | ⟨_, h1, _, h2, h3⟩ | ⟨_, h1, _, h4, _, h2, h3⟩
  · obtain ⟨l, _, rfl, _, h2, h3⟩ := i_asyncWords h
    rcases i_declared h2 with ⟨l', n, rfl, hn⟩ | ⟨rfl, hd⟩
    · exact .async hn (i_nt hC h3)
    · exact .asyncAnon hd (i_nt hC h3)
  · obtain ⟨l, rfl, -⟩ := i_word h1
    rcases i_declared h2 with ⟨l', n, rfl, hn⟩ | ⟨rfl, hd⟩
    · exact .func hn (i_nt hC h3)
    · exact .funcAnon hd (i_nt hC h3)
  · obtain ⟨l, rfl, -⟩ := i_word h1
    obtain ⟨l'', rfl, -⟩ := i_punct h4
    rcases i_declared h2 with ⟨l', n, rfl, hn⟩ | ⟨rfl, hd⟩
    · exact .gen hn (i_nt hC h3)
    · exact .genAnon hd (i_nt hC h3)

theorem leaf_FunctionExpression (hC : CtxOk C) (h : I Leaf (production FunctionExpression) C u v) :
    Leaf FunctionExpression C u v := by
  intro hu f
  rcases h with ⟨_, h1, _⟩ | ⟨_, h1, _, h2, h3⟩ | ⟨_, h1, _, h4, _, h2, h3⟩
  · obtain ⟨l, rfl, -⟩ := i_word h1
    exact absurd rfl (hu _ _)
  · obtain ⟨l, rfl, -⟩ := i_word h1
    rcases h2 with rfl | h2
    · exact ⟨_, _, .func (i_nt hC h3)⟩
    · obtain ⟨l', n, rfl, hn⟩ := i_binding h2
      exact ⟨_, _, .funcName hn (i_nt hC h3)⟩
  · obtain ⟨l, rfl, -⟩ := i_word h1
    obtain ⟨l'', rfl, -⟩ := i_punct h4
    rcases h2 with rfl | h2
    · exact ⟨_, _, .gen (i_nt hC h3)⟩
    · obtain ⟨l', n, rfl, hn⟩ := i_binding h2
      exact ⟨_, _, .genName hn (i_nt hC h3)⟩

theorem leaf_FormalParameters (hC : CtxOk C) (h : I Leaf (production FormalParameters) C u v) : Leaf FormalParameters C u v := by
  obtain ⟨_, h1, _, h2, _, h3, h4⟩ := h
  obtain ⟨l, rfl, -⟩ := i_punct h1
  obtain ⟨l', rfl, -⟩ := i_punct h4
  refine ⟨l, l', _, rfl, ?_⟩
  refine Rep.fold (S := fun u _ => F C .params u (pt l' .parenClose :: v)) h2 ?_ ?_
  · rcases h3 with rfl | h3 | ⟨_, h3, h4⟩
    · exact .paramsNil
    · obtain ⟨l, u', rfl, ht⟩ := i_nt (n := BindingRestElement) hC h3
      exact .paramsRest ht
    · rcases i_initializer hC h4 with rfl | h4
      · exact .paramsLast (i_target hC h3)
      · exact .paramsDefaultLast (i_target hC h3) h4
  · rintro u w ⟨_, h1, _, h2, h3⟩ ih
    obtain ⟨l, rfl, -⟩ := i_punct h3
    rcases i_initializer hC h2 with rfl | h2
    · exact .paramsCons (i_target hC h1) ih
    · exact .paramsDefault (i_target hC h1) h2 ih

theorem leaf_BindingRest (hC : CtxOk C) (h : I Leaf (production BindingRestElement) C u v) : Leaf BindingRestElement C u v := by
  obtain ⟨_, h1, h2⟩ := h
  obtain ⟨l, rfl, -⟩ := i_punct h1
  exact ⟨l, _, rfl, i_target hC h2⟩

/-! ## Properties -/

theorem i_static {g : G} {R : List Tok → List Tok → Prop} (hg : ∀ {u v}, I Leaf g C u v → R u v)
    (h : I Leaf (.seq (.opt (.kw b!"static")) g) C u v) : Static R u v := by
  obtain ⟨_, rfl | h, h'⟩ := h
  · exact .inl (hg h')
  · obtain ⟨l, rfl, -⟩ := i_word h
    exact .inr ⟨l, _, rfl, hg h'⟩

/-- A getter or a setter. -/
theorem i_kind {k : Bytes} (hC : CtxOk C) (h : I Leaf (.seq (.kw k) (.nt PropertyName)) C u v) :
    ∃ l u', u = kw l k :: u' ∧ F C .key u' v := by
  obtain ⟨_, h1, h2⟩ := h
  obtain ⟨l, rfl, -⟩ := i_word h1
  exact ⟨l, _, rfl, i_nt hC h2⟩

theorem i_kindStar {k : Bytes} (hC : CtxOk C) (h : I Leaf (.seq (.kw k) (.seq (.p .star) (.nt PropertyName))) C u v) :
    ∃ l l' u', u = kw l k :: pt l' .star :: u' ∧ F C .key u' v := by
  obtain ⟨_, h1, _, h2, h3⟩ := h
  obtain ⟨l, rfl, -⟩ := i_word h1
  obtain ⟨l', rfl, -⟩ := i_punct h2
  exact ⟨l, l', _, rfl, i_nt hC h3⟩

theorem leaf_MethodHead {k : MKind} {g a : Bool} (hC : CtxOk C) (h : I Leaf (production (NT.MethodHead k g a)) C u v) :
    Leaf (NT.MethodHead k g a) C u v := by
  cases a with
  | true =>
    cases k with
    | none =>
      cases g with
      | true => trivial
      | false =>
        refine i_static ?_ h
        rintro u v ⟨_, h1, h2⟩
        obtain ⟨l, rfl, -⟩ := i_word h1
        refine ⟨l, _, rfl, ?_⟩
        rcases h2 with rfl | ⟨_, ⟨rfl, x, w, rfl, hx⟩, rfl | h2⟩
        · exact .inl rfl
        · exact .inl rfl
        · exact .inr ⟨fun y v' h => by cases h; exact hx, i_nt hC h2⟩
    | get => cases g <;> trivial
    | set => cases g <;> trivial
  | false =>
    cases k with
    | get =>
      cases g with
      | false => exact i_static (i_kind hC) h
      | true => exact i_static (i_kindStar hC) h
    | set =>
      cases g with
      | false => exact i_static (i_kind hC) h
      | true => exact i_static (i_kindStar hC) h
    | none =>
      have word : ∀ {k u v}, k ≠ b!"async" → I Leaf (.kw k) C u v → NotNext b!"async" u ∧ F C .key u v := by
        intro k u v hk h
        obtain ⟨l, rfl, -⟩ := i_word h
        refine ⟨?_, .keyName⟩
        rintro l v' h
        cases h
        exact hk rfl
      cases g with
      | false =>
        rcases h with h | h | h | h
        · refine i_static ?_ h
          rintro u v ⟨_, ⟨rfl, x, w, rfl, hx, -⟩, h⟩
          exact ⟨notNext_of hx, i_nt (n := PropertyName) hC h⟩
        · exact i_static (word (by decide)) h
        · exact i_static (word (by decide)) h
        · exact .inl (word (by decide) h)
      | true =>
        refine i_static ?_ h
        rintro u v ⟨_, h1, h2⟩
        obtain ⟨l, rfl, -⟩ := i_punct h1
        exact ⟨l, _, rfl, i_nt hC h2⟩

theorem leaf_MethodTail {k : MKind} {g a : Bool} (hC : CtxOk C) (h : I Leaf (production (NT.MethodTail k g a)) C u v) :
    Leaf (NT.MethodTail k g a) C u v := by
  cases k with
  | get =>
    obtain ⟨_, h1, _, h2, h3⟩ := h
    obtain ⟨l, rfl, -⟩ := i_punct h1
    obtain ⟨l', rfl, -⟩ := i_punct h2
    exact ⟨l, l', _, rfl, i_nt hC h3⟩
  | set =>
    obtain ⟨_, h1, _, h2, _, h3, h4⟩ := h
    obtain ⟨l, rfl, -⟩ := i_punct h1
    obtain ⟨l', rfl, -⟩ := i_punct h3
    exact ⟨l, l', _, _, rfl, i_target hC h2, i_nt hC h4⟩
  | none =>
    cases a with
    | true => exact i_async (g := g) hC h
    | false => exact i_function hC h

theorem leaf_FunctionRest {g a : Bool} (hC : CtxOk C) (h : I Leaf (production (FunctionRest a g)) C u v) :
    Leaf (FunctionRest a g) C u v := by
  cases a with
  | true => exact i_async (g := g) hC h
  | false => exact i_function hC h

theorem Static.imp {R S : List Tok → List Tok → Prop} (h : Static R u v) (hi : ∀ u, R u v → S u w) : Static S u w := by
  rcases h with h | ⟨l, u', rfl, h⟩
  · exact .inl (hi _ h)
  · exact .inr ⟨l, u', rfl, hi _ h⟩

theorem Static.head (h : Static (F C (.propHead false)) u v) : F C (.propHead true) u v := by
  rcases h with h | ⟨l, u', rfl, h⟩
  · exact .headPlain h
  · exact .headStatic h

/-- A method. -/
theorem i_method (hC : CtxOk C) (h : I Leaf (G.alts
      [G.seqs [.nt (NT.MethodHead .get false false), .nt (NT.MethodTail .get false false)],
        G.seqs [.nt (NT.MethodHead .get true false), .nt (NT.MethodTail .get true false)],
        G.seqs [.nt (NT.MethodHead .set false false), .nt (NT.MethodTail .set false false)],
        G.seqs [.nt (NT.MethodHead .set true false), .nt (NT.MethodTail .set true false)],
        G.seqs [.nt (NT.MethodHead .none false false), .nt (NT.MethodTail .none false false)],
        G.seqs [.nt (NT.MethodHead .none true false), .nt (NT.MethodTail .none true false)],
        G.seqs [.nt (NT.MethodHead .none false true), .nt (NT.MethodTail .none false true)]]) C u v) :
    Static (F C .method) u v := by
  rcases h with ⟨_, h, h'⟩ | ⟨_, h, h'⟩ | ⟨_, h, h'⟩ | ⟨_, h, h'⟩ | ⟨_, h, h'⟩ | ⟨_, h, h'⟩ | ⟨_, h, h'⟩
  · obtain ⟨l, l', u', rfl, hb⟩ := i_nt hC h'
    refine (i_nt hC h).imp fun u h => ?_
    obtain ⟨l, u', rfl, h⟩ := h
    exact .getter h hb
  · obtain ⟨l, l', u', rfl, hb⟩ := i_nt hC h'
    refine (i_nt hC h).imp fun u h => ?_
    obtain ⟨l, l', u', rfl, h⟩ := h
    exact .starGetter rfl h hb
  · obtain ⟨l, l', u', u'', rfl, ht, hb⟩ := i_nt hC h'
    refine (i_nt hC h).imp fun u h => ?_
    obtain ⟨l, u', rfl, h⟩ := h
    exact .setter h ht hb
  · obtain ⟨l, l', u', u'', rfl, ht, hb⟩ := i_nt hC h'
    refine (i_nt hC h).imp fun u h => ?_
    obtain ⟨l, l', u', rfl, h⟩ := h
    exact .starSetter rfl h ht hb
  · exact (i_nt hC h).imp fun u h => .plainMethod h.1 h.2 (i_nt hC h')
  · refine (i_nt hC h).imp fun u h => ?_
    obtain ⟨l, u', rfl, h⟩ := h
    exact .genMethod h (i_nt hC h')
  · obtain ⟨l, l', u', u'', rfl, hp, hb⟩ := i_nt hC h'
    refine (i_nt hC h).imp fun u h => ?_
    obtain ⟨l, u', rfl, rfl | ⟨hl, h⟩⟩ := h
    · exact .asyncNamed nofun hp hb
    · exact .asyncMethod hl h hp hb

theorem leaf_PropertyDefinition (hC : CtxOk C) (h : I Leaf (production PropertyDefinition) C u v) :
    Leaf PropertyDefinition C u v := by
  rcases h with ⟨_, h, h'⟩ | ⟨w, h, h'⟩ | h
  · obtain ⟨l, rfl, -⟩ := i_punct h
    obtain ⟨g, h'⟩ := (i_nt hC h').1 true
    exact .spread h'
  · have hh : F C (.propHead true) u w := by
      rcases h with h | h | h | h | h | h | h
      · refine ((i_nt hC h).imp fun u h => ?_).head
        obtain ⟨l, u', rfl, h⟩ := h
        exact .headKind (by decide) h
      · refine ((i_nt hC h).imp fun u h => ?_).head
        obtain ⟨l, l', u', rfl, h⟩ := h
        exact .headKindStar (by decide) h
      · refine ((i_nt hC h).imp fun u h => ?_).head
        obtain ⟨l, u', rfl, h⟩ := h
        exact .headKind (by decide) h
      · refine ((i_nt hC h).imp fun u h => ?_).head
        obtain ⟨l, l', u', rfl, h⟩ := h
        exact .headKindStar (by decide) h
      · exact ((i_nt hC h).imp fun u h => .headKey h.2).head
      · refine ((i_nt hC h).imp fun u h => ?_).head
        obtain ⟨l, u', rfl, h⟩ := h
        exact .headStar h
      · refine ((i_nt hC h).imp fun u h => ?_).head
        obtain ⟨l, u', rfl, rfl | ⟨hl, h⟩⟩ := h
        · exact .headKey .keyName
        · exact .headAsync rfl hl h
    rcases h' with rfl | ⟨_, h1, h2⟩
    · exact .headShort rfl hh
    · obtain ⟨l, rfl, -⟩ := i_punct h1
      obtain ⟨g, h2⟩ := (i_nt hC h2).1 true
      exact .headValue rfl hh h2
  · rcases i_method hC h with hm | ⟨l, u', rfl, hm⟩
    · exact .propMethod hm
    · exact .propStatic rfl hm

theorem leaf_ObjectLiteral (hC : CtxOk C) (h : I Leaf (production ObjectLiteral) C u v) : Leaf ObjectLiteral C u v := by
  obtain ⟨_, h1, _, h2, _, h3, h4⟩ := h
  obtain ⟨l, rfl, -⟩ := i_punct h1
  obtain ⟨l', rfl, -⟩ := i_punct h4
  refine fun f => ⟨_, _, .object (l' := l') ?_⟩
  refine Rep.fold (S := fun u _ => F C .props u (pt l' .curlyClose :: v)) h2 ?_ ?_
  · rcases h3 with rfl | h3
    · exact .propsNil
    · exact .propsLast (i_nt hC h3)
  · rintro u w ⟨_, h1, h2⟩ ih
    obtain ⟨l, rfl, -⟩ := i_punct h2
    rcases h1 with rfl | h1
    · exact .propsHole rfl ih
    · exact .propsCons (i_nt hC h1) ih

/-! ## Expressions -/

theorem leaf_ArrayElement (hC : CtxOk C) (h : I Leaf (production ArrayElement) C u v) : Leaf ArrayElement C u v := by
  rcases h with rfl | ⟨_, rfl | h, h'⟩
  · exact .inl rfl
  · exact .inr (.inl (i_nt hC h').1)
  · obtain ⟨l, rfl, -⟩ := i_punct h
    exact .inr (.inr ⟨l, _, rfl, h'.1.notRegex, (i_nt hC h').1⟩)

theorem leaf_ArrayLiteral (hC : CtxOk C) (h : I Leaf (production ArrayLiteral) C u v) : Leaf ArrayLiteral C u v := by
  obtain ⟨_, h1, _, h2, _, h3, h4⟩ := h
  obtain ⟨l, rfl, -⟩ := i_punct h1
  obtain ⟨l', rfl, -⟩ := i_punct h4
  have key : ∀ {u v}, I Leaf (.opt (.nt ArrayElement)) C u v → u = v ∨ (NotRegex u ∧ Value C u v) ∨
      ∃ l u', u = pt l .ellipsis :: u' ∧ NotRegex u' ∧ Value C u' v := by
    rintro u v (rfl | h)
    · exact .inl rfl
    · rcases i_nt hC h with h' | h' | h'
      · exact .inl h'
      · exact .inr (.inl ⟨h.1.notRegex, h'⟩)
      · exact .inr (.inr h')
  refine fun f => ⟨_, _, .array (l' := l') ?_⟩
  refine Rep.fold (S := fun u _ => F C .elems u (pt l' .squareClose :: v)) h2 ?_ ?_
  · rcases key h3 with rfl | ⟨hr, h3⟩ | ⟨l, u', rfl, hr, h3⟩
    · exact .elemsNil
    · obtain ⟨g, h⟩ := h3 true
      exact .elemsLast hr h
    · obtain ⟨g, h⟩ := h3 true
      exact .elemsSpreadLast hr h
  · rintro u w ⟨_, h1, h2⟩ ih
    obtain ⟨l, rfl, -⟩ := i_punct h2
    rcases key h1 with rfl | ⟨hr, h1⟩ | ⟨l, u', rfl, hr, h1⟩
    · exact .elemsHole ih
    · obtain ⟨g, h⟩ := h1 true
      exact .elemsCons hr h ih
    · obtain ⟨g, h⟩ := h1 true
      exact .elemsSpread hr h ih

theorem i_more (hC : CtxOk C) (h : I Leaf (G.more (.nt AssignmentExpression)) C u v) : More C u v := by
  refine Rep.fold (S := fun u v => More C u v) h (fun g => ⟨g, .moreNil⟩) ?_
  rintro u w ⟨_, h1, h2⟩ ih g₀
  obtain ⟨l, rfl, -⟩ := i_punct h1
  obtain ⟨g₁, h⟩ := (i_nt hC h2).1 true
  obtain ⟨g, ih⟩ := ih g₁
  exact ⟨g, .moreCons h ih⟩

theorem more_stops {x : Tok} (hC : CtxOk C) (h1 : Assigned C u w) (h : I Leaf (G.more (.nt AssignmentExpression)) C w v)
    (hv : v = x :: v') (hx : x.2 ≠ .punct .comma) : Stops C 1 v ∨ ExprOpen C u v := by
  replace h : Rep (fun u v => ∃ l u', u = pt l .comma :: u' ∧ Assigned C u' v) w v := Rep.mono h fun u v h => by
    obtain ⟨_, h1, h2⟩ := h
    obtain ⟨l, rfl, -⟩ := i_punct h1
    exact ⟨l, _, rfl, i_nt (n := AssignmentExpression) hC h2⟩
  induction h generalizing u with
  | nil =>
    subst hv
    exact h1.2.imp_right fun h f => .exprOpen (h f) hx
  | cons h _ ih =>
    obtain ⟨l, u', rfl, h⟩ := h
    refine (ih h hv).imp_right fun h' f => ?_
    obtain ⟨g, h1⟩ := h1.1 f
    exact .exprOpenMore h1 (h' _)

theorem leaf_Expression (hC : CtxOk C) (h : I Leaf (production Expression) C u v) : Leaf Expression C u v := by
  obtain ⟨_, h1, _, h2, rfl, x, w, rfl, hx, hc⟩ := h
  have h1 := i_nt hC h1
  exact ⟨Expr.of h1.1 (i_more hC h2), x, w, rfl, (more_stops hC h1 h2 rfl (notAhead_ne hx)).imp_left fun h =>
    stops_cons.1 (h.comma (notAhead_ne hx)), hc.head⟩

theorem leaf_Cover (hC : CtxOk C) (h : I Leaf (production CoverParenthesized) C u v) : Leaf CoverParenthesized C u v := by
  obtain ⟨_, h1, _, h2, h3⟩ := h
  obtain ⟨l, rfl, -⟩ := i_punct h1
  obtain ⟨l', rfl, -⟩ := i_punct h3
  intro f
  rcases h2 with rfl | ⟨_, h4, h5⟩ | ⟨_, h4, h5⟩
  · exact ⟨_, _, .parenEmpty rfl⟩
  · obtain ⟨g₀, h4⟩ := (i_nt hC h4).1 true
    refine ⟨_, _, .parenCover (l' := l') rfl h4 ?_⟩
    refine Rep.fold (S := fun u v => F C .coverRest u v) h5 .coverNil ?_
    rintro u w ⟨_, h1, ⟨_, h2, h3⟩ | h2⟩ ih
    · obtain ⟨l, rfl, -⟩ := i_punct h1
      obtain ⟨l', rfl, -⟩ := i_punct h2
      exact .coverTarget (i_target hC h3) ih
    · obtain ⟨l, rfl, -⟩ := i_punct h1
      obtain ⟨g, h2⟩ := (i_nt hC h2).1 true
      exact .coverCons h2 ih
  · obtain ⟨l'', rfl, -⟩ := i_punct h4
    exact ⟨_, _, .parenRest rfl (i_target hC h5)⟩

theorem cond_value {x : Tok} (ha : LoneAsync C u) (h : Leaf ConditionalExpression C u (x :: v)) (hx : x.2 ∉ assigners) : Assigned C u (x :: v) := by
  rcases h with ⟨h, hs⟩ | ⟨h, hs⟩ | h
  · exact ⟨fun f => have ⟨g, h⟩ := h f; ⟨g, .value (fun _ => ha) (.unconditional h)⟩, .inl (stops_cons.2 (rank_assign (stops_cons.1 hs) hx))⟩
  · exact ⟨fun f => have ⟨g, h⟩ := h f; ⟨g, .value (fun _ => ha) h⟩, .inl hs⟩
  · exact AssignOpen.assigned fun f => .valueOpen (fun _ => ha) (h f) hx

theorem cond_assignee {l : Bool} {q : Punct} (h : Leaf ConditionalExpression C u (pt l q :: v))
    (hq : q ∈ Punct.arrow :: assignmentOperators) (hs : q ≠ .slashEq) : Assignee C u (pt l q :: v) := by
  rcases h with ⟨h, -⟩ | ⟨-, h⟩ | h
  · exact fun f => have ⟨g, h⟩ := h f; .assignee rfl hq hs h
  · have h := stops_cons.1 h
    exfalso
    revert h hq
    cases C.in_ <;> cases l <;> cases q <;> decide
  · exact fun f => .assigneeOpen hq hs (h f)

theorem leaf_ArrowBody (hC : CtxOk C) (h : I Leaf (production ArrowBody) C u v) : Leaf ArrowBody C u v := by
  rcases h with h | ⟨_, ⟨rfl, x, w, rfl, hx, -⟩, h⟩
  · exact .inl (i_nt hC h)
  · exact .inr ⟨x, w, rfl, notAhead_ne hx, i_nt (n := AssignmentExpression) hC h⟩

theorem lone_of (hC : CtxOk C) (h : ¬ BeginsAsync C u) : LoneAsync C u := by
  rintro l n v rfl
  refine Classical.byContradiction fun hn => ?_
  rw [not_or, not_or] at hn
  refine h ⟨l, n, v, rfl, hn.1, hn.2.1, fun hn' => ?_, fun hs => ?_⟩
  · cases h : C.await with
    | true => rfl
    | false => exact absurd ⟨hn', h⟩ hn.2.2
  · rw [hC.strict] at hs
    cases hs

theorem leaf_Assignment (hC : CtxOk C) (h : I Leaf (production AssignmentExpression) C u v) :
    Leaf AssignmentExpression C u v := by
  rcases h with h | ⟨_, h1, _, ⟨rfl, y, w, rfl, hy⟩, _, h2, _, ⟨rfl, y', w', rfl, hy'⟩, _, h3, h4⟩ |
    ⟨_, ⟨rfl, ha⟩, _, h, rfl, x, w, rfl, hx, -⟩ | ⟨_, ⟨rfl, ha⟩, _, h1, _, h2, h3⟩ |
    ⟨_, ⟨rfl, ha⟩, _, h1, _, ⟨l, x, rfl, ⟨q, hq, rfl⟩, hc⟩, h3⟩
  · exact i_nt hC h
  · obtain ⟨l, rfl, hc⟩ := i_word h1
    obtain ⟨l', n, h, hn⟩ := i_binding h2
    cases h
    obtain rfl : l' = false := hy
    obtain ⟨l'', h, -⟩ := i_punct h3
    cases h
    obtain rfl : l'' = false := hy'
    rcases i_nt hC h4 with h3 | ⟨x, u', rfl, hx, h3, h4⟩
    · exact AssignOpen.assigned fun f => .asyncBlock rfl hn h3
    · refine ⟨fun f => ?_, h4.imp_right fun h4 f => .asyncOpen rfl hn hx (h4 _)⟩
      obtain ⟨g, h3⟩ := h3 true
      exact ⟨g, .asyncArrow hn (.bodyExpr hx h3)⟩
  · exact cond_value (lone_of hC ha) (i_nt hC h) hx
  · have ha := lone_of hC ha
    obtain ⟨l, rfl, -⟩ := i_punct h2
    have h1 := cond_assignee (i_nt hC h1) (by decide) (by decide)
    rcases i_nt hC h3 with h3 | ⟨x, u', rfl, hx, h3, h4⟩
    · exact AssignOpen.assigned fun f => .arrowBlock (fun _ => ha) (h1 f) h3
    · refine ⟨fun f => ?_, h4.imp_right fun h4 f => .arrowAnyOpen (fun _ => ha) (h1 f) hx (h4 _)⟩
      obtain ⟨g, h3⟩ := h3 true
      exact ⟨g, .arrowAny (fun _ => ha) (h1 f) hx h3⟩
  · have ha := lone_of hC ha
    have h1 := cond_assignee (i_nt hC h1) (List.mem_cons_of_mem _ hq) (by
      rintro rfl
      exact core_punct hc.head (by decide))
    obtain ⟨h3, h4⟩ := i_nt (n := AssignmentExpression) hC h3
    refine ⟨fun f => ?_, h4.imp_right fun h4 f => .assignAnyOpen (fun _ => ha) hq (h1 f) (h4 _)⟩
    obtain ⟨g, h3⟩ := h3 true
    exact ⟨g, .assignAny (fun _ => ha) hq (h1 f) h3⟩

theorem leaf_Yield (hC : CtxOk C) (h : I Leaf (production YieldExpression) C u v) : Leaf YieldExpression C u v := by
  obtain ⟨_, ⟨l, _, rfl, rfl, hc⟩, ⟨rfl, x, w, rfl, hx⟩ | ⟨_, ⟨rfl, x, w, rfl, hx⟩, _, h2, h3⟩⟩ := h
  · exact AssignOpen.assigned fun f => .yieldEmpty rfl (.inl hx)
  have hl : NoLine (x :: w) := fun y v' h => by cases h; exact hx
  have hne : ∀ {y : Tok} {w : List Tok}, Forward.Low 0 (Forward.rank C.in_ y) → ∀ l v', y :: w ≠ pt l .comma :: v' := by
    rintro y w h l v' h'
    cases h'
    exact Forward.rank_comma h rfl
  obtain ⟨hd, hd'⟩ := hc.2.1 rfl hx
  rcases h2 with h2 | ⟨rfl, y, w, h, hy, -⟩
  · obtain ⟨l', h', -⟩ := i_punct h2
    cases h'
    obtain rfl : l' = false := hx
    rcases h3 with h3 | ⟨rfl, y, w, rfl, hy, hc'⟩
    · obtain ⟨h3, y, v', rfl, h4, -⟩ := i_nt (n := Expression) hC h3
      rcases h4 with h4 | h4
      · exact ⟨fun f => ⟨false, .yieldAnyStar rfl (hne h4) (h3 _)⟩, .inl (stops_cons.2 (h4.mono (by decide) (by decide)))⟩
      · exact AssignOpen.assigned fun f => .yieldOpenStar (h4 _)
    · exact AssignOpen.assigned fun f => .yieldEmptyStar rfl (idle_of hC hy hc'.head (hd' rfl))
  · cases h
    rcases h3 with h3 | ⟨rfl, y, w, h, hy', hc'⟩
    · obtain ⟨h3, y, v', rfl, h4, -⟩ := i_nt (n := Expression) hC h3
      rcases h4 with h4 | h4
      · exact ⟨fun f => ⟨false, .yieldAny rfl hl hc.tail.notRegex (hne h4) (h3 _)⟩, .inl (stops_cons.2 (h4.mono (by decide) (by decide)))⟩
      · exact AssignOpen.assigned fun f => .yieldOpen hl hc.tail.notRegex (h4 _)
    · cases h
      exact AssignOpen.assigned fun f => .yieldEmpty rfl (.inr ⟨idle_of hC hy' hc'.head hd, fun h => hy (List.mem_singleton.2 h)⟩)

theorem i_noOperator (h : I Leaf noOperator C u v) : u = v ∧ (Stops C 4 v → Stops C 3 v) := by
  rcases h with ⟨_, ⟨rfl, hi⟩, rfl, x, w, rfl, hx, -⟩ | ⟨_, ⟨rfl, hi⟩, rfl, x, w, rfl, hx, -⟩
  · refine ⟨rfl, fun h => stops_cons.2 (rank_binary (stops_cons.1 h) (fun h => hx (List.mem_cons_of_mem _ h)) ?_)⟩
    exact fun _ h => hx (h ▸ List.mem_cons_self ..)
  · refine ⟨rfl, fun h => stops_cons.2 (rank_binary (stops_cons.1 h) hx fun h' => ?_)⟩
    rw [show C.in_ = false from hi] at h'
    cases h'

theorem leaf_Conditional (hC : CtxOk C) (h : I Leaf (production ConditionalExpression) C u v) :
    Leaf ConditionalExpression C u v := by
  obtain ⟨_, ⟨_, h1, h0⟩, h⟩ := h
  obtain ⟨rfl, h0⟩ := i_noOperator h0
  have h1 := i_nt hC h1
  rcases h with ⟨_, h2, _, h3, _, h4, h5⟩ | ⟨rfl, x, w, rfl, hx, -⟩
  · obtain ⟨l, rfl, -⟩ := i_punct h2
    obtain ⟨l', rfl, -⟩ := i_punct h4
    obtain ⟨g₁, h3⟩ := (i_in hC h3).1 true
    obtain ⟨h5, h6 | h6⟩ := i_nt (n := AssignmentExpression) hC h5
    · refine .inr (.inl ⟨fun f => ?_, h6⟩)
      obtain ⟨g₀, h1⟩ := h1.1 f
      obtain ⟨g, h5⟩ := h5 true
      exact ⟨g, .conditional h1 h3 h5⟩
    · refine .inr (.inr fun f => ?_)
      obtain ⟨g₀, h1⟩ := h1.1 f
      exact .conditionalOpen rfl h1 h3 (h6 _)
  · exact .inl ⟨h1.1, stops_cons.2 (rank_cond (stops_cons.1 (h0 h1.2)) (notAhead_ne hx))⟩

theorem leaf_Binary (hC : CtxOk C) (h : I Leaf (production BinaryExpression) C u v) : Leaf BinaryExpression C u v := by
  rcases h with h | ⟨_, h1, _, ⟨l, x, rfl, hx, hc⟩, h3⟩
  · have h := i_nt hC h
    refine ⟨fun f => ?_, h.2⟩
    obtain ⟨e, g, h⟩ := h.1 f
    exact ⟨_, .operand h⟩
  · have h3 := i_nt hC h3
    refine ⟨fun f => ?_, h3.2⟩
    obtain ⟨g, h1⟩ := (i_nt hC h1).1 f
    obtain ⟨g', h3⟩ := h3.1 true
    refine binary_append rfl h1 rfl ?_ h3
    rcases hx with ⟨q, hq, rfl⟩ | hx
    · refine .inl ⟨q, hq, ?_, rfl⟩
      rintro rfl
      exact core_punct hc.head (by decide)
    · exact .inr hx

theorem leaf_Unary (hC : CtxOk C) (h : I Leaf (production UnaryExpression) C u v) : Leaf UnaryExpression C u v := by
  have word : ∀ {k}, k ∈ [b!"delete", b!"void", b!"typeof"] → I Leaf (.seq (.kw k) (.nt UnaryExpression)) C u v →
      Unary C u v ∧ Stops C 4 v := by
    rintro k hk ⟨_, h1, h2⟩
    obtain ⟨l, rfl, -⟩ := i_word h1
    have h2 := i_nt hC h2
    refine ⟨fun f => ?_, h2.2⟩
    obtain ⟨e, g, h⟩ := h2.1 false
    exact ⟨_, _, .unaryWord hk h⟩
  have op : ∀ {q}, q ∈ [Punct.plus, .minus, .tilde, .exclam] → I Leaf (.seq (.p q) (.nt UnaryExpression)) C u v →
      Unary C u v ∧ Stops C 4 v := by
    rintro k hk ⟨_, h1, h2⟩
    obtain ⟨l, rfl, -⟩ := i_punct h1
    have h2 := i_nt hC h2
    refine ⟨fun f => ?_, h2.2⟩
    obtain ⟨e, g, h⟩ := h2.1 true
    exact ⟨_, _, .unaryOp hk h⟩
  rcases h with ⟨_, ⟨rfl, x, w, rfl, hx, -⟩, h⟩ | h | h | h | h | h | h | h | ⟨_, ⟨rfl, ha⟩, _, h, h2⟩
  · have h := i_nt hC h
    refine ⟨fun f => ?_, h.2⟩
    obtain ⟨e, g, h⟩ := h.1 f
    exact ⟨_, _, .updated (fun _ => notNext_of hx) h⟩
  · exact word (by decide) h
  · exact word (by decide) h
  · exact word (by decide) h
  · exact op (by decide) h
  · exact op (by decide) h
  · exact op (by decide) h
  · exact op (by decide) h
  · obtain ⟨l, rfl, -⟩ := i_word h
    have h2' := i_nt hC h2
    refine ⟨fun f => ?_, h2'.2⟩
    obtain ⟨e, g, h⟩ := h2'.1 false
    exact ⟨_, _, .await ha h2.1.notRegex h⟩

theorem i_step (h : I Leaf (.alt (.p .plusPlus) (.p .minusMinus)) C u v) :
    ∃ l q, q ∈ [Punct.plusPlus, .minusMinus] ∧ u = pt l q :: v ∧ Stops C 4 v := by
  have key : ∀ {l q}, CoreList (pt l q :: v) → Stops C 4 v := by
    rintro l q hc x v' rfl
    exact rank_core hc.tail.head
  rcases h with ⟨l, x, rfl, rfl, h⟩ | ⟨l, x, rfl, rfl, h⟩
  · exact ⟨l, _, by decide, rfl, key h⟩
  · exact ⟨l, _, by decide, rfl, key h⟩

theorem stops_le {r : Nat} (h : Forward.Low (Forward.lhsBound true) r) : r ≤ 5 :=
  h.elim id fun h => absurd h.1 (by decide)

theorem leaf_Update (hC : CtxOk C) (h : I Leaf (production UpdateExpression) C u v) : Leaf UpdateExpression C u v := by
  rcases h with ⟨_, h1, h2⟩ | ⟨_, h1, h2⟩
  · obtain ⟨l, q, hq, rfl, -⟩ := i_step h1
    have h2 := i_nt hC h2
    refine ⟨fun f => ?_, h2.2⟩
    obtain ⟨e, g, h⟩ := h2.1 true
    exact ⟨_, _, .prefixUpdate rfl hq h⟩
  · have h1 := i_nt hC h1
    have plain : ∀ {x w}, Left C true u (x :: w) → Stops C (Forward.lhsBound true) (x :: w) →
        (x.2 = .punct .plusPlus ∨ x.2 = .punct .minusMinus → x.1 = true) → Update C u (x :: w) ∧ Stops C 4 (x :: w) := by
      intro x w h1 hs hx
      have hs := rank_update (stops_le (stops_cons.1 hs)) hx
      refine ⟨fun f => ?_, stops_cons.2 (.of hs)⟩
      obtain ⟨e, g, h⟩ := h1.frag f
      exact ⟨_, _, .plain (ended_of hs) h⟩
    rcases h2 with ⟨rfl, x, w, rfl, hx⟩ | ⟨_, ⟨rfl, x, w, rfl, hx⟩, h2⟩
    · exact plain h1.1 h1.2 fun _ => hx
    · have : I Leaf (.alt (.p .plusPlus) (.p .minusMinus)) C (x :: w) v ∨ x :: w = v ∧
          x.2 ≠ .punct .plusPlus ∧ x.2 ≠ .punct .minusMinus := by
        rcases h2 with h2 | h2 | ⟨_, ⟨rfl, _, _, h, hx, -⟩, rfl, _, _, h', hx', -⟩
        · exact .inl (.inl h2)
        · exact .inl (.inr h2)
        · cases h
          cases h'
          exact .inr ⟨rfl, notAhead_ne hx, notAhead_ne hx'⟩
      rcases this with h2 | ⟨rfl, hp, hm⟩
      · obtain ⟨l, q, hq, h', hs⟩ := i_step h2
        cases h'
        obtain rfl : l = false := hx
        refine ⟨fun f => ?_, hs⟩
        obtain ⟨e, g, h⟩ := (h1.1 : Left _ _ _ _).frag f
        exact ⟨_, _, .postfix hq h⟩
      · exact plain h1.1 h1.2 fun h => absurd h (by simp [hp, hm])

theorem leaf_Template (hC : CtxOk C) (h : I Leaf (production TemplateLiteral) C u v) : Leaf TemplateLiteral C u v := by
  rcases h with ⟨l, x, rfl, ⟨c, r, rfl⟩, -⟩ | ⟨_, ⟨l, x, rfl, ⟨c, r, rfl⟩, -⟩, _, h1, _, h2, ⟨l', x, rfl, ⟨c', r', rfl⟩, -⟩⟩
  · exact .inl ⟨_, _, _, rfl⟩
  · refine .inr ⟨_, _, _, _, rfl, ?_⟩
    refine Rep.fold (S := fun u _ => F C .template u v) h1 (.templateLast h2.1.notRegex ((i_nt (n := Expression) hC h2).1 _)) ?_
    rintro u w ⟨_, h1, ⟨l', x, rfl, ⟨c', r', rfl⟩, -⟩⟩ ih
    exact .templateCons h1.1.notRegex ((i_nt (n := Expression) hC h1).1 _) ih

theorem i_noMember {c : Bool} (h : I Leaf (noMember c) C u v) : u = v ∧ Stops C (Forward.lhsBound c) v := by
  obtain ⟨_, ⟨rfl, x, w, rfl, hx, hc⟩, _, ⟨rfl, _, _, h', ht⟩, h⟩ := h
  cases h'
  cases c with
  | false => exact ⟨h, h ▸ stops_cons.2 (.of (rank_left hc.head hx ht nofun))⟩
  | true =>
    obtain ⟨rfl, _, _, h, hx', -⟩ := h
    cases h
    exact ⟨rfl, stops_cons.2 (.of (rank_left hc.head hx ht fun _ => notAhead_ne hx'))⟩

theorem leaf_Left {c : Bool} (hC : CtxOk C) (h : I Leaf (production (LeftHandSideExpression c)) C u v) :
    Leaf (LeftHandSideExpression c) C u v := by
  obtain ⟨w, h1, _, h2, h0⟩ := h
  obtain ⟨h', hs⟩ := i_noMember h0
  cases h'
  refine ⟨?_, hs⟩
  have ht : Tails C c w v := by
    refine Rep.fold (S := fun u v => Tails C c u v) h2 .nil ?_
    intro u w h ih
    have member : I Leaf (.seq (.p .period) .name) C u w ∨
        I Leaf (G.seqs [.p .squareOpen, G.expression, .p .squareClose]) C u w → Tails C c u v := by
      rintro (⟨_, h1, ⟨l', _, rfl, ⟨n, rfl⟩, -⟩⟩ | ⟨_, h1, _, h2, h3⟩)
      · obtain ⟨l, rfl, -⟩ := i_punct h1
        exact .dot ih
      · obtain ⟨l, rfl, -⟩ := i_punct h1
        obtain ⟨l', rfl, -⟩ := i_punct h3
        exact .index h2.1.notRegex (i_in hC h2).1 ih
    have template : I Leaf (.nt TemplateLiteral) C u w → Tails C c u v := fun h => by
      rcases i_nt hC h with ⟨l, x, y, rfl⟩ | ⟨l, x, y, u', rfl, h'⟩
      · exact .plain ih
      · exact .subst h' ih
    cases c with
    | false =>
      rcases h with h | h | h
      · exact member (.inl h)
      · exact member (.inr h)
      · exact template h
    | true =>
      rcases h with h | h | h | h
      · exact member (.inl h)
      · exact member (.inr h)
      · exact template h
      · obtain ⟨l, l', u', rfl, ha⟩ := i_nt hC h
        exact .call rfl ha ih
  rcases h1 with ⟨_, h1, h2⟩ | h1 | h1
  · obtain ⟨l, rfl, -⟩ := i_word h1
    exact .ofNew h2.1.notRegex (i_nt hC h2).1 ht
  · exact .prim (i_nt hC h1) ht
  · obtain ⟨l, rfl, -⟩ := i_word h1
    exact .super ht

theorem leaf_Arguments (hC : CtxOk C) (h : I Leaf (production Arguments) C u v) : Leaf Arguments C u v := by
  obtain ⟨_, h1, _, h2, _, h3, h4⟩ := h
  obtain ⟨l, rfl, -⟩ := i_punct h1
  obtain ⟨l', rfl, -⟩ := i_punct h4
  refine ⟨l, l', _, rfl, ?_⟩
  refine Rep.fold (S := fun u _ => Args { C with in_ := true } u (pt l' .parenClose :: v)) h2 ?_ ?_
  · rcases h3 with (rfl | h3) | ⟨_, h3, _, h4, h5⟩
    · exact ⟨_, .argsNil⟩
    · obtain ⟨g, h⟩ := (i_in hC h3).1 true
      exact ⟨_, .argsLast nofun h⟩
    · obtain ⟨l, rfl, -⟩ := i_punct h3
      obtain ⟨g, h⟩ := (i_in hC h4).1 true
      rcases h5 with rfl | ⟨_, h5, rfl | h6⟩
      · exact ⟨_, .argsSpreadLast h⟩
      · obtain ⟨l, rfl, -⟩ := i_punct h5
        exact ⟨_, .argsSpread h .argsNil⟩
      · obtain ⟨l, rfl, -⟩ := i_punct h5
        obtain ⟨g', h'⟩ := (i_in hC h6).1 true
        exact ⟨_, .argsSpread h (.argsLast (fun _ => h6.1.notRegex) h')⟩
  · rintro u w ⟨_, rfl | ⟨_, h1, _, h4, h5⟩, _, h2, h3⟩ ⟨e, ih⟩
    · obtain ⟨l, rfl, -⟩ := i_punct h3
      obtain ⟨g, h⟩ := (i_in hC h2).1 true
      exact ⟨_, .argsCons nofun h ih⟩
    · obtain ⟨l, rfl, -⟩ := i_punct h3
      obtain ⟨l₁, rfl, -⟩ := i_punct h1
      obtain ⟨l₂, rfl, -⟩ := i_punct h5
      obtain ⟨g, h⟩ := (i_in hC h2).1 true
      obtain ⟨g', h'⟩ := (i_in hC h4).1 true
      exact ⟨_, .argsSpread h' (.argsCons (fun _ => h2.1.notRegex) h ih)⟩

theorem leaf_Primary (hC : CtxOk C) (h : I Leaf (production PrimaryExpression) C u v) : Leaf PrimaryExpression C u v := by
  intro f
  have word : ∀ {k}, k ∈ [b!"this", b!"null", b!"true", b!"false"] → I Leaf (.kw k) C u v →
      ∃ e g, F C (.prim f e g) u v := by
    intro k hk h
    obtain ⟨l, rfl, -⟩ := i_word h
    exact ⟨_, _, .word hk⟩
  rcases h with h | ⟨_, ⟨l, _, rfl, ⟨n, rfl, hn⟩, hc⟩, ⟨rfl, x, w, rfl, hx, -⟩⟩ | ⟨l, x, rfl, ⟨n, rfl⟩, -⟩ | ⟨l, x, rfl, ⟨n, rfl⟩, -⟩ | h | h | h | h | h |
    ⟨l, x, -, ⟨c, r, rfl⟩, h⟩ | h | h | ⟨_, ⟨rfl, x, w, rfl, hx, -⟩, h⟩ | h
  · exact word (by decide) h
  · refine ⟨_, _, .name (named_of hn) nofun (notNext_of hx)⟩
  · exact ⟨_, _, .num⟩
  · exact ⟨_, _, .str⟩
  · exact word (by decide) h
  · exact word (by decide) h
  · exact word (by decide) h
  · exact i_nt hC h f
  · exact i_nt hC h f
  · exact h.head.elim
  · rcases i_nt hC h with ⟨l, x, y, rfl⟩ | ⟨l, x, y, u', rfl, h'⟩
    · exact ⟨_, _, .plainTemplate⟩
    · exact ⟨_, _, .substTemplate h'⟩
  · exact i_nt hC h f
  · exact i_nt hC h (notAsync_of hx) f
  · obtain ⟨l, rfl, -⟩ := i_word h
    exact ⟨_, _, .classWord rfl⟩

/-! ## Classes -/

theorem leaf_ClassDeclaration (hC : CtxOk C) (h : I Leaf (production ClassDeclaration) C u v) : Leaf ClassDeclaration C u v := by
  obtain ⟨_, h1, u₂, h2, _, h3, h4⟩ := h
  obtain ⟨l, rfl, -⟩ := i_word h1
  have ht : F C .classTail u₂ v := by
    obtain ⟨l₁, l₂, u', rfl, hb⟩ := i_nt (n := ClassBody) hC h4
    rcases h3 with rfl | h3
    · exact .classBody hb
    · obtain ⟨l₃, u', rfl, hl⟩ := i_nt (n := ClassHeritage) hC h3
      obtain ⟨e, g, hf⟩ := Left.frag hl true
      exact .extends hf hb
  rcases i_declared h2 with ⟨l', n, rfl, hn⟩ | ⟨rfl, hd⟩
  · exact .name hn ht
  · exact .anon hd ht

theorem leaf_ClassHeritage (hC : CtxOk C) (h : I Leaf (production ClassHeritage) C u v) : Leaf ClassHeritage C u v := by
  obtain ⟨_, h1, h2⟩ := h
  obtain ⟨l, rfl, -⟩ := i_word h1
  exact ⟨l, _, rfl, (i_nt hC h2).1⟩

theorem leaf_ClassBody (hC : CtxOk C) (h : I Leaf (production ClassBody) C u v) : Leaf ClassBody C u v := by
  obtain ⟨_, h1, _, h2, h3⟩ := h
  obtain ⟨l, rfl, -⟩ := i_punct h1
  obtain ⟨l', rfl, -⟩ := i_punct h3
  refine ⟨l, l', _, rfl, ?_⟩
  refine Rep.fold (S := fun u v => F C .elements u v) h2 .elementsNil ?_
  intro u w h ih
  rcases i_nt hC h with ⟨l, rfl⟩ | hm | ⟨l, u', rfl, hm⟩
  · exact .elementsSemi ih
  · exact .elementsCons hm ih
  · exact .elementsStatic hm ih

theorem leaf_ClassElement (hC : CtxOk C) (h : I Leaf (production ClassElement) C u v) : Leaf ClassElement C u v := by
  rcases h with h | h
  · obtain ⟨l, rfl, -⟩ := i_punct h
    exact .inl ⟨l, rfl⟩
  · exact .inr (i_method hC h)

/-! ## Modules -/

theorem leaf_Specifier (h : I Leaf (G.seqs [.name, .opt (G.seqs [.kw b!"as", .name])]) C u v) : Specifier u v := by
  obtain ⟨_, ⟨l, _, rfl, ⟨n, rfl⟩, -⟩, h⟩ := h
  refine ⟨l, n, _, rfl, ?_⟩
  rcases h with rfl | ⟨_, h1, ⟨l'', _, rfl, ⟨n', rfl⟩, -⟩⟩
  · exact .inl rfl
  · obtain ⟨l', rfl, -⟩ := i_word h1
    exact .inr ⟨l', l'', n', rfl⟩

theorem i_specifiers {n : NT} (hn : ∀ C u v, Leaf n C u v → Specifier u v) (hC : CtxOk C) (h : I Leaf (specifiers n) C u v) :
    ∃ l l' u', u = pt l .curlyOpen :: u' ∧ F C .specifiers u' (pt l' .curlyClose :: v) := by
  obtain ⟨_, h1, _, ⟨_, h2, h3⟩, h4⟩ := h
  obtain ⟨l, rfl, -⟩ := i_punct h1
  obtain ⟨l', rfl, -⟩ := i_punct h4
  refine ⟨l, l', _, rfl, ?_⟩
  refine Rep.fold (S := fun u _ => F C .specifiers u (pt l' .curlyClose :: v)) h2 ?_ ?_
  · rcases h3 with rfl | h3
    · exact .specifiersNil
    · obtain ⟨l, n, u', rfl, rfl | ⟨l', l'', n', rfl⟩⟩ := hn _ _ _ (i_nt hC h3)
      · exact .specifiersLast
      · exact .specifiersAsLast
  · rintro u w ⟨_, h1, h2⟩ ih
    obtain ⟨l₁, rfl, -⟩ := i_punct h2
    obtain ⟨l, n, u', rfl, rfl | ⟨l', l'', n', rfl⟩⟩ := hn _ _ _ (i_nt hC h1)
    · exact .specifiersCons ih
    · exact .specifiersAs ih

theorem i_starAs (h : I Leaf starAs C u v) : ∃ l l' l'' n, u = pt l .star :: kw l' b!"as" :: kw l'' n :: v ∧ Named true C n := by
  obtain ⟨_, h1, _, h2, h3⟩ := h
  obtain ⟨l, rfl, -⟩ := i_punct h1
  obtain ⟨l', rfl, -⟩ := i_word h2
  obtain ⟨l'', n, rfl, hn⟩ := i_binding h3
  exact ⟨l, l', l'', n, rfl, hn⟩

theorem leaf_Import (hC : CtxOk C) (h : I Leaf (production ImportDeclaration) C u v) : Leaf ImportDeclaration C u v := by
  obtain ⟨_, h1, _, h2, hs, -⟩ := h
  obtain ⟨l, rfl, -⟩ := i_word h1
  rcases h2 with ⟨l', _, rfl, ⟨x, rfl⟩, -⟩ | ⟨_, h2, _, h3, ⟨l', _, rfl, ⟨x, rfl⟩, -⟩⟩
  · exact .importFile hs
  · obtain ⟨l'', rfl, -⟩ := i_word h3
    rcases h2 with h2 | h2 | h2 | ⟨_, h2, _, h4, h5 | h5⟩
    · obtain ⟨l₁, n, rfl, hn⟩ := i_binding h2
      exact .importDefault hn hs
    · obtain ⟨l₁, l₂, l₃, n, rfl, hn⟩ := i_starAs h2
      exact .importStar hn hs
    · obtain ⟨l₁, l₂, u', rfl, h⟩ := i_specifiers (fun _ _ _ h => h) hC h2
      exact .importNames h hs
    · obtain ⟨l₁, n, rfl, hn⟩ := i_binding h2
      obtain ⟨l₂, rfl, -⟩ := i_punct h4
      obtain ⟨l₃, l₄, l₅, n', rfl, hn'⟩ := i_starAs h5
      exact .importBothStar hn hn' hs
    · obtain ⟨l₁, n, rfl, hn⟩ := i_binding h2
      obtain ⟨l₂, rfl, -⟩ := i_punct h4
      obtain ⟨l₃, l₄, u', rfl, h⟩ := i_specifiers (fun _ _ _ h => h) hC h5
      exact .importBoth hn h hs

theorem _root_.Jsparse.Spec.RawSemi.fresh (h : RawSemi u v) (hv : Fresh v) : Fresh u := by
  cases h with
  | token => exact fresh_pt
  | insert => exact hv

/-- The second semicolon, behind an inserted one. -/
theorem _root_.Jsparse.Spec.RawSemi.same {x : Tok} (h : RawSemi (x :: w) v) (hx : x.2 ≠ .punct .semicolon) : v = x :: w := by
  cases h with
  | token => exact absurd rfl hx
  | insert => rfl

theorem leaf_Export (hC : CtxOk C) (h : I Leaf (production ExportDeclaration) C u v) : Leaf ExportDeclaration C u v := by
  intro hv
  rcases h with ⟨_, h1, _, h2, h3⟩ | ⟨_, h1, _, h2, h3⟩ | ⟨_, h1, _, h2, _, ⟨rfl, hf⟩, _, ⟨rfl, x, w, rfl, hx, hc⟩, u₃, h3, hs, hc'⟩ |
    ⟨_, h1, u₂, h2, hs, hc⟩
  · obtain ⟨l, rfl, -⟩ := i_word h1
    obtain ⟨l', rfl, -⟩ := i_word h2
    have h3 : FuncDecl { C with default := true } _ _ := h3.2 hC.exported
    cases h3 with
    | func hn h => exact .exportFuncName hn h
    | gen hn h => exact .exportGenName hn h
    | funcAnon _ h => exact .exportFunc h
    | genAnon _ h => exact .exportGen h
    | async hn h =>
      obtain ⟨l, l', u', u'', rfl, hp, hb⟩ := h
      exact .exportAsyncName hn hp hb
    | asyncAnon _ h =>
      obtain ⟨l, l', u', u'', rfl, hp, hb⟩ := h
      exact .exportAsync hp hb
  · obtain ⟨l, rfl, -⟩ := i_word h1
    obtain ⟨l', rfl, -⟩ := i_word h2
    have h3 : ClassDecl { C with default := true } _ _ := h3.2 hC.exported
    cases h3 with
    | name hn h => exact .exportClassName hn h
    | anon _ h => exact .exportClass h
  · obtain ⟨l, rfl, -⟩ := i_word h1
    obtain ⟨l', rfl, -⟩ := i_word h2
    have he : Leaf Expression { C with default := true, in_ := true } (x :: w) u₃ := h3.2 (ctxOk_in.2 hC.exported)
    have hx : x.2 ∉ [Token.ident b!"function", .ident b!"class"] := by
      simp only [List.mem_cons, List.not_mem_nil, or_false, not_or]
      refine ⟨fun hx' => hf ?_, fun h => hx (List.mem_singleton.2 h)⟩
      obtain ⟨z, w', rfl, hz⟩ := Forward.twices (he.1 true) _ _ rfl hx'
      exact ⟨x, z, w', rfl, hx', fun h => hz h.2⟩
    rcases expr_semi rfl he hs hc' hv with h | ⟨y, v', rfl, rfl, h, hy⟩
    · exact .exportExpr hx hc.notRegex (he.1 _) h
    · exact .exportExprOpen hx hc.notRegex (h _) hy.1 hy.2
  · obtain ⟨l, rfl, -⟩ := i_word h1
    rcases h2 with h2 | h2 | h2 | ⟨_, h2, _, h3, ⟨l', _, rfl, ⟨x, rfl⟩, -⟩⟩ | ⟨_, h2, h3⟩
    · obtain ⟨l', u', rfl, h⟩ := i_nt hC h2
      rcases h (hs.fresh hv) with ⟨w, hd, hs'⟩ | ⟨x, v', rfl, ho, hl, hx⟩ | ⟨hi, -⟩
      · exact .exportVar hd hs' hs
      · cases hs.same fun h => hx (by simp [h])
        exact .exportVarOpen ho hl hx
      · cases hi
    · obtain ⟨l', u', rfl, h⟩ := i_nt hC h2
      rcases h (hs.fresh hv) with ⟨w, hd, hs'⟩ | ⟨x, v', rfl, ho, hl, hx⟩ | ⟨hi, v', rfl, hd⟩
      · exact .exportLet hd hs' hs
      · cases hs.same fun h => hx (by simp [h])
        exact .exportLetOpen ho hl hx
      · cases hs.same nofun
        exact .exportLetIn rfl hi hd
    · obtain ⟨l', u', rfl, h⟩ := i_nt hC h2
      rcases h (hs.fresh hv) with ⟨w, hd, hs'⟩ | ⟨x, v', rfl, ho, hl, hx⟩ | ⟨hi, v', rfl, hd⟩
      · exact .exportConst hd hs' hs
      · cases hs.same fun h => hx (by simp [h])
        exact .exportConstOpen ho hl hx
      · cases hs.same nofun
        exact .exportConstIn rfl hi hd
    · obtain ⟨l₁, rfl, -⟩ := i_punct h2
      obtain ⟨l₂, rfl, -⟩ := i_word h3
      exact .exportStar hs
    · obtain ⟨l₁, l₂, u', rfl, h⟩ := i_specifiers (fun _ _ _ h => h) hC h2
      rcases h3 with ⟨_, h3, ⟨l', _, rfl, ⟨x, rfl⟩, -⟩⟩ | ⟨rfl, x, w, rfl, hx, -⟩
      · obtain ⟨l₃, rfl, -⟩ := i_word h3
        exact .exportNamesFrom h hs
      · exact .exportNames h hs (notNext_of hx)

theorem leaf_all (n : NT) (C : Ctx) (u v : List Tok) (hC : CtxOk C) (hu : CoreList u) (h : I Leaf (production n) C u v) :
    Leaf n C u v := by
  cases n
  case Module => exact leaf_Module hC h
  case ModuleItem => exact leaf_ModuleItem hC h
  case StatementListItem => exact leaf_StatementListItem hC h
  case Declaration => exact leaf_Declaration hC h
  case Statement => exact leaf_Statement hC hu h
  case Block => exact leaf_Block hC h
  case VariableStatement => exact leaf_VariableStatement hC h
  case VariableDeclaration => exact leaf_VariableDeclaration hC h
  case ExpressionStatement => exact leaf_ExpressionStatement hC h
  case IfStatement => exact leaf_IfStatement hC h
  case BreakableStatement => exact leaf_BreakableStatement hC h
  case IterationStatement => exact leaf_IterationStatement hC h
  case DoWhile => exact leaf_DoWhile hC h
  case While => exact leaf_While hC h
  case For => exact leaf_For hC h
  case SwitchStatement => exact leaf_SwitchStatement hC h
  case CaseClause => exact leaf_CaseClause hC h
  case DefaultClause => exact leaf_DefaultClause hC h
  case ContinueStatement => exact fun _ => i_jump (by decide) h
  case BreakStatement => exact fun _ => i_jump (by decide) h
  case ReturnStatement => exact leaf_Return hC h
  case WithStatement => exact leaf_With hC h
  case LabelledStatement => exact leaf_Labelled hC h
  case ThrowStatement => exact leaf_Throw hC h
  case TryStatement => exact leaf_Try hC h
  case DebuggerStatement => exact leaf_Debugger h
  case LetDeclaration => exact leaf_LetDeclaration hC h
  case ConstDeclaration => exact leaf_ConstDeclaration hC h
  case LexicalBinding => exact leaf_LexicalBinding hC h
  case BindingPattern => exact leaf_BindingPattern hC h
  case ObjectBindingPattern => exact leaf_ObjectBindingPattern hC h
  case ArrayBindingPattern => exact leaf_ArrayBindingPattern hC h
  case BindingProperty => exact leaf_BindingProperty hC h
  case BindingElement => exact leaf_BindingElement hC h
  case BindingRestElement => exact leaf_BindingRest hC h
  case Initializer => exact leaf_Initializer hC h
  case PropertyName => exact leaf_PropertyName hC h
  case FunctionDeclaration => exact leaf_FunctionDeclaration hC h
  case FunctionExpression => exact leaf_FunctionExpression hC h
  case FunctionRest => exact leaf_FunctionRest hC h
  case FormalParameters => exact leaf_FormalParameters hC h
  case ClassDeclaration => exact leaf_ClassDeclaration hC h
  case ClassHeritage => exact leaf_ClassHeritage hC h
  case ClassBody => exact leaf_ClassBody hC h
  case ClassElement => exact leaf_ClassElement hC h
  case MethodHead => exact leaf_MethodHead hC h
  case MethodTail => exact leaf_MethodTail hC h
  case ImportDeclaration => exact leaf_Import hC h
  case ImportSpecifier => exact leaf_Specifier h
  case ExportDeclaration => exact leaf_Export hC h
  case ExportSpecifier => exact leaf_Specifier h
  case Expression => exact leaf_Expression hC h
  case AssignmentExpression => exact leaf_Assignment hC h
  case ArrowBody => exact leaf_ArrowBody hC h
  case YieldExpression => exact leaf_Yield hC h
  case ConditionalExpression => exact leaf_Conditional hC h
  case BinaryExpression => exact leaf_Binary hC h
  case UnaryExpression => exact leaf_Unary hC h
  case UpdateExpression => exact leaf_Update hC h
  case LeftHandSideExpression => exact leaf_Left hC h
  case Arguments => exact leaf_Arguments hC h
  case PrimaryExpression => exact leaf_Primary hC h
  case ArrayLiteral => exact leaf_ArrayLiteral hC h
  case ArrayElement => exact leaf_ArrayElement hC h
  case ObjectLiteral => exact leaf_ObjectLiteral hC h
  case PropertyDefinition => exact leaf_PropertyDefinition hC h
  case TemplateLiteral => exact leaf_Template hC h
  case CoverParenthesized => exact leaf_Cover hC h

/-- On core tokens, the programs of the grammar are programs of the fragment. -/
theorem frag_of_program (hu : CoreList u) (h : Program u) : F {} .program u [] :=
  i_nt (C := {}) ⟨rfl⟩ (der_I leaf_all h hu).2 rfl

end

end Jsparse.Core
