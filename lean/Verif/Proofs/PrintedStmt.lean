import Verif.Proofs.PrintedExpr
/-!
# The tokens of a printed script are derived in the grammar of the parser
-/

namespace Jsparse.Ast.Printed

open Jsparse.Spec

/-- What may not follow a statement. -/
def E (b : Bool) : List Token := .ident b!"finally" :: if b then [] else [.ident b!"else"]

def SD (b : Bool) (u : List Tok) : Prop :=
  ∀ r, Follow (E b) r → Der (C false) (.nt .Statement) (u ++ r) r

def ID (b : Bool) (u : List Tok) : Prop :=
  ∀ r, Follow (E b) r → Der (C false) (.nt .StatementListItem) (u ++ r) r

/-- The tokens `u` of a statement `s`. -/
structure Stmt (b i : Bool) (s : Node) (u : List Tok) : Prop where
  first : Follow [.ident b!"finally", .ident b!"else"] u
  plain : Seg u
  item : ID b u
  stmt : i = false → SD b u
  block : ∀ l, s = .block l → ∀ r, Der (C false) (.nt .Block) (u ++ r) r

theorem Stmt.of {b i : Bool} {s : Node} {u : List Tok}
    (hf : Follow (.ident b!"finally" :: .ident b!"else" :: declarationWords) u) (hp : Seg u) (h : SD b u)
    (hb : ∀ l, s ≠ .block l) : Stmt b i s u :=
  ⟨hf.mono (by decide), hp,
    fun r hr => .nt (.altr (.seq (der_notAhead (hf.append r) (by decide)) (h r hr))), fun _ => h,
    fun l e => absurd e (hb l)⟩

theorem Follow.any {r : List Tok} (h : Follow (E false) r) : Follow (E true) r :=
  h.mono (by decide)

theorem semi_plain : Seg1 (.punct .semicolon) := seg_punct (by decide)

theorem seg_name {n : Bytes} (h : LegalName n) : Seg1 (.ident n) := seg_ident h.2.1.2.1

/-- A list of items with commas behind them, as items with commas in front. -/
theorem commas {us : List (List Tok)} {last : List Tok} {Q : List Tok → Prop} (h : ∀ u ∈ us, Q u)
    (hl : Q last) : ∃ (a : List Tok) (bs : List (List Tok)),
      us.flatMap (· ++ [comma]) ++ last = a ++ bs.flatMap (comma :: ·) ∧ Q a ∧ ∀ b ∈ bs, Q b := by
  induction us with
  | nil => exact ⟨last, [], by simp, hl, by simp⟩
  | cons u us ih =>
    obtain ⟨a, bs, e, ha, hb⟩ := ih fun u hu => h u (by simp [hu])
    refine ⟨u, a :: bs, ?_, h u (by simp), by simpa using ⟨ha, hb⟩⟩
    simp [List.append_assoc, e]

/-- The nonterminal of declarators. -/
def declG : DeclKind → G
  | .var => .inn (.nt .VariableDeclaration)
  | .«let» => .nt (.LexicalBinding false)
  | .const => .nt (.LexicalBinding true)

def Dv (kind : DeclKind) (u : List Tok) : Prop :=
  ∀ r, Follow L4 r → Der (C false) (declG kind) (u ++ r) r

theorem der_declarator {kind : DeclKind} {d : Node} {ps : List Piece} (h : ReadsDeclarator d ps)
    (hl : LegalDeclarator kind d) : ∃ u, Written ps u ∧ Seg u ∧ Dv kind u := by
  cases h with
  | name n =>
    cases hl with
    | name hn hk =>
      refine ⟨_, .ident hn.1 .nil, .single (seg_name hn), fun r hr => ?_⟩
      cases kind with
      | var => exact .par (.nt (.altr (.seq (.t ⟨n, rfl, hn.2.1⟩) (.altr (der_notAhead hr (by decide))))))
      | «let» => exact .nt (.altr (.seq (.t ⟨n, rfl, hn.2.1⟩) (.altr (der_notAhead hr (by decide)))))
      | const => exact absurd rfl hk
  | @init n e ps he =>
    cases hl with
    | init hn hl =>
      obtain ⟨u, a, b, c⟩ := der_expr he _ hl
      refine ⟨_, .ident hn.1 (.punct .eq rfl a),
        (Seg.single (seg_name hn)).assign ⟨[], _, rfl, trivial⟩ b.plain, fun r hr => ?_⟩
      cases kind with
      | var => exact .par (.nt (.altr (.seq (.t ⟨n, rfl, hn.2.1⟩) (.altl (.nt (.seq (.t rfl) (c r hr)))))))
      | «let» => exact .nt (.altr (.seq (.t ⟨n, rfl, hn.2.1⟩) (.altl (.nt (.seq (.t rfl) (c r hr))))))
      | const => exact .nt (.altr (.seq (.t ⟨n, rfl, hn.2.1⟩) (.nt (.seq (.t rfl) (c r hr)))))

theorem der_more' {c : Ctx} {g : G} {bs : List (List Tok)} {r : List Tok}
    (h : ∀ b ∈ bs, ∀ r, Follow L4 r → Der c g (b ++ r) r) (hr : Follow L5 r) :
    Der c (.star (.seqs [.p .comma, g])) (bs.flatMap (comma :: ·) ++ r) r := by
  induction bs with
  | nil => exact .nil
  | cons b bs ih =>
    have e : (b :: bs).flatMap (comma :: ·) ++ r =
        comma :: (b ++ (bs.flatMap (comma :: ·) ++ r)) := by simp
    rw [e]
    exact .star (.seq (.t rfl) (h b (by simp) _ (follow_more hr bs)))
      (ih fun b hb => h b (by simp [hb]))

theorem written_decls {kind : DeclKind} (decls : List (Node × List Piece))
    (h : ∀ d ∈ decls, ReadsDeclarator d.1 d.2) (hl : ∀ d ∈ decls, LegalDeclarator kind d.1) :
    ∃ us : List (List Tok), Written (decls.flatMap (fun d => d.2 ++ [.punct .comma]))
      (us.flatMap (· ++ [comma])) ∧ ∀ u ∈ us, Seg u ∧ Dv kind u := by
  induction decls with
  | nil => exact ⟨[], .nil, by simp⟩
  | cons d decls ih =>
    obtain ⟨us, hw, hu⟩ := ih (fun d hd => h d (by simp [hd])) (fun d hd => hl d (by simp [hd]))
    obtain ⟨u, hw', hg⟩ := der_declarator (h d (by simp)) (hl d (by simp))
    refine ⟨u :: us, ?_, ?_⟩
    · simp only [List.flatMap_cons]
      exact Written.append (Written.append hw' (.punct .comma rfl .nil)) hw
    · intro x hx
      rcases List.mem_cons.1 hx with rfl | hx
      · exact hg
      · exact hu x hx

theorem der_decls {kind : DeclKind} {us : List (List Tok)} {last r : List Tok}
    (h : ∀ u ∈ us, Dv kind u) (hl : Dv kind last) (hr : Follow L5 r) {g : G} {w : List Tok}
    (hg : Der (C false) g r w) :
    Der (C false) (.seq (declG kind) (.seq (.star (.seqs [.p .comma, declG kind])) g))
      (us.flatMap (· ++ [comma]) ++ last ++ r) w := by
  obtain ⟨a, bs, e, ha, hb⟩ := commas h hl
  rw [e, List.append_assoc]
  exact .seq (ha _ (follow_more hr bs)) (.seq (der_more' hb hr) hg)

/-- A parameter. -/
def Pv (u : List Tok) : Prop :=
  ∀ r g v, Follow L4 r → Der (C false) g r v →
    Der (C false) (.seq .patternOrName (.seq (.opt (.nt .Initializer)) g)) (u ++ r) v

theorem der_param {d : Node} {ps : List Piece} (h : ReadsDeclarator d ps)
    (hl : LegalDeclarator .«let» d) : ∃ u, Written ps u ∧ Seg u ∧ Pv u ∧
      ∀ r, Follow L4 r → Der (C false) (.seqs [.patternOrName, .opt (.nt .Initializer)]) (u ++ r) r := by
  cases h with
  | name n =>
    cases hl with
    | name hn hk =>
      exact ⟨_, .ident hn.1 .nil, .single (seg_name hn),
        fun r g v hr hg => .seq (.altr (.t ⟨n, rfl, hn.2.1⟩)) (.seq .skip hg),
        fun r hr => .seq (.altr (.t ⟨n, rfl, hn.2.1⟩)) .skip⟩
  | @init n e ps he =>
    cases hl with
    | init hn hl =>
      obtain ⟨u, a, b, c⟩ := der_expr he _ hl
      exact ⟨_, .ident hn.1 (.punct .eq rfl a),
        (Seg.single (seg_name hn)).assign ⟨[], _, rfl, trivial⟩ b.plain,
        fun r g v hr hg => .seq (.altr (.t ⟨n, rfl, hn.2.1⟩))
          (.seq (.opt (.nt (.seq (.t rfl) (c r hr)))) hg),
        fun r hr => .seq (.altr (.t ⟨n, rfl, hn.2.1⟩)) (.opt (.nt (.seq (.t rfl) (c r hr))))⟩

theorem written_params (params : List (Node × List Piece))
    (h : ∀ d ∈ params, ReadsDeclarator d.1 d.2) (hl : ∀ d ∈ params, LegalDeclarator .«let» d.1) :
    ∃ us : List (List Tok), Written (params.flatMap (fun d => d.2 ++ [.punct .comma]))
      (us.flatMap (· ++ [comma])) ∧ ∀ u ∈ us, Seg u ∧ Pv u := by
  induction params with
  | nil => exact ⟨[], .nil, by simp⟩
  | cons d params ih =>
    obtain ⟨us, hw, hu⟩ := ih (fun d hd => h d (by simp [hd])) (fun d hd => hl d (by simp [hd]))
    obtain ⟨u, hw', hs, hg, _⟩ := der_param (h d (by simp)) (hl d (by simp))
    refine ⟨u :: us, ?_, ?_⟩
    · simp only [List.flatMap_cons]
      exact Written.append (Written.append hw' (.punct .comma rfl .nil)) hw
    · intro x hx
      rcases List.mem_cons.1 hx with rfl | hx
      · exact ⟨hs, hg⟩
      · exact hu x hx

theorem der_params {us : List (List Tok)} (h : ∀ u ∈ us, Pv u) {r v : List Tok} {g : G}
    (hg : Der (C false) g r v) :
    Der (C false) (.seq (.star (.seqs [.patternOrName, .opt (.nt .Initializer), .p .comma])) g)
      (us.flatMap (· ++ [comma]) ++ r) v := by
  refine .seq (v := r) ?_ hg
  induction us with
  | nil => exact .nil
  | cons u us ih =>
    have e : (u :: us).flatMap (· ++ [comma]) ++ r = u ++ comma :: (us.flatMap (· ++ [comma]) ++ r) := by
      simp
    rw [e]
    exact .star (h u (by simp) _ _ _ (follow_punct (by decide) (by decide) _) (.t rfl))
      (ih fun u hu => h u (by simp [hu]))

/-- The parameters of a function. -/
theorem written_formal {l : Nodes} {last : Node} {ps : List Piece} (params : List (Node × List Piece))
    (hi : items l = params.map (·.1)) (h : ∀ d ∈ params, ReadsDeclarator d.1 d.2)
    (hl : ∀ d ∈ items l, LegalDeclarator .«let» d) (h' : ReadsLast last ps)
    (hl' : last = .none ∨ LegalDeclarator .«let» last) :
    ∃ u, Written (params.flatMap (fun d => d.2 ++ [.punct .comma]) ++ ps) u ∧ Seg u ∧
      ∀ r, Der (C false) (.nt .FormalParameters)
        ((false, .punct .parenOpen) :: (u ++ (false, .punct .parenClose) :: r)) r := by
  obtain ⟨us, a, b⟩ := written_params params h fun d hd => hl _ (hi ▸ List.mem_map_of_mem hd)
  cases h' with
  | none =>
    refine ⟨_, Written.append a .nil, (plain_args fun u hu => (b u hu).1).append .nil, fun r => ?_⟩
    rw [List.append_nil]
    exact .nt (.seq (.t rfl) (der_params (fun u hu => (b u hu).2) (.seq .skip (.t rfl))))
  | some hd =>
    have hl' := hl'.resolve_left (by rintro rfl; cases hd)
    obtain ⟨v, a', b', _, c'⟩ := der_param hd hl'
    refine ⟨_, Written.append a a', (plain_args fun u hu => (b u hu).1).append b', fun r => ?_⟩
    rw [List.append_assoc]
    exact .nt (.seq (.t rfl) (der_params (fun u hu => (b u hu).2)
      (.seq (.opt (.altr (c' _ (follow_punct (by decide) (by decide) _)))) (.t rfl))))

/-- The statements of a list. -/
theorem written_stmts {g : G}
    (hg : ∀ u v, Der (C false) (.nt .StatementListItem) u v → Der (C false) g u v)
    (stmts : List (Node × List Piece))
    (h : ∀ s ∈ stmts, ∃ u, Written s.2 u ∧ Stmt false true s.1 u) :
    ∃ us : List (List Tok), Written (stmts.flatMap (·.2)) us.flatten ∧
      Seg us.flatten ∧
      ∀ r, Follow [.ident b!"finally", .ident b!"else"] r →
        Follow [.ident b!"finally", .ident b!"else"] (us.flatten ++ r) ∧
        Der (C false) (.star g) (us.flatten ++ r) r := by
  induction stmts with
  | nil => exact ⟨[], .nil, .nil, fun r hr => ⟨hr, .nil⟩⟩
  | cons s stmts ih =>
    obtain ⟨us, hw, hp, hd⟩ := ih fun s hs => h s (by simp [hs])
    obtain ⟨u, hw', hs⟩ := h s (by simp)
    refine ⟨u :: us, ?_, ?_, ?_⟩
    · simp only [List.flatMap_cons, List.flatten_cons]
      exact Written.append hw' hw
    · rw [List.flatten_cons]
      exact plain_append hs.plain hp
    · intro r hr
      rw [List.flatten_cons, List.append_assoc]
      exact ⟨hs.first.append _, .star (hg _ _ (hs.item _ (hd r hr).1)) (hd r hr).2⟩

theorem legalStmt_true {i : Bool} {s : Node} (h : LegalStmt i s) : LegalStmt true s := by
  cases h with
  | ifStmt a b => exact .ifStmt a b
  | ifElse a b c => exact .ifElse a b c
  | block a => exact .block a
  | exprStmt a => exact .exprStmt a
  | decl a b c => exact .decl (fun _ => rfl) b c
  | whileStmt a b => exact .whileStmt a b
  | withStmt a b => exact .withStmt a b
  | doWhile a b => exact .doWhile a b
  | forStmt a b c => exact .forStmt a b c
  | labelled a b => exact .labelled a b
  | tryFinally a b => exact .tryFinally a b
  | tryCatch a b c => exact .tryCatch a b c
  | tryCatchFinally a b c d => exact .tryCatchFinally a b c d
  | forIn a b c d => exact .forIn a b c d
  | forOf a b c d => exact .forOf a b c d
  | funcDecl a b c d => exact .funcDecl a b c d
  | ret => exact .ret
  | retValue a => exact .retValue a
  | «break» => exact .«break»
  | breakTo a => exact .breakTo a
  | «continue» => exact .«continue»
  | continueTo a => exact .continueTo a
  | debugger => exact .debugger
  | empty => exact .empty

/-- `( Expression )` -/
theorem written_paren {e : Node} {xs : List Piece} (h : ReadsExpr .normal e xs) (hl : Legal true e) :
    ∃ u, Written (.punct .parenL :: xs ++ [.punct .parenR]) u ∧ Seg u ∧
      ∀ r, Der (C false) .paren (u ++ r) r := by
  obtain ⟨u, a, b, c⟩ := der_expr h _ hl
  refine ⟨_, Written.append (.punct .parenOpen rfl a) (.punct .parenClose rfl .nil), ?_, fun r => ?_⟩
  · exact plain_append (plain_cons (seg_punct (by decide)) b.plain)
      (plain_cons (seg_punct (by decide)) .nil)
  · simp only [List.append_assoc, List.cons_append, List.nil_append]
    exact .seq (.t rfl) (.seq (.par (Exp.der c (follow_punct (by decide) (by decide) _))) (.t rfl))

/-- An expression in the head of a `for`. -/
theorem written_optional {e : Node} {xs : List Piece} (h : ReadsOptional e xs)
    (hl : e = .none ∨ Legal false e) :
    ∃ u, Written xs u ∧ Seg u ∧
      ∀ r, Follow L5 r → Der (C false) (.opt (.nt .Expression)) (u ++ r) r := by
  cases h with
  | none => exact ⟨[], .nil, .nil, fun r _ => .skip⟩
  | some h =>
    obtain ⟨u, a, b, c⟩ := der_expr h _ (hl.resolve_left (not_none h))
    exact ⟨u, a, b.plain, fun r hr => .opt (Exp.der c hr)⟩

/-- A loop over keys or values. -/
theorem loop_stmt {b i : Bool} {kind : DeclKind} {n : Bytes} {k : Keyword} {e s s' : Node}
    {xs ps : List Piece} {u v : List Tok}
    (hk : ∀ r, Der (C false) (.alt (.kw b!"in") (.kw b!"of")) ((false, .ident k.text) :: r) r)
    (hk' : k.text ≠ b!"yield") (hn : LegalName n) (hof : n ≠ b!"of") (a : Written xs u) (hg : Good u)
    (c : M .assignment true e u) (a' : Written ps v) (hs : Stmt b false s v) (hb : ∀ l, s' ≠ .block l) :
    ∃ w, Written (.kw .«for» :: .punct .parenL :: .kw (declWord kind) :: .ident n :: .kw k ::
      xs ++ .punct .parenR :: ps) w ∧ Stmt b i s' w := by
  have hw := Written.kw .«for» (.punct (p := .parenL) .parenOpen rfl (.kw (declWord kind) (.ident hn.1
    (.kw k (Written.append a (.punct (p := .parenR) .parenClose rfl a'))))))
  refine ⟨_, by simpa using hw, Stmt.of (follow_ident (by decide) (by decide) _)
    (plain_cons (seg_ident (by decide)) (plain_cons (seg_punct (by decide)) (plain_cons
      (seg_ident (by cases kind <;> decide)) (plain_cons (seg_name hn) (plain_cons (seg_ident hk')
        (plain_append hg.plain (plain_cons (seg_punct (by decide)) hs.plain)))))))
    (fun r hr => ?_) hb⟩
  simp only [List.append_assoc, List.cons_append, List.nil_append]
  refine .nt (.altr (.altr (.altr (.altr (.altl (.nt (.altl (.nt (.altr (.altr (.nt (.seq (.t rfl)
    (.seq (.t rfl) (.seq (v := (false, .punct .parenClose) :: (v ++ r)) ?_ (.seq (.t rfl)
      (hs.stmt rfl r hr))))))))))))))))
  refine .altr (.altr (.altr (.altl (.seq (v := (false, .ident n) :: _) ?_ (.seq
    (.altr (.t ⟨n, rfl, hn.2.1⟩)) (.seq (hk _) (.par
      (c _ (follow_punct (by decide) (by decide) _)))))))))
  cases kind with
  | var => exact .altl (.t rfl)
  | «let» => exact .altr (.altr (.seq (.t rfl) (.notAhead (by simpa using hof))))
  | const => exact .altr (.altl (.t rfl))

/-- The tokens of a statement are derived in the grammar of the parser. -/
theorem der_stmt {b : Bool} {s : Node} {ps : List Piece} (h : ReadsStmt b s ps) :
    ∀ i, LegalStmt i s → ∃ u, Written ps u ∧ Stmt b i s u := by
  induction h with
  | any _ ih =>
    intro i hl
    obtain ⟨u, a, b⟩ := ih i hl
    exact ⟨u, a, b.first, b.plain, fun r hr => b.item r (hr.any), fun hi r hr => b.stmt hi r hr.any,
      b.block⟩
  | @braces t c ps _ ih =>
    intro i hl
    obtain ⟨u, a, b⟩ := ih true (legalStmt_true hl)
    refine ⟨_, Written.append (.punct .curlyOpen rfl a) (.punct .curlyClose rfl .nil), Stmt.of ?_ ?_ ?_
      nofun⟩
    · exact follow_punct (by decide) (by decide) _
    · exact plain_append (plain_cons (seg_punct (by decide)) b.plain)
        (plain_cons (seg_punct (by decide)) .nil)
    · intro r hr
      simp only [List.append_assoc, List.cons_append, List.nil_append]
      exact .nt (.altl (.nt (.seq (.t rfl) (.seq (.star (b.item _
        (follow_punct (by decide) (by decide) _)) .nil) (.t rfl)))))
  | ifStmt ht _ ih =>
    intro i hl
    cases hl with
    | ifStmt hl hl' =>
      obtain ⟨u, a, b, c⟩ := written_paren ht hl
      obtain ⟨v, a', b'⟩ := ih false hl'
      have hw := Written.kw .«if» (Written.append a a')
      refine ⟨_, by simpa using hw, Stmt.of (follow_ident (by decide) (by decide) _)
        (plain_cons (seg_ident (by decide)) (plain_append b b'.plain)) (fun r hr => ?_) nofun⟩
      simp only [List.append_assoc, List.cons_append, List.nil_append]
      exact .nt (.altr (.altr (.altr (.altl (.nt (.seq (.t rfl) (.seq (c _) (.seq
        (b'.stmt rfl r hr) (.altr (der_notAhead hr (by decide)))))))))))
  | @ifElse b t c a xs ps qs ht _ _ ih ih' =>
    intro i hl
    cases hl with
    | ifElse hl hl' hl'' =>
      obtain ⟨u, a, b, c⟩ := written_paren ht hl
      obtain ⟨v, a', b'⟩ := ih false hl'
      obtain ⟨w, a'', b''⟩ := ih' false hl''
      have hw := Written.kw .«if» (Written.append a (Written.append a' (Written.kw .«else» a'')))
      refine ⟨_, by simpa using hw, Stmt.of (follow_ident (by decide) (by decide) _)
        (plain_cons (seg_ident (by decide)) (plain_append b (plain_append b'.plain
          (plain_cons (seg_ident (by decide)) b''.plain)))) (fun r hr => ?_) nofun⟩
      simp only [List.append_assoc, List.cons_append, List.nil_append]
      exact .nt (.altr (.altr (.altr (.altl (.nt (.seq (.t rfl) (.seq (c _) (.seq
        (b'.stmt rfl _ (follow_ident (by decide) (by decide) _))
        (.altl (.seq (.t rfl) (b''.stmt rfl r hr)))))))))))
  | block stmts hi _ ih =>
    intro i hl
    cases hl with
    | block hl =>
      obtain ⟨us, a, b, c⟩ := written_stmts (fun _ _ h => h) stmts fun s hs =>
        ih s hs true (hl _ (hi ▸ List.mem_map_of_mem hs))
      have hd : ∀ r, Der (C false) (.nt .Block) ((false, .punct .curlyOpen) :: us.flatten ++
          [(false, .punct .curlyClose)] ++ r) r := by
        intro r
        simp only [List.append_assoc, List.cons_append, List.nil_append]
        exact .nt (.seq (.t rfl) (.seq (c _ (follow_punct (by decide) (by decide) _)).2 (.t rfl)))
      refine ⟨_, Written.append (.punct .curlyOpen rfl a) (.punct .curlyClose rfl .nil),
        follow_punct (by decide) (by decide) _, ?_, fun r hr => ?_, fun _ r hr => .nt (.altl (hd r)),
        fun _ _ r => hd r⟩
      · exact plain_append (plain_cons (seg_punct (by decide)) b)
          (plain_cons (seg_punct (by decide)) .nil)
      · exact .nt (.altr (.seq (.notAhead (by decide)) (.nt (.altl (hd r)))))
  | exprStmt he =>
    intro i hl
    cases hl with
    | exprStmt hl =>
      obtain ⟨u, a, b, c⟩ := der_expr he _ hl
      refine ⟨_, Written.append a (.punct .semicolon rfl .nil), Stmt.of ((b.first.append _).mono (by decide))
        (plain_append b.plain (plain_cons semi_plain .nil)) (fun r hr => ?_) nofun⟩
      rw [List.append_assoc]
      exact .nt (.altr (.altr (.altr (.altr (.altr (.altr (.altr (.altr (.altr (.altr (.altr (.altr
        (.seq (der_notAhead (b.first.append _) (by decide)) (.altr (.nt (.seq (.par (Exp.der c
          (follow_punct (by decide) (by decide) _))) .semi))))))))))))))))
  | @decl kind l last ps decls hi hd hlast =>
    intro i hl
    cases hl with
    | decl hk hl hl' =>
      obtain ⟨us, a, b⟩ := written_decls decls hd fun d hd' => hl _ (hi ▸ List.mem_map_of_mem hd')
      obtain ⟨v, a', b', c'⟩ := der_declarator hlast hl'
      have hw := Written.kw (declWord kind) (Written.append (Written.append a a')
        (.punct (p := .semicolon) .semicolon rfl .nil))
      have hpl : Seg (us.flatMap (· ++ [comma]) ++ v ++ [(false, .punct .semicolon)]) :=
        ((plain_args fun u hu => (b u hu).1).append b').append (.single semi_plain)
      have key : ∀ r, Der (C false) (.seq (declG kind) (.seq (.star (.seqs [.p .comma, declG kind]))
          (.seqs [.notAhead [.punct .comma], .semi])))
          (us.flatMap (· ++ [comma]) ++ v ++ [(false, .punct .semicolon)] ++ r) r := by
        intro r
        have := der_decls (fun u hu => (b u hu).2) c' (r := (false, .punct .semicolon) :: r)
          (follow_punct (by decide) (by decide) _)
          (g := .seqs [.notAhead [.punct .comma], .semi]) (w := r)
          (.seq (.notAhead (by decide)) .semi)
        simpa using this
      refine ⟨_, by simpa using hw, ?_⟩
      cases kind with
      | var =>
        refine Stmt.of (follow_ident (by decide) (by decide) _)
          (plain_cons (seg_ident (by decide)) (by simpa using hpl)) (fun r hr => ?_) nofun
        have k := key r
        simp only [List.append_assoc, List.cons_append, List.nil_append] at k ⊢
        exact .nt (.altr (.altr (.altl (.nt (.seq (.t rfl) k)))))
      | «let» =>
        refine ⟨follow_ident (by decide) (by decide) _,
          plain_cons (seg_ident (by decide)) (by simpa using hpl), fun r hr => ?_, fun h => ?_, nofun⟩
        · have k := key r
          simp only [List.append_assoc, List.cons_append, List.nil_append] at k ⊢
          exact .nt (.altl (.nt (.altr (.altr (.altl (.nt (.seq (.t rfl) k)))))))
        · simp [h] at hk
      | const =>
        refine ⟨follow_ident (by decide) (by decide) _,
          plain_cons (seg_ident (by decide)) (by simpa using hpl), fun r hr => ?_, fun h => ?_, nofun⟩
        · have k := key r
          simp only [List.append_assoc, List.cons_append, List.nil_append] at k ⊢
          exact .nt (.altl (.nt (.altr (.altr (.altr (.nt (.seq (.t rfl) k)))))))
        · simp [h] at hk
  | whileStmt ht _ ih =>
    intro i hl
    cases hl with
    | whileStmt hl hl' =>
      obtain ⟨u, a, b, c⟩ := written_paren ht hl
      obtain ⟨v, a', b'⟩ := ih false hl'
      have hw := Written.kw .«while» (Written.append a a')
      refine ⟨_, by simpa using hw, Stmt.of (follow_ident (by decide) (by decide) _)
        (plain_cons (seg_ident (by decide)) (plain_append b b'.plain)) (fun r hr => ?_) nofun⟩
      simp only [List.append_assoc, List.cons_append, List.nil_append]
      exact .nt (.altr (.altr (.altr (.altr (.altl (.nt (.altl (.nt (.altr (.altl (.nt (.seq (.t rfl)
        (.seq (c _) (b'.stmt rfl r hr))))))))))))))
  | withStmt ht _ ih =>
    intro i hl
    cases hl with
    | withStmt hl hl' =>
      obtain ⟨u, a, b, c⟩ := written_paren ht hl
      obtain ⟨v, a', b'⟩ := ih false hl'
      have hw := Written.kw .«with» (Written.append a a')
      refine ⟨_, by simpa using hw, Stmt.of (follow_ident (by decide) (by decide) _)
        (plain_cons (seg_ident (by decide)) (plain_append b b'.plain)) (fun r hr => ?_) nofun⟩
      simp only [List.append_assoc, List.cons_append, List.nil_append]
      exact .nt (.altr (.altr (.altr (.altr (.altr (.altr (.altr (.altr (.altl (.nt (.seq (.t rfl)
        (.seq (c _) (b'.stmt rfl r hr)))))))))))))
  | doWhile ht _ ih =>
    intro i hl
    cases hl with
    | doWhile hl hl' =>
      obtain ⟨u, a, b, c⟩ := written_paren ht hl
      obtain ⟨v, a', b'⟩ := ih false hl'
      have hw := Written.kw .«do» (Written.append a' (Written.kw .«while» (Written.append a
        (.punct (p := .semicolon) .semicolon rfl .nil))))
      refine ⟨_, by simpa using hw, Stmt.of (follow_ident (by decide) (by decide) _)
        (plain_cons (seg_ident (by decide)) (plain_append b'.plain (plain_cons (seg_ident (by decide))
          (plain_append b (plain_cons semi_plain .nil))))) (fun r hr => ?_) nofun⟩
      simp only [List.append_assoc, List.cons_append, List.nil_append]
      exact .nt (.altr (.altr (.altr (.altr (.altl (.nt (.altl (.nt (.altl (.nt (.seq (.t rfl)
        (.seq (b'.stmt rfl _ (follow_ident (by decide) (by decide) _)) (.seq (.t rfl) (.seq (c _)
          .semiDo))))))))))))))
  | forStmt ht hu _ ih =>
    intro i hl
    cases hl with
    | forStmt hl hl' hl'' =>
      obtain ⟨u, a, b, c⟩ := written_optional ht hl
      obtain ⟨u', a', b', c'⟩ := written_optional hu hl'
      obtain ⟨v, a'', b''⟩ := ih false hl''
      have hw := Written.kw .«for» (.punct (p := .parenL) .parenOpen rfl (.punct (p := .semicolon)
        .semicolon rfl (Written.append a (.punct (p := .semicolon) .semicolon rfl (Written.append a'
          (.punct (p := .parenR) .parenClose rfl a''))))))
      refine ⟨_, by simpa using hw, Stmt.of (follow_ident (by decide) (by decide) _)
        (plain_cons (seg_ident (by decide)) (plain_cons (seg_punct (by decide)) (plain_cons semi_plain
          (plain_append b (plain_cons semi_plain (plain_append b' (plain_cons (seg_punct (by decide))
            b''.plain))))))) (fun r hr => ?_) nofun⟩
      simp only [List.append_assoc, List.cons_append, List.nil_append]
      refine .nt (.altr (.altr (.altr (.altr (.altl (.nt (.altl (.nt (.altr (.altr (.nt (.seq (.t rfl)
        (.seq (.t rfl) (.seq (v := (false, .punct .parenClose) :: (v ++ r)) ?_ (.seq (.t rfl)
          (b''.stmt rfl r hr))))))))))))))))
      refine .altr (.altr (.altr (.altr (.altl (.seq (.notDeclared ?_) (.seq .skip (.seq (.t rfl)
        (.seq (c _ (follow_punct (by decide) (by decide) _)) (.seq (.t rfl)
          (c' _ (follow_punct (by decide) (by decide) _)))))))))))
      rintro ⟨x, y, w, e, h⟩
      simp only [List.cons.injEq] at e
      obtain ⟨rfl, -⟩ := e
      simp at h
  | labelled _ ih =>
    intro i hl
    cases hl with
    | labelled hn hl =>
      obtain ⟨v, a, b⟩ := ih false hl
      have hf : ∀ w, Follow notFirst ((false, .ident _) :: w) := fun w =>
        ⟨_, w, rfl, lexeme_name_first hn, plain_name hn⟩
      refine ⟨_, .ident hn.1 (.punct .colon rfl a), Stmt.of ((hf _).mono (by decide))
        (plain_cons (seg_name hn) (plain_cons (seg_punct (by decide)) b.plain)) (fun r hr => ?_) nofun⟩
      exact .nt (.altr (.altr (.altr (.altr (.altr (.altr (.altr (.altr (.altr (.altr (.altr (.altr
        (.seq (der_notAhead (hf _) (by decide)) (.altl (.nt (.seq (.t ⟨_, rfl⟩) (.seq (.t rfl)
          (b.stmt rfl r hr))))))))))))))))))
  | tryFinally _ _ ih ih' =>
    intro i hl
    cases hl with
    | tryFinally hl hl' =>
      obtain ⟨u, a, b⟩ := ih false hl
      obtain ⟨v, a', b'⟩ := ih' false hl'
      have hw := Written.kw .«try» (Written.append a (Written.kw .«finally» a'))
      refine ⟨_, by simpa using hw, Stmt.of (follow_ident (by decide) (by decide) _)
        (plain_cons (seg_ident (by decide)) (plain_append b.plain (plain_cons (seg_ident (by decide))
          b'.plain))) (fun r hr => ?_) nofun⟩
      simp only [List.append_assoc, List.cons_append, List.nil_append]
      exact .nt (.altr (.altr (.altr (.altr (.altr (.altr (.altr (.altr (.altr (.altr (.altl (.nt (.seq
        (.t rfl) (.seq (b.block _ rfl _) (.seq (.altr (.notAhead (by decide))) (.altl (.seq (.t rfl)
          (b'.block _ rfl r))))))))))))))))))
  | @tryCatch l n l' ps qs _ _ ih ih' =>
    intro i hl
    cases hl with
    | tryCatch hn hl hl' =>
      obtain ⟨u, a, b⟩ := ih false hl
      obtain ⟨v, a', b'⟩ := ih' false hl'
      have hw := Written.kw .«try» (Written.append a (Written.kw .«catch» (.punct (p := .parenL)
        .parenOpen rfl (.ident hn.1 (.punct (p := .parenR) .parenClose rfl a')))))
      refine ⟨_, by simpa using hw, Stmt.of (follow_ident (by decide) (by decide) _)
        (plain_cons (seg_ident (by decide)) (plain_append b.plain (plain_cons (seg_ident (by decide))
          (plain_cons (seg_punct (by decide)) (plain_cons (seg_name hn)
            (plain_cons (seg_punct (by decide)) b'.plain)))))) (fun r hr => ?_) nofun⟩
      simp only [List.append_assoc, List.cons_append, List.nil_append]
      exact .nt (.altr (.altr (.altr (.altr (.altr (.altr (.altr (.altr (.altr (.altr (.altl (.nt (.seq
        (.t rfl) (.seq (b.block _ rfl _) (.seq (.altl (.seq (.t rfl) (.seq (.t rfl) (.seq
          (.altr (.t ⟨n, rfl, hn.2.1⟩)) (.seq (.t rfl) (b'.block _ rfl r))))))
          (.altr (der_notAhead hr (by decide))))))))))))))))))
  | @tryCatchFinally l n l' l'' ps qs rs _ _ _ ih ih' ih'' =>
    intro i hl
    cases hl with
    | tryCatchFinally hn hl hl' hl'' =>
      obtain ⟨u, a, b⟩ := ih false hl
      obtain ⟨v, a', b'⟩ := ih' false hl'
      obtain ⟨w, a'', b''⟩ := ih'' false hl''
      have hw := Written.kw .«try» (Written.append a (Written.kw .«catch» (.punct (p := .parenL)
        .parenOpen rfl (.ident hn.1 (.punct (p := .parenR) .parenClose rfl (Written.append a'
          (Written.kw .«finally» a'')))))))
      refine ⟨_, by simpa using hw, Stmt.of (follow_ident (by decide) (by decide) _)
        (plain_cons (seg_ident (by decide)) (plain_append b.plain (plain_cons (seg_ident (by decide))
          (plain_cons (seg_punct (by decide)) (plain_cons (seg_name hn)
            (plain_cons (seg_punct (by decide)) (plain_append b'.plain
              (plain_cons (seg_ident (by decide)) b''.plain)))))))) (fun r hr => ?_) nofun⟩
      simp only [List.append_assoc, List.cons_append, List.nil_append]
      exact .nt (.altr (.altr (.altr (.altr (.altr (.altr (.altr (.altr (.altr (.altr (.altl (.nt (.seq
        (.t rfl) (.seq (b.block _ rfl _) (.seq (.altl (.seq (.t rfl) (.seq (.t rfl) (.seq
          (.altr (.t ⟨n, rfl, hn.2.1⟩)) (.seq (.t rfl) (b'.block _ rfl _))))))
          (.altl (.seq (.t rfl) (b''.block _ rfl r))))))))))))))))))
  | @forIn b kind n e s xs ps he _ ih =>
    intro i hl
    cases hl with
    | forIn hn hof hl hl' =>
      obtain ⟨u, a, b, c⟩ := der_expr he _ hl
      obtain ⟨v, a', b'⟩ := ih false hl'
      exact loop_stmt (k := .«in») (fun _ => .altl (.t rfl)) (by decide) hn hof a b c a' b' nofun
  | @forOf b kind n e s xs ps he _ ih =>
    intro i hl
    cases hl with
    | forOf hn hof hl hl' =>
      obtain ⟨u, a, b, c⟩ := der_expr he _ hl
      obtain ⟨v, a', b'⟩ := ih false hl'
      exact loop_stmt (k := .of) (fun _ => .altr (.t rfl)) (by decide) hn hof a b c a' b' nofun
  | @funcDecl n l last body ps qs params hi hd hlast _ ih =>
    intro i hl
    cases hl with
    | funcDecl hn hl hl' hl'' =>
      obtain ⟨u, a, b, c⟩ := written_formal params hi hd hl hlast hl'
      obtain ⟨v, a', b'⟩ := ih false hl''
      have hw := Written.kw .«function» (.ident hn.1 (.punct (p := .parenL) .parenOpen rfl
        (Written.append a (.punct (p := .parenR) .parenClose rfl a'))))
      refine ⟨_, by simpa using hw, follow_ident (by decide) (by decide) _,
        plain_cons (seg_ident (by decide)) (plain_cons (seg_name hn) (plain_cons (seg_punct (by decide))
          (plain_append b (plain_cons (seg_punct (by decide)) b'.plain)))), fun r hr => ?_, nofun, nofun⟩
      simp only [List.append_assoc, List.cons_append, List.nil_append]
      exact .nt (.altl (.nt (.altr (.altl (.seq (.notAhead (by decide)) (.nt (.altr (.altl (.seq (.t rfl)
        (.seq (.altl (.t ⟨n, rfl, hn.2.1⟩)) (.nt (.seq (.par (.par (c _)))
          (.par (.par (b'.block _ rfl r)))))))))))))))
  | ret =>
    intro i _
    exact ⟨_, .kw .«return» (.punct .semicolon rfl .nil), Stmt.of (follow_ident (by decide) (by decide) _)
      (plain_cons (seg_ident (by decide)) (plain_cons semi_plain .nil)) (fun r hr =>
        .nt (.altr (.altr (.altr (.altr (.altr (.altr (.altr (.altl (.nt (.seq (.t rfl)
          (.seq .skip .semi)))))))))))) nofun⟩
  | retValue he =>
    intro i hl
    cases hl with
    | retValue hl =>
      obtain ⟨u, a, b, c⟩ := der_expr he _ hl
      have hw := Written.kw .«return» (Written.append a (.punct (p := .semicolon) .semicolon rfl .nil))
      refine ⟨_, by simpa using hw, Stmt.of (follow_ident (by decide) (by decide) _)
        (plain_cons (seg_ident (by decide)) (plain_append b.plain (plain_cons semi_plain .nil)))
        (fun r hr => ?_) nofun⟩
      simp only [List.append_assoc, List.cons_append, List.nil_append]
      exact .nt (.altr (.altr (.altr (.altr (.altr (.altr (.altr (.altl (.nt (.seq (.t rfl)
          (.seq (.opt (.seq (der_noLine (b.first.append _)) (.opt (.par (Exp.der c
            (follow_punct (by decide) (by decide) _)))))) .semi)))))))))))
  | «break» =>
    intro i _
    exact ⟨_, .kw .«break» (.punct .semicolon rfl .nil), Stmt.of (follow_ident (by decide) (by decide) _)
      (plain_cons (seg_ident (by decide)) (plain_cons semi_plain .nil)) (fun r hr =>
        .nt (.altr (.altr (.altr (.altr (.altr (.altr (.altl (.nt (.seq (.t rfl)
          (.seq .skip .semi))))))))))) nofun⟩
  | breakTo n =>
    intro i hl
    cases hl with
    | breakTo hn =>
      exact ⟨_, .kw .«break» (.ident hn.1 (.punct .semicolon rfl .nil)),
        Stmt.of (follow_ident (by decide) (by decide) _)
        (plain_cons (seg_ident (by decide)) (plain_cons (seg_name hn) (plain_cons semi_plain .nil)))
        (fun r hr => .nt (.altr (.altr (.altr (.altr (.altr (.altr (.altl (.nt (.seq (.t rfl)
          (.seq (.opt (.seq (.noLine rfl) (.opt (.t ⟨n, rfl, hn.2.1⟩)))) .semi))))))))))) nofun⟩
  | «continue» =>
    intro i _
    exact ⟨_, .kw .«continue» (.punct .semicolon rfl .nil), Stmt.of (follow_ident (by decide) (by decide) _)
      (plain_cons (seg_ident (by decide)) (plain_cons semi_plain .nil)) (fun r hr =>
        .nt (.altr (.altr (.altr (.altr (.altr (.altl (.nt (.seq (.t rfl)
          (.seq .skip .semi)))))))))) nofun⟩
  | continueTo n =>
    intro i hl
    cases hl with
    | continueTo hn =>
      exact ⟨_, .kw .«continue» (.ident hn.1 (.punct .semicolon rfl .nil)),
        Stmt.of (follow_ident (by decide) (by decide) _)
        (plain_cons (seg_ident (by decide)) (plain_cons (seg_name hn) (plain_cons semi_plain .nil)))
        (fun r hr => .nt (.altr (.altr (.altr (.altr (.altr (.altl (.nt (.seq (.t rfl)
          (.seq (.opt (.seq (.noLine rfl) (.opt (.t ⟨n, rfl, hn.2.1⟩)))) .semi)))))))))) nofun⟩
  | debugger =>
    intro i _
    exact ⟨_, .kw .debugger (.punct .semicolon rfl .nil), Stmt.of (follow_ident (by decide) (by decide) _)
      (plain_cons (seg_ident (by decide)) (plain_cons semi_plain .nil)) (fun r hr =>
        .nt (.altr (.altr (.altr (.altr (.altr (.altr (.altr (.altr (.altr (.altr (.altr (.altl (.nt
          (.seq (.t rfl) .semi))))))))))))))) nofun⟩
  | empty =>
    intro i _
    exact ⟨_, .punct .semicolon rfl .nil, Stmt.of (follow_punct (by decide) (by decide) _)
      (plain_cons semi_plain .nil) (fun r hr => .nt (.altr (.altl (.t rfl)))) nofun⟩

/-- The tokens of a script are derived in the grammar of the parser. -/
theorem der_script {stmts : List (Node × List Piece)} (h : ∀ s ∈ stmts, ReadsStmt false s.1 s.2)
    (hl : ∀ s ∈ stmts, LegalStmt true s.1) :
    ∃ u, Written (stmts.flatMap (·.2)) u ∧ Seg u ∧ Program (u ++ [(false, .eof)]) := by
  obtain ⟨us, a, b, c⟩ := written_stmts (g := .nt .ModuleItem) (fun _ _ h => .nt (.altl h)) stmts
    fun s hs => der_stmt (h s hs) true (hl s hs)
  refine ⟨_, a, b, .nt (.seq (c _ ⟨.eof, [], rfl, by decide, trivial, nofun, id⟩).2 (.t rfl))⟩

theorem coreText_of {u : List Tok} (h : ∀ x ∈ u, Plain x.2 ∧ x.1 = false) :
    CoreText (u ++ [(false, .eof)]) := by
  induction u with
  | nil => exact trivial
  | cons x u ih =>
    have ih := ih fun x hx => h x (by simp [hx])
    obtain ⟨⟨a, b, _⟩, c⟩ := h x (by simp)
    obtain ⟨l, t⟩ := x
    subst c
    cases u with
    | nil => exact ⟨a, fun h => absurd h b, ih⟩
    | cons y u => exact ⟨a, fun h => absurd h b, ih⟩

theorem written_line {ps : List Piece} {u : List Tok} (h : Written ps u) : ∀ x ∈ u, x.1 = false := by
  induction h with
  | nil => simp
  | _ => simp_all

end Jsparse.Ast.Printed
