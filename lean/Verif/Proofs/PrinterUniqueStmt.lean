import Verif.Proofs.PrinterUnique
/-!
# The grammar of statements is unambiguous

As for expressions: a parser finds the statement.
-/

namespace Jsparse.Ast

open Jsparse.Spec

/-- The tokens an expression may begin with. -/
def exprStart : Piece → Bool
  | .ident _ | .num _ => true
  | .kw k => k = .this || k = .null || k = .«true» || k = .«false» || k = .delete || k = .void ||
    k = .typeof || k = .await
  | .punct p => p = .sQuote || p = .parenL || p = .plusPlus || p = .minusMinus || p = .plus ||
    p = .minus || p = .tilde || p = .exclam || p = .squareL
  | _ => false

/-- The tokens begin with an expression and not with a label. -/
def isExprStart : List Piece → Bool
  | .ident _ :: r => r.head? ≠ some (.punct .colon)
  | x :: _ => exprStart x
  | [] => false

theorem starts {q : Prec} {e : Node} {xs : List Piece} (h : ReadsExpr q e xs) :
    ∃ x ys, xs = x :: ys ∧ exprStart x = true := by
  have app : ∀ {xs : List Piece}, (∃ x ys, xs = x :: ys ∧ exprStart x = true) →
      ∀ zs, ∃ x ys, xs ++ zs = x :: ys ∧ exprStart x = true := by
    rintro _ ⟨x, ys, rfl, h⟩ zs
    exact ⟨x, ys ++ zs, rfl, h⟩
  induction h with
  | weaken _ _ ih => exact ih
  | unary _ _ =>
    rename_i op e ps _ _
    exact ⟨_, _, rfl, by cases op <;> rfl⟩
  | _ => first
    | exact ⟨_, _, rfl, rfl⟩
    | (rename_i ih; exact app ih _)
    | ((try simp only [List.append_assoc]); apply app; assumption)

/-- An expression before a semicolon is not read as a label. -/
theorem starts_stmt {q : Prec} {e : Node} {xs rest : List Piece} (h : ReadsExpr q e xs) :
    isExprStart (xs ++ .punct .semicolon :: rest) = true := by
  obtain ⟨x, ys, rfl, hx⟩ := starts h
  cases x with
  | ident n =>
    simp only [List.cons_append, isExprStart, decide_eq_true_eq]
    intro hc
    have le : Prec.normal.num ≤ q.num := by cases q <;> decide
    have a := (found (h.weaken le)).inner (rest := .punct .semicolon :: rest)
      (by simp [cont, assignOf, binOf])
    obtain ⟨zs, hz⟩ : ∃ zs, ys ++ .punct .semicolon :: rest = .punct .colon :: zs := by
      cases hy : ys ++ .punct .semicolon :: rest with
      | nil => rw [hy] at hc; cases hc
      | cons y zs => rw [hy] at hc; exact ⟨zs, by rw [Option.some.inj hc]⟩
    have b : Ev fun n' => parse n' .normal (.ident n :: .punct .colon :: zs) =
        some (.ident n, .punct .colon :: zs) :=
      parse_of_prim (.always fun _ => rfl) (loop_stop (by simp [cont, assignOf, binOf, Cont.level,
        Prec.num]))
    rw [List.cons_append, hz] at a
    obtain ⟨N, hN⟩ := a.and b
    have := hN N (Nat.le_refl _)
    have := congrArg (fun x => x.2.head?) (Option.some.inj (this.1.symm.trans this.2))
    cases this
  | _ => exact hx

/-- An expression that may be missing, and the punctuator after it. -/
def opt (n : Nat) (p : Punct) (ts : List Piece) : Option (Node × List Piece) :=
  if ts.head? = some (.punct p) then some (.none, ts.tail)
  else (parse n .normal ts).bind (expect p)

/-- A declarator. -/
def declr (n : Nat) : List Piece → Option (Node × List Piece)
  | .ident x :: r =>
    if r.head? = some (.punct .eq) then (parse n .assignment r.tail).map fun y =>
      (.patternItem (.ident x) (.init y.1), y.2)
    else some (.patternItem (.ident x) .none, r)
  | _ => none

/-- The declarators up to the semicolon. -/
def decls : Nat → List Piece → Option (Nodes × Node × List Piece)
  | 0, _ => none
  | n + 1, ts => (declr n ts).bind fun x =>
    match x with
    | (d, .punct q :: r) =>
      if q = .comma then (decls n r).map fun y => (.cons d y.1, y.2)
      else if q = .semicolon then some (.nil, d, r) else none
    | _ => none

/-- The parameters up to the closing parenthesis. -/
def params : Nat → List Piece → Option (Nodes × Node × List Piece)
  | 0, _ => none
  | n + 1, ts =>
    if ts.head? = some (.punct .parenR) then some (.nil, .none, ts.tail)
    else (declr n ts).bind fun x =>
      match x with
      | (d, .punct q :: r) =>
        if q = .comma then (params n r).map fun y => (.cons d y.1, y.2)
        else if q = .parenR then some (.nil, d, r) else none
      | _ => none

/-- The kind of a declaration. -/
def kindOf : Keyword → Option DeclKind
  | .var => some .var | .«let» => some .«let» | .const => some .const | _ => none

/-- The beginning of a loop over keys or values. -/
def forVar : List Piece → Option (Bool × DeclKind × Bytes × List Piece)
  | .punct .parenL :: .kw k :: .ident x :: .kw k' :: r => (kindOf k).bind fun kind =>
    if k' = .«in» then some (false, kind, x, r) else if k' = .of then some (true, kind, x, r) else none
  | _ => none

/-- The rest after a keyword. -/
def expectKw (k : Keyword) : Node × List Piece → Option (Node × List Piece)
  | (e, .kw k' :: r) => if k' = k then some (e, r) else none
  | _ => none

/-- The expression in the head of a statement. -/
def head (n : Nat) : List Piece → Option (Node × List Piece)
  | .punct p :: r => if p = .parenL then (parse n .normal r).bind (expect .parenR) else none
  | _ => none

/-- The rest after `(;`. -/
def forHead : List Piece → Option (List Piece)
  | .punct .parenL :: .punct .semicolon :: r => some r
  | _ => none

/-- A label that may be missing, and the semicolon after it. -/
def label : List Piece → Option (Node × List Piece)
  | .punct .semicolon :: r => some (.none, r)
  | .ident x :: .punct .semicolon :: r => some (.ident x, r)
  | _ => none

mutual
/-- The parser of statements. -/
def stmt : Nat → List Piece → Option (Node × List Piece)
  | 0, _ => none
  | n + 1, ts =>
    if isExprStart ts then
      ((parse n .normal ts).bind (expect .semicolon)).map fun x => (.exprStmt x.1, x.2)
    else
      match ts with
      | .ident x :: r => (stmt n r.tail).map fun y => (.labelled (.ident x) y.1, y.2)
      | .punct .curlyL :: r => (stmts n r).map fun y => (mkBlock y.1, y.2)
      | .punct .semicolon :: r => some (.empty, r)
      | .kw .«if» :: r => (head n r).bind fun t => (stmt n t.2).bind fun c =>
        if c.2.head? = some (.kw .«else») then
          (stmt n c.2.tail).map fun a => (.ifElse t.1 c.1 a.1, a.2)
        else some (.ifStmt t.1 c.1, c.2)
      | .kw .«while» :: r => (head n r).bind fun t => (stmt n t.2).map fun s =>
        (.whileStmt t.1 s.1, s.2)
      | .kw .«with» :: r => (head n r).bind fun t => (stmt n t.2).map fun s =>
        (.withStmt t.1 s.1, s.2)
      | .kw .«do» :: r => ((stmt n r).bind (expectKw .«while»)).bind fun s =>
        ((head n s.2).bind (expect .semicolon)).map fun t => (.doWhile s.1 t.1, t.2)
      | .kw .«for» :: r =>
        match forVar r with
        | some (values, kind, x, r) => ((parse n .assignment r).bind (expect .parenR)).bind fun e =>
          (stmt n e.2).map fun s => (if values then
            .forOf false (.forPattern kind (.ident x) .none) e.1 s.1 else
            .forIn (.forPattern kind (.ident x) .none) e.1 s.1, s.2)
        | none => (forHead r).bind fun r => (opt n .semicolon r).bind fun t =>
          (opt n .parenR t.2).bind fun u => (stmt n u.2).map fun s =>
            (.forStmt .none t.1 u.1 s.1, s.2)
      | .kw .«try» :: r => (stmt n r).bind fun s =>
        match s.2 with
        | .kw .«catch» :: .punct .parenL :: .ident x :: .punct .parenR :: r =>
          (stmt n r).bind fun c =>
            if c.2.head? = some (.kw .«finally») then (stmt n c.2.tail).map fun z =>
              (.tryCatchFinally s.1 (.catchClause (.paren (.ident x)) c.1) z.1, z.2)
            else some (.tryCatch s.1 (.catchClause (.paren (.ident x)) c.1), c.2)
        | .kw .«finally» :: r => (stmt n r).map fun s' => (.tryFinally s.1 s'.1, s'.2)
        | _ => none
      | .kw .«function» :: .ident x :: .punct .parenL :: r => (params n r).bind fun p =>
        (stmt n p.2.2).map fun s => (.funcDecl .normal (.ident x) (.args p.1 p.2.1) s.1, s.2)
      | .kw .«return» :: r => 
        if r.head? = some (.punct .semicolon) then some (.ret .none, r.tail)
        else ((parse n .normal r).bind (expect .semicolon)).map fun x => (.ret (.retValue x.1), x.2)
      | .kw .«break» :: r => (label r).map fun l => (.«break» l.1, l.2)
      | .kw .«continue» :: r => (label r).map fun l => (.«continue» l.1, l.2)
      | .kw .debugger :: r => some (.debugger, r.tail)
      | .kw .var :: r => (decls n r).map fun d => (.decl .var d.1 d.2.1, d.2.2)
      | .kw .«let» :: r => (decls n r).map fun d => (.decl .«let» d.1 d.2.1, d.2.2)
      | .kw .const :: r => (decls n r).map fun d => (.decl .const d.1 d.2.1, d.2.2)
      | _ => none

/-- Statements up to a closing brace or the end. -/
def stmts : Nat → List Piece → Option (Nodes × List Piece)
  | 0, _ => none
  | n + 1, ts =>
    if ts.head? = some (.punct .curlyR) ∨ ts = [] then some (.nil, ts.tail)
    else (stmt n ts).bind fun x => (stmts n x.2).map fun y => (.cons x.1 y.1, y.2)
end

/-! ## The parser finds the statement -/

/-- Nothing that an expression goes on with. -/
def Ends (p : Punct) : Prop := ∀ rest, cont (.punct p :: rest) = .stop

theorem ends_semicolon : Ends .semicolon := fun rest => by simp [cont, assignOf, binOf]

theorem ends_parenR : Ends .parenR := fun rest => by simp [cont, assignOf, binOf]

theorem parse_before {e : Node} {xs : List Piece} (h : ReadsExpr .normal e xs) {p : Punct}
    (hp : Ends p) (rest : List Piece) :
    Ev fun n => (parse n .normal (xs ++ .punct p :: rest)).bind (expect p) =
      some (erase e, rest) :=
  ((found h).inner (hp rest)).mono fun n h => by rw [h, Option.bind_some, expect_self]

theorem head_found {t : Node} {xs : List Piece} (h : ReadsExpr .normal t xs)
    (rest : List Piece) :
    Ev fun n => head n (.punct .parenL :: (xs ++ .punct .parenR :: rest)) =
      some (erase t, rest) :=
  (parse_before h ends_parenR rest).mono fun n h => by rw [head, if_pos rfl, h]

theorem opt_found {t : Node} {xs : List Piece} (h : ReadsOptional t xs) {p : Punct} (hp : Ends p)
    (hs : exprStart (.punct p) = false) (rest : List Piece) :
    Ev fun n => opt n p (xs ++ .punct p :: rest) = some (erase t, rest) := by
  cases h with
  | none => exact .always fun n => by rw [List.nil_append, opt, if_pos (by simp)]; rfl
  | some h =>
    refine (parse_before h hp rest).mono fun n h' => ?_
    obtain ⟨x, ys, rfl, hx⟩ := starts h
    rw [opt, if_neg, h']
    intro hc
    rw [Option.some.inj hc, hs] at hx
    cases hx

theorem declr_found {d : Node} {xs : List Piece} (h : ReadsDeclarator d xs) {p : Punct}
    (hp : p = .comma ∨ p = .semicolon ∨ p = .parenR) (rest : List Piece) :
    Ev fun n => declr n (xs ++ .punct p :: rest) = some (eraseDeclarator d, .punct p :: rest) := by
  cases h with
  | name n =>
    refine .always fun k => ?_
    simp only [List.cons_append, List.nil_append, declr]
    rw [if_neg (by rcases hp with rfl | rfl | rfl <;> simp)]
    rfl
  | @init n e ps h =>
    have := (found h).operand (rest := .punct p :: rest)
      (by rcases hp with rfl | rfl | rfl <;> simp [cont, assignOf, binOf, Cont.level, Prec.num])
      (by rcases hp with rfl | rfl | rfl <;> simp [cont, assignOf, binOf, Cont.level, bound])
    refine this.mono fun k h => ?_
    simp only [List.cons_append, declr, List.head?_cons, if_true, List.tail_cons, h,
      Option.map_some]
    rfl

theorem decls_found : ∀ (ds : List (Node × List Piece)) (_ : ∀ d ∈ ds, ReadsDeclarator d.1 d.2)
    {last : Node} {ps : List Piece} (_ : ReadsDeclarator last ps) (rest : List Piece),
    Ev fun n => decls n (ds.flatMap (fun d => d.2 ++ [.punct .comma]) ++
      (ps ++ .punct .semicolon :: rest)) =
      some (ofItems (ds.map fun d => eraseDeclarator d.1), eraseDeclarator last, rest)
  | [], _, last, ps, hl, rest => by
    refine (declr_found hl (.inr (.inl rfl)) rest).succ fun n h => ?_
    simp only [List.flatMap_nil, List.nil_append, decls, h, Option.bind_some]
    rfl
  | d :: ds, hd, last, ps, hl, rest => by
    have ih := decls_found ds (fun d h => hd d (List.mem_cons_of_mem _ h)) hl rest
    have h1 := declr_found (hd d List.mem_cons_self) (.inl rfl)
      (ds.flatMap (fun d => d.2 ++ [.punct .comma]) ++ (ps ++ .punct .semicolon :: rest))
    refine (h1.and ih).succ fun n h => ?_
    have e : (d :: ds).flatMap (fun d => d.2 ++ [Piece.punct .comma]) ++
        (ps ++ .punct .semicolon :: rest) = d.2 ++ .punct .comma ::
        (ds.flatMap (fun d => d.2 ++ [.punct .comma]) ++ (ps ++ .punct .semicolon :: rest)) := by
      simp
    rw [e, decls, h.1]
    simp only [Option.bind_some, if_true, h.2, Option.map_some]
    rfl

theorem params_found : ∀ (ds : List (Node × List Piece)) (_ : ∀ d ∈ ds, ReadsDeclarator d.1 d.2)
    {last : Node} {ps : List Piece} (_ : ReadsLast last ps) (rest : List Piece),
    Ev fun n => params n (ds.flatMap (fun d => d.2 ++ [.punct .comma]) ++
      (ps ++ .punct .parenR :: rest)) =
      some (ofItems (ds.map fun d => eraseDeclarator d.1), eraseDeclarator last, rest)
  | [], _, last, ps, hl, rest => by
    cases hl with
    | none => exact (Ev.always fun _ => trivial).succ fun n (_ : True) => rfl
    | some hl =>
      refine (declr_found hl (.inr (.inr rfl)) rest).succ fun n h => ?_
      have hne : (ps ++ .punct .parenR :: rest).head? ≠ some (.punct .parenR) := by
        cases hl <;> simp
      simp only [List.flatMap_nil, List.nil_append]
      rw [params, if_neg hne, h]
      rfl
  | d :: ds, hd, last, ps, hl, rest => by
    have ih := params_found ds (fun d h => hd d (List.mem_cons_of_mem _ h)) hl rest
    have h0 := hd d List.mem_cons_self
    have h1 := declr_found h0 (.inl rfl)
      (ds.flatMap (fun d => d.2 ++ [.punct .comma]) ++ (ps ++ .punct .parenR :: rest))
    refine (h1.and ih).succ fun n h => ?_
    have e : (d :: ds).flatMap (fun d => d.2 ++ [Piece.punct .comma]) ++
        (ps ++ .punct .parenR :: rest) = d.2 ++ .punct .comma ::
        (ds.flatMap (fun d => d.2 ++ [.punct .comma]) ++ (ps ++ .punct .parenR :: rest)) := by
      simp
    have hne : ∀ r, (d.2 ++ Piece.punct .comma :: r).head? ≠ some (.punct .parenR) := by
      obtain ⟨d, xs⟩ := d
      cases h0 <;> simp
    rw [e, params, if_neg (hne _), h.1]
    simp only [Option.bind_some, if_true, h.2, Option.map_some]
    rfl

theorem eraseDeclarators_eq :
    ∀ l : Nodes, eraseDeclarators l = ofItems ((items l).map eraseDeclarator)
  | .nil => rfl
  | .cons e l => by rw [eraseDeclarators, eraseDeclarators_eq l]; rfl

theorem eraseStmts_eq : ∀ l : Nodes, eraseStmts l = ofItems ((items l).map eraseStmt)
  | .nil => rfl
  | .cons e l => by rw [eraseStmts, eraseStmts_eq l]; rfl

/-- The tokens begin with something a statement may begin with. -/
def StmtBegins (xs : List Piece) : Prop :=
  ∃ x ys, xs = x :: ys ∧ x ≠ .kw .«else» ∧ x ≠ .punct .curlyR ∧ x ≠ .kw .«finally»

theorem stmtBegins {b : Bool} {s : Node} {xs : List Piece} (h : ReadsStmt b s xs) :
    StmtBegins xs := by
  induction h with
  | any _ ih => exact ih
  | exprStmt h =>
    obtain ⟨x, ys, rfl, hx⟩ := starts h
    refine ⟨x, _, rfl, ?_, ?_, ?_⟩ <;> (rintro rfl; cases hx)
  | @decl kind l last ps ds _ _ _ =>
    exact ⟨_, _, rfl, by cases kind <;> nofun, nofun, by cases kind <;> nofun⟩
  | _ => exact ⟨_, _, rfl, nofun, nofun, nofun⟩

/-- The parser finds the statement. -/
def FoundStmt (b : Bool) (s : Node) (xs : List Piece) : Prop :=
  ∀ rest : List Piece, (b = true ∨ rest.head? ≠ some (.kw .«else»)) →
    ((∃ l, s = .block l) ∨ rest.head? ≠ some (.kw .«finally»)) →
    Ev fun n => stmt n (xs ++ rest) = some (eraseStmt s, rest)

theorem rest_of {s : Node} {P : Prop} (h : (∃ l, s = .block l) ∨ P) (hs : ∀ l, s ≠ .block l) : P :=
  h.resolve_left fun ⟨l, e⟩ => hs l e

theorem stmts_found : ∀ (ss : List (Node × List Piece)) (_ : ∀ s ∈ ss, ReadsStmt false s.1 s.2)
    (_ : ∀ s ∈ ss, FoundStmt false s.1 s.2) {tail : List Piece} {l : List Node} {r : List Piece}
    (_ : tail.head? ≠ some (.kw .«else») ∧ tail.head? ≠ some (.kw .«finally»)) (_ : Ev fun n => stmts n tail = some (ofItems l, r)),
    Ev fun n => stmts n (ss.flatMap (·.2) ++ tail) =
      some (ofItems ((ss.map fun s => eraseStmt s.1) ++ l), r)
  | [], _, _, _, _, _, _, ht => ht
  | s :: ss, hr, hf, tail, l, r, he, ht => by
    have ih := stmts_found ss (fun s h => hr s (List.mem_cons_of_mem _ h))
      (fun s h => hf s (List.mem_cons_of_mem _ h)) he ht
    have hne : (ss.flatMap (·.2) ++ tail).head? ≠ some (.kw .«else») ∧
        (ss.flatMap (·.2) ++ tail).head? ≠ some (.kw .«finally») := by
      cases ss with
      | nil => exact he
      | cons s' ss =>
        obtain ⟨x, ys, hx, h1, _, h2⟩ := stmtBegins (hr s' (by simp))
        simp [hx, h1, h2]
    have h1 := hf s List.mem_cons_self _ (.inr hne.1) (.inr hne.2)
    obtain ⟨x, ys, hx, _, h2, _⟩ := stmtBegins (hr s List.mem_cons_self)
    refine (h1.and ih).succ fun n h => ?_
    have e : (s :: ss).flatMap (·.2) ++ tail = s.2 ++ (ss.flatMap (·.2) ++ tail) := by simp
    rw [e, stmts, if_neg (by rw [hx]; simpa using h2), h.1]
    simp only [Option.bind_some, h.2, Option.map_some]
    rfl

theorem stmt_expr {n : Nat} {ts : List Piece} (h : isExprStart ts = true) :
    stmt (n + 1) ts =
      ((parse n .normal ts).bind (expect .semicolon)).map fun x => (.exprStmt x.1, x.2) := by
  rw [stmt.eq_def]
  simp only [h, if_true]

theorem foundStmt {b : Bool} {s : Node} {xs : List Piece} (h : ReadsStmt b s xs) :
    FoundStmt b s xs := by
  induction h with
  | any _ ih => exact fun rest _ hf => ih rest (.inl rfl) hf
  | @braces t c ps h ih =>
    intro rest _ hf
    have h0 : Ev fun n => stmts n (.punct .curlyR :: rest) = some (ofItems [], rest) :=
      .always fun n => by rw [stmts]; rfl
    have h1 := stmts_found [(.ifStmt t c, ps)] (by simpa using h) (by simpa using ih)
      (by simp) h0
    refine h1.succ fun n h => ?_
    have e : (Piece.punct .curlyL :: ps ++ [.punct .curlyR]) ++ rest =
      .punct .curlyL :: ([((Node.ifStmt t c), ps)].flatMap (·.2) ++ .punct .curlyR :: rest) := by
      simp
    rw [e, stmt, if_neg (by simp [isExprStart, exprStart])]
    simp only [h, Option.map_some, eraseStmt]
    rfl
  | @ifStmt t c xs ps ht hc ih =>
    intro rest hr hf
    have he : rest.head? ≠ some (.kw .«else») := by simpa using hr
    refine ((head_found ht (ps ++ rest)).and (ih rest (.inr he) (.inr (rest_of hf nofun)))).succ fun n h => ?_
    have e : (Piece.kw .«if» :: .punct .parenL :: xs ++ .punct .parenR :: ps) ++ rest =
      .kw .«if» :: .punct .parenL :: (xs ++ .punct .parenR :: (ps ++ rest)) := by simp
    rw [e, stmt, if_neg (by simp [isExprStart, exprStart])]
    simp only [h.1, h.2, Option.bind_some, if_neg he, eraseStmt]
  | @ifElse b t c a xs ps qs ht hc ha ihc iha =>
    intro rest hr hf
    refine ((head_found ht (ps ++ .kw .«else» :: (qs ++ rest))).and
      ((ihc (.kw .«else» :: (qs ++ rest)) (.inl rfl) (.inr (by simp))).and
        (iha rest hr (.inr (rest_of hf nofun))))).succ fun n h => ?_
    have e : (Piece.kw .«if» :: .punct .parenL :: xs ++ .punct .parenR :: ps ++
        .kw .«else» :: qs) ++ rest =
      .kw .«if» :: .punct .parenL :: (xs ++ .punct .parenR ::
        (ps ++ .kw .«else» :: (qs ++ rest))) := by simp
    rw [e, stmt, if_neg (by simp [isExprStart, exprStart])]
    simp only [h.1, h.2.1, h.2.2, Option.bind_some, List.head?_cons, if_true, List.tail_cons,
      Option.map_some, eraseStmt]
  | @block l ss hi hs ih =>
    intro rest _ hf
    have h0 : Ev fun n => stmts n (.punct .curlyR :: rest) = some (ofItems [], rest) :=
      .always fun n => by rw [stmts]; rfl
    have h1 := stmts_found ss hs ih (by simp) h0
    refine h1.succ fun n h => ?_
    have e : (Piece.punct .curlyL :: ss.flatMap (·.2) ++ [.punct .curlyR]) ++ rest =
      .punct .curlyL :: (ss.flatMap (·.2) ++ .punct .curlyR :: rest) := by simp
    rw [e, stmt, if_neg (by simp [isExprStart, exprStart])]
    simp only [h, Option.map_some, eraseStmt, eraseStmts_eq, hi, List.map_map, List.append_nil]
    rfl
  | @exprStmt e xs h =>
    intro rest _ hf
    refine (parse_before h ends_semicolon rest).succ fun n h' => ?_
    have e : (xs ++ [.punct .semicolon]) ++ rest = xs ++ .punct .semicolon :: rest := by simp
    rw [e, stmt_expr (starts_stmt h), h']
    rfl
  | @decl kind l last ps ds hi hd hl =>
    intro rest _ hf
    refine (decls_found ds hd hl rest).succ fun n h => ?_
    have e : (Piece.kw (declWord kind) :: ds.flatMap (fun d => d.2 ++ [.punct .comma]) ++ ps ++
        [.punct .semicolon]) ++ rest =
      .kw (declWord kind) :: (ds.flatMap (fun d => d.2 ++ [.punct .comma]) ++
        (ps ++ .punct .semicolon :: rest)) := by simp
    rw [e]
    cases kind <;>
      (simp only [declWord]
       rw [stmt, if_neg (by simp [isExprStart, exprStart])]
       simp only [h, Option.map_some, eraseStmt, eraseDeclarators_eq, hi, List.map_map]
       rfl)
  | @whileStmt b t s xs ps ht hs ih =>
    intro rest hr hf
    refine ((head_found ht (ps ++ rest)).and (ih rest hr (.inr (rest_of hf nofun)))).succ fun n h => ?_
    have e : (Piece.kw .«while» :: .punct .parenL :: xs ++ .punct .parenR :: ps) ++ rest =
      .kw .«while» :: .punct .parenL :: (xs ++ .punct .parenR :: (ps ++ rest)) := by simp
    rw [e, stmt, if_neg (by simp [isExprStart, exprStart])]
    simp only [h.1, h.2, Option.bind_some, Option.map_some, eraseStmt]
  | @withStmt b t s xs ps ht hs ih =>
    intro rest hr hf
    refine ((head_found ht (ps ++ rest)).and (ih rest hr (.inr (rest_of hf nofun)))).succ fun n h => ?_
    have e : (Piece.kw .«with» :: .punct .parenL :: xs ++ .punct .parenR :: ps) ++ rest =
      .kw .«with» :: .punct .parenL :: (xs ++ .punct .parenR :: (ps ++ rest)) := by simp
    rw [e, stmt, if_neg (by simp [isExprStart, exprStart])]
    simp only [h.1, h.2, Option.bind_some, Option.map_some, eraseStmt]
  | @doWhile t s xs ps ht hs ih =>
    intro rest _ hf
    refine ((head_found ht (.punct .semicolon :: rest)).and (ih (.kw .«while» :: .punct .parenL ::
      (xs ++ .punct .parenR :: .punct .semicolon :: rest)) (.inr (by simp)) (.inr (by simp)))).succ fun n h => ?_
    have e : (Piece.kw .«do» :: ps ++ .kw .«while» :: .punct .parenL :: xs ++
        [.punct .parenR, .punct .semicolon]) ++ rest =
      .kw .«do» :: (ps ++ .kw .«while» :: .punct .parenL ::
        (xs ++ .punct .parenR :: .punct .semicolon :: rest)) := by simp
    rw [e, stmt, if_neg (by simp [isExprStart, exprStart])]
    simp only [h.2, Option.bind_some, expectKw, if_true, h.1, expect_self, Option.map_some,
      eraseStmt]
  | @forStmt b t u s ts us ps ht hu hs ih =>
    intro rest hr hf
    refine ((opt_found ht ends_semicolon rfl (us ++ .punct .parenR :: (ps ++ rest))).and
      ((opt_found hu ends_parenR rfl (ps ++ rest)).and (ih rest hr (.inr (rest_of hf nofun))))).succ fun n h => ?_
    have e : (Piece.kw .«for» :: .punct .parenL :: .punct .semicolon :: ts ++
        .punct .semicolon :: us ++ .punct .parenR :: ps) ++ rest =
      .kw .«for» :: .punct .parenL :: .punct .semicolon :: (ts ++
        .punct .semicolon :: (us ++ .punct .parenR :: (ps ++ rest))) := by simp
    rw [e, stmt, if_neg (by simp [isExprStart, exprStart])]
    simp only [forVar, forHead, h.1, h.2.1, h.2.2, Option.bind_some, Option.map_some, eraseStmt]
  | @labelled b n s ps hs ih =>
    intro rest hr hf
    refine (ih rest hr (.inr (rest_of hf nofun))).succ fun k h => ?_
    simp only [List.cons_append]
    rw [stmt, if_neg (by simp [isExprStart])]
    simp only [List.tail_cons, h, Option.map_some, eraseStmt]
  | @tryFinally l l' ps qs h1 h2 ih1 ih2 =>
    intro rest _ hf
    refine ((ih1 (.kw .«finally» :: (qs ++ rest)) (.inl rfl) (.inl ⟨_, rfl⟩)).and
      (ih2 rest (.inl rfl) (.inl ⟨_, rfl⟩))).succ fun n h => ?_
    have e : (Piece.kw .«try» :: ps ++ .kw .«finally» :: qs) ++ rest =
      .kw .«try» :: (ps ++ .kw .«finally» :: (qs ++ rest)) := by simp
    rw [e, stmt, if_neg (by simp [isExprStart, exprStart])]
    simp only [h.1, Option.bind_some, h.2, Option.map_some]
    rfl
  | @tryCatch l x l' ps qs h1 h2 ih1 ih2 =>
    intro rest _ hf
    have hne := rest_of hf nofun
    refine ((ih1 (.kw .«catch» :: .punct .parenL :: .ident x :: .punct .parenR :: (qs ++ rest)) (.inl rfl)
      (.inl ⟨_, rfl⟩)).and (ih2 rest (.inl rfl) (.inl ⟨_, rfl⟩))).succ fun n h => ?_
    have e : (Piece.kw .«try» :: ps ++ .kw .«catch» :: .punct .parenL :: .ident x :: .punct .parenR ::
        qs) ++ rest = .kw .«try» :: (ps ++ .kw .«catch» :: .punct .parenL :: .ident x ::
        .punct .parenR :: (qs ++ rest)) := by simp
    rw [e, stmt, if_neg (by simp [isExprStart, exprStart])]
    simp only [h.1, Option.bind_some, h.2, if_neg hne]
    rfl
  | @tryCatchFinally l x l' l'' ps qs rs h1 h2 h3 ih1 ih2 ih3 =>
    intro rest _ _
    refine ((ih1 (.kw .«catch» :: .punct .parenL :: .ident x :: .punct .parenR :: (qs ++
      .kw .«finally» :: (rs ++ rest))) (.inl rfl) (.inl ⟨_, rfl⟩)).and
      ((ih2 (.kw .«finally» :: (rs ++ rest)) (.inl rfl) (.inl ⟨_, rfl⟩)).and
        (ih3 rest (.inl rfl) (.inl ⟨_, rfl⟩)))).succ fun n h => ?_
    have e : (Piece.kw .«try» :: ps ++ .kw .«catch» :: .punct .parenL :: .ident x :: .punct .parenR ::
        qs ++ .kw .«finally» :: rs) ++ rest = .kw .«try» :: (ps ++ .kw .«catch» :: .punct .parenL ::
        .ident x :: .punct .parenR :: (qs ++ .kw .«finally» :: (rs ++ rest))) := by simp
    rw [e, stmt, if_neg (by simp [isExprStart, exprStart])]
    simp only [h.1, Option.bind_some, h.2.1, List.head?_cons, if_true, List.tail_cons, h.2.2,
      Option.map_some]
    rfl
  | @forIn b kind x e s xs ps he hs ih =>
    intro rest hr hf
    have h1 := (found he).operand (rest := .punct .parenR :: (ps ++ rest))
      (by simp [cont, assignOf, binOf, Cont.level, Prec.num])
      (by simp [cont, assignOf, binOf, Cont.level, bound])
    refine (h1.and (ih rest hr (.inr (rest_of hf nofun)))).succ fun n h => ?_
    have e : (Piece.kw .«for» :: .punct .parenL :: .kw (declWord kind) :: .ident x :: .kw .«in» ::
        xs ++ .punct .parenR :: ps) ++ rest = .kw .«for» :: .punct .parenL :: .kw (declWord kind) ::
        .ident x :: .kw .«in» :: (xs ++ .punct .parenR :: (ps ++ rest)) := by simp
    have hk : kindOf (declWord kind) = some kind := by cases kind <;> rfl
    rw [e, stmt, if_neg (by simp [isExprStart, exprStart])]
    simp only [forVar, hk, Option.bind_some, if_true, h.1, expect_self, h.2, Option.map_some]
    rfl
  | @forOf b kind x e s xs ps he hs ih =>
    intro rest hr hf
    have h1 := (found he).operand (rest := .punct .parenR :: (ps ++ rest))
      (by simp [cont, assignOf, binOf, Cont.level, Prec.num])
      (by simp [cont, assignOf, binOf, Cont.level, bound])
    refine (h1.and (ih rest hr (.inr (rest_of hf nofun)))).succ fun n h => ?_
    have e : (Piece.kw .«for» :: .punct .parenL :: .kw (declWord kind) :: .ident x :: .kw .of ::
        xs ++ .punct .parenR :: ps) ++ rest = .kw .«for» :: .punct .parenL :: .kw (declWord kind) ::
        .ident x :: .kw .of :: (xs ++ .punct .parenR :: (ps ++ rest)) := by simp
    have hk : kindOf (declWord kind) = some kind := by cases kind <;> rfl
    rw [e, stmt, if_neg (by simp [isExprStart, exprStart])]
    simp only [forVar, hk, Option.bind_some, reduceCtorEq, if_false, if_true, h.1, expect_self, h.2,
      Option.map_some]
    rfl
  | @funcDecl x l last body ps qs ds hi hd hl hb ih =>
    intro rest _ _
    refine ((params_found ds hd hl (qs ++ rest)).and (ih rest (.inl rfl) (.inl ⟨_, rfl⟩))).succ
      fun n h => ?_
    have e : (Piece.kw .«function» :: .ident x :: .punct .parenL ::
        ds.flatMap (fun d => d.2 ++ [.punct .comma]) ++ ps ++ .punct .parenR :: qs) ++ rest =
      .kw .«function» :: .ident x :: .punct .parenL :: (ds.flatMap (fun d => d.2 ++ [.punct .comma]) ++
        (ps ++ .punct .parenR :: (qs ++ rest))) := by simp
    rw [e, stmt, if_neg (by simp [isExprStart, exprStart])]
    simp only [h.1, Option.bind_some, h.2, Option.map_some, eraseStmt, eraseDeclarators_eq, hi,
      List.map_map]
    rfl
  | @retValue e xs h =>
    intro rest _ hf
    refine (parse_before h ends_semicolon rest).succ fun n h' => ?_
    have e : (Piece.kw .«return» :: xs ++ [.punct .semicolon]) ++ rest =
      .kw .«return» :: (xs ++ .punct .semicolon :: rest) := by simp
    obtain ⟨x, ys, rfl, hx⟩ := starts h
    rw [e, stmt, if_neg (by simp [isExprStart, exprStart])]
    rw [if_neg, h']
    · rfl
    · intro hc
      rw [Option.some.inj hc] at hx
      cases hx
  | _ => exact fun rest _ _ => .always fun n => rfl

/-- One text, one statement. -/
theorem readsStmt_unique {b b' : Bool} {s s' : Node} {xs : List Piece} (h : ReadsStmt b s xs)
    (h' : ReadsStmt b' s' xs) : eraseStmt s = eraseStmt s' := by
  obtain ⟨N, hN⟩ := (foundStmt h [] (.inr (by simp)) (.inr (by simp))).and
    (foundStmt h' [] (.inr (by simp)) (.inr (by simp)))
  have := hN N (Nat.le_refl _)
  exact congrArg Prod.fst (Option.some.inj (this.1.symm.trans this.2))

/-- One text, one list of statements. -/
theorem readsStmts_unique {ss ss' : List (Node × List Piece)}
    (h : ∀ s ∈ ss, ReadsStmt false s.1 s.2) (h' : ∀ s ∈ ss', ReadsStmt false s.1 s.2)
    (he : ss.flatMap (·.2) = ss'.flatMap (·.2)) :
    (ss.map fun s => eraseStmt s.1) = ss'.map fun s => eraseStmt s.1 := by
  have h0 : Ev fun n => stmts n [] = some (ofItems [], []) := .always fun n => by rw [stmts]; rfl
  have a := stmts_found ss h (fun s hs => foundStmt (h s hs)) (by simp) h0
  have b := stmts_found ss' h' (fun s hs => foundStmt (h' s hs)) (by simp) h0
  rw [he] at a
  obtain ⟨N, hN⟩ := a.and b
  have := hN N (Nat.le_refl _)
  have := congrArg Prod.fst (Option.some.inj (this.1.symm.trans this.2))
  have inj : ∀ l l' : List Node, ofItems l = ofItems l' → l = l' := by
    intro l
    induction l with
    | nil => intro l' h; cases l' with
      | nil => rfl
      | cons _ _ => cases h
    | cons a l ih => intro l' h; cases l' with
      | nil => cases h
      | cons b l' =>
        simp only [ofItems, Nodes.cons.injEq] at h
        rw [h.1, ih l' h.2]
  simpa using inj _ _ this

end Jsparse.Ast
