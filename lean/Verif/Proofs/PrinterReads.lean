import Verif.Proofs.PrinterBegin
/-!
# Reading printed expressions back

What the printer writes for an expression is an expression of the grammar with the same tree, if the
expression has nothing in it that the printer treats wrongly.
-/

namespace Jsparse.Ast

open Jsparse.Spec

/-- From `f` to `g` the tokens `xs` were written. -/
def Wrote (f g : Fmt) (xs : List Piece) : Prop :=
  ∃ ps, g.output = f.output ++ ps ∧ strip ps = xs

theorem Wrote.trans {f g h : Fmt} {xs ys : List Piece} (h1 : Wrote f g xs) (h2 : Wrote g h ys) :
    Wrote f h (xs ++ ys) := by
  obtain ⟨ps, a, rfl⟩ := h1
  obtain ⟨qs, b, rfl⟩ := h2
  exact ⟨ps ++ qs, by rw [b, a, List.append_assoc], strip_append _ _⟩

theorem Wrote.refl (f : Fmt) : Wrote f f [] := ⟨[], by simp, rfl⟩

theorem Wrote.keyword (k : Keyword) (f : Fmt) : Wrote f (f.keyword k) [.kw k] := by
  obtain ⟨sp, h, hs⟩ := keyword_output k f
  exact ⟨sp ++ [.kw k], by rw [h, List.append_assoc], by rw [strip_append, hs]; rfl⟩

theorem Wrote.identifier (t : Bytes) (f : Fmt) : Wrote f (f.identifier t) [.ident t] := by
  obtain ⟨sp, h, hs⟩ := identifier_output t f
  exact ⟨sp ++ [.ident t], by rw [h, List.append_assoc], by rw [strip_append, hs]; rfl⟩

theorem Wrote.number (t : Bytes) (f : Fmt) : Wrote f (f.number t) [.num t] := by
  obtain ⟨sp, h, hs⟩ := number_output t f
  exact ⟨sp ++ [.num t], by rw [h, List.append_assoc], by rw [strip_append, hs]; rfl⟩

theorem Wrote.punct (p : Punct) (f : Fmt) : Wrote f (f.punctuator p) [.punct p] :=
  ⟨[.punct p], rfl, rfl⟩

theorem Wrote.string (t : Bytes) (f : Fmt) :
    Wrote f (f.string t) [.punct .sQuote, .raw t, .punct .sQuote] :=
  ⟨[.punct .sQuote, .raw t, .punct .sQuote],
    by simp [Fmt.string, Fmt.punctuator, Fmt.write], rfl⟩

theorem Wrote.binOp (op : BinOp) (f : Fmt) : Wrote f (op.fmt f) [binToken op] := by
  cases op <;> first | exact .punct _ f | exact .keyword _ f

theorem Wrote.unOp {op : UnOp} (h : op ≠ .negative) (f : Fmt) : Wrote f (op.fmt f) [unToken op] := by
  cases op <;> first | exact absurd rfl h | exact .punct _ f | exact .keyword _ f

theorem Wrote.assignOp (op : AssignOp) (f : Fmt) :
    Wrote f ((f.punctuator op.punct).punctuator .eq) (assignTokens op) := by
  cases op <;> exact (Wrote.punct _ f).trans (.punct _ _)

/-- What is written under a required precedence. -/
theorem Wrote.require {p : Prec} {body : Fmt → Fmt} {f : Fmt} {xs : List Piece}
    (h : Wrote { f with prec := p } (body { f with prec := p }) xs) :
    Wrote f (f.requirePrecedence p body) xs := h

theorem Wrote.allowIn {body : Fmt → Fmt} {f : Fmt} {xs : List Piece}
    (h : Wrote { f with inOperator := true } (body { f with inOperator := true }) xs) :
    Wrote f (f.allowIn body) xs := h

/-- What is written between parentheses. -/
theorem Wrote.parens {body : Fmt → Fmt} {f : Fmt} {xs : List Piece}
    (h : ∀ g : Fmt, g.prec = .normal → Wrote g (body g) xs) :
    Wrote f (f.wrapParensInner true body) (.punct .parenL :: xs ++ [.punct .parenR]) := by
  obtain ⟨ps, a, rfl⟩ := h ({ f with
    prec := .normal, inOperator := true, wrapStandaloneIf := false }.punctuator .parenL) rfl
  refine ⟨.punct .parenL :: ps ++ [.punct .parenR], ?_, ?_⟩
  · simp only [Fmt.wrapParensInner, Fmt.punctuator, Fmt.write] at a ⊢
    simp [a]
  · rw [strip_append]; rfl

/-- The same with tokens that depend on the formatter. -/
theorem wrote_parens {P : List Piece → Prop} {body : Fmt → Fmt} (f : Fmt)
    (h : ∀ g : Fmt, g.prec = .normal → ∃ xs, Wrote g (body g) xs ∧ P xs) :
    ∃ xs, Wrote f (f.wrapParensInner true body) (.punct .parenL :: xs ++ [.punct .parenR]) ∧
      P xs := by
  obtain ⟨xs, ⟨ps, a, rfl⟩, hp⟩ := h ({ f with
    prec := .normal, inOperator := true, wrapStandaloneIf := false }.punctuator .parenL) rfl
  refine ⟨strip ps, ⟨.punct .parenL :: ps ++ [.punct .parenR], ?_, ?_⟩, hp⟩
  · simp only [Fmt.wrapParensInner, Fmt.punctuator, Fmt.write] at a ⊢
    simp [a]
  · rw [strip_append]; rfl

theorem wrote_square {P : List Piece → Prop} {body : Fmt → Fmt} (f : Fmt)
    (h : ∀ g : Fmt, ∃ xs, Wrote g (body g) xs ∧ P xs) :
    ∃ xs, Wrote f (f.wrapSquare body) (.punct .squareL :: xs ++ [.punct .squareR]) ∧ P xs := by
  obtain ⟨xs, ⟨ps, a, rfl⟩, hp⟩ := h ({ f with
    wrapStandaloneIf := false, inOperator := true }.punctuator .squareL)
  refine ⟨strip ps, ⟨.punct .squareL :: ps ++ [.punct .squareR], ?_, ?_⟩, hp⟩
  · simp only [Fmt.wrapSquare, Fmt.wrapBy, Fmt.punctuator, Fmt.write] at a ⊢
    simp [a]
  · rw [strip_append]; rfl

/-- An expression in parentheses or not. -/
theorem reads_wrap {w : Bool} {body : Fmt → Fmt} {f : Fmt} {q : Prec} {e : Node}
    (h : ∀ g : Fmt, (w = false → g.prec = f.prec) → (w = true → g.prec = .normal) →
      ∃ xs, Wrote g (body g) xs ∧ ReadsExpr q e xs) :
    ∃ xs r, Wrote f (f.wrapParensInner w body) xs ∧ ReadsExpr r e xs ∧ q.num ≤ r.num ∧
      (w = true → r = .primary) := by
  cases w with
  | false =>
    obtain ⟨xs, a, b⟩ := h f (fun _ => rfl) nofun
    exact ⟨xs, q, a, b, Nat.le_refl _, nofun⟩
  | true =>
    obtain ⟨xs, a, b⟩ := wrote_parens f fun g hg => h g nofun fun _ => hg
    refine ⟨_, .primary, a, .parens (b.weaken ?_), ?_, fun _ => rfl⟩
    · cases q <;> decide
    · cases q <;> decide

/-- What is written for `e` reads back as `e`. -/
def ReadsBack (e : Node) : Prop :=
  ∀ f : Fmt, ∃ xs r, Wrote f (e.fmt f) xs ∧ ReadsExpr r e xs ∧ (level e).num ≤ r.num ∧
    (wraps e = true → f.prec.num ≤ r.num)

theorem ReadsBack.at {e : Node} (h : ReadsBack e) {q : Prec} (hq : fits q e) (f : Fmt)
    (hf : q.num ≤ f.prec.num := by dsimp only; decide) : ∃ xs, Wrote f (e.fmt f) xs ∧ ReadsExpr q e xs := by
  obtain ⟨xs, r, a, b, c, d⟩ := h f
  refine ⟨xs, a, b.weaken ?_⟩
  rcases hq with hq | hq
  · exact Nat.le_trans hf (d hq)
  · exact Nat.le_trans hq c

theorem ReadsBack.own {e : Node} (h : ReadsBack e) {q : Prec} (hq : q.num ≤ (level e).num)
    (f : Fmt) : ∃ xs, Wrote f (e.fmt f) xs ∧ ReadsExpr q e xs := by
  obtain ⟨xs, r, a, b, c, d⟩ := h f
  exact ⟨xs, a, b.weaken (Nat.le_trans hq c)⟩

theorem normal_le (p : Prec) : Prec.normal.num ≤ p.num := by cases p <;> decide

/-- A node without a check of the precedence. -/
theorem readsBack_plain {e : Node} (hw : wraps e = false)
    (h : ∀ f : Fmt, ∃ xs, Wrote f (e.fmt f) xs ∧ ReadsExpr (level e) e xs) : ReadsBack e := fun f =>
  let ⟨xs, a, b⟩ := h f
  ⟨xs, _, a, b, Nat.le_refl _, fun h => absurd (hw.symm.trans h) nofun⟩

/-- A node with a check of the precedence. -/
theorem readsBack_prec {e : Node} {p : Prec} {body : Fmt → Fmt}
    (he : ∀ f, e.fmt f = f.precedence p body) (hp : p = level e)
    (h : ∀ g : Fmt, g.prec.num ≤ p.num → ∃ xs, Wrote g (body g) xs ∧ ReadsExpr p e xs) :
    ReadsBack e := by
  intro f
  obtain ⟨xs, r, a, b, c, d⟩ := reads_wrap (w := decide (p.num < f.prec.num)) (f := f) (q := p)
    (e := e) (body := body) (fun g h1 h2 => h g (by
      by_cases hw : p.num < f.prec.num
      · rw [h2 (by simpa using hw)]; exact normal_le p
      · rw [h1 (by simpa using hw)]; omega))
  refine ⟨xs, r, by rw [he]; exact a, b, hp ▸ c, fun _ => ?_⟩
  by_cases hw : p.num < f.prec.num
  · rw [d (by simpa using hw)]
    cases f.prec <;> decide
  · omega

/-- The items of a list of arguments. -/
theorem reads_items : ∀ (l : Nodes) (_ : ∀ a ∈ items l, ReadsBack a)
    (_ : ∀ a ∈ items l, fits .assignment a) (f : Fmt),
    ∃ args : List (Node × List Piece), items l = args.map (·.1) ∧
      (∀ a ∈ args, ReadsExpr .assignment a.1 a.2) ∧
      Wrote f (Nodes.fmtComma l f) (args.flatMap fun a => a.2 ++ [.punct .comma])
  | .nil, _, _, f => ⟨[], rfl, nofun, by rw [Nodes.fmtComma]; exact .refl f⟩
  | .cons n rest, h, hf, f => by
    obtain ⟨xs, a, b⟩ := (h n (by simp [items])).at (hf n (by simp [items]))
      { f with prec := .assignment }
    obtain ⟨args, c, d, e⟩ := reads_items rest (fun a ha => h a (by simp [items, ha]))
      (fun a ha => hf a (by simp [items, ha]))
      (f.requirePrecedence .assignment fun f => (Node.fmt n f).punctuator .comma)
    refine ⟨(n, xs) :: args, by simp [items, c], ?_, ?_⟩
    · intro a ha
      rcases List.mem_cons.1 ha with rfl | ha
      · exact b
      · exact d a ha
    · rw [Nodes.fmtComma, List.flatMap_cons]
      exact Wrote.trans (g := f.requirePrecedence .assignment
        fun f => (Node.fmt n f).punctuator .comma) (a.trans (.punct _ _)) e

/-- The elements of an array. -/
theorem reads_elements : ∀ (els : List Node) (l : Nodes) (_ : items l = els.map .arrayItem)
    (_ : ∀ a ∈ els, ReadsBack a) (_ : ∀ a ∈ els, fits .assignment a) (f : Fmt),
    ∃ args : List (Node × List Piece), items l = args.map (fun a => .arrayItem a.1) ∧
      (∀ a ∈ args, ReadsExpr .assignment a.1 a.2) ∧
      Wrote f (Nodes.fmtComma l f) (args.flatMap fun a => a.2 ++ [.punct .comma])
  | [], .nil, _, _, _, f => ⟨[], rfl, nofun, by rw [Nodes.fmtComma]; exact .refl f⟩
  | n :: els, .cons n' rest, hi, h, hf, f => by
    simp only [items, List.map_cons, List.cons.injEq] at hi
    obtain ⟨rfl, hi⟩ := hi
    obtain ⟨xs, a, b⟩ := (h n (by simp)).at (hf n (by simp)) { f with prec := .assignment }
    obtain ⟨args, c, d, e⟩ := reads_elements els rest hi (fun a ha => h a (by simp [ha]))
      (fun a ha => hf a (by simp [ha]))
      (f.requirePrecedence .assignment fun f => (Node.fmt (.arrayItem n) f).punctuator .comma)
    refine ⟨(n, xs) :: args, by simp [items, c], ?_, ?_⟩
    · intro a ha
      rcases List.mem_cons.1 ha with rfl | ha
      · exact b
      · exact d a ha
    · rw [Nodes.fmtComma, List.flatMap_cons]
      refine Wrote.trans (g := f.requirePrecedence .assignment
        fun f => (Node.fmt (.arrayItem n) f).punctuator .comma) ?_ e
      refine Wrote.require (Wrote.trans ?_ (.punct _ _))
      rw [Node.fmt]
      exact a
  | [], .cons _ _, hi, _, _, _ => by simp [items] at hi
  | _ :: _, .nil, hi, _, _, _ => by simp [items] at hi

theorem binLevel_eq {op : BinOp} (h : op ≠ .power) :
    op.prec = binLevel op ∧ op.right = tighter (binLevel op) := by
  cases op <;> first | exact absurd rfl h | exact ⟨rfl, rfl⟩

/-- Every printable expression reads back. -/
theorem readsBack {e : Node} (h : Printable e) : ReadsBack e := by
  induction h with
  | paren h ih =>
    refine readsBack_plain rfl fun f => ?_
    obtain ⟨xs, a, b⟩ := wrote_parens f fun g _ => ih.own (normal_le _) g
    exact ⟨_, by rw [Node.fmt]; exact a, .paren b⟩
  | ident n => exact readsBack_plain rfl fun f =>
      ⟨_, by rw [Node.fmt]; exact .identifier n f, .ident n⟩
  | this => exact readsBack_plain rfl fun f => ⟨_, by rw [Node.fmt]; exact .keyword _ f, .this⟩
  | null => exact readsBack_plain rfl fun f => ⟨_, by rw [Node.fmt]; exact .keyword _ f, .null⟩
  | bool b =>
    cases b
    · exact readsBack_plain rfl fun f => ⟨_, by rw [Node.fmt]; exact .keyword _ f, .false⟩
    · exact readsBack_plain rfl fun f => ⟨_, by rw [Node.fmt]; exact .keyword _ f, .true⟩
  | num t => exact readsBack_plain rfl fun f => ⟨_, by rw [Node.fmt]; exact .number t f, .num t⟩
  | str t => exact readsBack_plain rfl fun f => ⟨_, by rw [Node.fmt]; exact .string t f, .str t⟩
  | @array l els hi _ hfs ihs =>
    refine readsBack_prec (p := .primary) (fun f => by rw [Node.fmt]) rfl fun g _ => ?_
    obtain ⟨ys, c', args, rfl, d, e⟩ := wrote_square
      (P := fun ys => ∃ args : List (Node × List Piece),
        ys = args.flatMap (fun a => a.2 ++ [.punct .comma]) ∧
        items l = args.map (fun a => .arrayItem a.1) ∧ ∀ a ∈ args, ReadsExpr .assignment a.1 a.2)
      g (body := fun f => Nodes.fmtComma l f) fun g =>
        let ⟨args, x, y, z⟩ := reads_elements els l hi ihs hfs g
        ⟨_, z, args, rfl, x, y⟩
    refine ⟨_, ?_, .array args d e⟩
    simp only [Node.fmt]
    exact c'
  | @arrayLast l e els hi _ hfs hl hle ihs ihl =>
    refine readsBack_prec (p := .primary) (fun f => by rw [Node.fmt]) rfl fun g _ => ?_
    obtain ⟨ys, c', args, zs, rfl, d, e', k⟩ := wrote_square
      (P := fun ys => ∃ (args : List (Node × List Piece)) (zs : List Piece),
        ys = args.flatMap (fun a => a.2 ++ [.punct .comma]) ++ zs ∧
        items l = args.map (fun a => .arrayItem a.1) ∧
        (∀ a ∈ args, ReadsExpr .assignment a.1 a.2) ∧ ReadsExpr .assignment e zs)
      g (body := fun f => Node.fmt (.arrayItem e) (Nodes.fmtComma l f)) fun g =>
        let ⟨args, x, y, z⟩ := reads_elements els l hi ihs hfs g
        let ⟨zs, u, v⟩ := ihl.at hle { Nodes.fmtComma l g with prec := .assignment }
        ⟨_, z.trans (by rw [Node.fmt]; exact u.require), args, zs, rfl, x, y, v⟩
    refine ⟨_, ?_, .arrayLast args d e' k⟩
    simp only [List.cons_append, List.append_assoc] at c' ⊢
    exact c'
  | @dot o n h hf ih =>
    intro f
    obtain ⟨xs, r, a, b, c, _⟩ := reads_wrap (f := f)
      (w := (Node.sequence o (.dot (.ident n))).forbidden f.look) (q := .leftHand)
      (e := .member o (.dot (.ident n)))
      (body := fun f => Node.fmt (.dot (.ident n)) (f.requirePrecedence .member (Node.fmt o)))
      fun g _ _ => by
        obtain ⟨xs, a, b⟩ := ih.at hf { g with prec := .member }
        refine ⟨xs ++ [.punct .period, .ident n], ?_, .dot b⟩
        simp only [Node.fmt]
        exact a.require.trans ((Wrote.punct _ _).trans (.identifier _ _))
    exact ⟨xs, r, by rw [Node.fmt]; exact a, b, c, nofun⟩
  | @computed o e h hf h2 ih ih2 =>
    intro f
    obtain ⟨xs, r, a, b, c, _⟩ := reads_wrap (f := f)
      (w := (Node.sequence o (.computed e)).forbidden f.look) (q := .leftHand)
      (e := .member o (.computed e))
      (body := fun f => Node.fmt (.computed e) (f.requirePrecedence .member (Node.fmt o)))
      fun g _ _ => by
        obtain ⟨xs, a, b⟩ := ih.at hf { g with prec := .member }
        obtain ⟨ys, c, d⟩ := wrote_square (g.requirePrecedence .member (Node.fmt o))
          (body := fun f => f.requirePrecedence .assignment (Node.fmt e)) fun g =>
          ih2.own (normal_le _) { g with prec := .assignment }
        refine ⟨xs ++ .punct .squareL :: ys ++ [.punct .squareR], ?_, .computed b d⟩
        rw [Node.fmt, List.append_assoc]
        exact a.require.trans c
    exact ⟨xs, r, by rw [Node.fmt]; exact a, b, c, nofun⟩
  | @call c l h hf _ hfs ih ihs =>
    refine readsBack_plain rfl fun f => ?_
    obtain ⟨xs, a, b⟩ := ih.at hf { f with prec := .«new» }
    obtain ⟨ys, c', args, rfl, d, e⟩ := wrote_parens
      (P := fun ys => ∃ args : List (Node × List Piece),
        ys = args.flatMap (fun a => a.2 ++ [.punct .comma]) ∧ items l = args.map (·.1) ∧
        ∀ a ∈ args, ReadsExpr .assignment a.1 a.2)
      (f.requirePrecedence .«new» (Node.fmt c)) (body := fun f => Nodes.fmtComma l f) fun g _ =>
        let ⟨args, x, y, z⟩ := reads_items l ihs hfs g
        ⟨_, z, args, rfl, x, y⟩
    refine ⟨_, ?_, .call args b d e⟩
    rw [Node.fmt, Node.fmt, List.append_assoc]
    simp only [Node.fmt]
    exact a.require.trans c'
  | @callLast c l e h hf _ hfs hl hle ih ihs ihl =>
    refine readsBack_plain rfl fun f => ?_
    obtain ⟨xs, a, b⟩ := ih.at hf { f with prec := .«new» }
    obtain ⟨ys, c', args, zs, rfl, d, e', k⟩ := wrote_parens
      (P := fun ys => ∃ (args : List (Node × List Piece)) (zs : List Piece),
        ys = args.flatMap (fun a => a.2 ++ [.punct .comma]) ++ zs ∧ items l = args.map (·.1) ∧
        (∀ a ∈ args, ReadsExpr .assignment a.1 a.2) ∧ ReadsExpr .assignment e zs)
      (f.requirePrecedence .«new» (Node.fmt c))
      (body := fun f => Node.fmt e (Nodes.fmtComma l f)) fun g _ =>
        let ⟨args, x, y, z⟩ := reads_items l ihs hfs g
        let ⟨zs, u, v⟩ := ihl.own hle (Nodes.fmtComma l g)
        ⟨_, z.trans u, args, zs, rfl, x, y, v⟩
    refine ⟨_, ?_, .callLast args b d e' k⟩
    rw [Node.fmt, Node.fmt, List.append_assoc, List.append_assoc]
    simp only [List.cons_append, List.append_assoc] at c' ⊢
    exact a.require.trans c'
  | «postfix» b h hf ih =>
    refine readsBack_plain rfl fun f => ?_
    obtain ⟨xs, a, c⟩ := ih.at hf { f with prec := .leftHand }
    cases b
    · exact ⟨_, by rw [Node.fmt]; exact a.require.trans (.punct _ _), .decrement c⟩
    · exact ⟨_, by rw [Node.fmt]; exact a.require.trans (.punct _ _), .increment c⟩
  | «prefix» b h hf ih =>
    refine readsBack_plain rfl fun f => ?_
    cases b
    · obtain ⟨xs, a, c⟩ := ih.at hf { f.punctuator .minusMinus with prec := .unary }
      exact ⟨_, by rw [Node.fmt]; exact (Wrote.punct _ _).trans a.require, .preDecrement c⟩
    · obtain ⟨xs, a, c⟩ := ih.at hf { f.punctuator .plusPlus with prec := .unary }
      exact ⟨_, by rw [Node.fmt]; exact (Wrote.punct _ _).trans a.require, .preIncrement c⟩
  | @unary op e ho h hf ih =>
    refine readsBack_prec (p := .unary) (fun f => by rw [Node.fmt]) rfl fun g _ => ?_
    obtain ⟨xs, a, c⟩ := ih.at hf { op.fmt g with prec := .unary }
    exact ⟨_, (Wrote.unOp ho g).trans a.require, .unary c⟩
  | @bin op l r ho hl hle hr hf ihl ihr =>
    refine readsBack_prec (p := op.prec) (fun f => by rw [Node.fmt]) (binLevel_eq ho).1 fun g _ => ?_
    obtain ⟨xs, a, b⟩ := ihl.own hle g
    obtain ⟨ys, c, d⟩ := ihr.at hf { op.fmt (Node.fmt l g) with prec := op.right }
      (by dsimp only; rw [(binLevel_eq ho).2]; exact Nat.le_refl _)
    refine ⟨xs ++ binToken op :: ys, ?_, by rw [(binLevel_eq ho).1]; exact .bin ho b d⟩
    exact a.trans ((Wrote.binOp op _).trans c.require)
  | @inOp l r hl hle hr hf ihl ihr =>
    refine readsBack_prec (p := .relational) (fun f => by rw [Node.fmt]) rfl fun g _ => ?_
    obtain ⟨xs, q, a, b, c, _⟩ := reads_wrap (f := g) (w := g.inOperator) (q := .relational)
      (e := .inOp l r) (body := fun f =>
        ((Node.fmt l f).keyword .«in»).requirePrecedence .shift (Node.fmt r)) fun g _ _ => by
        obtain ⟨xs, a, b⟩ := ihl.own hle g
        obtain ⟨ys, c, d⟩ := ihr.at hf { (Node.fmt l g).keyword .«in» with prec := .shift }
        exact ⟨xs ++ .kw .«in» :: ys, a.trans ((Wrote.keyword _ _).trans c.require), .inOp b d⟩
    exact ⟨xs, a, b.weaken c⟩
  | @cond t c a ht hft hc hfc ha hfa iht ihc iha =>
    refine readsBack_prec (p := .conditional) (fun f => by rw [Node.fmt]) rfl fun g _ => ?_
    obtain ⟨xs, x, x'⟩ := iht.at hft { g with prec := .logicalOr }
    obtain ⟨ys, y, y'⟩ := ihc.at hfc
      { (g.requirePrecedence .logicalOr (Node.fmt t)).punctuator .question with
        prec := .assignment, inOperator := true }
    obtain ⟨zs, z, z'⟩ := iha.at hfa ((Fmt.allowIn (Node.fmt c)
      { (g.requirePrecedence .logicalOr (Node.fmt t)).punctuator .question with
        prec := .assignment }).punctuator .colon) (Nat.le_of_eq (congrArg Prec.num (Node.kept c
      { (g.requirePrecedence .logicalOr (Node.fmt t)).punctuator .question with
        prec := .assignment, inOperator := true }).prec.symm))
    refine ⟨_, ?_, .cond x' y' z'⟩
    rw [List.append_assoc]
    exact x.require.trans ((Wrote.punct _ _).trans
      (Wrote.require (y.allowIn.trans ((Wrote.punct _ _).trans z))))
  | @assign l r hl hf hr hfr ihl ihr =>
    intro f
    obtain ⟨xs, q, a, b, c, _⟩ := reads_wrap (f := f) (w := l.assignSequence.forbidden f.look)
      (q := .assignment) (e := .assign l r) (body := fun f =>
        ((f.requirePrecedence .leftHand (Node.fmt l)).punctuator .eq).requirePrecedence .assignment
          (Node.fmt r)) fun g _ _ => by
        obtain ⟨xs, a, b⟩ := ihl.at hf { g with prec := .leftHand }
        obtain ⟨ys, c, d⟩ := ihr.at hfr
          { (g.requirePrecedence .leftHand (Node.fmt l)).punctuator .eq with prec := .assignment }
        exact ⟨_, a.require.trans ((Wrote.punct _ _).trans c.require), .assign b d⟩
    exact ⟨xs, q, by rw [Node.fmt]; exact a, b, c, nofun⟩
  | @opAssign op l r hl hf hr hfr ihl ihr =>
    refine readsBack_plain rfl fun f => ?_
    obtain ⟨xs, a, b⟩ := ihl.at hf { f with prec := .leftHand }
    obtain ⟨ys, c, d⟩ := ihr.at hfr
      { ((f.requirePrecedence .leftHand (Node.fmt l)).punctuator op.punct).punctuator .eq with
        prec := .assignment }
    refine ⟨_, ?_, .opAssign b d⟩
    rw [Node.fmt]
    exact (a.require.trans (.assignOp op _)).trans c.require
  | @seq l r hl hr hf ihl ihr =>
    refine readsBack_prec (p := .normal) (fun f => by rw [Node.fmt]) rfl fun g _ => ?_
    obtain ⟨xs, a, b⟩ := ihl.own (normal_le _) g
    obtain ⟨ys, c, d⟩ := ihr.at hf { (Node.fmt l g).punctuator .comma with prec := .assignment }
    exact ⟨_, a.trans ((Wrote.punct _ _).trans c.require), .seq b d⟩

/-! ## Statements -/

theorem keyword_orphan (k : Keyword) (f : Fmt) :
    (f.keyword k).wrapStandaloneIf = f.wrapStandaloneIf := by
  unfold Fmt.keyword Fmt.separate Fmt.write
  split <;> rfl

/-- An expression in parentheses in the head of a statement. -/
theorem wrote_head {t : Node} (ht : Printable t) (k : Keyword) (f : Fmt) :
    ∃ xs, Wrote f ((f.keyword k).wrapParens (Node.fmt t))
      (.kw k :: .punct .parenL :: xs ++ [.punct .parenR]) ∧ ReadsExpr .normal t xs ∧
      ((f.keyword k).wrapParens (Node.fmt t)).wrapStandaloneIf = f.wrapStandaloneIf := by
  obtain ⟨xs, a, b⟩ := wrote_parens (f.keyword k) (body := Node.fmt t) fun g _ =>
    (readsBack ht).own (normal_le _) g
  exact ⟨xs, (Wrote.keyword k f).trans a, b, keyword_orphan k f⟩

theorem reads_optional {t : Node} (ht : PrintableOptional t) (f : Fmt) :
    ∃ xs, Wrote f (t.fmt f) xs ∧ ReadsOptional t xs := by
  cases ht with
  | none => exact ⟨[], by rw [Node.fmt]; exact .refl f, .none⟩
  | some h =>
    obtain ⟨xs, a, b⟩ := (readsBack h).own (normal_le _) f
    exact ⟨xs, a, .some b⟩

theorem reads_declarator {d : Node} (hd : PrintableDeclarator d) (f : Fmt) :
    ∃ xs, Wrote f (d.fmt f) xs ∧ ReadsDeclarator d xs := by
  cases hd with
  | name n =>
    exact ⟨_, by simp only [Node.fmt]; exact .identifier n f, .name n⟩
  | @init n e h hf =>
    obtain ⟨xs, a, b⟩ := (readsBack h).at hf
      { (f.identifier n).punctuator .eq with prec := .assignment }
    refine ⟨_, ?_, .init b⟩
    simp only [Node.fmt]
    exact (Wrote.identifier n f).trans ((Wrote.punct _ _).trans a.require)

theorem reads_declarators : ∀ (l : Nodes) (_ : ∀ d ∈ items l, PrintableDeclarator d) (f : Fmt),
    ∃ decls : List (Node × List Piece), items l = decls.map (·.1) ∧
      (∀ d ∈ decls, ReadsDeclarator d.1 d.2) ∧
      Wrote f (Nodes.fmtComma l f) (decls.flatMap fun a => a.2 ++ [.punct .comma])
  | .nil, _, f => ⟨[], rfl, nofun, by rw [Nodes.fmtComma]; exact .refl f⟩
  | .cons n rest, h, f => by
    obtain ⟨xs, a, b⟩ := reads_declarator (h n (by simp [items])) { f with prec := .assignment }
    obtain ⟨args, c, d, e⟩ := reads_declarators rest (fun a ha => h a (by simp [items, ha]))
      (f.requirePrecedence .assignment fun f => (Node.fmt n f).punctuator .comma)
    refine ⟨(n, xs) :: args, by simp [items, c], ?_, ?_⟩
    · intro a ha
      rcases List.mem_cons.1 ha with rfl | ha
      · exact b
      · exact d a ha
    · rw [Nodes.fmtComma, List.flatMap_cons]
      exact Wrote.trans (g := f.requirePrecedence .assignment
        fun f => (Node.fmt n f).punctuator .comma) (a.trans (.punct _ _)) e

/-- What is written for `s` reads back as `s`. -/
def StmtBack (s : Node) : Prop :=
  ∀ f : Fmt, ∃ xs, Wrote f (s.fmt f) xs ∧ ReadsStmt f.wrapStandaloneIf s xs

theorem _root_.Jsparse.Spec.ReadsStmt.flag {b : Bool} {s : Node} {xs : List Piece} (h : ReadsStmt true s xs) :
    ReadsStmt b s xs := by
  cases b
  · exact .any h
  · exact h

theorem _root_.Jsparse.Spec.ReadsStmt.open {b : Bool} {s : Node} {xs : List Piece} (h : ReadsStmt b s xs) :
    ReadsStmt false s xs := by
  cases b
  · exact h
  · exact .any h

theorem stmtBack_closed {s : Node}
    (h : ∀ f : Fmt, ∃ xs, Wrote f (s.fmt f) xs ∧ ReadsStmt true s xs) : StmtBack s := fun f =>
  let ⟨xs, a, b⟩ := h f
  ⟨xs, a, b.flag⟩

theorem reads_stmts : ∀ (l : Nodes) (_ : ∀ s ∈ items l, StmtBack s) (f : Fmt),
    ∃ stmts : List (Node × List Piece), items l = stmts.map (·.1) ∧
      (∀ s ∈ stmts, ReadsStmt false s.1 s.2) ∧
      Wrote f (Nodes.fmtList l f) (stmts.flatMap (·.2))
  | .nil, _, f => ⟨[], rfl, nofun, by rw [Nodes.fmtList]; exact .refl f⟩
  | .cons n rest, h, f => by
    obtain ⟨xs, a, b⟩ := h n (by simp [items]) f
    obtain ⟨args, c, d, e⟩ := reads_stmts rest (fun a ha => h a (by simp [items, ha])) (n.fmt f)
    refine ⟨(n, xs) :: args, by simp [items, c], ?_, ?_⟩
    · intro a ha
      rcases List.mem_cons.1 ha with rfl | ha
      · exact b.open
      · exact d a ha
    · rw [Nodes.fmtList, List.flatMap_cons]
      exact a.trans e

theorem wrote_curly {P : List Piece → Prop} {body : Fmt → Fmt} (f : Fmt)
    (h : ∀ g : Fmt, g.wrapStandaloneIf = false → ∃ xs, Wrote g (body g) xs ∧ P xs) :
    ∃ xs, Wrote f (f.wrapCurly body) (.punct .curlyL :: xs ++ [.punct .curlyR]) ∧ P xs := by
  obtain ⟨xs, ⟨ps, a, rfl⟩, hp⟩ := h ({ f with
    wrapStandaloneIf := false, inOperator := true }.punctuator .curlyL) rfl
  refine ⟨strip ps, ⟨.punct .curlyL :: ps ++ [.punct .curlyR], ?_, ?_⟩, hp⟩
  · simp only [Fmt.wrapCurly, Fmt.wrapBy, Fmt.punctuator, Fmt.write] at a ⊢
    simp [a]
  · rw [strip_append]; rfl

/-- A head with an expression and a statement after it. -/
theorem wrote_headed {t s : Node} (ht : Printable t) (ih : StmtBack s) (k : Keyword) (f : Fmt) :
    ∃ xs ps, Wrote f (s.fmt ((f.keyword k).wrapParens (Node.fmt t)))
      (.kw k :: .punct .parenL :: xs ++ .punct .parenR :: ps) ∧ ReadsExpr .normal t xs ∧
      ReadsStmt f.wrapStandaloneIf s ps := by
  obtain ⟨xs, a, b, c⟩ := wrote_head ht k f
  obtain ⟨ps, d, e⟩ := ih ((f.keyword k).wrapParens (Node.fmt t))
  rw [c] at e
  refine ⟨xs, ps, ?_, b, e⟩
  have := a.trans d
  simpa using this

/-- A name in parentheses. -/
theorem wrote_param (n : Bytes) (f : Fmt) :
    Wrote f (f.wrapParens (Node.fmt (.ident n))) [.punct .parenL, .ident n, .punct .parenR] := by
  obtain ⟨xs, a, rfl⟩ := wrote_parens (P := fun xs => xs = [.ident n]) f (body := Node.fmt (.ident n))
    fun g _ => ⟨_, by simp only [Node.fmt]; exact Wrote.identifier n g, rfl⟩
  exact a

/-- A loop over keys or values. -/
theorem wrote_loop (kind : DeclKind) (n : Bytes) (k : Keyword) {e s : Node} (he : Printable e)
    (hl : Prec.assignment.num ≤ (level e).num) (ih : StmtBack s) (look : Look) (f : Fmt) :
    ∃ xs ps, Wrote f (Node.fmt s ((f.keyword .«for»).wrapParens fun f =>
        Node.fmt e ((f.restrictLookahead look
          (Node.fmt (.forPattern kind (.ident n) .none))).keyword k)))
      (.kw .«for» :: .punct .parenL :: .kw (declWord kind) :: .ident n :: .kw k ::
        xs ++ .punct .parenR :: ps) ∧ ReadsExpr .assignment e xs ∧
      ReadsStmt f.wrapStandaloneIf s ps := by
  have hk : kind.kw = declWord kind := by cases kind <;> rfl
  obtain ⟨xs, a, ys, rfl, b⟩ := wrote_parens
    (P := fun xs => ∃ ys, xs = .kw (declWord kind) :: .ident n :: .kw k :: ys ∧
      ReadsExpr .assignment e ys)
    (f.keyword .«for») (body := fun f => Node.fmt e ((f.restrictLookahead look
      (Node.fmt (.forPattern kind (.ident n) .none))).keyword k)) fun g _ => by
        obtain ⟨ys, x, y⟩ := (readsBack he).own hl ((g.restrictLookahead look
          (Node.fmt (.forPattern kind (.ident n) .none))).keyword k)
        refine ⟨_, ?_, ys, rfl, y⟩
        have h1 : Wrote { g with look := some look } (Node.fmt (.forPattern kind (.ident n) .none)
            { g with look := some look }) [.kw (declWord kind), .ident n] := by
          simp only [Node.fmt, ← hk]
          exact (Wrote.keyword _ _).trans (Wrote.identifier n _)
        obtain ⟨ps, h, hs⟩ := h1
        have h2 : Wrote g (g.restrictLookahead look (Node.fmt (.forPattern kind (.ident n) .none)))
            [.kw (declWord kind), .ident n] := ⟨ps, by rw [restrictLookahead_output]; exact h, hs⟩
        exact h2.trans ((Wrote.keyword _ _).trans x)
  obtain ⟨ps, d, d'⟩ := ih ((f.keyword .«for»).wrapParens fun f => Node.fmt e
    ((f.restrictLookahead look (Node.fmt (.forPattern kind (.ident n) .none))).keyword k))
  change ReadsStmt (f.keyword .«for»).wrapStandaloneIf s ps at d'
  rw [keyword_orphan] at d'
  refine ⟨ys, ps, ?_, b, d'⟩
  have : Wrote f _ _ := (Wrote.keyword .«for» f).trans (a.trans d)
  simpa using this

/-- An `else` never belongs to an `if` in a block. -/
theorem block_closed {b : Bool} {l : Nodes} {ps : List Piece} (h : ReadsStmt b (.block l) ps) :
    ReadsStmt true (.block l) ps := by
  cases h with
  | any h => exact h
  | block stmts a b => exact .block stmts a b

/-- Every printable statement reads back. -/
theorem stmtBack {s : Node} (h : PrintableStmt s) : StmtBack s := by
  induction h with
  | @ifStmt t c ht hc ih =>
    intro f
    have key : ∀ g : Fmt, g.wrapStandaloneIf = false → ∃ xs,
        Wrote g (Node.fmt c ((g.keyword .«if»).wrapParens (Node.fmt t))) xs ∧
        ReadsStmt false (.ifStmt t c) xs := by
      intro g hg
      obtain ⟨xs, ps, a, b, d⟩ := wrote_headed ht ih .«if» g
      exact ⟨_, a, .ifStmt b d.open⟩
    rw [Node.fmt, Fmt.wrapOrphanIf]
    cases hw : f.wrapStandaloneIf
    · exact key f hw
    · obtain ⟨xs, a, b⟩ := wrote_curly f key
      exact ⟨_, a, .braces b⟩
  | @ifElse t c a ht hc ha ihc iha =>
    intro f
    obtain ⟨xs, x, y, z⟩ := wrote_head ht .«if» f
    obtain ⟨ps, u, v⟩ := ihc { (f.keyword .«if»).wrapParens (Node.fmt t) with
      wrapStandaloneIf := true }
    obtain ⟨qs, p, q⟩ := iha ((((f.keyword .«if»).wrapParens (Node.fmt t)).disallowOrphanIf
      (Node.fmt c)).keyword .«else»)
    rw [keyword_orphan] at q
    change ReadsStmt ((f.keyword .«if»).wrapParens (Node.fmt t)).wrapStandaloneIf a qs at q
    rw [z] at q
    refine ⟨_, ?_, .ifElse y v q⟩
    rw [Node.fmt]
    have : Wrote f _ _ := x.trans (Wrote.trans (g := ((f.keyword .«if»).wrapParens
      (Node.fmt t)).disallowOrphanIf (Node.fmt c)) u ((Wrote.keyword .«else» _).trans p))
    simpa using this
  | @block l _ ih =>
    refine stmtBack_closed fun f => ?_
    obtain ⟨xs, a, stmts, rfl, c, d⟩ := wrote_curly
      (P := fun ys => ∃ stmts : List (Node × List Piece), ys = stmts.flatMap (·.2) ∧
        items l = stmts.map (·.1) ∧ ∀ s ∈ stmts, ReadsStmt false s.1 s.2)
      f (body := Nodes.fmtList l) fun g _ =>
        let ⟨stmts, x, y, z⟩ := reads_stmts l ih g
        ⟨_, z, stmts, rfl, x, y⟩
    exact ⟨_, by rw [Node.fmt]; exact a, .block stmts c d⟩
  | @exprStmt e he =>
    refine stmtBack_closed fun f => ?_
    obtain ⟨xs, a, b⟩ := (readsBack he).own (normal_le _)
      { f with look := some .expressionStatement, prec := .normal }
    refine ⟨_, ?_, .exprStmt b⟩
    rw [Node.fmt]
    refine Wrote.trans (g := f.restrictLookahead .expressionStatement fun f =>
      f.requirePrecedence .normal (Node.fmt e)) ?_ (.punct _ _)
    obtain ⟨ps, h, hs⟩ := a
    exact ⟨ps, by rw [restrictLookahead_output]; exact h, hs⟩
  | @decl kind l last hl hd =>
    refine stmtBack_closed fun f => ?_
    obtain ⟨decls, a, b, c⟩ := reads_declarators l hl (f.keyword kind.kw)
    obtain ⟨ps, d, e⟩ := reads_declarator hd (Nodes.fmtComma l (f.keyword kind.kw))
    refine ⟨_, ?_, .decl decls a b e⟩
    have hk : kind.kw = declWord kind := by cases kind <;> rfl
    rw [Node.fmt, ← hk]
    have : Wrote f _ _ := (Wrote.keyword kind.kw f).trans (c.trans (d.trans (.punct .semicolon _)))
    simpa using this
  | @whileStmt t s ht hs ih =>
    intro f
    obtain ⟨xs, ps, a, b, c⟩ := wrote_headed ht ih .«while» f
    exact ⟨_, by rw [Node.fmt]; exact a, .whileStmt b c⟩
  | @withStmt t s ht hs ih =>
    intro f
    obtain ⟨xs, ps, a, b, c⟩ := wrote_headed ht ih .«with» f
    exact ⟨_, by rw [Node.fmt]; exact a, .withStmt b c⟩
  | @doWhile t s ht hs ih =>
    refine stmtBack_closed fun f => ?_
    obtain ⟨ps, a, b⟩ := ih (f.keyword .«do»)
    obtain ⟨xs, c, d, _⟩ := wrote_head ht .«while» (Node.fmt s (f.keyword .«do»))
    refine ⟨_, ?_, .doWhile d b.open⟩
    rw [Node.fmt]
    have : Wrote f _ _ := (Wrote.keyword .«do» f).trans (a.trans (c.trans (.punct .semicolon _)))
    simpa using this
  | @forStmt t u s ht hu hs ih =>
    intro f
    obtain ⟨xs, a, ts, us, rfl, b, c⟩ := wrote_parens
      (P := fun ys => ∃ ts us, ys = .punct .semicolon :: ts ++ .punct .semicolon :: us ∧
        ReadsOptional t ts ∧ ReadsOptional u us)
      (f.keyword .«for») (body := fun f => Node.fmt u ((Node.fmt t
        ((Node.fmt .none f).punctuator .semicolon)).punctuator .semicolon)) fun g _ => by
          obtain ⟨ts, x, x'⟩ := reads_optional ht ((Node.fmt .none g).punctuator .semicolon)
          obtain ⟨us, y, y'⟩ := reads_optional hu ((Node.fmt t
            ((Node.fmt .none g).punctuator .semicolon)).punctuator .semicolon)
          refine ⟨_, ?_, ts, us, rfl, x', y'⟩
          have h0 : Wrote g (Node.fmt .none g) [] := by rw [Node.fmt]; exact .refl g
          have : Wrote g _ _ :=
            h0.trans ((Wrote.punct .semicolon _).trans (x.trans ((Wrote.punct .semicolon _).trans y)))
          simpa using this
    obtain ⟨ps, d, e⟩ := ih (Fmt.wrapParensInner true (fun f => Node.fmt u ((Node.fmt t
        ((Node.fmt .none f).punctuator .semicolon)).punctuator .semicolon)) (f.keyword .«for»))
    change ReadsStmt (f.keyword .«for»).wrapStandaloneIf s ps at e
    rw [keyword_orphan] at e
    refine ⟨_, ?_, .forStmt b c e⟩
    rw [Node.fmt]
    have : Wrote f _ _ := (Wrote.keyword .«for» f).trans (a.trans d)
    simpa [Fmt.wrapParens] using this
  | @labelled n s hs ih =>
    intro f
    obtain ⟨ps, a, b⟩ := ih ((f.identifier n).punctuator .colon)
    have : ((f.identifier n).punctuator .colon).wrapStandaloneIf = f.wrapStandaloneIf := by
      change (f.identifier n).wrapStandaloneIf = _
      unfold Fmt.identifier Fmt.separate Fmt.write
      split <;> rfl
    rw [this] at b
    refine ⟨_, ?_, .labelled b⟩
    simp only [Node.fmt]
    exact (Wrote.identifier n f).trans ((Wrote.punct _ _).trans a)
  | @tryFinally l l' _ _ ih ih' =>
    refine stmtBack_closed fun f => ?_
    obtain ⟨ps, a, b⟩ := ih (f.keyword .«try»)
    obtain ⟨qs, c, d⟩ := ih' (((Node.block l).fmt (f.keyword .«try»)).keyword .«finally»)
    refine ⟨_, ?_, .tryFinally (block_closed b) (block_closed d)⟩
    rw [Node.fmt]
    exact ((Wrote.keyword .«try» f).trans a).trans ((Wrote.keyword .«finally» _).trans c)
  | @tryCatch l n l' _ _ ih ih' =>
    refine stmtBack_closed fun f => ?_
    obtain ⟨ps, a, b⟩ := ih (f.keyword .«try»)
    obtain ⟨qs, c, d⟩ := ih' ((((Node.block l).fmt (f.keyword .«try»)).keyword .«catch»).wrapParens
      (Node.fmt (.ident n)))
    refine ⟨_, ?_, .tryCatch (block_closed b) (block_closed d)⟩
    have : Wrote f _ _ := ((Wrote.keyword .«try» f).trans a).trans ((Wrote.keyword .«catch» _).trans
      ((wrote_param n _).trans c))
    simp only [Node.fmt] at this ⊢
    simpa using this
  | @tryCatchFinally l n l' l'' _ _ _ ih ih' ih'' =>
    refine stmtBack_closed fun f => ?_
    obtain ⟨ps, a, b⟩ := ih (f.keyword .«try»)
    obtain ⟨qs, c, d⟩ := ih' ((((Node.block l).fmt (f.keyword .«try»)).keyword .«catch»).wrapParens
      (Node.fmt (.ident n)))
    obtain ⟨rs, c', d'⟩ := ih'' ((Node.fmt (.block l') ((((Node.block l).fmt
      (f.keyword .«try»)).keyword .«catch»).wrapParens (Node.fmt (.ident n)))).keyword .«finally»)
    refine ⟨_, ?_, .tryCatchFinally (block_closed b) (block_closed d) (block_closed d')⟩
    have : Wrote f _ _ := (((Wrote.keyword .«try» f).trans a).trans ((Wrote.keyword .«catch» _).trans
      ((wrote_param n _).trans c))).trans ((Wrote.keyword .«finally» _).trans c')
    simp only [Node.fmt] at this ⊢
    simpa using this
  | @forIn kind n e s he hl _ ih =>
    intro f
    obtain ⟨xs, ps, a, b, c⟩ := wrote_loop kind n .«in» he hl ih .forInit f
    exact ⟨_, by rw [Node.fmt]; exact a, .forIn b c⟩
  | @forOf kind n e s he hl _ ih =>
    intro f
    obtain ⟨xs, ps, a, b, c⟩ := wrote_loop kind n .of he hl ih .forOfInit f
    exact ⟨_, by rw [Node.fmt]; exact a, .forOf b c⟩
  | @funcDecl n l last body hl hd _ ih =>
    refine stmtBack_closed fun f => ?_
    obtain ⟨xs, a, params, ps, rfl, b, c, d⟩ := wrote_parens
      (P := fun xs => ∃ (params : List (Node × List Piece)) (ps : List Piece),
        xs = params.flatMap (fun d => d.2 ++ [.punct .comma]) ++ ps ∧
        items l = params.map (·.1) ∧ (∀ d ∈ params, ReadsDeclarator d.1 d.2) ∧ ReadsLast last ps)
      ((f.keyword .«function»).identifier n)
      (body := fun f => Node.fmt last (Nodes.fmtComma l f)) fun g _ => by
        obtain ⟨params, a, b, c⟩ := reads_declarators l hl g
        obtain ⟨ps, d, e⟩ : ∃ ps, Wrote (Nodes.fmtComma l g) (Node.fmt last (Nodes.fmtComma l g)) ps ∧
            ReadsLast last ps := by
          rcases hd with rfl | hd
          · exact ⟨[], by rw [Node.fmt]; exact .refl _, .none⟩
          · obtain ⟨ps, d, e⟩ := reads_declarator hd (Nodes.fmtComma l g)
            exact ⟨ps, d, .some e⟩
        exact ⟨_, c.trans d, params, ps, rfl, a, b, e⟩
    obtain ⟨qs, p, q⟩ := ih (((f.keyword .«function»).identifier n).wrapParens
      fun f => Node.fmt last (Nodes.fmtComma l f))
    refine ⟨_, ?_, .funcDecl params b c d (block_closed q)⟩
    rw [Node.fmt, Node.fmt, Node.fmt, FnKind.fmt]
    have : Wrote f _ _ := (Wrote.keyword .«function» f).trans ((Wrote.identifier n _).trans (a.trans p))
    simpa using this
  | ret =>
    refine stmtBack_closed fun f => ⟨_, ?_, .ret⟩
    simp only [Node.fmt]
    exact (Wrote.keyword _ f).trans (.punct _ _)
  | @retValue e he =>
    refine stmtBack_closed fun f => ?_
    obtain ⟨xs, a, b⟩ := (readsBack he).own (normal_le _)
      { f.keyword .«return» with prec := .normal }
    refine ⟨_, ?_, .retValue b⟩
    simp only [Node.fmt]
    exact ((Wrote.keyword _ f).trans a.require).trans (.punct _ _)
  | «break» =>
    refine stmtBack_closed fun f => ⟨_, ?_, .«break»⟩
    simp only [Node.fmt]
    exact (Wrote.keyword _ f).trans (.punct _ _)
  | breakTo n =>
    refine stmtBack_closed fun f => ⟨_, ?_, .breakTo n⟩
    simp only [Node.fmt]
    exact (Wrote.keyword _ f).trans ((Wrote.identifier n _).trans (.punct _ _))
  | «continue» =>
    refine stmtBack_closed fun f => ⟨_, ?_, .«continue»⟩
    simp only [Node.fmt]
    exact (Wrote.keyword _ f).trans (.punct _ _)
  | continueTo n =>
    refine stmtBack_closed fun f => ⟨_, ?_, .continueTo n⟩
    simp only [Node.fmt]
    exact (Wrote.keyword _ f).trans ((Wrote.identifier n _).trans (.punct _ _))
  | debugger =>
    refine stmtBack_closed fun f => ⟨_, ?_, .debugger⟩
    simp only [Node.fmt]
    exact (Wrote.keyword _ f).trans (.punct _ _)
  | empty =>
    refine stmtBack_closed fun f => ⟨_, ?_, .empty⟩
    simp only [Node.fmt]
    exact .punct _ f

end Jsparse.Ast
