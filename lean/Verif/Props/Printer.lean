import Verif.Proofs.PrinterReads
import Verif.Proofs.PrinterUniqueStmt
/-!
# C47–C52: the printer of syntax trees
-/

namespace Jsparse

open Spec Ast

/-! ## C47 -/

/-- C47: whatever the tree and the formatter, printing only appends to the output, and afterwards
precedence, the permission of `in` and the treatment of a standalone `if` are what they were before.
A lookahead restriction is in force as long as nothing is written, and then over. -/
theorem C47_settings_restored (n : Node) (f : Fmt) :
    (n.fmt f).prec = f.prec ∧ (n.fmt f).inOperator = f.inOperator ∧
      (n.fmt f).wrapStandaloneIf = f.wrapStandaloneIf ∧
      ∃ ps, (n.fmt f).output = f.output ++ ps ∧
        (n.fmt f).look = if ps = [] then f.look else none := by
  obtain ⟨a, b, c, d⟩ := Node.closed closed_kept n f
  exact ⟨a, b, c, d⟩

/-- The same for lists of nodes, with or without commas. -/
theorem C47_lists (l : Nodes) (f : Fmt) (g : Fmt)
    (hg : g = l.fmtList f ∨ g = l.fmtComma f) :
    g.prec = f.prec ∧ g.inOperator = f.inOperator ∧ g.wrapStandaloneIf = f.wrapStandaloneIf ∧
      ∃ ps, g.output = f.output ++ ps ∧ g.look = if ps = [] then f.look else none := by
  have : Kept f g := by
    rcases hg with rfl | rfl
    · exact Nodes.closedList closed_kept l f
    · exact Nodes.closedComma closed_kept l f
  exact ⟨this.prec, this.inOperator, this.wrapStandaloneIf, this.output⟩

/-- `for(var a=(b,c);;)` changes all settings on the way. -/
example :
    let n : Node := .forStmt (.forInit (.bin .add (.seq (.ident b!"b") (.ident b!"c")) (.num b!"1")))
      .none .none (.exprStmt (.object .nil .none))
    let f : Fmt := ⟨.unary, false, true, some .forOfInit, true, true, [.kw .«else»]⟩
    (n.fmt f).text = b!"else for(b,c+1;;)({});" ∧ (n.fmt f).prec = .unary ∧
      (n.fmt f).inOperator = false ∧ (n.fmt f).wrapStandaloneIf = true ∧
      (n.fmt f).look = none := by decide

/-! ## C48 -/

/-- C48: in the printed text of every tree the parentheses, square brackets and curly brackets
match. -/
theorem C48_brackets_match (n : Node) : bracketsMatch [] (n.fmt Fmt.new).output = true := by
  obtain ⟨ps, h, hp⟩ := Node.closed closed_matched n Fmt.new
  have : (n.fmt Fmt.new).output = ps ++ [] := by rw [h]; simp [Fmt.new]
  rw [this, hp]
  rfl

/-- Printing behind some text leaves the pending brackets of that text as they are. -/
theorem C48_in_context (n : Node) (f : Fmt) (st : List Punct) :
    bracketsMatch st (n.fmt f).output = bracketsMatch st f.output := by
  obtain ⟨ps, h, hp⟩ := Node.closed closed_matched n f
  rw [h]
  have key : ∀ (qs : List Piece) (st : List Punct),
      bracketsMatch st (qs ++ ps) = bracketsMatch st qs := by
    intro qs
    induction qs with
    | nil => intro st; simpa using hp st []
    | cons q qs ih =>
      intro st
      cases q with
      | punct p =>
        simp only [List.cons_append, bracketsMatch, ih]
      | _ => exact ih st
  exact key _ _

example :
    let n : Node := .exprStmt (.call (.member (.ident b!"a") (.computed (.num b!"1")))
      (.args .nil (.object (.cons (.prop (.ident b!"b") (.array .nil .none)) .nil) .none)))
    n.print = b!"a[1]({b:[],});" ∧ bracketsMatch [] (n.fmt Fmt.new).output = true := by decide

example :
    let n : Node := .item .importNamedSpecifiers (.cons (.ident b!"b") .nil) (.ident b!"a")
      (.item .aliased .nil (.ident b!"c") (.ident b!"d") .none .none) (.str b!"e") .none
    n.print = b!"import a,{b,c as d}from'e';" ∧ bracketsMatch [] (n.fmt Fmt.new).output = true := by
  decide

/-- `(]` does not match. -/
example : bracketsMatch [] [.punct .parenL, .punct .squareR] = false ∧
    bracketsMatch [] [.punct .parenL] = false := by decide

/-! ## C49 -/

/-- C49: nowhere in the printed text of a tree does a keyword, a name or a number directly follow a
keyword or a name. -/
theorem C49_words_apart (n : Node) : WordsApart (n.fmt Fmt.new).output := by
  refine (Node.closed closed_apart n Fmt.new ⟨?_, rfl⟩).words
  intro xs p q ys h
  simp [Fmt.new] at h

example :
    let n : Node := .ret (.retValue (.unary .typeof (.unary .void (.num b!"1"))))
    n.print = b!"return typeof void 1;" ∧
      (n.fmt Fmt.new).output = [.kw .«return», .space, .kw .typeof, .space, .kw .void, .space,
        .num b!"1", .punct .semicolon] := by decide

example :
    (Node.item .classDecl .nil (.ident b!"a") .none (.block (.cons (.item (.classMethod .«async»)
      (.cons (.item .decorator .nil (.ident b!"x") .none .none .none) .nil)
      (.item .«static» .nil .none .none .none .none) (.ident b!"b") (.args .nil .none) (.block .nil))
      .nil)) .none).print = b!"class a{@x static async b(){}}" := by decide

/-- Other tokens are run together: a keyword directly behind a number or behind the flags of a
regular expression, `+` and `+`, and the dot of a member directly behind an integer. -/
theorem C49_other_tokens_false :
    (Node.inOp (.num b!"1") (.ident b!"a")).print = b!"(1in a)" ∧
      (Node.bin .instanceof (.regexp b!"x" b!"g") (.ident b!"a")).print = b!"/x/ginstanceof a" ∧
      (Node.unary .positive (.unary .positive (.ident b!"a"))).print =
        (Node.«prefix» true (.ident b!"a")).print ∧
      (Node.member (.num b!"1") (.dot (.ident b!"a"))).print = b!"1.a" := by decide

/-! ## C50 -/

/-- C50: an expression printed under a lookahead restriction (of `export default`, of an expression
statement, of the head of `for`, of the body of an arrow function) does not begin with a sequence of
tokens that the grammar forbids there, whatever follows, as long as `[` does not follow directly. -/
theorem C50_lookahead_partial (e : Node) (he : beginsAsExpr e = true) (l : Look) (hl : l ≠ .forOfInit)
    (f : Fmt) (hf : f.look = some l) (ps : List Piece)
    (hps : (e.fmt f).output = f.output ++ ps) (more : List Piece)
    (hm : more.head? ≠ some (.punct .squareL)) : forbidden l (strip ps ++ more) = false := by
  rcases (beginsWell e he).starts hl hf with ⟨qs, n, h1, h2⟩ | ⟨qs, h1, h2⟩
  · obtain rfl : ps = qs := List.append_cancel_left (hps.symm.trans h1)
    rw [h2]
    cases more with
    | nil => cases l <;> first | exact absurd rfl hl | rfl
    | cons q more => exact forbidden_ident hl n (by rintro rfl; exact hm rfl) more
  · obtain rfl : ps = qs := List.append_cancel_left (hps.symm.trans h1)
    exact h2 more

/-- An expression statement does not begin with `function`, `class`, `async function`, `{` or
`let [`. -/
theorem C50_statement (e : Node) (he : beginsAsExpr e = true) (f : Fmt) (ps : List Piece)
    (hps : ((Node.exprStmt e).fmt f).output = f.output ++ ps) :
    forbidden .expressionStatement (strip ps) = false := by
  obtain ⟨qs, hq⟩ := (Node.kept e
    { f with look := some .expressionStatement, prec := .normal }).ext
  have : ((Node.exprStmt e).fmt f).output = f.output ++ (qs ++ [.punct .semicolon]) := by
    simp only [Node.fmt, Fmt.punctuator, Fmt.write, restrictLookahead_output,
      Fmt.requirePrecedence, hq, List.append_assoc]
  obtain rfl : ps = qs ++ [.punct .semicolon] := List.append_cancel_left (hps.symm.trans this)
  rw [strip_append]
  exact C50_lookahead_partial e he .expressionStatement nofun
    { f with look := some .expressionStatement, prec := .normal } rfl qs hq _ nofun

/-- The expression behind `export default` does not begin with `function`, `class` or
`async function`. -/
theorem C50_export_default (e : Node) (he : beginsAsExpr e = true) (f : Fmt) (ps : List Piece)
    (hps : ((Node.item .exportDefault .nil e .none .none .none).fmt f).output =
      ((f.keyword .«export»).keyword .«default»).output ++ ps) :
    beginsDeclaration (strip ps) = false := by
  obtain ⟨qs, hq⟩ := (Node.kept e { (f.keyword .«export»).keyword .«default» with
    look := some .exportDefault, prec := .assignment }).ext
  have : ((Node.item .exportDefault .nil e .none .none .none).fmt f).output =
      ((f.keyword .«export»).keyword .«default»).output ++ (qs ++ [.punct .semicolon]) := by
    rw [Node.fmt, ItemKind.fmt]
    change ((Fmt.restrictLookahead _ _ _).output ++ [.punct .semicolon]) = _
    rw [restrictLookahead_output]
    change _ ++ _ = _
    rw [← List.append_assoc]
    exact congrArg (· ++ [Piece.punct .semicolon]) hq
  obtain rfl : ps = qs ++ [.punct .semicolon] := List.append_cancel_left (hps.symm.trans this)
  rw [strip_append]
  exact C50_lookahead_partial e he .exportDefault nofun
    { (f.keyword .«export»).keyword .«default» with
      look := some .exportDefault, prec := .assignment } rfl qs hq _ nofun

/-- The body of an arrow function that is an expression does not begin with `{`. -/
theorem C50_arrow_body (e : Node) (he : beginsAsExpr e = true) (f : Fmt) (ps : List Piece)
    (hps : ((Node.concise e).fmt f).output = f.output ++ ps) : beginsCurly (strip ps) = false := by
  have := C50_lookahead_partial e he .conciseBody nofun
    { f with look := some .conciseBody, prec := .assignment } rfl ps (by
      rw [← hps]
      simp only [Node.fmt, restrictLookahead_output, Fmt.requirePrecedence]) [] nofun
  simpa [forbidden] using this

/-- The expression in the head of a `for` with two semicolons does not begin with `let [`; here `;`
follows. -/
theorem C50_for_head (e : Node) (he : beginsAsExpr e = true) (f : Fmt) (ps : List Piece)
    (hps : ((Node.forInit e).fmt f).output = f.output ++ ps) :
    beginsLetSquare (strip ps ++ [.punct .semicolon]) = false := by
  have := C50_lookahead_partial e he .forInit nofun
    { f with look := some .forInit, inOperator := false } rfl ps (by
      rw [← hps]
      simp only [Node.fmt, restrictLookahead_output, Fmt.disallowIn]) [.punct .semicolon] nofun
  simpa [forbidden] using this

example : (Node.exprStmt (.bin .add (.call (.func .«async» .none (.args .nil .none) (.block .nil))
    (.args .nil .none)) (.num b!"1"))).print = b!"(async function(){})()+1;" ∧
    (Node.exprStmt (.member (.ident b!"let") (.computed (.num b!"1")))).print = b!"(let[1]);" ∧
    (Node.exprStmt (.assign (.objectPattern .nil .none) (.ident b!"a"))).print = b!"({}=a);" ∧
    (Node.arrow .normal (.ident b!"a") (.concise (.cond (.object .nil .none) (.ident b!"b")
      (.object .nil .none)))).print = b!"a=>({})?b:{}" ∧
    (Node.item .exportDefault .nil (.item .classExpr .nil (.ident b!"a")
      (.item .heritage .nil (.ident b!"b") .none .none .none) (.block .nil) .none) .none .none
        .none).print = b!"export default(class a extends b{});" := by decide

/-- The restriction does not hold further on in the text. -/
example : (Node.exprStmt (.assign (.ident b!"a") (.object .nil .none))).print = b!"a={};" ∧
    forbidden .expressionStatement [.punct .curlyL] = true := by decide

/-- The name `let` may not come first in the head of `for … of`, but is printed there (only members
of it are put in parentheses), and `function.sent` is printed at the beginning of a statement. -/
theorem C50_for_of_false :
    (Node.forOf false (.ident b!"let") (.ident b!"a") .empty).print = b!"for(let of a);" ∧
      (Node.forOf false (.member (.ident b!"let") (.dot (.ident b!"b"))) (.ident b!"a")
        .empty).print = b!"for((let.b)of a);" ∧
      (Node.exprStmt (.«meta» .functionSent)).print = b!"function.sent;" := by decide

/-! ## C51: expressions read back as the same tree -/

/-- The tokens written for an expression are an expression of the grammar with the same tree, of the
level of the expression at least, and of the level that is required if it is one that the printer puts
in parentheses.

Partial: `Printable` leaves out the trees for which the printer forgets parentheses or writes another
operator (see below), and functions, classes, literals of objects, holes and `...` in arrays,
templates, `new` and `yield`. -/
theorem C51_reads_back_partial (e : Node) (he : Printable e) (f : Fmt) (ps : List Piece)
    (hps : (e.fmt f).output = f.output ++ ps) :
    ReadsExpr (level e) e (strip ps) ∧ (wraps e = true → ReadsExpr f.prec e (strip ps)) := by
  obtain ⟨xs, r, ⟨qs, a, rfl⟩, b, c, d⟩ := readsBack he f
  obtain rfl : ps = qs := List.append_cancel_left (hps.symm.trans a)
  exact ⟨b.weaken c, fun h => b.weaken (d h)⟩

/-- The grammar of the specification gives one tree at most, up to the nodes for parentheses. -/
theorem C51_grammar_unambiguous {p q : Prec} {e e' : Node} {ps : List Piece}
    (h : ReadsExpr p e ps) (h' : ReadsExpr q e' ps) : erase e = erase e' := reads_unique h h'

/-- Different trees are printed differently: from what is printed, the tree can be found again. -/
theorem C51_injective_partial (e e' : Node) (he : Printable e) (he' : Printable e') (f f' : Fmt)
    (ps ps' : List Piece) (hps : (e.fmt f).output = f.output ++ ps)
    (hps' : (e'.fmt f').output = f'.output ++ ps') (heq : strip ps = strip ps') :
    erase e = erase e' := by
  have h := (C51_reads_back_partial e he f ps hps).1
  rw [heq] at h
  exact reads_unique h (C51_reads_back_partial e' he' f' ps' hps').1

/-- The statement of an expression is the expression and a semicolon. -/
theorem C51_statement_partial (e : Node) (he : Printable e) (f : Fmt) (ps : List Piece)
    (hps : ((Node.exprStmt e).fmt f).output = f.output ++ ps) :
    ∃ xs, strip ps = xs ++ [.punct .semicolon] ∧ ReadsExpr .normal e xs := by
  obtain ⟨xs, r, ⟨qs, a, rfl⟩, b, _, _⟩ := readsBack he
    { f with look := some .expressionStatement, prec := .normal }
  have : ((Node.exprStmt e).fmt f).output = f.output ++ (qs ++ [.punct .semicolon]) := by
    rw [Node.fmt]
    change ((Fmt.restrictLookahead _ _ _).output ++ [.punct .semicolon]) = _
    rw [restrictLookahead_output]
    change _ ++ _ = _
    rw [← List.append_assoc]
    exact congrArg (· ++ [Piece.punct .semicolon]) a
  obtain rfl : ps = qs ++ [.punct .semicolon] := List.append_cancel_left (hps.symm.trans this)
  exact ⟨strip qs, by rw [strip_append]; rfl, b.weaken (normal_le r)⟩

/-- `a - (b - c) * f(d ? 1 : x, y = (z, w))`: parentheses around right operands. -/
example :
    let e : Node := .bin .subtract (.ident b!"a") (.bin .multiply (.paren (.bin .subtract
      (.ident b!"b") (.ident b!"c"))) (.call (.ident b!"f") (.args (.cons (.cond (.ident b!"d")
        (.num b!"1") (.ident b!"x")) .nil) (.assign (.ident b!"y")
          (.seq (.ident b!"z") (.ident b!"w"))))))
    Printable e ∧ e.print = b!"a-(b-c)*f(d?1:x,y=(z,w))" := by
  refine ⟨?_, by decide⟩
  refine .bin nofun (.ident _) (by decide) (.bin nofun (.paren (.bin nofun (.ident _) (by decide)
    (.ident _) (.inr (by decide)))) (by decide) (.callLast (.ident _) (.inr (by decide)) ?_ ?_
    (.assign (.ident _) (.inr (by decide)) (.seq (.ident _) (.ident _) (.inr (by decide)))
      (.inl rfl)) (by decide)) (.inr (by decide))) (.inl rfl)
  · intro a ha
    simp only [items, List.mem_singleton] at ha
    subst ha
    exact .cond (.ident _) (.inr (by decide)) (.num _) (.inr (by decide)) (.ident _)
      (.inr (by decide))
  · intro a ha
    simp only [items, List.mem_singleton] at ha
    subst ha
    exact .inl rfl

example :
    Printable (.bin .subtract (.ident b!"a") (.bin .subtract (.ident b!"b") (.ident b!"c"))) ∧
    (Node.bin .subtract (.ident b!"a") (.bin .subtract (.ident b!"b") (.ident b!"c"))).print =
      b!"a-(b-c)" ∧
    (Node.bin .subtract (.bin .subtract (.ident b!"a") (.ident b!"b")) (.ident b!"c")).print =
      b!"a-b-c" :=
  ⟨.bin nofun (.ident _) (by decide) (.bin nofun (.ident _) (by decide) (.ident _)
    (.inr (by decide))) (.inl rfl), by decide, by decide⟩

/-- `[a,(b,c)]` is an array of two elements. -/
example :
    let e : Node := .array (.cons (.arrayItem (.ident b!"a")) .nil)
      (.arrayItem (.seq (.ident b!"b") (.ident b!"c")))
    Printable e ∧ e.print = b!"[a,(b,c)]" := by
  refine ⟨.arrayLast [.ident b!"a"] rfl ?_ ?_ (.seq (.ident _) (.ident _) (.inr (by decide)))
    (.inl rfl), by decide⟩ <;> simp only [List.mem_singleton, forall_eq]
  · exact .ident _
  · exact .inr (by decide)

/-- What `erase` forgets are nodes for parentheses only. -/
example : erase (.bin .add (.paren (.ident b!"a")) (.ident b!"b")) =
    .bin .add (.ident b!"a") (.ident b!"b") ∧
    erase (.bin .add (.seq (.ident b!"a") (.ident b!"b")) (.ident b!"c")) ≠
      erase (.seq (.ident b!"a") (.bin .add (.ident b!"b") (.ident b!"c"))) :=
  ⟨rfl, nofun⟩

/-- A comma expression is of the lowest level only, unless parentheses are around it. -/
theorem reads_seq {p : Prec} {l r : Node} {ps : List Piece} (h : ReadsExpr p (.seq l r) ps) :
    p = .normal ∨ ps.head? = some (.punct .parenL) := by
  generalize he : Node.seq l r = e at h
  induction h <;> first | (cases he; done) | (right; rfl) | skip
  case weaken p q e ps hle _ ih =>
    rcases ih he with rfl | h
    · left; cases q <;> first | rfl | (exact absurd hle (by decide))
    · exact .inr h
  case seq => exact .inl rfl

/-- For a left operand the printer puts no parentheses: `(a, b) + c` is printed as `a,b+c`, which is
not an expression with this tree but another one, that is printed in the same way. -/
theorem C51_left_operand_false :
    ((Node.bin .add (.seq (.ident b!"a") (.ident b!"b")) (.ident b!"c")).fmt Fmt.new).output =
      [.ident b!"a", .punct .comma, .ident b!"b", .punct .plus, .ident b!"c"] ∧
    ¬ ReadsExpr .normal (.bin .add (.seq (.ident b!"a") (.ident b!"b")) (.ident b!"c"))
      [.ident b!"a", .punct .comma, .ident b!"b", .punct .plus, .ident b!"c"] ∧
    ((Node.seq (.ident b!"a") (.bin .add (.ident b!"b") (.ident b!"c"))).fmt Fmt.new).output =
      [.ident b!"a", .punct .comma, .ident b!"b", .punct .plus, .ident b!"c"] := by
  refine ⟨by decide, fun h => ?_, by decide⟩
  generalize hp : Prec.normal = p at h
  clear hp
  generalize he : Node.bin .add (.seq (.ident b!"a") (.ident b!"b")) (.ident b!"c") = e at h
  generalize hx : [Piece.ident b!"a", .punct .comma, .ident b!"b", .punct .plus, .ident b!"c"] = xs
    at h
  induction h <;> first | (cases he; done) | (cases hx; done) | skip
  case weaken ih => exact ih he hx
  case bin op l r ps qs _ hl _ _ _ =>
    cases he
    rcases reads_seq hl with h | h
    · cases h
    · cases ps with
      | nil => cases h
      | cons p ps => simp at h hx; rw [h] at hx; cases hx.1

/-- Other trees that are printed like another one: unary minus like `!`, an assignment as an operand,
a comma expression as the last argument, a call of a `new` without arguments, a power under a unary
operator (where the text is no expression at all), and an increment as an object. -/
theorem C51_others_false :
    (Node.unary .negative (.ident b!"a")).print = (Node.unary .negate (.ident b!"a")).print ∧
    (Node.bin .add (.ident b!"c") (.assign (.ident b!"a") (.ident b!"b"))).print = b!"c+a=b" ∧
    (Node.call (.ident b!"f") (.args (.cons (.ident b!"a") .nil)
      (.seq (.ident b!"b") (.ident b!"c")))).print =
      (Node.call (.ident b!"f") (.args (.cons (.ident b!"a") (.cons (.ident b!"b") .nil))
        (.ident b!"c"))).print ∧
    (Node.call (.newEmpty (.ident b!"a")) (.args .nil .none)).print =
      (Node.newArgs (.ident b!"a") (.args .nil .none)).print ∧
    (Node.unary .bitNegate (.bin .power (.ident b!"a") (.ident b!"b"))).print = b!"~a**b" ∧
    (Node.member (.postfix true (.ident b!"a")) (.dot (.ident b!"b"))).print = b!"a++.b" := by
  decide

/-! ## C52: statements read back as the same tree; the dangling `else` -/

/-- The tokens written for a statement are a statement of the grammar with the same tree: every `else`
belongs to its `if`. Where a statement without an open `if` is required, it is one.

Partial: `PrintableStmt` leaves out `throw`, which is printed without a semicolon (see below), `for`
with an initialiser, which is printed wrongly with `in` and with declarations, `switch`, and patterns
in declarations, parameters, `catch` and `for`. -/
theorem C52_statement_reads_back_partial (s : Node) (hs : PrintableStmt s) (f : Fmt)
    (ps : List Piece) (hps : (s.fmt f).output = f.output ++ ps) :
    ReadsStmt f.wrapStandaloneIf s (strip ps) := by
  obtain ⟨xs, ⟨qs, a, rfl⟩, b⟩ := stmtBack hs f
  obtain rfl : ps = qs := List.append_cancel_left (hps.symm.trans a)
  exact b

/-- A whole script is printed as its statements one after the other, each of which reads back. -/
theorem C52_script_reads_back_partial (l : Nodes) (hl : ∀ s ∈ items l, PrintableStmt s) :
    ∃ stmts : List (Node × List Piece), items l = stmts.map (·.1) ∧
      (∀ s ∈ stmts, ReadsStmt false s.1 s.2) ∧
      strip ((Node.item .root l .none .none .none .none).fmt Fmt.new).output =
        stmts.flatMap (·.2) := by
  obtain ⟨stmts, a, b, ps, c, d⟩ := reads_stmts l (fun s hs => stmtBack (hl s hs))
    { Fmt.new with inOperator := true }
  refine ⟨stmts, a, b, ?_⟩
  rw [← d, Node.fmt, ItemKind.fmt]
  exact congrArg strip c

/-- The grammar of the specification gives one statement at most, up to the nodes for parentheses and
the braces around a single `if` without `else`. -/
theorem C52_grammar_unambiguous {b b' : Bool} {s s' : Node} {ps : List Piece}
    (h : ReadsStmt b s ps) (h' : ReadsStmt b' s' ps) : eraseStmt s = eraseStmt s' :=
  readsStmt_unique h h'

/-- Different statements are printed differently. -/
theorem C52_injective_partial (s s' : Node) (hs : PrintableStmt s) (hs' : PrintableStmt s')
    (f f' : Fmt) (ps ps' : List Piece) (hps : (s.fmt f).output = f.output ++ ps)
    (hps' : (s'.fmt f').output = f'.output ++ ps') (heq : strip ps = strip ps') :
    eraseStmt s = eraseStmt s' := by
  have h := C52_statement_reads_back_partial s hs f ps hps
  rw [heq] at h
  exact readsStmt_unique h (C52_statement_reads_back_partial s' hs' f' ps' hps')

/-- Different scripts are printed differently. -/
theorem C52_script_injective_partial (l l' : Nodes) (hl : ∀ s ∈ items l, PrintableStmt s)
    (hl' : ∀ s ∈ items l', PrintableStmt s)
    (heq : strip ((Node.item .root l .none .none .none .none).fmt Fmt.new).output =
      strip ((Node.item .root l' .none .none .none .none).fmt Fmt.new).output) :
    (items l).map eraseStmt = (items l').map eraseStmt := by
  obtain ⟨ss, a, b, c⟩ := C52_script_reads_back_partial l hl
  obtain ⟨ss', a', b', c'⟩ := C52_script_reads_back_partial l' hl'
  have := readsStmts_unique b b' (c.symm.trans (heq.trans c'))
  rw [a, a', List.map_map, List.map_map]
  exact this

/-- Without braces an `if` without `else` is never a statement after which an `else` belongs to an `if`
further out. -/
theorem C52_braces {t c : Node} {ps : List Piece} (h : ReadsStmt true (.ifStmt t c) ps) :
    ps.head? = some (.punct .curlyL) := by
  cases h with
  | braces h => rfl

/-- `if (a) { if (b) c; } else d;` and `if (a) if (b) c; else d;`. -/
example :
    let s (n : Bytes) : Node := .exprStmt (.ident n)
    let outer : Node := .ifElse (.ident b!"a") (.ifStmt (.ident b!"b") (s b!"c")) (s b!"d")
    let inner : Node := .ifStmt (.ident b!"a") (.ifElse (.ident b!"b") (s b!"c") (s b!"d"))
    PrintableStmt outer ∧ PrintableStmt inner ∧
      outer.print = b!"if(a){if(b)c;}else d;" ∧ inner.print = b!"if(a)if(b)c;else d;" :=
  ⟨.ifElse (.ident _) (.ifStmt (.ident _) (.exprStmt (.ident _))) (.exprStmt (.ident _)),
    .ifStmt (.ident _) (.ifElse (.ident _) (.exprStmt (.ident _)) (.exprStmt (.ident _))),
    by decide, by decide⟩

/-- What `eraseStmt` forgets: it keeps the two apart. -/
example :
    let s (n : Bytes) : Node := .exprStmt (.ident n)
    let outer : Node := .ifElse (.ident b!"a") (.ifStmt (.ident b!"b") (s b!"c")) (s b!"d")
    let inner : Node := .ifStmt (.ident b!"a") (.ifElse (.ident b!"b") (s b!"c") (s b!"d"))
    eraseStmt outer ≠ eraseStmt inner ∧ eraseStmt outer = outer ∧
      eraseStmt (.ifElse (.ident b!"a") (.block (.cons (.ifStmt (.ident b!"b") (s b!"c")) .nil))
        (s b!"d")) = outer ∧
      eraseStmt (.block (.cons (s b!"a") .nil)) = .block (.cons (s b!"a") .nil) :=
  ⟨nofun, rfl, rfl, rfl⟩

/-- The `if` may be further down: in a loop, in the `else` of another `if`, after a label. -/
example :
    let s (n : Bytes) : Node := .exprStmt (.ident n)
    let n : Node := .ifElse (.ident b!"a") (.whileStmt (.ident b!"b") (.labelled (.ident b!"l")
      (.ifElse (.ident b!"c") (s b!"d") (.ifStmt (.ident b!"e") (s b!"f"))))) (s b!"g")
    PrintableStmt n ∧ n.print = b!"if(a)while(b)l:if(c)d;else{if(e)f;}else g;" :=
  ⟨.ifElse (.ident _) (.whileStmt (.ident _) (.labelled (.ifElse (.ident _) (.exprStmt (.ident _))
    (.ifStmt (.ident _) (.exprStmt (.ident _)))))) (.exprStmt (.ident _)), by decide⟩

/-- A function with a loop over values and `catch`. -/
example :
    let n : Node := .funcDecl .normal (.ident b!"f") (.args (.cons (.patternItem (.ident b!"a") .none) .nil)
        (.patternItem (.ident b!"b") (.init (.num b!"1"))))
      (.block (.cons (.forOf false (.forPattern .«let» (.ident b!"x") .none) (.ident b!"a")
        (.tryCatch (.block (.cons (.exprStmt (.ident b!"g")) .nil))
          (.catchClause (.paren (.ident b!"e")) (.block (.cons (.ret (.retValue (.ident b!"b"))) .nil))))) .nil))
    PrintableStmt n ∧
      n.print = b!"function f(a,b=1){for(let x of a)try{g;}catch(e){return b;}}" := by
  refine ⟨.funcDecl ?_ (.inr (.init (.num _) (.inr (by decide)))) (.block ?_), by decide⟩ <;>
    simp only [items, List.mem_singleton, forall_eq]
  · exact .name _
  · refine .forOf (.ident _) (by decide) (.tryCatch (.block ?_) (.block ?_)) <;>
      simp only [items, List.mem_singleton, forall_eq]
    · exact .exprStmt (.ident _)
    · exact .retValue (.ident _)

/-- What is printed wrongly: `throw` has no semicolon, so that the next statement is on the same line;
a declaration in the head of a `for` has one too many; `in` in the head of a `for` has no parentheses,
though it has them elsewhere. -/
theorem C52_statements_false :
    (Node.ifElse (.ident b!"a") (.throw (.ident b!"b")) (.exprStmt (.ident b!"c"))).print =
      b!"if(a)throw b else c;" ∧
    (Node.forStmt (.decl .var .nil (.patternItem (.ident b!"a") .none)) .none .none .empty).print =
      b!"for(var a;;;);" ∧
    (Node.forStmt (.forInit (.inOp (.ident b!"a") (.ident b!"b"))) .none .none .empty).print =
      b!"for(a in b;;);" ∧
    (Node.exprStmt (.inOp (.ident b!"a") (.ident b!"b"))).print = b!"(a in b);" := by
  decide

end Jsparse
