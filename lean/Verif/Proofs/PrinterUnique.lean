import Verif.Spec.Printer
/-!
# The grammar of expressions is unambiguous

A parser by precedence climbing finds, for all tokens that are an expression, the tree of the expression.
Therefore there is one tree only, up to the nodes for parentheses.
-/

namespace Jsparse.Ast

open Jsparse.Spec

/-- How an expression may go on. -/
inductive Cont where
  | stop
  | dot (n : Bytes) (r : List Piece)
  | square (r : List Piece)
  | call (r : List Piece)
  | post (b : Bool) (r : List Piece)
  | bin (op : BinOp) (r : List Piece)
  | inOp (r : List Piece)
  | cond (r : List Piece)
  | assign (r : List Piece)
  | opAssign (op : AssignOp) (r : List Piece)
  | comma (r : List Piece)

def binOf : Punct → Option BinOp
  | .plus => some .add | .minus => some .subtract | .lAngleAngle => some .leftShift
  | .rAngleAngle => some .rightShift | .rAngleAngleAngle => some .rightShiftSigned
  | .slash => some .divide | .star => some .multiply | .mod => some .modulus
  | .amp => some .bitAnd | .bar => some .bitOr | .caret => some .bitXor
  | .starStar => some .power | .eqEq => some .equal | .eqEqEq => some .strictEqual
  | .neq => some .notEqual | .neqEq => some .strictNotEqual | .lAngle => some .lessThan
  | .lAngleEq => some .lessThanEqual | .rAngle => some .greaterThan
  | .rAngleEq => some .greaterThanEqual | .ampAmp => some .and | .barBar => some .or
  | _ => none

def assignOf : Punct → Option AssignOp
  | .plus => some .add | .subtract => some .subtract | .lAngleAngle => some .leftShift
  | .rAngleAngle => some .rightShift | .rAngleAngleAngle => some .rightShiftSigned
  | .slash => some .divide | .star => some .multiply | .mod => some .modulus
  | .amp => some .bitAnd | .bar => some .bitOr | .caret => some .bitXor
  | .starStar => some .power
  | _ => none

def unOf : Piece → Option UnOp
  | .kw .delete => some .delete | .kw .void => some .void | .kw .typeof => some .typeof
  | .punct .plus => some .positive | .punct .minus => some .negative
  | .punct .tilde => some .bitNegate | .punct .exclam => some .negate | .kw .await => some .await
  | _ => none

def cont : List Piece → Cont
  | .punct p :: r =>
    if p = .period then (match r with | .ident n :: r => .dot n r | _ => .stop)
    else if p = .squareL then .square r
    else if p = .parenL then .call r
    else if p = .plusPlus then .post true r
    else if p = .minusMinus then .post false r
    else if p = .question then .cond r
    else if p = .eq then .assign r
    else if p = .comma then .comma r
    else if r.head? = some (.punct .eq) then
      (match assignOf p with | some op => .opAssign op r.tail | none => .stop)
    else (match binOf p with | some op => .bin op r | none => .stop)
  | .kw k :: r => if k = .«in» then .inOp r else if k = .instanceof then .bin .instanceof r else .stop
  | _ => .stop

/-- The level of what the expression becomes. -/
def Cont.level : Cont → Nat
  | .stop => 0
  | .dot _ _ | .square _ | .call _ => 17
  | .post _ _ => 16
  | .bin op _ => (binLevel op).num
  | .inOp _ => 10
  | .cond _ => 3
  | .assign _ | .opAssign _ _ => 2
  | .comma _ => 1

/-- The level of the right operand. -/
def rightLevel (op : BinOp) : Prec := if op = .power then .exponential else tighter (binLevel op)

/-- The rest after a punctuator. -/
def expect (p : Punct) : Node × List Piece → Option (Node × List Piece)
  | (e, .punct q :: r) => if q = p then some (e, r) else none
  | _ => none

/-- The items of an array. -/
def asItems : Nodes → Nodes
  | .nil => .nil
  | .cons e l => .cons (.arrayItem e) (asItems l)

mutual
/-- The parser; the first argument bounds the depth of the recursion. -/
def parse : Nat → Prec → List Piece → Option (Node × List Piece)
  | 0, _, _ => none
  | n + 1, p, ts => (prim n ts).bind fun x => loop n p x.1 x.2

def prim : Nat → List Piece → Option (Node × List Piece)
  | 0, _ => none
  | n + 1, ts =>
    match ts with
    | .ident x :: r => some (.ident x, r)
    | .num x :: r => some (.num x, r)
    | .kw .this :: r => some (.this, r)
    | .kw .null :: r => some (.null, r)
    | .kw .«true» :: r => some (.bool true, r)
    | .kw .«false» :: r => some (.bool false, r)
    | .punct .sQuote :: .raw x :: .punct .sQuote :: r => some (.str x, r)
    | .punct .parenL :: r => (parse n .normal r).bind (expect .parenR)
    | .punct .squareL :: r => (args n .squareR r).map fun x =>
      (.array (asItems x.1) ((x.2.1.map .arrayItem).getD .none), x.2.2)
    | .punct .plusPlus :: r => (parse n .unary r).map fun x => (.«prefix» true x.1, x.2)
    | .punct .minusMinus :: r => (parse n .unary r).map fun x => (.«prefix» false x.1, x.2)
    | t :: r => (unOf t).bind fun op => (parse n .unary r).map fun x => (.unary op x.1, x.2)
    | [] => none

def loop : Nat → Prec → Node → List Piece → Option (Node × List Piece)
  | 0, _, _, _ => none
  | n + 1, p, a, ts =>
    if (cont ts).level < p.num then some (a, ts)
    else
      match cont ts with
      | .stop => none
      | .dot x r => loop n p (.member a (.dot (.ident x))) r
      | .square r => ((parse n .normal r).bind (expect .squareR)).bind fun x =>
        loop n p (.member a (.computed x.1)) x.2
      | .call r => (args n .parenR r).bind fun x =>
        loop n p (.call a (.args x.1 (x.2.1.getD .none))) x.2.2
      | .post b r => loop n p (.postfix b a) r
      | .bin op r => (parse n (rightLevel op) r).bind fun x => loop n p (.bin op a x.1) x.2
      | .inOp r => (parse n .shift r).bind fun x => loop n p (.inOp a x.1) x.2
      | .cond r => ((parse n .assignment r).bind (expect .colon)).bind fun x =>
        (parse n .assignment x.2).bind fun y => loop n p (.cond a x.1 y.1) y.2
      | .assign r => (parse n .assignment r).bind fun x => loop n p (.assign a x.1) x.2
      | .opAssign op r => (parse n .assignment r).bind fun x => loop n p (.opAssign op a x.1) x.2
      | .comma r => (parse n .assignment r).bind fun x => loop n p (.seq a x.1) x.2

def args : Nat → Punct → List Piece → Option (Nodes × Option Node × List Piece)
  | 0, _, _ => none
  | n + 1, c, ts =>
    if ts.head? = some (.punct c) then some (.nil, none, ts.tail)
    else (parse n .assignment ts).bind fun x =>
      match x with
      | (e, .punct q :: r) =>
        if q = .comma then (args n c r).map fun y => (.cons e y.1, y.2)
        else if q = c then some (.nil, some e, r) else none
      | _ => none
end

/-- For all numbers from some on. -/
def Ev (P : Nat → Prop) : Prop := ∃ N, ∀ n, N ≤ n → P n

theorem Ev.and {P Q : Nat → Prop} (h1 : Ev P) (h2 : Ev Q) : Ev fun n => P n ∧ Q n := by
  obtain ⟨a, ha⟩ := h1
  obtain ⟨b, hb⟩ := h2
  exact ⟨max a b, fun n hn => ⟨ha n (by omega), hb n (by omega)⟩⟩

theorem Ev.mono {P Q : Nat → Prop} (h : Ev P) (hq : ∀ n, P n → Q n) : Ev Q :=
  let ⟨a, ha⟩ := h; ⟨a, fun n hn => hq n (ha n hn)⟩

/-- One level of the recursion more. -/
theorem Ev.succ {P Q : Nat → Prop} (h : Ev P) (hq : ∀ n, P n → Q (n + 1)) : Ev Q := by
  obtain ⟨a, ha⟩ := h
  refine ⟨a + 1, fun n hn => ?_⟩
  obtain ⟨m, rfl⟩ : ∃ m, n = m + 1 := ⟨n - 1, by omega⟩
  exact hq m (ha m (by omega))

theorem Ev.always {Q : Nat → Prop} (hq : ∀ n, Q (n + 1)) : Ev Q :=
  Ev.succ (P := fun _ => True) ⟨0, fun _ _ => trivial⟩ fun n _ => hq n

theorem parse_of_prim {p : Prec} {ts : List Piece} {a : Node} {r : List Piece}
    {out : Option (Node × List Piece)} (h1 : Ev fun n => prim n ts = some (a, r))
    (h2 : Ev fun n => loop n p a r = out) : Ev fun n => parse n p ts = out :=
  (h1.and h2).succ fun n h => by rw [parse, h.1]; exact h.2

theorem loop_stop {p : Prec} {a : Node} {ts : List Piece} (h : (cont ts).level < p.num) :
    Ev fun n => loop n p a ts = some (a, ts) :=
  .always fun n => by rw [loop, if_pos h]

/-- The tokens begin with something an expression may begin with. -/
def Begins (xs : List Piece) : Prop :=
  ∃ x ys, xs = x :: ys ∧ x ≠ .punct .eq ∧ x ≠ .punct .parenR ∧ x ≠ .punct .squareR

theorem Begins.append {xs : List Piece} (h : Begins xs) (ys : List Piece) : Begins (xs ++ ys) := by
  obtain ⟨x, zs, rfl, a, b⟩ := h
  exact ⟨x, zs ++ ys, rfl, a, b⟩

theorem begins {q : Prec} {e : Node} {xs : List Piece} (h : ReadsExpr q e xs) : Begins xs := by
  induction h with
  | weaken _ _ ih => exact ih
  | unary _ _ =>
    rename_i op e ps _ _
    exact ⟨_, _, rfl, by cases op <;> nofun, by cases op <;> nofun,
      by cases op <;> nofun⟩
  | _ => first
    | exact ⟨_, _, rfl, nofun, nofun, nofun⟩
    | (rename_i ih; exact ih.append _)
    | ((try simp only [List.append_assoc]); apply Begins.append; assumption)

/-- What may follow after an expression of a level. -/
def bound : Prec → Nat
  | .normal | .assignment | .conditional => 1
  | .logicalOr => 4 | .logicalAnd => 5 | .bitwiseOr => 6 | .bitwiseXOr => 7 | .bitwiseAnd => 8
  | .equality => 9 | .relational => 10 | .shift => 11 | .additive => 12 | .multiplicative => 13
  | .exponential => 13 | .unary => 14 | .update => 14
  | .leftHand | .«new» | .member | .primary => 17

theorem bound_mono {p q : Prec} (h : q.num ≤ p.num) : bound q ≤ bound p := by
  revert h; cases p <;> cases q <;> decide

theorem cont_bin (op : BinOp) {r : List Piece} (h : Begins r) :
    cont (binToken op :: r) = .bin op r := by
  obtain ⟨x, ys, rfl, hx, _⟩ := h
  cases op <;> simp [cont, binToken, binOf, hx]

theorem cont_assign (op : AssignOp) (r : List Piece) :
    cont (assignTokens op ++ r) = .opAssign op r := by
  cases op <;> simp [cont, assignTokens, assignOf]

/-- The parser finds the tree. -/
def Found (q : Prec) (e : Node) (xs : List Piece) : Prop :=
  ∀ (p : Prec) (rest : List Piece) (out : Option (Node × List Piece)), p.num ≤ q.num →
    (cont rest).level ≤ bound q → Ev (fun n => loop n p (erase e) rest = out) →
    Ev fun n => parse n p (xs ++ rest) = out

/-- An operand. -/
theorem Found.operand {q : Prec} {e : Node} {xs : List Piece} (h : Found q e xs)
    {rest : List Piece} (h1 : (cont rest).level < q.num) (h2 : (cont rest).level ≤ bound q) :
    Ev fun n => parse n q (xs ++ rest) = some (erase e, rest) :=
  h q rest _ (Nat.le_refl _) h2 (loop_stop h1)

/-- An expression before something that ends it. -/
theorem Found.inner {q : Prec} {e : Node} {xs : List Piece} (h : Found q e xs)
    {rest : List Piece} (h1 : cont rest = .stop) :
    Ev fun n => parse n q (xs ++ rest) = some (erase e, rest) :=
  h.operand (by rw [h1]; cases q <;> decide) (by rw [h1]; exact Nat.zero_le _)

theorem found_prim {e : Node} {xs : List Piece}
    (h : ∀ rest, Ev fun n => prim n (xs ++ rest) = some (erase e, rest)) :
    ∀ q, Found q e xs :=
  fun _ _ rest _ _ _ hl => parse_of_prim (h rest) hl

/-- The items of a list of arguments. -/
def ofItems : List Node → Nodes
  | [] => .nil
  | e :: l => .cons e (ofItems l)

theorem eraseItems_eq : ∀ l : Nodes, eraseItems l = ofItems ((items l).map erase)
  | .nil => rfl
  | .cons e l => by rw [eraseItems, eraseItems_eq l]; rfl

/-- The arguments with commas. -/
def prepend (l : List Node) (l' : Nodes) : Nodes := l.foldr .cons l'

theorem prepend_nil : ∀ l : List Node, prepend l .nil = ofItems l
  | [] => rfl
  | e :: l => congrArg (Nodes.cons e) (prepend_nil l)

theorem asItems_eq : ∀ l : List Node, asItems (ofItems l) = ofItems (l.map .arrayItem)
  | [] => rfl
  | e :: l => congrArg (Nodes.cons (.arrayItem e)) (asItems_eq l)

/-- What ends a list of arguments or an array. -/
def Closes (c : Punct) : Prop := c = .parenR ∨ c = .squareR

theorem Begins.closes {xs : List Piece} (h : Begins xs) {c : Punct} (hc : Closes c) (ys : List Piece) :
    (xs ++ ys).head? ≠ some (.punct c) := by
  obtain ⟨x, zs, rfl, _, a, b⟩ := h
  rcases hc with rfl | rfl
  · simpa using a
  · simpa using b

theorem args_found {c : Punct} (hc : Closes c) : ∀ (as : List (Node × List Piece))
    (_ : ∀ a ∈ as, Found .assignment a.1 a.2) (_ : ∀ a ∈ as, Begins a.2) {tail : List Piece}
    {l : Nodes} {last : Option Node} {r : List Piece}
    (_ : Ev fun n => args n c tail = some (l, last, r)),
    Ev fun n => args n c (as.flatMap (fun a => a.2 ++ [.punct .comma]) ++ tail) =
      some (prepend (as.map fun a => erase a.1) l, last, r)
  | [], _, _, _, _, _, _, ht => ht
  | a :: as, hf, hb, tail, l, last, r, ht => by
    have ih := args_found hc as (fun a ha => hf a (List.mem_cons_of_mem _ ha))
      (fun a ha => hb a (List.mem_cons_of_mem _ ha)) ht
    have h1 := (hf a List.mem_cons_self).operand
      (rest := .punct .comma :: (as.flatMap (fun a => a.2 ++ [.punct .comma]) ++ tail))
      (by simp [cont, Cont.level, Prec.num]) (by simp [cont, Cont.level, bound])
    have hr := (hb a List.mem_cons_self).closes hc
    refine (h1.and ih).succ fun n h => ?_
    have e : (a :: as).flatMap (fun a => a.2 ++ [Piece.punct .comma]) ++ tail =
        a.2 ++ .punct .comma :: (as.flatMap (fun a => a.2 ++ [.punct .comma]) ++ tail) := by simp
    rw [e, args, if_neg (hr _), h.1]
    simp only [Option.bind_some, if_true, h.2, Option.map_some]
    rfl

theorem args_end (c : Punct) (rest : List Piece) :
    Ev fun n => args n c (.punct c :: rest) = some (.nil, none, rest) :=
  .always fun n => by rw [args, if_pos (by rfl)]; rfl

theorem args_last {c : Punct} (hc : Closes c) {e : Node} {xs : List Piece} (h : Found .assignment e xs) (hb : Begins xs)
    (rest : List Piece) :
    Ev fun n => args n c (xs ++ .punct c :: rest) = some (.nil, some (erase e), rest) := by
  have h1 := h.inner (rest := .punct c :: rest) (by
    rcases hc with rfl | rfl <;> simp [cont, assignOf, binOf])
  refine h1.succ fun n h => ?_
  rw [args, if_neg (hb.closes hc _), h]
  rcases hc with rfl | rfl <;> rfl

theorem expect_self (p : Punct) (e : Node) (r : List Piece) :
    expect p (e, .punct p :: r) = some (e, r) := by simp [expect]

theorem not_lt_level {c : Nat} {p q : Prec} (hp : p.num ≤ q.num) (hq : q.num ≤ c) :
    ¬ c < p.num := by omega

/-- A binary operator. -/
theorem found_bin {op : BinOp} {q ql : Prec} {l r : Node} {ps qs : List Piece}
    (hq : q = binLevel op) (hql : q.num ≤ ql.num) (hb : (binLevel op).num ≤ bound ql)
    (hr1 : bound q < (rightLevel op).num) (hr2 : bound q ≤ bound (rightLevel op))
    (hl : Found ql l ps) (hr : Found (rightLevel op) r qs) (hbr : Begins qs) :
    Found q (.bin op l r) (ps ++ binToken op :: qs) := by
  intro p rest out hp hc hout
  have e : (ps ++ binToken op :: qs) ++ rest = ps ++ binToken op :: (qs ++ rest) := by simp
  have hcont : cont (binToken op :: (qs ++ rest)) = .bin op (qs ++ rest) :=
    cont_bin op (hbr.append rest)
  rw [e]
  refine hl p _ out (Nat.le_trans hp hql) (by rw [hcont]; exact hb) ?_
  have h1 := hr.operand (rest := rest) (Nat.lt_of_le_of_lt hc hr1) (Nat.le_trans hc hr2)
  refine (h1.and hout).succ fun n h => ?_
  rw [loop, hcont, if_neg (not_lt_level hp (by rw [hq]; exact Nat.le_refl _))]
  simp only [h.1, Option.bind_some]
  exact h.2

theorem found {q : Prec} {e : Node} {xs : List Piece} (h : ReadsExpr q e xs) : Found q e xs := by
  induction h with
  | weaken hle _ ih =>
    intro p rest out hp hc hout
    exact ih p rest out (Nat.le_trans hp hle) (Nat.le_trans hc (bound_mono hle)) hout
  | @parens e ps _ ih =>
    refine found_prim (fun rest => ?_) _
    have := ih.inner (rest := .punct .parenR :: rest) (by simp [cont, assignOf, binOf])
    refine this.succ fun n h => ?_
    have e : (Piece.punct .parenL :: ps ++ [.punct .parenR]) ++ rest =
      .punct .parenL :: (ps ++ .punct .parenR :: rest) := by simp
    rw [e]
    simp only [prim, h, Option.bind_some, expect_self]
  | @paren e ps _ ih =>
    refine found_prim (fun rest => ?_) _
    have := ih.inner (rest := .punct .parenR :: rest) (by simp [cont, assignOf, binOf])
    refine this.succ fun n h => ?_
    have e : (Piece.punct .parenL :: ps ++ [.punct .parenR]) ++ rest =
      .punct .parenL :: (ps ++ .punct .parenR :: rest) := by simp
    rw [e]
    simp only [prim, h, Option.bind_some, expect_self, erase]
  | ident n => exact found_prim (fun rest => .always fun n => rfl) _
  | this => exact found_prim (fun rest => .always fun n => rfl) _
  | null => exact found_prim (fun rest => .always fun n => rfl) _
  | «true» => exact found_prim (fun rest => .always fun n => rfl) _
  | «false» => exact found_prim (fun rest => .always fun n => rfl) _
  | num t => exact found_prim (fun rest => .always fun n => rfl) _
  | str t => exact found_prim (fun rest => .always fun n => rfl) _
  | @array l as hi has ihs =>
    refine found_prim (fun rest => ?_) _
    have e' : (.punct .squareL :: as.flatMap (fun a => a.2 ++ [.punct .comma]) ++
        [.punct .squareR]) ++ rest =
      .punct .squareL :: (as.flatMap (fun a => a.2 ++ [.punct .comma]) ++
        .punct .squareR :: rest) := by simp
    have h1 := args_found (.inr rfl) as ihs (fun a ha => begins (has a ha)) (args_end _ rest)
    refine h1.succ fun n h => ?_
    rw [e']
    simp only [prim, h, Option.map_some, prepend_nil, asItems_eq]
    rw [erase, eraseItems_eq, hi, List.map_map, List.map_map]
    rfl
  | @arrayLast l e qs as hi has hlast ihs ihl =>
    refine found_prim (fun rest => ?_) _
    have e' : (.punct .squareL :: as.flatMap (fun a => a.2 ++ [.punct .comma]) ++ qs ++
        [.punct .squareR]) ++ rest =
      .punct .squareL :: (as.flatMap (fun a => a.2 ++ [.punct .comma]) ++
        (qs ++ .punct .squareR :: rest)) := by simp
    have h1 := args_found (.inr rfl) as ihs (fun a ha => begins (has a ha))
      (args_last (.inr rfl) ihl (begins hlast) rest)
    refine h1.succ fun n h => ?_
    rw [e']
    simp only [prim, h, Option.map_some, prepend_nil, asItems_eq]
    rw [erase, eraseItems_eq, hi, List.map_map, List.map_map]
    rfl
  | @dot o n ps _ ih =>
    intro p rest out hp hc hout
    rw [List.append_assoc]
    refine ih p _ out hp (by simp [cont, Cont.level, bound]) ?_
    refine hout.succ fun k h => ?_
    rw [loop]
    simp only [List.cons_append, List.nil_append, cont, if_true, Cont.level]
    rw [if_neg (not_lt_level hp (by simp [Cont.level, Prec.num]))]
    exact h
  | @computed o e ps qs _ _ ih ih2 =>
    intro p rest out hp hc hout
    have e' : (ps ++ .punct .squareL :: qs ++ [.punct .squareR]) ++ rest =
      ps ++ .punct .squareL :: (qs ++ .punct .squareR :: rest) := by simp
    have hcont : cont (.punct .squareL :: (qs ++ .punct .squareR :: rest)) =
      .square (qs ++ .punct .squareR :: rest) := by simp [cont]
    rw [e']
    refine ih p _ out hp (by rw [hcont]; simp [Cont.level, bound]) ?_
    have h1 := ih2.inner (rest := .punct .squareR :: rest) (by simp [cont, assignOf, binOf])
    refine (h1.and hout).succ fun n h => ?_
    rw [loop, hcont, if_neg (not_lt_level hp (by simp [Cont.level, Prec.num]))]
    simp only [h.1, Option.bind_some, expect_self]
    exact h.2
  | @call c l ps as _ hi has ih ihs =>
    intro p rest out hp hc hout
    have e' : (ps ++ .punct .parenL :: as.flatMap (fun a => a.2 ++ [.punct .comma]) ++
        [.punct .parenR]) ++ rest =
      ps ++ .punct .parenL :: (as.flatMap (fun a => a.2 ++ [.punct .comma]) ++
        .punct .parenR :: rest) := by simp
    have hcont : ∀ r, cont (.punct .parenL :: r) = .call r := by simp [cont]
    rw [e']
    refine ih p _ out hp (by rw [hcont]; exact Nat.le_refl 17) ?_
    have h1 := args_found (.inl rfl) as ihs (fun a ha => begins (has a ha)) (args_end _ rest)
    refine (h1.and hout).succ fun n h => ?_
    rw [loop, hcont, if_neg (not_lt_level hp (by simp [Cont.level, Prec.num]))]
    simp only [h.1, Option.bind_some, prepend_nil]
    rw [← h.2, erase, erase, eraseItems_eq, hi, List.map_map]
    rfl
  | @callLast c l e ps qs as _ hi has hlast ih ihs ihl =>
    intro p rest out hp hc hout
    have e' : (ps ++ .punct .parenL :: as.flatMap (fun a => a.2 ++ [.punct .comma]) ++ qs ++
        [.punct .parenR]) ++ rest =
      ps ++ .punct .parenL :: (as.flatMap (fun a => a.2 ++ [.punct .comma]) ++
        (qs ++ .punct .parenR :: rest)) := by simp
    have hcont : ∀ r, cont (.punct .parenL :: r) = .call r := by simp [cont]
    rw [e']
    refine ih p _ out hp (by rw [hcont]; exact Nat.le_refl 17) ?_
    have h1 := args_found (.inl rfl) as ihs (fun a ha => begins (has a ha))
      (args_last (.inl rfl) ihl (begins hlast) rest)
    refine (h1.and hout).succ fun n h => ?_
    rw [loop, hcont, if_neg (not_lt_level hp (by simp [Cont.level, Prec.num]))]
    simp only [h.1, Option.bind_some, prepend_nil]
    rw [← h.2, erase, erase, eraseItems_eq, hi, List.map_map]
    rfl
  | @increment e ps _ ih =>
    intro p rest out hp hc hout
    rw [List.append_assoc]
    refine ih p _ out (Nat.le_trans hp (by decide)) (by simp [cont, Cont.level, bound]) ?_
    refine hout.succ fun k h => ?_
    have hcont : cont ([.punct .plusPlus] ++ rest) = .post true rest := by simp [cont]
    rw [loop, hcont, if_neg (not_lt_level hp (by simp [Cont.level, Prec.num]))]
    exact h
  | @decrement e ps _ ih =>
    intro p rest out hp hc hout
    rw [List.append_assoc]
    refine ih p _ out (Nat.le_trans hp (by decide)) (by simp [cont, Cont.level, bound]) ?_
    refine hout.succ fun k h => ?_
    have hcont : cont ([.punct .minusMinus] ++ rest) = .post false rest := by simp [cont]
    rw [loop, hcont, if_neg (not_lt_level hp (by simp [Cont.level, Prec.num]))]
    exact h
  | @preIncrement e ps _ ih =>
    intro p rest out hp hc hout
    refine parse_of_prim ?_ hout
    have := ih.operand (rest := rest) (Nat.lt_of_le_of_lt hc (by decide)) hc
    refine this.succ fun n h => ?_
    simp only [List.cons_append, prim, h, Option.map_some, erase]
  | @preDecrement e ps _ ih =>
    intro p rest out hp hc hout
    refine parse_of_prim ?_ hout
    have := ih.operand (rest := rest) (Nat.lt_of_le_of_lt hc (by decide)) hc
    refine this.succ fun n h => ?_
    simp only [List.cons_append, prim, h, Option.map_some, erase]
  | @unary op e ps _ ih =>
    intro p rest out hp hc hout
    refine parse_of_prim ?_ hout
    have := ih.operand (rest := rest) (Nat.lt_of_le_of_lt hc (by decide)) hc
    refine this.succ fun n h => ?_
    cases op <;>
      simp only [List.cons_append, prim, unToken, unOf, h, Option.map_some, Option.bind_some, erase]
  | @power l r ps qs _ hr ihl ihr =>
    exact found_bin (op := .power) (ql := .update) rfl (by decide) (by decide) (by decide)
      (by decide) ihl ihr (begins hr)
  | @bin op l r ps qs ho hl hr ihl ihr =>
    have e : rightLevel op = tighter (binLevel op) := by rw [rightLevel, if_neg ho]
    refine found_bin (ql := binLevel op) rfl (Nat.le_refl _) ?_ ?_ ?_ ihl (by rw [e]; exact ihr)
      (begins hr)
    · cases op <;> first | exact absurd rfl ho | decide
    · cases op <;> first | exact absurd rfl ho | decide
    · cases op <;> first | exact absurd rfl ho | decide
  | @inOp l r ps qs _ hr ihl ihr =>
    intro p rest out hp hc hout
    have e' : (ps ++ .kw .«in» :: qs) ++ rest = ps ++ .kw .«in» :: (qs ++ rest) := by simp
    have hcont : ∀ r, cont (.kw .«in» :: r) = .inOp r := by simp [cont]
    rw [e']
    refine ihl p _ out hp (by rw [hcont]; exact Nat.le_refl 10) ?_
    have h1 := ihr.operand (rest := rest) (Nat.lt_of_le_of_lt hc (by decide))
      (Nat.le_trans hc (by decide))
    refine (h1.and hout).succ fun n h => ?_
    rw [loop, hcont, if_neg (not_lt_level hp (by simp [Cont.level, Prec.num]))]
    simp only [h.1, Option.bind_some]
    exact h.2
  | @cond t c a ps qs rs _ _ _ iht ihc iha =>
    intro p rest out hp hc hout
    have e' : (ps ++ .punct .question :: qs ++ .punct .colon :: rs) ++ rest =
      ps ++ .punct .question :: (qs ++ .punct .colon :: (rs ++ rest)) := by simp
    have hcont : ∀ r, cont (.punct .question :: r) = .cond r := by simp [cont]
    rw [e']
    refine iht p _ out (Nat.le_trans hp (by decide)) (by rw [hcont]; simp [Cont.level, bound]) ?_
    have h1 := ihc.inner (rest := .punct .colon :: (rs ++ rest)) (by simp [cont, assignOf, binOf])
    have h2 := iha.operand (rest := rest) (Nat.lt_of_le_of_lt hc (by decide)) hc
    refine (h1.and (h2.and hout)).succ fun n h => ?_
    rw [loop, hcont, if_neg (not_lt_level hp (by simp [Cont.level, Prec.num]))]
    simp only [h.1, h.2.1, Option.bind_some, expect_self]
    exact h.2.2
  | @assign l r ps qs _ hr ihl ihr =>
    intro p rest out hp hc hout
    have e' : (ps ++ .punct .eq :: qs) ++ rest = ps ++ .punct .eq :: (qs ++ rest) := by simp
    have hcont : ∀ r, cont (.punct .eq :: r) = .assign r := by simp [cont]
    rw [e']
    refine ihl p _ out (Nat.le_trans hp (by decide)) (by rw [hcont]; simp [Cont.level, bound]) ?_
    have h1 := ihr.operand (rest := rest) (Nat.lt_of_le_of_lt hc (by decide)) hc
    refine (h1.and hout).succ fun n h => ?_
    rw [loop, hcont, if_neg (not_lt_level hp (by simp [Cont.level, Prec.num]))]
    simp only [h.1, Option.bind_some]
    exact h.2
  | @opAssign op l r ps qs _ hr ihl ihr =>
    intro p rest out hp hc hout
    have e' : (ps ++ assignTokens op ++ qs) ++ rest = ps ++ (assignTokens op ++ (qs ++ rest)) := by
      simp
    rw [e']
    refine ihl p _ out (Nat.le_trans hp (by decide)) (by rw [cont_assign]; simp [Cont.level, bound]) ?_
    have h1 := ihr.operand (rest := rest) (Nat.lt_of_le_of_lt hc (by decide)) hc
    refine (h1.and hout).succ fun n h => ?_
    rw [loop, cont_assign, if_neg (not_lt_level hp (by simp [Cont.level, Prec.num]))]
    simp only [h.1, Option.bind_some]
    exact h.2
  | @seq l r ps qs _ hr ihl ihr =>
    intro p rest out hp hc hout
    have e' : (ps ++ .punct .comma :: qs) ++ rest = ps ++ .punct .comma :: (qs ++ rest) := by simp
    have hcont : ∀ r, cont (.punct .comma :: r) = .comma r := by simp [cont]
    rw [e']
    refine ihl p _ out hp (by rw [hcont]; exact Nat.le_refl 1) ?_
    have h1 := ihr.operand (rest := rest) (Nat.lt_of_le_of_lt hc (by decide)) hc
    refine (h1.and hout).succ fun n h => ?_
    rw [loop, hcont, if_neg (not_lt_level hp (by simp [Cont.level, Prec.num]))]
    simp only [h.1, Option.bind_some]
    exact h.2

/-- One text, one tree. -/
theorem reads_unique {q q' : Prec} {e e' : Node} {xs : List Piece} (h : ReadsExpr q e xs)
    (h' : ReadsExpr q' e' xs) : erase e = erase e' := by
  have le : ∀ q : Prec, Prec.normal.num ≤ q.num := fun q => by cases q <;> decide
  have a := (found (h.weaken (le q))).inner (rest := []) rfl
  have b := (found (h'.weaken (le q'))).inner (rest := []) rfl
  obtain ⟨N, hN⟩ := a.and b
  have := hN N (Nat.le_refl _)
  exact congrArg Prod.fst (Option.some.inj (this.1.symm.trans this.2))

end Jsparse.Ast
