import Verif.Spec.Printed
/-!
# The tokens of a printed expression are derived in the grammar of the parser
-/

namespace Jsparse.Ast.Printed

open Jsparse.Spec

abbrev P := Jsparse.Punct

theorem Written.append {ps qs : List Piece} {u v : List Tok} (h : Written ps u) (h' : Written qs v) :
    Written (ps ++ qs) (u ++ v) := by
  induction h with
  | nil => exact h'
  | kw k _ ih => exact .kw k ih
  | ident a _ ih => exact .ident a ih
  | num a _ ih => exact .num a ih
  | str a b _ ih => exact .str a b ih
  | punct q a _ ih => exact .punct q a ih
  | joined q a b _ ih => exact .joined q a b ih

/-- The tokens that occur. -/
def Plain (t : Token) : Prop := Core (false, t) ∧ t ≠ .ident b!"yield" ∧ ¬ BeginsTemplate t

/-- The tokens an expression does not begin with. -/
def notFirst : List Token :=
  .punct .curlyOpen :: .punct .eq :: .ident b!"async" :: .ident b!"await" :: .ident b!"else" ::
    .ident b!"finally" :: .ident b!"catch" :: .punct .semicolon :: (statementWords ++ declarationWords)

/-- Tokens on one line, the first of which is not in `L`. -/
def Follow (L : List Token) (r : List Tok) : Prop := ∃ t v, r = (false, t) :: v ∧ t ∉ L ∧ Plain t

/-- The same with other tokens behind. -/
theorem Follow.append {L : List Token} {r : List Tok} (h : Follow L r) (w : List Tok) :
    Follow L (r ++ w) := by
  obtain ⟨t, v, rfl, a, b⟩ := h
  exact ⟨t, v ++ w, rfl, a, b⟩

theorem Follow.mono {L L' : List Token} {r : List Tok} (h : Follow L r) (hs : ∀ t ∈ L', t ∈ L) :
    Follow L' r := by
  obtain ⟨t, v, rfl, a, b⟩ := h
  exact ⟨t, v, rfl, fun h => a (hs t h), b⟩

/-- The tokens in front of `=`. -/
def Ender : Token → Prop
  | .punct q => q = .parenClose ∨ q = .squareClose
  | _ => True

/-- Tokens that occur, the first of which is not `=`, and where `=` follows the end of a left-hand side
only. -/
structure Seg (u : List Tok) : Prop where
  plain : ∀ x ∈ u, Plain x.2
  head : ∀ x v, u = x :: v → x.2 ≠ .punct .eq
  eq : ∀ a x y b, u = a ++ x :: y :: b → y.2 = .punct .eq → Ender x.2

theorem Seg.nil : Seg [] := ⟨by simp, by simp, by simp⟩

theorem Seg.append' {u v : List Tok} (hu : Seg u) (hp : ∀ x ∈ v, Plain x.2)
    (hv : ∀ a x y b, v = a ++ x :: y :: b → y.2 = .punct .eq → Ender x.2)
    (h : ∀ a x y b, u = a ++ [x] → v = y :: b → y.2 = .punct .eq → Ender x.2)
    (h0 : u = [] → ∀ y b, v = y :: b → y.2 ≠ .punct .eq) : Seg (u ++ v) where
  plain x hx := by
    rcases List.mem_append.1 hx with hx | hx
    · exact hu.plain x hx
    · exact hp x hx
  head x w e := by
    cases u with
    | nil => exact h0 rfl x w e
    | cons y u =>
      simp only [List.cons_append, List.cons.injEq] at e
      exact hu.head x u (by rw [e.1])
  eq a x y b e hy := by
    rcases List.append_eq_append_iff.1 e with ⟨c, rfl, h2⟩ | ⟨c, h1, h2⟩
    · exact hv c x y b h2 hy
    · match c, h1, h2 with
      | [], h1, h2 => exact hv [] x y b (by simpa using h2.symm) hy
      | [z], h1, h2 =>
        simp only [List.cons_append, List.nil_append, List.cons.injEq] at h2
        exact h a x y b (by rw [h1, h2.1]) h2.2.symm hy
      | z :: z' :: c, h1, h2 =>
        simp only [List.cons_append, List.cons.injEq] at h2
        exact hu.eq a x y c (by rw [h1, h2.1, h2.2.1]) hy

theorem Seg.append {u v : List Tok} (hu : Seg u) (hv : Seg v) : Seg (u ++ v) :=
  hu.append' hv.plain hv.eq (fun _ _ y b _ e h => absurd h (hv.head y b e))
    fun _ y b e => hv.head y b e

/-- The tokens of an expression. -/
structure Good (u : List Tok) : Prop where
  first : Follow notFirst u
  plain : Seg u

def L0 : List Token := [.punct .period, .punct .squareOpen, .punct .parenOpen, .ident b!"function"]
def L1 : List Token := .punct .plusPlus :: .punct .minusMinus :: L0
def L2 : List Token := .ident b!"in" :: operators ++ L1
def L3 : List Token := .punct .question :: L2
def L4 : List Token := assigners ++ L3
def L5 : List Token := .punct .comma :: L4

/-- The parameters inside scripts. -/
abbrev C (i : Bool) : Ctx := { in_ := i }

/-- How a left-hand side begins. -/
def heads : G :=
  .alts [.seqs [.kw b!"new", .nt (.LeftHandSideExpression false)], .nt .PrimaryExpression,
    .kw b!"super"]

/-- How a left-hand side goes on. -/
def members : G :=
  .star (.alts ([.seqs [.p .period, .name], .seqs [.p .squareOpen, .expression, .p .squareClose],
    .nt .TemplateLiteral] ++ [.nt .Arguments]))

def Lhs (i : Bool) (u : List Tok) : Prop :=
  (∃ a x, u = a ++ [x] ∧ Ender x.2) ∧ ∃ a b, u = a ++ b ∧
    (∀ r, Follow [.ident b!"function"] r → Der (C i) heads (a ++ r) r) ∧
    (∀ r, Follow [.ident b!"function"] r → Follow [.ident b!"function"] (b ++ r)) ∧
    (∀ r w, Der (C i) members r w → Der (C i) members (b ++ r) w)

def Upd (i : Bool) (u : List Tok) : Prop :=
  ∀ r, Follow L1 r → Der (C i) (.nt .UpdateExpression) (u ++ r) r

def Un (i : Bool) (u : List Tok) : Prop :=
  ∀ r, Follow L1 r → Der (C i) (.nt .UnaryExpression) (u ++ r) r

def Bin (i : Bool) (u : List Tok) : Prop :=
  ∀ r, Follow L1 r → Der (C i) (.nt .BinaryExpression) (u ++ r) r

def Cnd (i : Bool) (u : List Tok) : Prop :=
  ∀ r, Follow L4 r → Der (C i) (.nt .ConditionalExpression) (u ++ r) r

def As (i : Bool) (u : List Tok) : Prop :=
  ∀ r, Follow L4 r → Der (C i) (.nt .AssignmentExpression) (u ++ r) r

def comma : Tok := (false, .punct .comma)

def Exp (i : Bool) (u : List Tok) : Prop :=
  ∃ (a : List Tok) (bs : List (List Tok)), u = a ++ bs.flatMap (comma :: ·) ∧ As i a ∧ ∀ b ∈ bs, As i b

theorem der_notAhead {c : Ctx} {ts L : List Token} {r : List Tok} (h : Follow L r)
    (hs : ∀ t ∈ ts, t ∈ L) : Der c (.notAhead ts) r r := by
  obtain ⟨t, v, rfl, a, _⟩ := h
  exact .notAhead fun h => a (hs t h)

theorem der_noTemplate {c : Ctx} {L : List Token} {r : List Tok} (h : Follow L r) :
    Der c .noTemplate r r := by
  obtain ⟨t, v, rfl, _, a⟩ := h
  exact .noTemplate a.2.2

theorem der_noLine {c : Ctx} {L : List Token} {r : List Tok} (h : Follow L r) :
    Der c .noLine r r := by
  obtain ⟨t, v, rfl, _, a⟩ := h
  exact .noLine rfl

theorem der_lhs {i : Bool} {u r : List Tok} (h : Lhs i u) (hr : Follow L0 r) :
    Der (C i) (.nt (.LeftHandSideExpression true)) (u ++ r) r := by
  obtain ⟨-, a, b, rfl, h1, h2, h3⟩ := h
  have hf : Follow [.ident b!"function"] r := hr.mono (by decide)
  rw [List.append_assoc]
  refine .nt (.seq (h1 _ (h2 _ hf)) (.seq (h3 _ _ .nil) ?_))
  exact .seq (der_notAhead hr (by decide)) (.seq (der_noTemplate hr) (der_notAhead hr (by decide)))

theorem Lhs.upd {i : Bool} {u : List Tok} (h : Lhs i u) : Upd i u := by
  intro r hr
  refine .nt (.altr (.seq (der_lhs h (hr.mono (by decide))) (.altr (.seq (der_noLine hr) ?_))))
  exact .altr (.altr (.seq (der_notAhead hr (by decide)) (der_notAhead hr (by decide))))

theorem Upd.un {i : Bool} {u : List Tok} (hf : Follow notFirst u) (h : Upd i u) : Un i u := by
  intro r hr
  exact .nt (.altl (.seq (der_notAhead (hf.append r) (by decide)) (h r hr)))

theorem Un.bin {i : Bool} {u : List Tok} (h : Un i u) : Bin i u :=
  fun r hr => .nt (.altl (h r hr))

theorem der_operation {i : Bool} {u r : List Tok} (h : Bin i u) (hr : Follow L2 r) :
    Der (C i) operation (u ++ r) r := by
  refine .seq (h r (hr.mono (by decide))) ?_
  cases i with
  | true => exact .altl (.seq (.onlyIf rfl) (der_notAhead hr (by decide)))
  | false => exact .altr (.seq (.onlyIf rfl) (der_notAhead hr (by decide)))

theorem der_cnd {i : Bool} {u r : List Tok} (h : Bin i u) (hr : Follow L3 r) :
    Der (C i) (.nt .ConditionalExpression) (u ++ r) r := by
  exact .nt (.seq (der_operation h (hr.mono (by decide))) (.altr (der_notAhead hr (by decide))))

theorem Bin.cnd {i : Bool} {u : List Tok} (h : Bin i u) : Cnd i u :=
  fun _ hr => der_cnd h (hr.mono (by decide))

theorem der_notAsync {i : Bool} {u r : List Tok} (hf : Follow notFirst u) :
    Der (C i) .notAsync (u ++ r) (u ++ r) := by
  obtain ⟨t, v, rfl, a, _⟩ := hf
  refine .notAsync ?_
  rintro ⟨l, n, w, h, _⟩
  simp only [List.cons_append, List.cons.injEq, Prod.mk.injEq] at h
  exact a (h.1.2 ▸ by decide)

theorem Cnd.as {i : Bool} {u : List Tok} (hf : Follow notFirst u) (h : Cnd i u) : As i u := by
  intro r hr
  exact .nt (.altr (.altr (.altl (.seq (der_notAsync hf)
    (.seq (h r hr) (der_notAhead hr (by decide)))))))

theorem As.exp {i : Bool} {u : List Tok} (h : As i u) : Exp i u := ⟨u, [], by simp, h, by simp⟩

theorem plain_punct {q : P} (h : q ∉ leftOutPunctuators) : Plain (.punct q) := ⟨h, nofun, id⟩
theorem plain_ident {n : Bytes} (h : n ≠ b!"yield") : Plain (.ident n) :=
  ⟨trivial, fun e => h (by injection e), id⟩
theorem plain_num (v : NumExpr) : Plain (.num v) := ⟨trivial, nofun, id⟩
theorem plain_str (v : Bytes) : Plain (.str v) := ⟨trivial, nofun, id⟩

/-- A token other than `=`. -/
structure Seg1 (t : Token) : Prop where
  plain : Plain t
  ne : t ≠ .punct .eq

theorem seg_punct {q : P} (h : q ∉ .eq :: leftOutPunctuators) : Seg1 (.punct q) :=
  ⟨plain_punct fun h' => h (.tail _ h'), fun e => h (by injection e with e; exact e ▸ .head _)⟩
theorem seg_ident {n : Bytes} (h : n ≠ b!"yield") : Seg1 (.ident n) := ⟨plain_ident h, nofun⟩
theorem seg_num (v : NumExpr) : Seg1 (.num v) := ⟨plain_num v, nofun⟩
theorem seg_str (v : Bytes) : Seg1 (.str v) := ⟨plain_str v, nofun⟩

theorem follow_punct {L : List Token} {q : P} (hq : q ∉ leftOutPunctuators) (h : .punct q ∉ L)
    (v : List Tok) : Follow L ((false, .punct q) :: v) := ⟨_, v, rfl, h, plain_punct hq⟩

theorem follow_ident {L : List Token} {n : Bytes} (hq : n ≠ b!"yield") (h : .ident n ∉ L)
    (v : List Tok) : Follow L ((false, .ident n) :: v) := ⟨_, v, rfl, h, plain_ident hq⟩

/-- The levels as a number. -/
def cls (n : Nat) : Nat := if n ≤ 3 then n - 1 else if n ≤ 14 then 3 else min (n - 11) 6

def MM : Nat → Bool → Node → List Tok → Prop
  | 0, i, _, u => Exp i u
  | 1, i, _, u => As i u
  | 2, i, _, u => Cnd i u
  | 3, i, _, u => Bin i u
  | 4, i, e, u => Un i u ∧ ((∀ op x, e ≠ .unary op x) → Upd i u)
  | 5, i, _, u => Upd i u
  | _, i, _, u => Lhs i u

theorem MM.step {n : Nat} {i : Bool} {e : Node} {u : List Tok} (hf : Follow notFirst u)
    (h : MM (n + 1) i e u) : MM n i e u := by
  match n, h with
  | 0, h => exact As.exp h
  | 1, h => exact Cnd.as hf h
  | 2, h => exact Bin.cnd h
  | 3, h => exact Un.bin h.1
  | 4, h => exact ⟨Upd.un hf h, fun _ => h⟩
  | 5, h => exact Lhs.upd h
  | _ + 6, h => exact h

theorem MM.weaken {n m : Nat} {i : Bool} {e : Node} {u : List Tok} (hf : Follow notFirst u)
    (hle : m ≤ n) (h : MM n i e u) : MM m i e u := by
  obtain ⟨k, rfl⟩ := Nat.exists_eq_add_of_le hle
  induction k with
  | zero => exact h
  | succ k ih => exact ih (by omega) (MM.step hf h)

def M (p : Prec) : Bool → Node → List Tok → Prop := MM (cls p.num)

theorem cls_mono {n m : Nat} (h : n ≤ m) : cls n ≤ cls m := by
  unfold cls
  split <;> split <;> (try split) <;> (try split) <;> omega

theorem binLevel_cls (op : BinOp) : cls (binLevel op).num = 3 := by cases op <;> rfl
theorem tighter_cls (op : BinOp) : 3 ≤ cls (tighter (binLevel op)).num := by
  cases op <;> decide

/-- A single token. -/
theorem Lhs.single {i : Bool} {t : Token}
    (h : ∀ r, Follow [.ident b!"function"] r →
      Der (C i) (.nt .PrimaryExpression) ((false, t) :: r) r) (ht : Ender t := by trivial) : Lhs i [(false, t)] :=
  ⟨⟨[], _, rfl, ht⟩, [(false, t)], [], rfl, fun r hr => .altr (.altl (h r hr)), fun _ h => h, fun _ _ h => h⟩

theorem follow_more {r : List Tok} (hr : Follow L5 r) (bs : List (List Tok)) :
    Follow L4 (bs.flatMap (comma :: ·) ++ r) := by
  cases bs with
  | nil => exact hr.mono (by decide)
  | cons b bs => exact follow_punct (by decide) (by decide) _

theorem der_more {i : Bool} {g : G} {bs : List (List Tok)} {r : List Tok}
    (h : ∀ b ∈ bs, As i b)
    (hg : ∀ u v, Der (C i) (.nt .AssignmentExpression) u v → Der (C i) g u v) (hr : Follow L5 r) :
    Der (C i) (.star (.seqs [.p .comma, g])) (bs.flatMap (comma :: ·) ++ r) r := by
  induction bs with
  | nil => exact .nil
  | cons b bs ih =>
    have e : (b :: bs).flatMap (comma :: ·) ++ r =
        comma :: (b ++ (bs.flatMap (comma :: ·) ++ r)) := by simp
    rw [e]
    exact .star (.seq (.t rfl) (hg _ _ (h b (by simp) _ (follow_more hr bs))))
      (ih fun b hb => h b (by simp [hb]))

/-- An expression in parentheses. -/
theorem Exp.cover {i : Bool} {u : List Tok} (h : Exp i u) :
    Lhs i ((false, .punct .parenOpen) :: u ++ [(false, .punct .parenClose)]) := by
  refine ⟨⟨_, _, rfl, .inl rfl⟩, _, [], (List.append_nil _).symm, fun r hr => .altr (.altl ?_),
    fun _ h => h, fun _ _ h => h⟩
  obtain ⟨a, bs, rfl, ha, hb⟩ := h
  have hp : Follow L5 ((false, .punct .parenClose) :: r) := follow_punct (by decide) (by decide) _
  have e : (false, Token.punct .parenOpen) :: (a ++ bs.flatMap (comma :: ·)) ++
      [(false, .punct .parenClose)] ++ r = (false, .punct .parenOpen) ::
        (a ++ (bs.flatMap (comma :: ·) ++ (false, .punct .parenClose) :: r)) := by simp
  rw [e]
  refine .nt (.altr (.altr (.altr (.altr (.altr (.altr (.altr (.altr (.altr (.altr (.altr (.altl
    ?_))))))))))))
  exact .nt (.seq (.t rfl) (.seq (.opt (.altl (.seq (ha _ (follow_more hp bs))
    (der_more hb (fun _ _ h => .altr h) hp)))) (.t (l := false) rfl)))

/-- A whole expression. -/
theorem Exp.der {i : Bool} {u r : List Tok} (h : Exp i u) (hr : Follow L5 r) :
    Der (C i) (.nt .Expression) (u ++ r) r := by
  obtain ⟨a, bs, rfl, ha, hb⟩ := h
  rw [List.append_assoc]
  exact .nt (.seq (ha _ (follow_more hr bs)) (.seq (der_more hb (fun _ _ h => h) hr)
    (der_notAhead hr (by decide))))

/-- Going on with one more member. -/
theorem Lhs.extend {i : Bool} {u m : List Tok} (h : Lhs i u)
    (hm : Follow [.ident b!"function"] m) (hl : ∃ a x, m = a ++ [x] ∧ Ender x.2)
    (hd : ∀ r, Der (C i) (.alts ([.seqs [.p .period, .name],
      .seqs [.p .squareOpen, .expression, .p .squareClose], .nt .TemplateLiteral] ++
      [.nt .Arguments])) (m ++ r) r) : Lhs i (u ++ m) := by
  obtain ⟨-, a, b, rfl, h1, h2, h3⟩ := h
  obtain ⟨m, x, rfl, hx⟩ := hl
  refine ⟨⟨_, x, (List.append_assoc _ _ _).symm, hx⟩, a, b ++ (m ++ [x]), by simp, h1, fun r _ => ?_, fun r w hw => ?_⟩
  · rw [List.append_assoc]
    exact h2 _ (hm.append r)
  · rw [List.append_assoc]
    exact h3 _ _ (.star (hd r) hw)

/-- Arguments, each with the comma behind it. -/
theorem written_args {i : Bool} (args : List (Node × List Piece))
    (h : ∀ a ∈ args, ∃ u, Written a.2 u ∧ Good u ∧ As i u) :
    ∃ us : List (List Tok), Written (args.flatMap (fun a => a.2 ++ [.punct .comma]))
      (us.flatMap (· ++ [comma])) ∧ ∀ u ∈ us, Good u ∧ As i u := by
  induction args with
  | nil => exact ⟨[], .nil, by simp⟩
  | cons a args ih =>
    obtain ⟨us, hw, hu⟩ := ih fun a ha => h a (by simp [ha])
    obtain ⟨u, hw', hg⟩ := h a (by simp)
    refine ⟨u :: us, ?_, by simpa using ⟨hg, hu⟩⟩
    simp only [List.flatMap_cons]
    exact Written.append (Written.append hw' (.punct .comma rfl .nil)) hw

theorem der_args {us : List (List Tok)} (h : ∀ u ∈ us, As true u) (r : List Tok) :
    Der (C true) (.star (.seqs [.opt (.seqs [.p .ellipsis, .nt .AssignmentExpression, .p .comma]),
      .nt .AssignmentExpression, .p .comma])) (us.flatMap (· ++ [comma]) ++ r) r := by
  induction us with
  | nil => exact .nil
  | cons u us ih =>
    have e : (u :: us).flatMap (· ++ [comma]) ++ r =
        u ++ comma :: (us.flatMap (· ++ [comma]) ++ r) := by simp
    rw [e]
    exact .star (.seq .skip (.seq (h u (by simp) _ (follow_punct (by decide) (by decide) _))
      (.t rfl))) (ih fun u hu => h u (by simp [hu]))

theorem der_elements {i : Bool} {us : List (List Tok)} (h : ∀ u ∈ us, As i u) (r : List Tok) :
    Der (C i) (.star (.seqs [.opt (.nt .ArrayElement), .p .comma])) (us.flatMap (· ++ [comma]) ++ r) r := by
  induction us with
  | nil => exact .nil
  | cons u us ih =>
    have e : (u :: us).flatMap (· ++ [comma]) ++ r =
        u ++ comma :: (us.flatMap (· ++ [comma]) ++ r) := by simp
    rw [e]
    exact .star (.seq (.opt (.nt (.opt (.seq .skip
      (h u (by simp) _ (follow_punct (by decide) (by decide) _)))))) (.t rfl))
      (ih fun u hu => h u (by simp [hu]))

/-- An array. -/
theorem Lhs.array {i : Bool} {u : List Tok}
    (h : ∀ r, Der (C i) (.seqs [.star (.seqs [.opt (.nt .ArrayElement), .p .comma]),
      .opt (.nt .ArrayElement), .p .squareClose]) (u ++ (false, .punct .squareClose) :: r) r) :
    Lhs i ((false, .punct .squareOpen) :: u ++ [(false, .punct .squareClose)]) := by
  refine ⟨⟨_, _, rfl, .inr rfl⟩, _, [], (List.append_nil _).symm, fun r hr => .altr (.altl ?_),
    fun _ h => h, fun _ _ h => h⟩
  simp only [List.append_assoc, List.cons_append, List.nil_append]
  exact .nt (.altr (.altr (.altr (.altr (.altr (.altr (.altr (.altl (.nt (.seq (.t rfl) (h r)))))))))))

theorem written_bin {op : BinOp} (h : op ≠ .divide) (i : Bool) :
    ∃ t, Term.Is (C i) .binaryOp t ∧ t ∉ L1 ∧ Seg1 t ∧
      ∀ ps u, Written ps u → Written (binToken op :: ps) ((false, t) :: u) := by
  have key : ∀ (p : Ast.Punct) (q : P), binToken op = .punct p → spelling q = p.text →
      q ∈ binaryOperators → q ∉ .eq :: leftOutPunctuators → .punct q ∉ L1 → ∃ t, Term.Is (C i) .binaryOp t ∧
        t ∉ L1 ∧ Seg1 t ∧ ∀ ps u, Written ps u → Written (binToken op :: ps) ((false, t) :: u) :=
    fun p q a b c d e => ⟨.punct q, .inl ⟨q, c, rfl⟩, e, seg_punct d, fun ps u w => by
      rw [a]; exact .punct q b w⟩
  cases op with
  | divide => exact absurd rfl h
  | instanceof =>
    exact ⟨.ident b!"instanceof", .inr (.inl rfl), by decide, seg_ident (by decide),
      fun ps u w => .kw .instanceof w⟩
  | add => exact key .plus .plus rfl rfl (by decide) (by decide) (by decide)
  | subtract => exact key .minus .minus rfl rfl (by decide) (by decide) (by decide)
  | leftShift => exact key .lAngleAngle .lAngleAngle rfl rfl (by decide) (by decide) (by decide)
  | rightShift => exact key .rAngleAngle .rAngleAngle rfl rfl (by decide) (by decide) (by decide)
  | rightShiftSigned =>
    exact key .rAngleAngleAngle .rAngleAngleAngle rfl rfl (by decide) (by decide) (by decide)
  | multiply => exact key .star .star rfl rfl (by decide) (by decide) (by decide)
  | modulus => exact key .mod .percent rfl rfl (by decide) (by decide) (by decide)
  | bitAnd => exact key .amp .amp rfl rfl (by decide) (by decide) (by decide)
  | bitOr => exact key .bar .bar rfl rfl (by decide) (by decide) (by decide)
  | bitXor => exact key .caret .caret rfl rfl (by decide) (by decide) (by decide)
  | power => exact key .starStar .starStar rfl rfl (by decide) (by decide) (by decide)
  | equal => exact key .eqEq .eqEq rfl rfl (by decide) (by decide) (by decide)
  | strictEqual => exact key .eqEqEq .eqEqEq rfl rfl (by decide) (by decide) (by decide)
  | notEqual => exact key .neq .exclamEq rfl rfl (by decide) (by decide) (by decide)
  | strictNotEqual => exact key .neqEq .exclamEqEq rfl rfl (by decide) (by decide) (by decide)
  | lessThan => exact key .lAngle .lAngle rfl rfl (by decide) (by decide) (by decide)
  | lessThanEqual => exact key .lAngleEq .lAngleEq rfl rfl (by decide) (by decide) (by decide)
  | greaterThan => exact key .rAngle .rAngle rfl rfl (by decide) (by decide) (by decide)
  | greaterThanEqual => exact key .rAngleEq .rAngleEq rfl rfl (by decide) (by decide) (by decide)
  | and => exact key .ampAmp .ampAmp rfl rfl (by decide) (by decide) (by decide)
  | or => exact key .barBar .barBar rfl rfl (by decide) (by decide) (by decide)

theorem written_assign {op : AssignOp} (h : op ≠ .divide) :
    ∃ q ∈ assignmentOperators, q ∉ .eq :: leftOutPunctuators ∧ .punct q ∉ L3 ∧
      ∀ ps u, Written ps u → Written (assignTokens op ++ ps) ((false, .punct q) :: u) := by
  cases op with
  | divide => exact absurd rfl h
  | add => exact ⟨.plusEq, by decide, by decide, by decide, fun ps u w => .joined .plusEq (by decide) rfl w⟩
  | subtract => exact ⟨.minusEq, by decide, by decide, by decide, fun ps u w => .joined .minusEq (by decide) rfl w⟩
  | leftShift =>
    exact ⟨.lAngleAngleEq, by decide, by decide, by decide, fun ps u w => .joined .lAngleAngleEq (by decide) rfl w⟩
  | rightShift =>
    exact ⟨.rAngleAngleEq, by decide, by decide, by decide, fun ps u w => .joined .rAngleAngleEq (by decide) rfl w⟩
  | rightShiftSigned =>
    exact ⟨.rAngleAngleAngleEq, by decide, by decide, by decide,
      fun ps u w => .joined .rAngleAngleAngleEq (by decide) rfl w⟩
  | multiply => exact ⟨.starEq, by decide, by decide, by decide, fun ps u w => .joined .starEq (by decide) rfl w⟩
  | modulus => exact ⟨.percentEq, by decide, by decide, by decide, fun ps u w => .joined .percentEq (by decide) rfl w⟩
  | bitAnd => exact ⟨.ampEq, by decide, by decide, by decide, fun ps u w => .joined .ampEq (by decide) rfl w⟩
  | bitOr => exact ⟨.barEq, by decide, by decide, by decide, fun ps u w => .joined .barEq (by decide) rfl w⟩
  | bitXor => exact ⟨.caretEq, by decide, by decide, by decide, fun ps u w => .joined .caretEq (by decide) rfl w⟩
  | power => exact ⟨.starStarEq, by decide, by decide, by decide, fun ps u w => .joined .starStarEq (by decide) rfl w⟩

theorem written_un {op : UnOp} (h : op ≠ .await) (i : Bool) :
    ∃ t, t ∉ notFirst ∧ Plain t ∧
      (∀ ps u, Written ps u → Written (unToken op :: ps) ((false, t) :: u)) ∧
      ∀ u r, Der (C i) (.nt .UnaryExpression) u r →
        Der (C i) (.nt .UnaryExpression) ((false, t) :: u) r := by
  cases op with
  | await => exact absurd rfl h
  | delete => exact ⟨.ident b!"delete", by decide, plain_ident (by decide), fun _ _ w => .kw .delete w,
      fun u r d => .nt (.altr (.altl (.seq (.t rfl) d)))⟩
  | void => exact ⟨.ident b!"void", by decide, plain_ident (by decide), fun _ _ w => .kw .void w,
      fun u r d => .nt (.altr (.altr (.altl (.seq (.t rfl) d))))⟩
  | typeof => exact ⟨.ident b!"typeof", by decide, plain_ident (by decide), fun _ _ w => .kw .typeof w,
      fun u r d => .nt (.altr (.altr (.altr (.altl (.seq (.t rfl) d)))))⟩
  | positive => exact ⟨.punct .plus, by decide, plain_punct (by decide), fun _ _ w => .punct .plus rfl w,
      fun u r d => .nt (.altr (.altr (.altr (.altr (.altl (.seq (.t rfl) d))))))⟩
  | negative => exact ⟨.punct .minus, by decide, plain_punct (by decide), fun _ _ w => .punct .minus rfl w,
      fun u r d => .nt (.altr (.altr (.altr (.altr (.altr (.altl (.seq (.t rfl) d)))))))⟩
  | bitNegate => exact ⟨.punct .tilde, by decide, plain_punct (by decide), fun _ _ w => .punct .tilde rfl w,
      fun u r d => .nt (.altr (.altr (.altr (.altr (.altr (.altr (.altl (.seq (.t rfl) d))))))))⟩
  | negate => exact ⟨.punct .exclam, by decide, plain_punct (by decide), fun _ _ w => .punct .exclam rfl w,
      fun u r d => .nt (.altr (.altr (.altr (.altr (.altr (.altr (.altr (.altl (.seq (.t rfl) d)))))))))⟩

theorem Good.append {u v : List Tok} (h : Good u) (hv : Seg v) : Good (u ++ v) :=
  ⟨h.first.append v, h.plain.append hv⟩

theorem Seg.single {t : Token} (h : Seg1 t) : Seg [(false, t)] where
  plain := by simpa using h.plain
  head x v e := by
    simp only [List.cons.injEq] at e
    exact e.1 ▸ h.ne
  eq a x y b e _ := by
    have := congrArg List.length e
    simp at this
    omega

theorem plain_cons {t : Token} {u : List Tok} (h : Seg1 t) (hu : Seg u) : Seg ((false, t) :: u) :=
  (Seg.single h).append hu

theorem plain_append {u v : List Tok} (h : Seg u) (hv : Seg v) : Seg (u ++ v) := h.append hv

theorem Good.single {t : Token} (h : t ∉ notFirst) (hp : Plain t) : Good [(false, t)] :=
  ⟨⟨t, [], rfl, h, hp⟩, .single ⟨hp, fun e => h (e ▸ by decide)⟩⟩

theorem Good.cons {t : Token} {u : List Tok} (h : t ∉ notFirst) (hp : Plain t) (hu : Seg u) :
    Good ((false, t) :: u) := (Good.single h hp).append hu

/-- An assignment. -/
theorem Seg.assign {u v : List Tok} (hu : Seg u) (hl : ∃ a x, u = a ++ [x] ∧ Ender x.2) (hv : Seg v) :
    Seg (u ++ (false, .punct .eq) :: v) := by
  obtain ⟨a, x, rfl, hx⟩ := hl
  have hp : Plain (.punct .eq) := plain_punct (by decide)
  refine hu.append' ?_ ?_ ?_ (by simp)
  · intro x hx
    rcases List.mem_cons.1 hx with rfl | hx
    · exact hp
    · exact hv.plain x hx
  · intro a x y b e hy
    cases a with
    | nil =>
      simp only [List.nil_append, List.cons.injEq] at e
      exact absurd hy (hv.head y b e.2)
    | cons z a =>
      simp only [List.cons_append, List.cons.injEq] at e
      exact hv.eq a x y b e.2 hy
  · intro a' x' y b e _ _
    have := List.append_inj' e rfl
    simp only [List.cons.injEq, and_true] at this
    exact this.2 ▸ hx

theorem not_none {p : Prec} {e : Node} {ps : List Piece} (h : ReadsExpr p e ps) : e ≠ .none := by
  induction h with
  | weaken _ _ ih => exact ih
  | parens _ ih => exact ih
  | _ => exact nofun

theorem parens_aux {i : Bool} {ps : List Piece} {u : List Tok} (hw : Written ps u) (hg : Good u)
    (h : Exp i u) : ∃ u, Written (.punct .parenL :: ps ++ [.punct .parenR]) u ∧ Good u ∧ Lhs i u :=
  ⟨_, Written.append (.punct .parenOpen rfl hw) (.punct .parenClose rfl .nil),
    Good.append (Good.cons (by decide) (plain_punct (by decide)) hg.plain)
      (.single (seg_punct (by decide))), h.cover⟩

theorem bin_aux {i : Bool} {t : Token} {u v : List Tok} (ht : Term.Is (C i) .binaryOp t)
    (hL : t ∉ L1) (hp : Plain t) (hu : Bin i u) (hv : Bin i v) : Bin i (u ++ (false, t) :: v) := by
  intro r hr
  rw [List.append_assoc]
  exact .nt (.altr (.seq (hu _ ⟨t, _, rfl, hL, hp⟩) (.seq (.t ht) (hv r hr))))

theorem assign_aux {i : Bool} {q : P} {u v : List Tok} (hq : q ∈ assignmentOperators)
    (hl : q ∉ leftOutPunctuators) (h3 : .punct q ∉ L3) (hg : Good u) (hu : Bin i u) (hv : As i v) :
    As i (u ++ (false, .punct q) :: v) := by
  intro r hr
  rw [List.append_assoc]
  exact .nt (.altr (.altr (.altr (.altr (.seq (der_notAsync hg.first) (.seq
    (der_cnd hu (follow_punct hl h3 _)) (.seq (.t ⟨q, hq, rfl⟩) (hv r hr))))))))

theorem plain_args {us : List (List Tok)} (h : ∀ u ∈ us, Seg u) :
    Seg (us.flatMap (· ++ [comma])) := by
  induction us with
  | nil => exact .nil
  | cons u us ih =>
    rw [List.flatMap_cons]
    exact ((h u (by simp)).append (.single (seg_punct (by decide)))).append
      (ih fun u hu => h u (by simp [hu]))

/-- The names among the tokens an expression does not begin with. -/
theorem notFirst_names : (notFirst.all fun t => match t with
    | .ident n => n ∈ reservedWords ∨ n = b!"await" ∨ n = b!"async" ∨ n = b!"let"
    | _ => true) = true := by decide

theorem lexeme_name_first {n : Bytes} (h : LegalName n) : Token.ident n ∉ notFirst := by
  intro hm
  have := List.all_eq_true.1 notFirst_names _ hm
  simp only [Bool.decide_or, Bool.or_eq_true, decide_eq_true_eq] at this
  obtain ⟨_, ⟨h1, h2, h3, _⟩, h4, h5⟩ := h
  rcases this with h | h | h | h
  · exact h1 h
  · simpa using h3 h
  · exact h4 h
  · exact h5 h

theorem legal_call {i : Bool} {c e : Node} {l : Nodes} (h : Legal i (.call c (.args l e))) :
    Legal i c ∧ (∀ a ∈ items l, Legal true a) ∧ (e ≠ .none → Legal true e) := by
  cases h with
  | call h h' => exact ⟨h, h', fun h => absurd rfl h⟩
  | callLast h h' h'' => exact ⟨h, h', fun _ => h''⟩

theorem legal_elements {i : Bool} {e : Node} {l : Nodes} (h : Legal i (.array l e))
    {x : Node} (hx : .arrayItem x ∈ items l) : Legal i x := by
  cases h with
  | array els hi h =>
    obtain ⟨y, hy, e⟩ := List.mem_map.1 (hi ▸ hx)
    cases e
    exact h _ hy
  | arrayLast els hi h _ =>
    obtain ⟨y, hy, e⟩ := List.mem_map.1 (hi ▸ hx)
    cases e
    exact h _ hy

/-- The operator of a binary expression between its operands. -/
theorem between {ps qs : List Piece} {x : Piece} {t : Token} {u v : List Tok}
    (ht : Seg1 t) (hx : ∀ ps u, Written ps u → Written (x :: ps) ((false, t) :: u))
    (hu : Written ps u) (gu : Good u) (hv : Written qs v) (gv : Good v) :
    Written (ps ++ x :: qs) (u ++ (false, t) :: v) ∧ Good (u ++ (false, t) :: v) :=
  ⟨Written.append hu (hx _ _ hv), gu.append (plain_cons ht gv.plain)⟩

theorem plain_name {n : Bytes} (h : LegalName n) : Plain (.ident n) := plain_ident h.2.1.2.1

/-- The tokens of an expression are derived in the grammar of the parser. -/
theorem der_expr {p : Prec} {e : Node} {ps : List Piece} (h : ReadsExpr p e ps) :
    ∀ i, Legal i e → ∃ u, Written ps u ∧ Good u ∧ M p i e u := by
  induction h with
  | weaken hle _ ih =>
    intro i hl
    obtain ⟨u, a, b, c⟩ := ih i hl
    exact ⟨u, a, b, MM.weaken b.first (cls_mono hle) c⟩
  | parens _ ih =>
    intro i hl
    obtain ⟨u, a, b, c⟩ := ih i hl
    exact parens_aux a b c
  | paren _ ih =>
    intro i hl
    cases hl with
    | paren hl =>
      obtain ⟨u, a, b, c⟩ := ih i hl
      exact parens_aux a b c
  | ident n =>
    intro i hl
    cases hl with
    | ident hn =>
      refine ⟨_, .ident hn.1 .nil, Good.single (lexeme_name_first hn) (plain_name hn),
        Lhs.single fun r hr => .nt (.altr (.altl (.seq (.t ⟨n, rfl, ?_⟩)
          (der_notAhead hr (by decide)))))⟩
      exact hn.2.1
  | this =>
    intro i _
    exact ⟨_, .kw .this .nil, Good.single (by decide) (plain_ident (by decide)),
      Lhs.single fun r hr => .nt (.altl (.t rfl))⟩
  | null =>
    intro i _
    exact ⟨_, .kw .null .nil, Good.single (by decide) (plain_ident (by decide)),
      Lhs.single fun r hr => .nt (.altr (.altr (.altr (.altr (.altr (.altr (.altl (.t rfl))))))))⟩
  | true =>
    intro i _
    exact ⟨_, .kw .«true» .nil, Good.single (by decide) (plain_ident (by decide)),
      Lhs.single fun r hr => .nt (.altr (.altr (.altr (.altr (.altl (.t rfl))))))⟩
  | false =>
    intro i _
    exact ⟨_, .kw .«false» .nil, Good.single (by decide) (plain_ident (by decide)),
      Lhs.single fun r hr => .nt (.altr (.altr (.altr (.altr (.altr (.altl (.t rfl)))))))⟩
  | num t =>
    intro i hl
    cases hl with
    | num ht =>
      exact ⟨_, .num ht .nil, Good.single (by simp [notFirst, statementWords, declarationWords]) (plain_num _),
        Lhs.single fun r hr => .nt (.altr (.altr (.altl (.t ⟨_, rfl⟩))))⟩
  | str t =>
    intro i hl
    cases hl with
    | str ht hu =>
      exact ⟨_, .str ht hu .nil, Good.single (by simp [notFirst, statementWords, declarationWords]) (plain_str _),
        Lhs.single fun r hr => .nt (.altr (.altr (.altr (.altl (.t ⟨_, rfl⟩)))))⟩
  | array els hi _ ih =>
    intro i hl
    obtain ⟨us, a, hu⟩ := written_args els fun x hx =>
      ih x hx i (legal_elements hl (hi ▸ List.mem_map_of_mem (f := fun a => Node.arrayItem a.1) hx))
    refine ⟨_, Written.append (.punct (p := .squareL) .squareOpen rfl a)
      (.punct (p := .squareR) .squareClose rfl .nil),
      (Good.cons (by decide) (plain_punct (by decide)) (plain_args fun u h => (hu u h).1.plain)).append
        (.single (seg_punct (by decide))), Lhs.array fun r => ?_⟩
    exact .seq (der_elements (fun u h => (hu u h).2) _) (.seq .skip (.t rfl))
  | @arrayLast l e qs els hi _ _ ih ih' =>
    intro i hl
    have hl' : Legal i e := by
      cases hl with
      | arrayLast _ _ _ h => exact h
    obtain ⟨us, a, hu⟩ := written_args els fun x hx =>
      ih x hx i (legal_elements hl (hi ▸ List.mem_map_of_mem (f := fun a => Node.arrayItem a.1) hx))
    obtain ⟨v, a', b', c'⟩ := ih' i hl'
    refine ⟨_, Written.append (.punct (p := .squareL) .squareOpen rfl (Written.append a a'))
      (.punct (p := .squareR) .squareClose rfl .nil),
      (Good.cons (by decide) (plain_punct (by decide)) ((plain_args fun u h => (hu u h).1.plain).append
        b'.plain)).append (.single (seg_punct (by decide))), Lhs.array fun r => ?_⟩
    rw [List.append_assoc]
    exact .seq (der_elements (fun u h => (hu u h).2) _) (.seq
      (.opt (.nt (.opt (.seq .skip (c' _ (follow_punct (by decide) (by decide) _)))))) (.t rfl))
  | dot _ ih =>
    intro i hl
    cases hl with
    | dot hl hn hy =>
      obtain ⟨u, a, b, c⟩ := ih i hl
      refine ⟨_, Written.append a (.punct .period rfl (.ident hn .nil)), b.append ?_, Lhs.extend c ?_ ?_ ?_⟩
      · exact plain_cons (seg_punct (by decide)) (plain_cons (seg_ident hy) .nil)
      · exact follow_punct (by decide) (by decide) _
      · exact ⟨[(false, .punct .period)], _, rfl, trivial⟩
      · exact fun r => .altl (.seq (.t rfl) (.t ⟨_, rfl⟩))
  | computed _ _ ih ih' =>
    intro i hl
    cases hl with
    | computed hl hl' =>
      obtain ⟨u, a, b, c⟩ := ih i hl
      obtain ⟨v, a', b', c'⟩ := ih' true hl'
      have hw := Written.append a (Written.append (.punct (p := .squareL) .squareOpen rfl a')
        (.punct (p := .squareR) .squareClose rfl .nil))
      refine ⟨_, by simpa using hw, b.append ?_, Lhs.extend c ?_ ?_ ?_⟩
      · exact plain_cons (seg_punct (by decide)) (plain_append b'.plain
          (plain_cons (seg_punct (by decide)) .nil))
      · exact follow_punct (by decide) (by decide) _
      · exact ⟨_ :: v, _, rfl, .inr rfl⟩
      · intro r
        simp only [List.append_assoc, List.cons_append, List.nil_append]
        exact .altr (.altl (.seq (.t rfl) (.seq (.par (Exp.der c'
          (follow_punct (by decide) (by decide) _))) (.t rfl))))
  | call args _ hi _ ih ih' =>
    intro i hl
    obtain ⟨hc, ha, _⟩ := legal_call hl
    obtain ⟨u, a, b, c⟩ := ih i hc
    obtain ⟨us, a', hu⟩ := written_args args fun x hx =>
      ih' x hx true (ha _ (hi ▸ List.mem_map_of_mem hx))
    have hw := Written.append a (Written.append (.punct (p := .parenL) .parenOpen rfl a')
      (.punct (p := .parenR) .parenClose rfl .nil))
    refine ⟨_, by simpa using hw, b.append ?_, Lhs.extend c ?_ ?_ ?_⟩
    · exact plain_cons (seg_punct (by decide)) (plain_append (plain_args fun u h => (hu u h).1.plain)
        (plain_cons (seg_punct (by decide)) .nil))
    · exact follow_punct (by decide) (by decide) _
    · exact ⟨_ :: us.flatMap (· ++ [comma]), _, rfl, .inl rfl⟩
    · intro r
      simp only [List.append_assoc, List.cons_append, List.nil_append]
      exact .altr (.altr (.altr (.nt (.seq (.t rfl) (.seq (.par (der_args (fun u h => (hu u h).2) _))
        (.seq (.par (.altl .skip)) (.t rfl)))))))
  | callLast args _ hi _ he ih ih' ih'' =>
    intro i hl
    obtain ⟨hc, ha, hl'⟩ := legal_call hl
    obtain ⟨u, a, b, c⟩ := ih i hc
    obtain ⟨us, a', hu⟩ := written_args args fun x hx =>
      ih' x hx true (ha _ (hi ▸ List.mem_map_of_mem hx))
    obtain ⟨v, a'', b'', c''⟩ := ih'' true (hl' (not_none he))
    have hw := Written.append a (Written.append (.punct (p := .parenL) .parenOpen rfl a')
      (Written.append a'' (.punct (p := .parenR) .parenClose rfl .nil)))
    refine ⟨_, by simpa using hw, b.append ?_, Lhs.extend c ?_ ?_ ?_⟩
    · exact plain_cons (seg_punct (by decide)) (plain_append (plain_args fun u h => (hu u h).1.plain)
        (plain_append b''.plain (plain_cons (seg_punct (by decide)) .nil)))
    · exact follow_punct (by decide) (by decide) _
    · exact ⟨_ :: (us.flatMap (· ++ [comma]) ++ v), (false, .punct .parenClose), by simp; rfl, .inl rfl⟩
    · intro r
      simp only [List.append_assoc, List.cons_append, List.nil_append]
      exact .altr (.altr (.altr (.nt (.seq (.t rfl) (.seq (.par (der_args (fun u h => (hu u h).2) _))
        (.seq (.par (.altl (.opt (c'' _ (follow_punct (by decide) (by decide) _))))) (.t rfl)))))))
  | increment _ ih =>
    intro i hl
    cases hl with
    | «postfix» _ hl =>
      obtain ⟨u, a, b, c⟩ := ih i hl
      refine ⟨_, Written.append a (.punct .plusPlus rfl .nil), b.append
        (plain_cons (seg_punct (by decide)) .nil), fun r hr => ?_⟩
      rw [List.append_assoc]
      exact .nt (.altr (.seq (der_lhs c (follow_punct (by decide) (by decide) _))
        (.altr (.seq (.noLine rfl) (.altl (.t rfl))))))
  | decrement _ ih =>
    intro i hl
    cases hl with
    | «postfix» _ hl =>
      obtain ⟨u, a, b, c⟩ := ih i hl
      refine ⟨_, Written.append a (.punct .minusMinus rfl .nil), b.append
        (plain_cons (seg_punct (by decide)) .nil), fun r hr => ?_⟩
      rw [List.append_assoc]
      exact .nt (.altr (.seq (der_lhs c (follow_punct (by decide) (by decide) _))
        (.altr (.seq (.noLine rfl) (.altr (.altl (.t rfl)))))))
  | preIncrement _ ih =>
    intro i hl
    cases hl with
    | «prefix» _ hl hn =>
      obtain ⟨u, a, b, c⟩ := ih i hl
      exact ⟨_, .punct .plusPlus rfl a, Good.cons (by decide) (plain_punct (by decide)) b.plain,
        fun r hr => .nt (.altl (.seq (.altl (.t rfl)) (c.2 hn r hr)))⟩
  | preDecrement _ ih =>
    intro i hl
    cases hl with
    | «prefix» _ hl hn =>
      obtain ⟨u, a, b, c⟩ := ih i hl
      exact ⟨_, .punct .minusMinus rfl a, Good.cons (by decide) (plain_punct (by decide)) b.plain,
        fun r hr => .nt (.altl (.seq (.altr (.t rfl)) (c.2 hn r hr)))⟩
  | unary _ ih =>
    intro i hl
    cases hl with
    | unary hop hl =>
      obtain ⟨u, a, b, c⟩ := ih i hl
      obtain ⟨t, h1, h2, h3, h4⟩ := written_un hop i
      exact ⟨_, h3 _ _ a, Good.cons h1 h2 b.plain, fun r hr => h4 _ _ (c.1 r hr),
        fun h => absurd rfl (h _ _)⟩
  | power _ _ ih ih' =>
    intro i hl
    cases hl with
    | bin hop hl hl' =>
      obtain ⟨u, a, b, c⟩ := ih i hl
      obtain ⟨v, a', b', c'⟩ := ih' i hl'
      obtain ⟨t, h1, h2, h3, h4⟩ := written_bin hop i
      obtain ⟨h5, h6⟩ := between h3 h4 a b a' b'
      exact ⟨_, h5, h6, bin_aux h1 h2 h3.plain (Un.bin (Upd.un b.first c)) c'⟩
  | @bin op l r ps qs _ _ _ ih ih' =>
    intro i hl
    cases hl with
    | bin hop hl hl' =>
      obtain ⟨u, a, b, c⟩ := ih i hl
      obtain ⟨v, a', b', c'⟩ := ih' i hl'
      obtain ⟨t, h1, h2, h3, h4⟩ := written_bin hop i
      obtain ⟨h5, h6⟩ := between h3 h4 a b a' b'
      refine ⟨_, h5, h6, ?_⟩
      unfold M at c ⊢
      rw [binLevel_cls] at c ⊢
      exact bin_aux h1 h2 h3.plain c (MM.weaken b'.first (tighter_cls op) c')
  | inOp _ _ ih ih' =>
    intro i hl
    cases hl with
    | inOp hl hl' =>
      obtain ⟨u, a, b, c⟩ := ih true hl
      obtain ⟨v, a', b', c'⟩ := ih' true hl'
      have h3 : Seg1 (.ident b!"in") := seg_ident (by decide)
      obtain ⟨h5, h6⟩ := between (x := .kw .«in») h3 (fun _ _ w => .kw _ w) a b a' b'
      exact ⟨_, h5, h6, bin_aux (.inr (.inr ⟨rfl, rfl⟩)) (by decide) h3.plain c c'⟩
  | cond _ _ _ ih ih' ih'' =>
    intro i hl
    cases hl with
    | cond hl hl' hl'' =>
      obtain ⟨u, a, b, c⟩ := ih i hl
      obtain ⟨v, a', b', c'⟩ := ih' true hl'
      obtain ⟨w, a'', b'', c''⟩ := ih'' i hl''
      have hw := Written.append a (Written.append (.punct (p := .question) .question rfl a')
        (.punct (p := .colon) .colon rfl a''))
      refine ⟨_, by simpa using hw, b.append ?_, ?_⟩
      · exact plain_cons (seg_punct (by decide)) (plain_append b'.plain
          (plain_cons (seg_punct (by decide)) b''.plain))
      · intro r hr
        simp only [List.append_assoc, List.cons_append, List.nil_append]
        exact .nt (.seq (der_operation c (follow_punct (by decide) (by decide) _))
          (.altl (.seq (.t rfl) (.seq (.par (c' _ (follow_punct (by decide) (by decide) _)))
            (.seq (.t rfl) (c'' r hr))))))
  | assign _ _ ih ih' =>
    intro i hl
    cases hl with
    | assign hl hl' =>
      obtain ⟨u, a, b, c⟩ := ih i hl
      obtain ⟨v, a', b', c'⟩ := ih' i hl'
      exact ⟨_, Written.append a (.punct .eq rfl a'), ⟨b.first.append _, b.plain.assign c.1 b'.plain⟩,
        assign_aux (by decide) (by decide) (by decide) b
        (MM.weaken (n := 6) (m := 3) (e := .none) b.first (by decide) c) c'⟩
  | opAssign _ _ ih ih' =>
    intro i hl
    cases hl with
    | opAssign hop hl hl' =>
      obtain ⟨u, a, b, c⟩ := ih i hl
      obtain ⟨v, a', b', c'⟩ := ih' i hl'
      obtain ⟨q, h1, h2, h3, h4⟩ := written_assign hop
      refine ⟨_, by simpa using Written.append a (h4 _ _ a'),
        b.append (plain_cons (seg_punct h2) b'.plain), assign_aux h1 (fun h => h2 (.tail _ h)) h3 b
        (MM.weaken (n := 6) (m := 3) (e := .none) b.first (by decide) c) c'⟩
  | seq _ _ ih ih' =>
    intro i hl
    cases hl with
    | seq hl hl' =>
      obtain ⟨u, a, b, c⟩ := ih i hl
      obtain ⟨v, a', b', c'⟩ := ih' i hl'
      obtain ⟨h5, h6⟩ := between (x := .punct .comma) (t := .punct .comma)
        (seg_punct (by decide)) (fun _ _ w => .punct _ rfl w) a b a' b'
      refine ⟨_, h5, h6, ?_⟩
      obtain ⟨x, bs, rfl, hx, hb⟩ := c
      refine ⟨x, bs ++ [v], by simp [comma], hx, ?_⟩
      intro y hy
      rcases List.mem_append.1 hy with hy | hy
      · exact hb y hy
      · exact (List.mem_singleton.1 hy) ▸ c'

end Jsparse.Ast.Printed
