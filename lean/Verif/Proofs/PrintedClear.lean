import Mathlib.Data.List.Chain
import Verif.Proofs.PrintedText
/-!
# Pieces that do not run together
-/

namespace Jsparse.Ast.Printed

open Jsparse.Spec

/-- The piece `y` may come after `x`, with a space between words. -/
def okB (x : Piece) : Piece → Bool
  | .raw _ => x == .punct .sQuote
  | .num t => calmNum t && (match x with
    | .num _ => false
    | .punct p => p.text.getLast? != some c!"."
    | _ => true)
  | .kw _ | .ident _ => match x with | .num _ => false | _ => true
  | .punct q => !sticks x (.punct q)
  | .space => false

/-- Nothing runs together with a piece before it of this kind. -/
def loose : Piece → Bool
  | .kw _ | .ident _ => true
  | .punct p => [Punct.parenL, .parenR, .squareL, .squareR, .curlyL, .curlyR, .semicolon, .comma, .colon,
      .question, .tilde, .sQuote, .plusPlus].contains p
  | _ => false

def anyS : Piece → Bool
  | .raw _ | .space => false
  | .num t => calmNum t
  | _ => true

/-- What an expression ends with. -/
def endy : Piece → Bool
  | .num t => calmNum t
  | x => loose x

/-- What an expression begins with. -/
def starty : Piece → Bool
  | .kw _ | .ident _ => true
  | .num t => calmNum t
  | .punct p => [Punct.parenL, .squareL, .sQuote, .exclam, .tilde].contains p
  | _ => false

/-- What an expression begins with, if not `c` also a sign, `++` or `--`. -/
def startOf (c : Bool) (x : Piece) : Bool :=
  starty x || !c && (x == .punct .plus || x == .punct .subtract || x == .punct .plusPlus ||
    x == .punct .minusMinus || x == .punct .minus)

/-- What an expression ends with, if not `c` also `--`. -/
def endOf (c : Bool) (x : Piece) : Bool := endy x || !c && x == .punct .minusMinus

/-- What may follow a number. -/
def plain0 : Piece → Bool
  | .punct q => match q.text with
    | b :: _ => !decide (IdentPart b) && b != c!"."
    | [] => false
  | _ => false

/-- What may follow a number or `--`. -/
def plainp (x : Piece) : Bool := plain0 x && x.text.head? != some c!">"

/-- An operator. -/
def op0 : Piece → Bool
  | .punct p => p.text.getLast? != some c!"."
  | _ => false

/-- An operator that may be followed by a sign. -/
def opE (x : Piece) : Bool := op0 x && x != .punct .plus && x != .punct .subtract && x != .punct .minus

theorem loose_byte {p : Punct} (h : loose (.punct p) = true) (b : UInt8) :
    sticksTo (.punct p) b = false := by
  have all : ∀ p ∈ [Punct.parenL, .parenR, .squareL, .squareR, .curlyL, .curlyR, .semicolon, .comma,
      .colon, .question, .tilde, .sQuote, .plusPlus], (∀ w ∈ punctuators, w.dropLast ≠ p.text) ∧
      p.text.getLast? ≠ some c!"." := by decide
  obtain ⟨h1, h2⟩ := all p (by simpa [loose] using h)
  simp only [sticksTo, Bool.or_eq_false_iff, Bool.and_eq_false_iff, beq_eq_false_iff_ne]
  refine ⟨?_, .inl h2⟩
  by_contra hc
  have hc : p.text ++ [b] ∈ punctuators := by simpa using hc
  exact h1 _ hc (by simp)

theorem ok_loose {x y : Piece} (hx : loose x = true) (hy : anyS y = true) : okB x y = true := by
  cases y with
  | raw | space => simp [anyS] at hy
  | kw | ident => cases x <;> first | rfl | simp [loose] at hx
  | num t =>
    cases x with
    | punct p =>
      simp only [loose, List.contains_eq_mem, List.mem_cons, List.not_mem_nil, or_false,
        decide_eq_true_eq] at hx
      have hy : calmNum t = true := hy
      rcases hx with h | h | h | h | h | h | h | h | h | h | h | h | h <;> subst h <;>
        simp [okB, hy, Punct.text]
    | kw | ident =>
      have hy : calmNum t = true := hy
      simp [okB, hy]
    | num | raw | space => simp [loose] at hx
  | punct q =>
    obtain ⟨b, bs, e, _⟩ := punct_text q
    have : sticksTo x b = false := by
      cases x with
      | punct p => exact loose_byte hx b
      | kw | ident => rfl
      | num | raw | space => simp [loose] at hx
    simp [okB, sticks, Piece.text, e, this]

theorem ok_end0 {x y : Piece} (hx : endy x = true) (hy : plain0 y = true) : okB x y = true := by
  cases y with
  | punct q =>
    cases x with
    | num t =>
      obtain ⟨b, bs, e, _⟩ := punct_text q
      simp only [plain0, e, Bool.and_eq_true, Bool.not_eq_true', decide_eq_false_iff_not, bne_iff_ne] at hy
      simp only [endy, calmNum, Bool.and_eq_true, bne_iff_ne] at hx
      simp [okB, sticks, Piece.text, e, sticksTo, hy, hx]
    | _ => exact ok_loose (by simpa [endy] using hx) rfl
  | _ => simp [plain0] at hy

theorem ok_end {c : Bool} {x y : Piece} (hx : endOf c x = true) (hy : plain0 y = true)
    (hc : c = true ∨ plainp y = true) : okB x y = true := by
  simp only [endOf, Bool.or_eq_true, Bool.and_eq_true, Bool.not_eq_true', beq_iff_eq] at hx
  rcases hx with hx | ⟨rfl, rfl⟩
  · exact ok_end0 hx hy
  · have hc := hc.resolve_left nofun
    cases y with
    | punct q => cases q <;> first | rfl | (revert hc; decide)
    | _ => simp [plain0] at hy

theorem ok_op0 {x y : Piece} (hx : op0 x = true) (hy : starty y = true) : okB x y = true := by
  cases x with
  | punct p =>
    cases y with
    | raw | space => simp [starty] at hy
    | kw | ident => rfl
    | num t =>
      have hy : calmNum t = true := hy
      simpa [op0, okB, hy] using hx
    | punct q =>
      simp only [starty, List.contains_eq_mem, List.mem_cons, List.not_mem_nil, or_false,
        decide_eq_true_eq] at hy
      rcases hy with h | h | h | h | h <;> subst h <;> cases p <;> rfl
  | _ => simp [op0] at hx

theorem ok_op {c : Bool} {x y : Piece} (hx : op0 x = true) (hy : startOf c y = true)
    (hc : c = true ∨ opE x = true) : okB x y = true := by
  simp only [startOf, Bool.or_eq_true, Bool.and_eq_true, Bool.not_eq_true', beq_iff_eq] at hy
  rcases hy with hy | ⟨rfl, hy⟩
  · exact ok_op0 hx hy
  · have hc := hc.resolve_left nofun
    cases x with
    | punct p =>
      rcases hy with (((rfl | rfl) | rfl) | rfl) | rfl <;> cases p <;> first | rfl | (revert hc; decide)
    | _ => simp [op0] at hx

theorem startOf_starty {c : Bool} {x : Piece} (h : starty x = true) : startOf c x = true := by
  simp [startOf, h]

theorem endOf_endy {c : Bool} {x : Piece} (h : endy x = true) : endOf c x = true := by
  simp [endOf, h]

theorem endOf_false {c : Bool} {x : Piece} (h : endOf c x = true) : endOf false x = true := by
  cases c with
  | false => exact h
  | true => exact endOf_endy (by simpa [endOf] using h)

theorem plainp_plain0 {x : Piece} (h : plainp x = true) : plain0 x = true := by
  simp only [plainp, Bool.and_eq_true] at h
  exact h.1

theorem opE_op0 {x : Piece} (h : opE x = true) : op0 x = true := by
  simp only [opE, Bool.and_eq_true] at h
  exact h.1.1.1

/-- Pieces that do not run together. -/
structure B (s e : Piece → Bool) (ps : List Piece) : Prop where
  chain : ps.IsChain (fun x y => okB x y = true)
  head : ∃ y r, ps = y :: r ∧ s y = true
  last : ∃ r x, ps = r ++ [x] ∧ e x = true

theorem B.append {s e s' e' : Piece → Bool} {ps qs : List Piece} (h : B s e ps) (h' : B s' e' qs)
    (hj : ∀ x y, e x = true → s' y = true → okB x y = true) : B s e' (ps ++ qs) := by
  obtain ⟨hc, ⟨y, r, rfl, hy⟩, ⟨r1, x1, e1, hx1⟩⟩ := h
  obtain ⟨hc', ⟨y', r', rfl, hy'⟩, ⟨r2, x2, e2, hx2⟩⟩ := h'
  refine ⟨?_, ⟨y, _, rfl, hy⟩, ⟨_, x2, by rw [e2, ← List.append_assoc], hx2⟩⟩
  rw [List.isChain_append]
  refine ⟨hc, hc', fun a ha b hb => ?_⟩
  rw [e1] at ha
  simp only [List.getLast?_append, List.getLast?_singleton, Option.some_or, Option.mem_def,
    Option.some.injEq] at ha
  simp only [List.head?_cons, Option.mem_def, Option.some.injEq] at hb
  subst ha hb
  exact hj _ _ hx1 hy'

theorem B.one {s e : Piece → Bool} (x : Piece)
    (hs : s x = true := by first | rfl | exact startOf_starty rfl) (he : e x = true := by rfl) :
    B s e [x] := ⟨by simp, ⟨x, [], rfl, hs⟩, ⟨[], x, rfl, he⟩⟩

theorem B.cat {s e : Piece → Bool} {ps qs : List Piece} (h : B s loose ps) (h' : B anyS e qs) :
    B s e (ps ++ qs) := h.append h' fun _ _ => ok_loose

theorem B.fol {s e : Piece → Bool} {c : Bool} {ps qs : List Piece} (h : B s (endOf c) ps)
    (h' : B plainp e qs) : B s e (ps ++ qs) :=
  h.append h' fun _ _ hx hy => ok_end hx (plainp_plain0 hy) (.inr hy)

theorem B.op {s e : Piece → Bool} {c : Bool} {ps qs : List Piece} (h : B s opE ps)
    (h' : B (startOf c) e qs) : B s e (ps ++ qs) :=
  h.append h' fun _ _ hx hy => ok_op (opE_op0 hx) hy (.inr hx)

theorem B.mid {s e : Piece → Bool} {c d : Bool} {ps qs : List Piece} (x : Piece) (h : B s (endOf c) ps)
    (h' : B (startOf d) e qs) (h1 : plain0 x = true) (h1' : c = true ∨ plainp x = true)
    (h2 : op0 x = true) (h2' : d = true ∨ opE x = true) : B s e (ps ++ x :: qs) := by
  have hx : B (· == x) (· == x) [x] := .one x (by simp) (by simp)
  refine h.append (hx.append h' fun a y ha hy => ?_) fun a y ha hy => ?_
  · have : a = x := by simpa using ha
    subst this
    exact ok_op h2 hy h2'
  · have : y = x := by simpa using hy
    subst this
    exact ok_end ha h1 h1'

theorem B.mono {s e s' e' : Piece → Bool} {ps : List Piece} (h : B s e ps)
    (hs : ∀ x, s x = true → s' x = true) (he : ∀ x, e x = true → e' x = true) : B s' e' ps :=
  let ⟨hc, ⟨y, r, a, b⟩, ⟨r', x, c, d⟩⟩ := h
  ⟨hc, ⟨y, r, a, hs _ b⟩, ⟨r', x, c, he _ d⟩⟩

theorem starty_any (x : Piece) (h : starty x = true) : anyS x = true := by
  cases x <;> first | rfl | exact h

theorem startOf_any {c : Bool} (x : Piece) (h : startOf c x = true) : anyS x = true := by
  simp only [startOf, Bool.or_eq_true, Bool.and_eq_true, beq_iff_eq] at h
  rcases h with h | ⟨_, (((rfl | rfl) | rfl) | rfl) | rfl⟩
  · exact starty_any x h
  all_goals rfl

theorem loose_endy (x : Piece) (h : loose x = true) : endy x = true := by
  cases x <;> first | exact h | simp [loose] at h

theorem B.any {e : Piece → Bool} {c : Bool} {ps : List Piece} (h : B (startOf c) e ps) : B anyS e ps :=
  h.mono startOf_any fun _ h => h

theorem B.fin {s : Piece → Bool} {c : Bool} {ps : List Piece} (h : B s loose ps) : B s (endOf c) ps :=
  h.mono (fun _ h => h) fun x h => endOf_endy (loose_endy x h)

theorem B.flat {s : Piece → Bool} {α : Type} {f : α → List Piece} {ps : List Piece} (h : B s loose ps) :
    ∀ (as : List α) (_ : ∀ a ∈ as, B anyS loose (f a)), B s loose (ps ++ as.flatMap f)
  | [], _ => by simpa using h
  | a :: as, hs => by
    rw [List.flatMap_cons, ← List.append_assoc]
    exact B.flat (h.cat (hs a (by simp))) as fun a ha => hs a (by simp [ha])

/-- What is proved of an expression. -/
structure Q (p : Prec) (e : Node) (ps : List Piece) : Prop where
  b : B (startOf (headFree e)) (endOf (tailFree e)) ps
  l : Prec.leftHand.num ≤ p.num ∨ Prec.leftHand.num ≤ (level e).num → isNum e = false →
    B (startOf (headFree e)) loose ps

theorem Q.loose {p : Prec} {e : Node} {ps : List Piece} (h : B (startOf (headFree e)) loose ps) : Q p e ps :=
  ⟨h.fin, fun _ _ => h⟩

theorem Q.low {p : Prec} {e : Node} {ps : List Piece}
    (h : B (startOf (headFree e)) (endOf (tailFree e)) ps)
    (hp : p.num < Prec.leftHand.num) (he : level e = p := by rfl) : Q p e ps :=
  ⟨h, fun h' _ => by rw [he] at h'; omega⟩

theorem Q.tight {e : Node} {ps : List Piece} (h : Q .leftHand e ps) :
    B (startOf (headFree e)) (endOf true) ps := by
  cases hn : isNum e with
  | false => exact (h.l (.inl (Nat.le_refl _)) hn).fin
  | true =>
    cases e with
    | num t =>
      have hb := h.b
      rw [show tailFree (.num t) = true by simp [tailFree]] at hb
      exact hb
    | _ => simp [isNum] at hn

theorem calmAll_iff : ∀ l : Nodes, calmAll l = true → ∀ a ∈ items l, calm a = true
  | .nil, _, _, ha => by simp [items] at ha
  | .cons e l, h, a, ha => by
    simp only [calmAll, Bool.and_eq_true] at h
    simp only [items, List.mem_cons] at ha
    rcases ha with rfl | ha
    · exact h.1
    · exact calmAll_iff l h.2 a ha

theorem binToken_punct {op : BinOp} (h : op ≠ .instanceof) :
    plain0 (binToken op) = true ∧ op0 (binToken op) = true ∧
      (greater op = false → plainp (binToken op) = true) ∧
      (op ≠ .add → op ≠ .subtract → opE (binToken op) = true) := by
  cases op <;> first | exact absurd rfl h | decide

theorem B.withComma {c d : Bool} {ps : List Piece} (h : B (startOf c) (endOf d) ps) :
    B anyS Printed.loose (ps ++ [.punct .comma]) := h.any.fol (.one _)

theorem calm_expr {p : Prec} {e : Node} {ps : List Piece} (h : ReadsExpr p e ps) :
    calm e = true → Q p e ps := by
  induction h with
  | weaken hle _ ih =>
    intro hc
    exact ⟨(ih hc).b, fun h => (ih hc).l (h.imp (Nat.le_trans · hle) id)⟩
  | parens _ ih =>
    intro hc
    exact .loose (((B.one (e := loose) _).cat (ih hc).b.any).fol (.one _))
  | paren _ ih =>
    intro hc
    exact .loose (((B.one (e := loose) _).cat (ih (by simpa [calm] using hc)).b.any).fol (.one _))
  | ident | this | null | «true» | «false» => exact fun _ => .loose (.one _)
  | num t =>
    intro hc
    rw [calm] at hc
    exact ⟨.one _ (startOf_starty hc) (endOf_endy hc), nofun⟩
  | str t =>
    intro _
    refine .loose ⟨by simp [okB, sticks, Piece.text, Punct.text, sticksTo], ⟨_, _, rfl, startOf_starty rfl⟩,
      ⟨[.punct .sQuote, .raw t], _, rfl, rfl⟩⟩
  | array els hi _ ih =>
    intro hc
    simp only [calm, Bool.and_eq_true] at hc
    have ha := calmAll_iff _ hc.1
    exact .loose (((B.one (e := loose) _).flat els fun a h => (ih a h (by
      simpa [calm] using ha (.arrayItem a.1) (hi ▸ List.mem_map_of_mem (f := fun a => Node.arrayItem a.1) h))).b.withComma).cat
        (.one _))
  | arrayLast els hi _ _ ih ih' =>
    intro hc
    simp only [calm, Bool.and_eq_true] at hc
    have ha := calmAll_iff _ hc.1
    exact .loose ((((B.one (e := loose) _).flat els fun a h => (ih a h (by
      simpa [calm] using ha (.arrayItem a.1) (hi ▸ List.mem_map_of_mem (f := fun a => Node.arrayItem a.1) h))).b.withComma).cat
        (ih' hc.2).b.any).fol (.one _))
  | dot _ ih =>
    intro hc
    simp only [calm, Bool.and_eq_true, Bool.not_eq_true'] at hc
    have h := (ih hc.1.1).l (.inl (Nat.le_refl _)) hc.2
    refine .loose ?_
    rw [headFree]
    exact (h.cat (qs := [_, _]) ⟨by simp [okB], ⟨_, _, rfl, rfl⟩, ⟨[_], _, rfl, rfl⟩⟩)
  | computed _ _ ih ih' =>
    intro hc
    simp only [calm, Bool.and_eq_true] at hc
    refine .loose ?_
    rw [headFree]
    exact (((ih hc.1.1).b.fol ((B.one (e := loose) _).cat (ih' hc.1.2).b.any)).fol (.one _))
  | call args _ hi _ ih ih' =>
    intro hc
    simp only [calm, Bool.and_eq_true] at hc
    have ha := calmAll_iff _ hc.2.1
    refine .loose ?_
    rw [headFree]
    exact (((ih hc.1).b.fol ((B.one (e := loose) _).flat args fun a h =>
      (ih' a h (ha _ (hi ▸ List.mem_map_of_mem h))).b.withComma)).cat (.one _))
  | callLast args _ hi _ _ ih ih' ih'' =>
    intro hc
    simp only [calm, Bool.and_eq_true] at hc
    have ha := calmAll_iff _ hc.2.1
    refine .loose ?_
    rw [headFree]
    exact ((((ih hc.1).b.fol ((B.one (e := loose) _).flat args fun a h =>
      (ih' a h (ha _ (hi ▸ List.mem_map_of_mem h))).b.withComma)).cat (ih'' hc.2.2).b.any).fol (.one _))
  | increment _ ih =>
    intro hc
    rw [calm] at hc
    refine .loose ?_
    rw [headFree]
    exact (ih hc).b.fol (.one _)
  | decrement _ ih =>
    intro hc
    rw [calm] at hc
    refine .low ?_ (by decide)
    rw [headFree, tailFree]
    exact (ih hc).b.fol (.one _)
  | preIncrement _ ih =>
    intro hc
    rw [calm] at hc
    refine .low ?_ (by decide)
    rw [headFree, tailFree]
    exact (B.one (e := opE) _).op (ih hc).b
  | preDecrement _ ih =>
    intro hc
    rw [calm] at hc
    refine .low ?_ (by decide)
    rw [headFree, tailFree]
    exact (B.one (e := opE) _).op (ih hc).b
  | @unary op e ps _ ih =>
    intro hc
    simp only [calm, Bool.and_eq_true, Bool.or_eq_true, bne_iff_ne] at hc
    refine .low ?_ (by decide)
    have h := (ih hc.2).b
    rw [headFree, tailFree]
    cases op with
    | positive | negative =>
      have hf : headFree e = true := by simpa using hc.1
      exact (B.one (e := op0) _).append h fun _ _ hx hy => ok_op hx hy (.inl hf)
    | negate => exact (B.one (e := opE) (.punct .exclam)).op h
    | bitNegate => exact (B.one (e := opE) (.punct .tilde)).op h
    | delete | void | typeof | await => exact (B.one (e := loose) _).cat h.any
  | power _ _ ih ih' =>
    intro hc
    simp only [calm, Bool.and_eq_true] at hc
    refine .low ?_ (by decide)
    rw [headFree, tailFree]
    exact (ih hc.1.2).b.fol ((B.one (e := opE) _).op (ih' hc.2).b)
  | @bin op l r ps qs ho hl _ ih ih' =>
    intro hc
    simp only [calm, Bool.and_eq_true, Bool.or_eq_true, bne_iff_ne, solid, decide_eq_true_eq,
      Bool.not_eq_true'] at hc
    have hlow : (binLevel op).num < Prec.leftHand.num := by cases op <;> decide
    obtain ⟨⟨⟨⟨c1, c2⟩, c3⟩, c4⟩, c5⟩ := hc
    refine .low ?_ hlow
    rw [headFree, tailFree]
    by_cases hop : op = .instanceof
    · subst hop
      have hs := c1.resolve_left (fun h => h rfl)
      exact ((ih c4).l (.inr hs.1) hs.2).cat ((B.one (e := loose) _).cat (ih' c5).b.any)
    · obtain ⟨h1, h2, h3, h4⟩ := binToken_punct hop
      exact (ih c4).b.mid _ (ih' c5).b h1 (c3.symm.imp id h3) h2 (c2.symm.imp id fun h => h4 h.1 h.2)
  | inOp _ _ ih ih' =>
    intro hc
    simp only [calm, Bool.and_eq_true, solid, decide_eq_true_eq, Bool.not_eq_true'] at hc
    refine .low ?_ (by decide)
    rw [headFree, tailFree]
    exact ((ih hc.1.2).l (.inr hc.1.1.1) hc.1.1.2).cat ((B.one (e := loose) _).cat (ih' hc.2).b.any)
  | cond _ _ _ ih ih' ih'' =>
    intro hc
    simp only [calm, Bool.and_eq_true] at hc
    refine .low ?_ (by decide)
    rw [headFree, tailFree]
    exact ((ih hc.1.1).b.fol ((B.one (e := loose) _).cat (ih' hc.1.2).b.any)).fol
      ((B.one (e := loose) _).cat (ih'' hc.2).b.any)
  | assign _ _ ih ih' =>
    intro hc
    simp only [calm, Bool.and_eq_true] at hc
    refine .low ?_ (by decide)
    rw [headFree, tailFree]
    exact (ih hc.1).b.fol ((B.one (e := opE) _).op (ih' hc.2).b)
  | @opAssign op l r ps qs _ _ ih ih' =>
    intro hc
    simp only [calm, Bool.and_eq_true] at hc
    have h : B plain0 opE (assignTokens op) := by
      cases op <;> exact ⟨.cons_cons rfl (.singleton _), ⟨_, _, rfl, rfl⟩, ⟨[_], _, rfl, rfl⟩⟩
    refine .low ?_ (by decide)
    rw [headFree, tailFree]
    exact ((ih hc.1).tight.append h fun _ _ hx hy => ok_end hx hy (.inl rfl)).op (ih' hc.2).b
  | seq _ _ ih ih' =>
    intro hc
    simp only [calm, Bool.and_eq_true] at hc
    refine .low ?_ (by decide)
    rw [headFree, tailFree]
    exact (ih hc.1).b.fol ((B.one (e := loose) _).cat (ih' hc.2).b.any)

theorem calm_declarator {d : Node} {ps : List Piece} (h : ReadsDeclarator d ps) (hc : calm d = true) :
    B (startOf true) (endOf false) ps := by
  cases h with
  | name => exact .one _
  | init h =>
    simp only [calm, Bool.and_eq_true] at hc
    exact ((B.one (e := loose) _).cat ((B.one (e := opE) _).op (calm_expr h hc.2).b)).mono
      (fun _ h => h) fun _ => endOf_false

theorem calm_optional {s : Piece → Bool} {d : Node} {ps qs : List Piece} (h : ReadsOptional d qs)
    (hc : calm d = true) (hb : B s loose ps) : B s (endOf false) (ps ++ qs) := by
  cases h with
  | none => simpa using hb.fin
  | some h => exact (hb.cat (calm_expr h hc).b.any).mono (fun _ h => h) fun _ => endOf_false

theorem calm_last {s : Piece → Bool} {d : Node} {ps qs : List Piece} (h : ReadsLast d qs)
    (hc : calm d = true) (hb : B s loose ps) : B s (endOf false) (ps ++ qs) := by
  cases h with
  | none => simpa using hb.fin
  | some h => exact hb.cat (calm_declarator h hc).any

theorem B.w {s e : Piece → Bool} (x : Piece) {ps : List Piece} (h : B anyS e ps)
    (hs : s x = true := by rfl) (hx : Printed.loose x = true := by rfl) : B s e (x :: ps) :=
  (B.one x hs hx).cat h

theorem calm_stmt {b : Bool} {n : Node} {ps : List Piece} (h : ReadsStmt b n ps) :
    calm n = true → B anyS loose ps := by
  induction h with
  | any _ ih => exact ih
  | braces _ ih => exact fun hc => (B.w _ (ih hc)).cat (.one _)
  | ifStmt hx _ ih | whileStmt hx _ ih | withStmt hx _ ih =>
    intro hc
    simp only [calm, Bool.and_eq_true] at hc
    exact (B.w _ (B.w _ (calm_expr hx hc.1).b.any)).fol (.w _ (ih hc.2))
  | ifElse hx _ _ ih ih' =>
    intro hc
    simp only [calm, Bool.and_eq_true] at hc
    exact ((B.w _ (B.w _ (calm_expr hx hc.1.1).b.any)).fol (.w _ (ih hc.1.2))).cat (.w _ (ih' hc.2))
  | block stmts hi _ ih =>
    intro hc
    have ha := calmAll_iff _ (by simpa only [calm] using hc)
    exact ((B.one _).flat stmts fun a h => ih a h (ha _ (hi ▸ List.mem_map_of_mem h))).cat (.one _)
  | exprStmt hx =>
    intro hc
    exact (calm_expr hx (by simpa only [calm] using hc)).b.any.fol (.one _)
  | @decl kind _ _ _ decls hi hd hl =>
    intro hc
    simp only [calm, Bool.and_eq_true] at hc
    have ha := calmAll_iff _ hc.1
    exact (((B.one (e := loose) _).flat decls fun a h => (calm_declarator (hd a h)
      (ha _ (hi ▸ List.mem_map_of_mem h))).withComma).cat (calm_declarator hl hc.2).any).fol (.one _)
  | doWhile hx _ ih =>
    intro hc
    simp only [calm, Bool.and_eq_true] at hc
    exact ((B.w _ (ih hc.1)).cat (.w _ (.w _ (calm_expr hx hc.2).b.any))).fol (.w _ (.one _))
  | forStmt ht hu _ ih =>
    intro hc
    simp only [calm, Bool.and_eq_true] at hc
    have h1 := calm_optional ht hc.1.1.2
      (B.w (s := anyS) (.kw .«for») (.w (.punct .parenL) (.one (.punct .semicolon))))
    have h2 := calm_optional hu hc.1.2 (h1.fol (.one (.punct .semicolon)))
    rw [List.append_assoc _ [_]] at h2
    exact h2.fol (.w _ (ih hc.2))
  | labelled _ ih =>
    intro hc
    simp only [calm, Bool.and_eq_true] at hc
    exact .w _ (.w _ (ih hc.2))
  | tryFinally _ _ ih ih' =>
    intro hc
    rw [calm, Bool.and_eq_true] at hc
    exact (B.w _ (ih hc.1)).cat (.w _ (ih' hc.2))
  | tryCatch _ _ ih ih' =>
    intro hc
    rw [calm, Bool.and_eq_true] at hc
    have h2 := hc.2
    rw [calm, Bool.and_eq_true] at h2
    exact (B.w _ (ih hc.1)).cat (.w _ (.w _ (.w _ (.w _ (ih' h2.2)))))
  | tryCatchFinally _ _ _ ih ih' ih'' =>
    intro hc
    rw [calm, Bool.and_eq_true, Bool.and_eq_true] at hc
    have h2 := hc.1.2
    rw [calm, Bool.and_eq_true] at h2
    exact ((B.w _ (ih hc.1.1)).cat (.w _ (.w _ (.w _ (.w _ (ih' h2.2)))))).cat (.w _ (ih'' hc.2))
  | forIn hx _ ih | forOf hx _ ih =>
    intro hc
    simp only [calm, Bool.and_eq_true] at hc
    exact (B.w _ (.w _ (.w _ (.w _ (.w _ (calm_expr hx hc.1).b.any))))).fol (.w _ (ih hc.2))
  | @funcDecl n _ _ _ ps _ params hi hd hl _ ih =>
    intro hc
    rw [calm, Bool.and_eq_true] at hc
    have h1 := hc.1
    rw [calm, Bool.and_eq_true] at h1
    have ha := calmAll_iff _ h1.1
    have hf := (B.w (s := anyS) (.kw .«function») (.w (.ident n) (.one (.punct .parenL)))).flat params fun a h =>
      (calm_declarator (hd a h) (ha _ (hi ▸ List.mem_map_of_mem h))).withComma
    exact (calm_last hl h1.2 hf).fol (.w _ (ih hc.2))
  | retValue hx =>
    intro hc
    exact (B.w _ (calm_expr hx (by simpa only [calm] using hc)).b.any).fol (.one _)
  | ret | «break» | «continue» | debugger => exact fun _ => .w _ (.one _)
  | breakTo | continueTo => exact fun _ => .w _ (.w _ (.one _))
  | empty => exact fun _ => .one _

theorem calm_script : ∀ (stmts : List (Node × List Piece)),
    (∀ s ∈ stmts, ReadsStmt false s.1 s.2 ∧ calm s.1 = true) →
    (stmts.flatMap (·.2)).IsChain (fun x y => okB x y = true)
  | [], _ => by simp
  | s :: rest, h => by
    rw [List.flatMap_cons]
    exact (B.flat (calm_stmt (h s (by simp)).1 (h s (by simp)).2) rest fun a ha =>
      calm_stmt (h a (by simp [ha])).1 (h a (by simp [ha])).2).chain

theorem written_ident {ps : List Piece} {u : List Tok} (h : Written ps u) {n : Bytes}
    (hn : Piece.ident n ∈ ps) : Lexeme (.ident n) n := by
  induction h <;> simp_all
  rcases hn with rfl | hn <;> simp_all

theorem ident_first {n : Bytes} (h : Lexeme (.ident n) n) : ∃ b r, n = b :: r ∧ IdentStart b := by
  cases h with
  | name h => exact ⟨_, _, rfl, h⟩

theorem written_num {ps : List Piece} {u : List Tok} (h : Written ps u) {t : Bytes}
    (ht : Piece.num t ∈ ps) : ∃ v, Lexeme (.num v) t := by
  induction h with
  | nil => simp at ht
  | kw _ _ ih | ident _ _ ih | punct _ _ _ ih => exact ih (by simpa using ht)
  | joined _ _ _ _ ih | str _ _ _ ih => exact ih (by simpa using ht)
  | num h _ ih =>
    rcases List.mem_cons.1 ht with e | ht
    · cases e
      exact ⟨_, h⟩
    · exact ih ht

theorem num_first {v : NumExpr} {t : Bytes} (h : Lexeme (.num v) t) :
    ∃ b r, t = b :: r ∧ (Digit b ∨ b = c!".") := by
  cases h with
  | @decimal d _ hd _ _ _ =>
    cases hi : d.int with
    | nil =>
      obtain ⟨b, f, hf⟩ := hd.leadingDot hi
      exact ⟨_, b :: (f ++ d.exp.elim [] Exponent.text), by simp [Decimal.text, hi, hf], .inr rfl⟩
    | cons b r =>
      exact ⟨_, r ++ (d.frac.elim [] (c!"." :: ·)) ++ (d.exp.elim [] Exponent.text),
        by simp [Decimal.text, hi], .inl (hd.int b (by simp [hi]))⟩
  | octal | binary | hex => exact ⟨_, _, rfl, .inl (by decide)⟩

theorem kw_first (k : Keyword) : ∃ b r, k.text = b :: r ∧ IdentStart b := by
  cases k <;> exact ⟨_, _, rfl, by decide⟩

theorem punct_plain {p : Punct} {b : UInt8} (hb : b ∉ [c!"<", c!"=", c!">", c!"+", c!"-", c!"*", c!"&",
    c!"|", c!"."]) (hd : ¬ Digit b ∨ p.text.getLast? ≠ some c!".") : sticksTo (.punct p) b = false := by
  have all : ∀ w ∈ punctuators, 2 ≤ w.length → w.getLast? ∈ ([c!"<", c!"=", c!">", c!"+", c!"-", c!"*",
    c!"&", c!"|", c!"."].map some) := by decide
  simp only [sticksTo, Bool.or_eq_false_iff, Bool.and_eq_false_iff, beq_eq_false_iff_ne]
  constructor
  · by_contra hc
    have hc : p.text ++ [b] ∈ punctuators := by simpa using hc
    obtain ⟨x, xs, e, _⟩ := punct_text p
    have := all _ hc (by simp [e])
    simp only [List.getLast?_append, List.getLast?_singleton, Option.some_or] at this
    exact hb (by simpa using this)
  · rcases hd with hd | hd
    · exact .inr ⟨fun h => hb (by simp [h]), by simpa using hd⟩
    · exact .inl hd

theorem identStart_plain {b : UInt8} (h : IdentStart b) : b ∉ [c!"<", c!"=", c!">", c!"+", c!"-", c!"*",
    c!"&", c!"|", c!"."] ∧ ¬ Digit b := by
  constructor
  · intro hm
    have : ∀ b ∈ [c!"<", c!"=", c!">", c!"+", c!"-", c!"*", c!"&", c!"|", c!"."], ¬ IdentStart b := by
      decide
    exact this b hm h
  · intro hd
    have : ∀ b : Fin 256, IdentStart (UInt8.ofNat b) → ¬ Digit (UInt8.ofNat b) := by decide +kernel
    have e := this ⟨b.toNat, b.toNat_lt⟩
    simp only [UInt8.ofNat_toNat] at e
    exact e h hd

theorem space_plain (x : Piece) : sticksTo x 0x20 = false := by
  cases x with
  | num t => simp [sticksTo, show ¬ IdentPart 0x20 by decide]
  | punct p => exact punct_plain (by decide) (.inl (by decide))
  | _ => rfl

/-- Two pieces without a space between them. -/
theorem ok_sticks {x y : Piece} (h : okB x y = true) (hi : ∀ n, y = .ident n → Lexeme (.ident n) n)
    (hn : ∀ t, y = .num t → ∃ v, Lexeme (.num v) t) : sticks x y = false := by
  have word : ∀ {b : UInt8}, IdentStart b → (∀ t, x ≠ .num t) → sticksTo x b = false := by
    intro b hb hx
    cases x with
    | num t => exact absurd rfl (hx t)
    | punct p => exact punct_plain (identStart_plain hb).1 (.inl (identStart_plain hb).2)
    | _ => rfl
  cases y with
  | space => simp [okB] at h
  | punct q => simpa [okB] using h
  | raw t =>
    have hx : x = .punct .sQuote := by simpa [okB] using h
    subst hx
    cases t with
    | nil => rfl
    | cons b bs => simp [sticks, Piece.text, loose_byte (p := .sQuote) rfl b]
  | kw k =>
    obtain ⟨b, r, e, hb⟩ := kw_first k
    simp only [sticks, Piece.text, e, word hb (by rintro t rfl; simp [okB] at h), Bool.and_false]
  | ident n =>
    obtain ⟨b, r, rfl, hb⟩ := ident_first (hi n rfl)
    simp only [sticks, Piece.text, word hb (by rintro t rfl; simp [okB] at h), Bool.and_false]
  | num t =>
    simp only [okB, Bool.and_eq_true] at h
    obtain ⟨v, hv⟩ := hn t rfl
    obtain ⟨b, r, rfl, hb⟩ := num_first hv
    have : sticksTo x b = false := by
      cases x with
      | num t => simp at h
      | punct p =>
        have hp : p.text.getLast? ≠ some c!"." := by simpa using h.2
        rcases hb with hb | rfl
        · refine punct_plain (fun hm => ?_) (.inr hp)
          have : ∀ b ∈ [c!"<", c!"=", c!">", c!"+", c!"-", c!"*", c!"&", c!"|", c!"."], ¬ Digit b := by
            decide
          exact this b hm hb
        · cases p <;> first | rfl | exact absurd rfl hp
      | _ => rfl
    simp only [sticks, Piece.text, this, Bool.and_false]

theorem clear_of : ∀ (xs : List Piece), (strip xs).IsChain (fun x y => okB x y = true) →
    (∀ n, Piece.ident n ∈ xs → Lexeme (.ident n) n) →
    (∀ t, Piece.num t ∈ xs → ∃ v, Lexeme (.num v) t) → Clear xs = true
  | [], _, _, _ | [_], _, _, _ => rfl
  | x :: y :: r, hc, hi, hn => by
    have tail : (strip (y :: r)).IsChain (fun x y => okB x y = true) := by
      by_cases hx : x = .space
      · subst hx
        simpa [strip] using hc
      · have : strip (x :: y :: r) = x :: strip (y :: r) := by simp [strip, hx]
        rw [this] at hc
        exact hc.tail
    have ih := clear_of (y :: r) tail (fun n h => hi n (by simp_all)) (fun t h => hn t (by simp_all))
    have hs : sticks x y = false := by
      by_cases hy : y = .space
      · subst hy
        simp [sticks, Piece.text, space_plain]
      by_cases hx : x = .space
      · subst hx
        simp only [sticks, sticksTo, Bool.and_false]
        split <;> rfl
      have : strip (x :: y :: r) = x :: y :: strip r := by simp [strip, hx, hy]
      rw [this, List.isChain_cons_cons] at hc
      exact ok_sticks hc.1 (fun n h => hi n (by simp [h])) (fun t h => hn t (by simp [h]))
    simp [Clear, hs, ih]

end Jsparse.Ast.Printed
