import Verif.Model.Printer
/-!
# What holds of every primitive of the printer holds of the printer

`Closed R` says that the relation `R` between the formatter before and after holds for each primitive
of src/ast/display.rs, and goes through its locks; then it holds for the printing of each node.
-/

namespace Jsparse.Ast

/-- The punctuators that only the `wrap_…` functions write. -/
def Punct.isBracket : Punct → Bool
  | .parenL | .parenR | .squareL | .squareR | .curlyL | .curlyR => true
  | _ => false

/-- `R` holds between before and after for each primitive, and goes through locks. -/
structure Closed (R : Fmt → Fmt → Prop) : Prop where
  refl : ∀ f, R f f
  trans : ∀ {f g h}, R f g → R g h → R f h
  keyword : ∀ k f, R f (f.keyword k)
  punct : ∀ p f, p.isBracket = false → R f (f.punctuator p)
  ident : ∀ t f, R f (f.identifier t)
  str : ∀ t f, R f (f.string t)
  num : ∀ t f, R f (f.number t)
  regexp : ∀ v t f, R f (f.regexp v t)
  text : ∀ t p f, p.isBracket = false → R f ((f.templatePart t).punctuator p)
  parens : ∀ w body f, (∀ f, R f (body f)) → R f (Fmt.wrapParensInner w body f)
  reqPrec : ∀ p body f, (∀ f, R f (body f)) → R f (Fmt.requirePrecedence p body f)
  restrict : ∀ l body f, (∀ f, R f (body f)) → R f (Fmt.restrictLookahead l body f)
  allow : ∀ body f, (∀ f, R f (body f)) → R f (Fmt.allowIn body f)
  disallow : ∀ body f, (∀ f, R f (body f)) → R f (Fmt.disallowIn body f)
  curly : ∀ body f, (∀ f, R f (body f)) → R f (Fmt.wrapCurly body f)
  square : ∀ body f, (∀ f, R f (body f)) → R f (Fmt.wrapSquare body f)
  orphan : ∀ body f, (∀ f, R f (body f)) → R f (Fmt.disallowOrphanIf body f)

namespace Closed

variable {R : Fmt → Fmt → Prop} (h : Closed R) {f g : Fmt}
include h

theorem prec (p body) (hb : ∀ f, R f (body f)) : R f (Fmt.precedence p body f) := h.parens _ _ _ hb

theorem look (s body) (hb : ∀ f, R f (body f)) : R f (Fmt.lookaheadWrapParens s body f) :=
  h.parens _ _ _ hb

theorem wrap (body) (hb : ∀ f, R f (body f)) : R f (Fmt.wrapParens body f) := h.parens _ _ _ hb

theorem inWrap (body) (hb : ∀ f, R f (body f)) : R f (Fmt.inWrapParens body f) := h.parens _ _ _ hb

theorem orphanIf (body) (hb : ∀ f, R f (body f)) : R f (Fmt.wrapOrphanIf body f) := by
  unfold Fmt.wrapOrphanIf
  split
  · exact hb f
  · exact h.curly _ _ hb

theorem binOp (op : BinOp) : R f (op.fmt f) := by
  cases op <;> first | exact h.punct _ _ rfl | exact h.keyword _ _

theorem unOp (op : UnOp) : R f (op.fmt f) := by
  cases op <;> first | exact h.punct _ _ rfl | exact h.keyword _ _

theorem assignOp (op : AssignOp) : R f (f.punctuator op.punct) := by
  cases op <;> exact h.punct _ _ rfl

theorem metaProp (m : Meta) : R f (m.fmt f) := by
  cases m <;>
    exact h.trans (h.trans (h.keyword _ _) (h.punct _ _ rfl)) (h.keyword _ _)

theorem fnKind (k : FnKind) : R f (k.fmt f) := by
  cases k
  · exact h.keyword _ _
  · exact h.trans (h.keyword _ _) (h.punct _ _ rfl)
  · exact h.trans (h.keyword _ _) (h.keyword _ _)
  · exact h.trans (h.trans (h.keyword _ _) (h.keyword _ _)) (h.punct _ _ rfl)

theorem arrowHead (k : FnKind) : R f (k.fmtArrowHead f) := by
  cases k <;> first | exact h.refl _ | exact h.keyword _ _

theorem arrow (k : FnKind) : R f (f.punctuator k.arrow) := by
  cases k <;> exact h.punct _ _ rfl

theorem methodKind (k : MethodKind) : R f (k.fmt f) := by
  cases k <;> first
    | exact h.refl _ | exact h.keyword _ _ | exact h.punct _ _ rfl
    | exact h.trans (h.keyword _ _) (h.punct _ _ rfl)

theorem incDec (b : Bool) : R f (f.punctuator (if b then .plusPlus else .minusMinus)) := by
  cases b <;> exact h.punct _ _ rfl

end Closed


variable {R : Fmt → Fmt → Prop}

seal Fmt.keyword Fmt.punctuator Fmt.identifier Fmt.string Fmt.number Fmt.templatePart Fmt.regexp
  Fmt.wrapParensInner Fmt.wrapParens Fmt.precedence Fmt.requirePrecedence Fmt.restrictLookahead
  Fmt.lookaheadWrapParens Fmt.allowIn Fmt.disallowIn Fmt.inWrapParens Fmt.wrapCurly Fmt.wrapSquare
  Fmt.disallowOrphanIf Fmt.wrapOrphanIf BinOp.fmt UnOp.fmt Meta.fmt FnKind.fmt FnKind.fmtArrowHead
  MethodKind.fmt ItemKind.fmt Node.fmt Nodes.fmtList Nodes.fmtComma

theorem Closed.item (h : Closed R) {f : Fmt} (k : ItemKind) {list comma a b c d : Fmt → Fmt} (hlist : ∀ f, R f (list f))
    (hcomma : ∀ f, R f (comma f)) (ha : ∀ f, R f (a f)) (hb : ∀ f, R f (b f)) (hc : ∀ f, R f (c f))
    (hd : ∀ f, R f (d f)) : R f (k.fmt list comma a b c d f) := by
  cases k <;> simp only [ItemKind.fmt]
  all_goals repeat' first
    | with_reducible exact h.refl _
    | intro _
    | with_reducible refine h.trans ?_ (h.keyword _ _)
    | with_reducible refine h.trans ?_ (h.fnKind _)
    | with_reducible refine h.trans ?_ (h.methodKind _)
    | with_reducible refine h.trans ?_ (h.punct _ _ ?_)
    | with_reducible refine h.trans ?_ (h.reqPrec _ _ _ ?_)
    | with_reducible refine h.trans ?_ (h.restrict _ _ _ ?_)
    | with_reducible refine h.trans ?_ (h.allow _ _ ?_)
    | with_reducible refine h.trans ?_ (h.curly _ _ ?_)
    | with_reducible refine h.trans ?_ (h.look _ _ ?_)
    | with_reducible refine h.trans ?_ (hlist _)
    | with_reducible refine h.trans ?_ (hcomma _)
    | with_reducible refine h.trans ?_ (ha _)
    | with_reducible refine h.trans ?_ (hb _)
    | with_reducible refine h.trans ?_ (hc _)
    | with_reducible refine h.trans ?_ (hd _)
  all_goals rfl

mutual
theorem Node.closed (h : Closed R) (n : Node) : ∀ f, R f (n.fmt f) := by
  intro f
  cases n
  all_goals simp only [Node.fmt]
  all_goals repeat' first
    | with_reducible exact h.refl _
    | intro _
    | with_reducible refine h.trans ?_ (Node.closed h _ _)
    | with_reducible refine h.trans ?_ (Nodes.closedList h _ _)
    | with_reducible refine h.trans ?_ (Nodes.closedComma h _ _)
    | with_reducible refine h.trans ?_ (h.keyword _ _)
    | with_reducible refine h.trans ?_ (h.text _ _ _ ?_)
    | with_reducible refine h.trans ?_ (h.ident _ _)
    | with_reducible refine h.trans ?_ (h.str _ _)
    | with_reducible refine h.trans ?_ (h.num _ _)
    | with_reducible refine h.trans ?_ (h.regexp _ _ _)
    | with_reducible refine h.trans ?_ (h.binOp _)
    | with_reducible refine h.trans ?_ (h.unOp _)
    | with_reducible refine h.trans ?_ (h.assignOp _)
    | with_reducible refine h.trans ?_ (h.metaProp _)
    | with_reducible refine h.trans ?_ (h.fnKind _)
    | with_reducible refine h.trans ?_ (h.arrowHead _)
    | with_reducible refine h.trans ?_ (h.arrow _)
    | with_reducible refine h.trans ?_ (h.methodKind _)
    | with_reducible refine h.trans ?_ (h.incDec _)
    | with_reducible refine h.trans ?_ (h.punct _ _ ?_)
    | with_reducible refine h.trans ?_ (h.reqPrec _ _ _ ?_)
    | with_reducible refine h.trans ?_ (h.restrict _ _ _ ?_)
    | with_reducible refine h.trans ?_ (h.allow _ _ ?_)
    | with_reducible refine h.trans ?_ (h.disallow _ _ ?_)
    | with_reducible refine h.trans ?_ (h.curly _ _ ?_)
    | with_reducible refine h.trans ?_ (h.square _ _ ?_)
    | with_reducible refine h.trans ?_ (h.orphan _ _ ?_)
    | with_reducible refine h.trans ?_ (h.orphanIf _ ?_)
    | with_reducible refine h.trans ?_ (h.prec _ _ ?_)
    | with_reducible refine h.trans ?_ (h.look _ _ ?_)
    | with_reducible refine h.trans ?_ (h.wrap _ ?_)
    | with_reducible refine h.trans ?_ (h.inWrap _ ?_)
    | exact h.item _ (Nodes.closedList h _) (Nodes.closedComma h _) (Node.closed h _)
        (Node.closed h _) (Node.closed h _) (Node.closed h _)
    | split
  all_goals rfl
theorem Nodes.closedList (h : Closed R) (l : Nodes) : ∀ f, R f (l.fmtList f) := by
  intro f
  cases l with
  | nil => simp only [Nodes.fmtList]; exact h.refl _
  | cons n rest =>
    simp only [Nodes.fmtList]
    exact h.trans (Node.closed h n f) (Nodes.closedList h rest _)
theorem Nodes.closedComma (h : Closed R) (l : Nodes) : ∀ f, R f (l.fmtComma f) := by
  intro f
  cases l with
  | nil => simp only [Nodes.fmtComma]; exact h.refl _
  | cons n rest =>
    simp only [Nodes.fmtComma]
    refine h.trans (h.reqPrec _ _ _ fun g => ?_) (Nodes.closedComma h rest _)
    exact h.trans (Node.closed h n g) (h.punct _ _ rfl)
end

/-- Shows `R f (…)` for a composition of primitives and printers of nodes, given `Closed R`. -/
macro "through" h:term : tactic => `(tactic| ((repeat' (first
  | with_reducible exact ($h).refl _
  | intro _
  | with_reducible refine ($h).trans ?_ (Node.closed $h _ _)
  | with_reducible refine ($h).trans ?_ (Nodes.closedList $h _ _)
  | with_reducible refine ($h).trans ?_ (Nodes.closedComma $h _ _)
  | with_reducible refine ($h).trans ?_ (($h).keyword _ _)
  | with_reducible refine ($h).trans ?_ (($h).text _ _ _ ?_)
  | with_reducible refine ($h).trans ?_ (($h).ident _ _)
  | with_reducible refine ($h).trans ?_ (($h).str _ _)
  | with_reducible refine ($h).trans ?_ (($h).num _ _)
  | with_reducible refine ($h).trans ?_ (($h).regexp _ _ _)
  | with_reducible refine ($h).trans ?_ (($h).binOp _)
  | with_reducible refine ($h).trans ?_ (($h).unOp _)
  | with_reducible refine ($h).trans ?_ (($h).assignOp _)
  | with_reducible refine ($h).trans ?_ (($h).metaProp _)
  | with_reducible refine ($h).trans ?_ (($h).fnKind _)
  | with_reducible refine ($h).trans ?_ (($h).arrowHead _)
  | with_reducible refine ($h).trans ?_ (($h).arrow _)
  | with_reducible refine ($h).trans ?_ (($h).methodKind _)
  | with_reducible refine ($h).trans ?_ (($h).incDec _)
  | with_reducible refine ($h).trans ?_ (($h).punct _ _ ?_)
  | with_reducible refine ($h).trans ?_ (($h).reqPrec _ _ _ ?_)
  | with_reducible refine ($h).trans ?_ (($h).restrict _ _ _ ?_)
  | with_reducible refine ($h).trans ?_ (($h).allow _ _ ?_)
  | with_reducible refine ($h).trans ?_ (($h).disallow _ _ ?_)
  | with_reducible refine ($h).trans ?_ (($h).curly _ _ ?_)
  | with_reducible refine ($h).trans ?_ (($h).square _ _ ?_)
  | with_reducible refine ($h).trans ?_ (($h).orphan _ _ ?_)
  | with_reducible refine ($h).trans ?_ (($h).orphanIf _ ?_)
  | with_reducible refine ($h).trans ?_ (($h).prec _ _ ?_)
  | with_reducible refine ($h).trans ?_ (($h).look _ _ ?_)
  | with_reducible refine ($h).trans ?_ (($h).wrap _ ?_)
  | with_reducible refine ($h).trans ?_ (($h).inWrap _ ?_)
  | with_reducible refine ($h).trans ?_ (($h).parens _ _ _ ?_)
  | rfl
  | split))))

end Jsparse.Ast
