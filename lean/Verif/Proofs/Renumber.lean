import Verif.Spec.Fragment
/-!
# The values of numbers do not matter for the fragment
-/

namespace Jsparse

open Spec FNT

/-- Replace the value of a number. -/
def renum (v : NumExpr) : Token → Token
  | .num _ => .num v
  | t => t

/-- Replace the values of the numbers; `k i` is the value of a number that is followed by `i` tokens. -/
def renumber (k : Nat → NumExpr) : List Tok → List Tok
  | [] => []
  | x :: u => (x.1, renum (k u.length) x.2) :: renumber k u

theorem renumber_length (k : Nat → NumExpr) (u : List Tok) : (renumber k u).length = u.length := by
  induction u with
  | nil => rfl
  | cons x u ih => simp [renumber, ih]

theorem renumber_congr {k k' : Nat → NumExpr} {u : List Tok} (h : ∀ i < u.length, k i = k' i) :
    renumber k u = renumber k' u := by
  induction u with
  | nil => rfl
  | cons x u ih =>
    simp only [renumber]
    rw [h u.length (by simp), ih fun i hi => h i (by simp only [List.length_cons]; omega)]

theorem renum_eq {v : NumExpr} {t s : Token} (hs : ∀ x, s ≠ .num x) : renum v t = s ↔ t = s := by
  cases t <;> simp only [renum]
  exact ⟨fun h => absurd h.symm (hs _), fun h => absurd h.symm (hs _)⟩

section

variable {k : Nat → NumExpr}

theorem renumber_nil : renumber k [] = [] := rfl

theorem renumber_pt (l q u) : renumber k (pt l q :: u) = pt l q :: renumber k u := rfl

theorem renumber_kw (l n u) : renumber k (kw l n :: u) = kw l n :: renumber k u := rfl

theorem renumber_num (l v u) : renumber k ((l, .num v) :: u) = (l, .num (k u.length)) :: renumber k u := rfl

theorem renumber_str (l v u) : renumber k ((l, .str v) :: u) = (l, .str v) :: renumber k u := rfl

theorem renumber_regex (l v w u) : renumber k ((l, .regex v w) :: u) = (l, .regex v w) :: renumber k u := rfl

theorem renumber_template (l a v w u) :
    renumber k ((l, .template a v w) :: u) = (l, .template a v w) :: renumber k u := rfl

theorem renumber_eof (l u) : renumber k ((l, .eof) :: u) = (l, .eof) :: renumber k u := rfl

theorem renumber_inv {u w : List Tok} {x : Tok} (hx : ∀ v, x.2 ≠ .num v) (h : renumber k u = x :: w) :
    ∃ w', u = x :: w' := by
  cases u with
  | nil => cases h
  | cons y u =>
    simp only [renumber, List.cons.injEq] at h
    refine ⟨u, ?_⟩
    rw [← h.1]
    have := (renum_eq hx).1 (congrArg Prod.snd h.1)
    rw [← h.1] at this
    obtain ⟨l, y⟩ := y
    simp only at this ⊢
    rw [← this]

theorem notRegex_ren {u : List Tok} (h : NotRegex u) : NotRegex (renumber k u) := by
  intro l x f v' hu
  obtain ⟨w, rfl⟩ := renumber_inv (by simp) hu
  exact h _ _ _ _ rfl

theorem notNext_ren {u : List Tok} {n : Bytes} (h : NotNext n u) : NotNext n (renumber k u) := by
  intro l v' hu
  obtain ⟨w, rfl⟩ := renumber_inv (by simp) hu
  exact h _ _ rfl

theorem noLine_ren {u : List Tok} (h : NoLine u) : NoLine (renumber k u) := by
  intro x v' hu
  cases u with
  | nil => cases hu
  | cons y u =>
    simp only [renumber, List.cons.injEq] at hu
    rw [← hu.1]
    exact h y u rfl

theorem notComma_ren {v : List Tok} (h : ∀ l v', v ≠ pt l .comma :: v') :
    ∀ l v', renumber k v ≠ pt l .comma :: v' := by
  intro l v' hu
  obtain ⟨w, rfl⟩ := renumber_inv (by simp) hu
  exact h _ _ rfl

theorem noWord_ren {v : List Tok} (h : NoWord v) : NoWord (renumber k v) := by
  intro l n v' hu
  obtain ⟨w, rfl⟩ := renumber_inv (by simp) hu
  exact h _ _ _ rfl

theorem ended_ren {v : List Tok} (h : Ended v) : Ended (renumber k v) := by
  intro x v' hu
  cases v with
  | nil => cases hu
  | cons y v =>
    simp only [renumber, List.cons.injEq] at hu
    rw [← hu.1]
    obtain ⟨l, t⟩ := y
    have := h _ _ rfl
    cases t <;> exact this

theorem loneAsync_ren {C : Ctx} {u : List Tok} (h : LoneAsync C u) : LoneAsync C (renumber k u) := by
  intro l n v' hu
  obtain ⟨w, rfl⟩ := renumber_inv (by simp) hu
  simp only [renumber, List.cons.injEq] at hu
  obtain ⟨w', rfl⟩ := renumber_inv (by simp) hu.2
  exact h _ _ _ rfl

theorem notDeclared_ren {u : List Tok} (h : ¬ BeginsForDeclaration u) : ¬ BeginsForDeclaration (renumber k u) := by
  rintro ⟨x, y, w, hu, hx⟩
  match u, hu with
  | [], hu => cases hu
  | [_], hu => simp [renumber] at hu
  | x' :: y' :: w', hu =>
    simp only [renumber, List.cons.injEq] at hu
    obtain ⟨hu1, hu2, -⟩ := hu
    rw [← hu1, ← hu2] at hx
    refine h ⟨x', y', w', rfl, ?_⟩
    simp only [renum_eq (s := Token.ident _) (by simp), BeginsBinding, renum_eq (s := Token.punct _) (by simp)] at hx ⊢
    exact hx

theorem closing_ren {v : NumExpr} {t : Token} (h : Closing t) : Closing (renum v t) := by
  cases t <;> first | exact h | (simp [Closing] at h)

theorem idle_ren {v : NumExpr} {t : Token} (h : Idle t) : Idle (renum v t) := by
  cases t <;> first | exact h | exact h.elim

theorem ne_ren {v : NumExpr} {t s : Token} (hs : ∀ x, s ≠ .num x) (h : t ≠ s) : renum v t ≠ s :=
  fun h' => h ((renum_eq hs).1 h')

theorem notMem_ren {v : NumExpr} {t : Token} {l : List Token} (hl : ∀ s ∈ l, ∀ x, s ≠ .num x) (h : t ∉ l) :
    renum v t ∉ l := fun h' => h ((renum_eq (hl _ h')).1 rfl ▸ h')

theorem begins_ren {v : NumExpr} {t : Token} (h : Begins t) : Begins (renum v t) := by
  cases t <;> exact h

theorem inserts_ren {x : Tok} {v : NumExpr} (h : Inserts x) : Inserts (x.1, renum v x.2) := by
  rcases h with h | h | ⟨h1, h2⟩
  · exact .inl (by rw [h]; rfl)
  · exact .inr (.inl (by rw [h]; rfl))
  · exact .inr (.inr ⟨h1, begins_ren h2⟩)

theorem semi_ren {u v : List Tok} (h : Semi u v) : Semi (renumber k u) (renumber k v) := by
  cases h with
  | token => exact .token
  | insert h => exact .insert (inserts_ren h)

theorem rawSemi_ren {u v : List Tok} (h : RawSemi u v) : RawSemi (renumber k u) (renumber k v) := by
  cases h with
  | token => exact .token
  | insert h =>
    refine .insert ⟨ne_ren (by simp) h.1, ?_⟩
    rcases h.2 with h | h | h
    · exact .inl h
    · exact .inr (.inl (by rw [h]; rfl))
    · exact .inr (.inr (by rw [h]; rfl))

theorem semiDo_ren {u v : List Tok} (h : SemiDo u v) : SemiDo (renumber k u) (renumber k v) := by
  cases h with
  | token => exact .token
  | insert h => exact .insert (ne_ren (by simp) h)

end

macro "ren_step" : tactic => `(tactic| try simp only [renumber_pt, renumber_kw, renumber_num, renumber_str,
  renumber_regex, renumber_template, renumber_nil, renumber_eof] at *)

macro "ren_close" : tactic => `(tactic| first
  | assumption
  | exact notRegex_ren (by assumption)
  | exact notNext_ren (by assumption)
  | exact noLine_ren (by assumption)
  | exact notDeclared_ren (by assumption)
  | exact semi_ren (by assumption)
  | exact rawSemi_ren (by assumption)
  | exact semiDo_ren (by assumption)
  | exact notComma_ren (by assumption)
  | exact ended_ren (by assumption)
  | exact fun h => notRegex_ren ((by assumption : _ → NotRegex _) h)
  | exact fun h => notNext_ren ((by assumption : _ → NotNext _ _) h)
  | exact fun h h' => noWord_ren ((by assumption : _ → _ → NoWord _) h h')
  | exact fun h => loneAsync_ren ((by assumption : _ → LoneAsync _ _) h))

set_option linter.unusedSimpArgs false in
/-- The fragment does not depend on the values of numbers. -/
theorem frag_renumber {lx : Bool} (k : Nat → NumExpr) {C : Ctx} {n : FNT} {u v : List Tok} (h : FragX lx C n u v) :
    FragX lx C n (renumber k u) (renumber k v) := by
  induction h
  case name => ren_step; apply FragX.name <;> ren_close
  case word => ren_step; apply FragX.word <;> ren_close
  case num => ren_step; apply FragX.num <;> ren_close
  case str => ren_step; apply FragX.str <;> ren_close
  case regex => ren_step; apply FragX.regex <;> ren_close
  case array => ren_step; apply FragX.array <;> ren_close
  case object => ren_step; apply FragX.object <;> ren_close
  case paren => ren_step; apply FragX.paren <;> ren_close
  case parenEmpty => ren_step; apply FragX.parenEmpty <;> ren_close
  case func => ren_step; apply FragX.func <;> ren_close
  case funcName => ren_step; apply FragX.funcName <;> ren_close
  case gen => ren_step; apply FragX.gen <;> ren_close
  case genName => ren_step; apply FragX.genName <;> ren_close
  case plainTemplate => ren_step; apply FragX.plainTemplate <;> ren_close
  case substTemplate => ren_step; apply FragX.substTemplate <;> ren_close
  case elemsNil => ren_step; apply FragX.elemsNil <;> ren_close
  case elemsHole => ren_step; apply FragX.elemsHole <;> ren_close
  case elemsLast => ren_step; apply FragX.elemsLast <;> ren_close
  case elemsCons => ren_step; apply FragX.elemsCons <;> ren_close
  case elemsSpreadLast => ren_step; apply FragX.elemsSpreadLast <;> ren_close
  case elemsSpread => ren_step; apply FragX.elemsSpread <;> ren_close
  case propsNil => ren_step; apply FragX.propsNil <;> ren_close
  case propsLast => ren_step; apply FragX.propsLast <;> ren_close
  case propsCons => ren_step; apply FragX.propsCons <;> ren_close
  case propsHole => ren_step; apply FragX.propsHole <;> ren_close
  case spread => ren_step; apply FragX.spread <;> ren_close
  case keyValue => ren_step; apply FragX.keyValue <;> ren_close
  case shorthand => ren_step; apply FragX.shorthand <;> ren_close
  case headShort => ren_step; apply FragX.headShort <;> ren_close
  case headValue => ren_step; apply FragX.headValue <;> ren_close
  case headPlain => ren_step; apply FragX.headPlain <;> ren_close
  case headStatic => ren_step; apply FragX.headStatic <;> ren_close
  case headKey => ren_step; apply FragX.headKey <;> ren_close
  case headStar => ren_step; apply FragX.headStar <;> ren_close
  case headKind => ren_step; apply FragX.headKind <;> ren_close
  case headAsync => ren_step; apply FragX.headAsync <;> ren_close
  case headKindStar => ren_step; apply FragX.headKindStar <;> ren_close
  case propStatic => ren_step; apply FragX.propStatic <;> ren_close
  case starGetter => ren_step; apply FragX.starGetter <;> ren_close
  case starSetter => ren_step; apply FragX.starSetter <;> ren_close
  case parenCover => ren_step; apply FragX.parenCover <;> ren_close
  case parenRest => ren_step; apply FragX.parenRest <;> ren_close
  case coverNil => ren_step; apply FragX.coverNil <;> ren_close
  case coverCons => ren_step; apply FragX.coverCons <;> ren_close
  case coverTarget => ren_step; apply FragX.coverTarget <;> ren_close
  case classWord => ren_step; apply FragX.classWord <;> ren_close
  case propMethod => ren_step; apply FragX.propMethod <;> ren_close
  case keyName => ren_step; apply FragX.keyName <;> ren_close
  case keyStr => ren_step; apply FragX.keyStr <;> ren_close
  case keyNum => ren_step; apply FragX.keyNum <;> ren_close
  case keyExpr => ren_step; apply FragX.keyExpr <;> ren_close
  case keyEmpty => ren_step; apply FragX.keyEmpty <;> ren_close
  case plainMethod => ren_step; apply FragX.plainMethod <;> ren_close
  case genMethod => ren_step; apply FragX.genMethod <;> ren_close
  case asyncMethod => ren_step; apply FragX.asyncMethod <;> ren_close
  case asyncNamed => ren_step; apply FragX.asyncNamed <;> ren_close
  case getter => ren_step; apply FragX.getter <;> ren_close
  case setter => ren_step; apply FragX.setter <;> ren_close
  case templateLast => ren_step; apply FragX.templateLast <;> ren_close
  case templateCons => ren_step; apply FragX.templateCons <;> ren_close
  case tailNil => ren_step; apply FragX.tailNil <;> ren_close
  case tailDot => ren_step; apply FragX.tailDot <;> ren_close
  case tailIndex => ren_step; apply FragX.tailIndex <;> ren_close
  case tailTemplate => ren_step; apply FragX.tailTemplate <;> ren_close
  case tailSubst => ren_step; apply FragX.tailSubst <;> ren_close
  case tailCall => ren_step; apply FragX.tailCall <;> ren_close
  case lhs => ren_step; apply FragX.lhs <;> ren_close
  case new => ren_step; apply FragX.new <;> ren_close
  case newCall => ren_step; apply FragX.newCall <;> ren_close
  case super hne _ h => exact FragX.super (by rwa [renumber_length, renumber_length]) h
  case argsNil => ren_step; apply FragX.argsNil <;> ren_close
  case argsLast => ren_step; apply FragX.argsLast <;> ren_close
  case argsCons => ren_step; apply FragX.argsCons <;> ren_close
  case argsSpreadLast => ren_step; apply FragX.argsSpreadLast <;> ren_close
  case argsSpread => ren_step; apply FragX.argsSpread <;> ren_close
  case plain => ren_step; apply FragX.plain <;> ren_close
  case «postfix» => ren_step; apply FragX.«postfix» <;> ren_close
  case «prefix» => ren_step; apply FragX.«prefix» <;> ren_close
  case prefixUpdate => ren_step; apply FragX.prefixUpdate <;> ren_close
  case updated => ren_step; apply FragX.updated <;> ren_close
  case unaryOp => ren_step; apply FragX.unaryOp <;> ren_close
  case unaryWord => ren_step; apply FragX.unaryWord <;> ren_close
  case await => ren_step; apply FragX.await <;> ren_close
  case operand => ren_step; apply FragX.operand <;> ren_close
  case operator => ren_step; apply FragX.operator <;> ren_close
  case «instanceof» => ren_step; apply FragX.«instanceof» <;> ren_close
  case isIn => ren_step; apply FragX.isIn <;> ren_close
  case unconditional => ren_step; apply FragX.unconditional <;> ren_close
  case conditional => ren_step; apply FragX.conditional <;> ren_close
  case value => ren_step; apply FragX.value <;> ren_close
  case assignment => ren_step; apply FragX.assignment <;> ren_close
  case conditionalOpen => ren_step; apply FragX.conditionalOpen <;> ren_close
  case valueOpen h => exact FragX.valueOpen (fun h => loneAsync_ren ((by assumption : _ → LoneAsync _ _) h)) h (notMem_ren (by simp [assigners, assignmentOperators]) (by assumption))
  case closeOpen => ren_step; apply FragX.closeOpen <;> ren_close
  case assignee => ren_step; apply FragX.assignee <;> ren_close
  case assigneeOpen => ren_step; apply FragX.assigneeOpen <;> ren_close
  case assignAny => ren_step; apply FragX.assignAny <;> ren_close
  case assignAnyOpen => ren_step; apply FragX.assignAnyOpen <;> ren_close
  case arrowAny h₁ h₂ => exact FragX.arrowAny (fun h => loneAsync_ren ((by assumption : _ → LoneAsync _ _) h)) h₁ (ne_ren (by simp) (by assumption)) h₂
  case arrowAnyOpen h₁ h₂ => exact FragX.arrowAnyOpen (fun h => loneAsync_ren ((by assumption : _ → LoneAsync _ _) h)) h₁ (ne_ren (by simp) (by assumption)) h₂
  case arrowBlock => ren_step; apply FragX.arrowBlock <;> ren_close
  case exprOpen h => exact FragX.exprOpen h (ne_ren (by simp) (by assumption))
  case exprOpenMore => ren_step; apply FragX.exprOpenMore <;> ren_close
  case openInit => ren_step; apply FragX.openInit <;> ren_close
  case openPattern => ren_step; apply FragX.openPattern <;> ren_close
  case assignTo => ren_step; apply FragX.assignTo <;> ren_close
  case arrowName => ren_step; apply FragX.arrowName <;> ren_close
  case arrow => ren_step; apply FragX.arrow <;> ren_close
  case asyncArrow => ren_step; apply FragX.asyncArrow <;> ren_close
  case asyncOpen h => exact FragX.asyncOpen (by assumption) (by assumption) (ne_ren (by simp) (by assumption)) h
  case asyncBlock => ren_step; apply FragX.asyncBlock <;> ren_close
  case asyncArrows => ren_step; apply FragX.asyncArrows <;> ren_close
  case yield => ren_step; apply FragX.yield <;> ren_close
  case yieldStar => ren_step; apply FragX.yieldStar <;> ren_close
  case yieldBare hx => exact FragX.yieldBare (by assumption) (hx.imp id closing_ren)
  case moreNil => ren_step; apply FragX.moreNil <;> ren_close
  case moreCons => ren_step; apply FragX.moreCons <;> ren_close
  case expr => ren_step; apply FragX.expr <;> ren_close
  case yieldMore => ren_step; apply FragX.yieldMore <;> ren_close
  case yieldStarMore => ren_step; apply FragX.yieldStarMore <;> ren_close
  case yieldAny => ren_step; apply FragX.yieldAny <;> ren_close
  case yieldAnyStar => ren_step; apply FragX.yieldAnyStar <;> ren_close
  case yieldOpen => ren_step; apply FragX.yieldOpen <;> ren_close
  case yieldOpenStar => ren_step; apply FragX.yieldOpenStar <;> ren_close
  case yieldEmpty hx => exact FragX.yieldEmpty (by assumption) (hx.imp id fun h => ⟨idle_ren h.1, ne_ren (by simp) h.2⟩)
  case yieldEmptyStar hx =>
    exact FragX.yieldEmptyStar (by assumption) (idle_ren hx)
  case arrowNil => ren_step; apply FragX.arrowNil <;> ren_close
  case arrowRest => ren_step; apply FragX.arrowRest <;> ren_close
  case arrowLast => ren_step; apply FragX.arrowLast <;> ren_close
  case arrowCons h1 h2 =>
    simp only [renumber_pt] at h1
    exact FragX.arrowCons h1 h2 (ne_ren (by simp) (by assumption))
  case arrowParam => ren_step; apply FragX.arrowParam <;> ren_close
  case arrowPattern => ren_step; apply FragX.arrowPattern <;> ren_close
  case arrowPatternDefault => ren_step; apply FragX.arrowPatternDefault <;> ren_close
  case arrowDefault => ren_step; apply FragX.arrowDefault <;> ren_close
  case bodyBlock => ren_step; apply FragX.bodyBlock <;> ren_close
  case bodyExpr h => exact FragX.bodyExpr (ne_ren (by simp) (by assumption)) h
  case function => ren_step; apply FragX.function <;> ren_close
  case paramsNil => ren_step; apply FragX.paramsNil <;> ren_close
  case paramsRest => ren_step; apply FragX.paramsRest <;> ren_close
  case paramsLast => ren_step; apply FragX.paramsLast <;> ren_close
  case paramsDefaultLast => ren_step; apply FragX.paramsDefaultLast <;> ren_close
  case paramsCons => ren_step; apply FragX.paramsCons <;> ren_close
  case paramsDefault => ren_step; apply FragX.paramsDefault <;> ren_close
  case classBody => ren_step; apply FragX.classBody <;> ren_close
  case «extends» => ren_step; apply FragX.«extends» <;> ren_close
  case elementsNil => ren_step; apply FragX.elementsNil <;> ren_close
  case elementsSemi => ren_step; apply FragX.elementsSemi <;> ren_close
  case elementsCons => ren_step; apply FragX.elementsCons <;> ren_close
  case elementsStatic => ren_step; apply FragX.elementsStatic <;> ren_close
  case objectPattern => ren_step; apply FragX.objectPattern <;> ren_close
  case arrayPattern => ren_step; apply FragX.arrayPattern <;> ren_close
  case targetName => ren_step; apply FragX.targetName <;> ren_close
  case targetPattern => ren_step; apply FragX.targetPattern <;> ren_close
  case bindingsNil => ren_step; apply FragX.bindingsNil <;> ren_close
  case bindingsLast => ren_step; apply FragX.bindingsLast <;> ren_close
  case bindingsCons => ren_step; apply FragX.bindingsCons <;> ren_close
  case bindName => ren_step; apply FragX.bindName <;> ren_close
  case bindDefault => ren_step; apply FragX.bindDefault <;> ren_close
  case bindAny => ren_step; apply FragX.bindAny <;> ren_close
  case bindAnyDefault => ren_step; apply FragX.bindAnyDefault <;> ren_close
  case bindKey => ren_step; apply FragX.bindKey <;> ren_close
  case elisionsNil => ren_step; apply FragX.elisionsNil <;> ren_close
  case elisionsRest => ren_step; apply FragX.elisionsRest <;> ren_close
  case elisionsHole => ren_step; apply FragX.elisionsHole <;> ren_close
  case elisionsLast => ren_step; apply FragX.elisionsLast <;> ren_close
  case elisionsCons => ren_step; apply FragX.elisionsCons <;> ren_close
  case element => ren_step; apply FragX.element <;> ren_close
  case elementDefault => ren_step; apply FragX.elementDefault <;> ren_close
  case init => ren_step; apply FragX.init <;> ren_close
  case block => ren_step; apply FragX.block <;> ren_close
  case itemsNil => ren_step; apply FragX.itemsNil <;> ren_close
  case itemsCons => ren_step; apply FragX.itemsCons <;> ren_close
  case itemStmt hd h =>
    refine FragX.itemStmt h fun x u' hu => ?_
    rename_i u _ _
    cases u with
    | nil => cases hu
    | cons y u =>
      simp only [renumber, List.cons.injEq] at hu
      rw [← hu.1]
      exact notMem_ren (by simp [declarationWords]) (hd _ _ rfl)
  case funcDecl => ren_step; apply FragX.funcDecl <;> ren_close
  case genDecl => ren_step; apply FragX.genDecl <;> ren_close
  case classDecl => ren_step; apply FragX.classDecl <;> ren_close
  case letIn => ren_step; apply FragX.letIn <;> ren_close
  case constIn => ren_step; apply FragX.constIn <;> ren_close
  case exportLetIn => ren_step; apply FragX.exportLetIn <;> ren_close
  case exportConstIn => ren_step; apply FragX.exportConstIn <;> ren_close
  case letDecl => ren_step; apply FragX.letDecl <;> ren_close
  case constDecl => ren_step; apply FragX.constDecl <;> ren_close
  case declrName => ren_step; apply FragX.declrName <;> ren_close
  case declrInit => ren_step; apply FragX.declrInit <;> ren_close
  case declrPattern => ren_step; apply FragX.declrPattern <;> ren_close
  case declrsLast => ren_step; apply FragX.declrsLast <;> ren_close
  case declrsCons => ren_step; apply FragX.declrsCons <;> ren_close
  case openLast => ren_step; apply FragX.openLast <;> ren_close
  case openCons => ren_step; apply FragX.openCons <;> ren_close
  case funcAnon => ren_step; apply FragX.funcAnon <;> ren_close
  case genAnon => ren_step; apply FragX.genAnon <;> ren_close
  case classAnon => ren_step; apply FragX.classAnon <;> ren_close
  case exportVarOpen hl hs ih => exact FragX.exportVarOpen ih hl (notMem_ren (by simp) hs)
  case exportLetOpen hl hs ih => exact FragX.exportLetOpen ih hl (notMem_ren (by simp) hs)
  case letOpen hl hs ih => exact FragX.letOpen ih hl (notMem_ren (by simp) hs)
  case constOpen hl hs ih => exact FragX.constOpen ih hl (notMem_ren (by simp) hs)
  case exportConstOpen hl hs ih => exact FragX.exportConstOpen ih hl (notMem_ren (by simp) hs)
  case exprStmtOpen h0 h1 _ hl hs hc h =>
    exact FragX.exprStmtOpen (ne_ren (by simp) h0) (notRegex_ren (u := _ :: _) h1) h hl (ne_ren (by simp) hs) (ne_ren (by simp) hc)
  case exportExprOpen h0 h1 _ hl hs h =>
    exact FragX.exportExprOpen (notMem_ren (by simp) h0) (notRegex_ren (u := _ :: _) h1) h hl (ne_ren (by simp) hs)
  case returnOpen h0 h1 _ hl hs h => exact FragX.returnOpen (noLine_ren h0) (notRegex_ren h1) h hl (ne_ren (by simp) hs)
  case throwOpen => ren_step; apply FragX.throwOpen <;> ren_close
  case varOpen hl hs ih => exact FragX.varOpen ih hl (notMem_ren (by simp) hs)
  case blockStmt => ren_step; apply FragX.blockStmt <;> ren_close
  case empty => ren_step; apply FragX.empty <;> ren_close
  case var => ren_step; apply FragX.var <;> ren_close
  case exprStmt h0 h1 h2 _ h4 h =>
    exact FragX.exprStmt (ne_ren (by simp) h0) (fun hl => notMem_ren (by simp) (h1 hl)) (notRegex_ren (u := _ :: _) h2) h
      (semi_ren h4)
  case ifThen => ren_step; apply FragX.ifThen <;> ren_close
  case ifElse => ren_step; apply FragX.ifElse <;> ren_close
  case «while» => ren_step; apply FragX.«while» <;> ren_close
  case doWhile => ren_step; apply FragX.doWhile <;> ren_close
  case forPlain => ren_step; apply FragX.forPlain <;> ren_close
  case forExpr => ren_step; apply FragX.forExpr <;> ren_close
  case forDecl => ren_step; apply FragX.forDecl <;> ren_close
  case forInExpr => ren_step; apply FragX.forInExpr <;> ren_close
  case forInAny => ren_step; apply FragX.forInAny <;> ren_close
  case forInNone => ren_step; apply FragX.forInNone <;> ren_close
  case forInDecl => ren_step; apply FragX.forInDecl <;> ren_close
  case forRest => ren_step; apply FragX.forRest <;> ren_close
  case forRestL => ren_step; apply FragX.forRestL <;> ren_close
  case forRestR => ren_step; apply FragX.forRestR <;> ren_close
  case forRestLR => ren_step; apply FragX.forRestLR <;> ren_close
  case inOf => ren_step; apply FragX.inOf <;> ren_close
  case switch => ren_step; apply FragX.switch <;> ren_close
  case clausesNil => ren_step; apply FragX.clausesNil <;> ren_close
  case clausesCase => ren_step; apply FragX.clausesCase <;> ren_close
  case clausesDefault => ren_step; apply FragX.clausesDefault <;> ren_close
  case clausesLater => ren_step; apply FragX.clausesLater <;> ren_close
  case jump => ren_step; apply FragX.jump <;> ren_close
  case jumpLine hk hl hs => exact FragX.jumpLine hk hl (ne_ren (by simp) hs)
  case jumpToLine hk hn hl hs => exact FragX.jumpToLine hk hn hl (ne_ren (by simp) hs)
  case jumpTo => ren_step; apply FragX.jumpTo <;> ren_close
  case «return» => ren_step; apply FragX.«return» <;> ren_close
  case returnLine hl hs => exact FragX.returnLine hl (ne_ren (by simp) hs)
  case returnExpr => ren_step; apply FragX.returnExpr <;> ren_close
  case «with» => ren_step; apply FragX.«with» <;> ren_close
  case label => ren_step; apply FragX.label <;> ren_close
  case labelAny => ren_step; apply FragX.labelAny <;> ren_close
  case throw hx h =>
    refine FragX.throw (noLine_ren (by assumption)) (notRegex_ren (by assumption)) h ?_
    exact hx.imp (fun h => by simp only [h]; rfl) inserts_ren
  case throwAny hx h =>
    refine FragX.throwAny (by assumption) (noLine_ren (by assumption)) (notRegex_ren (by assumption)) h ?_
    exact hx.imp (fun h => by simp only [h]; rfl) (Or.imp inserts_ren begins_ren)
  case throwLine hx hl => exact FragX.throwLine hx hl
  case tryCatch => ren_step; apply FragX.tryCatch <;> ren_close
  case tryFinally => ren_step; apply FragX.tryFinally <;> ren_close
  case tryBoth => ren_step; apply FragX.tryBoth <;> ren_close
  case tryOnly => ren_step; apply FragX.tryOnly <;> ren_close
  case debugger => ren_step; apply FragX.debugger <;> ren_close
  case debuggerLine hl hs => exact FragX.debuggerLine hl (ne_ren (by simp) hs)
  case specifiersNil => ren_step; apply FragX.specifiersNil <;> ren_close
  case specifiersLast => ren_step; apply FragX.specifiersLast <;> ren_close
  case specifiersAsLast => ren_step; apply FragX.specifiersAsLast <;> ren_close
  case specifiersCons => ren_step; apply FragX.specifiersCons <;> ren_close
  case specifiersAs => ren_step; apply FragX.specifiersAs <;> ren_close
  case importFile => ren_step; apply FragX.importFile <;> ren_close
  case importDefault => ren_step; apply FragX.importDefault <;> ren_close
  case importStar => ren_step; apply FragX.importStar <;> ren_close
  case importNames => ren_step; apply FragX.importNames <;> ren_close
  case importBoth => ren_step; apply FragX.importBoth <;> ren_close
  case importBothStar => ren_step; apply FragX.importBothStar <;> ren_close
  case exportNames => ren_step; apply FragX.exportNames <;> ren_close
  case exportNamesFrom => ren_step; apply FragX.exportNamesFrom <;> ren_close
  case exportStar => ren_step; apply FragX.exportStar <;> ren_close
  case exportVar => ren_step; apply FragX.exportVar <;> ren_close
  case exportLet => ren_step; apply FragX.exportLet <;> ren_close
  case exportConst => ren_step; apply FragX.exportConst <;> ren_close
  case exportFunc => ren_step; apply FragX.exportFunc <;> ren_close
  case exportFuncName => ren_step; apply FragX.exportFuncName <;> ren_close
  case exportGen => ren_step; apply FragX.exportGen <;> ren_close
  case exportAsyncName => ren_step; apply FragX.exportAsyncName <;> ren_close
  case exportAsync => ren_step; apply FragX.exportAsync <;> ren_close
  case exportGenName => ren_step; apply FragX.exportGenName <;> ren_close
  case exportClass => ren_step; apply FragX.exportClass <;> ren_close
  case exportClassName => ren_step; apply FragX.exportClassName <;> ren_close
  case exportExpr h =>
    exact FragX.exportExpr (notMem_ren (by simp) (by assumption)) (notRegex_ren (u := _ :: _) (by assumption)) h
      (semi_ren (by assumption))
  case moduleItem => ren_step; apply FragX.moduleItem <;> ren_close
  case moduleItemsNil => ren_step; apply FragX.moduleItemsNil <;> ren_close
  case moduleItemsCons => ren_step; apply FragX.moduleItemsCons <;> ren_close
  case program => ren_step; apply FragX.program <;> ren_close

end Jsparse
