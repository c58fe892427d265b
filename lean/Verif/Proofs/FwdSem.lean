import Verif.Proofs.FwdHeads
/-!
# What the parser does on the constructs of the fragment

`SemOf fl u v n` states, for each nonterminal `n`, what the methods do on the tokens of `u` in front of `v`.
-/

namespace Jsparse.Forward

open P Spec FNT

/-! ## Modes -/

/-- At the beginning of an expression; `f`: the hint `expression` is not set. -/
abbrev E (f : Bool) : Mode := { o0 := true, t0 := true, o1 := !f, t1 := !f }

/-- A token was looked at. -/
abbrev L (g : Bool) : Mode := { o0 := true, o1 := !g }

/-- Behind an expression. -/
abbrev T (e g : Bool) : Mode := { z0 := true, z1 := !e, o0 := true, o1 := !g }

/-- Behind a token. -/
abbrev S : Mode := { z0 := true, z1 := true, o0 := true, o1 := true }

/-- Nothing is known. -/
abbrev W : Mode := { z0 := true, z1 := true, o0 := true, o1 := true, t0 := true, t1 := true }

/-- At least one token was looked at. -/
abbrev V : Mode := { o0 := true, o1 := true, t0 := true, t1 := true }

/-- Behind a token, nothing was looked at. -/
abbrev Z : Mode := { z0 := true, z1 := true }

/-- After `expect_expression` behind a token. -/
abbrev X : Mode := { z1 := true }

/-! ## What may follow -/

/-- Which rest of an expression the token would continue. -/
def rank (allowIn : Bool) (x : Tok) : Nat :=
  match x.2 with
  | .punct .comma => 1
  | .punct q =>
    if q ∈ assignmentOperators ∨ q = .arrow then 2
    else if q = .question then 3
    else if q ∈ binaryOperators then 4
    else if q = .plusPlus ∨ q = .minusMinus then (if x.1 then 0 else 5)
    else if q = .parenOpen then 6
    else if q = .period ∨ q = .squareOpen then 7
    else 0
  | .ident n =>
    if n = b!"instanceof" then 4
    else if n = b!"in" then (if allowIn then 4 else 0)
    else 0
  | .template .noSubstitution _ _ => 7
  | .template .head _ _ => 7
  | .regex _ _ => 8
  | _ => 0

/-- A token of rank `r` does not continue an expression of level `k`.  (An expression of level at most 4 says itself
that no token follows that would continue a left-hand side.) -/
def Low (k r : Nat) : Prop := r ≤ k ∨ (k ≤ 4 ∧ 5 ≤ r ∧ r ≤ 7)

theorem Low.of {k r : Nat} (h : r ≤ k) : Low k r := .inl h

theorem Low.mono {k k' r : Nat} (h : Low k r) (hk : k ≤ k') (h' : k' ≤ 4 ∨ 5 ≤ k) : Low k' r := by
  unfold Low at *
  omega

/-- The token behind an expression. -/
def Fol (fl : Flags) (k : Nat) (e : Bool) (x : Tok) : Prop := NextOk fl false e x.2 ∧ Low k (rank fl.allowIn x)

def Follow (fl : Flags) (k : Nat) (e : Bool) (v : List Tok) : Prop := ∃ x v', v = x :: v' ∧ Fol fl k e x

theorem Fol.mono {fl k k' e x} (h : Fol fl k e x) (hk : k ≤ k') (h' : k' ≤ 4 ∨ 5 ≤ k := by omega) : Fol fl k' e x :=
  ⟨h.1, h.2.mono hk h'⟩

theorem Fol.slash {fl k x} (h : Fol fl k false x) (e : Bool) : Fol fl k e x := ⟨h.1.mono e, h.2⟩

theorem Follow.mono {fl k k' e v} (h : Follow fl k e v) (hk : k ≤ k') (h' : k' ≤ 4 ∨ 5 ≤ k := by omega) : Follow fl k' e v := by
  obtain ⟨x, v', rfl, h⟩ := h
  exact ⟨x, v', rfl, h.mono hk h'⟩

theorem rank_continues {a : Bool} {x : Tok} (h : 5 ≤ rank a x) (h' : rank a x ≤ 7) : Continues x := by
  obtain ⟨l, t⟩ := x
  cases t with
  | punct q =>
    cases q <;> first
      | trivial
      | (cases l <;> first | rfl | (revert h; simp [rank, assignmentOperators, binaryOperators]; done))
  | template f _ _ => cases f <;> first | trivial | (revert h; simp [rank]; done)
  | ident n =>
    exfalso
    simp only [rank] at h
    split at h
    · omega
    · split at h
      · split at h <;> omega
      · omega
  | regex => revert h'; simp [rank]
  | _ => revert h; simp [rank]

/-- Behind a left-hand side, no token follows that would continue it. -/
theorem Follow.ended {fl e v} (h : Follow fl 4 e v) (hv : Ended v) :
    ∃ x v', v = x :: v' ∧ NextOk fl false e x.2 ∧ rank fl.allowIn x ≤ 4 := by
  obtain ⟨x, v', rfl, hn, h | ⟨-, h5, h7⟩⟩ := h
  · exact ⟨x, v', rfl, hn, h⟩
  · exact absurd (rank_continues h5 h7) (hv x v' rfl)

theorem Follow.slash {fl k v} (h : Follow fl k false v) (e : Bool) : Follow fl k e v := by
  obtain ⟨x, v', rfl, h⟩ := h
  exact ⟨x, v', rfl, h.slash e⟩

theorem Follow.next {fl k e v} (h : Follow fl k e v) : HeadIs (NextOk fl false e) v := by
  obtain ⟨x, v', rfl, h⟩ := h
  exact ⟨x, v', rfl, h.1⟩

theorem follow_cons {fl k e x v} : Follow fl k e (x :: v) ↔ Fol fl k e x := by
  constructor
  · rintro ⟨y, v', h, hf⟩
    injection h with h1 h2
    subst h1
    exact hf
  · exact fun h => ⟨x, v, rfl, h⟩

theorem follow_punct {fl : Flags} {k : Nat} {e l : Bool} {q : Punct} {v : List Tok}
    (h : slashy (.punct q) = false ∧ q ≠ .curlyClose := by decide)
    (hk : rank fl.allowIn (pt l q) ≤ k := by decide) : Follow fl k e (pt l q :: v) := by
  refine follow_cons.2 ⟨⟨?_, rfl, fun hs => ?_, fun hc => ?_⟩, .of hk⟩
  · have := h.2
    show compat _ (.punct q) = true
    cases q <;> first | rfl | exact absurd rfl this
  · rw [h.1] at hs; cases hs
  · cases hc

/-- Flags that agree with the grammar parameters. -/
structure Agree (C : Ctx) (fl : Flags) : Prop where
  in_ : fl.allowIn = C.in_
  await : fl.allowAwait = C.await
  strict : fl.isStrict = false
  default : C.default = true → fl.allowDefault = true

theorem Agree.keen {C : Ctx} {fl : Flags} (h : Agree C fl) : Keen C fl := ⟨h.strict, h.await⟩

theorem Keen.setIn {C : Ctx} {fl : Flags} {b : Bool} (h : Keen C fl) : Keen C (Fwd.setFlag .fin b fl) := h

/-- The token behind a statement. -/
def Calm (t : Token) : Prop := slashy t = false ∧ isRegexTok t = false ∧ compat false t = true

theorem Quiet.calm {t : Token} (h : Quiet t) : Calm t := ⟨h.1, h.2.1, h.2.2 _⟩

theorem Calm.ready {t : Token} {m : Mode} {fl : Flags} (h : Calm t) (hf : fl.expectTemplate = false) : Ready m fl t := by
  refine ⟨?_, by rw [hf]; exact h.2.2⟩
  simp [Mode.ready, h.1, h.2.1]

/-! ## Named parts of the methods -/

/-- `parseMethodHead` behind the test for `static`. -/
def headRest (r : Rec) (stat : Option Bytes) : P (Option MethodHead) := do
  let kind ← (do
    match ← keyword b!"get" with
    | some _ => return .get
    | none =>
      match ← keyword b!"set" with
      | some _ => return .set
      | none => return .none : P MethodKind)
  let async ← (match kind with
    | .none => do
      match ← keyword b!"async" with
      | some _ => return true
      | none => return false
    | _ => return false : P Bool)
  let star ← if async then pure none else punc .star
  let noLine ← if async then noLineTerminator else pure false
  if async && noLine then
    let _ ← r.call .propertyName
    return some { kind, generator := star.isSome, async }
  else if async then
    return some { kind, generator := star.isSome, async }
  else
    match ← r.call .propertyName with
    | some _ => return some { kind, generator := star.isSome, async }
    | none =>
      match ← methodHeadNoName stat.isSome kind star.isSome with
      | some kind' => return some { kind := kind', generator := star.isSome, async }
      | none => return none

theorem parseMethodHead_eq (r : Rec) :
    parseMethodHead r true = (keyword b!"static" >>= headRest r) := rfl

/-- The inside of `parseCoverParenthesizedExpression`. -/
def coverInner (r : Rec) : P Unit := do
  match ← r.call .assignmentExpression with
  | some _ => loop r.fuel (fun _ => coverRound r) ()
  | none =>
    match ← punc .ellipsis with
    | some _ => patternOrIdentifier r
    | none => return ()

theorem parseCover_eq (r : Rec) : parseCoverParenthesizedExpression r = (do
    let some _ ← punc .parenOpen | return none
    expectExpression
    coverInner r
    let _ ← eat (punc .parenClose)
    found) := rfl

/-! ## The meaning of the constructs -/

/-- A binding; `pat`: it is a pattern. -/
def Target (fl : Flags) (pat : Bool) (u v : List Tok) : Prop :=
  match pat with
  | true => Fwd (fun n => run n .bindingPattern) S fl u (some ()) S v
  | false => Fwd (fun n => run n .bindingPattern) S fl u none (L false) u ∧
      ∃ x, Fwd (fun _ => bindingIdentifier) (L false) fl u (some x) S v

/-- A declarator; `b`: an initializer is required. -/
def Declr (fl : Flags) (b : Bool) (u v : List Tok) : Prop :=
  ∃ pat ini u₁, (∀ c, Target (Fwd.setFlag .fin c fl) pat u u₁) ∧ Fwd (fun n => run n .initializer) S fl u₁ ini S v ∧
    (b = true ∨ pat = true → ini = some ())

inductive Decls (fl : Flags) : Bool → Bool → List Tok → List Tok → Prop
  | last {b b' u v} : Declr fl b u v → Decls fl b b' u v
  | cons {b b' l u u' v} : Declr fl b u (pt l .comma :: u') → Decls fl b' b' u' v → Decls fl b b' u v

/-- A loop reaches `w` from `u` if it does so from `v`. -/
def Reaches (fl : Flags) (u v : List Tok) : Prop :=
  ∀ m w, LoopFwd (whileBody .statementListItem) () S fl v () m w →
    LoopFwd (whileBody .statementListItem) () S fl u () m w

def lhsBound (c : Bool) : Nat := if c then 5 else 6

/-- The token behind an element of a pattern. -/
def Closes (fl : Flags) (t : Token) : Prop :=
  t = .punct .comma ∨ t = .punct .squareClose ∨ (t = .punct .curlyClose ∧ fl.expectTemplate = false)

/-- A token that can be read in all states. -/
abbrev Plain (fl : Flags) (t : Token) : Prop := ∀ m, Ready m fl t

/-- The token behind a property name. -/
def AfterKey (fl : Flags) (t : Token) : Prop := Plain fl t ∧ ∃ q, t = .punct q ∧ q ≠ .squareOpen ∧ q ≠ .star

def SemOf (fl : Flags) (u v : List Tok) : FNT → Prop
  | prim f e g => Follow fl 7 e v → Fwd (fun n => run n .primaryExpression) (E f) fl u (some ()) (T e g) v
  | tail c _ g₀ e g => Follow fl (lhsBound c) e v →
      LoopFwd (fun n _ => leftHandRound (recOf n) c) () (L g₀) fl u () (L g) v
  | lhs c f e g => Follow fl (lhsBound c) e v →
      Fwd (fun n => run n (.leftHandExpression c)) (E f) fl u (some ()) (L g) v
  | update f e g => Follow fl 4 e v → Fwd (fun n => run n .updateExpression) (E f) fl u (some ()) (T e g) v
  | unary f e g => Follow fl 4 e v → Fwd (fun n => run n .unaryExpression) (E f) fl u (some ()) (T e g) v
  | binary f g => Follow fl 3 false v →
      (∃ g₁ u₁, Fwd (fun n => run n .exponentialExpression) (E f) fl u (some ()) (L g₁) u₁ ∧
        ∀ p, LoopFwd (fun n => fancyRound (recOf n) fl.allowIn) p (L g₁) fl u₁ () (L g) v) ∧
      (∃ e₁ g₁ u₁, Fwd (fun n => run n .unaryExpression) (E f) fl u (some ()) (T e₁ g₁) u₁ ∧
        ∀ p, LoopFwd (fun n => fancyRound (recOf n) fl.allowIn) p (T e₁ g₁) fl u₁ () (L g) v)
  | FNT.cond f g => Follow fl 1 false v →
      Fwd (fun n => run n .conditionalExpression) (E f) fl u (some ()) (T false g) v
  | assign f g => Follow fl 1 false v →
      Fwd (fun n => run n .assignmentExpression) (E f) fl u (some ()) (T false g) v
  | condOpen f => HeadIs (NextOk fl false false) v →
      Fwd (fun n => run n .conditionalExpression) (E f) fl u (some ()) (T false false) v
  | assignOpen f => HeadIs (NextOk fl false false) v →
      Fwd (fun n => run n .assignmentExpression) (E f) fl u (some ()) (T false false) v
  | exprOpen f => HeadIs (NextOk fl false false) v →
      Fwd (fun n => run n .expression) (E f) fl u (some ()) (L false) v ∧
      (f = true → ∀ l, LoopFwd (fun n _ => expressionRound (recOf n)) () (T false false) fl (pt l .comma :: u) () (L false) v)
  | assignee f => Fwd (fun n => run n .conditionalExpression) (E f) fl u (some ()) (T false false) v
  | more g₀ g => Follow fl 0 false v →
      LoopFwd (fun n _ => expressionRound (recOf n)) () (T false false) fl u () (L false) v ∧
      LoopFwd (fun n _ => coverRound (recOf n)) () (T false g₀) fl u () (L g) v
  | expr f => Follow fl 0 false v → Fwd (fun n => run n .expression) (E f) fl u (some ()) (L false) v
  | coverRest => HeadIs (· = .punct .parenClose) v →
      HeadIs (fun t => t = .punct .comma ∨ t = .punct .parenClose) u ∧
      LoopFwd (fun n _ => coverRound (recOf n)) () S fl u () S v
  | args s g => HeadIs (· = .punct .parenClose) v →
      match s with
      | true => LoopFwd (fun n _ => callArgumentsRound (recOf n)) () Z fl u () (L g) v
      | false => Fwd (fun n => callArgumentItem (recOf n)) Z fl u (.inr ()) (L g) v ∨
          ∃ u₁, Fwd (fun n => callArgumentItem (recOf n)) Z fl u (.inl ()) Z u₁ ∧
            LoopFwd (fun n _ => callArgumentsRound (recOf n)) () Z fl u₁ () (L g) v
  | elems => HeadIs (· = .punct .squareClose) v →
      LoopFwd (fun n _ => itemCommaRound (run n .arrayItem)) () Z fl u () (L false) v
  | props => fl.expectTemplate = false → HeadIs (· = .punct .curlyClose) v →
      LoopFwd (fun n _ => itemCommaRound (run n .objectProperty)) () Z fl u () (L false) v
  | prop => fl.expectTemplate = false → HeadIs (fun t => t = .punct .curlyClose ∨ t = .punct .comma) v →
      Fwd (fun n => run n .objectProperty) Z fl u (some ()) S v
  | propHead s => HeadIs (AfterKey fl) v → ∃ head, (s = false → ∀ stat, Fwd (fun n => headRest (recOf n) stat) S fl u (some head) S v) ∧
      Fwd (fun n => parseMethodHead (recOf n) true) S fl u (some head) S v
  | FNT.template => fl.expectTemplate = true →
      LoopFwd (fun n _ => templateRound (recOf n)) () Z fl u () Z v
  | arrowParams => HeadIs (· = .punct .parenClose) v →
      Fwd (fun n => coverInner (recOf n)) X fl u () S v ∧
      (HeadIs (· ≠ .punct .parenClose) u → ∀ l,
        LoopFwd (fun n _ => coverRound (recOf n)) () S fl (pt l .comma :: u) () S v)
  | arrowParam => HeadIs (fun t => t = .punct .comma ∨ t = .punct .parenClose) v →
      Fwd (fun n => run n .assignmentExpression) (E true) fl u (some ()) (T false false) v
  | arrowBody g => Follow fl 1 false v → Fwd (fun n => run n .reifyArrow) Z fl u (some ()) (T false g) v
  | key => Fwd (fun n => run n .propertyName) S fl u (some ()) Z v
  | method => ∃ head l w, (∀ stat, Fwd (fun n => headRest (recOf n) stat) S fl u (some head) S (pt l .parenOpen :: w)) ∧
      Fwd (fun n => parseMethodHead (recOf n) true) S fl u (some head) S (pt l .parenOpen :: w) ∧
      Fwd (fun n => run n (.methodTail head)) S fl (pt l .parenOpen :: w) (some ()) Z v
  | function => ∃ u₁, Fwd (fun n => run n .functionParams) S fl u (some ()) Z u₁ ∧
      Fwd (fun n => run n .functionBody) Z fl u₁ (some ()) Z v
  | params => HeadIs (· = .punct .parenClose) v →
      LoopFwd (fun n _ => functionParamsRound (recOf n)) () Z fl u () S v
  | classTail => ∃ a u₁, Fwd (fun n => run n .classHeritage) S fl u a (L false) u₁ ∧
      Fwd (fun n => run n .classBody) (L false) fl u₁ (some ()) Z v
  | elements => fl.expectTemplate = false → HeadIs (· = .punct .curlyClose) v →
      LoopFwd (whileBody .classItem) () Z fl u () (L false) v
  | pattern => Target fl true u v
  | target => ∃ pat, Target fl pat u v
  | bindings => fl.expectTemplate = false → HeadIs (· = .punct .curlyClose) v →
      LoopFwd (fun n _ => objectBindingRound (recOf n)) () Z fl u () (L false) v
  | binding => fl.expectTemplate = false → HeadIs (fun t => t = .punct .curlyClose ∨ t = .punct .comma) v →
      Fwd (fun n => run n .bindingProperty) Z fl u (some ()) S v
  | elisions => HeadIs (· = .punct .squareClose) v →
      LoopFwd (fun n _ => arrayBindingRound (recOf n)) () Z fl u () S v
  | element => HeadIs (Closes fl) v → Fwd (fun n => run n .bindingElement) S fl u (some ()) S v
  | init => Follow fl 1 false v → Fwd (fun n => run n .initializer) S fl u (some ()) S v
  | block => Fwd (fun n => run n .blockStatement) W fl u (some ()) Z v
  | items => fl.expectTemplate = false → HeadIs Calm v → HeadIs Calm u ∧ Reaches fl u v
  | item => fl.expectTemplate = false → HeadIs Calm v →
      Fwd (fun n => run n .declaration) W fl u (some ()) S v ∨
      Fwd (fun n => run n .declaration) W fl u none W u ∧ Fwd (fun n => run n .statement) W fl u (some ()) S v
  | stmt => fl.expectTemplate = false → HeadIs Calm v → Fwd (fun n => run n .statement) W fl u (some ()) S v
  | declr b => Follow fl 1 false v → Declr fl b u v
  | declrs b b' => Follow fl 0 false v → Decls fl b b' u v
  | openDeclrs b => fl.expectTemplate = false → HeadIs (fun t => Calm t ∧ t ∉ [Token.punct .comma, .punct .eq, .punct .semicolon]) v →
      Decls fl b b u v
  | clauses first => fl.expectTemplate = false → HeadIs (· = .punct .curlyClose) v → HeadIs Calm u ∧
      match first with
      | true => LoopFwd (fun n => switchRound (recOf n)) false S fl u () V v
      | false => ∃ u₁, LoopFwd (whileBody .statementListItem) () S fl u () V u₁ ∧
          ∀ d, LoopFwd (fun n => switchRound (recOf n)) d V fl u₁ () V v
  | forRest => HeadIs (· = .punct .parenClose) v → Fwd (fun n => forClassic (recOf n) true) S fl u true S v
  | inOf => HeadIs (· = .punct .parenClose) v → Fwd (fun n => forInOf (recOf n) true) S fl u () S v
  | moduleItem => fl.expectTemplate = false → HeadIs Calm v →
      Fwd (fun n => run n .moduleItem) W fl u (some ()) S v
  | moduleItems => fl.expectTemplate = false → HeadIs (· = .eof) v → HeadIs Calm u ∧
      LoopFwd (whileBody .moduleItem) () W fl u () V v
  | FNT.specifiers => fl.expectTemplate = false → HeadIs (· = .punct .curlyClose) v →
      LoopFwd (fun n _ => specifierRound (run n .importSpecifier)) () S fl u () (L false) v ∧
      LoopFwd (fun n _ => specifierRound (run n .exportSpecifier)) () S fl u () (L false) v
  | program => fl.expectTemplate = false → Fwd (fun n => parseModule (recOf n)) W fl u () S v

/-- The meaning of a construct in all states that agree with the grammar parameters. -/
def Sem (C : Ctx) (n : FNT) (u v : List Tok) : Prop := ∀ fl, Agree C fl → SemOf fl u v n

/-! ## Methods that look at the next token first -/

section
open FillFirst

theorem ff_keyword (k : Bytes) : FillFirst (keyword k) := by rw [keyword_eq]; exact .takeIf _
theorem ff_punc (q : Punct) : FillFirst (punc q) := by rw [punc_eq]; exact .takeIf _

theorem ff_primary : ∀ n, FillFirst (run n .primaryExpression)
  | 0 => run_zero _
  | _ + 1 => FillFirst.flags fun _ => FillFirst.bind .token

theorem ff_leftHand (b : Bool) : ∀ n, FillFirst (run n (.leftHandExpression b))
  | 0 => run_zero _
  | _ + 1 => .bind (.bind (ff_keyword _))

theorem ff_update : ∀ n, FillFirst (run n .updateExpression)
  | 0 => run_zero _
  | _ + 1 => .bind (.bind (ff_punc _))

theorem ff_unary : ∀ n, FillFirst (run n .unaryExpression)
  | 0 => run_zero _
  | _ + 1 => .bind .token

theorem ff_exponential : ∀ n, FillFirst (run n .exponentialExpression)
  | 0 => run_zero _
  | n + 1 => .bind (ff_unary n)

theorem ff_fancy (p : Nat) : ∀ n, FillFirst (run n (.fancy p))
  | 0 => run_zero _
  | n + 1 => .bind (ff_exponential n)

theorem ff_yield : ∀ n, FillFirst (run n .yieldExpression)
  | 0 => run_zero _
  | _ + 1 => .bind (ff_keyword _)

theorem ff_assignment : ∀ n, FillFirst (run n .assignmentExpression)
  | 0 => run_zero _
  | n + 1 => .bind (ff_yield n)

theorem ff_expression : ∀ n, FillFirst (run n .expression)
  | 0 => run_zero _
  | n + 1 => .bind (ff_assignment n)

theorem ff_leftHandRound (r : Rec) (b : Bool) : FillFirst (leftHandRound r b) := .bind .token
theorem ff_fancyRound (r : Rec) (b : Bool) (p : Nat) : FillFirst (fancyRound r b p) := .bind .token
theorem ff_expressionRound (r : Rec) : FillFirst (expressionRound r) := .bind (ff_punc _)
theorem ff_coverRound (r : Rec) : FillFirst (coverRound r) := .bind (ff_punc _)

end

/-! ## Readiness -/

theorem NextOk.ready {fl : Flags} {col e : Bool} {t : Token} {m : Mode} (h : NextOk fl col e t)
    (hm : e = true → m.z1 = false) : Ready m fl t := by
  refine ⟨?_, h.1⟩
  unfold Mode.ready
  rw [h.2.1]
  cases hs : slashy t with
  | false => simp
  | true => simp [hm (h.2.2.1 hs)]

theorem Fol.ready {fl k e x} {m : Mode} (h : Fol fl k e x) (hm : e = true → m.z1 = false) : Ready m fl x.2 :=
  h.1.ready hm

theorem Starts.ready {b : Bool} {t : Token} {m : Mode} {fl : Flags} (h : Starts b t)
    (hr : isRegexTok t = true → m.z0 = false) : Ready m fl t := by
  refine ⟨?_, h.compat _⟩
  unfold Mode.ready
  rw [h.slashy]
  cases hs : isRegexTok t with
  | false => simp
  | true => simp [hr hs]

end Jsparse.Forward
