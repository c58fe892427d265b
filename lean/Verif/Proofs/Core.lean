import Verif.Proofs.FwdAll
import Verif.Spec.Core

/-!
# From the grammar to the fragment

On core tokens, every derivation of the grammar is a derivation of the fragment (with `lax = true`).  The
derivation is interpreted homomorphically (`I`); a nonterminal means what `Leaf` says.
-/

namespace Jsparse.Core

open Spec

/-- The fragment with the constructs that are not JavaScript. -/
abbrev F : Ctx → FNT → List Tok → List Tok → Prop := FragX true

abbrev CoreList (u : List Tok) : Prop := CoreText u

theorem _root_.Jsparse.Spec.CoreText.head {x : Tok} {u : List Tok} (h : CoreText (x :: u)) : Spec.Core x := by
  cases u with
  | nil => exact h
  | cons => exact h.1

theorem _root_.Jsparse.Spec.CoreText.tail {x : Tok} {u : List Tok} (h : CoreText (x :: u)) : CoreText u := by
  cases u with
  | nil => exact trivial
  | cons => exact h.2.2

theorem _root_.Jsparse.Spec.CoreText.mem {u : List Tok} (h : CoreText u) : ∀ x ∈ u, Spec.Core x := by
  induction u with
  | nil => simp
  | cons x u ih =>
    intro y hy
    rcases List.mem_cons.1 hy with rfl | hy
    · exact h.head
    · exact ih h.tail y hy

structure CtxOk (C : Ctx) : Prop where
  strict : C.strict = false

@[simp] theorem ctxOk_in {C : Ctx} {b : Bool} : CtxOk { C with in_ := b } ↔ CtxOk C :=
  ⟨fun h => ⟨h.1⟩, fun h => ⟨h.1⟩⟩

@[simp] theorem ctxOk_fn {C : Ctx} {a b : Bool} (h : CtxOk C) : CtxOk { C with await := a, yield := b } := ⟨h.1⟩

theorem CtxOk.exported {C : Ctx} (h : CtxOk C) : CtxOk { C with default := true } := ⟨h.1⟩

theorem _root_.Jsparse.Spec.CoreText.notRegex {u : List Tok} (h : CoreList u) : NotRegex u := by
  rintro l x f v' rfl
  exact h.head

theorem core_punct {l : Bool} {q : Punct} (h : Spec.Core (l, .punct q)) : q ∉ leftOutPunctuators := h

theorem named_of {C : Ctx} {n : Bytes} (h : BindingName C n) : Named true C n := by
  by_cases ha : n = b!"await"
  · exact .inr ⟨rfl, ha, h.2.2.1 ha⟩
  · refine .inl ⟨h.1, fun hm => ?_⟩
    simp only [List.mem_cons, List.not_mem_nil, or_false] at hm
    rcases hm with rfl | rfl
    · exact ha rfl
    · exact h.2.1 rfl

/-- Behind `yield`: no operand begins. -/
theorem idle_of {C : Ctx} (hC : CtxOk C) {x : Tok} (hx : ¬ Starts C x.2) (hc : Spec.Core x) (hd : ¬ Dead x.2) :
    Idle x.2 := by
  obtain ⟨l, t⟩ := x
  cases t with
  | ident n =>
    exfalso
    replace hx : ¬ (n ∈ startWords ∨ BindingName C n) := hx
    replace hd : ¬ (n ∈ reservedWords ∧ n ∉ startWords) := hd
    rw [not_or] at hx
    have hr : n ∉ reservedWords := fun h => hd ⟨h, hx.1⟩
    refine hx.2 ⟨hr, ?_, ?_, ?_⟩
    · rintro rfl
      exact hx.1 (by decide)
    · rintro rfl
      exact absurd (by decide) hx.1
    · intro h
      rw [hC.strict] at h
      cases h
  | punct q =>
    have h1 : q ∉ startPunctuators := hx
    have h2 : q ∉ leftOutPunctuators := hc
    show q ∉ [Punct.parenOpen, .squareOpen, .curlyOpen, .plus, .minus, .tilde, .exclam, .plusPlus, .minusMinus,
      .slash, .slashEq]
    clear hx hc hd
    revert h1 h2
    cases q <;> decide
  | eof => trivial
  | num v => exact (hx trivial).elim
  | str v => exact (hx trivial).elim
  | template => exact (hx trivial).elim
  | _ => exact (False.elim hc)

/-! ## What follows -/

instance (k r : Nat) : Decidable (Forward.Low k r) := inferInstanceAs (Decidable (_ ∨ _))

/-- The next token continues no rest of an expression of rank above `k`. -/
def Stops (C : Ctx) (k : Nat) (v : List Tok) : Prop := ∀ x v', v = x :: v' → Forward.Low k (Forward.rank C.in_ x)

/-- The punctuators among the tokens `Odd`. -/
def oddPuncts : List Punct :=
  [Punct.colon, .ellipsis, .eq, .period, .lAngleExclamDashDash, .minusMinusAngle]

/-- Tokens that begin no statement, end no list of statements and continue no expression. -/
def Odd : Token → Prop
  | .punct q => q ∈ oddPuncts
  | .template .middle _ _ => True
  | .template .tail _ _ => True
  | _ => False

instance : DecidablePred Odd
  | .punct q => inferInstanceAs (Decidable (q ∈ oddPuncts))
  | .template .middle _ _ => .isTrue trivial
  | .template .tail _ _ => .isTrue trivial
  | .template .head _ _ => .isFalse id
  | .template .noSubstitution _ _ => .isFalse id
  | .ident _ => .isFalse id
  | .num _ => .isFalse id
  | .str _ => .isFalse id
  | .regex _ _ => .isFalse id
  | .eof => .isFalse id
  | .comment _ _ => .isFalse id
  | .whitespace => .isFalse id
  | .lineTerminator => .isFalse id

/-- The next token can begin a statement, or end a list of statements. -/
def Fresh (v : List Tok) : Prop := ∀ x v', v = x :: v' → ¬ Odd x.2

theorem Stops.mono {C : Ctx} {k k' : Nat} {v : List Tok} (h : Stops C k v) (hk : k ≤ k')
    (h' : k' ≤ 4 ∨ 5 ≤ k := by omega) : Stops C k' v :=
  fun x v' hv => (h x v' hv).mono hk h'

theorem stops_cons {C : Ctx} {k : Nat} {x : Tok} {v : List Tok} : Stops C k (x :: v) ↔ Forward.Low k (Forward.rank C.in_ x) :=
  ⟨fun h => h x v rfl, fun h y v' hv => by cases hv; exact h⟩

theorem fresh_cons {x : Tok} {v : List Tok} : Fresh (x :: v) ↔ ¬ Odd x.2 :=
  ⟨fun h => h x v rfl, fun h y v' hv => by cases hv; exact h⟩

theorem fresh_kw {l : Bool} {n : Bytes} {v : List Tok} : Fresh (kw l n :: v) := fresh_cons.2 id

theorem fresh_pt {l : Bool} {q : Punct} {v : List Tok} (h : q ∉ oddPuncts := by decide) :
    Fresh (pt l q :: v) := fresh_cons.2 h

/-- A core token that continues no expression. -/
theorem begins_of {x : Tok} {b : Bool} (hx : Spec.Core x) (hr : Forward.Low 0 (Forward.rank b x)) (hf : ¬ Odd x.2)
    (hi : x.2 = .ident b!"in" → b = true) : x.2 = .punct .semicolon ∨ x.2 = .punct .curlyClose ∨ x.2 = .eof ∨ Begins x.2 := by
  obtain ⟨l, t⟩ := x
  replace hf : ¬ Odd t := hf
  cases t with
  | punct q =>
    cases q <;> first
      | exact .inl rfl
      | exact .inr (.inl rfl)
      | exact .inr (.inr (.inr trivial))
      | exact absurd (show _ ∈ oddPuncts by decide) hf
      | (exfalso; revert hr; simp [Forward.Low, Forward.rank, assignmentOperators, binaryOperators]; done)
  | ident n =>
    refine .inr (.inr (.inr ?_))
    show n ∉ _
    intro hn
    simp only [List.mem_cons, List.not_mem_nil, or_false] at hn
    rcases hn with rfl | rfl
    · obtain rfl := hi rfl
      revert hr; simp [Forward.Low, Forward.rank]
    · revert hr; simp [Forward.Low, Forward.rank]
  | num => exact .inr (.inr (.inr trivial))
  | str => exact .inr (.inr (.inr trivial))
  | eof => exact .inr (.inr (.inl rfl))
  | template f => cases f <;> first | exact .inr (.inr (.inr trivial)) | exact absurd trivial hf
  | _ => exact hx.elim

theorem exprEnds_of {x : Tok} (hx : Spec.Core x) (hr : Forward.Low 0 (Forward.rank true x)) (hf : ¬ Odd x.2) :
    ExprEnds x := by
  rcases begins_of hx hr hf fun _ => rfl with h | h | h | h
  · exact .inl h
  · exact .inr (.inl (.inl h))
  · exact .inr (.inl (.inr (.inl h)))
  · exact .inr (.inr h)

theorem inserts_of {x : Tok} {b : Bool} (hx : Spec.Core x) (hr : Forward.Low 0 (Forward.rank b x)) (hf : ¬ Odd x.2)
    (hi : x.2 = .ident b!"in" → b = true)
    (h : InsertSemi x) : Inserts x := by
  obtain ⟨h1, h2⟩ := h
  rcases h2 with h2 | h2 | h2
  · rcases begins_of hx hr hf hi with h | h | h | h
    · exact absurd h h1
    · exact .inl h
    · exact .inr (.inl h)
    · exact .inr (.inr ⟨h2, h⟩)
  · exact .inl h2
  · exact .inr (.inl h2)

theorem _root_.Jsparse.Spec.RawSemi.semi {C : Ctx} {u v : List Tok} (h : RawSemi u v) (hu : CoreList u) (hs : Stops C 0 u) (hf : Fresh v)
    (hi : C.in_ = true) : Semi u v := by
  cases h with
  | token => exact .token
  | insert h => exact .insert (inserts_of hu.head (stops_cons.1 hs) (fresh_cons.1 hf) (fun _ => hi) h)

/-- Behind a word, or a name that ends a statement. -/
theorem _root_.Jsparse.Spec.RawSemi.or {u v : List Tok} (h : RawSemi u v) : Semi u v ∨
    ∃ x w, u = x :: w ∧ v = x :: w ∧ x.1 = true ∧ x.2 ≠ .punct .semicolon := by
  cases h with
  | token => exact .inl .token
  | insert h =>
    obtain ⟨h1, h2 | h2 | h2⟩ := h
    · exact .inr ⟨_, _, rfl, rfl, h2, h1⟩
    · exact .inl (.insert (.inl h2))
    · exact .inl (.insert (.inr (.inl h2)))

/-! ## The interpretation -/

inductive Rep (R : List Tok → List Tok → Prop) : List Tok → List Tok → Prop
  | nil {u} : Rep R u u
  | cons {u v w} : R u v → Rep R v w → Rep R u w

theorem Rep.fold {R S : List Tok → List Tok → Prop} {u v : List Tok} (h : Rep R u v) (h0 : S v v)
    (h1 : ∀ u w, R u w → S w v → S u v) : S u v := by
  induction h with
  | nil => exact h0
  | cons h _ ih => exact h1 _ _ h (ih h0 h1)

theorem Rep.mono {R S : List Tok → List Tok → Prop} {u v : List Tok} (h : Rep R u v) (hi : ∀ u v, R u v → S u v) :
    Rep S u v := by
  induction h with
  | nil => exact .nil
  | cons h _ ih => exact .cons (hi _ _ h) ih

/-- What a right-hand side derives, given what the nonterminals derive. -/
def I (L : NT → Ctx → List Tok → List Tok → Prop) : G → Ctx → List Tok → List Tok → Prop
  | .t k, C, u, v => ∃ l x, u = (l, x) :: v ∧ k.Is C x ∧ CoreList ((l, x) :: v)
  | .nt n, C, u, v => CoreList u ∧ (CtxOk C → L n C u v)
  | .par f b g, C, u, v => I L g (C.set b f) u v
  | .onlyIf f b, C, u, v => u = v ∧ C.get f = b
  | .noLine, _, u, v => u = v ∧ ∃ x w, u = x :: w ∧ x.1 = false
  | .line, _, u, v => u = v ∧ ∃ x w, u = x :: w ∧ x.1 = true
  | .sameLine, _, u, v => u = v
  | .notAhead ts, _, u, v => u = v ∧ ∃ x w, u = x :: w ∧ x.2 ∉ ts ∧ CoreList u
  | .notDeclared, _, u, v => u = v ∧ ¬ BeginsForDeclaration u
  | .notFunction, _, u, v => u = v ∧ ¬ BeginsFunction u
  | .noTemplate, _, u, v => u = v ∧ ∃ x w, u = x :: w ∧ ¬ BeginsTemplate x.2
  | .notStart, C, u, v => u = v ∧ ∃ x w, u = x :: w ∧ ¬ Starts C x.2 ∧ CoreList u
  | .notAsync, C, u, v => u = v ∧ ¬ BeginsAsync C u
  | .semi, _, u, v => RawSemi u v ∧ CoreList u
  | .semiDo, _, u, v => SemiDo u v
  | .eps, _, u, v => u = v
  | .seq a b, C, u, w => ∃ v, I L a C u v ∧ I L b C v w
  | .alt a b, C, u, v => I L a C u v ∨ I L b C u v
  | .opt a, C, u, v => u = v ∨ I L a C u v
  | .star a, C, u, v => Rep (I L a C) u v

/-- A derivation is interpreted if every nonterminal means what its production does. -/
theorem der_I {L : NT → Ctx → List Tok → List Tok → Prop}
    (hL : ∀ n C u v, CtxOk C → CoreList u → I L (production n) C u v → L n C u v)
    {C : Ctx} {g : G} {u v : List Tok} (h : Der C g u v) (hu : CoreList u) : CoreList v ∧ I L g C u v := by
  induction h with
  | t h => exact ⟨hu.tail, _, _, rfl, h, hu⟩
  | nt _ ih => exact ⟨(ih hu).1, hu, fun hC => hL _ _ _ _ hC hu (ih hu).2⟩
  | par _ ih => exact ih hu
  | onlyIf h => exact ⟨hu, rfl, h⟩
  | noLine h => exact ⟨hu, rfl, _, _, rfl, h⟩
  | line h => exact ⟨hu, rfl, _, _, rfl, h⟩
  | sameLine _ => exact ⟨hu, rfl⟩
  | notAhead h => exact ⟨hu, rfl, _, _, rfl, h, hu⟩
  | notDeclared h => exact ⟨hu, rfl, h⟩
  | notFunction h => exact ⟨hu, rfl, h⟩
  | noTemplate h => exact ⟨hu, rfl, _, _, rfl, h⟩
  | notStart h => exact ⟨hu, rfl, _, _, rfl, h, hu⟩
  | notAsync h => exact ⟨hu, rfl, h⟩
  | semi => exact ⟨hu.tail, .token, hu⟩
  | insert h => exact ⟨hu, .insert h, hu⟩
  | semiDo => exact ⟨hu.tail, .token⟩
  | insertDo h => exact ⟨hu, .insert h⟩
  | eps => exact ⟨hu, rfl⟩
  | seq _ _ ih1 ih2 => exact ⟨(ih2 (ih1 hu).1).1, _, (ih1 hu).2, (ih2 (ih1 hu).1).2⟩
  | altl _ ih => exact ⟨(ih hu).1, .inl (ih hu).2⟩
  | altr _ ih => exact ⟨(ih hu).1, .inr (ih hu).2⟩
  | skip => exact ⟨hu, .inl rfl⟩
  | opt _ ih => exact ⟨(ih hu).1, .inr (ih hu).2⟩
  | nil => exact ⟨hu, .nil⟩
  | star _ _ ih1 ih2 => exact ⟨(ih2 (ih1 hu).1).1, .cons (ih1 hu).2 (ih2 (ih1 hu).1).2⟩

/-! ## Expressions -/

def Prim (C : Ctx) (u v : List Tok) : Prop := ∀ f, ∃ e g, F C (.prim f e g) u v
def Lhs (C : Ctx) (c : Bool) (u v : List Tok) : Prop := ∀ f, ∃ e g, F C (.lhs c f e g) u v
def Update (C : Ctx) (u v : List Tok) : Prop := ∀ f, ∃ e g, F C (.update f e g) u v
def Unary (C : Ctx) (u v : List Tok) : Prop := ∀ f, ∃ e g, F C (.unary f e g) u v
def Binary (C : Ctx) (u v : List Tok) : Prop := ∀ f, ∃ g, F C (.binary f g) u v
def Value (C : Ctx) (u v : List Tok) : Prop := ∀ f, ∃ g, F C (.assign f g) u v
def Expr (C : Ctx) (u v : List Tok) : Prop := ∀ f, F C (.expr f) u v
def Args (C : Ctx) (u v : List Tok) : Prop := ∃ g, F C (.args true g) u v

/-- What follows a primary expression. -/
inductive Tails (C : Ctx) (c : Bool) : List Tok → List Tok → Prop
  | nil {u} : Tails C c u u
  | dot {l l' n u v} : Tails C c u v → Tails C c (pt l .period :: kw l' n :: u) v
  | index {l l' u u' v} : NotRegex u → Expr { C with in_ := true } u (pt l' .squareClose :: u') → Tails C c u' v →
      Tails C c (pt l .squareOpen :: u) v
  | call {l l' u u' v} : c = true → Args { C with in_ := true } u (pt l' .parenClose :: u') → Tails C c u' v →
      Tails C c (pt l .parenOpen :: u) v
  | plain {l x y u v} : Tails C c u v → Tails C c ((l, .template .noSubstitution x y) :: u) v
  | subst {l x y u u' v} : F C .template u u' → Tails C c u' v → Tails C c ((l, .template .head x y) :: u) v

inductive Left (C : Ctx) : Bool → List Tok → List Tok → Prop
  | prim {c u u' v} : Prim C u u' → Tails C c u' v → Left C c u v
  | new {c l u v} : NotRegex u → Left C false u v → Left C c (kw l b!"new" :: u) v
  | newCall {l l' l'' u u' u'' v} : NotRegex u → Left C false u (pt l' .parenOpen :: u') →
      Args { C with in_ := true } u' (pt l'' .parenClose :: u'') → Tails C true u'' v →
      Left C true (kw l b!"new" :: u) v
  | super {c l u v} : Tails C c u v → Left C c (kw l b!"super" :: u) v

/-- What ends with the block of an arrow function. -/
def CondOpen (C : Ctx) (u v : List Tok) : Prop := ∀ f, F C (.condOpen f) u v
def AssignOpen (C : Ctx) (u v : List Tok) : Prop := ∀ f, F C (.assignOpen f) u v
def ExprOpen (C : Ctx) (u v : List Tok) : Prop := ∀ f, F C (.exprOpen f) u v

/-- What may precede an assignment operator or an arrow. -/
def Assignee (C : Ctx) (u v : List Tok) : Prop := ∀ f, F C (.assignee f) u v

/-- An assignment expression, and what may follow it. -/
def Assigned (C : Ctx) (u v : List Tok) : Prop := Value C u v ∧ (Stops C 1 v ∨ AssignOpen C u v)

section
variable {C : Ctx} {u v w : List Tok}

theorem Tails.append {c : Bool} (h : Tails C c u v) (h' : Tails C c v w) : Tails C c u w := by
  induction h with
  | nil => exact h'
  | dot _ ih => exact .dot (ih h')
  | index h1 h2 _ ih => exact .index h1 h2 (ih h')
  | call h1 h2 _ ih => exact .call h1 h2 (ih h')
  | plain _ ih => exact .plain (ih h')
  | subst h1 _ ih => exact .subst h1 (ih h')

theorem Tails.frag {c : Bool} (h : Tails C c u v) : ∀ e₀ g₀, ∃ e g, F C (.tail c e₀ g₀ e g) u v := by
  induction h with
  | nil => exact fun e g => ⟨e, g, .tailNil⟩
  | dot _ ih => exact fun _ _ => have ⟨e, g, h⟩ := ih true true; ⟨e, g, .tailDot h⟩
  | index h1 h2 _ ih => exact fun _ _ => have ⟨e, g, h⟩ := ih false true; ⟨e, g, .tailIndex h1 (h2 _) h⟩
  | call h1 h2 _ ih =>
    subst h1
    obtain ⟨e₁, h2⟩ := h2
    exact fun _ _ => have ⟨e, g, h⟩ := ih e₁ true; ⟨e, g, .tailCall h2 h⟩
  | plain _ ih => exact fun _ g₀ => have ⟨e, g, h⟩ := ih g₀ true; ⟨e, g, .tailTemplate h⟩
  | subst h1 _ ih => exact fun _ _ => have ⟨e, g, h⟩ := ih false true; ⟨e, g, .tailSubst h1 h⟩

/-- Everything up to the first call. -/
theorem Tails.split (h : Tails C true u v) : Tails C false u v ∨
    ∃ l l' u₁ u₂, Tails C false u (pt l .parenOpen :: u₁) ∧ Args { C with in_ := true } u₁ (pt l' .parenClose :: u₂) ∧
      Tails C true u₂ v := by
  induction h with
  | nil => exact .inl .nil
  | dot _ ih =>
    rcases ih with h | ⟨l, l', u₁, u₂, h, h'⟩
    · exact .inl (.dot h)
    · exact .inr ⟨l, l', u₁, u₂, .dot h, h'⟩
  | index h1 h2 _ ih =>
    rcases ih with h | ⟨l, l', u₁, u₂, h, h'⟩
    · exact .inl (.index h1 h2 h)
    · exact .inr ⟨l, l', u₁, u₂, .index h1 h2 h, h'⟩
  | call _ h2 h3 => exact .inr ⟨_, _, _, _, .nil, h2, h3⟩
  | plain _ ih =>
    rcases ih with h | ⟨l, l', u₁, u₂, h, h'⟩
    · exact .inl (.plain h)
    · exact .inr ⟨l, l', u₁, u₂, .plain h, h'⟩
  | subst h1 _ ih =>
    rcases ih with h | ⟨l, l', u₁, u₂, h, h'⟩
    · exact .inl (.subst h1 h)
    · exact .inr ⟨l, l', u₁, u₂, .subst h1 h, h'⟩

theorem Left.frag {c : Bool} (h : Left C c u v) : Lhs C c u v := by
  induction h with
  | prim h ht =>
    intro f
    obtain ⟨e, g, h⟩ := h f
    obtain ⟨e', g', ht⟩ := ht.frag e g
    exact ⟨_, _, .lhs h ht⟩
  | new hr _ ih => exact fun f => have ⟨e, g, h⟩ := ih f; ⟨e, g, .new hr h⟩
  | newCall hr _ ha ht ih =>
    intro f
    obtain ⟨e, g, h⟩ := ih f
    obtain ⟨e₁, ha⟩ := ha
    obtain ⟨e', g', ht⟩ := ht.frag e₁ true
    exact ⟨_, _, .newCall hr h ha ht⟩
  | super ht => exact fun f => have ⟨_, _, ht⟩ := ht.frag false f; ⟨_, _, .super nofun ht⟩

/-- `new` takes the member accesses behind it. -/
theorem Left.member {c : Bool} (h : Left C c u v) : c = false → Tails C false v w → Left C false u w := by
  induction h with
  | prim h ht => rintro rfl h'; exact .prim h (ht.append h')
  | new hr _ ih => rintro rfl h'; exact .new hr (ih rfl h')
  | newCall => intro h; cases h
  | super ht => rintro rfl h'; exact .super (ht.append h')

theorem Left.ofNew {c l} (hr : NotRegex u) (h : Left C false u v) (ht : Tails C c v w) : Left C c (kw l b!"new" :: u) w := by
  cases c with
  | false => exact .new hr (h.member rfl ht)
  | true =>
    rcases ht.split with ht | ⟨l, l', u₁, u₂, h1, h2, h3⟩
    · exact .new hr (h.member rfl ht)
    · exact .newCall hr (h.member rfl h1) h2 h3

/-- Operators can be nested to the left. -/
theorem binary_append {f g f' : Bool} {n : FNT} {x : Tok} {u' : List Tok} (hn : n = .binary f g) (h : F C n u w)
    (hw : w = x :: u') (hx : (∃ q ∈ binaryOperators, q ≠ .slash ∧ x.2 = .punct q) ∨ x.2 = .ident b!"instanceof" ∨
      (x.2 = .ident b!"in" ∧ C.in_ = true)) (h' : F C (.binary true f') u' v) : ∃ g, F C (.binary f g) u v := by
  induction h generalizing f g with
  | @operand C f₁ e g₁ u w hu =>
    obtain ⟨rfl, -⟩ : f₁ = f ∧ g₁ = g := by simpa using hn
    subst hw
    obtain ⟨l, t⟩ := x
    rcases hx with ⟨q, hq, hs, rfl⟩ | rfl | ⟨rfl, hi⟩
    · exact ⟨_, .operator hq (fun h => absurd h hs) hu h'⟩
    · exact ⟨_, .instanceof hu h'⟩
    · exact ⟨_, .isIn hi hu h'⟩
  | operator hq hs hu _ _ ih =>
    obtain ⟨rfl, -⟩ := by simpa using hn
    obtain ⟨g, h⟩ := ih rfl hw hx h'
    exact ⟨g, .operator hq hs hu h⟩
  | instanceof hu _ _ ih =>
    obtain ⟨rfl, -⟩ := by simpa using hn
    obtain ⟨g, h⟩ := ih rfl hw hx h'
    exact ⟨g, .instanceof hu h⟩
  | isIn hi hu _ _ ih =>
    obtain ⟨rfl, -⟩ := by simpa using hn
    obtain ⟨g, h⟩ := ih rfl hw hx h'
    exact ⟨g, .isIn hi hu h⟩
  | _ => cases hn

theorem AssignOpen.assigned (h : AssignOpen C u v) : Assigned C u v := ⟨fun f => ⟨_, .closeOpen (h f)⟩, .inr h⟩

/-- `, AssignmentExpression` any number of times -/
def More (C : Ctx) (u v : List Tok) : Prop := ∀ g₀, ∃ g, F C (.more g₀ g) u v

theorem Expr.of (h : Value C u v) (hm : More C v w) : Expr C u w := by
  intro f
  obtain ⟨g₀, h⟩ := h f
  obtain ⟨g, hm⟩ := hm g₀
  exact .expr h hm

end

end Jsparse.Core
