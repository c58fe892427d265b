import Verif.Proofs.Take
import Verif.Proofs.Head
import Verif.Spec.Renaming
/-!
# Reasoning about two runs whose tokens are of the same kind

Like Proofs/Congr.lean, for methods that may return different values: the relation `J` comes with a
relation between the values, which is chosen by the type.  The parser ignores the values of literals and the
choice of ordinary names.
-/

namespace Jsparse

open P Spec

set_option linter.unusedVariables false

/-- The relation between the values returned by two methods. -/
class Rl (α : Type) where
  rel : α → α → Prop
  refl : ∀ a, rel a a

inductive OptRel {α : Type} (R : α → α → Prop) : Option α → Option α → Prop
  | none : OptRel R none none
  | some {a b : α} : R a b → OptRel R (some a) (some b)

theorem optRel_refl {α : Type} {R : α → α → Prop} (h : ∀ a, R a a) : ∀ x, OptRel R x x
  | none => .none
  | some a => .some (h a)

/-- The same token up to the value of a literal and the choice of a name, and the same line flag. -/
structure SeenAlike (a b : Bool × Token) : Prop where
  line : b.1 = a.1
  token : SameKind a.2 b.2

/-- The same flags up to those that no method looks at: Yield, Return and Module. -/
structure LiveAlike (a b : Flags) : Prop where
  allowIn : b.allowIn = a.allowIn
  allowAwait : b.allowAwait = a.allowAwait
  allowDefault : b.allowDefault = a.allowDefault
  isStrict : b.isStrict = a.isStrict
  expectTemplate : b.expectTemplate = a.expectTemplate

theorem LiveAlike.binding {a b : Flags} (h : LiveAlike a b) : isBindingIdentifier b = isBindingIdentifier a := by
  funext name
  unfold isBindingIdentifier
  rw [h.allowAwait, h.isStrict]
  by_cases hy : name = b!"yield"
  · subst hy
    cases a.allowYield <;> cases b.allowYield <;> simp <;> decide
  · simp only [hy, false_and, if_false]

instance : Rl Unit := ⟨Eq, fun _ => rfl⟩
instance : Rl Bool := ⟨Eq, fun _ => rfl⟩
instance : Rl Nat := ⟨Eq, fun _ => rfl⟩
instance : Rl Punct := ⟨Eq, fun _ => rfl⟩
instance : Rl Flags := ⟨LiveAlike, fun _ => ⟨rfl, rfl, rfl, rfl, rfl⟩⟩
instance : Rl TemplateFormat := ⟨Eq, fun _ => rfl⟩
instance : Rl MethodKind := ⟨Eq, fun _ => rfl⟩
instance : Rl MethodHead := ⟨Eq, fun _ => rfl⟩
instance : Rl ForHead := ⟨Eq, fun _ => rfl⟩
instance {α β : Type} : Rl (α ⊕ β) := ⟨Eq, fun _ => rfl⟩
instance : Rl Bytes := ⟨fun _ _ => True, fun _ => trivial⟩
instance : Rl (Bytes × Bytes) := ⟨fun _ _ => True, fun _ => trivial⟩
instance : Rl NumExpr := ⟨fun _ _ => True, fun _ => trivial⟩
instance : Rl Token := ⟨SameKind, .same⟩
instance : Rl (Bool × Token) := ⟨SeenAlike, fun _ => ⟨rfl, .same _⟩⟩
instance {α : Type} [h : Rl α] : Rl (Option α) := ⟨OptRel h.rel, optRel_refl h.refl⟩

/-- A relation between methods that is preserved by the operations of the parser. -/
structure SimK (N N' : Nat) (J : ∀ {α : Type} [Rl α], P α → P α → Prop) : Prop where
  pure : ∀ {α : Type} [Rl α] (a b : α), Rl.rel a b → J (Pure.pure a : P α) (Pure.pure b)
  bind : ∀ {α β : Type} [Rl α] [Rl β] {m m' : P α} {k k' : α → P β}, J m m' →
    (∀ a a', Rl.rel a a' → J (k a) (k' a')) → J (m >>= k) (m' >>= k')
  fail : ∀ {α : Type} [Rl α] (e : ParseErr), J (P.fail e : P α) (P.fail e)
  flags : J getFlags getFlags
  withFlag : ∀ {α : Type} [Rl α] (f : Flag) (b : Bool) {m m' : P α}, (f == .strict) = false → J m m' →
    J (P.withFlag f b m) (P.withFlag f b m')
  expect : J expectExpression expectExpression
  look : J tokenAndLine tokenAndLine
  ahead : J identLookahead identLookahead
  take : ∀ {β : Type} [Rl β] (f : Bool → Token → Option β), (∀ l t t', SameKind t t' →
    OptRel Rl.rel (f l t) (f l t')) → J (takeIf f) (takeIf f)
  loop : ∀ {σ β : Type} [Rl β] {b b' : σ → P (σ ⊕ β)}, (∀ st, J (b st) (b' st)) → ∀ st, J (P.loop N b st) (P.loop N' b' st)

/-! ## The tests on tokens -/

theorem optRel_of_eq {α : Type} {R : α → α → Prop} {x y : Option α} (h : ∀ a, R a a) (e : x = y) :
    OptRel R x y := e ▸ optRel_refl h x

theorem ne_word {a : Bytes} (h : a ∉ words) {w : Bytes} (hw : w ∈ words) : a ≠ w := fun e => h (e ▸ hw)

/-- A test that looks only at the kind of the token. -/
def Blind {β : Type} (g : Token → β) : Prop := ∀ t t', SameKind t t' → g t' = g t

theorem binding_ordinary {a : Bytes} (h : a ∉ words) (flags : Flags) : isBindingIdentifier flags a = true := by
  have hk : a ∉ keywords := fun hk => h (by
    have : ∀ k ∈ keywords, k ∈ words := by decide
    exact this a hk)
  have key : ∀ w, w ∈ words → a ≠ w := fun w hw => ne_word h hw
  unfold isBindingIdentifier
  simp [hk, key b!"yield" (by decide), key b!"await" (by decide), key b!"let" (by decide),
    key b!"static" (by decide), key b!"enum" (by decide), key b!"implements" (by decide),
    key b!"package" (by decide), key b!"protected" (by decide), key b!"interface" (by decide),
    key b!"private" (by decide), key b!"public" (by decide), key b!"null" (by decide),
    key b!"true" (by decide), key b!"false" (by decide)]

/-- A test on names that only compares with words. -/
theorem blind_of {β : Type} {g : Token → β} (hi : ∀ a b, a ∉ words → b ∉ words → g (.ident b) = g (.ident a))
    (hn : ∀ a b, g (.num b) = g (.num a)) (hs : ∀ a b, g (.str b) = g (.str a))
    (hr : ∀ p f p' f', g (.regex p' f') = g (.regex p f))
    (ht : ∀ k c r c' r', g (.template k c' r') = g (.template k c r)) : Blind g := by
  intro t t' h
  cases h with
  | same => rfl
  | name a b ha hb => exact hi a b ha hb
  | number a b => exact hn a b
  | string a b => exact hs a b
  | regex p f p' f' => exact hr p f p' f'
  | template k c r c' r' => exact ht k c r c' r'

theorem statementType_blind : Blind statementType := by
  refine blind_of (fun a b ha hb => ?_) (fun _ _ => rfl) (fun _ _ => rfl) (fun _ _ _ _ => rfl)
    (fun _ _ _ _ _ => rfl)
  have key : ∀ x, x ∉ words → statementType (.ident x) = .unknown := by
    intro x hx
    have key : ∀ w, w ∈ words → x ≠ w := fun w hw => ne_word hx hw
    unfold statementType
    simp [key b!"var" (by decide), key b!"if" (by decide), key b!"switch" (by decide),
      key b!"while" (by decide), key b!"do" (by decide), key b!"for" (by decide),
      key b!"continue" (by decide), key b!"break" (by decide), key b!"return" (by decide),
      key b!"with" (by decide), key b!"throw" (by decide), key b!"try" (by decide),
      key b!"debugger" (by decide)]
  rw [key a ha, key b hb]

theorem unaryType_blind : Blind unaryType := by
  refine blind_of (fun a b ha hb => ?_) (fun _ _ => rfl) (fun _ _ => rfl) (fun _ _ _ _ => rfl)
    (fun _ _ _ _ _ => rfl)
  have key : ∀ x, x ∉ words → unaryType (.ident x) = .unknown := by
    intro x hx
    have key : ∀ w, w ∈ words → x ≠ w := fun w hw => ne_word hx hw
    unfold unaryType
    simp [key b!"delete" (by decide), key b!"void" (by decide), key b!"typeof" (by decide),
      key b!"await" (by decide)]
  rw [key a ha, key b hb]

theorem declType_blind : Blind declType := by
  refine blind_of (fun a b ha hb => ?_) (fun _ _ => rfl) (fun _ _ => rfl) (fun _ _ _ _ => rfl)
    (fun _ _ _ _ _ => rfl)
  have key : ∀ x, x ∉ words → declType (.ident x) = none := by
    intro x hx
    have key : ∀ w, w ∈ words → x ≠ w := fun w hw => ne_word hx hw
    unfold declType
    simp [key b!"class" (by decide), key b!"function" (by decide), key b!"let" (by decide),
      key b!"const" (by decide)]
  rw [key a ha, key b hb]

theorem primaryType_blind (flags : Flags) : Blind (primaryType flags) := by
  refine blind_of (fun a b ha hb => ?_) (fun _ _ => rfl) (fun _ _ => rfl) (fun _ _ _ _ => rfl)
    (fun _ _ _ _ _ => rfl)
  have key : ∀ x, x ∉ words → primaryType flags (.ident x) = some .ident := by
    intro x hx
    have key : ∀ w, w ∈ words → x ≠ w := fun w hw => ne_word hx hw
    unfold primaryType
    simp [key b!"this" (by decide), key b!"true" (by decide), key b!"false" (by decide),
      key b!"null" (by decide), key b!"function" (by decide), key b!"class" (by decide),
      binding_ordinary hx]
  rw [key a ha, key b hb]

theorem newPrecedence_blind (allowIn : Bool) : Blind (newPrecedence allowIn) := by
  refine blind_of (fun a b ha hb => ?_) (fun _ _ => rfl) (fun _ _ => rfl) (fun _ _ _ _ => rfl)
    (fun _ _ _ _ _ => rfl)
  have key : ∀ x, x ∉ words → newPrecedence allowIn (.ident x) = none := by
    intro x hx
    have key : ∀ w, w ∈ words → x ≠ w := fun w hw => ne_word hx hw
    unfold newPrecedence
    simp [key b!"in" (by decide), key b!"instanceof" (by decide)]
  rw [key a ha, key b hb]

theorem reifyType_blind : Blind reifyType :=
  blind_of (fun _ _ _ _ => rfl) (fun _ _ => rfl) (fun _ _ => rfl) (fun _ _ _ _ => rfl)
    (fun _ _ _ _ _ => rfl)

theorem leftType_blind : Blind leftType :=
  blind_of (fun _ _ _ _ => rfl) (fun _ _ => rfl) (fun _ _ => rfl) (fun _ _ _ _ => rfl)
    (fun k _ _ _ _ => by cases k <;> rfl)

theorem semicolonExists_blind (w line : Bool) : Blind (semicolonExists w line) :=
  blind_of (fun _ _ _ _ => rfl) (fun _ _ => rfl) (fun _ _ => rfl) (fun _ _ _ _ => rfl)
    (fun _ _ _ _ _ => rfl)

theorem eqPunct_blind (p : Punct) : Blind (fun t => decide (t = Token.punct p)) :=
  blind_of (fun _ _ _ _ => by simp) (fun _ _ => by simp) (fun _ _ => by simp) (fun _ _ _ _ => by simp)
    (fun _ _ _ _ _ => by simp)

theorem eqWord_blind {w : Bytes} (hw : w ∈ words) : Blind (fun t => decide (t = Token.ident w)) :=
  blind_of (fun a b ha hb => by simp [ne_word ha hw, ne_word hb hw]) (fun _ _ => by simp)
    (fun _ _ => by simp) (fun _ _ _ _ => by simp) (fun _ _ _ _ _ => by simp)

/-- A test on the token behind the current one. -/
def BlindAhead {β : Type} (g : Option (Bool × Token) → β) : Prop :=
  ∀ x y, OptRel SeenAlike x y → g y = g x

theorem blindAhead_of {β : Type} {g : Option (Bool × Token) → β}
    (h : ∀ l, Blind fun t => g (some (l, t))) : BlindAhead g := by
  intro x y hxy
  cases hxy with
  | none => rfl
  | @some a b hab =>
    obtain ⟨l, t⟩ := a
    obtain ⟨l', t'⟩ := b
    obtain ⟨h1, h2⟩ := hab
    simp only at h1 h2
    subst h1
    exact h l' t t' h2

theorem isAsyncFunction_blind : BlindAhead isAsyncFunction := by
  refine blindAhead_of fun l => blind_of (fun a b ha hb => ?_) ?_ ?_ ?_ ?_
  · cases l <;> simp [isAsyncFunction, ne_word ha (w := b!"function") (by decide),
      ne_word hb (w := b!"function") (by decide)]
  all_goals (cases l <;> intros <;> rfl)

theorem forMaybeDecl_blind : BlindAhead forMaybeDecl := by
  refine blindAhead_of fun l => blind_of (fun a b ha hb => ?_) ?_ ?_ ?_ ?_
  · have key : ∀ x, x ∉ words → forMaybeDecl (some (l, .ident x)) = true := fun x hx => by
      simp only [forMaybeDecl, Bool.and_eq_true, bne_iff_ne]
      exact ⟨ne_word hx (by decide), ne_word hx (by decide)⟩
    exact (key b hb).trans (key a ha).symm
  all_goals (intros; rfl)

theorem isLabel_blind : BlindAhead isLabel := by
  refine blindAhead_of fun l => blind_of ?_ ?_ ?_ ?_ ?_ <;> (intros; simp [isLabel])

theorem maybeAsyncArrow_blind (flags : Flags) : BlindAhead (maybeAsyncArrow flags) := by
  refine blindAhead_of fun l => blind_of (fun a b ha hb => ?_) ?_ ?_ ?_ ?_
  · cases l
    · exact (binding_ordinary hb flags).trans (binding_ordinary ha flags).symm
    · rfl
  all_goals (cases l <;> intros <;> rfl)

theorem aheadIsFunction_blind : BlindAhead aheadIsFunction := by
  refine blindAhead_of fun l => blind_of (fun a b ha hb => ?_) ?_ ?_ ?_ ?_
  · simp [aheadIsFunction, ne_word ha (w := b!"function") (by decide),
      ne_word hb (w := b!"function") (by decide)]
  all_goals (intros; simp [aheadIsFunction])

theorem isBinding_live {a b : Flags} (h : LiveAlike a b) : isBinding b = isBinding a := by
  funext l t
  unfold isBinding
  rw [h.binding]

theorem maybeAsyncArrow_live {a b : Flags} (h : LiveAlike a b) : maybeAsyncArrow b = maybeAsyncArrow a := by
  funext x
  unfold maybeAsyncArrow
  rw [h.binding]

theorem primaryType_live {a b : Flags} (h : LiveAlike a b) : primaryType b = primaryType a := by
  funext t
  unfold primaryType
  rw [h.binding]

/-! ## The operations -/

macro "sg" : tactic =>
  `(tactic| repeat' first
    | with_reducible assumption
    | head_step "sg"
    | (intro (a : Flags) (b : Flags) h; simp only [h.allowIn, h.allowAwait, h.allowDefault,
        maybeAsyncArrow_live h, primaryType_live h])
    | (intro _ _ h; rcases h with _ | h <;> (try cases ‹Rl.rel _ _›) <;> try dsimp only)
    | (intro _ _ h; cases h <;> try dsimp only)
    | (intro _)
    | exact OptRel.none | exact OptRel.some rfl | exact OptRel.some trivial | trivial | rfl | decide)

/-- For the methods that decide on a token. -/
macro "sga" : tactic =>
  `(tactic| repeat' first
    | with_reducible assumption
    | head_step "sg"
    | (intro a b h; rw [forMaybeDecl_blind a b h])
    | (intro a b h; rw [isAsyncFunction_blind a b h])
    | (intro a b h; rw [isLabel_blind a b h])
    | (intro a b h; rw [aheadIsFunction_blind a b h])
    | (intro a b h; rw [maybeAsyncArrow_blind _ a b h])
    | (intro a b h; rw [statementType_blind a b h])
    | (intro a b h; rw [declType_blind a b h])
    | (intro a b h; rw [unaryType_blind a b h])
    | (intro a b h; rw [primaryType_blind _ a b h])
    | (intro a b h; rw [leftType_blind a b h])
    | (intro (a : Flags) (b : Flags) h; simp only [h.allowIn, h.allowAwait, h.allowDefault,
        maybeAsyncArrow_live h, primaryType_live h])
    | (intro _ _ h; rcases h with _ | h <;> (try cases ‹Rl.rel _ _›) <;> try dsimp only)
    | (intro _ _ h; cases h <;> try dsimp only)
    | (intro _)
    | exact OptRel.none | exact OptRel.some rfl | exact OptRel.some trivial | trivial | rfl | decide)

section

variable {N N' : Nat} {J : ∀ {α : Type} [Rl α], P α → P α → Prop}

theorem pure_sg (hJ : SimK N N' J) {α : Type} [Rl α] {a b : α} (h : Rl.rel a b) :
    J (Pure.pure a : P α) (Pure.pure b) := hJ.pure a b h
theorem bind_sg (hJ : SimK N N' J) {α β : Type} [Rl α] [Rl β] {m m' : P α} {k k' : α → P β} (h : J m m')
    (hk : ∀ a a', Rl.rel a a' → J (k a) (k' a')) : J (m >>= k) (m' >>= k') := hJ.bind h hk
theorem map_sg (hJ : SimK N N' J) {α β : Type} [Rl α] [Rl β] {f : α → β} {m m' : P α} (h : J m m')
    (hf : ∀ a a', Rl.rel a a' → Rl.rel (f a) (f a')) : J (f <$> m) (f <$> m') :=
  hJ.bind h fun _ _ h => hJ.pure _ _ (hf _ _ h)
theorem fail_sg (hJ : SimK N N' J) {α : Type} [Rl α] (e : ParseErr) :
    J (P.fail e : P α) (P.fail e) := hJ.fail e
theorem getFlags_sg (hJ : SimK N N' J) : J getFlags getFlags := hJ.flags
theorem withFlag_sg (hJ : SimK N N' J) {α : Type} [Rl α] (f : Flag) (b : Bool) {m m' : P α} (h : J m m')
    (hf : (f == .strict) = false) : J (P.withFlag f b m) (P.withFlag f b m') := hJ.withFlag f b hf h
theorem expectExpression_sg (hJ : SimK N N' J) : J expectExpression expectExpression := hJ.expect
theorem tokenAndLine_sg (hJ : SimK N N' J) : J tokenAndLine tokenAndLine := hJ.look
theorem identLookahead_sg (hJ : SimK N N' J) : J identLookahead identLookahead := hJ.ahead
theorem loop_sg (hJ : SimK N N' J) {σ β : Type} [Rl β] {b b' : σ → P (σ ⊕ β)} {st : σ}
    (h : ∀ st, J (b st) (b' st)) : J (P.loop N b st) (P.loop N' b' st) :=
  hJ.loop h st

theorem token_sg (hJ : SimK N N' J) : J token token :=
  hJ.bind hJ.look fun _ _ h => hJ.pure _ _ h.token
theorem noLineTerminator_sg (hJ : SimK N N' J) : J noLineTerminator noLineTerminator :=
  hJ.bind hJ.look fun _ _ h => hJ.pure _ _ (congrArg not h.line.symm)

theorem take_blind (hJ : SimK N N' J) {β : Type} [Rl β] {f : Bool → Token → Option β} (hf : ∀ l, Blind (f l))
    (hr : ∀ b : β, Rl.rel b b) : J (takeIf f) (takeIf f) :=
  hJ.take f fun l t t' h => optRel_of_eq hr (hf l t t' h).symm

theorem punc_sg (hJ : SimK N N' J) (p : Punct) : J (punc p) (punc p) := by
  rw [punc_eq]
  refine take_blind hJ (fun l t t' h => ?_) fun _ => rfl
  have := eqPunct_blind p t t' h
  simp only [decide_eq_decide] at this
  simp only [isPunc, this]

theorem numeric_sg (hJ : SimK N N' J) : J numeric numeric := by
  rw [numeric_eq]
  refine hJ.take _ fun l t t' h => ?_
  cases h <;> first | exact .some trivial | exact .none | exact optRel_refl (fun _ => trivial) _

theorem string_sg (hJ : SimK N N' J) : J string string := by
  rw [string_eq]
  refine hJ.take _ fun l t t' h => ?_
  cases h <;> first | exact .some trivial | exact .none | exact optRel_refl (fun _ => trivial) _

theorem regex_sg (hJ : SimK N N' J) : J regex regex := by
  rw [regex_eq]
  refine hJ.take _ fun l t t' h => ?_
  cases h <;> first | exact .some trivial | exact .none | exact optRel_refl (fun _ => trivial) _

theorem identifier_sg (hJ : SimK N N' J) : J identifier identifier := by
  rw [identifier_eq]
  refine hJ.take _ fun l t t' h => ?_
  cases h <;> first | exact .some trivial | exact .none | exact optRel_refl (fun _ => trivial) _

theorem template_sg (hJ : SimK N N' J) : J template template := by
  rw [template_eq]
  exact take_blind hJ (fun l => blind_of (fun _ _ _ _ => rfl) (fun _ _ => rfl) (fun _ _ => rfl)
    (fun _ _ _ _ => rfl) fun k _ _ _ _ => by cases k <;> rfl) fun _ => rfl

theorem templateTail_sg (hJ : SimK N N' J) : J templateTail templateTail := by
  rw [templateTail_eq]
  exact take_blind hJ (fun l => blind_of (fun _ _ _ _ => rfl) (fun _ _ => rfl) (fun _ _ => rfl)
    (fun _ _ _ _ => rfl) fun k _ _ _ _ => by cases k <;> rfl) fun _ => rfl

theorem bindingIdentifier_sg (hJ : SimK N N' J) : J bindingIdentifier bindingIdentifier := by
  rw [bindingIdentifier_eq]
  refine hJ.bind hJ.flags fun flags flags' h => ?_
  rw [isBinding_live h]
  refine hJ.take _ fun l t t' h => ?_
  cases h with
  | name a b ha hb =>
    simp only [isBinding, binding_ordinary ha, binding_ordinary hb, if_true]
    exact .some trivial
  | same => exact optRel_refl (fun _ => trivial) _
  | _ => exact .none

theorem keyword_sg (hJ : SimK N N' J) (k : Bytes) (hk : k ∈ words) : J (keyword k) (keyword k) := by
  rw [keyword_eq]
  refine take_blind hJ (fun l t t' h => ?_) fun _ => trivial
  have := eqWord_blind hk t t' h
  simp only [decide_eq_decide] at this
  simp only [isKeyword, this]

theorem semicolonInner_sg (hJ : SimK N N' J) (w : Bool) : J (semicolonInner w) (semicolonInner w) := by
  rw [semicolonInner_eq]
  refine hJ.bind (take_blind hJ (fun l t t' h => ?_) fun _ => rfl) fun a a' h => ?_
  · have := eqPunct_blind .semicolon t t' h
    simp only [decide_eq_decide] at this
    simp only [isSemicolon, this]
  · cases h with
    | some => exact hJ.pure _ _ (.some rfl)
    | none =>
      refine hJ.bind hJ.look fun lt lt' h => ?_
      rw [semicolonExists_blind w _ _ _ h.token, h.line]
      sg

theorem eat_sg (hJ : SimK N N' J) {α : Type} [Rl α] {m m' : P (Option α)} (h : J m m') :
    J (eat m) (eat m') := by
  unfold eat; sg

theorem orTry_sg (hJ : SimK N N' J) {α : Type} [Rl α] {m m' k k' : P (Option α)} (h : J m m') (hk : J k k') :
    J (orTry m k) (orTry m' k') := by
  unfold orTry
  refine hJ.bind h fun a a' h => ?_
  cases h with
  | none => exact hk
  | some h => exact hJ.pure _ _ (.some h)

theorem must_sg (hJ : SimK N N' J) {m m' : P (Option Unit)} (h : J m m') :
    J (must m) (must m') := by
  unfold must; sg

theorem whileSome_sg (hJ : SimK N N' J) {α : Type} [Rl α] {m m' : P (Option α)} (h : J m m') :
    J (whileSome N m) (whileSome N' m') := by
  unfold whileSome; sg

/-- The recursive calls are related. -/
structure CallSim (J : ∀ {α : Type} [Rl α], P α → P α → Prop) (r r' : Rec) : Prop where
  call : ∀ f, J (r.call f) (r'.call f)

variable {r r' : Rec}

theorem call_sg (hr : CallSim J r r') (f : Fn) : J (r.call f) (r'.call f) := hr.call f

theorem parseScriptItem_sg (hJ : SimK r.fuel r'.fuel J) (hr : CallSim J r r')  :
    J (parseScriptItem r) (parseScriptItem r') := by
  unfold parseScriptItem; sg

theorem parseModuleItem_sg (hJ : SimK r.fuel r'.fuel J) (hr : CallSim J r r')  :
    J (parseModuleItem r) (parseModuleItem r') := by
  unfold parseModuleItem; sg

theorem functionRest_sg (hJ : SimK r.fuel r'.fuel J) (hr : CallSim J r r') (async : Bool) (star : Bool) :
    J (functionRest r async star) (functionRest r' async star) := by
  unfold functionRest; sg

theorem functionKeyword_sg (hJ : SimK N N' J) (maybeAsync : Bool) :
    J (functionKeyword maybeAsync) (functionKeyword maybeAsync) := by
  unfold functionKeyword; sg

theorem parseFunctionDeclaration_sg (hJ : SimK r.fuel r'.fuel J) (hr : CallSim J r r')  :
    J (parseFunctionDeclaration r) (parseFunctionDeclaration r') := by
  unfold parseFunctionDeclaration; sga

theorem parseFunctionExpression_sg (hJ : SimK r.fuel r'.fuel J) (hr : CallSim J r r')  :
    J (parseFunctionExpression r) (parseFunctionExpression r') := by
  unfold parseFunctionExpression; sga

theorem functionParamsRound_sg (hJ : SimK r.fuel r'.fuel J) (hr : CallSim J r r')  :
    J (functionParamsRound r) (functionParamsRound r') := by
  unfold functionParamsRound; sg

theorem parseFunctionParams_sg (hJ : SimK r.fuel r'.fuel J) (hr : CallSim J r r')  :
    J (parseFunctionParams r) (parseFunctionParams r') := by
  unfold parseFunctionParams; sg

theorem parseFunctionBody_sg (hJ : SimK r.fuel r'.fuel J) (hr : CallSim J r r')  :
    J (parseFunctionBody r) (parseFunctionBody r') := by
  unfold parseFunctionBody; sg

theorem parseStatement_sg (hJ : SimK r.fuel r'.fuel J) (hr : CallSim J r r')  :
    J (parseStatement r) (parseStatement r') := by
  unfold parseStatement; sga

theorem parseStatementListItem_sg (hJ : SimK r.fuel r'.fuel J) (hr : CallSim J r r')  :
    J (parseStatementListItem r) (parseStatementListItem r') := by
  unfold parseStatementListItem; sg

theorem parseBlockStatement_sg (hJ : SimK r.fuel r'.fuel J) (hr : CallSim J r r')  :
    J (parseBlockStatement r) (parseBlockStatement r') := by
  unfold parseBlockStatement; sg

theorem commaRound_sg (hJ : SimK N N' J) {item item' : P (Option Unit)} (h : J item item') :
    J (commaRound item) (commaRound item') := by
  unfold commaRound; sg

theorem parseVariableStatement_sg (hJ : SimK r.fuel r'.fuel J) (hr : CallSim J r r')  :
    J (parseVariableStatement r) (parseVariableStatement r') := by
  unfold parseVariableStatement; sg

theorem parseVarDeclarator_sg (hJ : SimK r.fuel r'.fuel J) (hr : CallSim J r r')  :
    J (parseVarDeclarator r) (parseVarDeclarator r') := by
  unfold parseVarDeclarator; sg

theorem parseBindingPattern_sg (hJ : SimK r.fuel r'.fuel J) (hr : CallSim J r r')  :
    J (parseBindingPattern r) (parseBindingPattern r') := by
  unfold parseBindingPattern; sg

theorem objectBindingRound_sg (hJ : SimK r.fuel r'.fuel J) (hr : CallSim J r r')  :
    J (objectBindingRound r) (objectBindingRound r') := by
  unfold objectBindingRound; sg

theorem parseObjectBindingPattern_sg (hJ : SimK r.fuel r'.fuel J) (hr : CallSim J r r')  :
    J (parseObjectBindingPattern r) (parseObjectBindingPattern r') := by
  unfold parseObjectBindingPattern; sg

theorem parseBindingProperty_sg (hJ : SimK r.fuel r'.fuel J) (hr : CallSim J r r')  :
    J (parseBindingProperty r) (parseBindingProperty r') := by
  unfold parseBindingProperty; sg

theorem parsePropertyName_sg (hJ : SimK r.fuel r'.fuel J) (hr : CallSim J r r')  :
    J (parsePropertyName r) (parsePropertyName r') := by
  unfold parsePropertyName; sg

theorem parseLiteralPropertyName_sg (hJ : SimK N N' J)  :
    J (parseLiteralPropertyName) (parseLiteralPropertyName) := by
  unfold parseLiteralPropertyName; sg

theorem parseComputedPropertyName_sg (hJ : SimK r.fuel r'.fuel J) (hr : CallSim J r r')  :
    J (parseComputedPropertyName r) (parseComputedPropertyName r') := by
  unfold parseComputedPropertyName; sg

theorem arrayBindingRound_sg (hJ : SimK r.fuel r'.fuel J) (hr : CallSim J r r')  :
    J (arrayBindingRound r) (arrayBindingRound r') := by
  unfold arrayBindingRound; sg

theorem parseArrayBindingPattern_sg (hJ : SimK r.fuel r'.fuel J) (hr : CallSim J r r')  :
    J (parseArrayBindingPattern r) (parseArrayBindingPattern r') := by
  unfold parseArrayBindingPattern; sg

theorem patternOrIdentifier_sg (hJ : SimK r.fuel r'.fuel J) (hr : CallSim J r r')  :
    J (patternOrIdentifier r) (patternOrIdentifier r') := by
  unfold patternOrIdentifier; sg

theorem parseBindingRestElement_sg (hJ : SimK r.fuel r'.fuel J) (hr : CallSim J r r')  :
    J (parseBindingRestElement r) (parseBindingRestElement r') := by
  unfold parseBindingRestElement; sg

theorem parseBindingElement_sg (hJ : SimK r.fuel r'.fuel J) (hr : CallSim J r r')  :
    J (parseBindingElement r) (parseBindingElement r') := by
  unfold parseBindingElement; sg

theorem parseInitializer_sg (hJ : SimK r.fuel r'.fuel J) (hr : CallSim J r r')  :
    J (parseInitializer r) (parseInitializer r') := by
  unfold parseInitializer; sg

theorem parseEmptyStatement_sg (hJ : SimK N N' J)  :
    J (parseEmptyStatement) (parseEmptyStatement) := by
  unfold parseEmptyStatement; sg

theorem parseExpressionStatement_sg (hJ : SimK r.fuel r'.fuel J) (hr : CallSim J r r')  :
    J (parseExpressionStatement r) (parseExpressionStatement r') := by
  unfold parseExpressionStatement; sg

theorem parenExpression_sg (hJ : SimK r.fuel r'.fuel J) (hr : CallSim J r r')  :
    J (parenExpression r) (parenExpression r') := by
  unfold parenExpression; sg

theorem parseIfStatement_sg (hJ : SimK r.fuel r'.fuel J) (hr : CallSim J r r')  :
    J (parseIfStatement r) (parseIfStatement r') := by
  unfold parseIfStatement; sg

theorem parseBreakableStatement_sg (hJ : SimK r.fuel r'.fuel J) (hr : CallSim J r r')  :
    J (parseBreakableStatement r) (parseBreakableStatement r') := by
  unfold parseBreakableStatement; sg

theorem parseIterationStatement_sg (hJ : SimK r.fuel r'.fuel J) (hr : CallSim J r r')  :
    J (parseIterationStatement r) (parseIterationStatement r') := by
  unfold parseIterationStatement; sg

theorem parseDoWhileStatement_sg (hJ : SimK r.fuel r'.fuel J) (hr : CallSim J r r')  :
    J (parseDoWhileStatement r) (parseDoWhileStatement r') := by
  unfold parseDoWhileStatement; sg

theorem parseWhileStatement_sg (hJ : SimK r.fuel r'.fuel J) (hr : CallSim J r r')  :
    J (parseWhileStatement r) (parseWhileStatement r') := by
  unfold parseWhileStatement; sg

theorem forDeclRound_sg (hJ : SimK N N' J) {item item' : P (Option Unit)} (h : J item item') (b : Bool) :
    J (forDeclRound item b) (forDeclRound item' b) := by
  unfold forDeclRound; sg

theorem forDeclHead_sg (hJ : SimK r.fuel r'.fuel J) (hr : CallSim J r r') (k : ForKind)
    {item item' : P (Option Unit)} (h : J item item') :
    J (forDeclHead r k item) (forDeclHead r' k item') := by
  unfold forDeclHead; sg

theorem forHead_sg (hJ : SimK r.fuel r'.fuel J) (hr : CallSim J r r')  :
    J (forHead r) (forHead r') := by
  unfold forHead; sga

theorem forClassic_sg (hJ : SimK r.fuel r'.fuel J) (hr : CallSim J r r') (maybeFor : Bool) :
    J (forClassic r maybeFor) (forClassic r' maybeFor) := by
  unfold forClassic; sg

theorem forInOf_sg (hJ : SimK r.fuel r'.fuel J) (hr : CallSim J r r') (maybeX : Bool) :
    J (forInOf r maybeX) (forInOf r' maybeX) := by
  unfold forInOf; sg

theorem parseForStatement_sg (hJ : SimK r.fuel r'.fuel J) (hr : CallSim J r r')  :
    J (parseForStatement r) (parseForStatement r') := by
  unfold parseForStatement; sg

theorem switchRound_sg (hJ : SimK r.fuel r'.fuel J) (hr : CallSim J r r')
    (hasDefault : Bool) :
    J (switchRound r hasDefault) (switchRound r' hasDefault) := by
  unfold switchRound; sg

theorem parseSwitchStatement_sg (hJ : SimK r.fuel r'.fuel J) (hr : CallSim J r r') :
    J (parseSwitchStatement r) (parseSwitchStatement r') := by
  unfold parseSwitchStatement; sg

theorem parseDefaultClause_sg (hJ : SimK r.fuel r'.fuel J) (hr : CallSim J r r')  :
    J (parseDefaultClause r) (parseDefaultClause r') := by
  unfold parseDefaultClause; sg

theorem parseCaseClause_sg (hJ : SimK r.fuel r'.fuel J) (hr : CallSim J r r')  :
    J (parseCaseClause r) (parseCaseClause r') := by
  unfold parseCaseClause; sg

theorem labelAndSemicolon_sg (hJ : SimK N N' J)  :
    J (labelAndSemicolon) (labelAndSemicolon) := by
  unfold labelAndSemicolon; sg

theorem parseContinueStatement_sg (hJ : SimK N N' J)  :
    J (parseContinueStatement) (parseContinueStatement) := by
  unfold parseContinueStatement; sg

theorem parseBreakStatement_sg (hJ : SimK N N' J)  :
    J (parseBreakStatement) (parseBreakStatement) := by
  unfold parseBreakStatement; sg

theorem parseReturnStatement_sg (hJ : SimK r.fuel r'.fuel J) (hr : CallSim J r r')  :
    J (parseReturnStatement r) (parseReturnStatement r') := by
  unfold parseReturnStatement; sg

theorem parseWithStatement_sg (hJ : SimK r.fuel r'.fuel J) (hr : CallSim J r r')  :
    J (parseWithStatement r) (parseWithStatement r') := by
  unfold parseWithStatement; sg

theorem parseLabelledStatement_sg (hJ : SimK r.fuel r'.fuel J) (hr : CallSim J r r')  :
    J (parseLabelledStatement r) (parseLabelledStatement r') := by
  unfold parseLabelledStatement; sga

theorem parseThrowStatement_sg (hJ : SimK r.fuel r'.fuel J) (hr : CallSim J r r')  :
    J (parseThrowStatement r) (parseThrowStatement r') := by
  unfold parseThrowStatement; sg

theorem parseTryStatement_sg (hJ : SimK r.fuel r'.fuel J) (hr : CallSim J r r')  :
    J (parseTryStatement r) (parseTryStatement r') := by
  unfold parseTryStatement; sg

theorem parseDebuggerStatement_sg (hJ : SimK N N' J)  :
    J (parseDebuggerStatement) (parseDebuggerStatement) := by
  unfold parseDebuggerStatement; sg

theorem parseDeclaration_sg (hJ : SimK r.fuel r'.fuel J) (hr : CallSim J r r')  :
    J (parseDeclaration r) (parseDeclaration r') := by
  unfold parseDeclaration; sga

theorem parseLetDeclaration_sg (hJ : SimK r.fuel r'.fuel J) (hr : CallSim J r r')  :
    J (parseLetDeclaration r) (parseLetDeclaration r') := by
  unfold parseLetDeclaration; sg

theorem parseConstDeclaration_sg (hJ : SimK r.fuel r'.fuel J) (hr : CallSim J r r')  :
    J (parseConstDeclaration r) (parseConstDeclaration r') := by
  unfold parseConstDeclaration; sg

theorem parseLexicalDeclarator_sg (hJ : SimK r.fuel r'.fuel J) (hr : CallSim J r r') (initializerRequired : Bool) :
    J (parseLexicalDeclarator r initializerRequired) (parseLexicalDeclarator r' initializerRequired) := by
  unfold parseLexicalDeclarator; sg

theorem parseClassDeclaration_sg (hJ : SimK r.fuel r'.fuel J) (hr : CallSim J r r')  :
    J (parseClassDeclaration r) (parseClassDeclaration r') := by
  unfold parseClassDeclaration; sg

theorem parseClassExpression_sg (hJ : SimK N N' J)  :
    J (parseClassExpression) (parseClassExpression) := by
  unfold parseClassExpression; sg

theorem parseClassHeritage_sg (hJ : SimK r.fuel r'.fuel J) (hr : CallSim J r r')  :
    J (parseClassHeritage r) (parseClassHeritage r') := by
  unfold parseClassHeritage; sg

theorem parseClassBody_sg (hJ : SimK r.fuel r'.fuel J) (hr : CallSim J r r')  :
    J (parseClassBody r) (parseClassBody r') := by
  unfold parseClassBody; sg

theorem methodHeadNoName_sg (hJ : SimK N N' J) (stat : Bool) (kind : MethodKind) (star : Bool) :
    J (methodHeadNoName stat kind star) (methodHeadNoName stat kind star) := by
  unfold methodHeadNoName; sg

theorem parseMethodHead_sg (hJ : SimK r.fuel r'.fuel J) (hr : CallSim J r r') (allowStatic : Bool) :
    J (parseMethodHead r allowStatic) (parseMethodHead r' allowStatic) := by
  unfold parseMethodHead; sg

theorem parseClassItem_sg (hJ : SimK r.fuel r'.fuel J) (hr : CallSim J r r')  :
    J (parseClassItem r) (parseClassItem r') := by
  unfold parseClassItem; sg

theorem methodRest_sg (hJ : SimK r.fuel r'.fuel J) (hr : CallSim J r r') (head : MethodHead) :
    J (methodRest r head) (methodRest r' head) := by
  unfold methodRest; sg

theorem parseMethodTail_sg (hJ : SimK r.fuel r'.fuel J) (hr : CallSim J r r') (head : MethodHead) :
    J (parseMethodTail r head) (parseMethodTail r' head) := by
  unfold parseMethodTail; sg

theorem specifierRound_sg (hJ : SimK N N' J) {item item' : P (Option Unit)} (h : J item item') :
    J (specifierRound item) (specifierRound item') := by
  unfold specifierRound; sg

theorem importClause_sg (hJ : SimK r.fuel r'.fuel J) (hr : CallSim J r r')  :
    J (importClause r) (importClause r') := by
  unfold importClause; sg

theorem parseImportDeclaration_sg (hJ : SimK r.fuel r'.fuel J) (hr : CallSim J r r')  :
    J (parseImportDeclaration r) (parseImportDeclaration r') := by
  unfold parseImportDeclaration; sg

theorem parseImportSpecifier_sg (hJ : SimK N N' J)  :
    J (parseImportSpecifier) (parseImportSpecifier) := by
  unfold parseImportSpecifier; sg

theorem exportDefault_sg (hJ : SimK r.fuel r'.fuel J) (hr : CallSim J r r')  :
    J (exportDefault r) (exportDefault r') := by
  unfold exportDefault; sg

theorem exportSpecifiers_sg (hJ : SimK r.fuel r'.fuel J) (hr : CallSim J r r')  :
    J (exportSpecifiers r) (exportSpecifiers r') := by
  unfold exportSpecifiers; sg

theorem exportNamed_sg (hJ : SimK r.fuel r'.fuel J) (hr : CallSim J r r')  :
    J (exportNamed r) (exportNamed r') := by
  unfold exportNamed; sg

theorem parseExportDeclaration_sg (hJ : SimK r.fuel r'.fuel J) (hr : CallSim J r r')  :
    J (parseExportDeclaration r) (parseExportDeclaration r') := by
  unfold parseExportDeclaration; sg

theorem parseExportSpecifier_sg (hJ : SimK N N' J)  :
    J (parseExportSpecifier) (parseExportSpecifier) := by
  unfold parseExportSpecifier; sg

theorem parseLeftHandSideExpression_sg (hJ : SimK r.fuel r'.fuel J) (hr : CallSim J r r')  :
    J (parseLeftHandSideExpression r) (parseLeftHandSideExpression r') := by
  unfold parseLeftHandSideExpression; sg

theorem expressionRound_sg (hJ : SimK r.fuel r'.fuel J) (hr : CallSim J r r')  :
    J (expressionRound r) (expressionRound r') := by
  unfold expressionRound; sg

theorem parseExpression_sg (hJ : SimK r.fuel r'.fuel J) (hr : CallSim J r r')  :
    J (parseExpression r) (parseExpression r') := by
  unfold parseExpression; sg

theorem assignmentRest_sg (hJ : SimK r.fuel r'.fuel J) (hr : CallSim J r r')  :
    J (assignmentRest r) (assignmentRest r') := by
  rw [assignmentRest_eq, assignmentRest_eq]
  refine bind_sg hJ (hr.call _) fun _ _ h => ?_
  cases h with
  | none => exact hJ.pure _ _ .none
  | some h =>
    refine bind_sg hJ (take_blind hJ (fun l => reifyType_blind) fun _ => rfl) fun _ _ h => ?_
    cases h with
    | none => exact hJ.pure _ _ (.some rfl)
    | some h => cases h; sg

theorem parseAssignmentExpression_sg (hJ : SimK r.fuel r'.fuel J) (hr : CallSim J r r')  :
    J (parseAssignmentExpression r) (parseAssignmentExpression r') := by
  rw [parseAssignmentExpression_eq, parseAssignmentExpression_eq]; sga

theorem reifyArrow_sg (hJ : SimK r.fuel r'.fuel J) (hr : CallSim J r r')  :
    J (reifyArrow r) (reifyArrow r') := by
  unfold reifyArrow; sg

theorem reifyAssignment_sg (hJ : SimK r.fuel r'.fuel J) (hr : CallSim J r r')  :
    J (reifyAssignment r) (reifyAssignment r') := by
  unfold reifyAssignment; sg

theorem parseYieldExpression_sg (hJ : SimK r.fuel r'.fuel J) (hr : CallSim J r r')  :
    J (parseYieldExpression r) (parseYieldExpression r') := by
  unfold parseYieldExpression; sg

theorem parseConditionalExpression_sg (hJ : SimK r.fuel r'.fuel J) (hr : CallSim J r r')  :
    J (parseConditionalExpression r) (parseConditionalExpression r') := by
  unfold parseConditionalExpression; sg

theorem parseLogicalOrExpression_sg (hJ : SimK r.fuel r'.fuel J) (hr : CallSim J r r')  :
    J (parseLogicalOrExpression r) (parseLogicalOrExpression r') := by
  unfold parseLogicalOrExpression; sg

theorem fancyRound_sg (hJ : SimK r.fuel r'.fuel J) (hr : CallSim J r r') (allowIn : Bool) (precedence : Nat) :
    J (fancyRound r allowIn precedence) (fancyRound r' allowIn precedence) := by
  rw [fancyRound_eq, fancyRound_eq]
  refine bind_sg hJ (take_blind hJ (fun l => newPrecedence_blind _) fun _ => rfl) fun _ _ h => ?_
  cases h with
  | none => exact hJ.pure _ _ rfl
  | some h => cases h; sg

theorem parseFancy_sg (hJ : SimK r.fuel r'.fuel J) (hr : CallSim J r r') (precedence : Nat) :
    J (parseFancy r precedence) (parseFancy r' precedence) := by
  unfold parseFancy; sg

theorem parseExponentialExpression_sg (hJ : SimK r.fuel r'.fuel J) (hr : CallSim J r r')  :
    J (parseExponentialExpression r) (parseExponentialExpression r') := by
  unfold parseExponentialExpression; sg

theorem parseUnaryExpression_sg (hJ : SimK r.fuel r'.fuel J) (hr : CallSim J r r')  :
    J (parseUnaryExpression r) (parseUnaryExpression r') := by
  unfold parseUnaryExpression; sga

theorem parseDeleteExpression_sg (hJ : SimK r.fuel r'.fuel J) (hr : CallSim J r r')  :
    J (parseDeleteExpression r) (parseDeleteExpression r') := by
  unfold parseDeleteExpression; sg

theorem parseVoidExpression_sg (hJ : SimK r.fuel r'.fuel J) (hr : CallSim J r r')  :
    J (parseVoidExpression r) (parseVoidExpression r') := by
  unfold parseVoidExpression; sg

theorem parseTypeofExpression_sg (hJ : SimK r.fuel r'.fuel J) (hr : CallSim J r r')  :
    J (parseTypeofExpression r) (parseTypeofExpression r') := by
  unfold parseTypeofExpression; sg

theorem parsePlusExpression_sg (hJ : SimK r.fuel r'.fuel J) (hr : CallSim J r r')  :
    J (parsePlusExpression r) (parsePlusExpression r') := by
  unfold parsePlusExpression; sg

theorem parseMinusExpression_sg (hJ : SimK r.fuel r'.fuel J) (hr : CallSim J r r')  :
    J (parseMinusExpression r) (parseMinusExpression r') := by
  unfold parseMinusExpression; sg

theorem parseTildeExpression_sg (hJ : SimK r.fuel r'.fuel J) (hr : CallSim J r r')  :
    J (parseTildeExpression r) (parseTildeExpression r') := by
  unfold parseTildeExpression; sg

theorem parseExclamExpression_sg (hJ : SimK r.fuel r'.fuel J) (hr : CallSim J r r')  :
    J (parseExclamExpression r) (parseExclamExpression r') := by
  unfold parseExclamExpression; sg

theorem parseAwaitExpression_sg (hJ : SimK r.fuel r'.fuel J) (hr : CallSim J r r')  :
    J (parseAwaitExpression r) (parseAwaitExpression r') := by
  unfold parseAwaitExpression; sg

theorem parseUpdateExpression_sg (hJ : SimK r.fuel r'.fuel J) (hr : CallSim J r r')  :
    J (parseUpdateExpression r) (parseUpdateExpression r') := by
  unfold parseUpdateExpression; sg

theorem leftHandRound_sg (hJ : SimK r.fuel r'.fuel J) (hr : CallSim J r r') (allowCall : Bool) :
    J (leftHandRound r allowCall) (leftHandRound r' allowCall) := by
  rw [leftHandRound_eq, leftHandRound_eq]
  refine bind_sg hJ (take_blind hJ (fun l t t' h => ?_) fun _ => rfl) fun _ _ h => ?_
  · have h1 := eqPunct_blind .period t t' h
    have h2 := eqPunct_blind .squareOpen t t' h
    simp only [decide_eq_decide] at h1 h2
    simp only [isMember, h1, h2]
  · cases h with
    | some h => cases h; sg
    | none => sga

theorem parseLeftHandExpression_sg (hJ : SimK r.fuel r'.fuel J) (hr : CallSim J r r') (allowCall : Bool) :
    J (parseLeftHandExpression r allowCall) (parseLeftHandExpression r' allowCall) := by
  unfold parseLeftHandExpression; sg

theorem callArgumentItem_sg (hJ : SimK r.fuel r'.fuel J) (hr : CallSim J r r')  :
    J (callArgumentItem r) (callArgumentItem r') := by
  unfold callArgumentItem; sg

theorem callArgumentsRound_sg (hJ : SimK r.fuel r'.fuel J) (hr : CallSim J r r')  :
    J (callArgumentsRound r) (callArgumentsRound r') := by
  unfold callArgumentsRound; sg

theorem parseCallArguments_sg (hJ : SimK r.fuel r'.fuel J) (hr : CallSim J r r')  :
    J (parseCallArguments r) (parseCallArguments r') := by
  unfold parseCallArguments; sg

theorem parseMetaPropertyExpression_sg (hJ : SimK N N' J)  :
    J (parseMetaPropertyExpression) (parseMetaPropertyExpression) := by
  unfold parseMetaPropertyExpression; sg

theorem parseSuperExpression_sg (hJ : SimK N N' J)  :
    J (parseSuperExpression) (parseSuperExpression) := by
  unfold parseSuperExpression; sg

theorem parsePrimaryExpression_sg (hJ : SimK r.fuel r'.fuel J) (hr : CallSim J r r')  :
    J (parsePrimaryExpression r) (parsePrimaryExpression r') := by
  unfold parsePrimaryExpression; sga

theorem parseThisExpression_sg (hJ : SimK N N' J)  :
    J (parseThisExpression) (parseThisExpression) := by
  unfold parseThisExpression; sg

theorem parseIdentifierReferenceExpression_sg (hJ : SimK N N' J)  :
    J (parseIdentifierReferenceExpression) (parseIdentifierReferenceExpression) := by
  unfold parseIdentifierReferenceExpression; sga

theorem parseNullExpression_sg (hJ : SimK N N' J)  :
    J (parseNullExpression) (parseNullExpression) := by
  unfold parseNullExpression; sg

theorem parseTrueExpression_sg (hJ : SimK N N' J)  :
    J (parseTrueExpression) (parseTrueExpression) := by
  unfold parseTrueExpression; sg

theorem parseFalseExpression_sg (hJ : SimK N N' J)  :
    J (parseFalseExpression) (parseFalseExpression) := by
  unfold parseFalseExpression; sg

theorem parseNumericExpression_sg (hJ : SimK N N' J)  :
    J (parseNumericExpression) (parseNumericExpression) := by
  unfold parseNumericExpression; sg

theorem parseStringExpression_sg (hJ : SimK N N' J)  :
    J (parseStringExpression) (parseStringExpression) := by
  unfold parseStringExpression; sg

theorem itemCommaRound_sg (hJ : SimK N N' J) {item item' : P (Option Unit)} (h : J item item') :
    J (itemCommaRound item) (itemCommaRound item') := by
  unfold itemCommaRound; sg

theorem parseArrayLiteralExpression_sg (hJ : SimK r.fuel r'.fuel J) (hr : CallSim J r r')  :
    J (parseArrayLiteralExpression r) (parseArrayLiteralExpression r') := by
  unfold parseArrayLiteralExpression; sg

theorem parseObjectLiteralExpression_sg (hJ : SimK r.fuel r'.fuel J) (hr : CallSim J r r')  :
    J (parseObjectLiteralExpression r) (parseObjectLiteralExpression r') := by
  unfold parseObjectLiteralExpression; sg

theorem parseObjectProperty_sg (hJ : SimK r.fuel r'.fuel J) (hr : CallSim J r r')  :
    J (parseObjectProperty r) (parseObjectProperty r') := by
  unfold parseObjectProperty; sg

theorem parseArrayItem_sg (hJ : SimK r.fuel r'.fuel J) (hr : CallSim J r r')  :
    J (parseArrayItem r) (parseArrayItem r') := by
  unfold parseArrayItem; sg

theorem parseRegularExpressionLiteralExpression_sg (hJ : SimK N N' J)  :
    J (parseRegularExpressionLiteralExpression) (parseRegularExpressionLiteralExpression) := by
  unfold parseRegularExpressionLiteralExpression; sg

theorem templateRound_sg (hJ : SimK r.fuel r'.fuel J) (hr : CallSim J r r')  :
    J (templateRound r) (templateRound r') := by
  unfold templateRound; sg

theorem parseTemplateLiteralExpression_sg (hJ : SimK r.fuel r'.fuel J) (hr : CallSim J r r')  :
    J (parseTemplateLiteralExpression r) (parseTemplateLiteralExpression r') := by
  unfold parseTemplateLiteralExpression; sg

theorem coverRound_sg (hJ : SimK r.fuel r'.fuel J) (hr : CallSim J r r')  :
    J (coverRound r) (coverRound r') := by
  unfold coverRound; sg

theorem parseCoverParenthesizedExpression_sg (hJ : SimK r.fuel r'.fuel J) (hr : CallSim J r r')  :
    J (parseCoverParenthesizedExpression r) (parseCoverParenthesizedExpression r') := by
  unfold parseCoverParenthesizedExpression; sg

set_option maxHeartbeats 800000 in
theorem body_sim (hJ : SimK r.fuel r'.fuel J) (hr : CallSim J r r') (f : Fn) :
    J (body r f) (body r' f) := by
  cases f <;> unfold body <;> sg

end


end Jsparse
