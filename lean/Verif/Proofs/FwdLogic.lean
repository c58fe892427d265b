import Verif.Proofs.Take
import Verif.Spec.Fragment
/-!
# Running the parser forward over a known list of tokens

`Fwd F m fl u a m' v`: from every state with the tokens `u` ahead, the methods `F n` (for all large
bounds `n`) succeed with the result `a` and leave the tokens `v`.  `m` and `m'` say how many tokens are
in the lookahead buffer before and after, and whether the hint `expression` is set.
-/

namespace Jsparse.Forward

open P Spec

/-! ## Tokens and hints -/

/-- Tokens that are only read without the hint `expression`. -/
def slashy : Token → Bool
  | .punct .slash => true
  | .punct .slashEq => true
  | _ => false

def isRegexTok : Token → Bool
  | .regex _ _ => true
  | _ => false

/-- Whether the hint `template` allows the token. -/
def compat (template : Bool) : Token → Bool
  | .punct .curlyClose => !template
  | .template .middle _ _ => template
  | .template .tail _ _ => template
  | _ => true

def isWord : Token → Bool
  | .ident _ => true
  | _ => false

/-- The token is the one that is read with this hint. -/
def Fits (h : Hint) (t : Token) : Prop :=
  compat h.template t = true ∧ (slashy t = true → h.expression = false) ∧
    (isRegexTok t = true → h.expression = true)

/-- The tokens that the tokenizer delivers. -/
def Stream : Tokenizer → List Tok → Prop
  | _, [] => True
  | t, x :: w => ∀ h : Hint, Fits h x.2 → ∃ look t', readToken t h = .ok look t' ∧ look.seen = x ∧ Stream t' w

/-! ## Modes -/

/-- What may be the case: the number of buffered tokens (`z`, `o`, `t` for 0, 1, 2) and the value of the
hint `expression` (0, 1 for `false`, `true`). -/
structure Mode where
  z0 : Bool := false
  z1 : Bool := false
  o0 : Bool := false
  o1 : Bool := false
  t0 : Bool := false
  t1 : Bool := false
  deriving DecidableEq

namespace Mode

def has (m : Mode) : Nat → Bool → Bool
  | 0, false => m.z0
  | 0, true => m.z1
  | 1, false => m.o0
  | 1, true => m.o1
  | 2, false => m.t0
  | 2, true => m.t1
  | _, _ => false

def le (a b : Mode) : Bool :=
  (!a.z0 || b.z0) && (!a.z1 || b.z1) && (!a.o0 || b.o0) && (!a.o1 || b.o1) && (!a.t0 || b.t0) &&
    (!a.t1 || b.t1)

theorem le_has {a b : Mode} (h : a.le b = true) {c : Nat} {x : Bool} (ha : a.has c x = true) :
    b.has c x = true := by
  simp only [le, Bool.and_eq_true, Bool.or_eq_true, Bool.not_eq_true'] at h
  obtain ⟨⟨⟨⟨⟨h1, h2⟩, h3⟩, h4⟩, h5⟩, h6⟩ := h
  match c, x with
  | 0, false => simp only [has] at *; simp_all
  | 0, true => simp only [has] at *; simp_all
  | 1, false => simp only [has] at *; simp_all
  | 1, true => simp only [has] at *; simp_all
  | 2, false => simp only [has] at *; simp_all
  | 2, true => simp only [has] at *; simp_all
  | n + 3, false => simp [has] at ha
  | n + 3, true => simp [has] at ha

/-- Reading a token if none is buffered. -/
def fill (m : Mode) : Mode :=
  { z0 := false, z1 := false, o0 := m.z0 || m.z1 || m.o0, o1 := m.o1, t0 := m.t0, t1 := m.t1 }

/-- Removing a token; only names are buffered together with the next token. -/
def pop (word : Bool) (m : Mode) : Mode :=
  { z0 := m.o0, z1 := m.o1, o0 := word && m.t0, o1 := word && m.t1 }

/-- `expect_expression` -/
def expect (m : Mode) : Mode :=
  { z1 := m.z0 || m.z1, o1 := m.o0 || m.o1, t1 := m.t0 || m.t1 }

/-- Looking at the token behind a name. -/
def two (m : Mode) : Mode := { t0 := m.o0 || m.t0, t1 := m.o1 || m.t1 }

/-- A token can be read. -/
def ready (m : Mode) (t : Token) : Bool :=
  (!(slashy t) || !m.z1) && (!(isRegexTok t) || !m.z0)

end Mode

/-- The tokens in the buffer. -/
def held (s : PState) : List Tok :=
  match s.count with
  | 0 => []
  | 1 => [(cur s).seen]
  | _ => [(cur s).seen, (other s).seen]

/-- The state `s` has the tokens `u` ahead. -/
structure At (s : PState) (m : Mode) (fl : Flags) (K : List Flags) (u : List Tok) : Prop where
  flags : s.flags = fl
  stack : s.stack = K
  template : s.hint.template = fl.expectTemplate
  mode : m.has s.count s.hint.expression = true
  second : s.count = 2 → isWord (cur s).token = true
  ahead : ∃ w, Stream s.tok w ∧ u = held s ++ w

theorem has_le_two {m : Mode} {c : Nat} {x : Bool} (h : m.has c x = true) : c ≤ 2 := by
  match c, x with
  | 0, _ => omega
  | 1, _ => omega
  | 2, _ => omega
  | n + 3, false => simp [Mode.has] at h
  | n + 3, true => simp [Mode.has] at h

theorem At.weaken {s : PState} {m m' : Mode} {fl K u} (h : At s m fl K u) (hm : m.le m' = true) :
    At s m' fl K u := { h with mode := Mode.le_has hm h.mode }

theorem count_cases {m : Mode} {c : Nat} {x : Bool} (h : m.has c x = true) : c = 0 ∨ c = 1 ∨ c = 2 := by
  have := has_le_two h
  omega

/-- The token can be read in this mode and with these flags. -/
def Ready (m : Mode) (fl : Flags) (t : Token) : Prop :=
  m.ready t = true ∧ compat fl.expectTemplate t = true

theorem at_fill {s : PState} {m : Mode} {fl K x u} (h : At s m fl K (x :: u)) (hr : Ready m fl x.2) :
    ∃ s', fill s = .ok () s' ∧ At s' m.fill fl K (x :: u) ∧ (cur s').seen = x ∧ s'.count ≠ 0 := by
  obtain ⟨w, hw, hu⟩ := h.ahead
  have hm := h.mode
  rcases count_cases hm with hc | hc | hc
  · simp only [held, hc, List.nil_append] at hu
    subst hu
    have hf : Fits s.hint x.2 := by
      refine ⟨by rw [h.template]; exact hr.2, ?_, ?_⟩
      · intro hs
        have := hr.1
        rw [hc] at hm
        simp only [Mode.ready, hs, Bool.not_true, Bool.false_or, Bool.and_eq_true] at this
        cases hx : s.hint.expression with
        | false => rfl
        | true => rw [hx] at hm; simp [Mode.has] at hm; simp [hm] at this
      · intro hs
        have := hr.1
        rw [hc] at hm
        simp only [Mode.ready, hs, Bool.not_true, Bool.false_or, Bool.and_eq_true] at this
        cases hx : s.hint.expression with
        | true => rfl
        | false => rw [hx] at hm; simp [Mode.has] at hm; simp [hm] at this
    obtain ⟨look, t', h1, h2, h3⟩ := hw s.hint hf
    refine ⟨{ s with tok := t', hint := { s.hint with expression := false }, slot0 := look,
                     index := false, count := s.count + 1 }, ?_, ⟨h.flags, h.stack, h.template, ?_, ?_, ?_⟩, ?_, ?_⟩
    · unfold fill
      rw [if_pos hc, h1]
    · rw [hc] at hm ⊢
      cases hx : s.hint.expression <;> rw [hx] at hm <;> simp [Mode.has] at hm <;> simp [Mode.has, Mode.fill, hm]
    · simp [hc]
    · refine ⟨u, h3, ?_⟩
      simp only [held, hc, cur]
      rw [← h2]
      simp
    · exact h2
    · simp
  · refine ⟨s, ?_, ⟨h.flags, h.stack, h.template, ?_, h.second, h.ahead⟩, ?_, by omega⟩
    · unfold fill
      rw [if_neg (by omega)]
    · rw [hc] at hm ⊢
      cases hx : s.hint.expression <;> rw [hx] at hm <;> simp [Mode.has] at hm <;> simp [Mode.has, Mode.fill, hm]
    · simp only [held, hc, List.cons_append, List.nil_append, List.cons.injEq] at hu
      exact hu.1.symm
  · refine ⟨s, ?_, ⟨h.flags, h.stack, h.template, ?_, h.second, h.ahead⟩, ?_, by omega⟩
    · unfold fill
      rw [if_neg (by omega)]
    · rw [hc] at hm ⊢
      cases hx : s.hint.expression <;> rw [hx] at hm <;> simp [Mode.has] at hm <;> simp [Mode.has, Mode.fill, hm]
    · simp only [held, hc, List.cons_append, List.nil_append, List.cons.injEq] at hu
      exact hu.1.symm

theorem at_pop {s : PState} {m : Mode} {fl K x u} (h : At s m fl K (x :: u)) (hc : s.count ≠ 0)
    (hx : (cur s).seen = x) : At (popState s) (m.pop (isWord x.2)) fl K u := by
  obtain ⟨w, hw, hu⟩ := h.ahead
  have hm := h.mode
  rcases count_cases hm with hc' | hc' | hc'
  · exact absurd hc' hc
  · simp only [held, hc', List.cons_append, List.nil_append, List.cons.injEq] at hu
    refine ⟨h.flags, h.stack, h.template, ?_, ?_, ⟨w, hw, ?_⟩⟩
    · show (m.pop _).has (s.count - 1) s.hint.expression = true
      rw [hc'] at hm ⊢
      cases hb : s.hint.expression <;> rw [hb] at hm <;> simp [Mode.has] at hm <;> simp [Mode.has, Mode.pop, hm]
    · show s.count - 1 = 2 → _
      omega
    · simp [held, popState, hc', hu.2]
  · simp only [held, hc', List.cons_append, List.nil_append, List.cons.injEq] at hu
    have hword : isWord x.2 = true := by
      rw [← hx]
      exact h.second hc'
    refine ⟨h.flags, h.stack, h.template, ?_, ?_, ⟨w, hw, ?_⟩⟩
    · show (m.pop _).has (s.count - 1) s.hint.expression = true
      rw [hword]
      rw [hc'] at hm ⊢
      cases hb : s.hint.expression <;> rw [hb] at hm <;> simp [Mode.has] at hm <;> simp [Mode.has, Mode.pop, hm]
    · show s.count - 1 = 2 → _
      omega
    · rw [hu.2]
      cases hi : s.index <;> simp [held, popState, hc', cur, other, hi]

theorem at_expect {s : PState} {m : Mode} {fl K u} (h : At s m fl K u) :
    At { s with hint := { s.hint with expression := true } } m.expect fl K u := by
  have hm := h.mode
  refine ⟨h.flags, h.stack, h.template, ?_, h.second, h.ahead⟩
  show m.expect.has s.count true = true
  rcases count_cases hm with hc | hc | hc <;> rw [hc] at hm ⊢ <;>
    cases hx : s.hint.expression <;> rw [hx] at hm <;> simp [Mode.has] at hm <;> simp [Mode.has, Mode.expect, hm]

/-- The token behind a name can be read when the name is looked at. -/
def LookOk (fl : Flags) (n : Bytes) (t : Token) : Prop :=
  compat fl.expectTemplate t = true ∧ (slashy t = true → isBindingIdentifier fl n = true) ∧
    (isRegexTok t = true → isBindingIdentifier fl n = false)

theorem at_two {s : PState} {m : Mode} {fl K l n y u} (h : At s m fl K ((l, .ident n) :: y :: u))
    (hc : s.count ≠ 0) (hx : (cur s).seen = (l, .ident n)) (hy : LookOk fl n y.2) :
    ∃ s', lookSecond s = .ok (some y) s' ∧ At s' m.two fl K ((l, .ident n) :: y :: u) := by
  obtain ⟨w, hw, hu⟩ := h.ahead
  have hm := h.mode
  have ht : (cur s).token = .ident n := congrArg Prod.snd hx
  rcases count_cases hm with hc' | hc' | hc'
  · exact absurd hc' hc
  · simp only [held, hc', List.cons_append, List.nil_append, List.cons.injEq] at hu
    obtain ⟨hu1, rfl⟩ := hu
    have hf : Fits { s.hint with expression := !isBindingIdentifier s.flags n } y.2 := by
      rw [h.flags]
      exact ⟨by rw [← hy.1, ← h.template], fun hs => by simp [hy.2.1 hs], fun hs => by simp [hy.2.2 hs]⟩
    obtain ⟨look, t', h1, h2, h3⟩ := hw _ hf
    refine ⟨{ s with tok := t', slot0 := if s.index then look else s.slot0,
                     slot1 := if s.index then s.slot1 else look, count := s.count + 1 }, ?_,
      ⟨h.flags, h.stack, h.template, ?_, ?_, u, h3, ?_⟩⟩
    · unfold lookSecond
      rw [if_pos (by omega), ht]
      simp only [h1, h2]
    · show m.two.has (s.count + 1) s.hint.expression = true
      rw [hc'] at hm ⊢
      cases hb : s.hint.expression <;> rw [hb] at hm <;> simp [Mode.has] at hm <;> simp [Mode.has, Mode.two, hm]
    · intro _
      cases hi : s.index <;> simp [cur, hi] at ht ⊢ <;> rw [ht] <;> rfl
    · rw [hu1, ← h2]
      cases hi : s.index <;> simp [held, hc', cur, other, hi]
  · simp only [held, hc', List.cons_append, List.nil_append, List.cons.injEq] at hu
    refine ⟨s, ?_, ⟨h.flags, h.stack, h.template, ?_, h.second, h.ahead⟩⟩
    · unfold lookSecond
      rw [if_neg (by omega), hu.2.1]
    · rw [hc'] at hm ⊢
      cases hb : s.hint.expression <;> rw [hb] at hm <;> simp [Mode.has] at hm <;> simp [Mode.has, Mode.two, hm]

theorem at_notWord {s : PState} {m : Mode} {fl K x u} (h : At s m fl K (x :: u))
    (hx : (cur s).seen = x) (hw : isWord x.2 = false) : lookSecond s = .ok none s := by
  have hm := h.mode
  have ht : isWord (cur s).token = false := by rw [← hw, ← hx]; rfl
  unfold lookSecond
  rw [if_pos]
  · revert ht
    cases (cur s).token <;> simp [isWord]
  · rcases count_cases hm with hc | hc | hc
    · omega
    · omega
    · have := h.second hc
      rw [ht] at this
      cases this

/-! ## The logic -/

theorem bind_ok {α β : Type} {p : P α} {k : α → P β} {s s' : PState} {a : α} (h : p s = .ok a s') :
    (p >>= k) s = k a s' := by
  rw [bind_apply, h]

/-- The methods succeed with `a`, whenever the bound is large enough. -/
def Ends {α : Type} (F : Nat → P α) (s : PState) (a : α) (s' : PState) : Prop :=
  ∃ N, ∀ n, N ≤ n → F n s = .ok a s'

def Fwd {α : Type} (F : Nat → P α) (m : Mode) (fl : Flags) (u : List Tok) (a : α) (m' : Mode)
    (v : List Tok) : Prop :=
  ∀ K s, At s m fl K u → ∃ s', Ends F s a s' ∧ At s' m' fl K v

namespace Fwd

variable {α β : Type} {m m' m₁ m₂ : Mode} {fl : Flags} {u u₁ v : List Tok}

theorem pure {a : α} : Fwd (fun _ => Pure.pure a) m fl u a m u :=
  fun _ s h => ⟨s, ⟨0, fun _ _ => rfl⟩, h⟩

theorem bind {F : Nat → P α} {G : Nat → α → P β} {a : α} {b : β} (h₁ : Fwd F m fl u a m₁ u₁)
    (h₂ : Fwd (fun n => G n a) m₁ fl u₁ b m₂ v) : Fwd (fun n => F n >>= G n) m fl u b m₂ v := by
  intro K s h
  obtain ⟨s₁, ⟨N₁, e₁⟩, a₁⟩ := h₁ K s h
  obtain ⟨s₂, ⟨N₂, e₂⟩, a₂⟩ := h₂ K s₁ a₁
  refine ⟨s₂, ⟨max N₁ N₂, fun n hn => ?_⟩, a₂⟩
  exact (bind_ok (e₁ n (by omega))).trans (e₂ n (by omega))

theorem pre {F : Nat → P α} {a : α} (h : Fwd F m fl u a m' v) (hm : m₁.le m = true) :
    Fwd F m₁ fl u a m' v := fun K s hs => h K s (hs.weaken hm)

theorem post {F : Nat → P α} {a : α} (h : Fwd F m fl u a m' v) (hm : m'.le m₁ = true) :
    Fwd F m fl u a m₁ v := by
  intro K s hs
  obtain ⟨s', e, h'⟩ := h K s hs
  exact ⟨s', e, h'.weaken hm⟩

theorem congr {F G : Nat → P α} {a : α} (h : Fwd F m fl u a m' v) (hg : ∀ n, G n = F n) :
    Fwd G m fl u a m' v := by
  intro K s hs
  obtain ⟨s', ⟨N, e⟩, h'⟩ := h K s hs
  exact ⟨s', ⟨N, fun n hn => by rw [hg]; exact e n hn⟩, h'⟩

theorem const {f : P α} {a : α} (h : ∀ K s, At s m fl K u → ∃ s', f s = .ok a s' ∧ At s' m' fl K v) :
    Fwd (fun _ => f) m fl u a m' v := by
  intro K s hs
  obtain ⟨s', e, h'⟩ := h K s hs
  exact ⟨s', ⟨0, fun _ _ => e⟩, h'⟩

/-- A call of a method. -/
theorem call {f : Fn} {a : Option Unit} (h : Fwd (fun n => body (recOf n) f) m fl u a m' v) :
    Fwd (fun n => run n f) m fl u a m' v := by
  intro K s hs
  obtain ⟨s', ⟨N, e⟩, h'⟩ := h K s hs
  refine ⟨s', ⟨N + 1, fun n hn => ?_⟩, h'⟩
  obtain ⟨k, rfl⟩ : ∃ k, n = k + 1 := ⟨n - 1, by omega⟩
  exact e k (by omega)

theorem getFlags {fl : Flags} : Fwd (fun _ => P.getFlags) m fl u fl m u :=
  const fun _ s h => ⟨s, by rw [← h.flags]; rfl, h⟩

theorem expect : Fwd (fun _ => expectExpression) m fl u () m.expect u :=
  const fun _ _ h => ⟨_, rfl, at_expect h⟩

theorem tokenAndLine {x : Tok} (hr : Ready m fl x.2) :
    Fwd (fun _ => P.tokenAndLine) m fl (x :: u) x m.fill (x :: u) :=
  const fun _ s h => by
    obtain ⟨s', e, h', hx, _⟩ := at_fill h hr
    exact ⟨s', by rw [tokenAndLine_apply, e]; simp only [hx], h'⟩

theorem token {x : Tok} (hr : Ready m fl x.2) :
    Fwd (fun _ => P.token) m fl (x :: u) x.2 m.fill (x :: u) := bind (tokenAndLine hr) pure

theorem noLine {x : Tok} (hr : Ready m fl x.2) :
    Fwd (fun _ => noLineTerminator) m fl (x :: u) (!x.1) m.fill (x :: u) := bind (tokenAndLine hr) pure

theorem take {f : Bool → Token → Option α} {x : Tok} {a : α} (hr : Ready m fl x.2) (hf : f x.1 x.2 = some a) :
    Fwd (fun _ => takeIf f) m fl (x :: u) (some a) (m.fill.pop (isWord x.2)) u :=
  const fun _ s h => by
    obtain ⟨s', e, h', hx, hc⟩ := at_fill h hr
    refine ⟨popState s', ?_, at_pop h' hc hx⟩
    unfold takeIf
    rw [e]
    have h1 : (cur s').line = x.1 := congrArg Prod.fst hx
    have h2 : (cur s').token = x.2 := congrArg Prod.snd hx
    simp only [h1, h2, hf]

theorem leave {f : Bool → Token → Option α} {x : Tok} (hr : Ready m fl x.2) (hf : f x.1 x.2 = none) :
    Fwd (fun _ => takeIf f) m fl (x :: u) none m.fill (x :: u) :=
  const fun _ s h => by
    obtain ⟨s', e, h', hx, hc⟩ := at_fill h hr
    refine ⟨s', ?_, h'⟩
    unfold takeIf
    rw [e]
    have h1 : (cur s').line = x.1 := congrArg Prod.fst hx
    have h2 : (cur s').token = x.2 := congrArg Prod.snd hx
    simp only [h1, h2, hf]

/-- `pop` of a token that was looked at. -/
theorem pop {x : Tok} (hm : m.z0 = false ∧ m.z1 = false) :
    Fwd (fun _ => P.pop) m fl (x :: u) x.2 (m.pop (isWord x.2)) u :=
  const fun _ s h => by
    have hc : s.count ≠ 0 := by
      intro hc
      have := h.mode
      rw [hc] at this
      cases hx : s.hint.expression <;> rw [hx] at this <;> simp [Mode.has, hm] at this
    have hx : (cur s).seen = x := by
      obtain ⟨w, _, hu⟩ := h.ahead
      have := count_cases h.mode
      rcases this with h0 | h0 | h0
      · exact absurd h0 hc
      · simp only [held, h0, List.cons_append, List.nil_append, List.cons.injEq] at hu
        exact hu.1.symm
      · simp only [held, h0, List.cons_append, List.nil_append, List.cons.injEq] at hu
        exact hu.1.symm
    refine ⟨popState s, ?_, at_pop h hc hx⟩
    rw [pop_eq hc, ← hx]
    rfl

theorem two {l n y} (hr : Ready m fl (.ident n)) (hy : LookOk fl n y.2) :
    Fwd (fun _ => identLookahead) m fl (kw l n :: y :: u) (some y) m.fill.two (kw l n :: y :: u) :=
  const fun _ s h => by
    obtain ⟨s', e, h', hx, hc⟩ := at_fill h hr
    obtain ⟨s'', e', h''⟩ := at_two h' hc hx hy
    exact ⟨s'', by rw [identLookahead_apply, e]; exact e', h''⟩

theorem one {x : Tok} (hr : Ready m fl x.2) (hx : isWord x.2 = false) :
    Fwd (fun _ => identLookahead) m fl (x :: u) none m.fill (x :: u) :=
  const fun _ s h => by
    obtain ⟨s', e, h', hs, hc⟩ := at_fill h hr
    exact ⟨s', by rw [identLookahead_apply, e]; exact at_notWord h' hs hx, h'⟩

theorem eat {F : Nat → P (Option α)} {a : α} (h : Fwd F m fl u (some a) m' v) :
    Fwd (fun n => P.eat (F n)) m fl u a m' v := bind h pure

theorem must {F : Nat → P (Option Unit)} (h : Fwd F m fl u (some ()) m' v) :
    Fwd (fun n => Jsparse.must (F n)) m fl u (some ()) m' v := bind (eat h) pure

theorem orTry_first {F G : Nat → P (Option α)} {a : α} (h : Fwd F m fl u (some a) m' v) :
    Fwd (fun n => orTry (F n) (G n)) m fl u (some a) m' v := bind h pure

theorem orTry_second {F G : Nat → P (Option α)} {b : Option α} (h₁ : Fwd F m fl u none m₁ u₁)
    (h₂ : Fwd G m₁ fl u₁ b m' v) : Fwd (fun n => orTry (F n) (G n)) m fl u b m' v := bind h₁ h₂

/-- The flags after `push_flags`. -/
def setFlag (flag : Flag) (val : Bool) (fl : Flags) : Flags :=
  match flag with
  | .fin => { fl with allowIn := val }
  | .yield => { fl with allowYield := val }
  | .await => { fl with allowAwait := val }
  | .return => { fl with allowReturn := val }
  | .default => { fl with allowDefault := val }
  | .module => { fl with isModule := val }
  | .strict => { fl with isStrict := val }
  | .template => { fl with expectTemplate := val }
  | .noop => fl

theorem at_push {s : PState} {K} (flag : Flag) (val : Bool) (h : At s m fl K u) :
    At (pushFlags flag val s) m (setFlag flag val fl) (fl :: K) u := by
  have h1 := h.flags
  have h2 := h.stack
  have h3 := h.template
  subst h1 h2
  cases flag <;> exact ⟨rfl, rfl, by first | rfl | exact h3, h.mode, h.second, h.ahead⟩

theorem withFlag {flag : Flag} {val : Bool} {F : Nat → P α} {a : α}
    (h : Fwd F m (setFlag flag val fl) u a m' v) : Fwd (fun n => P.withFlag flag val (F n)) m fl u a m' v := by
  intro K s hs
  obtain ⟨s', ⟨N, e⟩, h'⟩ := h _ _ (at_push flag val hs)
  refine ⟨{ s' with flags := fl, stack := K, hint := { s'.hint with template := fl.expectTemplate } },
    ⟨N, fun n hn => ?_⟩, rfl, rfl, rfl, h'.mode, h'.second, h'.ahead⟩
  refine (bind_ok (p := F n) (e n hn)).trans ?_
  have : popFlags s' = .ok () { s' with flags := fl, stack := K, hint := { s'.hint with template := fl.expectTemplate } } := by
    unfold popFlags
    rw [h'.stack]
  exact bind_ok this

end Fwd

/-! ## Loops -/

def LoopFwd {σ β : Type} (B : Nat → σ → P (σ ⊕ β)) (st : σ) (m : Mode) (fl : Flags) (u : List Tok) (b : β)
    (m' : Mode) (v : List Tok) : Prop :=
  ∀ K s, At s m fl K u → ∃ s', (∃ N, ∀ n, N ≤ n → ∀ k, N ≤ k → loop k (B n) st s = .ok b s') ∧ At s' m' fl K v

namespace LoopFwd

variable {σ β : Type} {B : Nat → σ → P (σ ⊕ β)} {st st' : σ} {m m' m₁ : Mode} {fl : Flags}
  {u u₁ v : List Tok} {b : β}

theorem stop (h : Fwd (fun n => B n st) m fl u (.inr b) m' v) : LoopFwd B st m fl u b m' v := by
  intro K s hs
  obtain ⟨s', ⟨N, e⟩, h'⟩ := h K s hs
  refine ⟨s', ⟨N + 1, fun n hn k hk => ?_⟩, h'⟩
  obtain ⟨k, rfl⟩ : ∃ j, k = j + 1 := ⟨k - 1, by omega⟩
  rw [loop]
  exact bind_ok (e n (by omega))

theorem next (h : Fwd (fun n => B n st) m fl u (.inl st') m₁ u₁) (h₁ : LoopFwd B st' m₁ fl u₁ b m' v) :
    LoopFwd B st m fl u b m' v := by
  intro K s hs
  obtain ⟨s', ⟨N, e⟩, h'⟩ := h K s hs
  obtain ⟨s'', ⟨N', e'⟩, h''⟩ := h₁ K s' h'
  refine ⟨s'', ⟨max N N' + 1, fun n hn k hk => ?_⟩, h''⟩
  obtain ⟨k, rfl⟩ : ∃ j, k = j + 1 := ⟨k - 1, by omega⟩
  rw [loop]
  exact (bind_ok (e n (by omega))).trans (e' n (by omega) k (by omega))

theorem pre (h : LoopFwd B st m fl u b m' v) (hm : m₁.le m = true) : LoopFwd B st m₁ fl u b m' v :=
  fun K s hs => h K s (hs.weaken hm)

theorem post (h : LoopFwd B st m fl u b m' v) (hm : m'.le m₁ = true) : LoopFwd B st m fl u b m₁ v := by
  intro K s hs
  obtain ⟨s', e, h'⟩ := h K s hs
  exact ⟨s', e, h'.weaken hm⟩

theorem fwd (h : LoopFwd B st m fl u b m' v) :
    Fwd (fun n => loop (recOf n).fuel (B n) st) m fl u b m' v := by
  intro K s hs
  obtain ⟨s', ⟨N, e⟩, h'⟩ := h K s hs
  exact ⟨s', ⟨N, fun n hn => e n hn n hn⟩, h'⟩

end LoopFwd

/-- The body of `whileSome`. -/
def whileBody (f : Fn) (n : Nat) (_ : Unit) : P (Unit ⊕ Unit) := do
  match ← run n f with
  | some _ => return .inl ()
  | none => return .inr ()

theorem LoopFwd.whileSome {f : Fn} {m m' : Mode} {fl : Flags} {u v : List Tok}
    (h : LoopFwd (whileBody f) () m fl u () m' v) :
    Fwd (fun n => P.whileSome (recOf n).fuel ((recOf n).call f)) m fl u () m' v := by
  refine h.fwd.congr fun n => ?_
  unfold P.whileSome
  congr 1
  funext x
  unfold whileBody
  show (run n f >>= _) = _
  congr 1
  funext a
  cases a <;> rfl

/-! ## Methods that look at the next token first -/

/-- Reading the next token beforehand makes no difference. -/
def FillFirst {α : Type} (p : P α) : Prop := ∀ s s', fill s = .ok () s' → p s = p s'

theorem fill_again {s s' : PState} (h : fill s = .ok () s') : fill s' = .ok () s' := by
  have := fill_count h
  unfold fill
  rw [if_neg this]

theorem fill_flags {s s' : PState} (h : fill s = .ok () s') : s'.flags = s.flags := by
  unfold fill at h
  split at h
  · split at h
    · injection h with _ h
      subst h
      rfl
    · cases h
    · cases h
  · injection h with _ h
    subst h
    rfl

theorem FillFirst.bind {α β : Type} {p : P α} {k : α → P β} (h : FillFirst p) : FillFirst (p >>= k) := by
  intro s s' hs
  rw [bind_apply, bind_apply, h s s' hs]

theorem FillFirst.flags {β : Type} {k : Flags → P β} (h : ∀ fl, FillFirst (k fl)) :
    FillFirst (getFlags >>= k) := by
  intro s s' hs
  have := fill_flags hs
  rw [bind_apply, bind_apply]
  show k s.flags s = k s'.flags s'
  rw [this]
  exact h _ s s' hs

theorem FillFirst.takeIf {β : Type} (f : Bool → Token → Option β) : FillFirst (takeIf f) := by
  intro s s' hs
  unfold Jsparse.takeIf
  rw [hs, fill_again hs]

theorem FillFirst.tokenAndLine : FillFirst tokenAndLine := by
  intro s s' hs
  rw [tokenAndLine_apply, tokenAndLine_apply, hs, fill_again hs]

theorem FillFirst.token : FillFirst token := FillFirst.bind .tokenAndLine

theorem FillFirst.run_zero (f : Fn) : FillFirst (run 0 f) := fun _ _ _ => rfl

theorem Fwd.enter {α : Type} {F : Nat → P α} {m m' : Mode} {fl : Flags} {x : Tok} {u v : List Tok} {a : α}
    (hF : ∀ n, FillFirst (F n)) (hr : Ready m fl x.2) (h : Fwd F m.fill fl (x :: u) a m' v) :
    Fwd F m fl (x :: u) a m' v := by
  intro K s hs
  obtain ⟨s₁, e₁, h₁, _, _⟩ := at_fill hs hr
  obtain ⟨s', ⟨N, e⟩, h'⟩ := h K s₁ h₁
  exact ⟨s', ⟨N, fun n hn => by rw [hF n s s₁ e₁]; exact e n hn⟩, h'⟩

theorem LoopFwd.enter {σ β : Type} {B : Nat → σ → P (σ ⊕ β)} {st : σ} {m m' : Mode} {fl : Flags} {x : Tok}
    {u v : List Tok} {b : β} (hF : ∀ n, FillFirst (B n st)) (hr : Ready m fl x.2)
    (h : LoopFwd B st m.fill fl (x :: u) b m' v) : LoopFwd B st m fl (x :: u) b m' v := by
  intro K s hs
  obtain ⟨s₁, e₁, h₁, _, _⟩ := at_fill hs hr
  obtain ⟨s', ⟨N, e⟩, h'⟩ := h K s₁ h₁
  refine ⟨s', ⟨N + 1, fun n hn k hk => ?_⟩, h'⟩
  have := e n (by omega) k (by omega)
  obtain ⟨k, rfl⟩ : ∃ j, k = j + 1 := ⟨k - 1, by omega⟩
  rw [loop] at this ⊢
  rw [FillFirst.bind (hF n) s s₁ e₁]
  exact this

/-! ## Token tests -/

section tests

variable {m : Mode} {fl : Flags} {u : List Tok}

theorem Fwd.punc {l q} (hr : Ready m fl (.punct q)) :
    Fwd (fun _ => P.punc q) m fl (pt l q :: u) (some q) (m.fill.pop false) u := by
  rw [punc_eq]
  exact Fwd.take hr (by simp [isPunc])

theorem Fwd.noPunc {x : Tok} {q} (hr : Ready m fl x.2) (hx : x.2 ≠ .punct q) :
    Fwd (fun _ => P.punc q) m fl (x :: u) none m.fill (x :: u) := by
  rw [punc_eq]
  exact Fwd.leave hr (by simp [isPunc, hx])

theorem Fwd.keyword {l k} (hr : Ready m fl (.ident k)) :
    Fwd (fun _ => P.keyword k) m fl (kw l k :: u) (some k) (m.fill.pop true) u := by
  rw [keyword_eq]
  exact Fwd.take hr (by simp [isKeyword])

theorem Fwd.noKeyword {x : Tok} {k} (hr : Ready m fl x.2) (hx : x.2 ≠ .ident k) :
    Fwd (fun _ => P.keyword k) m fl (x :: u) none m.fill (x :: u) := by
  rw [keyword_eq]
  exact Fwd.leave hr (by simp [isKeyword, hx])

theorem Fwd.binding {l n} (hr : Ready m fl (.ident n)) (hn : isBindingIdentifier fl n = true) :
    Fwd (fun _ => bindingIdentifier) m fl (kw l n :: u) (some n) (m.fill.pop true) u := by
  rw [bindingIdentifier_eq]
  exact Fwd.bind Fwd.getFlags (Fwd.take (f := isBinding fl) hr (by simp [isBinding, hn]))

theorem Fwd.noBinding {x : Tok} (hr : Ready m fl x.2)
    (hx : ∀ n, x.2 = .ident n → isBindingIdentifier fl n = false) :
    Fwd (fun _ => bindingIdentifier) m fl (x :: u) none m.fill (x :: u) := by
  rw [bindingIdentifier_eq]
  refine Fwd.bind Fwd.getFlags (Fwd.leave (f := isBinding fl) hr ?_)
  cases h : x.2 with
  | ident n => simp [isBinding, hx n h]
  | _ => rfl

theorem Fwd.identifier {l n} (hr : Ready m fl (.ident n)) :
    Fwd (fun _ => P.identifier) m fl (kw l n :: u) (some n) (m.fill.pop true) u := by
  rw [identifier_eq]
  exact Fwd.take (f := isIdent) hr rfl

theorem Fwd.noIdentifier {x : Tok} (hr : Ready m fl x.2) (hx : isWord x.2 = false) :
    Fwd (fun _ => P.identifier) m fl (x :: u) none m.fill (x :: u) := by
  rw [identifier_eq]
  refine Fwd.leave (f := isIdent) hr ?_
  cases h : x.2 with
  | ident n => rw [h] at hx; cases hx
  | _ => rfl

theorem Fwd.string {l x} (hr : Ready m fl (.str x)) :
    Fwd (fun _ => P.string) m fl ((l, .str x) :: u) (some x) (m.fill.pop false) u := by
  rw [string_eq]
  exact Fwd.take (f := isStr) hr rfl

theorem Fwd.noString {x : Tok} (hr : Ready m fl x.2) (hx : ∀ y, x.2 ≠ .str y) :
    Fwd (fun _ => P.string) m fl (x :: u) none m.fill (x :: u) := by
  rw [string_eq]
  refine Fwd.leave (f := isStr) hr ?_
  cases h : x.2 with
  | str n => exact absurd h (hx n)
  | _ => rfl

theorem Fwd.numeric {l x} (hr : Ready m fl (.num x)) :
    Fwd (fun _ => P.numeric) m fl ((l, .num x) :: u) (some x) (m.fill.pop false) u := by
  rw [numeric_eq]
  exact Fwd.take (f := isNum) hr rfl

theorem Fwd.noNumeric {x : Tok} (hr : Ready m fl x.2) (hx : ∀ y, x.2 ≠ .num y) :
    Fwd (fun _ => P.numeric) m fl (x :: u) none m.fill (x :: u) := by
  rw [numeric_eq]
  refine Fwd.leave (f := isNum) hr ?_
  cases h : x.2 with
  | num n => exact absurd h (hx n)
  | _ => rfl

theorem Fwd.regex {l x y} (hr : Ready m fl (.regex x y)) :
    Fwd (fun _ => P.regex) m fl ((l, .regex x y) :: u) (some (x, y)) (m.fill.pop false) u := by
  rw [regex_eq]
  exact Fwd.take (f := isRegex) hr rfl

theorem Fwd.templateStart {l f x y} (hr : Ready m fl (.template f x y))
    (hf : f = .noSubstitution ∨ f = .head) :
    Fwd (fun _ => P.template) m fl ((l, .template f x y) :: u) (some f) (m.fill.pop false) u := by
  rw [template_eq]
  refine Fwd.take (f := isTemplate) hr ?_
  rcases hf with rfl | rfl <;> rfl

theorem Fwd.templateNext {l f x y} (hr : Ready m fl (.template f x y)) (hf : f = .middle ∨ f = .tail) :
    Fwd (fun _ => P.templateTail) m fl ((l, .template f x y) :: u) (some f) (m.fill.pop false) u := by
  rw [templateTail_eq]
  refine Fwd.take (f := isTemplateTail) hr ?_
  rcases hf with rfl | rfl <;> rfl

theorem Fwd.eof {l} (hr : Ready m fl .eof) :
    Fwd (fun _ => P.eof) m fl ((l, .eof) :: u) (some ()) (m.fill.pop false) u := by
  rw [eof_eq]
  exact Fwd.take (f := isEof) hr rfl

end tests

end Jsparse.Forward
