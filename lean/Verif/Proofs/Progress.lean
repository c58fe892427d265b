import Verif.Proofs.Invariant
import Verif.Props.Positions
/-!
# Progress: every method consumes tokens or calls methods of lower rank

`Tr t0 R n lv m post`: the piece of code `m`, run after progress `lv` since the start of the method,
does not run out of the bound `n`, and if it returns `a` then with a progress `l` such that `post a l`.
-/

namespace Jsparse

open Spec P

/-- Progress since some earlier state. -/
inductive Lv where
  /-- no token was consumed -/
  | same
  /-- nothing is known -/
  | any
  /-- some text was consumed, or the tokenizer is stuck -/
  | weak
  /-- some text was consumed -/
  | strong
  deriving DecidableEq

/-- The amount of text not consumed by the tokens removed. -/
def mu (t0 : Tokenizer) (s : PState) : Nat := t0.code.length - endOf s.log

def Lv.holds (t0 : Tokenizer) (s0 s : PState) : Lv → Prop
  | .same => s.log = s0.log
  | .any => True
  | .weak => mu t0 s < mu t0 s0 ∨ Stuck s
  | .strong => mu t0 s < mu t0 s0

@[reducible] def comp : Lv → Lv → Lv
  | .strong, _ => .strong
  | _, .strong => .strong
  | .weak, _ => .weak
  | _, .weak => .weak
  | .same, l => l
  | .any, _ => .any

def Lv.le : Lv → Lv → Bool
  | _, .any => true
  | .same, .same => true
  | .weak, .weak => true
  | .strong, .weak => true
  | .strong, .strong => true
  | _, _ => false

/-- The states in between. -/
structure Ext (s0 s : PState) : Prop where
  log : ∃ l, s.log = s0.log ++ l
  stuck : Stuck s0 → Stuck s

theorem Step.ext {s s' : PState} (h : Step s s') : Ext s s' := by
  obtain ⟨l, h1, -⟩ := h.log
  exact ⟨⟨l, h1⟩, h.stuck⟩

theorem Ext.trans {s1 s2 s3 : PState} (h : Ext s1 s2) (h' : Ext s2 s3) : Ext s1 s3 := by
  obtain ⟨l1, h1⟩ := h.log
  obtain ⟨l2, h2⟩ := h'.log
  exact ⟨⟨l1 ++ l2, by rw [h2, h1, List.append_assoc]⟩, h'.stuck ∘ h.stuck⟩

theorem Ext.refl (s : PState) : Ext s s := ⟨⟨[], by simp⟩, id⟩

section

variable {t0 : Tokenizer}

theorem Delivered.prefix_le (hv : Valid t0) (h0 : t0.position.offset = 0)
    {a : List Look} (b : List Look) : ∀ {t}, Delivered t0 (a ++ b) t → endOf a ≤ endOf (a ++ b) := by
  induction b using snoc_induction with
  | nil => intro t _; simp
  | append_singleton b x ih =>
    intro t h
    rw [← List.append_assoc] at h ⊢
    obtain ⟨t1, hint, h1, -⟩ := h.snoc_inv
    have h2 := ih h1
    obtain ⟨h3, -, h4⟩ := h.order hv h0
    rw [endOf_snoc]
    rcases h4 with h4 | ⟨h4, -⟩ <;> omega

/-- A prefix of a delivered sequence is delivered. -/
theorem Delivered.front {a : List Look} (b : List Look) :
    ∀ {t}, Delivered t0 (a ++ b) t → ∃ t', Delivered t0 a t' := by
  induction b using snoc_induction with
  | nil => intro t h; exact ⟨t, by simpa using h⟩
  | append_singleton b x ih =>
    intro t h
    rw [← List.append_assoc] at h
    obtain ⟨t1, hint, h1, -⟩ := h.snoc_inv
    exact ih h1

/-- The start of a text. -/
structure Start (t0 : Tokenizer) : Prop where
  valid : Valid t0
  zero : t0.position.offset = 0

theorem mu_le (hv : Start t0) {s s' : PState} (hs' : Inv t0 s') (h : Ext s s') : mu t0 s' ≤ mu t0 s := by
  obtain ⟨l, hl⟩ := h.log
  have hst := hs'.stream
  obtain ⟨t1, h1⟩ := hst.front _
  rw [hl] at h1
  have := h1.prefix_le hv.valid hv.zero l
  unfold mu
  rw [hl]
  omega

theorem Lv.holds_comp (hv : Start t0) {s0 s s' : PState} (hs : Inv t0 s) (hs' : Inv t0 s')
    (h : Ext s0 s) (h' : Ext s s')
    {a b : Lv} (ha : a.holds t0 s0 s) (hb : b.holds t0 s s') : (comp a b).holds t0 s0 s' := by
  have h1 := mu_le hv hs' h'
  have h2 := mu_le hv hs h
  cases a <;> cases b <;> simp only [Lv.holds] at ha hb ⊢
  · rw [hb, ha]
  · rcases hb with hb | hb
    · exact .inl (by omega)
    · exact .inr hb
  · omega
  · rcases hb with hb | hb
    · exact .inl (by omega)
    · exact .inr hb
  · omega
  · rcases ha with ha | ha
    · exact .inl (by omega)
    · exact .inr (h'.stuck ha)
  · rcases ha with ha | ha
    · exact .inl (by omega)
    · exact .inr (h'.stuck ha)
  · rcases hb with hb | hb
    · exact .inl (by omega)
    · exact .inr hb
  · omega
  all_goals omega

theorem Lv.holds_same (hv : Start t0) {s0 s s' : PState} (hs : Inv t0 s) (hs' : Inv t0 s')
    (h : Ext s0 s) (h' : Ext s s') (hl : s'.log = s.log) {a : Lv} (ha : a.holds t0 s0 s) :
    a.holds t0 s0 s' := by
  have : (comp a .same).holds t0 s0 s' := Lv.holds_comp hv hs hs' h h' ha hl
  cases a <;> exact this

theorem Lv.holds_le {s0 s : PState} {a b : Lv} (h : a.le b = true) (ha : a.holds t0 s0 s) :
    b.holds t0 s0 s := by
  cases a <;> cases b <;> simp only [Lv.le, Lv.holds, reduceCtorEq] at h ha ⊢
  all_goals first | exact ha | exact .inl ha

def Tr (t0 : Tokenizer) (R n : Nat) (lv : Lv) {α : Type} (m : P α) (post : α → Lv → Prop) : Prop :=
  ∀ s0 s, Inv t0 s0 → Inv t0 s → Ext s0 s → lv.holds t0 s0 s → 64 * mu t0 s0 + R ≤ n →
    match m s with
    | .ok a s' => Inv t0 s' ∧ Step s s' ∧ ∃ l, post a l ∧ l.holds t0 s0 s'
    | .timeout => False
    | .err _ _ => True
    | .panic _ => True

variable {R n : Nat} {lv : Lv} {α β : Type}

theorem pure_tm {a : α} {post : α → Lv → Prop} (h : post a lv) : Tr t0 R n lv (pure a) post :=
  fun _ s _ hs _ hl _ => ⟨hs, .refl s, lv, h, hl⟩

theorem bind_tm {m : P α} {k : α → P β} {post : β → Lv → Prop}
    (h : Tr t0 R n lv m fun a l => Tr t0 R n l (k a) post) : Tr t0 R n lv (m >>= k) post := by
  intro s0 s h0 hs he hl hn
  rw [bind_apply]
  have h1 := h s0 s h0 hs he hl hn
  cases hm : m s with
  | ok a s1 =>
    rw [hm] at h1
    obtain ⟨h2, h3, l, h4, h5⟩ := h1
    have h6 := h4 s0 s1 h0 h2 (he.trans h3.ext) h5 hn
    simp only
    cases hk : k a s1 with
    | ok b s2 =>
      rw [hk] at h6
      exact ⟨h6.1, h3.trans h6.2.1, h6.2.2⟩
    | timeout => rw [hk] at h6; exact h6
    | err e => trivial
    | panic p => trivial
  | timeout => rw [hm] at h1; exact h1
  | err e => trivial
  | panic p => trivial

theorem map_tm {m : P α} {f : α → β} {post : β → Lv → Prop}
    (h : Tr t0 R n lv m fun a l => post (f a) l) : Tr t0 R n lv (f <$> m) post := by
  have : Tr t0 R n lv (m >>= fun a => pure (f a)) post := by
    refine bind_tm ?_
    intro s0 s h0 hs he hl hn
    have h1 := h s0 s h0 hs he hl hn
    cases hm : m s with
    | ok a s1 =>
      rw [hm] at h1
      obtain ⟨h2, h3, l, h4, h5⟩ := h1
      exact ⟨h2, h3, l, pure_tm h4, h5⟩
    | timeout => rw [hm] at h1; exact h1
    | err e => trivial
    | panic p => trivial
  exact this

theorem fail_tm {e : ParseErr} {post : α → Lv → Prop} : Tr t0 R n lv (P.fail e) post :=
  fun _ _ _ _ _ _ _ => trivial

theorem panic_tm {e : Panic} {post : α → Lv → Prop} : Tr t0 R n lv (P.panic e) post :=
  fun _ _ _ _ _ _ _ => trivial

/-- The method does not consume anything. -/
def Quiet (t0 : Tokenizer) {α : Type} (m : P α) (s : PState) : Prop :=
  match m s with
  | .ok _ s' => Inv t0 s' ∧ Step s s' ∧ s'.log = s.log
  | .timeout => False
  | .err _ _ => True
  | .panic _ => True

theorem quiet_tm (hv : Start t0) {m : P α} {post : α → Lv → Prop}
    (hm : ∀ s, Inv t0 s → Quiet t0 m s)
    (h : ∀ a, post a lv) : Tr t0 R n lv m post := by
  intro s0 s h0 hs he hl hn
  have h1 := hm s hs
  unfold Quiet at h1
  cases h2 : m s with
  | ok a s1 =>
    rw [h2] at h1
    obtain ⟨h3, h4, h5⟩ := h1
    exact ⟨h3, h4, lv, h a, Lv.holds_same hv hs h3 he h4.ext h5 hl⟩
  | timeout => rw [h2] at h1; exact h1
  | err e => trivial
  | panic p => trivial

theorem getFlags_tm (hv : Start t0) {post : Flags → Lv → Prop} (h : ∀ a, post a lv) :
    Tr t0 R n lv getFlags post :=
  quiet_tm hv (fun s hs => ⟨hs, .refl s, rfl⟩) h

theorem expect_step (s : PState) :
    Step s { s with hint := { s.hint with expression := true } } :=
  ⟨rfl, rfl, ⟨[], by simp, by simp⟩, id⟩

theorem expectExpression_tm (hv : Start t0) {post : Unit → Lv → Prop} (h : post () lv) :
    Tr t0 R n lv expectExpression post :=
  quiet_tm hv (fun s hs => ⟨⟨hs.count, hs.stream, hs.hint, hs.second⟩, expect_step s, rfl⟩)
    (fun _ => h)

theorem look_quiet (hv : Start t0) (s : PState) (hs : Inv t0 s) : Quiet t0 tokenAndLine s := by
  unfold Quiet
  rw [tokenAndLine_apply]
  have := fill_inv hv.valid hs
  cases h : fill s with
  | ok a s' => rw [h] at this; exact ⟨this.1, this.2.2.1, this.2.2.2.1⟩
  | err e => trivial
  | panic p => trivial
  | timeout => rw [h] at this; exact this

theorem tokenAndLine_tm (hv : Start t0) {post : Bool × Token → Lv → Prop} (h : ∀ a, post a lv) :
    Tr t0 R n lv tokenAndLine post := quiet_tm hv (look_quiet hv) h

theorem token_tm (hv : Start t0) {post : Token → Lv → Prop} (h : ∀ a, post a lv) :
    Tr t0 R n lv token post :=
  bind_tm (tokenAndLine_tm hv fun a => pure_tm (h a.2))

theorem noLineTerminator_tm (hv : Start t0) {post : Bool → Lv → Prop} (h : ∀ a, post a lv) :
    Tr t0 R n lv noLineTerminator post :=
  bind_tm (tokenAndLine_tm hv fun _ => pure_tm (h _))

theorem identLookahead_tm (hv : Start t0) {post : Option (Bool × Token) → Lv → Prop}
    (h : ∀ a, post a lv) : Tr t0 R n lv identLookahead post := by
  refine quiet_tm hv (fun s hs => ?_) h
  unfold Quiet
  rw [identLookahead_apply]
  have := fill_inv hv.valid hs
  cases h : fill s with
  | ok a s' =>
    rw [h] at this
    obtain ⟨h1, h2, h3, h4, -⟩ := this
    have h5 := lookSecond_inv hv.valid h1 h2
    simp only
    cases h6 : lookSecond s' with
    | ok b s'' => rw [h6] at h5; exact ⟨h5.1, h3.trans h5.2.1, by rw [h5.2.2, h4]⟩
    | err e => trivial
    | panic p => trivial
    | timeout => rw [h6] at h5; exact h5
  | err e => trivial
  | panic p => trivial
  | timeout => rw [h] at this; exact this

theorem pop_mu (hv : Start t0) {s : PState} (hs : Inv t0 s) (hc : s.count ≠ 0)
    (he : (cur s).token ≠ .eof) :
    mu t0 (popState s) < mu t0 s ∨
      (Stuck (popState s) ∧ ((cur s).token = .ident [] ∨ (cur s).token = .str [])) := by
  have hb := buf_pos hc hs.count
  have hst := hs.stream
  rw [hb, show s.log ++ cur s :: buf (popState s) = (s.log ++ [cur s]) ++ buf (popState s) by simp]
    at hst
  obtain ⟨t1, h1⟩ := hst.front _
  obtain ⟨h2, h3, h4⟩ := h1.order hv.valid hv.zero
  rcases h4 with h4 | ⟨h4, h5⟩
  · left
    have : (popState s).log = s.log ++ [cur s] := rfl
    unfold mu
    rw [this, endOf_snoc]
    omega
  · rcases h5 with h5 | h5
    · exact absurd h5 he
    · exact .inr ⟨pop_stuck hv.valid hs hc he h4, h5⟩

theorem takeIf_spec (hv : Start t0) {f : Bool → Token → Option β} (hf : ∀ l, f l .eof = none)
    {s : PState} (hs : Inv t0 s) : match takeIf f s with
      | .ok none s' => Inv t0 s' ∧ Step s s' ∧ s'.log = s.log
      | .ok (some _) s' => Inv t0 s' ∧ Step s s' ∧ Lv.weak.holds t0 s s' ∧
          ((∀ l, f l (.ident []) = none ∧ f l (.str []) = none) → Lv.strong.holds t0 s s')
      | .timeout => False
      | .err _ _ => True
      | .panic _ => True := by
  unfold takeIf
  have := fill_inv hv.valid hs
  cases h : fill s with
  | ok a s' =>
    rw [h] at this
    obtain ⟨h1, h2, h3, h4, -⟩ := this
    simp only
    cases h5 : f (cur s').line (cur s').token with
    | none => exact ⟨h1, h3, h4⟩
    | some b =>
      have he : (cur s').token ≠ .eof := by
        intro he; rw [he, hf] at h5; cases h5
      have h6 := pop_inv h1 h2 he
      have h7 := pop_mu hv h1 h2 he
      have h8 := mu_le hv h1 h3.ext
      refine ⟨h6.1, h3.trans h6.2, ?_, ?_⟩
      · rcases h7 with h7 | ⟨h7, -⟩
        · exact .inl (by omega)
        · exact .inr h7
      · intro hsol
        rcases h7 with h7 | ⟨-, h7⟩
        · show _ < _
          omega
        · rcases h7 with h7 | h7
          · rw [h7, (hsol _).1] at h5; cases h5
          · rw [h7, (hsol _).2] at h5; cases h5
  | err e => trivial
  | panic p => trivial
  | timeout => rw [h] at this; exact this

theorem take_tm (hv : Start t0) {f : Bool → Token → Option β} {post : Option β → Lv → Prop}
    (hf : ∀ l, f l .eof = none) (hn : post none lv) (hs : ∀ b, post (some b) (comp lv .weak)) :
    Tr t0 R n lv (takeIf f) post := by
  intro s0 s h0 his he hl _
  have h1 := takeIf_spec hv hf his
  cases h2 : takeIf f s with
  | ok a s1 =>
    rw [h2] at h1
    cases a with
    | none =>
      obtain ⟨h3, h4, h5⟩ := h1
      exact ⟨h3, h4, lv, hn, Lv.holds_same hv his h3 he h4.ext h5 hl⟩
    | some b =>
      obtain ⟨h3, h4, h5, -⟩ := h1
      exact ⟨h3, h4, _, hs b, Lv.holds_comp hv his h3 he h4.ext hl h5⟩
  | timeout => rw [h2] at h1; exact h1
  | err e => trivial
  | panic p => trivial

theorem takeSolid_tm (hv : Start t0) {f : Bool → Token → Option β} {post : Option β → Lv → Prop}
    (hf : ∀ l, f l .eof = none) (hsol : ∀ l, f l (.ident []) = none ∧ f l (.str []) = none)
    (hn : post none lv) (hs : ∀ b, post (some b) .strong) :
    Tr t0 R n lv (takeIf f) post := by
  intro s0 s h0 his he hl _
  have h1 := takeIf_spec hv hf his
  cases h2 : takeIf f s with
  | ok a s1 =>
    rw [h2] at h1
    cases a with
    | none =>
      obtain ⟨h3, h4, h5⟩ := h1
      exact ⟨h3, h4, lv, hn, Lv.holds_same hv his h3 he h4.ext h5 hl⟩
    | some b =>
      obtain ⟨h3, h4, -, h5⟩ := h1
      refine ⟨h3, h4, _, hs b, ?_⟩
      have := Lv.holds_comp hv his h3 he h4.ext hl (h5 hsol)
      cases lv <;> exact this
  | timeout => rw [h2] at h1; exact h1
  | err e => trivial
  | panic p => trivial

theorem punc_tm (hv : Start t0) {p : Punct} {post : Option Punct → Lv → Prop} (hn : post none lv)
    (hs : ∀ b, post (some b) .strong) : Tr t0 R n lv (punc p) post := by
  rw [punc_eq]
  exact takeSolid_tm hv (fun _ => rfl) (fun _ => ⟨rfl, rfl⟩) hn hs

theorem numeric_tm (hv : Start t0) {post : Option NumExpr → Lv → Prop} (hn : post none lv)
    (hs : ∀ b, post (some b) .strong) : Tr t0 R n lv numeric post := by
  rw [numeric_eq]
  exact takeSolid_tm hv (fun _ => rfl) (fun _ => ⟨rfl, rfl⟩) hn hs

theorem regex_tm (hv : Start t0) {post : Option (Bytes × Bytes) → Lv → Prop} (hn : post none lv)
    (hs : ∀ b, post (some b) .strong) : Tr t0 R n lv regex post := by
  rw [regex_eq]
  exact takeSolid_tm hv (fun _ => rfl) (fun _ => ⟨rfl, rfl⟩) hn hs

theorem template_tm (hv : Start t0) {post : Option TemplateFormat → Lv → Prop} (hn : post none lv)
    (hs : ∀ b, post (some b) .strong) : Tr t0 R n lv template post := by
  rw [template_eq]
  exact takeSolid_tm hv (fun _ => rfl) (fun _ => ⟨rfl, rfl⟩) hn hs

theorem templateTail_tm (hv : Start t0) {post : Option TemplateFormat → Lv → Prop} (hn : post none lv)
    (hs : ∀ b, post (some b) .strong) : Tr t0 R n lv templateTail post := by
  rw [templateTail_eq]
  exact takeSolid_tm hv (fun _ => rfl) (fun _ => ⟨rfl, rfl⟩) hn hs

theorem keyword_tm (hv : Start t0) {k : Bytes} {post : Option Bytes → Lv → Prop} (hk : k ≠ [])
    (hn : post none lv) (hs : ∀ b, post (some b) .strong) : Tr t0 R n lv (keyword k) post := by
  rw [keyword_eq]
  refine takeSolid_tm hv (fun _ => rfl) (fun _ => ⟨?_, rfl⟩) hn hs
  unfold isKeyword
  rw [if_neg]
  intro h
  injection h with h
  exact hk h.symm

theorem string_tm (hv : Start t0) {post : Option Bytes → Lv → Prop} (hn : post none lv)
    (hs : ∀ b, post (some b) (comp lv .weak)) : Tr t0 R n lv string post := by
  rw [string_eq]
  exact take_tm hv (fun _ => rfl) hn hs

theorem identifier_tm (hv : Start t0) {post : Option Bytes → Lv → Prop} (hn : post none lv)
    (hs : ∀ b, post (some b) (comp lv .weak)) : Tr t0 R n lv identifier post := by
  rw [identifier_eq]
  exact take_tm hv (fun _ => rfl) hn hs

theorem bindingIdentifier_tm (hv : Start t0) {post : Option Bytes → Lv → Prop} (hn : post none lv)
    (hs : ∀ b, post (some b) (comp lv .weak)) : Tr t0 R n lv bindingIdentifier post := by
  rw [bindingIdentifier_eq]
  exact bind_tm (getFlags_tm hv fun flags => take_tm hv (fun _ => rfl) hn hs)

@[reducible] def semiLv : Bool → Lv → Lv
  | false, .weak => .strong
  | _, l => l

theorem semicolonInner_tm (hv : Start t0) {w : Bool} {post : Option Unit → Lv → Prop}
    (hn : post none lv) (hs : post (some ()) .strong) (he : post (some ()) (semiLv w lv)) :
    Tr t0 R n lv (semicolonInner w) post := by
  rw [semicolonInner_eq]
  refine bind_tm (takeSolid_tm hv (fun _ => rfl) (fun _ => ⟨rfl, rfl⟩) ?_ fun _ => pure_tm hs)
  intro s0 s h0 his hext hl hb
  have h1 := look_quiet hv s his
  unfold Quiet at h1
  simp only
  rw [bind_apply]
  cases h2 : tokenAndLine s with
  | ok a s1 =>
    rw [h2] at h1
    obtain ⟨h3, h4, h5⟩ := h1
    have hl1 : lv.holds t0 s0 s1 := Lv.holds_same hv his h3 hext h4.ext h5 hl
    simp only
    cases h6 : semicolonExists w a.1 a.2 with
    | none => exact ⟨h3, h4, lv, hn, hl1⟩
    | some b =>
      refine ⟨⟨h3.count, h3.stream, h3.hint, h3.second⟩, h4.trans (expect_step s1), _, he, ?_⟩
      show (semiLv w lv).holds t0 s0 s1
      cases w <;> cases lv <;> try exact hl1
      -- the tokenizer is not stuck, because its token would not allow to insert a semicolon
      rcases hl1 with hl1 | ⟨tk, r, e1, e2, e3⟩
      · exact hl1
      · exfalso
        rw [tokenAndLine_apply] at h2
        cases h7 : fill s with
        | ok u s2 =>
          rw [h7] at h2
          have hc := fill_count h7
          injection h2 with h8 h9
          subst h9
          have h10 : cur s2 ∈ buf s2 := by rw [buf_pos hc h3.count]; exact .head _
          have h11 := e3 _ h10
          rw [← h8, h11] at h6
          rcases e1 with rfl | rfl <;> simp [Look.seen, semicolonExists] at h6
        | err e => rw [h7] at h2; cases h2
        | panic e => rw [h7] at h2; cases h2
        | timeout => rw [h7] at h2; cases h2
  | timeout => rw [h2] at h1; exact h1
  | err e => trivial
  | panic p => trivial

theorem withFlag_tm {f : Flag} {b : Bool} {m : P α} {post : α → Lv → Prop}
    (h : Tr t0 R n lv m post) : Tr t0 R n lv (withFlag f b m) post := by
  intro s0 s h0 hs he hl hn
  rw [withFlag_apply]
  obtain ⟨h1, h2, h3, h4, h5, h6, h7⟩ := pushFlags_facts f b s
  have hp : Inv t0 (pushFlags f b s) :=
    ⟨by rw [h5]; exact hs.count, by rw [h2, h3, h4]; exact hs.stream, h6 hs.hint,
      by rw [h5, h7]; exact hs.second⟩
  have hst : ∀ {x : PState}, x.tok = s.tok → buf x = buf s → Stuck s → Stuck x := by
    rintro x e1 e2 ⟨tk, r, a1, a2, a3⟩
    exact ⟨tk, r, a1, by rw [e1]; exact a2, by rw [e2]; exact a3⟩
  have hep : Ext s0 (pushFlags f b s) := by
    refine ⟨by rw [h2]; exact he.log, fun hk => hst h3 h4 (he.stuck hk)⟩
  have hlp : lv.holds t0 s0 (pushFlags f b s) := by
    cases lv
    · show _ = _; rw [h2]; exact hl
    · trivial
    · rcases hl with hl | hl
      · left; unfold mu; rw [h2]; exact hl
      · exact .inr (hst h3 h4 hl)
    · show _ < _; unfold mu; rw [h2]; exact hl
  have := h s0 _ h0 hp hep hlp hn
  cases hm : m (pushFlags f b s) with
  | ok a s' =>
    rw [hm] at this
    obtain ⟨hi, hst', l, hl', hl''⟩ := this
    have hstack : s'.stack = s.flags :: s.stack := by rw [hst'.stack, h1]
    have hpop : popFlags s' = .ok () { s' with
        flags := s.flags, stack := s.stack,
        hint := { s'.hint with template := s.flags.expectTemplate } } := by
      unfold popFlags; rw [hstack]
    simp only [hpop]
    refine ⟨⟨hi.count, hi.stream, rfl, hi.second⟩, ⟨rfl, rfl, ?_, ?_⟩, l, hl', ?_⟩
    · have := hst'.log; rw [h2] at this; exact this
    · intro hk
      exact hst'.stuck (hst h3 h4 hk)
    · cases l
      · exact hl''
      · trivial
      · exact hl''
      · exact hl''
  | err e => trivial
  | panic p => trivial
  | timeout => rw [hm] at this; exact this

/-- Loops: each round that goes on must consume text. -/
theorem loop_aux {σ : Type} {N : Nat} {b : σ → P (σ ⊕ β)} {post : β → Lv → Prop} {R' : Nat}
    (hv : Start t0)
    (hb : ∀ st, Tr t0 R' n .same (b st) fun x l =>
      match x with
      | .inl _ => l = .strong
      | .inr c => post c (comp lv l) ∧ post c .strong) :
    ∀ st s0 s, Inv t0 s → Ext s0 s → lv.holds t0 s0 s ∨ Lv.strong.holds t0 s0 s →
      mu t0 s < N → 64 * mu t0 s + R' ≤ n →
      match P.loop N b st s with
      | .ok a s' => Inv t0 s' ∧ Step s s' ∧ ∃ l, post a l ∧ l.holds t0 s0 s'
      | .timeout => False
      | .err _ _ => True
      | .panic _ => True := by
  induction N with
  | zero => intro st s0 s _ _ _ h; omega
  | succ N ih =>
    intro st s0 s hs he hl hN hn
    unfold P.loop
    rw [bind_apply]
    have h1 := hb st s s hs hs (.refl s) rfl hn
    cases hm : b st s with
    | ok x s1 =>
      rw [hm] at h1
      obtain ⟨h2, h3, l, h4, h5⟩ := h1
      have hmu := mu_le hv hs he
      cases x with
      | inl st' =>
        simp only at h4 ⊢
        subst h4
        have h5' : mu t0 s1 < mu t0 s := h5
        have h6 := ih st' s0 s1 h2 (he.trans h3.ext) (.inr (by show _ < _; omega)) (by omega) (by omega)
        cases hk : P.loop N b st' s1 with
        | ok a s2 => rw [hk] at h6; exact ⟨h6.1, h3.trans h6.2.1, h6.2.2⟩
        | timeout => rw [hk] at h6; exact h6
        | err e => trivial
        | panic p => trivial
      | inr c =>
        simp only at h4 ⊢
        rcases hl with hl | hl
        · exact ⟨h2, h3, _, h4.1, Lv.holds_comp hv hs h2 he h3.ext hl h5⟩
        · refine ⟨h2, h3, _, h4.2, ?_⟩
          have := Lv.holds_comp hv hs h2 he h3.ext hl h5
          cases l <;> exact this
    | timeout => rw [hm] at h1; exact h1
    | err e => trivial
    | panic p => trivial

theorem loopWeak_tm {σ : Type} (hv : Start t0) {b : σ → P (σ ⊕ β)} {post : β → Lv → Prop} {st : σ}
    (hR : 0 < R)
    (hb : ∀ st, Tr t0 R n .same (b st) fun x l =>
      match x with
      | .inl _ => l = .strong
      | .inr c => post c (comp lv l) ∧ post c .strong) :
    Tr t0 R n lv (P.loop n b st) post := by
  intro s0 s h0 hs he hl hn
  have := mu_le hv hs he
  exact loop_aux hv hb st s0 s hs he (.inl hl) (by omega) (by omega)

theorem loop_tm {σ : Type} (hv : Start t0) {b : σ → P (σ ⊕ β)} {post : β → Lv → Prop} {st : σ}
    (hb : ∀ st, Tr t0 64 n .same (b st) fun x l =>
      match x with
      | .inl _ => l = .strong
      | .inr c => post c .strong) :
    Tr t0 R n .strong (P.loop n b st) post := by
  intro s0 s h0 hs he hl hn
  have hl' : mu t0 s < mu t0 s0 := hl
  refine loop_aux (lv := .strong) (R' := 64) (n := n) hv ?_ st s0 s hs he (.inl hl) (by omega) (by omega)
  intro st' s1 s2 a1 a2 a3 a4 a5
  have := hb st' s1 s2 a1 a2 a3 a4 a5
  cases hm : b st' s2 with
  | ok x s3 =>
    rw [hm] at this
    obtain ⟨b1, b2, l, b3, b4⟩ := this
    refine ⟨b1, b2, l, ?_, b4⟩
    cases x with
    | inl _ => exact b3
    | inr c => exact ⟨b3, b3⟩
  | timeout => rw [hm] at this; exact this
  | err e => trivial
  | panic p => trivial

theorem eat_tm {m : P (Option α)} {post : α → Lv → Prop}
    (h : Tr t0 R n lv m fun o l =>
      match o with
      | none => True
      | some a => post a l) : Tr t0 R n lv (eat m) post := by
  unfold eat
  refine bind_tm ?_
  intro s0 s h0 hs he hl hn
  have h1 := h s0 s h0 hs he hl hn
  cases hm : m s with
  | ok a s1 =>
    rw [hm] at h1
    obtain ⟨h2, h3, l, h4, h5⟩ := h1
    refine ⟨h2, h3, l, ?_, h5⟩
    cases a with
    | none => exact fail_tm
    | some a => exact pure_tm h4
  | timeout => rw [hm] at h1; exact h1
  | err e => trivial
  | panic p => trivial

/-! ## Calls -/

/-- Calls made before any text was consumed go to methods of lower rank. -/
def rank : Fn → Nat
  | .moduleItem => 16
  | .scriptItem | .statementListItem => 15
  | .statement => 14
  | .expressionStatement => 13
  | .arrayItem | .reifyArrow | .reifyAssignment => 12
  | .expression => 12
  | .assignmentExpression => 11
  | .conditionalExpression => 10
  | .logicalOrExpression => 9
  | .fancy _ => 8
  | .exponentialExpression => 7
  | .unaryExpression => 6
  | .updateExpression | .leftHandSideExpression => 5
  | .leftHandExpression _ => 4
  | .primaryExpression => 3
  | .breakableStatement | .varDeclarator | .lexicalDeclarator _ | .bindingProperty | .bindingElement
  | .classItem | .objectProperty | .declaration => 3
  | .iterationStatement | .bindingPattern | .propertyName | .functionBody | .methodTail _ => 2
  | _ => 1

/-- The progress of a method that finds what it looks for. -/
def out : Fn → Lv
  | .arrayItem => .any
  | .varDeclarator | .lexicalDeclarator _ | .bindingProperty | .propertyName | .literalPropertyName
  | .bindingElement | .importSpecifier | .exportSpecifier | .leftHandSideExpression | .expression
  | .assignmentExpression | .reifyArrow | .reifyAssignment | .conditionalExpression
  | .logicalOrExpression | .fancy _ | .exponentialExpression | .unaryExpression | .updateExpression
  | .leftHandExpression _ | .primaryExpression | .identifierReferenceExpression | .stringExpression
  | .objectProperty => .weak
  | _ => .strong

theorem rank_lt (f : Fn) : rank f < 64 := by cases f <;> simp [rank]

/-- What a method does when its bound is large enough. -/
def Terminates (t0 : Tokenizer) (n : Nat) (f : Fn) (m : P (Option Unit)) : Prop :=
  ∀ s, Inv t0 s → 64 * mu t0 s + rank f < n →
    match m s with
    | .ok none s' => Inv t0 s' ∧ Step s s' ∧ s'.log = s.log
    | .ok (some _) s' => Inv t0 s' ∧ Step s s' ∧ (out f).holds t0 s s'
    | .timeout => False
    | .err _ _ => True
    | .panic _ => True

structure RecTerm (t0 : Tokenizer) (r : Rec) : Prop where
  call : ∀ f, Terminates t0 r.fuel f (r.call f)

theorem call_tm (hv : Start t0) {r : Rec} (hr : RecTerm t0 r) {f : Fn} {post : Option Unit → Lv → Prop}
    (hrank : lv = .strong ∨ rank f < R)
    (hn : post none lv) (hs : ∀ b, post (some b) (comp lv (out f))) :
    Tr t0 R r.fuel lv (r.call f) post := by
  intro s0 s h0 his he hl hb
  have h1 := mu_le hv his he
  have h2 : 64 * mu t0 s + rank f < r.fuel := by
    rcases hrank with rfl | h
    · have : mu t0 s < mu t0 s0 := hl
      have := rank_lt f
      omega
    · omega
  have h3 := hr.call f s his h2
  cases hm : r.call f s with
  | ok a s1 =>
    rw [hm] at h3
    cases a with
    | none =>
      obtain ⟨h3, h4, h5⟩ := h3
      exact ⟨h3, h4, lv, hn, Lv.holds_same hv his h3 he h4.ext h5 hl⟩
    | some b =>
      obtain ⟨h3, h4, h5⟩ := h3
      exact ⟨h3, h4, _, hs b, Lv.holds_comp hv his h3 he h4.ext hl h5⟩
  | timeout => rw [hm] at h3; exact h3
  | err e => trivial
  | panic p => trivial

/-- The postcondition of all methods: `None` is returned only if nothing was consumed. -/
def okPost (w : Lv) : Option Unit → Lv → Prop
  | none, l => l = .same
  | some _, l => l.le w = true

theorem terminates_of_tr {f : Fn} {r : Rec}
    (h : Tr t0 (rank f) r.fuel .same (body r f) (okPost (out f))) :
    Terminates t0 (r.fuel + 1) f (body r f) := by
  intro s hs hn
  have := h s s hs hs (.refl s) rfl (by omega)
  cases hm : body r f s with
  | ok a s1 =>
    rw [hm] at this
    obtain ⟨h1, h2, l, h3, h4⟩ := this
    cases a with
    | none =>
      have : l = .same := h3
      subst this
      exact ⟨h1, h2, h4⟩
    | some b => exact ⟨h1, h2, Lv.holds_le h3 h4⟩
  | timeout => rw [hm] at this; exact this
  | err e => trivial
  | panic p => trivial

end

end Jsparse
