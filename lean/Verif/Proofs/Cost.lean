import Verif.Proofs.Progress
import Verif.Proofs.Congr
import Verif.Spec.Cost
/-!
# The cost of the methods

`Co t0 N R n L m post`: the piece of code `m`, run after the bill `L` since the start of the method, does
not exhaust the budget `N`, and if it returns `a` then with a bill `l` such that `post a l`.

The metered run uses the list of removed tokens as its meter.  The judgment therefore speaks of the
state `s` of the metered run and of the same state `x` with the list of the tokens removed.
-/

namespace Jsparse

open Spec P

/-- The same states, but for the list of removed tokens. -/
def Twins (s x : PState) : Prop := x = { s with log := x.log }

theorem Twins.refl (s : PState) : Twins s s := rfl

/-- The same results, with the same tokens removed. -/
def SimRes (s x : PState) {α : Type} : Res α → Res α → Prop
  | .ok a s', .ok b x' => a = b ∧ Twins s' x' ∧ ∃ l, s'.log = s.log ++ l ∧ x'.log = x.log ++ l
  | .err e _, .err e' _ => e = e'
  | .panic p, .panic p' => p = p'
  | .timeout, .timeout => True
  | _, _ => False

/-- The method does the same whatever the list of removed tokens is. -/
def Sim {α : Type} (m : P α) : Prop := ∀ s x, Twins s x → SimRes s x (m s) (m x)

theorem twins_iff {s x : PState} : Twins s x ↔ ∃ l, x = { s with log := l } :=
  ⟨fun h => ⟨_, h⟩, by rintro ⟨l, rfl⟩; rfl⟩

theorem fill_sim : Sim fill := by
  intro s x h
  obtain ⟨l, rfl⟩ := twins_iff.1 h
  unfold fill
  by_cases hc : s.count = 0
  · simp only [hc, if_true]
    cases readToken s.tok s.hint with
    | ok look tok => exact ⟨rfl, rfl, [], by simp, by simp⟩
    | panic p => exact rfl
    | timeout => trivial
  · simp only [hc, if_false]
    exact ⟨rfl, rfl, [], by simp, by simp⟩

theorem fill_log {s s' : PState} (h : fill s = .ok () s') : s'.log = s.log := by
  unfold fill at h
  split at h
  · split at h
    · injection h with _ h; rw [← h]
    · cases h
    · cases h
  · injection h with _ h; rw [← h]

theorem tokenAndLine_sim : Sim tokenAndLine := by
  intro s x h
  rw [tokenAndLine_apply, tokenAndLine_apply]
  have h1 := fill_sim s x h
  cases h2 : fill s <;> cases h3 : fill x <;> rw [h2, h3] at h1 <;>
    try first | exact h1 | exact h1.elim
  obtain ⟨-, h4, h5⟩ := h1
  obtain ⟨l, rfl⟩ := twins_iff.1 h4
  exact ⟨rfl, h4, h5⟩

theorem takeIf_sim {β : Type} (f : Bool → Token → Option β) : Sim (takeIf f) := by
  intro s x h
  unfold takeIf
  have h1 := fill_sim s x h
  cases h2 : fill s <;> cases h3 : fill x <;> rw [h2, h3] at h1 <;>
    try first | exact h1 | exact h1.elim
  obtain ⟨-, h4, l', h5, h6⟩ := h1
  obtain ⟨l, rfl⟩ := twins_iff.1 h4
  rename_i s' _
  show SimRes s x (match f (cur s').line (cur s').token with
    | some b => _ | none => _) (match f (cur s').line (cur s').token with
    | some b => _ | none => _)
  cases f (cur s').line (cur s').token with
  | none => exact ⟨rfl, h4, l', h5, h6⟩
  | some b =>
    refine ⟨rfl, rfl, l' ++ [cur s'], ?_, ?_⟩
    · show s'.log ++ _ = _
      rw [h5, List.append_assoc]
    · show l ++ _ = _
      rw [show l = x.log ++ l' from h6, List.append_assoc]
      rfl

theorem takeIf_one {β : Type} {f : Bool → Token → Option β} {s s' : PState} {b : β}
    (h : takeIf f s = .ok (some b) s') : s'.log.length = s.log.length + 1 := by
  unfold takeIf at h
  cases h2 : fill s <;> rw [h2] at h <;> try cases h
  rename_i s1
  simp only at h
  split at h
  · injection h with _ h
    rw [← h]
    show (s1.log ++ _).length = _
    rw [fill_log h2]
    simp
  · injection h with h _
    cases h

theorem identLookahead_sim : Sim identLookahead := by
  intro s x h
  rw [identLookahead_apply, identLookahead_apply]
  have h1 := fill_sim s x h
  cases h2 : fill s <;> cases h3 : fill x <;> rw [h2, h3] at h1 <;>
    try first | exact h1 | exact h1.elim
  obtain ⟨-, h4, l', h5, h6⟩ := h1
  obtain ⟨l, rfl⟩ := twins_iff.1 h4
  rename_i s' _
  have h6' : l = x.log ++ l' := h6
  unfold lookSecond
  by_cases hc : s'.count < 2
  · simp only [hc, if_true]
    show SimRes s x (match (cur s').token with | .ident name => _ | _ => _)
      (match (cur s').token with | .ident name => _ | _ => _)
    cases (cur s').token <;> try exact ⟨rfl, h4, l', h5, h6⟩
    rename_i name
    simp only
    cases readToken s'.tok { s'.hint with expression := !isBindingIdentifier s'.flags name } with
    | ok look tok => exact ⟨rfl, rfl, l', h5, h6⟩
    | panic p => exact rfl
    | timeout => trivial
  · simp only [hc, if_false]
    exact ⟨rfl, h4, l', h5, h6⟩

theorem getFlags_sim : Sim getFlags := by
  intro s x h
  obtain ⟨l, rfl⟩ := twins_iff.1 h
  exact ⟨rfl, rfl, [], by simp, by simp⟩

theorem expectExpression_sim : Sim expectExpression := by
  intro s x h
  obtain ⟨l, rfl⟩ := twins_iff.1 h
  exact ⟨rfl, rfl, [], by simp, by simp⟩

/-! ## The budget does not change the results -/

/-- The same results, unless the metered run gives up. -/
def Metered {α : Type} (m m' : P α) : Prop := ∀ s x, Twins s x →
  match m s, m' x with
  | .timeout, _ => True
  | .ok a s', .ok b x' => a = b ∧ Twins s' x'
  | .err e _, .err e' _ => e = e'
  | .panic p, .panic p' => p = p'
  | _, _ => False

theorem Sim.metered {α : Type} {m : P α} (h : Sim m) : Metered m m := by
  intro s x ht
  have := h s x ht
  cases h2 : m s <;> cases h3 : m x <;> rw [h2, h3] at this <;>
    try first | exact this | exact this.elim
  exact ⟨this.1, this.2.1⟩

theorem bind_metered {α β : Type} {m m' : P α} {k k' : α → P β} (h : Metered m m')
    (hk : ∀ a, Metered (k a) (k' a)) : Metered (m >>= k) (m' >>= k') := by
  intro s x ht
  rw [bind_apply, bind_apply]
  have h1 := h s x ht
  cases h2 : m s <;> cases h3 : m' x <;> rw [h2, h3] at h1 <;>
    try first | exact h1 | exact h1.elim
  obtain ⟨rfl, h4⟩ := h1
  exact hk _ _ _ h4

theorem pushFlags_twins {s x : PState} (f : Flag) (b : Bool) (h : Twins s x) :
    Twins (pushFlags f b s) (pushFlags f b x) := by
  obtain ⟨l, rfl⟩ := twins_iff.1 h
  unfold pushFlags
  cases f <;> rfl

theorem popFlags_metered : Metered popFlags popFlags := by
  intro s x h
  obtain ⟨l, rfl⟩ := twins_iff.1 h
  unfold popFlags
  cases s.stack with
  | nil => exact rfl
  | cons a t => exact ⟨rfl, rfl⟩

theorem withFlag_metered {α : Type} (f : Flag) (b : Bool) {m m' : P α} (h : Metered m m') :
    Metered (withFlag f b m) (withFlag f b m') := by
  intro s x ht
  rw [withFlag_apply, withFlag_apply]
  have h1 := h _ _ (pushFlags_twins f b ht)
  cases h2 : m (pushFlags f b s) <;> cases h3 : m' (pushFlags f b x) <;> rw [h2, h3] at h1 <;>
    try first | exact h1 | exact h1.elim
  obtain ⟨rfl, h4⟩ := h1
  rename_i a s' x'
  have h5 := popFlags_metered _ _ h4
  simp only
  cases h6 : popFlags s' <;> cases h7 : popFlags x' <;> rw [h6, h7] at h5 <;>
    try first | exact h5 | exact h5.elim
  exact ⟨rfl, h5.2⟩

theorem loop_metered {σ β : Type} {b b' : σ → P (σ ⊕ β)} (hb : ∀ st, Metered (b st) (b' st)) :
    ∀ N st, Metered (P.loop N b st) (P.loop N b' st)
  | 0, _ => fun _ _ _ => by unfold P.loop; trivial
  | N + 1, st => by
    unfold P.loop
    refine bind_metered (hb st) fun x => ?_
    cases x with
    | inl st' => exact loop_metered hb N st'
    | inr c => exact fun s x h => ⟨rfl, h⟩

theorem metered_congr (N : Nat) : Congr N N @Metered where
  pure _ := fun _ _ h => ⟨rfl, h⟩
  bind := bind_metered
  fail _ _ := fun _ _ _ => rfl
  flags := getFlags_sim.metered
  withFlag f b _ _ h := withFlag_metered f b h
  expect := expectExpression_sim.metered
  look := tokenAndLine_sim.metered
  ahead := identLookahead_sim.metered
  take f _ := (takeIf_sim f).metered
  loop hb st := loop_metered hb _ st

theorem metered_metered {α : Type} {N : Nat} {m m' : P α} (h : Metered m m') : Metered (metered N m) m' := by
  intro s x ht
  unfold metered
  by_cases hN : s.log.length < N
  · rw [if_pos hN]
    refine h _ _ ?_
    obtain ⟨l, rfl⟩ := twins_iff.1 ht
    rfl
  · rw [if_neg hN]
    trivial

theorem runMetered_metered (N : Nat) : ∀ n f, Metered (runMetered N n f) (run n f)
  | 0, _ => fun _ _ _ => trivial
  | n + 1, f => metered_metered (body_congr (r := ⟨n, runMetered N n⟩) (r' := ⟨n, run n⟩)
      (metered_congr n) (fun _ _ _ => rfl) ⟨runMetered_metered N n⟩ f)

theorem parseModule_metered (N n : Nat) : Metered (parseModule ⟨n, runMetered N n⟩) (parseModule (recOf n)) := by
  unfold parseModule
  have hJ := (metered_congr n).base
  have hr : CallRel @Metered ⟨n, runMetered N n⟩ (recOf n) := ⟨runMetered_metered N n⟩
  refine bind_cg hJ (whileSome_cg hJ (call_cg hr _)) fun _ => ?_
  refine bind_cg hJ (eat_cg hJ ?_) fun _ => pure_cg hJ _
  rw [eof_eq]
  exact (takeIf_sim _).metered

/-! ## Bills -/

/-- The price of a byte. -/
def price : Nat := 192

/-- A bill: the progress, the number of units spent if no text was consumed, and the number of units
spent beyond the price of the text if some was. -/
structure Bill where
  lv : Lv
  c : Nat
  e : Nat

def Bill.holds (t0 : Tokenizer) (s0 x : PState) (k : Nat) (L : Bill) : Prop :=
  L.lv.holds t0 s0 x ∧ (mu t0 x = mu t0 s0 → k ≤ L.c) ∧
    (mu t0 x < mu t0 s0 → k ≤ price * (mu t0 s0 - mu t0 x - 1) + L.e)

/-- One bill after another. -/
def Bill.seq (L l : Bill) : Bill :=
  match L.lv with
  | .strong => ⟨.strong, 0, L.e + l.c⟩
  | lv => ⟨comp lv l.lv, L.c + l.c, max (L.c + l.e) (L.e + l.c)⟩

@[reducible] def Bill.start : Bill := ⟨.same, 0, 0⟩
@[reducible] def Bill.entry : Bill := ⟨.same, 1, 1⟩
@[reducible] def Bill.solid : Bill := ⟨.strong, 0, 1⟩
@[reducible] def Bill.weak : Bill := ⟨.weak, 1, 1⟩

section

variable {t0 : Tokenizer}

theorem mul_price {a b : Nat} (h : a ≤ b) : price * a ≤ price * b := Nat.mul_le_mul_left _ h

theorem Bill.holds_seq (hv : Start t0) {s0 x x' : PState} {k k' : Nat} (hx : Inv t0 x) (hx' : Inv t0 x')
    (h : Ext s0 x) (h' : Ext x x') {L l : Bill} (hle : l.e ≤ price) (hL : L.holds t0 s0 x k)
    (hl : l.holds t0 x x' k') : (L.seq l).holds t0 s0 x' (k + k') := by
  have m1 := mu_le hv hx' h'
  have m2 := mu_le hv hx h
  obtain ⟨a1, a2, a3⟩ := hL
  obtain ⟨b1, b2, b3⟩ := hl
  have key := Lv.holds_comp hv hx hx' h h' a1 b1
  unfold price at *
  obtain ⟨lv, c, e⟩ := L
  have e3 : mu t0 x < mu t0 s0 → mu t0 x' ≤ mu t0 x →
      k + k' ≤ 192 * (mu t0 s0 - mu t0 x' - 1) + (e + l.c) := by
    intro h1 h2
    have := a3 h1
    simp only at this
    by_cases h3 : mu t0 x' = mu t0 x
    · have := b2 h3
      rw [h3]; omega
    · have := b3 (by omega)
      omega
  by_cases hlv : lv = .strong
  · subst hlv
    have a1' : mu t0 x < mu t0 s0 := a1
    refine ⟨?_, ?_, ?_⟩
    · show _ < _; omega
    · intro; omega
    · intro; exact e3 a1' m1
  · have : (Bill.seq ⟨lv, c, e⟩ l) = ⟨comp lv l.lv, c + l.c, max (c + l.e) (e + l.c)⟩ := by
      cases lv <;> first | rfl | exact absurd rfl hlv
    rw [this]
    refine ⟨key, ?_, ?_⟩
    · intro h1
      have := a2 (by omega)
      have := b2 (by omega)
      show _ ≤ c + l.c
      simp only at *
      omega
    · intro h1
      show _ ≤ 192 * _ + max (c + l.e) (e + l.c)
      have hm1 := Nat.le_max_left (c + l.e) (e + l.c)
      have hm2 := Nat.le_max_right (c + l.e) (e + l.c)
      by_cases h2 : mu t0 x < mu t0 s0
      · have := e3 h2 m1
        omega
      · have e1 : mu t0 x = mu t0 s0 := by omega
        have := a2 e1
        have := b3 (by omega)
        rw [e1] at this
        simp only at *
        omega

theorem Bill.holds_same (hv : Start t0) {s0 x x' : PState} {k : Nat} (hx : Inv t0 x) (hx' : Inv t0 x')
    (h : Ext s0 x) (h' : Ext x x') (hl : x'.log = x.log) {L : Bill} (hL : L.holds t0 s0 x k) :
    L.holds t0 s0 x' k := by
  have e : mu t0 x' = mu t0 x := by unfold mu; rw [hl]
  obtain ⟨a1, a2, a3⟩ := hL
  refine ⟨Lv.holds_same hv hx hx' h h' hl a1, ?_, ?_⟩
  · rw [e]; exact a2
  · rw [e]; exact a3

def CoRes (t0 : Tokenizer) (p : Nat) (s0 x : PState) {α : Type} (post : α → Bill → Prop) : Res α → Prop
  | .ok a s' => ∃ x' k', Twins s' x' ∧ Inv t0 x' ∧ Step x x' ∧ s'.log.length = p + k' ∧
      ∃ l, post a l ∧ l.holds t0 s0 x' k'
  | .timeout => False
  | .err _ _ => True
  | .panic _ => True

def Co (t0 : Tokenizer) (N R n : Nat) (L : Bill) {α : Type} (m : P α) (post : α → Bill → Prop) : Prop :=
  ∀ p s0 s x k, Twins s x → Inv t0 s0 → Inv t0 x → Ext s0 x → L.holds t0 s0 x k →
    s.log.length = p + k → 64 * mu t0 s0 + R ≤ n → p + price * mu t0 s0 + R ≤ N →
    CoRes t0 p s0 x post (m s)

variable {N R n : Nat} {L : Bill} {α β : Type}

theorem pure_co {a : α} {post : α → Bill → Prop} (h : post a L) : Co t0 N R n L (pure a) post :=
  fun _ _ _ x k ht _ hx _ hl hp _ _ => ⟨x, k, ht, hx, .refl x, hp, L, h, hl⟩

theorem CoRes.mono {p : Nat} {s0 x x1 : PState} {post : α → Bill → Prop} {r : Res α} (h : Step x x1)
    (hr : CoRes t0 p s0 x1 post r) : CoRes t0 p s0 x post r := by
  cases r with
  | ok a s' =>
    obtain ⟨x', k', h1, h2, h3, h4⟩ := hr
    exact ⟨x', k', h1, h2, h.trans h3, h4⟩
  | timeout => exact hr
  | err e => trivial
  | panic e => trivial

theorem bind_co {m : P α} {k : α → P β} {post : β → Bill → Prop}
    (h : Co t0 N R n L m fun a l => Co t0 N R n l (k a) post) : Co t0 N R n L (m >>= k) post := by
  intro p s0 s x j ht h0 hx he hl hp hn hN
  rw [bind_apply]
  have h1 := h p s0 s x j ht h0 hx he hl hp hn hN
  cases hm : m s with
  | ok a s1 =>
    rw [hm] at h1
    obtain ⟨x1, k1, g1, g2, g3, g4, l, g5, g6⟩ := h1
    exact CoRes.mono g3 (g5 p s0 s1 x1 k1 g1 h0 g2 (he.trans g3.ext) g6 g4 hn hN)
  | timeout => rw [hm] at h1; exact h1
  | err e => trivial
  | panic p => trivial

theorem co_mono {m : P α} {post post' : α → Bill → Prop} (hp : ∀ a l, post a l → post' a l)
    (h : Co t0 N R n L m post) : Co t0 N R n L m post' := by
  intro p s0 s x j ht h0 hx he hl hp' hn hN
  have h1 := h p s0 s x j ht h0 hx he hl hp' hn hN
  cases hm : m s with
  | ok a s1 =>
    rw [hm] at h1
    obtain ⟨x1, k1, g1, g2, g3, g4, l, g5, g6⟩ := h1
    exact ⟨x1, k1, g1, g2, g3, g4, l, hp _ _ g5, g6⟩
  | timeout => rw [hm] at h1; exact h1
  | err e => trivial
  | panic p => trivial

theorem map_co {m : P α} {f : α → β} {post : β → Bill → Prop}
    (h : Co t0 N R n L m fun a l => post (f a) l) : Co t0 N R n L (f <$> m) post := by
  have : Co t0 N R n L (m >>= fun a => pure (f a)) post :=
    bind_co (co_mono (fun _ _ hp => pure_co hp) h)
  exact this

theorem fail_co {e : ParseErr} {post : α → Bill → Prop} : Co t0 N R n L (P.fail e) post :=
  fun _ _ _ _ _ _ _ _ _ _ _ _ _ => trivial

theorem panic_co {e : Panic} {post : α → Bill → Prop} : Co t0 N R n L (P.panic e) post :=
  fun _ _ _ _ _ _ _ _ _ _ _ _ _ => trivial

theorem quiet_co (hv : Start t0) {m : P α} {post : α → Bill → Prop} (hsim : Sim m)
    (hm : ∀ s, Inv t0 s → Quiet t0 m s) (h : ∀ a, post a L) : Co t0 N R n L m post := by
  intro p s0 s x j ht h0 hx he hl hp hn hN
  have h1 := hm x hx
  have h2 := hsim s x ht
  unfold Quiet at h1
  cases h3 : m s <;> cases h4 : m x <;> rw [h3, h4] at h2 <;> rw [h4] at h1 <;>
    try first | exact h1 | exact h1.elim
  all_goals try trivial
  obtain ⟨rfl, g1, l, g2, g3⟩ := h2
  rename_i a s1 x1
  obtain ⟨g4, g5, g6⟩ := h1
  have hl0 : l = [] := by
    rw [g6] at g3
    simpa using g3
  subst hl0
  refine ⟨x1, j, g1, g4, g5, ?_, L, h a, Bill.holds_same hv hx g4 he g5.ext g6 hl⟩
  rw [g2, List.append_nil, hp]

theorem getFlags_co (hv : Start t0) {post : Flags → Bill → Prop} (h : ∀ a, post a L) :
    Co t0 N R n L getFlags post :=
  quiet_co hv getFlags_sim (fun s hs => ⟨hs, .refl s, rfl⟩) h

theorem expectExpression_co (hv : Start t0) {post : Unit → Bill → Prop} (h : post () L) :
    Co t0 N R n L expectExpression post :=
  quiet_co hv expectExpression_sim
    (fun s hs => ⟨⟨hs.count, hs.stream, hs.hint, hs.second⟩, expect_step s, rfl⟩) (fun _ => h)

theorem tokenAndLine_co (hv : Start t0) {post : Bool × Token → Bill → Prop} (h : ∀ a, post a L) :
    Co t0 N R n L tokenAndLine post := quiet_co hv tokenAndLine_sim (look_quiet hv) h

theorem token_co (hv : Start t0) {post : Token → Bill → Prop} (h : ∀ a, post a L) :
    Co t0 N R n L token post :=
  bind_co (tokenAndLine_co hv fun a => pure_co (h a.2))

theorem noLineTerminator_co (hv : Start t0) {post : Bool → Bill → Prop} (h : ∀ a, post a L) :
    Co t0 N R n L noLineTerminator post :=
  bind_co (tokenAndLine_co hv fun _ => pure_co (h _))

theorem ahead_quiet (hv : Start t0) (s : PState) (hs : Inv t0 s) : Quiet t0 identLookahead s := by
  unfold Quiet
  rw [identLookahead_apply]
  have := fill_inv hv.valid hs
  cases h : fill s with
  | ok a s' =>
    rw [h] at this
    obtain ⟨h1, h2, h3, h4, -⟩ := this
    have h5 := lookSecond_inv hv.valid h1 h2
    simp only
    cases h6 : lookSecond s' with
    | ok b s'' => rw [h6] at h5; exact ⟨h5.1, h3.trans h5.2.1, by rw [h5.2.2, h4]⟩
    | err e => trivial
    | panic p => trivial
    | timeout => rw [h6] at h5; exact h5
  | err e => trivial
  | panic p => trivial
  | timeout => rw [h] at this; exact this

theorem identLookahead_co (hv : Start t0) {post : Option (Bool × Token) → Bill → Prop}
    (h : ∀ a, post a L) : Co t0 N R n L identLookahead post :=
  quiet_co hv identLookahead_sim (ahead_quiet hv) h

theorem takeAny_co (hv : Start t0) {f : Bool → Token → Option β} {post : Option β → Bill → Prop}
    {l : Bill} (hf : ∀ l, f l .eof = none) (hl1 : 1 ≤ l.c ∨ l.lv = .strong) (hl2 : l.e = 1)
    (hlv : l.lv = .weak ∨
      l.lv = .strong ∧ ∀ l, f l (.ident []) = none ∧ f l (.str []) = none)
    (hn : post none L) (hs : ∀ b, post (some b) (L.seq l)) :
    Co t0 N R n L (takeIf f) post := by
  intro p s0 s x j ht h0 hx he hl hp hn' hN
  have h1 := takeIf_spec hv hf hx
  have h2 := takeIf_sim f s x ht
  cases h3 : takeIf f s <;> cases h4 : takeIf f x <;> rw [h3, h4] at h2 <;> rw [h4] at h1 <;>
    try first | exact h1 | exact h1.elim
  all_goals try trivial
  obtain ⟨rfl, g1, l', g2, g3⟩ := h2
  rename_i a s1 x1
  cases a with
  | none =>
    obtain ⟨g4, g5, g6⟩ := h1
    have hl0 : l' = [] := by
      rw [g6] at g3
      simpa using g3
    subst hl0
    refine ⟨x1, j, g1, g4, g5, ?_, L, hn, Bill.holds_same hv hx g4 he g5.ext g6 hl⟩
    rw [g2, List.append_nil, hp]
  | some b =>
    obtain ⟨g4, g5, g6, g7⟩ := h1
    have hlen := takeIf_one h3
    have m1 := mu_le hv g4 g5.ext
    refine ⟨x1, j + 1, g1, g4, g5, by omega, _, hs b, ?_⟩
    refine Bill.holds_seq hv hx g4 he g5.ext (by rw [hl2]; decide) hl ?_
    have hst : l.lv = .strong → mu t0 x1 < mu t0 x := by
      intro hh
      rcases hlv with hh' | ⟨-, hh'⟩
      · rw [hh'] at hh; cases hh
      · exact g7 hh'
    refine ⟨?_, ?_, ?_⟩
    · rcases hlv with hh | ⟨hh, hh'⟩
      · rw [hh]; exact g6
      · rw [hh]; exact g7 hh'
    · intro hm
      rcases hl1 with hh | hh
      · exact hh
      · have := hst hh; omega
    · intro hm; omega

theorem take_co (hv : Start t0) {f : Bool → Token → Option β} {post : Option β → Bill → Prop}
    (hf : ∀ l, f l .eof = none) (hn : post none L) (hs : ∀ b, post (some b) (L.seq .weak)) :
    Co t0 N R n L (takeIf f) post :=
  takeAny_co hv hf (.inl (Nat.le_refl _)) rfl (.inl rfl) hn hs

theorem takeSolid_co (hv : Start t0) {f : Bool → Token → Option β} {post : Option β → Bill → Prop}
    (hf : ∀ l, f l .eof = none) (hsol : ∀ l, f l (.ident []) = none ∧ f l (.str []) = none)
    (hn : post none L) (hs : ∀ b, post (some b) (L.seq .solid)) :
    Co t0 N R n L (takeIf f) post :=
  takeAny_co hv hf (.inr rfl) rfl (.inr ⟨rfl, hsol⟩) hn hs

theorem punc_co (hv : Start t0) {p : Punct} {post : Option Punct → Bill → Prop} (hn : post none L)
    (hs : ∀ b, post (some b) (L.seq .solid)) : Co t0 N R n L (punc p) post := by
  rw [punc_eq]
  exact takeSolid_co hv (fun _ => rfl) (fun _ => ⟨rfl, rfl⟩) hn hs

theorem numeric_co (hv : Start t0) {post : Option NumExpr → Bill → Prop} (hn : post none L)
    (hs : ∀ b, post (some b) (L.seq .solid)) : Co t0 N R n L numeric post := by
  rw [numeric_eq]
  exact takeSolid_co hv (fun _ => rfl) (fun _ => ⟨rfl, rfl⟩) hn hs

theorem regex_co (hv : Start t0) {post : Option (Bytes × Bytes) → Bill → Prop} (hn : post none L)
    (hs : ∀ b, post (some b) (L.seq .solid)) : Co t0 N R n L regex post := by
  rw [regex_eq]
  exact takeSolid_co hv (fun _ => rfl) (fun _ => ⟨rfl, rfl⟩) hn hs

theorem template_co (hv : Start t0) {post : Option TemplateFormat → Bill → Prop} (hn : post none L)
    (hs : ∀ b, post (some b) (L.seq .solid)) : Co t0 N R n L template post := by
  rw [template_eq]
  exact takeSolid_co hv (fun _ => rfl) (fun _ => ⟨rfl, rfl⟩) hn hs

theorem templateTail_co (hv : Start t0) {post : Option TemplateFormat → Bill → Prop} (hn : post none L)
    (hs : ∀ b, post (some b) (L.seq .solid)) : Co t0 N R n L templateTail post := by
  rw [templateTail_eq]
  exact takeSolid_co hv (fun _ => rfl) (fun _ => ⟨rfl, rfl⟩) hn hs

theorem keyword_co (hv : Start t0) {k : Bytes} {post : Option Bytes → Bill → Prop} (hk : k ≠ [])
    (hn : post none L) (hs : ∀ b, post (some b) (L.seq .solid)) : Co t0 N R n L (keyword k) post := by
  rw [keyword_eq]
  refine takeSolid_co hv (fun _ => rfl) (fun _ => ⟨?_, rfl⟩) hn hs
  unfold isKeyword
  rw [if_neg]
  intro h
  injection h with h
  exact hk h.symm

theorem string_co (hv : Start t0) {post : Option Bytes → Bill → Prop} (hn : post none L)
    (hs : ∀ b, post (some b) (L.seq .weak)) : Co t0 N R n L string post := by
  rw [string_eq]
  exact take_co hv (fun _ => rfl) hn hs

theorem identifier_co (hv : Start t0) {post : Option Bytes → Bill → Prop} (hn : post none L)
    (hs : ∀ b, post (some b) (L.seq .weak)) : Co t0 N R n L identifier post := by
  rw [identifier_eq]
  exact take_co hv (fun _ => rfl) hn hs

theorem bindingIdentifier_co (hv : Start t0) {post : Option Bytes → Bill → Prop} (hn : post none L)
    (hs : ∀ b, post (some b) (L.seq .weak)) : Co t0 N R n L bindingIdentifier post := by
  rw [bindingIdentifier_eq]
  exact bind_co (getFlags_co hv fun flags => take_co hv (fun _ => rfl) hn hs)

def Bill.semi (w : Bool) (L : Bill) : Bill := ⟨semiLv w L.lv, L.c, L.e⟩

theorem semicolonInner_co (hv : Start t0) {w : Bool} {post : Option Unit → Bill → Prop}
    (hn : post none L) (hs : post (some ()) (L.seq .solid)) (he : post (some ()) (L.semi w)) :
    Co t0 N R n L (semicolonInner w) post := by
  rw [semicolonInner_eq]
  refine bind_co (takeSolid_co hv (fun _ => rfl) (fun _ => ⟨rfl, rfl⟩) ?_ fun _ => pure_co hs)
  intro p s0 s x j ht h0 hx hext hl hp _ _
  have h1 := look_quiet hv x hx
  have hsim := tokenAndLine_sim s x ht
  unfold Quiet at h1
  simp only
  rw [bind_apply]
  cases h3 : tokenAndLine s <;> cases h2 : tokenAndLine x <;> rw [h3, h2] at hsim <;> rw [h2] at h1 <;>
    try first | exact h1 | exact h1.elim
  all_goals try trivial
  obtain ⟨rfl, g1, l', g2, g3⟩ := hsim
  rename_i a s1 x1
  obtain ⟨g4, g5, g6⟩ := h1
  have hl0 : l' = [] := by
    rw [g6] at g3
    simpa using g3
  subst hl0
  rw [List.append_nil] at g2
  have hL := Bill.holds_same hv hx g4 hext g5.ext g6 hl
  simp only
  cases h6 : semicolonExists w a.1 a.2 with
  | none => exact ⟨x1, j, g1, g4, g5, by rw [g2, hp], L, hn, hL⟩
  | some b =>
    have h10 : (semiLv w L.lv).holds t0 s0 x1 := by
      have hl1 := hL.1
      obtain ⟨lv, c, e⟩ := L
      cases w <;> cases lv <;> try exact hl1
      -- the tokenizer is not stuck, because its token would not allow to insert a semicolon
      rcases hl1 with hl1 | ⟨tk, r, e1, e2, e3⟩
      · exact hl1
      · exfalso
        rw [tokenAndLine_apply] at h2
        cases h7 : fill x with
        | ok u s2 =>
          rw [h7] at h2
          have hc := fill_count h7
          injection h2 with h8 h9
          subst h9
          have h10 : cur s2 ∈ buf s2 := by rw [buf_pos hc g4.count]; exact .head _
          have h11 := e3 _ h10
          rw [← h8, h11] at h6
          rcases e1 with rfl | rfl <;> simp [Look.seen, semicolonExists] at h6
        | err e => rw [h7] at h2; cases h2
        | panic e => rw [h7] at h2; cases h2
        | timeout => rw [h7] at h2; cases h2
    obtain ⟨l, rfl⟩ := twins_iff.1 g1
    refine ⟨{ s1 with log := l, hint := { s1.hint with expression := true } }, j, rfl,
      ⟨g4.count, g4.stream, g4.hint, g4.second⟩, g5.trans (expect_step _),
      (by show s1.log.length = _; rw [g2, hp]), _, he, ?_⟩
    exact ⟨h10, hL.2.1, hL.2.2⟩

theorem withFlag_co {f : Flag} {b : Bool} {m : P α} {post : α → Bill → Prop}
    (h : Co t0 N R n L m post) : Co t0 N R n L (withFlag f b m) post := by
  intro p s0 s x j ht h0 hs he hl hp hn hN
  rw [withFlag_apply]
  obtain ⟨h1, h2, h3, h4, h5, h6, h7⟩ := pushFlags_facts f b x
  have hpi : Inv t0 (pushFlags f b x) :=
    ⟨by rw [h5]; exact hs.count, by rw [h2, h3, h4]; exact hs.stream, h6 hs.hint,
      by rw [h5, h7]; exact hs.second⟩
  have hst : ∀ {y : PState}, y.tok = x.tok → buf y = buf x → Stuck x → Stuck y := by
    rintro y e1 e2 ⟨tk, r, a1, a2, a3⟩
    exact ⟨tk, r, a1, by rw [e1]; exact a2, by rw [e2]; exact a3⟩
  have hep : Ext s0 (pushFlags f b x) := by
    refine ⟨by rw [h2]; exact he.log, fun hk => hst h3 h4 (he.stuck hk)⟩
  have hmu : mu t0 (pushFlags f b x) = mu t0 x := by unfold mu; rw [h2]
  have hlp : L.holds t0 s0 (pushFlags f b x) j := by
    refine ⟨?_, by rw [hmu]; exact hl.2.1, by rw [hmu]; exact hl.2.2⟩
    have hl := hl.1
    obtain ⟨lv, c, e⟩ := L
    cases lv
    · show _ = _; rw [h2]; exact hl
    · trivial
    · rcases hl with hl | hl
      · left; rw [hmu]; exact hl
      · exact .inr (hst h3 h4 hl)
    · show _ < _; rw [hmu]; exact hl
  have hlog : (pushFlags f b s).log = s.log := (pushFlags_facts f b s).2.1
  have := h p s0 _ _ j (pushFlags_twins f b ht) h0 hpi hep hlp (by rw [hlog]; exact hp) hn hN
  cases hm : m (pushFlags f b s) with
  | ok a s' =>
    rw [hm] at this
    obtain ⟨x', k', ht', hi, hst', hlen, l, hl', hl''⟩ := this
    have hstack : x'.stack = x.flags :: x.stack := by rw [hst'.stack, h1]
    obtain ⟨lg, rfl⟩ := twins_iff.1 ht'
    have hpop : popFlags s' = .ok () { s' with
        flags := x.flags, stack := x.stack,
        hint := { s'.hint with template := x.flags.expectTemplate } } := by
      have hstack' : s'.stack = x.flags :: x.stack := hstack
      unfold popFlags; rw [hstack']
    simp only [hpop]
    refine ⟨{ s' with
        flags := x.flags, stack := x.stack,
        hint := { s'.hint with template := x.flags.expectTemplate }, log := lg }, k', rfl,
      ⟨hi.count, hi.stream, rfl, hi.second⟩, ⟨rfl, rfl, ?_, ?_⟩, hlen, l, hl', ?_, hl''.2⟩
    · have := hst'.log; rw [h2] at this; exact this
    · intro hk
      exact hst'.stuck (hst h3 h4 hk)
    · obtain ⟨lv, c, e⟩ := l
      cases lv
      · exact hl''.1
      · trivial
      · exact hl''.1
      · exact hl''.1
  | err e => trivial
  | panic p => trivial
  | timeout => rw [hm] at this; exact this

/-- Loops after some text was consumed. -/
theorem loop_co_aux {σ : Type} {F : Nat} {b : σ → P (σ ⊕ β)} {post : β → Bill → Prop} {R' M : Nat}
    (hv : Start t0) (hM : M + R' ≤ price) (hR' : R' ≤ 64)
    (hb : ∀ st, Co t0 N R' n .start (b st) fun x l =>
      match x with
      | .inl _ => l.lv = .strong ∧ l.e ≤ price
      | .inr c => l.e ≤ price ∧ post c ⟨.strong, 0, M + l.c⟩) :
    ∀ st p s0 s x k, Twins s x → Inv t0 x → Ext s0 x → mu t0 x < mu t0 s0 →
      k ≤ price * (mu t0 s0 - mu t0 x - 1) + M → s.log.length = p + k →
      mu t0 x < F → 64 * mu t0 s0 ≤ n → p + price * mu t0 s0 ≤ N →
      CoRes t0 p s0 x post (P.loop F b st s) := by
  induction F with
  | zero => intro st p s0 s x k _ _ _ _ _ _ h; omega
  | succ F ih =>
    intro st p s0 s x k ht hx he hm hk hp hF hn hN
    unfold P.loop
    rw [bind_apply]
    have h0 : Bill.start.holds t0 x x 0 := ⟨rfl, fun _ => Nat.zero_le _, fun h => by omega⟩
    have h1 := hb st (p + k) x s x 0 ht hx hx (.refl x) h0 (by omega) (by omega) (by
      unfold price at *; omega)
    cases hm' : b st s with
    | ok y s1 =>
      rw [hm'] at h1
      obtain ⟨x1, k1, g1, g2, g3, g4, l, g5, g6⟩ := h1
      have m1 := mu_le hv g2 g3.ext
      obtain ⟨a1, a2, a3⟩ := g6
      cases y with
      | inl st' =>
        simp only at g5 ⊢
        obtain ⟨e1, e2⟩ := g5
        rw [e1] at a1
        have a1' : mu t0 x1 < mu t0 x := a1
        have := a3 a1'
        refine CoRes.mono g3 (ih st' p s0 s1 x1 (k + k1) g1 g2 (he.trans g3.ext) (by omega) ?_
          (by omega) (by omega) hn hN)
        unfold price at *
        omega
      | inr c =>
        simp only at g5 ⊢
        obtain ⟨e1, e2⟩ := g5
        refine ⟨x1, k + k1, g1, g2, g3, by omega, _, e2, ?_, ?_, ?_⟩
        · show _ < _; omega
        · intro; omega
        · intro _
          simp only
          by_cases h3 : mu t0 x1 = mu t0 x
          · have := a2 h3
            unfold price at *
            omega
          · have := a3 (by omega)
            unfold price at *
            omega
    | timeout => rw [hm'] at h1; exact h1
    | err e => trivial
    | panic p => trivial

theorem strongLoop_co {σ : Type} (hv : Start t0) {b : σ → P (σ ⊕ β)} {post : β → Bill → Prop} {st : σ}
    (hL : (L.lv == .strong && Nat.ble (L.e + 64) price) = true)
    (hb : ∀ st, Co t0 N 64 n .start (b st) fun x l =>
      match x with
      | .inl _ => (l.lv == .strong && Nat.ble l.e price) = true
      | .inr c => (Nat.ble l.e price) = true ∧ post c ⟨.strong, 0, L.e + l.c⟩) :
    Co t0 N R n L (P.loop n b st) post := by
  intro p s0 s x k ht h0 hx he hl hp hn hN
  simp only [Bool.and_eq_true, beq_iff_eq, Nat.ble_eq] at hL
  have h1 := hl.1
  rw [hL.1] at h1
  have h1' : mu t0 x < mu t0 s0 := h1
  refine loop_co_aux (M := L.e) (R' := 64) (n := n) (N := N) hv hL.2 (Nat.le_refl _) ?_
    st p s0 s x k ht hx he h1' (hl.2.2 h1') hp (by omega) (by omega) (by omega)
  intro st'
  refine co_mono ?_ (hb st')
  intro a l
  cases a with
  | inl _ => simp only [Bool.and_eq_true, beq_iff_eq, Nat.ble_eq]; exact id
  | inr c => simp only [Nat.ble_eq]; exact id

/-- Loops of which the first round may have to do without any text consumed before.  `K` bounds the bill
of the rounds. -/
theorem loopWeak_co {σ : Type} (hv : Start t0) {b : σ → P (σ ⊕ β)} {post : β → Bill → Prop} {st : σ}
    (R' K : Nat) (hR : (Nat.ble 1 R && Nat.ble R' 64 && Nat.ble (L.c + R') R && Nat.ble K price &&
      Nat.ble (max (L.c + K) L.e + R') price) = true)
    (hb : ∀ st, Co t0 N R' n .start (b st) fun x l =>
      match x with
      | .inl _ => (l.lv == .strong && Nat.ble l.e K) = true
      | .inr c => (Nat.ble l.e price) = true ∧ post c (L.seq l) ∧
          post c ⟨.strong, 0, max (L.c + K) L.e + l.c⟩) :
    Co t0 N R n L (P.loop n b st) post := by
  intro p s0 s x k ht h0 hx he hl hp hn hN
  simp only [Bool.and_eq_true, Nat.ble_eq] at hR
  obtain ⟨⟨⟨⟨r0, r1⟩, r2⟩, r3⟩, r4⟩ := hR
  have m0 := mu_le hv hx he
  have hmax1 := Nat.le_max_left (L.c + K) L.e
  have hmax2 := Nat.le_max_right (L.c + K) L.e
  obtain ⟨n, rfl⟩ : ∃ n', n = n' + 1 := ⟨n - 1, by omega⟩
  unfold P.loop
  rw [bind_apply]
  have h0' : Bill.start.holds t0 x x 0 := ⟨rfl, fun _ => Nat.zero_le _, fun h => by omega⟩
  have hb1 : p + k + price * mu t0 x + R' ≤ N := by
    by_cases h3 : mu t0 x = mu t0 s0
    · have := hl.2.1 h3
      rw [h3]; omega
    · have := hl.2.2 (by omega)
      unfold price at *
      omega
  have h1 := hb st (p + k) x s x 0 ht hx hx (.refl x) h0' (by omega) (by omega) hb1
  cases hm' : b st s with
  | ok y s1 =>
    rw [hm'] at h1
    obtain ⟨x1, k1, g1, g2, g3, g4, l, g5, g6⟩ := h1
    have m1 := mu_le hv g2 g3.ext
    cases y with
    | inl st' =>
      simp only [Bool.and_eq_true, beq_iff_eq, Nat.ble_eq] at g5 ⊢
      obtain ⟨e1, e2⟩ := g5
      obtain ⟨a1, a2, a3⟩ := g6
      rw [e1] at a1
      have a1' : mu t0 x1 < mu t0 x := a1
      have := a3 a1'
      refine CoRes.mono g3 (loop_co_aux (M := max (L.c + K) L.e) (R' := R') (n := n + 1) (N := N) hv r4
        r1 ?_ st' p s0 s1 x1 (k + k1) g1 g2 (he.trans g3.ext) (by omega) ?_ (by omega) (by omega)
        (by omega) (by omega))
      · intro st'
        refine co_mono ?_ (hb st')
        intro a l
        cases a with
        | inl _ =>
          simp only [Bool.and_eq_true, beq_iff_eq, Nat.ble_eq]
          exact fun h => ⟨h.1, by omega⟩
        | inr c =>
          simp only [Nat.ble_eq]
          exact fun h => ⟨h.1, h.2.2⟩
      · by_cases h3 : mu t0 x = mu t0 s0
        · have := hl.2.1 h3
          rw [← h3]
          omega
        · have := hl.2.2 (by omega)
          unfold price at *
          omega
    | inr c =>
      simp only [Nat.ble_eq] at g5 ⊢
      obtain ⟨e1, e2, -⟩ := g5
      exact ⟨x1, k + k1, g1, g2, g3, by omega, _, e2, Bill.holds_seq hv hx g2 he g3.ext e1 hl g6⟩
  | timeout => rw [hm'] at h1; exact h1
  | err e => trivial
  | panic p => trivial

theorem eat_co {m : P (Option α)} {post : α → Bill → Prop}
    (h : Co t0 N R n L m fun o l =>
      match o with
      | none => True
      | some a => post a l) : Co t0 N R n L (eat m) post := by
  unfold eat
  refine bind_co (co_mono ?_ h)
  intro a l hp
  cases a with
  | none => exact fail_co
  | some a => exact pure_co hp

/-! ## Calls -/

/-- What a method spends at most if it consumes no text. -/
def base : Fn → Nat
  | .moduleItem => 27
  | .scriptItem | .statementListItem => 24
  | .statement => 21
  | .expressionStatement => 19
  | .reifyArrow => 19
  | .arrayItem | .reifyAssignment | .expression => 18
  | .assignmentExpression => 17
  | .conditionalExpression => 15
  | .logicalOrExpression => 14
  | .fancy _ => 13
  | .exponentialExpression => 12
  | .unaryExpression => 11
  | .updateExpression | .leftHandSideExpression => 10
  | .leftHandExpression _ => 9
  | .classItem | .objectProperty => 7
  | .varDeclarator | .lexicalDeclarator _ | .bindingProperty | .bindingElement
  | .breakableStatement => 6
  | .iterationStatement | .propertyName => 4
  | .primaryExpression | .bindingPattern => 3
  | .declaration | .functionBody | .methodTail _ | .literalPropertyName | .importSpecifier
  | .exportSpecifier | .stringExpression | .identifierReferenceExpression => 2
  | _ => 1

/-- What a method spends at most beyond the price of the text it consumes, less the price of a byte. -/
def extra : Fn → Nat
  | .moduleItem => 150
  | .scriptItem | .statementListItem => 142
  | .statement => 138
  | .expressionStatement => 134
  | .expression | .arrayItem => 132
  | .reifyArrow | .reifyAssignment => 132
  | .assignmentExpression => 128
  | .conditionalExpression => 105
  | .logicalOrExpression => 68
  | .fancy _ => 65
  | .exponentialExpression => 62
  | .unaryExpression => 48
  | .updateExpression | .leftHandSideExpression => 45
  | .leftHandExpression _ => 40
  | .primaryExpression => 28
  | .breakableStatement => 120
  | .iterationStatement => 115
  | .declaration => 120
  | .doWhileStatement | .forStatement | .whileStatement | .ifStatement | .switchStatement
  | .tryStatement | .exportDeclaration | .importDeclaration => 110
  | .caseClause => 45
  | .withStatement => 41
  | .functionBody => 28
  | .bindingPattern | .propertyName => 30
  | .methodTail _ => 30
  | .varDeclarator | .lexicalDeclarator _ | .bindingElement => 36
  | .bindingProperty => 38
  | .classItem => 40
  | .objectProperty => 48
  | _ => 27

theorem base_lt (f : Fn) : base f < 64 := by cases f <;> simp [base]
theorem base_pos (f : Fn) : 1 ≤ base f := by cases f <;> simp [base]
theorem extra_le (f : Fn) : extra f ≤ price := by cases f <;> simp [extra, price]

/-- What a method does when its bounds are large enough. -/
def Costs (t0 : Tokenizer) (N n : Nat) (f : Fn) (m : P (Option Unit)) : Prop :=
  ∀ s x, Twins s x → Inv t0 x → 64 * mu t0 x + base f < n → s.log.length + price * mu t0 x + base f ≤ N →
    match m s with
    | .ok none s' => ∃ x' k, Twins s' x' ∧ Inv t0 x' ∧ Step x x' ∧ s'.log.length = s.log.length + k ∧
        x'.log = x.log ∧ k ≤ base f
    | .ok (some _) s' => ∃ x' k, Twins s' x' ∧ Inv t0 x' ∧ Step x x' ∧
        s'.log.length = s.log.length + k ∧ Bill.holds t0 x x' k ⟨out f, base f, extra f⟩
    | .timeout => False
    | .err _ _ => True
    | .panic _ => True

structure RecCost (t0 : Tokenizer) (N : Nat) (r : Rec) : Prop where
  call : ∀ f, Costs t0 N r.fuel f (r.call f)

/-- There is enough of the budget left for a call. -/
def callOk (L : Bill) (R : Nat) (f : Fn) : Bool :=
  (L.lv == .strong || (Nat.blt (base f) R && Nat.ble (L.c + base f) R)) &&
    Nat.ble (L.e + base f) price

theorem call_co (hv : Start t0) {r : Rec} (hr : RecCost t0 N r) {f : Fn}
    {post : Option Unit → Bill → Prop} (hrank : callOk L R f = true)
    (hn : post none (L.seq ⟨.same, base f, 0⟩))
    (hs : ∀ b, post (some b) (L.seq ⟨out f, base f, extra f⟩)) :
    Co t0 N R r.fuel L (r.call f) post := by
  intro p s0 s x k ht h0 hx he hl hp hb hN
  simp only [callOk, Bool.and_eq_true, Bool.or_eq_true, beq_iff_eq, Nat.ble_eq, Nat.blt_eq] at hrank
  obtain ⟨r1, r2⟩ := hrank
  have h1 := mu_le hv hx he
  have hbl := base_lt f
  have hst : L.lv = .strong → mu t0 x < mu t0 s0 := by
    intro h
    have := hl.1
    rw [h] at this
    exact this
  have h2 : 64 * mu t0 x + base f < r.fuel := by
    rcases r1 with r1 | ⟨r1, -⟩
    · have := hst r1
      omega
    · omega
  have h2' : s.log.length + price * mu t0 x + base f ≤ N := by
    rw [hp]
    by_cases h3 : mu t0 x = mu t0 s0
    · have := hl.2.1 h3
      rcases r1 with r1 | ⟨-, r1⟩
      · have := hst r1; omega
      · rw [h3]; omega
    · have := hl.2.2 (by omega)
      unfold price at *
      omega
  have h3 := hr.call f s x ht hx h2 h2'
  cases hm : r.call f s with
  | ok a s1 =>
    rw [hm] at h3
    cases a with
    | none =>
      obtain ⟨x1, k1, g1, g2, g3, g4, g5, g6⟩ := h3
      refine ⟨x1, k + k1, g1, g2, g3, by omega, _, hn,
        Bill.holds_seq hv hx g2 he g3.ext (Nat.zero_le _) hl ⟨g5, fun _ => g6, fun h => ?_⟩⟩
      unfold mu at h
      rw [g5] at h
      omega
    | some b =>
      obtain ⟨x1, k1, g1, g2, g3, g4, g5⟩ := h3
      exact ⟨x1, k + k1, g1, g2, g3, by omega, _, hs b,
        Bill.holds_seq hv hx g2 he g3.ext (extra_le f) hl g5⟩
  | timeout => rw [hm] at h3; exact h3
  | err e => trivial
  | panic p => trivial

/-- The postcondition of all methods. -/
def okBill (f : Fn) : Option Unit → Bill → Bool
  | none, l => l.lv == .same && Nat.ble l.c (base f)
  | some _, l => l.lv.le (out f) && (l.lv == .strong || Nat.ble l.c (base f)) && Nat.ble l.e (extra f)

theorem costs_of_co {f : Fn} {r : Rec}
    (h : Co t0 N (base f) r.fuel .entry (body r f) fun a l => okBill f a l = true) :
    Costs t0 N (r.fuel + 1) f (metered N (body r f)) := by
  intro s x ht hx hn hN
  have hpos := base_pos f
  unfold metered
  rw [if_pos (by omega)]
  have ht' : Twins { s with log := s.log ++ [{}] } x := by
    obtain ⟨l, rfl⟩ := twins_iff.1 ht
    rfl
  have := h s.log.length x _ x 1 ht' hx hx (.refl x)
    ⟨rfl, fun _ => Nat.le_refl _, fun h => by omega⟩ (by simp) (by omega) hN
  cases hm : body r f { s with log := s.log ++ [{}] } with
  | ok a s1 =>
    rw [hm] at this
    obtain ⟨x1, k1, g1, g2, g3, g4, l, g5, g6⟩ := this
    cases a with
    | none =>
      simp only [okBill, Bool.and_eq_true, beq_iff_eq, Nat.ble_eq] at g5
      have g7 := g6.1
      rw [g5.1] at g7
      refine ⟨x1, k1, g1, g2, g3, g4, g7, Nat.le_trans (g6.2.1 ?_) g5.2⟩
      unfold mu
      rw [g7]
    | some b =>
      simp only [okBill, Bool.and_eq_true, Bool.or_eq_true, beq_iff_eq, Nat.ble_eq] at g5
      refine ⟨x1, k1, g1, g2, g3, g4, Lv.holds_le g5.1.1 g6.1, ?_, ?_⟩
      · intro hmu
        rcases g5.1.2 with h5 | h5
        · have := g6.1
          rw [h5] at this
          have this : mu t0 x1 < mu t0 x := this
          omega
        · exact Nat.le_trans (g6.2.1 hmu) h5
      · intro hmu
        exact Nat.le_trans (g6.2.2 hmu) (Nat.add_le_add_left g5.2 _)
  | timeout => rw [hm] at this; exact this
  | err e => trivial
  | panic p => trivial

end

end Jsparse
