import Verif.Proofs.Congr
import Verif.Proofs.Invariant
/-!
# Builds with and without overflow checks
-/

namespace Jsparse

open P

/-- A computation of the build without checks gives the same as that of the build with checks, unless
the latter overflows. -/
def Agree {α : Type} (x y : Except Panic α) : Prop := x = .error .overflow ∨ y = x

theorem Agree.refl {α : Type} (x : Except Panic α) : Agree x x := .inr rfl

theorem Agree.bind {α β : Type} {x y : Except Panic α} {k l : α → Except Panic β}
    (h : Agree x y) (hk : ∀ a, Agree (k a) (l a)) : Agree (x >>= k) (y >>= l) := by
  rcases h with rfl | rfl
  · exact .inl rfl
  · cases y with
    | ok a => exact hk a
    | error p => exact .inr rfl

theorem Agree.ite {α : Type} {c : Prop} [Decidable c] {x x' y y' : Except Panic α} (h : Agree x x')
    (h' : Agree y y') : Agree (if c then x else y) (if c then x' else y') := by
  split
  · exact h
  · exact h'

theorem i32_agree (x : Int) : Agree (i32 true x) (i32 false x) := by
  unfold i32
  split
  · exact .refl _
  · exact .inl rfl

theorem subU8_agree (a b : UInt8) : Agree (subU8 true a b) (subU8 false a b) := by
  unfold subU8
  split
  · exact .refl _
  · exact .inl rfl

theorem parseExponentLoop_agree (bs : Bytes) : ∀ v i,
    Agree (parseExponentLoop true bs v i) (parseExponentLoop false bs v i) := by
  induction bs with
  | nil => intro v i; exact .refl _
  | cons b bs ih =>
    intro v i
    unfold parseExponentLoop
    split
    · dsimp only
      split
      · exact (i32_agree _).bind fun _ => (i32_agree _).bind fun _ => ih _ _
      · exact ih _ _
    · exact .refl _

theorem parseExponent_agree (bs : Bytes) : Agree (parseExponent true bs) (parseExponent false bs) := by
  unfold parseExponent
  dsimp only
  generalize (if 2 ≤ bs.length then bs[0]?.getD 0 else 0) = b
  split
  · exact (parseExponentLoop_agree _ _ _).bind fun _ => (i32_agree _).bind fun _ => .refl _
  · exact .refl _

theorem tokFractional_agree (bs : Bytes) : Agree (tokFractional true bs) (tokFractional false bs) := by
  unfold tokFractional
  dsimp only
  exact (Agree.refl _).bind fun _ => (parseExponent_agree _).bind fun _ => .refl _

theorem tokNum_agree (bs : Bytes) : Agree (tokNum true bs) (tokNum false bs) := by
  unfold tokNum
  dsimp only
  exact (Agree.refl _).bind fun _ => (parseExponent_agree _).bind fun _ => .refl _

theorem tokZeroNum_agree (bs : Bytes) : Agree (tokZeroNum true bs) (tokZeroNum false bs) := by
  unfold tokZeroNum
  dsimp only
  generalize (if 2 < bs.length then bs[1]?.getD 0 else 0) = b
  split
  · exact (subU8_agree _ _).bind fun _ => .refl _
  split
  · exact (subU8_agree _ _).bind fun _ => .refl _
  split
  · exact (subU8_agree _ _).bind fun _ => .refl _
  split
  · exact (Agree.refl _).bind fun _ => (parseExponent_agree _).bind fun _ => .refl _
  · exact (parseExponent_agree _).bind fun _ => .refl _

theorem readNext_agree (bs : Bytes) (h : Hint) : Agree (readNext true bs h) (readNext false bs h) := by
  unfold readNext
  split
  · exact .refl _
  · repeat' first
      | with_reducible refine Agree.ite ?_ ?_
      | exact .refl _
      | exact tokFractional_agree _
      | exact tokZeroNum_agree _
      | exact tokNum_agree _

/-- The same tokenizer in a build without overflow checks. -/
def Tokenizer.release (t : Tokenizer) : Tokenizer := { t with checked := false }

theorem nextToken_agree {t : Tokenizer} (hc : t.checked = true) (h : Hint) :
    match t.nextToken h with
    | .ok (tok, r, t1) => t.release.nextToken h = .ok (tok, r, t1.release) ∧ t1.checked = true
    | .error p => p = .overflow ∨ t.release.nextToken h = .error p := by
  unfold Tokenizer.nextToken
  have e1 : t.release.code = t.code := rfl
  have e2 : t.release.position = t.position := rfl
  have e3 : t.release.checked = false := rfl
  rw [e1, e2, e3, hc]
  cases eatWhitespace t.code t.position with
  | error p => exact .inr rfl
  | ok start =>
    simp only [bind, Except.bind]
    cases sliceFrom t.code start.offset with
    | error p => exact .inr rfl
    | ok s =>
      simp only
      rcases readNext_agree s h with h1 | h1
      · rw [h1]; exact .inl rfl
      · rw [h1]
        cases readNext true s h with
        | error p => exact .inr rfl
        | ok x =>
          obtain ⟨tok, size⟩ := x
          simp only
          cases incrementPosition s size start with
          | error p => exact .inr rfl
          | ok stop => exact ⟨rfl, rfl⟩

theorem readTokenLoop_agree (n : Nat) {t : Tokenizer} (hc : t.checked = true) (h : Hint) (line : Bool) :
    match readTokenLoop n t h line with
    | .ok look t1 => readTokenLoop n t.release h line = .ok look t1.release ∧ t1.checked = true
    | .panic p => p = .overflow ∨ readTokenLoop n t.release h line = .panic p
    | .timeout => readTokenLoop n t.release h line = .timeout := by
  induction n generalizing t line with
  | zero => rfl
  | succ n ih =>
    unfold readTokenLoop
    have := nextToken_agree hc h
    cases hn : t.nextToken h with
    | error p =>
      rw [hn] at this
      rcases this with h1 | h1
      · exact .inl h1
      · simp only [h1]; exact .inr trivial
    | ok x =>
      obtain ⟨tok, r, t1⟩ := x
      rw [hn] at this
      obtain ⟨h1, h2⟩ := this
      rw [h1]
      cases tok <;> first | exact ih h2 _ | exact ⟨rfl, h2⟩

theorem readToken_agree {t : Tokenizer} (hc : t.checked = true) (h : Hint) :
    match readToken t h with
    | .ok look t1 => readToken t.release h = .ok look t1.release ∧ t1.checked = true
    | .panic p => p = .overflow ∨ readToken t.release h = .panic p
    | .timeout => readToken t.release h = .timeout :=
  readTokenLoop_agree (t.code.length + 1) hc h false

/-- The same parser in a build without overflow checks. -/
def PState.release (s : PState) : PState := { s with tok := s.tok.release }

/-- The results of the two builds. -/
def AgreeRes {α : Type} (x y : Res α) : Prop :=
  match x with
  | .ok a s => y = .ok a s.release ∧ s.tok.checked = true
  | .err e s => y = .err e s.release
  | .panic p => p = .overflow ∨ y = .panic p
  | .timeout => y = .timeout

def Agrees {α : Type} (m m' : P α) : Prop :=
  ∀ s, s.tok.checked = true → AgreeRes (m s) (m' s.release)

theorem agrees_bind {α β : Type} {m m' : P α} {k k' : α → P β} (hm : Agrees m m')
    (hk : ∀ a, Agrees (k a) (k' a)) : Agrees (m >>= k) (m' >>= k') := by
  intro s hc
  rw [bind_apply, bind_apply]
  have h1 := hm s hc
  cases hs : m s with
  | ok a s1 =>
    rw [hs] at h1
    rw [h1.1]
    exact hk a s1 h1.2
  | err e => rw [hs] at h1; rw [show m' s.release = _ from h1]; exact rfl
  | timeout => rw [hs] at h1; rw [show m' s.release = _ from h1]; exact rfl
  | panic p =>
    rw [hs] at h1
    rcases h1 with h1 | h1
    · exact .inl h1
    · rw [h1]; exact .inr rfl

theorem agrees_fill : Agrees fill fill := by
  intro s hc
  unfold fill
  show AgreeRes _ (if s.count = 0 then _ else _)
  split
  · have := readToken_agree hc s.hint
    show AgreeRes _ (match readToken s.tok.release s.hint with
      | .ok look tok => _ | .panic p => _ | .timeout => _)
    cases hr : readToken s.tok s.hint with
    | ok look t1 =>
      rw [hr] at this
      rw [this.1]
      exact ⟨rfl, this.2⟩
    | panic p =>
      rw [hr] at this
      rcases this with h1 | h1
      · exact .inl h1
      · rw [h1]; exact .inr rfl
    | timeout => rw [hr] at this; rw [show readToken s.tok.release s.hint = _ from this]; exact rfl
  · exact ⟨rfl, hc⟩

theorem agrees_take {β : Type} (f : Bool → Token → Option β) : Agrees (takeIf f) (takeIf f) := by
  intro s hc
  unfold takeIf
  have := agrees_fill s hc
  cases hf : fill s with
  | ok u s1 =>
    rw [hf] at this
    rw [this.1]
    have e2 : cur s1.release = cur s1 := rfl
    simp only [e2]
    cases f (cur s1).line (cur s1).token with
    | some b => exact ⟨rfl, this.2⟩
    | none => exact ⟨rfl, this.2⟩
  | err e => rw [hf] at this; rw [show fill s.release = _ from this]; exact rfl
  | timeout => rw [hf] at this; rw [show fill s.release = _ from this]; exact rfl
  | panic p =>
    rw [hf] at this
    rcases this with h1 | h1
    · exact .inl h1
    · rw [h1]; exact .inr rfl

theorem agrees_congr (N : Nat) : Congr N N (fun {_} m m' => Agrees m m') where
  pure a := fun s hc => ⟨rfl, hc⟩
  bind hm hk := agrees_bind hm hk
  fail e _ := fun s hc => rfl
  flags := fun s hc => ⟨rfl, hc⟩
  withFlag f b m m' hm := by
    refine agrees_bind ?_ fun _ => agrees_bind hm fun a => agrees_bind ?_ fun _ => ?_
    · intro s hc
      cases f <;> exact ⟨rfl, hc⟩
    · intro s hc
      unfold popFlags
      show AgreeRes _ (match s.stack with | [] => _ | f :: rest => _)
      cases s.stack with
      | nil => exact .inr rfl
      | cons f r => exact ⟨rfl, hc⟩
    · exact fun s hc => ⟨rfl, hc⟩
  expect := fun s hc => ⟨rfl, hc⟩
  look := agrees_bind agrees_fill fun _ => fun s hc => ⟨rfl, hc⟩
  ahead := by
    refine agrees_bind agrees_fill fun _ => ?_
    intro s hc
    show AgreeRes (lookSecond s) (lookSecond s.release)
    unfold lookSecond
    have e1 : s.release.count = s.count := rfl
    have e2 : cur s.release = cur s := rfl
    have e3 : other s.release = other s := rfl
    have e4 : s.release.tok = s.tok.release := rfl
    have e5 : s.release.hint = s.hint := rfl
    have e6 : s.release.flags = s.flags := rfl
    rw [e1, e2, e3, e4, e5, e6]
    split
    · split
      · rename_i name _
        have := readToken_agree hc { s.hint with expression := !isBindingIdentifier s.flags name }
        cases hr : readToken s.tok { s.hint with expression := !isBindingIdentifier s.flags name } with
        | ok look t1 =>
          rw [hr] at this
          rw [this.1]
          exact ⟨rfl, this.2⟩
        | panic p =>
          rw [hr] at this
          rcases this with h1 | h1
          · exact .inl h1
          · rw [h1]; exact .inr rfl
        | timeout => rw [hr] at this; rw [this]; exact rfl
      · exact ⟨rfl, hc⟩
    · exact ⟨rfl, hc⟩
  take f _ := agrees_take f
  loop hb st := by
    induction N generalizing st with
    | zero => exact fun s hc => rfl
    | succ n ih =>
      refine agrees_bind (hb st) fun x => ?_
      cases x with
      | inl st' => exact ih st'
      | inr b => exact fun s hc => ⟨rfl, hc⟩

theorem run_agrees (n : Nat) (f : Fn) : Agrees (run n f) (run n f) :=
  run_congr (J := fun {_} m m' => Agrees m m') (k := 0) (fun _ => agrees_congr _)
    (fun _ _ => rfl) (fun _ _ _ => rfl) n f

theorem agrees_eof : Agrees eof eof := by
  rw [eof_eq]
  exact agrees_take _

theorem parseModule_agrees (n : Nat) : Agrees (parseModule (recOf n)) (parseModule (recOf n)) := by
  unfold parseModule
  refine agrees_bind (whileSome_cg (agrees_congr n).base (run_agrees n _)) fun _ => ?_
  refine agrees_bind ?_ fun _ => fun s hc => ⟨rfl, hc⟩
  exact eat_cg (agrees_congr n).base agrees_eof

end Jsparse
