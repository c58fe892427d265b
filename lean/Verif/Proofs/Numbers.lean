import Mathlib.Tactic.Ring
import Mathlib.Tactic.FieldSimp
import Mathlib.Tactic.Linarith
import Verif.Spec.Numbers
import Verif.Proofs.Forward
/-! # The number loops compute positional values -/

namespace Jsparse

open Spec

theorem isDigit_iff (b : UInt8) : isDigit b = true ↔ Digit b := by
  simp [isDigit, Digit]

theorem digit_ascii {b : UInt8} (h : Digit b) : b < 0x80 := by
  have := h.2
  simp only [UInt8.le_iff_toNat_le, UInt8.lt_iff_toNat_lt] at *
  simp at *; omega

theorem digit_sub {b : UInt8} (h : Digit b) : (b - c!"0").toNat = digitVal b := by
  have h1 := h.1
  simp only [digitVal]
  rw [UInt8.toNat_sub_of_le _ _ h1]; rfl

/-! ## Integers -/

/-- The computation of `parse_int_literal` on a run of digits. -/
def intExpr : Bytes → NumExpr → NumExpr
  | [], v => v
  | b :: bs, v =>
    intExpr bs (if b = c!"0" then .mul v (.lit 10)
      else .add (.mul v (.lit 10)) (digitLit b c!"0"))

theorem digit_zero_or {b : UInt8} (h : Digit b) : b = c!"0" ∨ (c!"1" ≤ b ∧ b ≤ c!"9") := by
  obtain ⟨h1, h2⟩ := h
  by_cases h0 : b = c!"0"
  · exact .inl h0
  · refine .inr ⟨?_, h2⟩
    simp only [UInt8.le_iff_toNat_le, ← UInt8.toNat_inj] at *
    simp at *; omega

theorem parseIntLoop_eq (ds rest : Bytes) (hd : ∀ b ∈ ds, Digit b)
    (hr : ∀ b r, rest = b :: r → ¬ Digit b) (v : NumExpr) (hv : v.isZero = false) (i : Nat) :
    parseIntLoop (ds ++ rest) v i = (intExpr ds v, i + ds.length) := by
  induction ds generalizing v i with
  | nil =>
    cases rest with
    | nil => rfl
    | cons b r =>
      have hb := hr b r rfl
      have h1 : b ≠ c!"0" := by rintro rfl; exact hb ⟨by decide, by decide⟩
      have h2 : ¬ (c!"1" ≤ b ∧ b ≤ c!"9") := by
        rintro ⟨h3, h4⟩; exact hb ⟨UInt8.le_trans (by decide) h3, h4⟩
      simp [parseIntLoop, h1, h2, intExpr]
  | cons b ds ih =>
    have hb := hd b (by simp)
    rw [List.cons_append, parseIntLoop]
    rcases digit_zero_or hb with rfl | h
    · rw [if_pos rfl, hv, if_neg (by simp), ih (fun x hx => hd x (by simp [hx])) _ (by simp [NumExpr.isZero, hv])]
      simp [intExpr]; omega
    · have h1 : b ≠ c!"0" := by
        rintro rfl; revert h; decide
      rw [if_neg h1, if_pos h, ih (fun x hx => hd x (by simp [hx])) _ (by simp [NumExpr.isZero, hv])]
      simp [intExpr, h1]; omega

theorem parseIntLiteral_eq (b : UInt8) (ds rest : Bytes) (hb : c!"1" ≤ b ∧ b ≤ c!"9")
    (hd : ∀ b ∈ ds, Digit b) (hr : ∀ b r, rest = b :: r → ¬ Digit b) :
    parseIntLiteral (b :: ds ++ rest) = (intExpr (b :: ds) (.lit 0), (b :: ds).length) := by
  have h1 : b ≠ c!"0" := by rintro rfl; revert hb; decide
  unfold parseIntLiteral
  rw [List.cons_append, parseIntLoop, if_neg h1, if_pos hb, parseIntLoop_eq ds rest hd hr]
  · simp [intExpr, h1]; omega
  · have : (b - 48).toNat ≠ 0 := by
      have h2 : Digit b := ⟨UInt8.le_trans (by decide) hb.1, hb.2⟩
      have h3 := digit_sub h2
      rw [h3]
      have := hb.1
      simp only [UInt8.le_iff_toNat_le] at this
      simp [digitVal] at *; omega
    simp [NumExpr.isZero, digitLit, this]

theorem intExpr_eval (ds : Bytes) (hd : ∀ b ∈ ds, Digit b) (v : NumExpr) :
    (intExpr ds v).eval = v.eval * 10 ^ ds.length + natVal 10 ds := by
  induction ds generalizing v with
  | nil => simp [intExpr, natVal]
  | cons b ds ih =>
    rw [intExpr, ih (fun x hx => hd x (by simp [hx]))]
    have hs := digit_sub (hd b (by simp))
    split
    · rename_i h
      subst h
      simp [NumExpr.eval, natVal, digitVal, pow_succ]; ring
    · simp [NumExpr.eval, natVal, digitLit, hs, pow_succ]; ring

theorem natVal_ge (ds : Bytes) : ∀ x, x ≤ x * 10 ^ ds.length + natVal 10 ds := by
  intro x
  have : 1 ≤ 10 ^ ds.length := Nat.one_le_pow _ _ (by decide)
  nlinarith

theorem intExpr_exact {F : Type} {ev : NumExpr → F} {R : F → Nat → Prop} (he : ExactSmall ev R)
    (ds : Bytes) (hd : ∀ b ∈ ds, Digit b) (v : NumExpr) (x : Nat) (hv : R (ev v) x)
    (hle : x * 10 ^ ds.length + natVal 10 ds ≤ 2 ^ 53) :
    R (ev (intExpr ds v)) (x * 10 ^ ds.length + natVal 10 ds) := by
  induction ds generalizing v x with
  | nil => simpa [intExpr, natVal] using hv
  | cons b ds ih =>
    have hs := digit_sub (hd b (by simp))
    have heq : x * 10 ^ (b :: ds).length + natVal 10 (b :: ds) =
        (x * 10 + digitVal b) * 10 ^ ds.length + natVal 10 ds := by
      simp [natVal, pow_succ]; ring
    rw [heq] at hle ⊢
    have hb := natVal_ge ds (x * 10 + digitVal b)
    have h10 : R (ev (.lit 10)) 10 := he.lit 10 (by norm_num)
    rw [intExpr]
    apply ih (fun y hy => hd y (by simp [hy]))
    · split
      · rename_i h
        subst h
        exact he.mul _ _ _ _ hv h10 (by simp [digitVal] at *; omega)
      · have h1 := he.mul _ _ _ _ hv h10 (by omega)
        refine he.add _ _ _ _ h1 ?_ (by omega)
        rw [digitLit, hs]
        exact he.lit _ (by omega)
    · exact hle

/-! ## Fractions -/

def decExpr : Bytes → NumExpr → NumExpr → NumExpr
  | [], value, _ => value
  | b :: bs, value, factor =>
    decExpr bs (.add value (.mul factor (digitLit b c!"0"))) (.div factor (.lit 10))

theorem parseDecimalLoop_eq (ds rest : Bytes) (hd : ∀ b ∈ ds, Digit b)
    (hr : ∀ b r, rest = b :: r → ¬ Digit b) (v f : NumExpr) (i : Nat) :
    parseDecimalLoop (ds ++ rest) v f i = (decExpr ds v f, i + ds.length) := by
  induction ds generalizing v f i with
  | nil =>
    cases rest with
    | nil => rfl
    | cons b r =>
      have hb := hr b r rfl
      rw [← isDigit_iff] at hb
      simp [parseDecimalLoop, hb, decExpr]
  | cons b ds ih =>
    have hb := (isDigit_iff b).2 (hd b (by simp))
    rw [List.cons_append, parseDecimalLoop, if_pos hb, ih (fun x hx => hd x (by simp [hx]))]
    simp [decExpr]; omega

theorem decExpr_eval (ds : Bytes) (hd : ∀ b ∈ ds, Digit b) (v f : NumExpr) :
    (decExpr ds v f).eval = v.eval + f.eval * 10 * (natVal 10 ds / 10 ^ ds.length) := by
  induction ds generalizing v f with
  | nil => simp [decExpr, natVal]
  | cons b ds ih =>
    rw [decExpr, ih (fun x hx => hd x (by simp [hx]))]
    have hs := digit_sub (hd b (by simp))
    simp only [NumExpr.eval, digitLit, hs, natVal, List.length_cons, pow_succ]
    push_cast
    field_simp
    ring

/-! ## Exponents -/

theorem i32_ok {checked : Bool} {x : Int} (h1 : -2147483648 ≤ x) (h2 : x ≤ 2147483647) :
    i32 checked x = .ok x := by
  simp [i32, h1, h2]

theorem parseExponentLoop_eq (checked : Bool) (ds rest : Bytes) (hd : ∀ b ∈ ds, Digit b)
    (hr : ∀ b r, rest = b :: r → ¬ Digit b) (x i : Nat)
    (hle : x * 10 ^ ds.length + natVal 10 ds < 2 ^ 31) :
    parseExponentLoop checked (ds ++ rest) x i =
      .ok (((x * 10 ^ ds.length + natVal 10 ds : Nat) : Int), i + ds.length) := by
  induction ds generalizing x i with
  | nil =>
    cases rest with
    | nil => simp [parseExponentLoop, natVal]
    | cons b r =>
      have hb := hr b r rfl
      rw [← isDigit_iff] at hb
      simp [parseExponentLoop, hb, natVal]
  | cons b ds ih =>
    have hb := (isDigit_iff b).2 (hd b (by simp))
    have hs := digit_sub (hd b (by simp))
    have heq : x * 10 ^ (b :: ds).length + natVal 10 (b :: ds) =
        (x * 10 + digitVal b) * 10 ^ ds.length + natVal 10 ds := by
      simp [natVal, pow_succ]; ring
    rw [heq] at hle ⊢
    have hg := natVal_ge ds (x * 10 + digitVal b)
    rw [List.cons_append, parseExponentLoop, if_pos hb]
    simp only [hs]
    have hih := ih (fun y hy => hd y (by simp [hy])) (x * 10 + digitVal b) (i + 1) hle
    split
    · rw [i32_ok (by omega) (by omega)]
      simp only [bind, Except.bind]
      rw [i32_ok (by omega) (by omega)]
      push_cast at hih ⊢
      simp only [hih, List.length_cons]
      congr 2; omega
    · rename_i h
      simp only [ne_eq, not_or, Decidable.not_not] at h
      obtain ⟨h1, h2⟩ := h
      have h1' : digitVal b = 0 := by omega
      have h2' : x = 0 := by omega
      subst h2'
      rw [h1'] at hih ⊢
      simp only [Nat.zero_mul, Nat.zero_add, List.length_cons, Nat.cast_zero] at hih ⊢
      rw [hih]
      congr 2; omega

/-- With overflow checks, an exponent that does not fit in 31 bits panics. -/
theorem parseExponentLoop_overflow (ds rest : Bytes) (hd : ∀ b ∈ ds, Digit b) (x i : Nat)
    (hx : x < 2 ^ 31) (hle : 2 ^ 31 ≤ x * 10 ^ ds.length + natVal 10 ds) :
    parseExponentLoop true (ds ++ rest) x i = .error .overflow := by
  induction ds generalizing x i with
  | nil => simp [natVal] at hle; omega
  | cons b ds ih =>
    have hb := (isDigit_iff b).2 (hd b (by simp))
    have hs := digit_sub (hd b (by simp))
    have heq : x * 10 ^ (b :: ds).length + natVal 10 (b :: ds) =
        (x * 10 + digitVal b) * 10 ^ ds.length + natVal 10 ds := by
      simp [natVal, pow_succ]; ring
    rw [heq] at hle
    rw [List.cons_append, parseExponentLoop, if_pos hb]
    simp only [hs]
    split
    · by_cases h1 : (x : Int) * 10 ≤ 2147483647
      · rw [i32_ok (by omega) h1]
        simp only [bind, Except.bind]
        by_cases h2 : (x : Int) * 10 + digitVal b ≤ 2147483647
        · rw [i32_ok (by omega) h2]
          have hih := ih (fun y hy => hd y (by simp [hy])) (x * 10 + digitVal b) (i + 1)
            (by omega) hle
          push_cast at hih
          exact hih
        · have : i32 true ((x : Int) * 10 + digitVal b) = .error .overflow := by
            simp [i32, h2]
          rw [this]
      · have : i32 true ((x : Int) * 10) = .error .overflow := by
          simp [i32, h1]
        rw [this]; rfl
    · rename_i h
      simp only [ne_eq, not_or, Decidable.not_not] at h
      obtain ⟨h1, h2⟩ := h
      have h1' : digitVal b = 0 := by omega
      have h2' : x = 0 := by omega
      subst h2'
      rw [h1'] at hle
      exact ih (fun y hy => hd y (by simp [hy])) 0 (i + 1) (by omega) (by simpa using hle)

theorem bmod_small {x : Int} (h1 : -2147483648 ≤ x) (h2 : x ≤ 2147483647) :
    Int.bmod x 4294967296 = x := by
  rw [Int.bmod_def]; omega

theorem i32_wrap (x : Int) : i32 false x = .ok (Int.bmod x 4294967296) := by
  unfold i32
  split
  · rename_i h; rw [bmod_small h.1 h.2]
  · rfl

theorem wrap_step (x y z w : Int) (m : Nat) :
    Int.bmod (Int.bmod (Int.bmod (x * 10) m + y) m * z + w) m = Int.bmod ((x * 10 + y) * z + w) m := by
  rw [Int.bmod_add_bmod, ← Int.bmod_add_bmod (x := _ * z), Int.bmod_mul_bmod, Int.bmod_add_bmod]

/-- Without overflow checks, the exponent is computed modulo 2³². -/
theorem parseExponentLoop_wrap (ds rest : Bytes) (hd : ∀ b ∈ ds, Digit b)
    (hr : ∀ b r, rest = b :: r → ¬ Digit b) (x : Int) (hx : Int.bmod x 4294967296 = x) (i : Nat) :
    parseExponentLoop false (ds ++ rest) x i =
      .ok (Int.bmod (x * 10 ^ ds.length + natVal 10 ds) 4294967296, i + ds.length) := by
  induction ds generalizing x i with
  | nil =>
    cases rest with
    | nil => simp [parseExponentLoop, natVal, hx]
    | cons b r =>
      have hb := hr b r rfl
      rw [← isDigit_iff] at hb
      simp [parseExponentLoop, hb, natVal, hx]
  | cons b ds ih =>
    have hb := (isDigit_iff b).2 (hd b (by simp))
    have hs := digit_sub (hd b (by simp))
    have heq : x * 10 ^ (b :: ds).length + (natVal 10 (b :: ds) : Int) =
        (x * 10 + digitVal b) * 10 ^ ds.length + natVal 10 ds := by
      simp [natVal, pow_succ]; ring
    rw [List.cons_append, parseExponentLoop, if_pos hb, heq]
    simp only [hs]
    split
    · rw [i32_wrap]
      simp only [bind, Except.bind]
      rw [i32_wrap]
      dsimp only
      rw [ih (fun y hy => hd y (by simp [hy])) _ Int.bmod_bmod, wrap_step]
      have : i + 1 + ds.length = i + (b :: ds).length := by simp only [List.length_cons]; omega
      rw [this]
    · rename_i h
      simp only [ne_eq, not_or, Decidable.not_not] at h
      obtain ⟨h1, h2⟩ := h
      have := ih (fun y hy => hd y (by simp [hy])) x hx (i + 1)
      rw [this, h1, h2]
      have : i + 1 + ds.length = i + (b :: ds).length := by simp only [List.length_cons]; omega
      rw [this]
      have : (0 : Int) * 10 + 0 = 0 := rfl
      rw [this]

theorem parseExponent_none {checked : Bool} {rest : Bytes}
    (h : ∀ b r, rest = b :: r → b ≠ c!"e" ∧ b ≠ c!"E") : parseExponent checked rest = .ok (0, 0) := by
  unfold parseExponent
  dsimp only
  rw [if_neg]
  · rfl
  · split
    · cases rest with
      | nil => decide
      | cons b r => have := h b r rfl; simp [this]
    · decide

theorem digit_ne_sign {b : UInt8} (h : Digit b) : b ≠ c!"+" ∧ b ≠ c!"-" := by
  constructor <;> rintro rfl <;> revert h <;> decide

theorem exponent_loop {checked : Bool} {ds rest : Bytes} (hd : ∀ b ∈ ds, Digit b)
    (hr : ∀ b r, rest = b :: r → ¬ Digit b) (hlt : checked = true → natVal 10 ds < 2 ^ 31) (i : Nat) :
    parseExponentLoop checked (ds ++ rest) 0 i =
      .ok (Int.bmod (natVal 10 ds) 4294967296, i + ds.length) := by
  cases checked with
  | true =>
    have hlt := hlt rfl
    have := parseExponentLoop_eq true ds rest hd hr 0 i (by simpa using hlt)
    rw [bmod_small (by omega) (by omega)]
    rw [Nat.zero_mul, Nat.zero_add] at this
    exact this
  | false =>
    have := parseExponentLoop_wrap ds rest hd hr 0 (bmod_small (by omega) (by omega)) i
    rw [Int.zero_mul, Int.zero_add] at this
    exact this

theorem exponent_sign {checked : Bool} {n : Nat} (hlt : checked = true → n < 2 ^ 31) (sg : Int)
    (hsg : sg = 1 ∨ sg = -1) :
    i32 checked (sg * Int.bmod n 4294967296) = .ok (Int.bmod (sg * n) 4294967296) := by
  cases checked with
  | true =>
    have hlt := hlt rfl
    have h1 : Int.bmod (n : Int) 4294967296 = n := bmod_small (by omega) (by omega)
    rw [h1]
    rw [i32_ok (by rcases hsg with rfl | rfl <;> omega) (by rcases hsg with rfl | rfl <;> omega)]
    rw [bmod_small (by rcases hsg with rfl | rfl <;> omega)
      (by rcases hsg with rfl | rfl <;> omega)]
  | false => rw [i32_wrap, Int.mul_bmod_bmod]

theorem parseExponent_of {checked : Bool} {e : Exponent} {rest : Bytes} (he : e.WF) (M : Nat)
    (hloop : ∀ i, parseExponentLoop checked (e.digits ++ rest) 0 i =
      .ok (Int.bmod (natVal 10 e.digits) M, i + e.digits.length))
    (hfin : ∀ sg : Int, (sg = 1 ∨ sg = -1) →
      i32 checked (sg * Int.bmod (natVal 10 e.digits) M) =
        .ok (Int.bmod (sg * natVal 10 e.digits) M)) :
    parseExponent checked (e.text ++ rest) = .ok (Int.bmod e.value M, e.text.length) := by
  obtain ⟨m, sg, ds⟩ := e
  obtain ⟨hm, hne, hd⟩ := he
  simp only at hm hne hd hloop hfin
  unfold parseExponent
  have hlen : 2 ≤ (Exponent.text ⟨m, sg, ds⟩ ++ rest).length := by
    cases ds with
    | nil => simp at hne
    | cons d ds => simp [Exponent.text]; omega
  dsimp only
  rw [if_pos hlen]
  have h0 : (Exponent.text ⟨m, sg, ds⟩ ++ rest)[0]?.getD 0 = m := by simp [Exponent.text]
  rw [h0, if_pos hm]
  cases sg with
  | none =>
    cases hds : ds with
    | nil => exact absurd hds hne
    | cons d ds' =>
      obtain ⟨h1, h2⟩ := digit_ne_sign (hd d (by simp [hds]))
      simp only [Exponent.text, Sign.text, List.nil_append, List.cons_append, List.getElem?_cons_succ,
        List.getElem?_cons_zero, Option.getD_some, h1, h2, if_false, List.drop_succ_cons,
        List.drop_zero]
      have := hloop 1
      rw [hds, List.cons_append] at this
      rw [this]
      simp only [bind, Except.bind]
      have := hfin 1 (.inl rfl)
      rw [hds] at this
      rw [this]
      simp [pure, Except.pure, Exponent.value]; omega
  | plus =>
    simp only [Exponent.text, Sign.text, List.nil_append, List.cons_append, List.getElem?_cons_succ,
        List.getElem?_cons_zero, Option.getD_some, if_true, List.drop_succ_cons,
        List.drop_zero]
    rw [hloop 2]
    simp only [bind, Except.bind]
    rw [hfin 1 (.inl rfl)]
    simp [pure, Except.pure, Exponent.value]; omega
  | minus =>
    simp only [Exponent.text, Sign.text, List.nil_append, List.cons_append, List.getElem?_cons_succ,
        List.getElem?_cons_zero, Option.getD_some, if_true]
    rw [if_neg (by decide)]
    simp only [List.drop_succ_cons, List.drop_zero]
    rw [hloop 2]
    simp only [bind, Except.bind]
    rw [hfin (-1) (.inr rfl)]
    simp [pure, Except.pure, Exponent.value]; omega

theorem parseExponent_some {checked : Bool} {e : Exponent} {rest : Bytes} (he : e.WF)
    (hr : ∀ b r, rest = b :: r → ¬ Digit b) (hlt : checked = true → natVal 10 e.digits < 2 ^ 31) :
    parseExponent checked (e.text ++ rest) =
      .ok (Int.bmod e.value 4294967296, e.text.length) :=
  parseExponent_of he 4294967296 (exponent_loop he.digits hr hlt) (exponent_sign hlt)

/-! ## Whole literals -/

theorem exponent_ascii {e : Exponent} (he : e.WF) : ∀ b ∈ e.text, b < 0x80 := by
  intro b hb
  simp only [Exponent.text, List.mem_cons, List.mem_append] at hb
  rcases hb with rfl | hb | hb
  · rcases he.marker with h | h <;> rw [h] <;> decide
  · cases hs : e.sign <;> rw [hs] at hb <;> simp [Sign.text] at hb <;> subst hb <;> decide
  · exact digit_ascii (he.digits b hb)

theorem bytesFrom_append (a b : Bytes) : bytesFrom (a ++ b) a.length = .ok b := by
  simp [bytesFrom]

/-- The result for a literal of length `n` with mantissa `v`: the exponent wraps or overflows. -/
def expOut (checked : Bool) (v : NumExpr) (n : Nat) : Option Exponent → Except Panic (Token × Nat)
  | none => .ok (.num v, n)
  | some e =>
    if checked = true ∧ 2 ^ 31 ≤ natVal 10 e.digits then .error .overflow
    else .ok (.num (.mul v (.powi10 (Int.bmod e.value 4294967296))), n)

theorem exp_tail_overflow {m rest : Bytes} {e : Exponent} (v : NumExpr) (he : e.WF)
    (hle : 2 ^ 31 ≤ natVal 10 e.digits) :
    (do
      let bs ← bytesFrom (m ++ (e.text ++ rest)) m.length
      let x ← parseExponent true bs
      let (val, offset) := scaleExp v m.length x
      number val (m ++ (e.text ++ rest)) offset) = .error .overflow := by
  rw [bytesFrom_append]
  simp only [bind, Except.bind]
  suffices h : parseExponent true (e.text ++ rest) = .error .overflow by rw [h]
  obtain ⟨m, sg, ds⟩ := e
  obtain ⟨hm, hne, hd⟩ := he
  simp only at hm hne hd hle
  unfold parseExponent
  have hlen : 2 ≤ (Exponent.text ⟨m, sg, ds⟩ ++ rest).length := by
    cases ds with
    | nil => simp at hne
    | cons d ds => simp [Exponent.text]; omega
  dsimp only
  rw [if_pos hlen]
  have h0 : (Exponent.text ⟨m, sg, ds⟩ ++ rest)[0]?.getD 0 = m := by simp [Exponent.text]
  rw [h0, if_pos hm]
  have hloop : ∀ i, parseExponentLoop true (ds ++ rest) 0 i = .error .overflow := by
    intro i
    exact parseExponentLoop_overflow ds rest hd 0 i (by norm_num) (by simpa using hle)
  cases sg with
  | none =>
    cases hds : ds with
    | nil => exact absurd hds hne
    | cons d ds' =>
      obtain ⟨h1, h2⟩ := digit_ne_sign (hd d (by simp [hds]))
      simp only [Exponent.text, Sign.text, List.nil_append, List.cons_append, List.getElem?_cons_succ,
        List.getElem?_cons_zero, Option.getD_some, h1, h2, if_false, List.drop_succ_cons,
        List.drop_zero]
      have := hloop 1
      rw [hds, List.cons_append] at this
      rw [this]; rfl
  | plus =>
    simp only [Exponent.text, Sign.text, List.nil_append, List.cons_append, List.getElem?_cons_succ,
        List.getElem?_cons_zero, Option.getD_some, if_true, List.drop_succ_cons,
        List.drop_zero]
    rw [hloop 2]; rfl
  | minus =>
    simp only [Exponent.text, Sign.text, List.nil_append, List.cons_append, List.getElem?_cons_succ,
        List.getElem?_cons_zero, Option.getD_some, if_true]
    rw [if_neg (by decide)]
    simp only [List.drop_succ_cons, List.drop_zero]
    rw [hloop 2]; rfl

theorem exp_tail {checked : Bool} {m rest : Bytes} {exp : Option Exponent} (v : NumExpr)
    (hu : Utf8 rest)
    (he : ∀ e, exp = some e → e.WF)
    (hd : ∀ b r, rest = b :: r → ¬ Digit b)
    (hn : exp = none → ∀ b r, rest = b :: r → b ≠ c!"e" ∧ b ≠ c!"E") :
    (do
      let bs ← bytesFrom (m ++ (exp.elim [] Exponent.text ++ rest)) m.length
      let e ← parseExponent checked bs
      let (val, offset) := scaleExp v m.length e
      number val (m ++ (exp.elim [] Exponent.text ++ rest)) offset) =
    expOut checked v (m ++ exp.elim [] Exponent.text).length exp := by
  cases exp with
  | none =>
    rw [bytesFrom_append]
    simp only [bind, Except.bind]
    simp only [Option.elim_none, List.nil_append, parseExponent_none (hn rfl)]
    simp only [scaleExp, number, ne_eq, not_true_eq_false, if_false]
    rw [slice_zero rfl rfl hu.headOk]
    simp [bind, Except.bind, pure, Except.pure, expOut]
  | some e =>
    have h1 := he e rfl
    simp only [expOut]
    split
    · rename_i h; obtain ⟨rfl, h⟩ := h; exact exp_tail_overflow v h1 h
    rename_i h2
    rw [bytesFrom_append]
    simp only [bind, Except.bind]
    simp only [Option.elim_some, parseExponent_some h1 hd fun h => by
      rw [not_and] at h2; have := h2 h; omega]
    have : e.text.length ≠ 0 := by simp [Exponent.text]
    simp only [scaleExp, number, ne_eq, this, not_false_eq_true, if_true]
    rw [slice_zero (v := m ++ e.text) (e := rest) (by simp) (by simp) hu.headOk]
    simp [bind, Except.bind, pure, Except.pure]

theorem digits_text_split (exp : Option Exponent) (rest : Bytes)
    (he : ∀ e, exp = some e → e.WF) (hd : ∀ b r, rest = b :: r → ¬ Digit b) :
    ∀ b r, exp.elim [] Exponent.text ++ rest = b :: r → ¬ Digit b := by
  intro b r h
  cases exp with
  | none => exact hd b r h
  | some e =>
    simp only [Option.elim_some, Exponent.text, List.cons_append, List.cons.injEq] at h
    rcases (he e rfl).marker with hm | hm <;> rw [← h.1, hm] <;> decide

/-- The value recorded for a decimal literal without its exponent. -/
def mantissaExpr (d : Decimal) : NumExpr :=
  match d.frac with
  | none => if d.int = b!"0" then .lit 0 else intExpr d.int (.lit 0)
  | some f =>
    if d.int = b!"0" ∧ f = [] then .lit 0
    else .add (if d.int = b!"0" ∨ d.int = [] then .lit 0 else intExpr d.int (.lit 0))
      (decExpr f (.lit 0) .tenth)

theorem tokNum_eq {checked : Bool} {b : UInt8} {ds rest : Bytes} {frac : Option Bytes}
    {exp : Option Exponent} (hb : c!"1" ≤ b ∧ b ≤ c!"9") (hd : ∀ b ∈ ds, Digit b)
    (hf : ∀ f, frac = some f → ∀ b ∈ f, Digit b)
    (he : ∀ e, exp = some e → e.WF)
    (hu : Utf8 rest)
    (hr : ∀ b r, rest = b :: r → ¬ Digit b)
    (hn : exp = none → ∀ b r, rest = b :: r → b ≠ c!"e" ∧ b ≠ c!"E")
    (hdot : exp = none → frac = none → ∀ r, rest ≠ c!"." :: r) :
    tokNum checked (Decimal.text ⟨b :: ds, frac, exp⟩ ++ rest) =
      expOut checked (mantissaExpr ⟨b :: ds, frac, exp⟩) (Decimal.text ⟨b :: ds, frac, exp⟩).length
        exp := by
  have hx := digits_text_split exp rest he hr
  unfold tokNum
  cases frac with
  | none =>
    have htext : Decimal.text ⟨b :: ds, none, exp⟩ ++ rest =
        (b :: ds) ++ (exp.elim [] Exponent.text ++ rest) := by simp [Decimal.text]
    rw [htext, parseIntLiteral_eq b ds _ hb hd hx]
    have hnd : ((b :: ds) ++ (exp.elim [] Exponent.text ++ rest))[(b :: ds).length]? ≠
        some c!"." := by
      rw [List.getElem?_append_right (Nat.le_refl _)]
      simp only [Nat.sub_self]
      cases exp with
      | none =>
        intro h
        obtain ⟨r, hr'⟩ := getElem?_zero_some.1 h
        exact hdot rfl rfl r (by simpa using hr')
      | some e =>
        simp only [Option.elim_some, Exponent.text, List.cons_append, List.getElem?_cons_zero,
          Option.some.injEq, ne_eq]
        rcases (he e rfl).marker with hm | hm <;> rw [hm] <;> decide
    simp only [if_neg hnd]
    have := exp_tail (checked := checked) (m := b :: ds) (rest := rest) (exp := exp)
      (intExpr (b :: ds) (.lit 0)) hu he hr hn
    rw [this]
    have hb0 : b ≠ c!"0" := by rintro rfl; revert hb; decide
    simp [mantissaExpr, Decimal.text, hb0]
  | some f =>
    have htext : Decimal.text ⟨b :: ds, some f, exp⟩ ++ rest =
        (b :: ds) ++ (c!"." :: (f ++ (exp.elim [] Exponent.text ++ rest))) := by
      simp [Decimal.text]
    have htext2 : Decimal.text ⟨b :: ds, some f, exp⟩ ++ rest =
        ((b :: ds) ++ (c!"." :: f)) ++ (exp.elim [] Exponent.text ++ rest) := by
      simp [Decimal.text]
    have h1 : parseIntLiteral (Decimal.text ⟨b :: ds, some f, exp⟩ ++ rest) =
        (intExpr (b :: ds) (.lit 0), (b :: ds).length) := by
      rw [htext]
      apply parseIntLiteral_eq b ds _ hb hd
      intro b' r h
      simp only [List.cons.injEq] at h
      rw [← h.1]; decide
    have h2 : (Decimal.text ⟨b :: ds, some f, exp⟩ ++ rest)[(b :: ds).length]? = some c!"." := by
      rw [htext, List.getElem?_append_right (Nat.le_refl _)]
      simp
    have h3 : (Decimal.text ⟨b :: ds, some f, exp⟩ ++ rest).drop ((b :: ds).length + 1) =
        f ++ (exp.elim [] Exponent.text ++ rest) := by
      rw [htext, ← List.drop_drop, List.drop_left]; rfl
    have h4 : parseDecimalDigits (f ++ (exp.elim [] Exponent.text ++ rest)) =
        (decExpr f (.lit 0) .tenth, f.length) := by
      unfold parseDecimalDigits
      rw [parseDecimalLoop_eq f _ (hf f rfl) hx]; simp
    simp only [h1]
    simp only [if_pos h2, h3, h4]
    have h5 : (b :: ds).length + (f.length + 1) = ((b :: ds) ++ (c!"." :: f)).length := by
      simp; omega
    rw [h5, htext2]
    have := exp_tail (checked := checked) (m := (b :: ds) ++ (c!"." :: f)) (rest := rest) (exp := exp)
      (.add (intExpr (b :: ds) (.lit 0)) (decExpr f (.lit 0) .tenth)) hu he hr hn
    rw [this]
    have hb0 : b ≠ c!"0" := by rintro rfl; revert hb; decide
    simp [mantissaExpr, Decimal.text, hb0]

theorem tokFractional_eq {checked : Bool} {b : UInt8} {f rest : Bytes}
    {exp : Option Exponent} (hf : ∀ x ∈ b :: f, Digit x)
    (he : ∀ e, exp = some e → e.WF)
    (hu : Utf8 rest)
    (hr : ∀ b r, rest = b :: r → ¬ Digit b)
    (hn : exp = none → ∀ b r, rest = b :: r → b ≠ c!"e" ∧ b ≠ c!"E") :
    tokFractional checked (Decimal.text ⟨[], some (b :: f), exp⟩ ++ rest) =
      expOut checked (mantissaExpr ⟨[], some (b :: f), exp⟩)
        (Decimal.text ⟨[], some (b :: f), exp⟩).length exp := by
  have hx := digits_text_split exp rest he hr
  have htext : Decimal.text ⟨[], some (b :: f), exp⟩ ++ rest =
      (c!"." :: b :: f) ++ (exp.elim [] Exponent.text ++ rest) := by
    simp [Decimal.text]
  unfold tokFractional
  rw [htext]
  have h4 : parseDecimalDigits (List.drop 1 ((c!"." :: b :: f) ++ (exp.elim [] Exponent.text ++ rest))) =
      (decExpr (b :: f) (.lit 0) .tenth, (b :: f).length) := by
    unfold parseDecimalDigits
    have := parseDecimalLoop_eq (b :: f) _ hf hx (.lit 0) .tenth 0
    simpa using this
  simp only [h4]
  have h5 : 1 + (b :: f).length = (c!"." :: b :: f).length := by simp; omega
  rw [h5]
  have := exp_tail (checked := checked) (m := c!"." :: b :: f) (rest := rest) (exp := exp)
      (.add (.lit 0) (decExpr (b :: f) (.lit 0) .tenth)) hu he hr hn
  rw [this]
  simp [mantissaExpr, Decimal.text]

theorem tokZeroNum_dot {checked : Bool} {f rest : Bytes}
    {exp : Option Exponent} (hf : ∀ x ∈ f, Digit x)
    (he : ∀ e, exp = some e → e.WF)
    (hu : Utf8 rest)
    (hr : ∀ b r, rest = b :: r → ¬ Digit b)
    (hn : exp = none → ∀ b r, rest = b :: r → b ≠ c!"e" ∧ b ≠ c!"E")
    (hne : f ≠ [] ∨ exp ≠ none ∨ rest ≠ []) :
    tokZeroNum checked (Decimal.text ⟨b!"0", some f, exp⟩ ++ rest) =
      expOut checked (mantissaExpr ⟨b!"0", some f, exp⟩)
        (Decimal.text ⟨b!"0", some f, exp⟩).length exp := by
  have hx := digits_text_split exp rest he hr
  have htext : Decimal.text ⟨b!"0", some f, exp⟩ ++ rest =
      (c!"0" :: c!"." :: f) ++ (exp.elim [] Exponent.text ++ rest) := by
    simp [Decimal.text]
  unfold tokZeroNum
  have hlen : 2 < (Decimal.text ⟨b!"0", some f, exp⟩ ++ rest).length := by
    rw [htext]
    simp only [List.length_append, List.length_cons]
    rcases hne with h | h | h
    · have := List.length_pos_iff.2 h; omega
    · cases exp with
      | none => simp at h
      | some e => simp [Exponent.text]; omega
    · have := List.length_pos_iff.2 h; omega
  have h1 : (Decimal.text ⟨b!"0", some f, exp⟩ ++ rest)[1]?.getD 0 = c!"." := by simp [Decimal.text]
  dsimp only
  rw [if_pos hlen, h1, if_neg (by decide), if_neg (by decide), if_neg (by decide), if_pos rfl]
  rw [htext]
  have h4 : parseDecimalDigits (List.drop 2 ((c!"0" :: c!"." :: f) ++ (exp.elim [] Exponent.text ++ rest))) =
      (decExpr f (.lit 0) .tenth, f.length) := by
    unfold parseDecimalDigits
    have := parseDecimalLoop_eq f _ hf hx (.lit 0) .tenth 0
    simpa using this
  simp only [h4]
  cases f with
  | nil =>
    have := exp_tail (checked := checked) (m := b!"0.") (rest := rest) (exp := exp)
      (.lit 0) hu he hr hn
    simp only [List.length_nil, ne_eq, not_true_eq_false, if_false]
    have h2 : (2 : Nat) = (b!"0.").length := rfl
    rw [h2]
    refine Eq.trans this ?_
    simp [Decimal.text, mantissaExpr]
  | cons b f =>
    have := exp_tail (checked := checked) (m := c!"0" :: c!"." :: b :: f) (rest := rest) (exp := exp)
      (.add (.lit 0) (decExpr (b :: f) (.lit 0) .tenth)) hu he hr hn
    have h6 : (b :: f).length ≠ 0 := by simp
    simp only [h6, ne_eq, not_false_eq_true, if_true]
    have h2 : 2 + (b :: f).length = (c!"0" :: c!"." :: b :: f).length := by simp; omega
    rw [h2]
    refine Eq.trans this ?_
    simp [Decimal.text, mantissaExpr]

theorem tokZeroNum_plain {checked : Bool} {rest : Bytes} (hu : Utf8 rest)
    (hdot : ∀ r, rest ≠ c!"." :: r) (hl : ∀ b r, rest = b :: r → ¬ Letter b) :
    tokZeroNum checked (c!"0" :: rest) = .ok (.num (.lit 0), 1) := by
  unfold tokZeroNum
  have hexp : parseExponent checked (c!"0" :: rest) = .ok (0, 0) :=
    parseExponent_none (by rintro b r h; simp only [List.cons.injEq] at h; rw [← h.1]; decide)
  have hs : slice (c!"0" :: rest) 0 (0 + 1) = .ok b!"0" :=
    slice_zero (v := b!"0") (e := rest) rfl rfl hu.headOk
  have hb : ∀ x, (if 2 < (c!"0" :: rest).length then (c!"0" :: rest)[1]?.getD 0 else 0) = x → x ≠ 0 →
      ∃ r, rest = x :: r := by
    intro x hx h0
    split at hx
    · cases rest with
      | nil => simp at hx; exact absurd hx.symm h0
      | cons y r => simp at hx; exact ⟨r, by rw [hx]⟩
    · exact absurd hx.symm h0
  dsimp only
  generalize hx : (if 2 < (c!"0" :: rest).length then (c!"0" :: rest)[1]?.getD 0 else 0) = x at *
  have hno : ∀ c, (Letter c ∨ c = c!".") → c ≠ 0 → x ≠ c := by
    rintro c hc h0 rfl
    obtain ⟨r, hr⟩ := hb x rfl h0
    rcases hc with hc | rfl
    · exact hl x r hr hc
    · exact hdot r hr
  have hL : ∀ c, (0x61 ≤ c ∧ c ≤ 0x7A) ∨ (0x41 ≤ c ∧ c ≤ 0x5A) → Letter c := fun c h => h
  rw [if_neg (by
    rintro (h | h)
    · exact hno _ (.inl (by decide)) (by decide) h
    · exact hno _ (.inl (by decide)) (by decide) h),
   if_neg (by
    rintro (h | h)
    · exact hno _ (.inl (by decide)) (by decide) h
    · exact hno _ (.inl (by decide)) (by decide) h),
   if_neg (by
    rintro (h | h)
    · exact hno _ (.inl (by decide)) (by decide) h
    · exact hno _ (.inl (by decide)) (by decide) h),
   if_neg (hno _ (.inr rfl) (by decide))]
  rw [hexp]
  simp only [bind, Except.bind, number, hs]
  rfl

/-! ## Other bases -/

def radixExpr (base : Nat) : Bytes → NumExpr → NumExpr
  | [], v => v
  | b :: bs, v => radixExpr base bs (.add (.mul v (.lit base)) (digitLit b c!"0"))

theorem radixExpr_eval (base : Nat) (ds : Bytes) (hd : ∀ b ∈ ds, Digit b) (v : NumExpr) :
    (radixExpr base ds v).eval = v.eval * base ^ ds.length + natVal base ds := by
  induction ds generalizing v with
  | nil => simp [radixExpr, natVal]
  | cons b ds ih =>
    rw [radixExpr, ih (fun x hx => hd x (by simp [hx]))]
    have hs := digit_sub (hd b (by simp))
    simp [NumExpr.eval, natVal, digitLit, hs, pow_succ]; ring

theorem radixExpr_exact {F : Type} {ev : NumExpr → F} {R : F → Nat → Prop} (he : ExactSmall ev R)
    (base : Nat) (hb1 : 1 ≤ base) (hb2 : base ≤ 16)
    (ds : Bytes) (hd : ∀ b ∈ ds, Digit b) (v : NumExpr) (x : Nat) (hv : R (ev v) x)
    (hle : x * base ^ ds.length + natVal base ds ≤ 2 ^ 53) :
    R (ev (radixExpr base ds v)) (x * base ^ ds.length + natVal base ds) := by
  induction ds generalizing v x with
  | nil => simpa [radixExpr, natVal] using hv
  | cons b ds ih =>
    have hs := digit_sub (hd b (by simp))
    have heq : x * base ^ (b :: ds).length + natVal base (b :: ds) =
        (x * base + digitVal b) * base ^ ds.length + natVal base ds := by
      simp [natVal, pow_succ]; ring
    rw [heq] at hle ⊢
    have hb : x * base + digitVal b ≤ (x * base + digitVal b) * base ^ ds.length + natVal base ds := by
      have : 1 ≤ base ^ ds.length := Nat.one_le_pow _ _ hb1
      have := Nat.mul_le_mul_left (x * base + digitVal b) this
      omega
    have h10 : R (ev (.lit base)) base := he.lit base (by omega)
    rw [radixExpr]
    apply ih (fun y hy => hd y (by simp [hy]))
    · have h1 := he.mul _ _ _ _ hv h10 (by omega)
      refine he.add _ _ _ _ h1 ?_ (by omega)
      rw [digitLit, hs]
      exact he.lit _ (by omega)
    · exact hle

theorem hexLoop_eq (ds rest : Bytes) (hd : ∀ b ∈ ds, Digit b)
    (hr : ∀ b r, rest = b :: r → ¬ Digit b ∧ ¬ Letter b) (v : NumExpr) (i : Nat) :
    hexLoop (ds ++ rest) v i = (radixExpr 16 ds v, i + ds.length) := by
  induction ds generalizing v i with
  | nil =>
    cases rest with
    | nil => rfl
    | cons b r =>
      obtain ⟨hb, hl⟩ := hr b r rfl
      rw [← isDigit_iff] at hb
      have h1 : ¬ (c!"a" ≤ b ∧ b ≤ c!"f") := by
        rintro ⟨h1, h2⟩; exact hl (.inl ⟨h1, UInt8.le_trans h2 (by decide)⟩)
      have h2 : ¬ (c!"A" ≤ b ∧ b ≤ c!"F") := by
        rintro ⟨h1, h2⟩; exact hl (.inr ⟨h1, UInt8.le_trans h2 (by decide)⟩)
      simp [hexLoop, hb, h1, h2, radixExpr]
  | cons b ds ih =>
    have hb := (isDigit_iff b).2 (hd b (by simp))
    rw [List.cons_append, hexLoop, if_pos hb, ih (fun x hx => hd x (by simp [hx]))]
    simp [radixExpr]; omega

theorem octLoop_eq (ds rest : Bytes) (hd : ∀ b ∈ ds, c!"0" ≤ b ∧ b ≤ c!"7")
    (hr : ∀ b r, rest = b :: r → ¬ Digit b) (v : NumExpr) (i : Nat) :
    octLoop (ds ++ rest) v i = .ok (radixExpr 8 ds v, i + ds.length) := by
  induction ds generalizing v i with
  | nil =>
    cases rest with
    | nil => rfl
    | cons b r =>
      have hb := hr b r rfl
      have h1 : ¬ (c!"0" ≤ b ∧ b ≤ c!"7") := by
        rintro ⟨h1, h2⟩; exact hb ⟨h1, UInt8.le_trans h2 (by decide)⟩
      have h2 : ¬ (b = c!"8" ∨ b = c!"9") := by
        rintro (rfl | rfl) <;> exact hb (by decide)
      simp only [List.nil_append, octLoop, if_neg h1, if_neg h2]
      simp [radixExpr]
  | cons b ds ih =>
    have hb := hd b (by simp)
    rw [List.cons_append, octLoop, if_pos hb, ih (fun x hx => hd x (by simp [hx]))]
    simp [radixExpr]; omega

theorem binLoop_eq (ds rest : Bytes) (hd : ∀ b ∈ ds, c!"0" ≤ b ∧ b ≤ c!"1")
    (hr : ∀ b r, rest = b :: r → ¬ Digit b) (v : NumExpr) (i : Nat) :
    binLoop (ds ++ rest) v i = .ok (radixExpr 2 ds v, i + ds.length) := by
  induction ds generalizing v i with
  | nil =>
    cases rest with
    | nil => rfl
    | cons b r =>
      have hb := hr b r rfl
      have h1 : ¬ (c!"0" ≤ b ∧ b ≤ c!"1") := by
        rintro ⟨h1, h2⟩; exact hb ⟨h1, UInt8.le_trans h2 (by decide)⟩
      have h2 : ¬ (c!"2" ≤ b ∧ b ≤ c!"9") := by
        rintro ⟨h1, h2⟩; exact hb ⟨UInt8.le_trans (by decide) h1, h2⟩
      simp only [List.nil_append, binLoop, if_neg h1, if_neg h2]
      simp [radixExpr]
  | cons b ds ih =>
    have hb := hd b (by simp)
    rw [List.cons_append, binLoop, if_pos hb, ih (fun x hx => hd x (by simp [hx]))]
    simp [radixExpr]; omega

theorem number_ok {v : NumExpr} {m rest : Bytes} {n : Nat} (hn : n = m.length) (hu : Utf8 rest) :
    number v (m ++ rest) n = .ok (.num v, n) := by
  unfold number
  rw [slice_zero rfl hn hu.headOk]
  rfl

theorem subU8_digit {checked : Bool} {d : UInt8} (hd : Digit d) :
    subU8 checked d c!"0" = .ok (d - c!"0") := by
  have := hd.1
  simp [subU8, this]

theorem tokZeroNum_hex {checked : Bool} {x d : UInt8} {ds rest : Bytes} (hx : x = c!"x" ∨ x = c!"X")
    (hd : ∀ b ∈ d :: ds, Digit b) (hu : Utf8 rest)
    (hr : ∀ b r, rest = b :: r → ¬ Digit b ∧ ¬ Letter b) :
    tokZeroNum checked (c!"0" :: x :: d :: ds ++ rest) =
      .ok (.num (radixExpr 16 ds (.lit (digitVal d))), (c!"0" :: x :: d :: ds).length) := by
  unfold tokZeroNum
  have hd0 := hd d (by simp)
  simp only [List.cons_append, List.length_cons, List.getElem?_cons_succ, List.getElem?_cons_zero,
    Option.getD_some, List.drop_succ_cons, List.drop_zero]
  have hlen : 2 < (ds ++ rest).length + 1 + 1 + 1 := by omega
  rw [if_pos hlen, if_pos hx, subU8_digit hd0]
  simp only [bind, Except.bind, hexLoop_eq ds rest (fun b hb => hd b (by simp [hb])) hr, digit_sub hd0]
  have := number_ok (v := radixExpr 16 ds (.lit (digitVal d))) (m := c!"0" :: x :: d :: ds)
    (rest := rest) (n := 3 + ds.length) (by simp; omega) hu
  simp only [List.cons_append] at this
  rw [this]
  congr 2; omega

theorem tokZeroNum_oct {checked : Bool} {x d : UInt8} {ds rest : Bytes} (hx : x = c!"o" ∨ x = c!"O")
    (hd : ∀ b ∈ d :: ds, c!"0" ≤ b ∧ b ≤ c!"7") (hu : Utf8 rest)
    (hr : ∀ b r, rest = b :: r → ¬ Digit b) :
    tokZeroNum checked (c!"0" :: x :: d :: ds ++ rest) =
      .ok (.num (radixExpr 8 ds (.lit (digitVal d))), (c!"0" :: x :: d :: ds).length) := by
  unfold tokZeroNum
  have hd0 : Digit d := ⟨(hd d (by simp)).1, UInt8.le_trans (hd d (by simp)).2 (by decide)⟩
  simp only [List.cons_append, List.length_cons, List.getElem?_cons_succ, List.getElem?_cons_zero,
    Option.getD_some, List.drop_succ_cons, List.drop_zero]
  have hlen : 2 < (ds ++ rest).length + 1 + 1 + 1 := by omega
  rw [if_pos hlen, if_neg (by rcases hx with rfl | rfl <;> decide), if_pos hx, subU8_digit hd0]
  simp only [bind, Except.bind, octLoop_eq ds rest (fun b hb => hd b (by simp [hb])) hr, digit_sub hd0]
  have := number_ok (v := radixExpr 8 ds (.lit (digitVal d))) (m := c!"0" :: x :: d :: ds)
    (rest := rest) (n := 3 + ds.length) (by simp; omega) hu
  simp only [List.cons_append] at this
  rw [this]
  congr 2; omega

theorem tokZeroNum_bin {checked : Bool} {x d : UInt8} {ds rest : Bytes} (hx : x = c!"b" ∨ x = c!"B")
    (hd : ∀ b ∈ d :: ds, c!"0" ≤ b ∧ b ≤ c!"1") (hu : Utf8 rest)
    (hr : ∀ b r, rest = b :: r → ¬ Digit b) :
    tokZeroNum checked (c!"0" :: x :: d :: ds ++ rest) =
      .ok (.num (radixExpr 2 ds (.lit (digitVal d))), (c!"0" :: x :: d :: ds).length) := by
  unfold tokZeroNum
  have hd0 : Digit d := ⟨(hd d (by simp)).1, UInt8.le_trans (hd d (by simp)).2 (by decide)⟩
  simp only [List.cons_append, List.length_cons, List.getElem?_cons_succ, List.getElem?_cons_zero,
    Option.getD_some, List.drop_succ_cons, List.drop_zero]
  have hlen : 2 < (ds ++ rest).length + 1 + 1 + 1 := by omega
  rw [if_pos hlen, if_neg (by rcases hx with rfl | rfl <;> decide),
    if_neg (by rcases hx with rfl | rfl <;> decide), if_pos hx, subU8_digit hd0]
  simp only [bind, Except.bind, binLoop_eq ds rest (fun b hb => hd b (by simp [hb])) hr, digit_sub hd0]
  have := number_ok (v := radixExpr 2 ds (.lit (digitVal d))) (m := c!"0" :: x :: d :: ds)
    (rest := rest) (n := 3 + ds.length) (by simp; omega) hu
  simp only [List.cons_append] at this
  rw [this]
  congr 2; omega

end Jsparse
