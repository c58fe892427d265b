import Mathlib.Algebra.Order.Field.Rat
import Mathlib.Tactic.Positivity
import Mathlib.Tactic.Linarith
import Verif.Props.Strings
/-!
# C17–C19: number literals
-/

namespace Jsparse

open Spec

/-! ## The zero test of `parse_int_literal` -/

/-- No division occurs in the computation. -/
def NumExpr.NoDiv : NumExpr → Prop
  | .add a b | .mul a b => a.NoDiv ∧ b.NoDiv
  | .div _ _ => False
  | _ => True

theorem NumExpr.eval_nonneg (v : NumExpr) : 0 ≤ v.eval := by
  induction v with
  | lit n => simp [NumExpr.eval]
  | tenth => norm_num [NumExpr.eval]
  | add a b iha ihb => exact add_nonneg iha ihb
  | mul a b iha ihb => exact mul_nonneg iha ihb
  | div a b iha ihb => exact div_nonneg iha ihb
  | powi10 e => exact zpow_nonneg (by norm_num) e

/-- The model's syntactic test for zero is right (no division occurs in integer literals). -/
theorem NumExpr.isZero_eval (v : NumExpr) (h : v.NoDiv) : v.isZero = true ↔ v.eval = 0 := by
  induction v with
  | lit n => simp [NumExpr.eval, NumExpr.isZero]
  | tenth => norm_num [NumExpr.eval, NumExpr.isZero]
  | add a b iha ihb =>
    simp only [NumExpr.eval, NumExpr.isZero, Bool.and_eq_true, iha h.1, ihb h.2]
    constructor
    · rintro ⟨h1, h2⟩; rw [h1, h2, add_zero]
    · intro h3
      have := a.eval_nonneg
      have := b.eval_nonneg
      exact ⟨by linarith, by linarith⟩
  | mul a b iha ihb =>
    simp only [NumExpr.eval, NumExpr.isZero, Bool.or_eq_true, iha h.1, ihb h.2, mul_eq_zero]
  | div a b => exact h.elim
  | powi10 e =>
    simp only [NumExpr.eval, NumExpr.isZero, Bool.false_eq_true, false_iff]
    exact zpow_ne_zero e (by norm_num)

/-! ## C17 -/

theorem nonzero_digit : ∀ b : UInt8, (c!"1" ≤ b ∧ b ≤ c!"9") → b = 49 ∨ b = 50 ∨ b = 51 ∨ b = 52 ∨
    b = 53 ∨ b = 54 ∨ b = 55 ∨ b = 56 ∨ b = 57 := by
  apply forall_byte
  decide +kernel

theorem readNext_num {checked : Bool} {h : Hint} {b : UInt8} (hb : c!"1" ≤ b ∧ b ≤ c!"9") (s : Bytes) :
    readNext checked (b :: s) h = tokNum checked (b :: s) := by
  rcases nonzero_digit b hb with rfl | rfl | rfl | rfl | rfl | rfl | rfl | rfl | rfl <;> rfl

theorem readNext_zero {checked : Bool} {h : Hint} (s : Bytes) :
    readNext checked (c!"0" :: s) h = tokZeroNum checked (c!"0" :: s) := rfl

theorem readNext_fractional {checked : Bool} {h : Hint} {b : UInt8} (hb : Digit b) (s : Bytes) :
    readNext checked (c!"." :: b :: s) h = tokFractional checked (c!"." :: b :: s) := by
  rcases digit_zero_or hb with rfl | hb
  · rfl
  · rcases nonzero_digit b hb with rfl | rfl | rfl | rfl | rfl | rfl | rfl | rfl | rfl <;> rfl

/-- The two literals that the tokenizer cuts short: a zero with exponent but without fraction (`0e5`),
and `0.` at the very end of the text. -/
structure Spec.CutShort (d : Decimal) (rest : Bytes) : Prop where
  int : d.int = b!"0"
  why : (d.frac = none ∧ d.exp ≠ none) ∨ (d.frac = some [] ∧ d.exp = none ∧ rest = [])

theorem decimal_readNext {checked : Bool} {h : Hint} {d : Decimal} {rest : Bytes} (hwf : d.WF)
    (he : d.Ends rest) (hu : Utf8 rest) (hc : ¬ CutShort d rest) :
    readNext checked (d.text ++ rest) h =
      expOut checked (mantissaExpr d) d.text.length d.exp := by
  obtain ⟨int, frac, exp⟩ := d
  cases int with
  | nil =>
    obtain ⟨b, f, hf⟩ := hwf.leadingDot rfl
    simp only at hf
    subst hf
    have hd := hwf.frac _ rfl
    have h1 : Decimal.text ⟨[], some (b :: f), exp⟩ ++ rest =
        c!"." :: b :: (f ++ exp.elim [] Exponent.text ++ rest) := by simp [Decimal.text]
    rw [h1, readNext_fractional (hd b (by simp)), ← h1]
    exact tokFractional_eq hd hwf.exp hu he.digit he.exp
  | cons b ds =>
    have hd := hwf.int
    simp only at hd
    have h1 : Decimal.text ⟨b :: ds, frac, exp⟩ ++ rest =
        b :: (ds ++ frac.elim [] (c!"." :: ·) ++ exp.elim [] Exponent.text ++ rest) := by
      simp [Decimal.text]
    rcases digit_zero_or (hd b (by simp)) with rfl | hb
    · obtain rfl := hwf.noLeadingZero ds rfl
      rw [h1, readNext_zero, ← h1]
      cases frac with
      | some f =>
        refine tokZeroNum_dot (hwf.frac f rfl) hwf.exp hu he.digit he.exp ?_
        by_contra hcon
        simp only [not_or, Decidable.not_not] at hcon
        obtain ⟨rfl, rfl, rfl⟩ := hcon
        exact hc ⟨rfl, .inr ⟨rfl, rfl, rfl⟩⟩
      | none =>
        cases exp with
        | some e => exact absurd ⟨rfl, .inl ⟨rfl, by simp⟩⟩ hc
        | none =>
          have := tokZeroNum_plain (checked := checked) hu (he.dot rfl rfl) (he.radix rfl rfl rfl)
          simpa [Decimal.text, mantissaExpr, expOut] using this
    · rw [h1, readNext_num hb, ← h1]
      exact tokNum_eq hb (fun x hx => hd x (by simp [hx])) hwf.frac hwf.exp hu he.digit he.exp he.dot

theorem digit_ahead {t : Tokenizer} {bl s : Bytes} {b : UInt8} (hb : Digit b ∨ b = c!".")
    (hu : unread t = bl ++ b :: s) (hbl : Blanks bl) :
    Ahead t bl (b :: s) ∧ ¬ StartsWide (b :: s) := by
  have : b < 0x80 := by
    rcases hb with hb | rfl
    · exact digit_ascii hb
    · decide
  refine ⟨⟨hu, hbl, noBlankHead_cons ?_⟩, ascii_notWide this⟩
  rintro (rfl | rfl | rfl | rfl) <;> revert hb <;> decide

theorem decimal_head {d : Decimal} (hwf : d.WF) :
    ∃ b s, d.text = b :: s ∧ (Digit b ∨ b = c!".") := by
  cases hi : d.int with
  | nil =>
    obtain ⟨b, f, hf⟩ := hwf.leadingDot hi
    exact ⟨c!".", b :: f ++ d.exp.elim [] Exponent.text, by simp [Decimal.text, hi, hf], .inr rfl⟩
  | cons b ds =>
    refine ⟨b, ds ++ d.frac.elim [] (c!"." :: ·) ++ d.exp.elim [] Exponent.text, by simp [Decimal.text, hi],
      .inl (hwf.int b (by rw [hi]; simp))⟩

theorem decimal_ascii {d : Decimal} (hwf : d.WF) : ∀ b ∈ d.text, b < 0x80 := by
  intro b hb
  simp only [Decimal.text, List.mem_append] at hb
  rcases hb with (hb | hb) | hb
  · exact digit_ascii (hwf.int b hb)
  · cases hf : d.frac with
    | none => rw [hf] at hb; simp at hb
    | some f =>
      rw [hf] at hb
      simp only [Option.elim_some, List.mem_cons] at hb
      rcases hb with rfl | hb
      · decide
      · exact digit_ascii (hwf.frac f hf b hb)
  · cases he : d.exp with
    | none => rw [he] at hb; simp at hb
    | some e => rw [he] at hb; exact exponent_ascii (hwf.exp e he) b hb

/-- Mantissa of the value of a decimal literal. -/
theorem mantissa_eval {d : Decimal} (hwf : d.WF) :
    (mantissaExpr d).eval =
      (natVal 10 d.int : ℚ) + d.frac.elim 0 (fun f => (natVal 10 f : ℚ) / 10 ^ f.length) := by
  have h0 : ((natVal 10 b!"0" : Nat) : ℚ) = 0 := rfl
  have hn : ((natVal 10 [] : Nat) : ℚ) = 0 := rfl
  have hi := intExpr_eval d.int hwf.int (.lit 0)
  have hz : (NumExpr.lit 0).eval = 0 := by simp [NumExpr.eval]
  rw [hz, zero_mul, zero_add] at hi
  have ht : NumExpr.tenth.eval * 10 = 1 := by norm_num [NumExpr.eval]
  unfold mantissaExpr
  cases hf : d.frac with
  | none =>
    simp only [Option.elim_none, add_zero]
    split
    · rename_i h; rw [h, h0, hz]
    · exact hi
  | some f =>
    have hd := decExpr_eval f (hwf.frac f hf) (.lit 0) .tenth
    rw [hz, ht, zero_add, one_mul] at hd
    simp only [Option.elim_some]
    split
    · rename_i h; obtain ⟨h1, rfl⟩ := h; rw [h1, h0, hz, hn]; simp
    · simp only [NumExpr.eval, hd]
      congr 1
      split
      · rename_i h
        rcases h with h | h <;> rw [h]
        · rw [h0, hz]
        · rw [hn, hz]
      · exact hi

/-- **C17**, with two exceptions: a decimal literal (with an exponent below 2³¹) that is not cut short
is read as one number token that covers exactly the literal; computed in exact arithmetic, its value is
the mathematical value of the literal; and if it is an integer up to 2⁵³, it is exact in every
arithmetic that is exact on integers up to 2⁵³.
(Missing: the literals of `CutShort`, for which `C17_cut_short` shows that the property is false, and
longer exponents, see C19.) -/
theorem C17_decimal_partial {t : Tokenizer} (hv : Valid t) {bl rest : Bytes} {d : Decimal}
    (hu : unread t = bl ++ (d.text ++ rest)) (hbl : Blanks bl) (hwf : d.WF) (he : d.Ends rest)
    (hc : ¬ CutShort d rest) (hx : ∀ e, d.exp = some e → natVal 10 e.digits < 2 ^ 31) (h : Hint) :
    ∃ v, Reads t h (.num v) bl d.text ∧ v.eval = d.value ∧
      (d.frac = none → d.exp = none → natVal 10 d.int ≤ 2 ^ 53 →
        ∀ {F : Type} (ev : NumExpr → F) (R : F → Nat → Prop), ExactSmall ev R →
          R (ev v) (natVal 10 d.int)) := by
  obtain ⟨b, s, htext, hb⟩ := decimal_head hwf
  have hdr : d.text ++ rest = b :: (s ++ rest) := by rw [htext]; rfl
  obtain ⟨ha, hw⟩ := digit_ahead (s := s ++ rest) hb (by rw [hu, hdr]) hbl
  rw [← hdr] at ha hw
  have h8 := ha.utf8 hv
  have hur : Utf8 rest := h8.append_ascii (decimal_ascii hwf)
  have h1 := decimal_readNext (checked := t.checked) (h := h) hwf he hur hc
  have hread : ∀ v, readNext t.checked (d.text ++ rest) h = .ok (.num v, d.text.length) →
      Reads t h (.num v) bl d.text := by
    intro v hv'
    have := ha.reads hv hw hv' (ascii_boundary h8 (decimal_ascii hwf))
    rwa [take_append_length _ _ rfl] at this
  have hm := mantissa_eval hwf
  cases hexp : d.exp with
  | none =>
    rw [hexp] at h1
    refine ⟨_, hread _ h1, ?_, ?_⟩
    · rw [hm]; simp [Decimal.value, hexp]
    · intro hf _ hle F ev R hR
      have h0 : natVal 10 b!"0" = 0 := rfl
      simp only [mantissaExpr, hf]
      split
      · rename_i hi; rw [hi, h0]; exact hR.lit 0 (by norm_num)
      · have := intExpr_exact hR d.int hwf.int (.lit 0) 0 (hR.lit 0 (by norm_num)) (by simpa using hle)
        simpa using this
  | some e =>
    have hlt := hx e hexp
    rw [hexp] at h1
    simp only [expOut] at h1
    rw [if_neg (by omega), bmod_small (by unfold Exponent.value; split <;> omega)
      (by unfold Exponent.value; split <;> omega)] at h1
    refine ⟨_, hread _ h1, ?_, by simp⟩
    simp only [NumExpr.eval, hm, Decimal.value, hexp, Option.elim_some]

/-- `12.5e-3` followed by `;` -/
example : ∃ v, Reads (intoTokenizer true b!" 12.5e-3;") {} (.num v) b!" " b!"12.5e-3" ∧
    v.eval = 125 / 10000 := by
  obtain ⟨v, h1, h2, -⟩ := C17_decimal_partial (t := intoTokenizer true b!" 12.5e-3;")
    (valid_intoTokenizer true (utf8_ascii (by decide))) (bl := b!" ") (rest := b!";")
    (d := ⟨b!"12", some b!"5", some ⟨c!"e", .minus, b!"3"⟩⟩) rfl (by decide)
    ⟨by decide, (by intro f h; cases h; decide),
      (by intro e h; cases h; exact ⟨.inl rfl, by decide, by decide⟩), nofun, nofun⟩
    ⟨(by intro b r h; cases h; decide), nofun, nofun, nofun⟩
    (by rintro ⟨h, -⟩; cases h) (by intro e h; cases h; decide) {}
  refine ⟨v, h1, h2.trans ?_⟩
  norm_num [Decimal.value, Exponent.value, natVal, digitVal, UInt8.toNat]

/-- Exact rational arithmetic is one of the arithmetics of `C17_decimal_partial`. -/
example : ExactSmall NumExpr.eval (fun x n => x = n) :=
  ⟨fun n _ => rfl, by rintro a b m n h1 h2 -; simp [NumExpr.eval, h1, h2],
    by rintro a b m n h1 h2 -; simp [NumExpr.eval, h1, h2]⟩

/-- **C17** is false for the two exceptions: `0e5` is read as `0`, and so is `0.` at the end. -/
theorem C17_cut_short :
    (Reads (intoTokenizer true b!"0e5") {} (.num (.lit 0)) [] b!"0" ∧
      (⟨b!"0", none, some ⟨c!"e", .none, b!"5"⟩⟩ : Decimal).text = b!"0e5") ∧
    (Reads (intoTokenizer true b!"0.") {} (.num (.lit 0)) [] b!"0" ∧
      (⟨b!"0", some [], none⟩ : Decimal).text = b!"0.") :=
  ⟨⟨⟨_, _, rfl, rfl, rfl, rfl, rfl, rfl, rfl⟩, rfl⟩, ⟨⟨_, _, rfl, rfl, rfl, rfl, rfl, rfl, rfl⟩, rfl⟩⟩

/-! ## C18 -/

/-- The value of digits in a base, as a left-to-right sum. -/
theorem natVal_foldl (base : Nat) (ds : Bytes) (x : Nat) :
    ds.foldl (fun n d => n * base + digitVal d) x = x * base ^ ds.length + natVal base ds := by
  induction ds generalizing x with
  | nil => simp [natVal]
  | cons d ds ih =>
    rw [List.foldl_cons, ih]
    simp only [natVal, List.length_cons, pow_succ]
    ring

/-- What a literal in base 8 or 2 is read as, given the result of the tokenizer function. -/
theorem radix_reads {t : Tokenizer} (hv : Valid t) {bl m rest : Bytes} {v : NumExpr} {h : Hint}
    (hu : unread t = bl ++ (c!"0" :: m ++ rest)) (hbl : Blanks bl) (hm : ∀ b ∈ m, b < 0x80)
    (hr : Utf8 rest → tokZeroNum t.checked (c!"0" :: m ++ rest) = .ok (.num v, (c!"0" :: m).length)) :
    Reads t h (.num v) bl (c!"0" :: m) := by
  obtain ⟨ha, hw⟩ := digit_ahead (b := c!"0") (s := m ++ rest) (.inl (by decide)) hu hbl
  have h8 := ha.utf8 hv
  have hm' : ∀ b ∈ c!"0" :: m, b < 0x80 := by
    intro b hb
    rcases List.mem_cons.1 hb with rfl | hb
    · decide
    · exact hm b hb
  have hbd : isBoundary (c!"0" :: m ++ rest) (c!"0" :: m).length = true := ascii_boundary h8 hm'
  have hur : Utf8 rest := Utf8.append_ascii (a := c!"0" :: m) h8 hm'
  have := ha.reads hv hw (hint := h) (hr hur) hbd
  have h2 : c!"0" :: (m ++ rest) = (c!"0" :: m) ++ rest := rfl
  rwa [h2, take_append_length _ _ rfl] at this

theorem octal_digit {b : UInt8} (h : c!"0" ≤ b ∧ b ≤ c!"7") : Digit b :=
  ⟨h.1, UInt8.le_trans h.2 (by decide)⟩

theorem binary_digit {b : UInt8} (h : c!"0" ≤ b ∧ b ≤ c!"1") : Digit b :=
  ⟨h.1, UInt8.le_trans h.2 (by decide)⟩

theorem radix_value (base : Nat) (d : UInt8) (ds : Bytes) (hd : ∀ b ∈ ds, Digit b) :
    (radixExpr base ds (.lit (digitVal d))).eval = natVal base (d :: ds) := by
  rw [radixExpr_eval base ds hd]
  simp [NumExpr.eval, natVal]

theorem radix_exact (base : Nat) (h1 : 1 ≤ base) (h2 : base ≤ 16) (d : UInt8) (ds : Bytes)
    (hd : ∀ b ∈ ds, Digit b) (hle : natVal base (d :: ds) ≤ 2 ^ 53)
    {F : Type} (ev : NumExpr → F) (R : F → Nat → Prop) (hR : ExactSmall ev R) :
    R (ev (radixExpr base ds (.lit (digitVal d)))) (natVal base (d :: ds)) := by
  refine radixExpr_exact hR base h1 h2 ds hd _ (digitVal d) (hR.lit _ ?_) hle
  have : digitVal d ≤ digitVal d * base ^ ds.length := Nat.le_mul_of_pos_right _ (by positivity)
  simp only [natVal] at hle
  omega

/-- **C18**, octal: `0o` and digits 0–7, not followed by a digit, is one number token with the right
value (exact in every arithmetic that is exact on integers up to 2⁵³, if the value is that small). -/
theorem C18_octal {t : Tokenizer} (hv : Valid t) {bl ds rest : Bytes} {x d : UInt8}
    (hu : unread t = bl ++ (c!"0" :: x :: d :: ds ++ rest)) (hbl : Blanks bl)
    (hx : x = c!"o" ∨ x = c!"O") (hd : ∀ b ∈ d :: ds, c!"0" ≤ b ∧ b ≤ c!"7")
    (hr : ∀ b r, rest = b :: r → ¬ Digit b) (h : Hint) :
    ∃ v, Reads t h (.num v) bl (c!"0" :: x :: d :: ds) ∧ v.eval = natVal 8 (d :: ds) ∧
      (natVal 8 (d :: ds) ≤ 2 ^ 53 → ∀ {F : Type} (ev : NumExpr → F) (R : F → Nat → Prop),
        ExactSmall ev R → R (ev v) (natVal 8 (d :: ds))) := by
  have hd' : ∀ b ∈ ds, Digit b := fun b hb => octal_digit (hd b (by simp [hb]))
  refine ⟨_, radix_reads hv (v := radixExpr 8 ds (.lit (digitVal d))) hu hbl ?_
    (fun hur => tokZeroNum_oct hx hd hur hr), radix_value 8 d ds hd',
    fun hle F ev R hR => radix_exact 8 (by omega) (by omega) d ds hd' hle ev R hR⟩
  intro b hb
  rcases List.mem_cons.1 hb with rfl | hb
  · rcases hx with rfl | rfl <;> decide
  · exact digit_ascii (octal_digit (hd b hb))

/-- **C18**, binary. -/
theorem C18_binary {t : Tokenizer} (hv : Valid t) {bl ds rest : Bytes} {x d : UInt8}
    (hu : unread t = bl ++ (c!"0" :: x :: d :: ds ++ rest)) (hbl : Blanks bl)
    (hx : x = c!"b" ∨ x = c!"B") (hd : ∀ b ∈ d :: ds, c!"0" ≤ b ∧ b ≤ c!"1")
    (hr : ∀ b r, rest = b :: r → ¬ Digit b) (h : Hint) :
    ∃ v, Reads t h (.num v) bl (c!"0" :: x :: d :: ds) ∧ v.eval = natVal 2 (d :: ds) ∧
      (natVal 2 (d :: ds) ≤ 2 ^ 53 → ∀ {F : Type} (ev : NumExpr → F) (R : F → Nat → Prop),
        ExactSmall ev R → R (ev v) (natVal 2 (d :: ds))) := by
  have hd' : ∀ b ∈ ds, Digit b := fun b hb => binary_digit (hd b (by simp [hb]))
  refine ⟨_, radix_reads hv (v := radixExpr 2 ds (.lit (digitVal d))) hu hbl ?_
    (fun hur => tokZeroNum_bin hx hd hur hr), radix_value 2 d ds hd',
    fun hle F ev R hR => radix_exact 2 (by omega) (by omega) d ds hd' hle ev R hR⟩
  intro b hb
  rcases List.mem_cons.1 hb with rfl | hb
  · rcases hx with rfl | rfl <;> decide
  · exact digit_ascii (binary_digit (hd b hb))

example : ∃ v, Reads (intoTokenizer true b!"0o17;") {} (.num v) [] b!"0o17" ∧ v.eval = 15 := by
  obtain ⟨v, h1, h2, -⟩ := C18_octal (t := intoTokenizer true b!"0o17;")
    (valid_intoTokenizer true (utf8_ascii (by decide))) (bl := []) (x := c!"o") (d := c!"1")
    (ds := b!"7") (rest := b!";") rfl (by decide) (.inl rfl) (by decide)
    (by intro b r h; cases h; decide) {}
  exact ⟨v, h1, h2.trans (by norm_num [natVal, digitVal, UInt8.toNat])⟩

/-- The value that the loop for hexadecimal digits adds for a digit: letters count from 0. -/
def laterVal (b : UInt8) : Nat := if b ≤ 0x39 then hexVal b else hexVal b - 10

/-- The computation recorded for hexadecimal digits. -/
def hexExpr : Bytes → NumExpr → NumExpr
  | [], v => v
  | b :: bs, v => hexExpr bs (.add (.mul v (.lit 16)) (.lit (laterVal b)))

theorem hexExpr_eval (ds : Bytes) (v : NumExpr) (x : Nat) (hv : v.eval = x) :
    (hexExpr ds v).eval = ((ds.foldl (fun n d => n * 16 + laterVal d) x : Nat) : ℚ) := by
  induction ds generalizing v x with
  | nil => exact hv
  | cons d ds ih =>
    rw [hexExpr, List.foldl_cons]
    apply ih
    simp [NumExpr.eval, hv]

theorem hexDigit_cases : ∀ b, HexDigit b →
    (Digit b ∧ (b - c!"0").toNat = laterVal b ∧ hexVal b = laterVal b ∧ (b - c!"0").toNat = hexVal b) ∨
    ((c!"a" ≤ b ∧ b ≤ c!"f") ∧ ¬ Digit b ∧ (b - c!"a").toNat = laterVal b ∧
      hexVal b = laterVal b + 10 ∧ (b - c!"0").toNat = hexVal b + 39) ∨
    ((c!"A" ≤ b ∧ b ≤ c!"F") ∧ ¬ Digit b ∧ (b - c!"A").toNat = laterVal b ∧
      hexVal b = laterVal b + 10 ∧ (b - c!"0").toNat = hexVal b + 7) := by
  apply forall_byte
  unfold HexDigit
  decide +kernel

theorem hexLoop_all (ds rest : Bytes) (hd : ∀ b ∈ ds, HexDigit b)
    (hr : ∀ b r, rest = b :: r → ¬ HexDigit b) (v : NumExpr) (i : Nat) :
    hexLoop (ds ++ rest) v i = (hexExpr ds v, i + ds.length) := by
  induction ds generalizing v i with
  | nil =>
    cases rest with
    | nil => rfl
    | cons b r =>
      have hb := hr b r rfl
      have h0 : ¬ isDigit b = true := by rw [isDigit_iff]; exact fun h => hb (.inl h)
      have h1 : ¬ (c!"a" ≤ b ∧ b ≤ c!"f") := fun h => hb (.inr (.inl h))
      have h2 : ¬ (c!"A" ≤ b ∧ b ≤ c!"F") := fun h => hb (.inr (.inr h))
      simp [hexLoop, h0, h1, h2, hexExpr]
  | cons b ds ih =>
    have hi : ∀ v, hexLoop (ds ++ rest) v (i + 1) = (hexExpr ds v, i + (b :: ds).length) := by
      intro v
      rw [ih (fun y hy => hd y (by simp [hy]))]
      simp only [List.length_cons]; congr 1; omega
    rw [List.cons_append, hexLoop, hexExpr]
    rcases hexDigit_cases b (hd b (by simp)) with ⟨h1, h2, -⟩ | ⟨h1, h0, h2, -⟩ | ⟨h1, h0, h2, -⟩
    · rw [if_pos ((isDigit_iff b).2 h1), hi, digitLit, h2]
    · rw [if_neg (by rwa [isDigit_iff]), if_pos h1, hi, digitLit, h2]
    · have h3 : ¬ (c!"a" ≤ b ∧ b ≤ c!"f") := by
        rintro ⟨h4, -⟩
        have := UInt8.le_trans h4 h1.2
        revert this; decide
      rw [if_neg (by rwa [isDigit_iff]), if_neg h3, if_pos h1, hi, digitLit, h2]

/-- Too large a start is never made up for. -/
theorem hex_above (ds : Bytes) (hd : ∀ b ∈ ds, HexDigit b) (x y : Nat) (h : y < x) :
    ds.foldl (fun n d => n * 16 + hexVal d) y < ds.foldl (fun n d => n * 16 + laterVal d) x := by
  induction ds generalizing x y with
  | nil => exact h
  | cons d ds ih =>
    rw [List.foldl_cons, List.foldl_cons]
    apply ih (fun b hb => hd b (by simp [hb]))
    rcases hexDigit_cases d (hd d (by simp)) with ⟨-, -, h2, -⟩ | ⟨-, -, -, h2, -⟩ | ⟨-, -, -, h2, -⟩ <;>
      omega

theorem hex_below (ds : Bytes) (hd : ∀ b ∈ ds, HexDigit b) (x y : Nat) (h : x ≤ y) :
    ds.foldl (fun n d => n * 16 + laterVal d) x ≤ ds.foldl (fun n d => n * 16 + hexVal d) y ∧
    ((x < y ∨ ∃ b ∈ ds, ¬ Digit b) →
      ds.foldl (fun n d => n * 16 + laterVal d) x < ds.foldl (fun n d => n * 16 + hexVal d) y) := by
  induction ds generalizing x y with
  | nil => exact ⟨h, by rintro (h | ⟨b, hb, -⟩); exacts [h, absurd hb (by simp)]⟩
  | cons d ds ih =>
    rw [List.foldl_cons, List.foldl_cons]
    have hd' := fun b hb => hd b (List.mem_cons_of_mem d hb)
    have key : laterVal d ≤ hexVal d ∧ (¬ Digit d → laterVal d < hexVal d) := by
      rcases hexDigit_cases d (hd d (by simp)) with ⟨h1, -, h2, -⟩ | ⟨-, h1, -, h2, -⟩ |
        ⟨-, h1, -, h2, -⟩
      · exact ⟨by omega, fun h => absurd h1 h⟩
      · exact ⟨by omega, fun _ => by omega⟩
      · exact ⟨by omega, fun _ => by omega⟩
    have := ih hd' (x * 16 + laterVal d) (y * 16 + hexVal d) (by omega)
    refine ⟨this.1, ?_⟩
    rintro (h1 | ⟨b, hb, h1⟩)
    · exact this.2 (.inl (by omega))
    · rcases List.mem_cons.1 hb with rfl | hb
      · have hk := key.2 h1
        exact this.2 (.inl (by omega))
      · exact this.2 (.inr ⟨b, hb, h1⟩)

theorem hexDigit_ascii : ∀ b, HexDigit b → b < 0x80 ∧ c!"0" ≤ b := by
  apply forall_byte
  unfold HexDigit
  decide +kernel

/-- **C18**, hexadecimal: `0x` and hexadecimal digits, not followed by another one, is one number token;
its value is right exactly if all digits are 0–9.  (So the property holds for these literals, and is
false for all others.) -/
theorem C18_hex_right_iff_partial {t : Tokenizer} (hv : Valid t) {bl ds rest : Bytes} {x d : UInt8}
    (hu : unread t = bl ++ (c!"0" :: x :: d :: ds ++ rest)) (hbl : Blanks bl)
    (hx : x = c!"x" ∨ x = c!"X") (hd : ∀ b ∈ d :: ds, HexDigit b)
    (hr : ∀ b r, rest = b :: r → ¬ HexDigit b) (h : Hint) :
    ∃ v, Reads t h (.num v) bl (c!"0" :: x :: d :: ds) ∧
      (v.eval = hexNat (d :: ds) ↔ ∀ b ∈ d :: ds, Digit b) := by
  have hd' := fun b hb => hd b (List.mem_cons_of_mem d hb)
  have hd0 := hexDigit_ascii d (hd d (by simp))
  refine ⟨hexExpr ds (.lit (d - c!"0").toNat), radix_reads hv hu hbl ?_ ?_, ?_⟩
  · intro b hb
    rcases List.mem_cons.1 hb with rfl | hb
    · rcases hx with rfl | rfl <;> decide
    · exact (hexDigit_ascii b (hd b hb)).1
  · intro hur
    unfold tokZeroNum
    simp only [List.cons_append, List.length_cons, List.getElem?_cons_succ, List.getElem?_cons_zero,
      Option.getD_some, List.drop_succ_cons, List.drop_zero]
    have hlen : 2 < (ds ++ rest).length + 1 + 1 + 1 := by omega
    rw [if_pos hlen, if_pos hx]
    have hsub : subU8 t.checked d c!"0" = .ok (d - c!"0") := by simp [subU8, hd0.2]
    rw [hsub]
    simp only [bind, Except.bind, hexLoop_all ds rest hd' hr]
    have := number_ok (v := hexExpr ds (.lit (d - c!"0").toNat)) (m := c!"0" :: x :: d :: ds)
      (rest := rest) (n := 3 + ds.length) (by simp; omega) hur
    simp only [List.cons_append] at this
    rw [this]
    congr 2; omega
  · rw [hexExpr_eval ds _ (d - c!"0").toNat (by simp [NumExpr.eval]), Nat.cast_inj, hexNat,
      List.foldl_cons, Nat.zero_mul, Nat.zero_add]
    constructor
    · intro heq b hb
      rcases hexDigit_cases d (hd d (by simp)) with ⟨h1, -, -, h2⟩ | ⟨-, -, -, -, h2⟩ |
        ⟨-, -, -, -, h2⟩
      · rcases List.mem_cons.1 hb with rfl | hb
        · exact h1
        · by_contra hcon
          have := (hex_below ds hd' (d - c!"0").toNat (hexVal d) (by omega)).2 (.inr ⟨b, hb, hcon⟩)
          omega
      · have := hex_above ds hd' (d - c!"0").toNat (hexVal d) (by omega)
        omega
      · have := hex_above ds hd' (d - c!"0").toNat (hexVal d) (by omega)
        omega
    · intro hall
      have hsame : ∀ (ds : Bytes) (x : Nat), (∀ b ∈ ds, HexDigit b) → (∀ b ∈ ds, Digit b) →
          ds.foldl (fun n d => n * 16 + laterVal d) x = ds.foldl (fun n d => n * 16 + hexVal d) x := by
        intro ds
        induction ds with
        | nil => intros; rfl
        | cons d ds ih =>
          intro x h1 h2
          rw [List.foldl_cons, List.foldl_cons]
          rcases hexDigit_cases d (h1 d (by simp)) with ⟨-, -, h3, -⟩ | ⟨-, h3, -⟩ | ⟨-, h3, -⟩
          · rw [h3]; exact ih _ (fun b hb => h1 b (by simp [hb])) (fun b hb => h2 b (by simp [hb]))
          · exact absurd (h2 d (by simp)) h3
          · exact absurd (h2 d (by simp)) h3
      rcases hexDigit_cases d (hd d (by simp)) with ⟨-, -, -, h2⟩ | ⟨-, h3, -⟩ | ⟨-, h3, -⟩
      · rw [h2]; exact hsame ds _ hd' (fun b hb => hall b (by simp [hb]))
      · exact absurd (hall d (by simp)) h3
      · exact absurd (hall d (by simp)) h3

/-- `0x12` is right. -/
example : ∃ v, Reads (intoTokenizer true b!"0x12") {} (.num v) [] b!"0x12" ∧ v.eval = 18 := by
  obtain ⟨v, h1, h2⟩ := C18_hex_right_iff_partial (t := intoTokenizer true b!"0x12")
    (valid_intoTokenizer true (utf8_ascii (by decide))) (bl := []) (x := c!"x") (d := c!"1")
    (ds := b!"2") (rest := []) rfl (by decide) (.inl rfl)
    (by intro b hb; exact .inl (by revert b; decide)) nofun {}
  have h3 : hexNat b!"12" = 18 := by decide
  refine ⟨v, h1, (h2.2 (by decide)).trans ?_⟩
  rw [h3]; rfl

/-- **C18** is false: `0xff` is read as 869 and not as 255. -/
theorem C18_hex_wrong :
    ∃ v, Reads (intoTokenizer true b!"0xff") {} (.num v) [] b!"0xff" ∧ v.eval = 869 ∧
      hexNat b!"ff" = 255 := by
  refine ⟨.add (.mul (.lit 54) (.lit 16)) (.lit 5), ⟨_, _, rfl, rfl, rfl, rfl, rfl, rfl, rfl⟩, ?_,
    by decide⟩
  norm_num [NumExpr.eval]

/-! ## C19 -/

/-- **C19.** In a build with overflow checks, a decimal literal that is not cut short panics with an
arithmetic overflow exactly if the digits of its exponent denote 2³¹ or more. -/
theorem C19_checked_overflow_iff {t : Tokenizer} (hv : Valid t) (hck : t.checked = true)
    {bl rest : Bytes} {d : Decimal}
    (hu : unread t = bl ++ (d.text ++ rest)) (hbl : Blanks bl) (hwf : d.WF) (he : d.Ends rest)
    (hc : ¬ CutShort d rest) (h : Hint) :
    (∃ p, PanicsWith t h p) ↔ ∃ e, d.exp = some e ∧ 2 ^ 31 ≤ natVal 10 e.digits := by
  constructor
  · rintro ⟨p, hp⟩
    by_contra hcon
    obtain ⟨v, ⟨r, t', h1, -⟩, -⟩ := C17_decimal_partial hv hu hbl hwf he hc
      (by intro e he; by_contra h; exact hcon ⟨e, he, by omega⟩) h
    unfold PanicsWith at hp
    rw [hp] at h1; cases h1
  · rintro ⟨e, hexp, hle⟩
    obtain ⟨b, s, htext, hb⟩ := decimal_head hwf
    have hdr : d.text ++ rest = b :: (s ++ rest) := by rw [htext]; rfl
    obtain ⟨ha, hw⟩ := digit_ahead (s := s ++ rest) hb (by rw [hu, hdr]) hbl
    rw [← hdr] at ha hw
    have h8 := ha.utf8 hv
    have hur : Utf8 rest := h8.append_ascii (decimal_ascii hwf)
    have h1 := decimal_readNext (checked := t.checked) (h := h) hwf he hur hc
    rw [hexp] at h1
    simp only [expOut] at h1
    rw [if_pos ⟨hck, hle⟩] at h1
    exact ⟨_, ha.panics hv hw h1⟩

/-- **C19.** In a build without overflow checks, every decimal literal that is not cut short is read
whole, but its exponent is reduced modulo 2³² to a signed 32-bit number. -/
theorem C19_release_wraps {t : Tokenizer} (hv : Valid t) (hck : t.checked = false)
    {bl rest : Bytes} {d : Decimal} {e : Exponent} (hexp : d.exp = some e)
    (hu : unread t = bl ++ (d.text ++ rest)) (hbl : Blanks bl) (hwf : d.WF) (he : d.Ends rest)
    (hc : ¬ CutShort d rest) (h : Hint) :
    ∃ (v : NumExpr) (k : Int), Reads t h (.num v) bl d.text ∧
      v.eval = ((natVal 10 d.int : ℚ) + d.frac.elim 0 (fun f => (natVal 10 f : ℚ) / 10 ^ f.length)) *
        (10 : ℚ) ^ k ∧
      -2 ^ 31 ≤ k ∧ k < 2 ^ 31 ∧ (2 ^ 32 ∣ e.value - k) := by
  obtain ⟨b, s, htext, hb⟩ := decimal_head hwf
  have hdr : d.text ++ rest = b :: (s ++ rest) := by rw [htext]; rfl
  obtain ⟨ha, hw⟩ := digit_ahead (s := s ++ rest) hb (by rw [hu, hdr]) hbl
  rw [← hdr] at ha hw
  have h8 := ha.utf8 hv
  have hur : Utf8 rest := h8.append_ascii (decimal_ascii hwf)
  have h1 := decimal_readNext (checked := t.checked) (h := h) hwf he hur hc
  rw [hexp] at h1
  simp only [expOut] at h1
  rw [if_neg (by simp [hck])] at h1
  have h2 := ha.reads hv hw h1 (ascii_boundary h8 (decimal_ascii hwf))
  rw [take_append_length _ _ rfl] at h2
  refine ⟨_, Int.bmod e.value 4294967296, h2, ?_, ?_, ?_, ?_⟩
  · simp only [NumExpr.eval, mantissa_eval hwf]
  · have := Int.le_bmod (x := e.value) (m := 4294967296) (by omega)
    omega
  · have := Int.bmod_lt (x := e.value) (m := 4294967296) (by omega)
    omega
  · rw [Int.bmod_def]; omega

/-- **C19** is false: `1e2147483648` panics with overflow checks, and without them `1e4294967297` is
read as 10. -/
theorem C19_overflow_witness :
    PanicsWith (intoTokenizer true b!"1e2147483648") {} .overflow ∧
    ∃ v, Reads (intoTokenizer false b!"1e4294967297") {} (.num v) [] b!"1e4294967297" ∧ v.eval = 10 := by
  refine ⟨rfl, ?_⟩
  obtain ⟨v, k, h1, h2, h3, h4, h5⟩ := C19_release_wraps
    (valid_intoTokenizer false (code := b!"1e4294967297") (utf8_ascii (by decide))) rfl (bl := []) (rest := [])
    (d := ⟨b!"1", none, some ⟨c!"e", .none, b!"4294967297"⟩⟩) rfl rfl (by decide)
    ⟨by decide, nofun, (by intro e h; cases h; exact ⟨.inl rfl, by decide, by decide⟩), nofun, nofun⟩
    ⟨nofun, nofun, nofun, nofun⟩ (by rintro ⟨h, -⟩; cases h) {}
  have hval : (⟨c!"e", .none, b!"4294967297"⟩ : Exponent).value = 4294967297 := by decide
  rw [hval] at h5
  obtain rfl : k = 1 := by omega
  refine ⟨v, h1, h2.trans ?_⟩
  have : natVal 10 b!"1" = 1 := by decide
  simp [this]

end Jsparse
