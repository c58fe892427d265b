import Verif.Proofs.Numbers
import Verif.Spec.Malformed
/-! # The number functions on arbitrary texts: results, sizes and panics -/

namespace Jsparse

open Spec

theorem ascii_boundary {m s : Bytes} (hu : Utf8 (m ++ s)) (hm : ∀ b ∈ m, b < 0x80) :
    isBoundary (m ++ s) m.length = true :=
  isBoundary_append _ _ (hu.append_ascii hm).headOk

theorem i32_error {checked : Bool} {x : Int} {p : Panic} (h : i32 checked x = .error p) :
    p = .overflow ∧ checked = true := by
  unfold i32 at h
  split at h
  · simp at h
  · split at h
    · rename_i hc; simp at h; exact ⟨h.symm, hc⟩
    · simp at h

theorem parseExponentLoop_shape (checked : Bool) (bs : Bytes) (x : Int) (i : Nat) :
    (∃ e ds rest, bs = ds ++ rest ∧ (∀ b ∈ ds, Digit b) ∧
      parseExponentLoop checked bs x i = .ok (e, i + ds.length)) ∨
    (checked = true ∧ parseExponentLoop checked bs x i = .error .overflow) := by
  induction bs generalizing x i with
  | nil => exact .inl ⟨x, [], [], rfl, by simp, rfl⟩
  | cons b bs ih =>
    rw [parseExponentLoop]
    by_cases hb : isDigit b = true
    · rw [if_pos hb]
      have hd := (isDigit_iff b).1 hb
      have next : ∀ y, (∃ e ds rest, b :: bs = ds ++ rest ∧ (∀ b ∈ ds, Digit b) ∧
          parseExponentLoop checked bs y (i + 1) = .ok (e, i + ds.length)) ∨
          (checked = true ∧ parseExponentLoop checked bs y (i + 1) = .error .overflow) := by
        intro y
        rcases ih y (i + 1) with ⟨e, ds, rest, rfl, h1, h2⟩ | h
        · refine .inl ⟨e, b :: ds, rest, rfl, by simpa using ⟨hd, h1⟩, ?_⟩
          rw [h2]; simp; omega
        · exact .inr h
      dsimp only
      split
      · cases h1 : i32 checked (x * 10) with
        | error p =>
          obtain ⟨rfl, hc⟩ := i32_error h1
          exact .inr ⟨hc, rfl⟩
        | ok y =>
          simp only [bind, Except.bind]
          cases h2 : i32 checked (y + ((b - c!"0").toNat : Int)) with
          | error p =>
            obtain ⟨rfl, hc⟩ := i32_error h2
            exact .inr ⟨hc, rfl⟩
          | ok z => exact next z
      · exact next x
    · rw [if_neg hb]
      exact .inl ⟨x, [], b :: bs, rfl, by simp, by simp⟩

/-- The checked loop fails only on a value of 2³¹ or more. -/
theorem parseExponentLoop_shape' (checked : Bool) (bs : Bytes) (i : Nat) :
    (∃ e ds rest, bs = ds ++ rest ∧ (∀ b ∈ ds, Digit b) ∧
      (checked = true → 0 ≤ e ∧ e < 2 ^ 31) ∧
      parseExponentLoop checked bs 0 i = .ok (e, i + ds.length)) ∨
    (checked = true ∧ parseExponentLoop checked bs 0 i = .error .overflow ∧
      ∃ ds rest, bs = ds ++ rest ∧ (∀ b ∈ ds, Digit b) ∧ 2 ^ 31 ≤ natVal 10 ds) := by
  obtain ⟨ds, rest, rfl, h1, h2⟩ := run_split Digit bs
  by_cases hv : natVal 10 ds < 2 ^ 31
  · have := parseExponentLoop_eq checked ds rest h1 h2 0 i (by simpa using hv)
    simp only [Nat.zero_mul, Nat.zero_add, Nat.cast_zero] at this
    exact .inl ⟨_, ds, rest, rfl, h1, fun _ => by omega, this⟩
  · cases checked with
    | true =>
      have := parseExponentLoop_overflow ds rest h1 0 i (by omega) (by omega)
      exact .inr ⟨rfl, this, ds, rest, rfl, h1, by omega⟩
    | false =>
      rcases parseExponentLoop_shape false (ds ++ rest) 0 i with ⟨e, ds, rest, h3, h4, h5⟩ | ⟨h, _⟩
      · exact .inl ⟨e, ds, rest, h3, h4, by simp, h5⟩
      · simp at h

theorem parseExponent_shape (checked : Bool) (bs : Bytes) :
    (∃ e m rest, bs = m ++ rest ∧ (∀ b ∈ m, b < 0x80) ∧
      parseExponent checked bs = .ok (e, m.length)) ∨
    (checked = true ∧ parseExponent checked bs = .error .overflow ∧
      ∃ e rest, Exponent.WF e ∧ 2 ^ 31 ≤ natVal 10 e.digits ∧ bs = e.text ++ rest) := by
  by_cases hb : (if 2 ≤ bs.length then bs[0]?.getD 0 else 0) = c!"e" ∨
      (if 2 ≤ bs.length then bs[0]?.getD 0 else 0) = c!"E"
  · unfold parseExponent
    dsimp only
    rw [if_pos hb]
    by_cases hl : 2 ≤ bs.length
    · rw [if_pos hl] at hb
      rcases bs with _ | ⟨x, _ | ⟨y, bs⟩⟩
      · simp at hl
      · simp at hl
      · simp only [List.getElem?_cons_zero, Option.getD_some] at hb
        have hx : x < 0x80 := by rcases hb with rfl | rfl <;> decide
        simp only [List.getElem?_cons_succ, List.getElem?_cons_zero, Option.getD_some]
        -- common treatment of the three sign cases
        have key : ∀ (pre : Bytes) (sg : Int) (tl : Bytes) (sn : Sign), x :: y :: bs = pre ++ tl →
            (∀ b ∈ pre, b < 0x80) → (sg = 1 ∨ sg = -1) → pre = x :: sn.text →
            (∃ e m rest, x :: y :: bs = m ++ rest ∧ (∀ b ∈ m, b < 0x80) ∧
              (do
                let (value, i) ← parseExponentLoop checked tl 0 pre.length
                let e ← i32 checked (sg * value)
                return (e, i) : Except Panic (Int × Nat)) = .ok (e, m.length)) ∨
            (checked = true ∧ (do
                let (value, i) ← parseExponentLoop checked tl 0 pre.length
                let e ← i32 checked (sg * value)
                return (e, i) : Except Panic (Int × Nat)) = .error .overflow ∧
              ∃ e rest, Exponent.WF e ∧ 2 ^ 31 ≤ natVal 10 e.digits ∧
                x :: y :: bs = e.text ++ rest) := by
          intro pre sg tl sn hpre hp hsg hsn
          rcases parseExponentLoop_shape' checked tl pre.length with
            ⟨e, ds, rest, rfl, h1, hr, h2⟩ | ⟨hc, h, ds, rest, rfl, h1, hv⟩
          · rw [h2]
            simp only [bind, Except.bind]
            cases h3 : i32 checked (sg * e) with
            | error p =>
              obtain ⟨rfl, hc⟩ := i32_error h3
              have := hr hc
              rw [i32_ok (by rcases hsg with rfl | rfl <;> omega)
                (by rcases hsg with rfl | rfl <;> omega)] at h3
              cases h3
            | ok z =>
              refine .inl ⟨z, pre ++ ds, rest, by rw [hpre]; simp, ?_, by simp [pure, Except.pure]⟩
              intro b hb
              rcases List.mem_append.1 hb with hb | hb
              · exact hp b hb
              · exact digit_ascii (h1 b hb)
          · refine .inr ⟨hc, by rw [h]; rfl, ⟨x, sn, ds⟩, rest, ⟨hb, ?_, h1⟩, hv, ?_⟩
            · rintro rfl; simp [natVal] at hv
            · rw [hpre, hsn]; simp [Exponent.text]
        by_cases hp : y = c!"+"
        · subst hp
          exact key [x, c!"+"] 1 bs .plus rfl (by simp [hx]) (.inl rfl) rfl
        · by_cases hm : y = c!"-"
          · subst hm
            exact key [x, c!"-"] (-1) bs .minus rfl (by simp [hx]) (.inr rfl) rfl
          · simp only [hp, hm, if_false]
            exact key [x] 1 (y :: bs) .none rfl (by simp [hx]) (.inl rfl) rfl
    · rw [if_neg hl] at hb; simp at hb
  · unfold parseExponent
    dsimp only
    rw [if_neg hb]
    exact .inl ⟨0, [], bs, rfl, by simp, rfl⟩

/-- A number token with a size inside the text, on a boundary; or overflow. -/
def NumResult (checked : Bool) (code : Bytes) (min : Nat) (r : Except Panic (Token × Nat)) : Prop :=
  (∃ v m rest, code = m ++ rest ∧ (∀ b ∈ m, b < 0x80) ∧ min ≤ m.length ∧
    r = .ok (.num v, m.length)) ∨
  (checked = true ∧ r = .error .overflow ∧ BadNumber checked code .overflow)

theorem num_tail {checked : Bool} {m s : Bytes} (hu : Utf8 (m ++ s)) (hm : ∀ b ∈ m, b < 0x80)
    {int : Bytes} {frac : Option Bytes} (hd : m = Decimal.text ⟨int, frac, none⟩)
    (hwf : Decimal.WF ⟨int, frac, none⟩) (v : NumExpr) : NumResult checked (m ++ s) m.length (do
      let bs ← bytesFrom (m ++ s) m.length
      let e ← parseExponent checked bs
      let (val, offset) := scaleExp v m.length e
      number val (m ++ s) offset) := by
  rw [bytesFrom_append]
  simp only [bind, Except.bind]
  rcases parseExponent_shape checked s with ⟨e, m', rest, rfl, h1, h2⟩ | ⟨hc, h, e, rest, he, hv, rfl⟩
  · rw [h2]
    simp only [scaleExp]
    split
    · refine .inl ⟨.mul v (.powi10 e), m ++ m', rest, by simp, ?_, by simp, ?_⟩
      · intro b hb
        rcases List.mem_append.1 hb with hb | hb
        · exact hm b hb
        · exact h1 b hb
      · have : HeadOk rest := by
          rw [← List.append_assoc] at hu
          refine (hu.append_ascii ?_).headOk
          intro b hb
          rcases List.mem_append.1 hb with hb | hb
          · exact hm b hb
          · exact h1 b hb
        unfold number
        rw [slice_zero (v := m ++ m') (e := rest) (by simp) (by simp) this]
        simp [bind, Except.bind, pure, Except.pure]
    · rename_i hl
      have hl : m' = [] := by simpa using hl
      subst hl
      refine .inl ⟨v, m, rest, by simp, hm, by simp, ?_⟩
      unfold number
      rw [slice_zero (v := m) (e := rest) (by simp) (by simp) (hu.append_ascii hm).headOk]
      rfl
  · refine .inr ⟨hc, by rw [h], ?_⟩
    have := BadNumber.exponent (checked := checked) ⟨int, frac, some e⟩ e rest hc
      ⟨hwf.int, hwf.frac, by rintro _ h; cases h; exact he, hwf.noLeadingZero, hwf.leadingDot⟩ rfl hv
    convert this using 1
    rw [hd]; simp [Decimal.text]

theorem tokFractional_total (checked : Bool) {b : UInt8} {r : Bytes} (hb : isDigit b = true)
    (hu : Utf8 (c!"." :: b :: r)) :
    NumResult checked (c!"." :: b :: r) 1 (tokFractional checked (c!"." :: b :: r)) := by
  obtain ⟨ds, rest, hr, h1, h2⟩ := run_split Digit (b :: r)
  rw [hr] at hu ⊢
  unfold tokFractional
  have h4 : parseDecimalDigits (List.drop 1 (c!"." :: (ds ++ rest))) =
      (decExpr ds (.lit 0) .tenth, ds.length) := by
    unfold parseDecimalDigits
    have := parseDecimalLoop_eq ds rest h1 h2 (.lit 0) .tenth 0
    simpa using this
  simp only [h4]
  have h5 : 1 + ds.length = (c!"." :: ds).length := by simp; omega
  rw [h5]
  have hm : ∀ b ∈ c!"." :: ds, b < 0x80 := by
    intro b hb
    rcases List.mem_cons.1 hb with rfl | hb
    · decide
    · exact digit_ascii (h1 b hb)
  have hne : ds ≠ [] := by
    rintro rfl
    exact h2 b r (by rw [hr]; rfl) ((isDigit_iff b).1 hb)
  have hwf : Decimal.WF ⟨[], some ds, none⟩ :=
    ⟨by simp, by rintro _ h; cases h; exact h1, by simp, by simp,
      fun _ => by cases ds with
        | nil => simp at hne
        | cons b f => exact ⟨b, f, rfl⟩⟩
  have := num_tail (checked := checked) (m := c!"." :: ds) (s := rest) hu hm
    (int := []) (frac := some ds) (by simp [Decimal.text]) hwf
    (.add (.lit 0) (decExpr ds (.lit 0) .tenth))
  rcases this with ⟨v, m, rest', h6, h7, h8, h9⟩ | h
  · exact .inl ⟨v, m, rest', h6, h7, by simp at h8; omega, h9⟩
  · exact .inr h

theorem tokNum_total (checked : Bool) {b : UInt8} {r : Bytes} (hb : c!"1" ≤ b ∧ b ≤ c!"9")
    (hu : Utf8 (b :: r)) : NumResult checked (b :: r) 1 (tokNum checked (b :: r)) := by
  obtain ⟨ds, rest, rfl, h1, h2⟩ := run_split Digit r
  have hbd : Digit b := ⟨UInt8.le_trans (by decide) hb.1, hb.2⟩
  have hm : ∀ x ∈ b :: ds, x < 0x80 := by
    intro x hx
    rcases List.mem_cons.1 hx with rfl | hx
    · exact digit_ascii hbd
    · exact digit_ascii (h1 x hx)
  have hbd0 : b ≠ c!"0" := by rintro rfl; revert hb; decide
  have hall : ∀ x ∈ b :: ds, Digit x := by simpa using ⟨hbd, h1⟩
  unfold tokNum
  rw [← List.cons_append] at hu ⊢
  rw [parseIntLiteral_eq b ds rest hb h1 h2]
  by_cases hdot : ((b :: ds) ++ rest)[(b :: ds).length]? = some c!"."
  · simp only [if_pos hdot]
    rw [List.getElem?_append_right (Nat.le_refl _)] at hdot
    simp only [Nat.sub_self] at hdot
    obtain ⟨rest, rfl⟩ := getElem?_zero_some.1 hdot
    obtain ⟨fs, rest', rfl, h3, h4⟩ := run_split Digit rest
    have h5 : List.drop ((b :: ds).length + 1) ((b :: ds) ++ (c!"." :: (fs ++ rest'))) = fs ++ rest' := by
      rw [← List.drop_drop, List.drop_left]; rfl
    have h6 : parseDecimalDigits (fs ++ rest') = (decExpr fs (.lit 0) .tenth, fs.length) := by
      unfold parseDecimalDigits
      rw [parseDecimalLoop_eq fs _ h3 h4]; simp
    simp only [h5, h6]
    have h7 : (b :: ds).length + (fs.length + 1) = ((b :: ds) ++ (c!"." :: fs)).length := by
      simp; omega
    have h8 : (b :: ds) ++ (c!"." :: (fs ++ rest')) = ((b :: ds) ++ (c!"." :: fs)) ++ rest' := by simp
    have hm' : ∀ x ∈ (b :: ds) ++ (c!"." :: fs), x < 0x80 := by
      intro x hx
      rcases List.mem_append.1 hx with hx | hx
      · exact hm x hx
      · rcases List.mem_cons.1 hx with rfl | hx
        · decide
        · exact digit_ascii (h3 x hx)
    rw [h7]
    rw [h8] at hu ⊢
    have hwf : Decimal.WF ⟨b :: ds, some fs, none⟩ :=
      ⟨hall, by rintro _ h; cases h; exact h3, by simp, by simp [hbd0], by simp⟩
    rcases num_tail (checked := checked) hu hm' (by simp [Decimal.text]) hwf
      (.add (intExpr (b :: ds) (.lit 0)) (decExpr fs (.lit 0) .tenth)) with
      ⟨v, m, rest'', h9, h10, h11, h12⟩ | h
    · exact .inl ⟨v, m, rest'', h9, h10, by simp at h11; omega, h12⟩
    · exact .inr h
  · simp only [if_neg hdot]
    have hwf : Decimal.WF ⟨b :: ds, none, none⟩ :=
      ⟨hall, by simp, by simp, by simp [hbd0], by simp⟩
    rcases num_tail (checked := checked) hu hm (by simp [Decimal.text]) hwf (intExpr (b :: ds) (.lit 0)) with
      ⟨v, m, rest'', h9, h10, h11, h12⟩ | h
    · exact .inl ⟨v, m, rest'', h9, h10, by simp at h11; omega, h12⟩
    · exact .inr h

theorem hexLoop_shape (bs : Bytes) (v : NumExpr) (i : Nat) :
    ∃ w m rest, bs = m ++ rest ∧ (∀ b ∈ m, b < 0x80) ∧ hexLoop bs v i = (w, i + m.length) := by
  induction bs generalizing v i with
  | nil => exact ⟨v, [], [], rfl, by simp, rfl⟩
  | cons b bs ih =>
    have next : b < 0x80 → ∀ w, ∃ w' m rest, b :: bs = m ++ rest ∧ (∀ b ∈ m, b < 0x80) ∧
        hexLoop bs w (i + 1) = (w', i + m.length) := by
      intro hb w
      obtain ⟨w', m, rest, rfl, h1, h2⟩ := ih w (i + 1)
      exact ⟨w', b :: m, rest, rfl, by simpa using ⟨hb, h1⟩, by rw [h2]; simp; omega⟩
    have asc : ∀ k : UInt8, b ≤ k → k < 0x80 → b < 0x80 := by
      intro k h1 h2
      simp only [UInt8.le_iff_toNat_le, UInt8.lt_iff_toNat_lt] at *
      omega
    rw [hexLoop]
    split
    · rename_i h; exact next (digit_ascii ((isDigit_iff b).1 h)) _
    · split
      · rename_i h; exact next (asc _ h.2 (by decide)) _
      · split
        · rename_i h; exact next (asc _ h.2 (by decide)) _
        · exact ⟨v, [], b :: bs, rfl, by simp, rfl⟩

theorem octLoop_shape (bs : Bytes) (v : NumExpr) (i : Nat) :
    ∃ m rest, bs = m ++ rest ∧ (∀ b ∈ m, c!"0" ≤ b ∧ b ≤ c!"7") ∧
      ((∃ w, octLoop bs v i = .ok (w, i + m.length)) ∨
       (∃ d r, rest = d :: r ∧ (d = c!"8" ∨ d = c!"9") ∧ octLoop bs v i = .error .invalidNumber)) := by
  induction bs generalizing v i with
  | nil => exact ⟨[], [], rfl, by simp, .inl ⟨v, rfl⟩⟩
  | cons b bs ih =>
    rw [octLoop]
    split
    · rename_i hb
      obtain ⟨m, rest, rfl, h1, h2⟩ := ih (.add (.mul v (.lit 8)) (digitLit b c!"0")) (i + 1)
      refine ⟨b :: m, rest, rfl, by simpa using ⟨hb, h1⟩, ?_⟩
      rcases h2 with ⟨w, h2⟩ | h2
      · exact .inl ⟨w, by rw [h2]; simp; omega⟩
      · exact .inr h2
    · split
      · rename_i hb
        exact ⟨[], b :: bs, rfl, by simp, .inr ⟨b, bs, rfl, hb, rfl⟩⟩
      · exact ⟨[], b :: bs, rfl, by simp, .inl ⟨v, rfl⟩⟩

theorem binLoop_shape (bs : Bytes) (v : NumExpr) (i : Nat) :
    ∃ m rest, bs = m ++ rest ∧ (∀ b ∈ m, c!"0" ≤ b ∧ b ≤ c!"1") ∧
      ((∃ w, binLoop bs v i = .ok (w, i + m.length)) ∨
       (∃ d r, rest = d :: r ∧ (c!"2" ≤ d ∧ d ≤ c!"9") ∧ binLoop bs v i = .error .invalidNumber)) := by
  induction bs generalizing v i with
  | nil => exact ⟨[], [], rfl, by simp, .inl ⟨v, rfl⟩⟩
  | cons b bs ih =>
    rw [binLoop]
    split
    · rename_i hb
      obtain ⟨m, rest, rfl, h1, h2⟩ := ih (.add (.mul v (.lit 2)) (digitLit b c!"0")) (i + 1)
      refine ⟨b :: m, rest, rfl, by simpa using ⟨hb, h1⟩, ?_⟩
      rcases h2 with ⟨w, h2⟩ | h2
      · exact .inl ⟨w, by rw [h2]; simp; omega⟩
      · exact .inr h2
    · split
      · rename_i hb
        exact ⟨[], b :: bs, rfl, by simp, .inr ⟨b, bs, rfl, hb, rfl⟩⟩
      · exact ⟨[], b :: bs, rfl, by simp, .inl ⟨v, rfl⟩⟩

theorem slice_error {code : Bytes} {a b : Nat} {p : Panic} (h : slice code a b = .error p) :
    p = .strSlice := by
  unfold slice at h
  split at h
  · simp at h
  · simpa using h.symm

theorem number_radix {checked : Bool} {x d : UInt8} {m rest : Bytes} (v : NumExpr)
    (hx : RadixLetter x) (hu : Utf8 (c!"0" :: x :: d :: (m ++ rest))) (hm : ∀ b ∈ m, b < 0x80) :
    (∃ v' m' rest', c!"0" :: x :: d :: (m ++ rest) = m' ++ rest' ∧ (∀ b ∈ m', b < 0x80) ∧
      1 ≤ m'.length ∧
      number v (c!"0" :: x :: d :: (m ++ rest)) (3 + m.length) = .ok (.num v', m'.length)) ∨
    (∃ v' n, 1 ≤ n ∧ isBoundary (c!"0" :: x :: d :: (m ++ rest)) n = true ∧ 0x80 ≤ d ∧
      number v (c!"0" :: x :: d :: (m ++ rest)) (3 + m.length) = .ok (.num v', n)) ∨
    (∃ p, BadNumber checked (c!"0" :: x :: d :: (m ++ rest)) p ∧
      number v (c!"0" :: x :: d :: (m ++ rest)) (3 + m.length) = .error p) := by
  have hxa : x < 0x80 := by
    rcases hx with rfl | rfl | rfl | rfl | rfl | rfl <;> decide
  by_cases hd : d < 0x80
  · left
    have hm' : ∀ b ∈ c!"0" :: x :: d :: m, b < 0x80 := by
      intro b hb
      simp only [List.mem_cons] at hb
      rcases hb with rfl | rfl | rfl | hb
      · decide
      · exact hxa
      · exact hd
      · exact hm b hb
    refine ⟨v, c!"0" :: x :: d :: m, rest, by simp, hm', by simp, ?_⟩
    have := number_ok (v := v) (m := c!"0" :: x :: d :: m) (rest := rest) (n := 3 + m.length)
      (by simp; omega) (Utf8.append_ascii (a := c!"0" :: x :: d :: m) (by simpa using hu) hm')
    simp only [List.cons_append] at this
    rw [this]; congr 2; simp; omega
  · right
    have hd' : 0x80 ≤ d := by
      simp only [UInt8.le_iff_toNat_le, UInt8.lt_iff_toNat_lt] at *
      omega
    cases hs : slice (c!"0" :: x :: d :: (m ++ rest)) 0 (3 + m.length) with
    | ok r =>
      left
      refine ⟨v, 3 + m.length, by omega, (slice_eq_ok.1 hs).2.2.1, hd', ?_⟩
      unfold number; rw [hs]; rfl
    | error p =>
      right
      have := slice_error hs
      subst this
      exact ⟨_, .wide x d _ hx hd', by unfold number; rw [hs]; rfl⟩

/-- Result of `tok_zero_num` on any text. -/
def ZeroResult (checked : Bool) (code : Bytes) (r : Except Panic (Token × Nat)) : Prop :=
  (∃ v n, r = .ok (.num v, n) ∧ 1 ≤ n ∧ isBoundary code n = true) ∨
  (∃ p, r = .error p ∧ BadNumber checked code p)

theorem NumResult.zero {checked : Bool} {code : Bytes} {r} (hu : Utf8 code)
    (h : NumResult checked code 1 r) : ZeroResult checked code r := by
  rcases h with ⟨v, m, rest, rfl, h1, h2, h3⟩ | ⟨_, h, hb⟩
  · exact .inl ⟨v, m.length, h3, h2, ascii_boundary hu h1⟩
  · exact .inr ⟨_, h, hb⟩

theorem subU8_shape (checked : Bool) (a b : UInt8) :
    (∃ d, subU8 checked a b = .ok d) ∨
    ((checked = true ∧ a < b) ∧ subU8 checked a b = .error .overflow) := by
  unfold subU8
  split
  · exact .inl ⟨_, rfl⟩
  · split
    · rename_i h1 h
      refine .inr ⟨⟨h, ?_⟩, rfl⟩
      simp only [UInt8.le_iff_toNat_le, UInt8.lt_iff_toNat_lt] at *
      omega
    · exact .inl ⟨_, rfl⟩

theorem tokZeroNum_total (checked : Bool) {r : Bytes} (hu : Utf8 (c!"0" :: r)) :
    ZeroResult checked (c!"0" :: r) (tokZeroNum checked (c!"0" :: r)) := by
  have plain : ZeroResult checked (c!"0" :: r) (do
      let (_, num) ← parseExponent checked (c!"0" :: r)
      number (.lit 0) (c!"0" :: r) (num + 1)) := by
    rw [parseExponent_none (by rintro b r h; simp only [List.cons.injEq] at h; rw [← h.1]; decide)]
    have h8 : Utf8 r := hu.tail_ascii (by decide)
    have := number_ok (v := .lit 0) (m := b!"0") (rest := r) (n := 0 + 1) rfl h8
    refine .inl ⟨.lit 0, 1, this, by omega, ?_⟩
    exact boundary_of (v := b!"0") (e := r) rfl rfl h8.headOk
  unfold tokZeroNum
  dsimp only
  rcases r with _ | ⟨x, _ | ⟨d, r⟩⟩
  · simpa using plain
  · simpa using plain
  · have hlen : 2 < (c!"0" :: x :: d :: r).length := by simp
    rw [if_pos hlen]
    simp only [List.getElem?_cons_succ, List.getElem?_cons_zero, Option.getD_some,
      List.drop_succ_cons, List.drop_zero]
    have fin : ∀ (m rest : Bytes) (v : NumExpr), RadixLetter x → r = m ++ rest →
        (∀ b ∈ m, b < 0x80) →
        ZeroResult checked (c!"0" :: x :: d :: r) (number v (c!"0" :: x :: d :: r) (3 + m.length)) := by
      rintro m rest v hx rfl hm
      rcases number_radix (checked := checked) v hx hu hm with
        ⟨v', m', rest', h1, h2, h3, h4⟩ | ⟨v', n, h1, h2, -, h3⟩ | ⟨p, h1, h2⟩
      · refine .inl ⟨v', m'.length, h4, h3, ?_⟩
        rw [h1] at hu ⊢; exact ascii_boundary hu h2
      · exact .inl ⟨v', n, h3, h1, h2⟩
      · exact .inr ⟨p, h2, h1⟩
    split
    · rename_i hx
      have hx' : RadixLetter x := by rcases hx with h | h <;> simp [RadixLetter, h]
      rcases subU8_shape checked d c!"0" with ⟨y, hy⟩ | ⟨hc, hy⟩
      · rw [hy]
        simp only [bind, Except.bind]
        obtain ⟨w, m, rest, hr, hm, hl⟩ := hexLoop_shape r (.lit y.toNat) 3
        rw [hl]
        exact fin m rest w hx' hr hm
      · rw [hy]; exact .inr ⟨_, rfl, .below x d r hc.1 hx' hc.2⟩
    · split
      · rename_i hx
        have hx' : RadixLetter x := by rcases hx with h | h <;> simp [RadixLetter, h]
        rcases subU8_shape checked d c!"0" with ⟨y, hy⟩ | ⟨hc, hy⟩
        · rw [hy]
          simp only [bind, Except.bind]
          obtain ⟨m, rest, hr, hm, h⟩ := octLoop_shape r (.lit y.toNat) 3
          have hm' : ∀ b ∈ m, b < 0x80 := fun b hb =>
            digit_ascii ⟨(hm b hb).1, UInt8.le_trans (hm b hb).2 (by decide)⟩
          rcases h with ⟨w, hl⟩ | ⟨e, r', rfl, he, hl⟩
          · rw [hl]; exact fin m rest w hx' hr hm'
          · rw [hl, hr]; exact .inr ⟨_, rfl, .octal x d e m r' hx hm he⟩
        · rw [hy]; exact .inr ⟨_, rfl, .below x d r hc.1 hx' hc.2⟩
      · split
        · rename_i hx
          have hx' : RadixLetter x := by rcases hx with h | h <;> simp [RadixLetter, h]
          rcases subU8_shape checked d c!"0" with ⟨y, hy⟩ | ⟨hc, hy⟩
          · rw [hy]
            simp only [bind, Except.bind]
            obtain ⟨m, rest, hr, hm, h⟩ := binLoop_shape r (.lit y.toNat) 3
            have hm' : ∀ b ∈ m, b < 0x80 := fun b hb =>
              digit_ascii ⟨(hm b hb).1, UInt8.le_trans (hm b hb).2 (by decide)⟩
            rcases h with ⟨w, hl⟩ | ⟨e, r', rfl, he, hl⟩
            · rw [hl]; exact fin m rest w hx' hr hm'
            · rw [hl, hr]; exact .inr ⟨_, rfl, .binary x d e m r' hx hm he⟩
          · rw [hy]; exact .inr ⟨_, rfl, .below x d r hc.1 hx' hc.2⟩
        · split
          · rename_i hx
            subst hx
            obtain ⟨fs, rest, hr, h1, h2⟩ := run_split Digit (d :: r)
            rw [hr] at hu ⊢
            have h6 : parseDecimalDigits (fs ++ rest) = (decExpr fs (.lit 0) .tenth, fs.length) := by
              unfold parseDecimalDigits
              rw [parseDecimalLoop_eq fs _ h1 h2]; simp
            simp only [h6]
            have hm : ∀ b ∈ c!"0" :: c!"." :: fs, b < 0x80 := by
              intro b hb
              simp only [List.mem_cons] at hb
              rcases hb with rfl | rfl | hb
              · decide
              · decide
              · exact digit_ascii (h1 b hb)
            have h7 : c!"0" :: c!"." :: (fs ++ rest) = (c!"0" :: c!"." :: fs) ++ rest := rfl
            rw [h7] at hu ⊢
            apply NumResult.zero hu
            have hwf : Decimal.WF ⟨b!"0", some fs, none⟩ :=
              ⟨by simp [Digit], by rintro _ h; cases h; exact h1, by simp, by simp, by simp⟩
            have h8 : ∀ v, NumResult checked ((c!"0" :: c!"." :: fs) ++ rest) 1 (do
                let e ← parseExponent checked (← bytesFrom ((c!"0" :: c!"." :: fs) ++ rest)
                  (c!"0" :: c!"." :: fs).length)
                let (val, offset) := scaleExp v (c!"0" :: c!"." :: fs).length e
                number val ((c!"0" :: c!"." :: fs) ++ rest) offset) := by
              intro v
              rcases num_tail (checked := checked) hu hm (by simp [Decimal.text]) hwf v with ⟨v, m, rest'', h9, h10, h11, h12⟩ | h
              · exact .inl ⟨v, m, rest'', h9, h10, by simp at h11; omega, h12⟩
              · exact .inr h
            by_cases hf : fs.length = 0
            · have := List.length_eq_zero_iff.1 hf
              subst this
              exact h8 (.lit 0)
            · simp only [hf, ne_eq, not_false_eq_true, if_true]
              have h9 : 2 + fs.length = (c!"0" :: c!"." :: fs).length := by simp; omega
              rw [h9]
              exact h8 _
          · exact plain

end Jsparse
