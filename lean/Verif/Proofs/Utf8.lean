import Verif.Model.Bytes
/-! # Facts about UTF-8 texts and slices -/

namespace Jsparse

theorem encode_nil : encode [] = [] := rfl
theorem encode_cons (c : Char) (cs : List Char) : encode (c :: cs) = encodeChar c ++ encode cs := by
  simp [encode]
theorem encode_append (a b : List Char) : encode (a ++ b) = encode a ++ encode b := by
  simp [encode]

theorem char_bound (c : Char) : c.toNat < 0x110000 := by
  have := c.valid
  simp only [Char.toNat, UInt32.isValidChar, Nat.isValidChar] at *
  omega

theorem ofNat_toNat_lt {n : Nat} (h : n < 256) : (UInt8.ofNat n).toNat = n := by
  simp [UInt8.toNat_ofNat']; omega

/-- Every encoded character is a lead byte followed by continuation bytes. -/
theorem encodeChar_shape (c : Char) :
    ∃ b bs, encodeChar c = b :: bs ∧ isCont b = false ∧ (∀ x ∈ bs, isCont x = true) ∧
      (b < 0x80 → bs = []) := by
  have hc := char_bound c
  unfold encodeChar
  dsimp only
  split
  · refine ⟨_, _, rfl, ?_, by simp, by simp⟩
    simp only [isCont, Bool.and_eq_false_iff, decide_eq_false_iff_not, UInt8.le_iff_toNat_le,
      UInt8.lt_iff_toNat_lt]
    rw [ofNat_toNat_lt (by omega)]
    left; simp; omega
  · split
    · refine ⟨_, _, rfl, ?_, ?_, ?_⟩
      · simp only [isCont, Bool.and_eq_false_iff, decide_eq_false_iff_not, UInt8.le_iff_toNat_le,
          UInt8.lt_iff_toNat_lt]
        rw [ofNat_toNat_lt (by omega)]
        right; simp
      · simp only [List.mem_cons, List.not_mem_nil, or_false, forall_eq, isCont,
          Bool.and_eq_true, decide_eq_true_eq, UInt8.le_iff_toNat_le, UInt8.lt_iff_toNat_lt]
        rw [ofNat_toNat_lt (by omega)]
        simp; omega
      · simp only [UInt8.lt_iff_toNat_lt]
        rw [ofNat_toNat_lt (by omega)]
        simp; omega
    · split
      · refine ⟨_, _, rfl, ?_, ?_, ?_⟩
        · simp only [isCont, Bool.and_eq_false_iff, decide_eq_false_iff_not, UInt8.le_iff_toNat_le,
            UInt8.lt_iff_toNat_lt]
          rw [ofNat_toNat_lt (by omega)]
          right; simp; omega
        · simp only [List.mem_cons, List.not_mem_nil, or_false, forall_eq_or_imp, forall_eq, isCont,
            Bool.and_eq_true, decide_eq_true_eq, UInt8.le_iff_toNat_le, UInt8.lt_iff_toNat_lt]
          rw [ofNat_toNat_lt (by omega), ofNat_toNat_lt (by omega)]
          simp; omega
        · simp only [UInt8.lt_iff_toNat_lt]
          rw [ofNat_toNat_lt (by omega)]
          simp; omega
      · refine ⟨_, _, rfl, ?_, ?_, ?_⟩
        · simp only [isCont, Bool.and_eq_false_iff, decide_eq_false_iff_not, UInt8.le_iff_toNat_le,
            UInt8.lt_iff_toNat_lt]
          rw [ofNat_toNat_lt (by omega)]
          right; simp; omega
        · simp only [List.mem_cons, List.not_mem_nil, or_false, forall_eq_or_imp, forall_eq, isCont,
            Bool.and_eq_true, decide_eq_true_eq, UInt8.le_iff_toNat_le, UInt8.lt_iff_toNat_lt]
          rw [ofNat_toNat_lt (by omega), ofNat_toNat_lt (by omega), ofNat_toNat_lt (by omega)]
          simp; omega
        · simp only [UInt8.lt_iff_toNat_lt]
          rw [ofNat_toNat_lt (by omega)]
          simp; omega

/-- A byte string does not begin in the middle of a character. -/
def HeadOk : Bytes → Prop
  | [] => True
  | b :: _ => isCont b = false

theorem headOk_encode (cs : List Char) : HeadOk (encode cs) := by
  cases cs with
  | nil => trivial
  | cons c cs =>
    obtain ⟨b, bs, h, hb, -, -⟩ := encodeChar_shape c
    rw [encode_cons, h]; exact hb

theorem Utf8.headOk {s : Bytes} (h : Utf8 s) : HeadOk s := by
  obtain ⟨cs, rfl⟩ := h; exact headOk_encode cs

theorem Utf8.nil : Utf8 [] := ⟨[], rfl⟩

theorem Utf8.append {a b : Bytes} (ha : Utf8 a) (hb : Utf8 b) : Utf8 (a ++ b) := by
  obtain ⟨x, rfl⟩ := ha; obtain ⟨y, rfl⟩ := hb
  exact ⟨x ++ y, (encode_append x y).symm⟩

/-- Splitting a text at a character boundary. -/
theorem encode_split (cs : List Char) : ∀ (a b : Bytes), encode cs = a ++ b → HeadOk b →
    ∃ x y, cs = x ++ y ∧ a = encode x ∧ b = encode y := by
  induction cs with
  | nil =>
    intro a b h _
    have h := h.symm
    simp [encode] at h
    exact ⟨[], [], rfl, by simp [h.1, encode], by simp [h.2, encode]⟩
  | cons c cs ih =>
    intro a b h hb
    obtain ⟨l, ks, hc, hl, hk, -⟩ := encodeChar_shape c
    cases a with
    | nil => exact ⟨[], c :: cs, rfl, rfl, by simpa using h.symm⟩
    | cons a0 a =>
      rw [encode_cons, hc] at h
      simp only [List.cons_append, List.cons.injEq] at h
      obtain ⟨rfl, h⟩ := h
      -- ks ++ encode cs = a ++ b
      rcases List.append_eq_append_iff.mp h with ⟨d, rfl, h2⟩ | ⟨d, rfl, h2⟩
      · obtain ⟨x, y, rfl, rfl, rfl⟩ := ih d b h2 hb
        exact ⟨c :: x, y, rfl, by rw [encode_cons, hc]; simp, rfl⟩
      · cases d with
        | nil =>
          obtain ⟨x, y, rfl, hx, rfl⟩ := ih [] b (by simpa using h2.symm) hb
          cases x with
          | nil => exact ⟨[c], y, rfl, by simp [hc, encode], rfl⟩
          | cons x0 x =>
            obtain ⟨l', ks', hc', -, -, -⟩ := encodeChar_shape x0
            rw [encode_cons, hc'] at hx; simp at hx
        | cons d0 d =>
          exfalso
          subst h2
          have h3 : isCont d0 = false := hb
          have := hk d0 (by simp)
          simp [h3] at this

theorem Utf8.split {a b : Bytes} (h : Utf8 (a ++ b)) (hb : HeadOk b) : Utf8 a ∧ Utf8 b := by
  obtain ⟨cs, hcs⟩ := h
  obtain ⟨x, y, -, rfl, rfl⟩ := encode_split cs a b hcs.symm hb
  exact ⟨⟨x, rfl⟩, ⟨y, rfl⟩⟩

/-- After an ASCII byte comes a character boundary. -/
theorem Utf8.headOk_after_ascii {a c : Bytes} {b : UInt8} (h : Utf8 (a ++ b :: c)) (hb : b < 0x80) :
    HeadOk c := by
  have hbc : HeadOk (b :: c) := by
    show isCont b = false
    simp only [isCont, Bool.and_eq_false_iff, decide_eq_false_iff_not, UInt8.le_iff_toNat_le,
      UInt8.lt_iff_toNat_lt] at *
    left; simpa using hb
  obtain ⟨-, cs, hcs⟩ := h.split hbc
  cases cs with
  | nil => simp [encode] at hcs
  | cons x xs =>
    obtain ⟨l, ks, hx, -, -, hks⟩ := encodeChar_shape x
    rw [encode_cons, hx] at hcs
    simp only [List.cons_append, List.cons.injEq] at hcs
    obtain ⟨rfl, rfl⟩ := hcs
    rw [hks hb]
    exact headOk_encode xs

theorem isBoundary_iff (code : Bytes) (i : Nat) :
    isBoundary code i = true ↔ i = 0 ∨ (i ≤ code.length ∧ HeadOk (code.drop i)) := by
  unfold isBoundary
  by_cases h0 : i = 0
  · simp [h0]
  · simp only [Bool.or_eq_true, beq_iff_eq, h0, false_or]
    rcases Nat.lt_or_ge i code.length with h | h
    · rw [List.drop_eq_getElem_cons h]
      simp [HeadOk]; omega
    · rw [List.drop_eq_nil_of_le h]
      simp [HeadOk]; omega

theorem isBoundary_append (a b : Bytes) (h : HeadOk b) : isBoundary (a ++ b) a.length = true := by
  rw [isBoundary_iff]; right; simp [h]

theorem isBoundary_le {code : Bytes} {i : Nat} (h : isBoundary code i = true) : i ≤ code.length := by
  rw [isBoundary_iff] at h; omega

theorem isBoundary_zero (code : Bytes) : isBoundary code 0 = true := by
  rw [isBoundary_iff]; simp

theorem isBoundary_length (code : Bytes) : isBoundary code code.length = true := by
  rw [isBoundary_iff]; right; simp [HeadOk]

theorem isBoundary_headOk {code : Bytes} {i : Nat} (hu : HeadOk code)
    (h : isBoundary code i = true) : HeadOk (code.drop i) := by
  rw [isBoundary_iff] at h
  rcases h with rfl | h
  · simpa using hu
  · exact h.2

theorem Utf8.drop {code : Bytes} {i : Nat} (hu : Utf8 code) (h : isBoundary code i = true) :
    Utf8 (code.drop i) := by
  have h1 := isBoundary_headOk hu.headOk h
  have : Utf8 (code.take i ++ code.drop i) := by simpa using hu
  exact (this.split h1).2

theorem Utf8.take {code : Bytes} {i : Nat} (hu : Utf8 code) (h : isBoundary code i = true) :
    Utf8 (code.take i) := by
  have h1 := isBoundary_headOk hu.headOk h
  have : Utf8 (code.take i ++ code.drop i) := by simpa using hu
  exact (this.split h1).1

/-- Boundaries of a suffix are boundaries of the text. -/
theorem isBoundary_drop {code : Bytes} {i j : Nat} (hi : isBoundary code i = true)
    (hj : isBoundary (code.drop i) j = true) : isBoundary code (i + j) = true := by
  rw [isBoundary_iff] at hj
  rcases hj with rfl | ⟨h1, h2⟩
  · simpa using hi
  · rw [isBoundary_iff]; right
    have := isBoundary_le hi
    simp only [List.length_drop] at h1
    rw [List.drop_drop] at h2
    exact ⟨by omega, h2⟩

theorem sliceFrom_eq_ok {code : Bytes} {i : Nat} {r : Bytes} :
    sliceFrom code i = .ok r ↔ isBoundary code i = true ∧ r = code.drop i := by
  unfold sliceFrom
  split
  · rename_i h; simp [h, eq_comm]
  · rename_i h; simp [h]

theorem slice_eq_ok {code : Bytes} {a b : Nat} {r : Bytes} :
    slice code a b = .ok r ↔
      a ≤ b ∧ isBoundary code a = true ∧ isBoundary code b = true ∧
        r = (code.drop a).take (b - a) := by
  unfold slice
  split
  · rename_i h; simp [h, eq_comm]
  · rename_i h
    simp only [reduceCtorEq, false_iff]
    intro ⟨h1, h2, h3, _⟩
    exact h ⟨h1, h2, h3⟩

theorem slice_append {a b c : Bytes} (hb : HeadOk (b ++ c) ∨ a = []) (hc : HeadOk c) :
    slice (a ++ b ++ c) a.length (a.length + b.length) = .ok b := by
  rw [slice_eq_ok]
  refine ⟨by omega, ?_, ?_, ?_⟩
  · rw [List.append_assoc]
    rcases hb with hb | rfl
    · exact isBoundary_append _ _ hb
    · exact isBoundary_zero _
  · rw [← List.length_append]; exact isBoundary_append _ _ hc
  · simp

/-- A lead byte 0xE2 starts a character of three bytes. -/
theorem encodeChar_e2 {c : Char} {bs : Bytes} (h : encodeChar c = 0xE2 :: bs) : bs.length = 2 := by
  have hc := char_bound c
  unfold encodeChar at h
  dsimp only at h
  have key : ∀ n, n < 256 → (UInt8.ofNat n = 0xE2) → n = 0xE2 := by
    intro n hn h
    have := congrArg UInt8.toNat h
    rw [ofNat_toNat_lt hn] at this
    simpa using this
  split at h
  · simp only [List.cons.injEq] at h
    have := key _ (by omega) h.1
    omega
  · split at h
    · simp only [List.cons.injEq] at h
      have := key _ (by omega) h.1
      omega
    · split at h
      · simp only [List.cons.injEq] at h
        rw [← h.2]; rfl
      · simp only [List.cons.injEq] at h
        have := key _ (by omega) h.1
        omega

theorem Utf8.headOk_e2 {x y : UInt8} {r : Bytes} (h : Utf8 (0xE2 :: x :: y :: r)) : HeadOk r := by
  obtain ⟨cs, hcs⟩ := h
  cases cs with
  | nil => simp [encode] at hcs
  | cons c cs =>
    obtain ⟨l, ks, hc, -⟩ := encodeChar_shape c
    rw [encode_cons, hc] at hcs
    simp only [List.cons_append, List.cons.injEq] at hcs
    obtain ⟨rfl, hcs⟩ := hcs
    have hl := encodeChar_e2 hc
    rcases ks with _ | ⟨a, _ | ⟨b, _ | ⟨c, ks⟩⟩⟩ <;> simp at hl
    simp only [List.cons_append, List.nil_append, List.cons.injEq] at hcs
    rw [hcs.2.2]
    exact headOk_encode cs

end Jsparse
