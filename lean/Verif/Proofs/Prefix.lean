import Verif.Spec.Gaps
import Verif.Proofs.Lexed
/-!
# A token does not depend on the text that follows it

`readNext_prefix`: if `read_next` finds a token inside of `p` in the text `p ++ a`, then it finds the
same token in `p ++ b`, provided that `b` does not continue the token.
-/

namespace Jsparse

open Spec

/-- What follows does not continue a number that ends with `p`. -/
def NumStop (p b : Bytes) : Prop :=
  ∀ c r, b = c :: r → ¬ IdentPart c ∧ c ≠ c!"." ∧
    (([c!"e"] <:+ p ∨ [c!"E"] <:+ p) → c ≠ c!"+" ∧ c ≠ c!"-")

theorem identPart_of_digit {c : UInt8} (h : isDigit c = true) : IdentPart c :=
  .inr ((isDigit_iff c).1 h)

theorem NumStop.digit {p b : Bytes} (h : NumStop p b) {c : UInt8} {r : Bytes} (hb : b = c :: r) :
    isDigit c = false := by
  cases hd : isDigit c with
  | false => rfl
  | true => exact absurd (identPart_of_digit hd) (h c r hb).1

theorem NumStop.ne {p b : Bytes} (h : NumStop p b) {c : UInt8} {r : Bytes} (hb : b = c :: r) (x : UInt8)
    (hx : IdentPart x ∨ x = c!".") : c ≠ x := by
  rintro rfl
  obtain ⟨h1, h2, -⟩ := h c r hb
  rcases hx with hx | hx
  · exact h1 hx
  · exact h2 hx

theorem NumStop.cons {x : UInt8} {p b : Bytes} (h : NumStop (x :: p) b) : NumStop p b := by
  intro c r hb
  obtain ⟨h1, h2, h3⟩ := h c r hb
  exact ⟨h1, h2, fun he => h3 (he.imp (·.trans (List.suffix_cons _ _)) (·.trans (List.suffix_cons _ _)))⟩

theorem NumStop.drop {p b : Bytes} (h : NumStop p b) (n : Nat) : NumStop (p.drop n) b := by
  intro c r hb
  obtain ⟨h1, h2, h3⟩ := h c r hb
  exact ⟨h1, h2, fun he => h3 (he.imp (·.trans (List.drop_suffix _ _)) (·.trans (List.drop_suffix _ _)))⟩

/-! ## The loops of numbers -/


theorem parseIntLoop_ge (s : Bytes) : ∀ v i, i ≤ (parseIntLoop s v i).2 := by
  induction s with
  | nil => intro v i; exact Nat.le_refl _
  | cons b s ih =>
    intro v i
    unfold parseIntLoop
    split
    · split
      · exact Nat.le_refl _
      · exact Nat.le_trans (Nat.le_succ _) (ih _ _)
    · split
      · exact Nat.le_trans (Nat.le_succ _) (ih _ _)
      · exact Nat.le_refl _

theorem isDigit_split {b : UInt8} (h : isDigit b = false) : b ≠ c!"0" ∧ ¬ (c!"1" ≤ b ∧ b ≤ c!"9") := by
  unfold isDigit at h
  simp only [Bool.and_eq_false_iff, decide_eq_false_iff_not, UInt8.le_iff_toNat_le] at h
  constructor
  · rintro rfl; simp at h
  · simp only [UInt8.le_iff_toNat_le]
    simp at *
    omega

theorem parseIntLoop_stop {s : Bytes} (h : ∀ c r, s = c :: r → isDigit c = false) (v : NumExpr) (i : Nat) :
    parseIntLoop s v i = (v, i) := by
  cases s with
  | nil => rfl
  | cons c r =>
    obtain ⟨h1, h2⟩ := isDigit_split (h c r rfl)
    unfold parseIntLoop
    rw [if_neg h1, if_neg h2]

theorem parseIntLoop_stable (p : Bytes) : ∀ a b v i,
    (parseIntLoop (p ++ a) v i).2 ≤ i + p.length →
    ((parseIntLoop (p ++ a) v i).2 = i + p.length → NumStop p b) →
    parseIntLoop (p ++ b) v i = parseIntLoop (p ++ a) v i := by
  induction p with
  | nil =>
    intro a b v i h1 h2
    simp only [List.nil_append, List.length_nil, Nat.add_zero] at *
    have h3 := parseIntLoop_ge a v i
    have hs := h2 (by omega)
    rw [parseIntLoop_stop fun c r h => hs.digit h]
    cases a with
    | nil => rfl
    | cons c r =>
      unfold parseIntLoop at h1 ⊢
      split at h1
      · rename_i hc
        rw [if_pos hc]
        split at h1
        · rename_i hz; rw [if_pos hz]
        · have := parseIntLoop_ge r (.mul v (.lit 10)) (i + 1); omega
      · rename_i hc
        rw [if_neg hc]
        split at h1
        · have := parseIntLoop_ge r (.add (.mul v (.lit 10)) (digitLit c c!"0")) (i + 1); omega
        · rename_i hd; rw [if_neg hd]
  | cons c p ih =>
    intro a b v i h1 h2
    rw [List.cons_append] at h1 h2
    rw [List.cons_append, List.cons_append]
    unfold parseIntLoop at h1 h2 ⊢
    split
    · rename_i hc
      rw [if_pos hc] at h1 h2
      split
      · rfl
      · rename_i hz
        rw [if_neg hz] at h1 h2
        exact ih _ _ _ _ (by simp at h1; omega) fun h => (h2 (by simp; omega)).cons
    · rename_i hc
      rw [if_neg hc] at h1 h2
      split
      · rename_i hz
        rw [if_pos hz] at h1 h2
        exact ih _ _ _ _ (by simp at h1; omega) fun h => (h2 (by simp; omega)).cons
      · rfl

theorem parseDecimalLoop_ge (s : Bytes) : ∀ v f i, i ≤ (parseDecimalLoop s v f i).2 := by
  induction s with
  | nil => intro v f i; exact Nat.le_refl _
  | cons b s ih =>
    intro v f i
    unfold parseDecimalLoop
    split
    · exact Nat.le_trans (Nat.le_succ _) (ih _ _ _)
    · exact Nat.le_refl _

theorem parseDecimalLoop_stop {s : Bytes} (h : ∀ c r, s = c :: r → isDigit c = false) (v f : NumExpr)
    (i : Nat) : parseDecimalLoop s v f i = (v, i) := by
  cases s with
  | nil => rfl
  | cons c r =>
    unfold parseDecimalLoop
    rw [if_neg (by simp [h c r rfl])]

theorem parseDecimalLoop_stable (p : Bytes) : ∀ a b v f i,
    (parseDecimalLoop (p ++ a) v f i).2 ≤ i + p.length →
    ((parseDecimalLoop (p ++ a) v f i).2 = i + p.length → NumStop p b) →
    parseDecimalLoop (p ++ b) v f i = parseDecimalLoop (p ++ a) v f i := by
  induction p with
  | nil =>
    intro a b v f i h1 h2
    simp only [List.nil_append, List.length_nil, Nat.add_zero] at *
    have h3 := parseDecimalLoop_ge a v f i
    have hs := h2 (by omega)
    rw [parseDecimalLoop_stop fun c r h => hs.digit h]
    cases a with
    | nil => rfl
    | cons c r =>
      unfold parseDecimalLoop at h1 ⊢
      split at h1
      · have := parseDecimalLoop_ge r (.add v (.mul f (digitLit c c!"0"))) (.div f (.lit 10)) (i + 1); omega
      · rename_i hd; rw [if_neg hd]
  | cons c p ih =>
    intro a b v f i h1 h2
    rw [List.cons_append] at h1 h2
    rw [List.cons_append, List.cons_append]
    unfold parseDecimalLoop at h1 h2 ⊢
    split
    · rename_i hz
      rw [if_pos hz] at h1 h2
      exact ih _ _ _ _ _ (by simp at h1; omega) fun h => (h2 (by simp; omega)).cons
    · rfl

theorem hexLoop_ge (s : Bytes) : ∀ v i, i ≤ (hexLoop s v i).2 := by
  induction s with
  | nil => intro v i; exact Nat.le_refl _
  | cons b s ih =>
    intro v i
    unfold hexLoop
    repeat' split
    all_goals first | exact Nat.le_refl _ | exact Nat.le_trans (Nat.le_succ _) (ih _ _)

theorem notIdent_hex {c : UInt8} (h : ¬ IdentPart c) :
    isDigit c = false ∧ ¬ (c!"a" ≤ c ∧ c ≤ c!"f") ∧ ¬ (c!"A" ≤ c ∧ c ≤ c!"F") := by
  refine ⟨?_, ?_, ?_⟩
  · cases hd : isDigit c with
    | false => rfl
    | true => exact absurd (identPart_of_digit hd) h
  · exact fun h1 => h (.inl (.inl (.inl ⟨h1.1, UInt8.le_trans h1.2 (by decide)⟩)))
  · exact fun h1 => h (.inl (.inl (.inr ⟨h1.1, UInt8.le_trans h1.2 (by decide)⟩)))

theorem hexLoop_stable (p : Bytes) : ∀ a b v i,
    (hexLoop (p ++ a) v i).2 ≤ i + p.length →
    ((hexLoop (p ++ a) v i).2 = i + p.length → NumStop p b) →
    hexLoop (p ++ b) v i = hexLoop (p ++ a) v i := by
  induction p with
  | nil =>
    intro a b v i h1 h2
    simp only [List.nil_append, List.length_nil, Nat.add_zero] at *
    have h3 := hexLoop_ge a v i
    have hs := h2 (by omega)
    have hb : hexLoop b v i = (v, i) := by
      cases b with
      | nil => rfl
      | cons c r =>
        obtain ⟨e1, e2, e3⟩ := notIdent_hex (hs c r rfl).1
        unfold hexLoop
        rw [if_neg (by simp [e1]), if_neg e2, if_neg e3]
    rw [hb]
    cases a with
    | nil => rfl
    | cons c r =>
      unfold hexLoop at h1 ⊢
      repeat' split at h1
      · have := hexLoop_ge r (.add (.mul v (.lit 16)) (digitLit c c!"0")) (i + 1); omega
      · have := hexLoop_ge r (.add (.mul v (.lit 16)) (digitLit c c!"a")) (i + 1); omega
      · have := hexLoop_ge r (.add (.mul v (.lit 16)) (digitLit c c!"A")) (i + 1); omega
      · rename_i e1 e2 e3
        rw [if_neg e1, if_neg e2, if_neg e3]
  | cons c p ih =>
    intro a b v i h1 h2
    rw [List.cons_append] at h1 h2
    rw [List.cons_append, List.cons_append]
    unfold hexLoop at h1 h2 ⊢
    split
    · rename_i hz
      rw [if_pos hz] at h1 h2
      exact ih _ _ _ _ (by simp at h1; omega) fun h => (h2 (by simp; omega)).cons
    · rename_i hz
      rw [if_neg hz] at h1 h2
      split
      · rename_i hz
        rw [if_pos hz] at h1 h2
        exact ih _ _ _ _ (by simp at h1; omega) fun h => (h2 (by simp; omega)).cons
      · rename_i hz
        rw [if_neg hz] at h1 h2
        split
        · rename_i hz
          rw [if_pos hz] at h1 h2
          exact ih _ _ _ _ (by simp at h1; omega) fun h => (h2 (by simp; omega)).cons
        · rfl

theorem octLoop_ge (s : Bytes) : ∀ v i x k, octLoop s v i = .ok (x, k) → i ≤ k := by
  induction s with
  | nil => intro v i x k h; cases h; exact Nat.le_refl _
  | cons b s ih =>
    intro v i x k h
    unfold octLoop at h
    split at h
    · exact Nat.le_trans (Nat.le_succ _) (ih _ _ _ _ h)
    · split at h
      · cases h
      · cases h; exact Nat.le_refl _

theorem binLoop_ge (s : Bytes) : ∀ v i x k, binLoop s v i = .ok (x, k) → i ≤ k := by
  induction s with
  | nil => intro v i x k h; cases h; exact Nat.le_refl _
  | cons b s ih =>
    intro v i x k h
    unfold binLoop at h
    split at h
    · exact Nat.le_trans (Nat.le_succ _) (ih _ _ _ _ h)
    · split at h
      · cases h
      · cases h; exact Nat.le_refl _

theorem notDigit_oct {c : UInt8} (h : isDigit c = false) :
    ¬ (c!"0" ≤ c ∧ c ≤ c!"7") ∧ ¬ (c = c!"8" ∨ c = c!"9") ∧ ¬ (c!"0" ≤ c ∧ c ≤ c!"1") ∧
    ¬ (c!"2" ≤ c ∧ c ≤ c!"9") := by
  unfold isDigit at h
  simp only [Bool.and_eq_false_iff, decide_eq_false_iff_not, UInt8.le_iff_toNat_le,
    ← UInt8.toNat_inj] at *
  simp at *
  omega

theorem octLoop_stable' (p : Bytes) : ∀ a b v i x k, octLoop (p ++ a) v i = .ok (x, k) →
    k ≤ i + p.length → (k = i + p.length → NumStop p b) → octLoop (p ++ b) v i = .ok (x, k) := by
  induction p with
  | nil =>
    intro a b v i x k h h1 h2
    simp only [List.nil_append, List.length_nil, Nat.add_zero] at *
    have h3 := octLoop_ge a v i x k h
    have hs := h2 (by omega)
    have hb : octLoop b v i = .ok (v, i) := by
      cases b with
      | nil => rfl
      | cons c r =>
        obtain ⟨e1, e2, -, -⟩ := notDigit_oct (hs.digit rfl)
        unfold octLoop
        rw [if_neg e1, if_neg e2]
    rw [hb, ← h]
    cases a with
    | nil => rfl
    | cons c r =>
      unfold octLoop at h ⊢
      split at h
      · have := octLoop_ge _ _ _ _ _ h; omega
      · split at h
        · cases h
        · rename_i e1 e2
          rw [if_neg e1, if_neg e2]
  | cons c p ih =>
    intro a b v i x k h h1 h2
    rw [List.cons_append] at h ⊢
    simp only [List.length_cons] at h1 h2
    unfold octLoop at h ⊢
    split at h
    · rename_i hz
      rw [if_pos hz]
      exact ih _ _ _ _ _ _ h (by omega) fun h => (h2 (by omega)).cons
    · rename_i hz
      rw [if_neg hz]
      split at h
      · cases h
      · rename_i hz
        rw [if_neg hz]
        exact h

theorem binLoop_stable' (p : Bytes) : ∀ a b v i x k, binLoop (p ++ a) v i = .ok (x, k) →
    k ≤ i + p.length → (k = i + p.length → NumStop p b) → binLoop (p ++ b) v i = .ok (x, k) := by
  induction p with
  | nil =>
    intro a b v i x k h h1 h2
    simp only [List.nil_append, List.length_nil, Nat.add_zero] at *
    have h3 := binLoop_ge a v i x k h
    have hs := h2 (by omega)
    have hb : binLoop b v i = .ok (v, i) := by
      cases b with
      | nil => rfl
      | cons c r =>
        obtain ⟨-, -, e1, e2⟩ := notDigit_oct (hs.digit rfl)
        unfold binLoop
        rw [if_neg e1, if_neg e2]
    rw [hb, ← h]
    cases a with
    | nil => rfl
    | cons c r =>
      unfold binLoop at h ⊢
      split at h
      · have := binLoop_ge _ _ _ _ _ h; omega
      · split at h
        · cases h
        · rename_i e1 e2
          rw [if_neg e1, if_neg e2]
  | cons c p ih =>
    intro a b v i x k h h1 h2
    rw [List.cons_append] at h ⊢
    simp only [List.length_cons] at h1 h2
    unfold binLoop at h ⊢
    split at h
    · rename_i hz
      rw [if_pos hz]
      exact ih _ _ _ _ _ _ h (by omega) fun h => (h2 (by omega)).cons
    · rename_i hz
      rw [if_neg hz]
      split at h
      · cases h
      · rename_i hz
        rw [if_neg hz]
        exact h

theorem parseExponentLoop_ge (checked : Bool) (s : Bytes) : ∀ v i x k,
    parseExponentLoop checked s v i = .ok (x, k) → i ≤ k := by
  induction s with
  | nil => intro v i x k h; cases h; exact Nat.le_refl _
  | cons b s ih =>
    intro v i x k h
    unfold parseExponentLoop at h
    split at h
    · dsimp only at h
      split at h
      · simp only [bind, Except.bind] at h
        split at h
        · cases h
        · split at h
          · cases h
          · exact Nat.le_trans (Nat.le_succ _) (ih _ _ _ _ h)
      · exact Nat.le_trans (Nat.le_succ _) (ih _ _ _ _ h)
    · cases h; exact Nat.le_refl _

theorem parseExponentLoop_digit {checked : Bool} {c : UInt8} {s : Bytes} (hc : isDigit c = true)
    {v : Int} {i : Nat} {x : Int} {k : Nat} (h : parseExponentLoop checked (c :: s) v i = .ok (x, k)) :
    i + 1 ≤ k ∧ ∃ v', (∀ s', parseExponentLoop checked (c :: s') v i =
      parseExponentLoop checked s' v' (i + 1)) := by
  unfold parseExponentLoop at h
  rw [if_pos hc] at h
  dsimp only at h
  by_cases hz : (((c - c!"0").toNat : Int) ≠ 0 ∨ v ≠ 0)
  · rw [if_pos hz] at h
    simp only [bind, Except.bind] at h
    cases h1 : i32 checked (v * 10) with
    | error e => rw [h1] at h; cases h
    | ok v1 =>
      rw [h1] at h
      simp only at h
      cases h2 : i32 checked (v1 + ((c - c!"0").toNat : Int)) with
      | error e => rw [h2] at h; cases h
      | ok v2 =>
        rw [h2] at h
        simp only at h
        refine ⟨parseExponentLoop_ge _ _ _ _ _ _ h, v2, fun s' => ?_⟩
        rw [parseExponentLoop, if_pos hc]
        dsimp only
        rw [if_pos hz, h1]
        simp only [bind, Except.bind]
        rw [h2]
  · rw [if_neg hz] at h
    refine ⟨parseExponentLoop_ge _ _ _ _ _ _ h, v, fun s' => ?_⟩
    rw [parseExponentLoop, if_pos hc]
    dsimp only
    rw [if_neg hz]

theorem parseExponentLoop_stop (checked : Bool) {s : Bytes} (h : ∀ c r, s = c :: r → isDigit c = false)
    (v : Int) (i : Nat) : parseExponentLoop checked s v i = .ok (v, i) := by
  cases s with
  | nil => rfl
  | cons c r =>
    unfold parseExponentLoop
    rw [if_neg (by simp [h c r rfl])]

theorem parseExponentLoop_stable (checked : Bool) (p : Bytes) : ∀ a b v i x k,
    parseExponentLoop checked (p ++ a) v i = .ok (x, k) →
    k ≤ i + p.length → (k = i + p.length → ∀ c r, b = c :: r → isDigit c = false) →
    parseExponentLoop checked (p ++ b) v i = .ok (x, k) := by
  induction p with
  | nil =>
    intro a b v i x k h h1 h2
    simp only [List.nil_append, List.length_nil, Nat.add_zero] at *
    have h3 := parseExponentLoop_ge checked a v i x k h
    have hs := h2 (by omega)
    rw [parseExponentLoop_stop checked hs, ← h]
    cases a with
    | nil => rfl
    | cons c r =>
      cases hc : isDigit c with
      | true => have := (parseExponentLoop_digit hc h).1; omega
      | false =>
        rw [parseExponentLoop_stop]
        intro c' r' he
        cases he
        exact hc
  | cons c p ih =>
    intro a b v i x k h h1 h2
    rw [List.cons_append] at h ⊢
    simp only [List.length_cons] at h1 h2
    cases hc : isDigit c with
    | true =>
      obtain ⟨h3, v', h4⟩ := parseExponentLoop_digit hc h
      rw [h4] at h ⊢
      exact ih _ _ _ _ _ _ h (by omega) fun h => h2 (by omega)
    | false =>
      have : ∀ t : Bytes, ∀ c' r', c :: t = c' :: r' → isDigit c' = false := by
        intro t c' r' he; cases he; exact hc
      rw [parseExponentLoop_stop checked (this _)] at h ⊢
      exact h

theorem expTail_ge {checked : Bool} {s : Bytes} {off : Nat} {sg x : Int} {k : Nat}
    (h : (do
      let __x ← parseExponentLoop checked s 0 off
      let e ← i32 checked (sg * __x.1)
      (pure (e, __x.2) : Except Panic (Int × Nat))) = .ok (x, k)) : off ≤ k := by
  simp only [bind, Except.bind] at h
  split at h
  · cases h
  · rename_i r hr
    split at h
    · cases h
    · have hk' := parseExponentLoop_ge checked _ _ _ r.1 r.2 hr
      simp only [pure, Except.pure] at h
      cases h
      exact hk'

theorem parseExponent_stable (checked : Bool) {p a b : Bytes} (ha : a ≠ []) (hb : b ≠ []) {x : Int}
    {k : Nat} (h : parseExponent checked (p ++ a) = .ok (x, k)) (hk : k ≤ p.length)
    (hs : k = p.length → NumStop p b) :
    parseExponent checked (p ++ b) = .ok (x, k) := by
  obtain ⟨a0, a', rfl⟩ := List.exists_cons_of_ne_nil ha
  obtain ⟨b0, b', rfl⟩ := List.exists_cons_of_ne_nil hb
  unfold parseExponent at h ⊢
  dsimp only at h ⊢
  match p, h, hk, hs with
  | [], h, hk, hs =>
    have hs := hs (by simp at hk ⊢; omega)
    have e1 : b0 ≠ c!"e" := hs.ne rfl _ (.inl (by decide))
    have e2 : b0 ≠ c!"E" := hs.ne rfl _ (.inl (by decide))
    have hbz : ¬ ((if 2 ≤ ([] ++ b0 :: b').length then ([] ++ b0 :: b')[0]?.getD 0 else 0) = c!"e" ∨
        (if 2 ≤ ([] ++ b0 :: b').length then ([] ++ b0 :: b')[0]?.getD 0 else 0) = c!"E") := by
      split
      · simp [e1, e2]
      · simp
    rw [if_neg hbz]
    generalize (if 2 ≤ ([] ++ a0 :: a').length then ([] ++ a0 :: a')[0]?.getD 0 else 0) = z at h
    by_cases hz : z = c!"e" ∨ z = c!"E"
    · rw [if_pos hz] at h
      have := expTail_ge h
      simp only [List.length_nil] at hk
      have : 1 ≤ (if ([] ++ a0 :: a')[1]?.getD 0 = c!"+" then ((2, 1) : Nat × Int)
        else if ([] ++ a0 :: a')[1]?.getD 0 = c!"-" then (2, -1) else (1, 1)).1 := by
        split
        · simp
        · split <;> simp
      omega
    · rw [if_neg hz] at h
      exact h
  | [c], h, hk, hs =>
    have l1 : 2 ≤ ([c] ++ a0 :: a').length := by simp
    have l2 : 2 ≤ ([c] ++ b0 :: b').length := by simp
    rw [if_pos l1] at h
    rw [if_pos l2]
    simp only [List.cons_append, List.nil_append, List.getElem?_cons_zero, Option.getD_some,
      List.getElem?_cons_succ] at h ⊢
    split at h
    · rename_i hc
      rw [if_pos hc]
      simp only [List.length_singleton] at hk hs
      have hk1 : 1 ≤ k ∧ a0 ≠ c!"+" ∧ a0 ≠ c!"-" := by
        by_cases e1 : a0 = c!"+"
        · rw [if_pos e1] at h
          have := expTail_ge h; omega
        · by_cases e2 : a0 = c!"-"
          · rw [if_neg e1, if_pos e2] at h
            have := expTail_ge h; omega
          · rw [if_neg e1, if_neg e2] at h
            exact ⟨expTail_ge h, e1, e2⟩
      obtain ⟨hk1, e1, e2⟩ := hk1
      have hs := hs (by omega)
      have hpm := (hs b0 b' rfl).2.2 (by rcases hc with rfl | rfl; exact .inl (List.suffix_refl _); exact .inr (List.suffix_refl _))
      rw [if_neg e1, if_neg e2] at h
      rw [if_neg hpm.1, if_neg hpm.2]
      simp only [List.drop_succ_cons, List.drop_zero] at h ⊢
      simp only [bind, Except.bind] at h ⊢
      cases hr : parseExponentLoop checked (a0 :: a') 0 1 with
      | error e => rw [hr] at h; cases h
      | ok r =>
        rw [hr] at h
        simp only at h
        have hrk : r.2 = k := by
          split at h
          · cases h
          · simp only [pure, Except.pure] at h; cases h; rfl
        have := parseExponentLoop_stable checked [] _ (b0 :: b') _ _ r.1 r.2 hr (by simp; omega)
          fun _ c r hb => hs.digit hb
        rw [List.nil_append] at this
        rw [this]
        exact h
    · rename_i hc
      rw [if_neg hc]
      exact h
  | c :: d :: p, h, hk, hs =>
    have l1 : ∀ t : Bytes, 2 ≤ (c :: d :: p ++ t).length := by intro t; simp
    rw [if_pos (l1 _)] at h
    rw [if_pos (l1 _)]
    simp only [List.cons_append, List.getElem?_cons_zero, Option.getD_some,
      List.getElem?_cons_succ] at h ⊢
    split at h
    · rename_i hc
      rw [if_pos hc]
      have ho : (if d = c!"+" then ((2, 1) : Nat × Int) else if d = c!"-" then (2, -1) else (1, 1)).1 ≤ 2 := by
        split
        · simp
        · split <;> simp
      revert h ho
      generalize (if d = c!"+" then ((2, 1) : Nat × Int) else if d = c!"-" then (2, -1) else (1, 1)) = os
      intro h ho
      simp only [bind, Except.bind] at h ⊢
      have hd : ∀ t : Bytes, List.drop os.1 (c :: d :: (p ++ t)) = (c :: d :: p).drop os.1 ++ t := by
        intro t
        rw [← List.drop_append_of_le_length (by simp; omega)]
        rfl
      rw [hd] at h ⊢
      cases hr : parseExponentLoop checked ((c :: d :: p).drop os.1 ++ a0 :: a') 0 os.1 with
      | error e => rw [hr] at h; cases h
      | ok r =>
        rw [hr] at h
        simp only at h
        have hrk : r.2 = k := by
          split at h
          · cases h
          · simp only [pure, Except.pure] at h; cases h; rfl
        rw [parseExponentLoop_stable checked _ _ (b0 :: b') _ _ r.1 r.2 hr
          (by rw [List.length_drop]; simp at hk ⊢; omega)
          (by
            rw [List.length_drop]
            intro he c' r' hb
            exact (hs (by simp at he ⊢; omega)).digit hb)]
        exact h
    · rename_i hc
      rw [if_neg hc]
      exact h

theorem boundary_prefix {p a b : Bytes} {n : Nat} (h : isBoundary (p ++ a) n = true) (hn : n ≤ p.length)
    (hb : HeadOk b) : isBoundary (p ++ b) n = true := by
  rw [isBoundary_iff] at h ⊢
  rcases h with h | ⟨-, h⟩
  · exact .inl h
  · refine .inr ⟨by simp; omega, ?_⟩
    rw [List.drop_append_of_le_length hn] at h ⊢
    cases hd : p.drop n with
    | nil => exact hb
    | cons c r => rw [hd] at h; exact h

theorem number_eq_ok {val : NumExpr} {code : Bytes} {n : Nat} {r : Token × Nat} :
    number val code n = .ok r ↔ isBoundary code n = true ∧ r = (.num val, n) := by
  unfold number slice
  by_cases h : isBoundary code n = true
  · rw [if_pos ⟨Nat.zero_le _, isBoundary_zero _, h⟩]
    simp [bind, Except.bind, pure, Except.pure, h, eq_comm]
  · rw [if_neg (by simp [h])]
    simp [bind, Except.bind, h]

/-- The end of the number functions: an exponent, and the raw text. -/
def numTail (checked : Bool) (code : Bytes) (vo : NumExpr × Nat) : Except Panic (Token × Nat) := do
  let e ← parseExponent checked (← bytesFrom code vo.2)
  number (scaleExp vo.1 vo.2 e).1 code (scaleExp vo.1 vo.2 e).2

theorem numTail_eq_ok {checked : Bool} {code : Bytes} {vo : NumExpr × Nat} {r : Token × Nat} :
    numTail checked code vo = .ok r ↔ vo.2 ≤ code.length ∧ ∃ e,
      parseExponent checked (code.drop vo.2) = .ok e ∧ isBoundary code (scaleExp vo.1 vo.2 e).2 = true ∧
      r = (.num (scaleExp vo.1 vo.2 e).1, (scaleExp vo.1 vo.2 e).2) := by
  unfold numTail bytesFrom
  by_cases h : vo.2 ≤ code.length
  · rw [if_pos h]
    simp only [bind, Except.bind, h, true_and]
    cases hp : parseExponent checked (code.drop vo.2) with
    | error p => simp
    | ok e =>
      simp only [number_eq_ok, Except.ok.injEq]
      constructor
      · exact fun h => ⟨e, rfl, h⟩
      · rintro ⟨e, rfl, h⟩; exact h
  · rw [if_neg h]
    simp [bind, Except.bind, h]

theorem scaleExp_size (v : NumExpr) (o : Nat) (e : Int × Nat) : (scaleExp v o e).2 = o + e.2 := by
  unfold scaleExp
  split
  · rfl
  · rename_i h; simp at h; simp [h]

theorem numTail_ge {checked : Bool} {code : Bytes} {vo : NumExpr × Nat} {tok : Token} {n : Nat}
    (h : numTail checked code vo = .ok (tok, n)) : vo.2 ≤ n := by
  obtain ⟨-, e, -, -, h⟩ := numTail_eq_ok.1 h
  injection h with h1 h2
  rw [h2, scaleExp_size]
  omega

theorem numTail_stable {checked : Bool} {p a b : Bytes} {vo : NumExpr × Nat} {tok : Token} {n : Nat}
    (h : numTail checked (p ++ a) vo = .ok (tok, n)) (hn : n ≤ p.length) (ha : a ≠ []) (hb : b ≠ [])
    (hok : HeadOk b) (hs : n = p.length → NumStop p b) :
    numTail checked (p ++ b) vo = .ok (tok, n) := by
  have hge := numTail_ge h
  obtain ⟨h1, e, h2, h3, h4⟩ := numTail_eq_ok.1 h
  refine numTail_eq_ok.2 ⟨by simp; omega, e, ?_, ?_, h4⟩
  · rw [List.drop_append_of_le_length (by omega)] at h2 ⊢
    injection h4 with h5 h6
    rw [scaleExp_size] at h6
    refine parseExponent_stable checked ha hb h2 (by simp; omega) fun he => (hs ?_).drop _
    simp at he; omega
  · injection h4 with h5 h6
    exact boundary_prefix h3 (by omega) hok

theorem tokFractional_tail (checked : Bool) (code : Bytes) : tokFractional checked code =
    numTail checked code (.add (.lit 0) (parseDecimalDigits (code.drop 1)).1,
      1 + (parseDecimalDigits (code.drop 1)).2) := rfl

theorem tokNum_tail (checked : Bool) (code : Bytes) : tokNum checked code =
    numTail checked code (
      if code[(parseIntLiteral code).2]? = some c!"." then
        (.add (parseIntLiteral code).1
          (parseDecimalDigits (code.drop ((parseIntLiteral code).2 + 1))).1,
         (parseIntLiteral code).2 + ((parseDecimalDigits (code.drop ((parseIntLiteral code).2 + 1))).2 + 1))
      else parseIntLiteral code) := rfl

theorem tokFractional_stable {checked : Bool} {p a b : Bytes} {tok : Token} {n : Nat} (hp : p ≠ [])
    (h : tokFractional checked (p ++ a) = .ok (tok, n)) (hn : n ≤ p.length) (ha : a ≠ []) (hb : b ≠ [])
    (hok : HeadOk b) (hs : n = p.length → NumStop p b) :
    tokFractional checked (p ++ b) = .ok (tok, n) := by
  rw [tokFractional_tail] at h ⊢
  have hge := numTail_ge h
  have hl : 1 ≤ p.length := List.length_pos_iff.2 hp
  have e : parseDecimalDigits ((p ++ b).drop 1) = parseDecimalDigits ((p ++ a).drop 1) := by
    rw [List.drop_append_of_le_length hl] at hge ⊢
    rw [List.drop_append_of_le_length hl]
    refine parseDecimalLoop_stable _ _ _ _ _ _ ?_ fun h => (hs ?_).drop _
    · unfold parseDecimalDigits at hge; simp at hge ⊢; omega
    · unfold parseDecimalDigits at hge; simp at hge h; omega
  rw [e]
  exact numTail_stable h hn ha hb hok hs

theorem getElem?_head {p a : Bytes} : (p ++ a)[p.length]? = a.head? := by
  cases a <;> simp

theorem tokNum_stable {checked : Bool} {p a b : Bytes} {tok : Token} {n : Nat}
    (h : tokNum checked (p ++ a) = .ok (tok, n)) (hn : n ≤ p.length) (ha : a ≠ []) (hb : b ≠ [])
    (hok : HeadOk b) (hs : n = p.length → NumStop p b) :
    tokNum checked (p ++ b) = .ok (tok, n) := by
  rw [tokNum_tail] at h ⊢
  have hge := numTail_ge h
  have hi : (parseIntLiteral (p ++ a)).2 ≤ n := by
    split at hge
    · simp only at hge; omega
    · exact hge
  have e1 : parseIntLiteral (p ++ b) = parseIntLiteral (p ++ a) := by
    refine parseIntLoop_stable _ _ _ _ _ ?_ fun h => hs ?_
    · unfold parseIntLiteral at hi; omega
    · unfold parseIntLiteral at hi; omega
  rw [e1]
  have e2 : (p ++ b)[(parseIntLiteral (p ++ a)).2]? = some c!"." ↔
      (p ++ a)[(parseIntLiteral (p ++ a)).2]? = some c!"." := by
    rcases Nat.lt_or_ge (parseIntLiteral (p ++ a)).2 p.length with hlt | hlt
    · rw [List.getElem?_append_left hlt, List.getElem?_append_left hlt]
    · have heq : (parseIntLiteral (p ++ a)).2 = p.length := by omega
      have hst := hs (by omega)
      rw [heq, getElem?_head, getElem?_head]
      constructor
      · intro h1
        obtain ⟨b0, b', rfl⟩ := List.exists_cons_of_ne_nil hb
        simp only [List.head?_cons, Option.some.injEq] at h1
        exact absurd h1 (hst.ne rfl _ (.inr rfl))
      · intro h1
        rw [heq, getElem?_head, if_pos h1] at hge
        simp only at hge
        omega
  have e3 : (p ++ a)[(parseIntLiteral (p ++ a)).2]? = some c!"." →
      parseDecimalDigits ((p ++ b).drop ((parseIntLiteral (p ++ a)).2 + 1)) =
      parseDecimalDigits ((p ++ a).drop ((parseIntLiteral (p ++ a)).2 + 1)) := by
    intro h1
    rw [if_pos h1] at hge
    simp only at hge
    rw [List.drop_append_of_le_length (by omega)] at hge ⊢
    rw [List.drop_append_of_le_length (by omega)]
    refine parseDecimalLoop_stable _ _ _ _ _ _ ?_ fun h => (hs ?_).drop _
    · unfold parseDecimalDigits at hge; simp at hge ⊢; omega
    · unfold parseDecimalDigits at hge; simp at hge h; omega
  have e4 := numTail_stable h hn ha hb hok hs
  by_cases h1 : (p ++ a)[(parseIntLiteral (p ++ a)).2]? = some c!"."
  · rw [if_pos h1] at e4
    rw [if_pos (e2.2 h1), e3 h1]
    exact e4
  · rw [if_neg h1] at e4
    rw [if_neg (fun h => h1 (e2.1 h))]
    exact e4

/-- The body of `tok_zero_num` for the second byte `z`. -/
def zeroBody (checked : Bool) (code : Bytes) (z : UInt8) : Except Panic (Token × Nat) :=
  if z = c!"x" ∨ z = c!"X" then do
    let d ← subU8 checked (code[2]?.getD 0) c!"0"
    number (hexLoop (code.drop 3) (.lit d.toNat) 3).1 code (hexLoop (code.drop 3) (.lit d.toNat) 3).2
  else if z = c!"o" ∨ z = c!"O" then do
    let d ← subU8 checked (code[2]?.getD 0) c!"0"
    let r ← octLoop (code.drop 3) (.lit d.toNat) 3
    number r.1 code r.2
  else if z = c!"b" ∨ z = c!"B" then do
    let d ← subU8 checked (code[2]?.getD 0) c!"0"
    let r ← binLoop (code.drop 3) (.lit d.toNat) 3
    number r.1 code r.2
  else if z = c!"." then
    numTail checked code (
      if (parseDecimalDigits (code.drop 2)).2 ≠ 0 then
        (.add (.lit 0) (parseDecimalDigits (code.drop 2)).1, 2 + (parseDecimalDigits (code.drop 2)).2)
      else (.lit 0, 2))
  else do
    let e ← parseExponent checked code
    number (.lit 0) code (e.2 + 1)

theorem tokZeroNum_body (checked : Bool) (code : Bytes) : tokZeroNum checked code =
    zeroBody checked code (if 2 < code.length then code[1]?.getD 0 else 0) := rfl

theorem parseExponent_zero (checked : Bool) (s : Bytes) :
    parseExponent checked (c!"0" :: s) = .ok (0, 0) := by
  unfold parseExponent
  dsimp only
  rw [if_neg]
  · rfl
  · split <;> simp

theorem except_bind_ok {α β : Type} {x : Except Panic α} {k : α → Except Panic β} {r : β}
    (h : (x >>= k) = .ok r) : ∃ a, x = .ok a ∧ k a = .ok r := by
  cases x with
  | error p => cases h
  | ok a => exact ⟨a, rfl, h⟩

/-- The bytes read when the second byte says that more is to come. -/
theorem zeroBody_ge {checked : Bool} {code : Bytes} {z : UInt8} {tok : Token} {n : Nat}
    (h : zeroBody checked code z = .ok (tok, n)) :
    ((z = c!"x" ∨ z = c!"X" ∨ z = c!"o" ∨ z = c!"O" ∨ z = c!"b" ∨ z = c!"B") → 3 ≤ n) ∧
    (z = c!"." → 2 ≤ n) := by
  unfold zeroBody at h
  split at h
  · obtain ⟨d, -, h⟩ := except_bind_ok h
    have := hexLoop_ge (code.drop 3) (.lit d.toNat) 3
    injection (number_eq_ok.1 h).2 with h1 h2
    exact ⟨fun _ => by omega, fun _ => by omega⟩
  split at h
  · obtain ⟨d, -, h⟩ := except_bind_ok h
    obtain ⟨r, hr, h⟩ := except_bind_ok h
    have := octLoop_ge _ _ _ r.1 r.2 hr
    injection (number_eq_ok.1 h).2 with h1 h2
    exact ⟨fun _ => by omega, fun _ => by omega⟩
  split at h
  · obtain ⟨d, -, h⟩ := except_bind_ok h
    obtain ⟨r, hr, h⟩ := except_bind_ok h
    have := binLoop_ge _ _ _ r.1 r.2 hr
    injection (number_eq_ok.1 h).2 with h1 h2
    exact ⟨fun _ => by omega, fun _ => by omega⟩
  split at h
  · rename_i h1 h2 h3 h4
    have := numTail_ge h
    refine ⟨fun h => ?_, fun _ => ?_⟩
    · subst h4; simp at h
    · split at this
      · simp only at this; omega
      · exact this
  · rename_i h1 h2 h3 h4
    refine ⟨fun h => ?_, fun h => absurd h h4⟩
    rcases h with h | h | h | h | h | h
    · exact absurd (.inl h) h1
    · exact absurd (.inr h) h1
    · exact absurd (.inl h) h2
    · exact absurd (.inr h) h2
    · exact absurd (.inl h) h3
    · exact absurd (.inr h) h3

theorem zeroBody_plain {checked : Bool} {s : Bytes} {z : UInt8}
    (hz : ¬ (z = c!"x" ∨ z = c!"X" ∨ z = c!"o" ∨ z = c!"O" ∨ z = c!"b" ∨ z = c!"B") ∧ z ≠ c!".") :
    zeroBody checked (c!"0" :: s) z = number (.lit 0) (c!"0" :: s) 1 := by
  unfold zeroBody
  simp only [not_or] at hz
  obtain ⟨⟨h1, h2, h3, h4, h5, h6⟩, h7⟩ := hz
  rw [if_neg (by simp [h1, h2]), if_neg (by simp [h3, h4]), if_neg (by simp [h5, h6]), if_neg h7,
    parseExponent_zero]
  rfl

theorem zeroBody_stable {checked : Bool} {p a b : Bytes} {z : UInt8} {tok : Token} {n : Nat}
    (h : zeroBody checked ((c!"0" :: p) ++ a) z = .ok (tok, n)) (hn : n ≤ (c!"0" :: p).length)
    (ha : a ≠ []) (hb : b ≠ []) (hok : HeadOk b)
    (hs : n = (c!"0" :: p).length → NumStop (c!"0" :: p) b) :
    zeroBody checked ((c!"0" :: p) ++ b) z = .ok (tok, n) := by
  have hge := zeroBody_ge h
  generalize hP : c!"0" :: p = P at *
  have key3 : 3 ≤ P.length → ∀ t : Bytes, (P ++ t).drop 3 = P.drop 3 ++ t :=
    fun h t => List.drop_append_of_le_length h
  have key2 : 3 ≤ P.length → ∀ t : Bytes, (P ++ t)[2]? = P[2]? :=
    fun h t => List.getElem?_append_left (by omega)
  unfold zeroBody at h ⊢
  split at h
  · rename_i hz
    rw [if_pos hz]
    have hp3 : 3 ≤ P.length := by have := hge.1 (by rcases hz with h | h <;> simp [h]); omega
    rw [key2 hp3, key3 hp3] at h ⊢
    obtain ⟨d, hd, h⟩ := except_bind_ok h
    obtain ⟨h1, h2⟩ := number_eq_ok.1 h
    injection h2 with h2 h3
    have e := hexLoop_stable (P.drop 3) a b (.lit d.toNat) 3 (by simp; omega)
      fun h => (hs (by simp at h; omega)).drop _
    rw [hd]
    simp only [bind, Except.bind]
    rw [e]
    exact number_eq_ok.2 ⟨boundary_prefix h1 (by omega) hok, by rw [h2, ← h3]⟩
  rename_i hz1
  rw [if_neg hz1]
  split at h
  · rename_i hz
    rw [if_pos hz]
    have hp3 : 3 ≤ P.length := by have := hge.1 (by rcases hz with h | h <;> simp [h]); omega
    rw [key2 hp3, key3 hp3] at h ⊢
    obtain ⟨d, hd, h⟩ := except_bind_ok h
    obtain ⟨r, hr, h⟩ := except_bind_ok h
    obtain ⟨h1, h2⟩ := number_eq_ok.1 h
    injection h2 with h2 h3
    have e := octLoop_stable' (P.drop 3) a b (.lit d.toNat) 3 r.1 r.2 hr (by simp; omega)
      fun h => (hs (by simp at h; omega)).drop _
    rw [hd]
    simp only [bind, Except.bind]
    rw [e]
    exact number_eq_ok.2 ⟨boundary_prefix h1 (by omega) hok, by rw [h2, ← h3]⟩
  rename_i hz2
  rw [if_neg hz2]
  split at h
  · rename_i hz
    rw [if_pos hz]
    have hp3 : 3 ≤ P.length := by have := hge.1 (by rcases hz with h | h <;> simp [h]); omega
    rw [key2 hp3, key3 hp3] at h ⊢
    obtain ⟨d, hd, h⟩ := except_bind_ok h
    obtain ⟨r, hr, h⟩ := except_bind_ok h
    obtain ⟨h1, h2⟩ := number_eq_ok.1 h
    injection h2 with h2 h3
    have e := binLoop_stable' (P.drop 3) a b (.lit d.toNat) 3 r.1 r.2 hr (by simp; omega)
      fun h => (hs (by simp at h; omega)).drop _
    rw [hd]
    simp only [bind, Except.bind]
    rw [e]
    exact number_eq_ok.2 ⟨boundary_prefix h1 (by omega) hok, by rw [h2, ← h3]⟩
  rename_i hz3
  rw [if_neg hz3]
  split at h
  · rename_i hz
    rw [if_pos hz]
    have hp2 : 2 ≤ P.length := by have := hge.2 hz; omega
    have hd2 : ∀ t : Bytes, (P ++ t).drop 2 = P.drop 2 ++ t :=
      fun t => List.drop_append_of_le_length hp2
    rw [hd2] at h ⊢
    have hle := numTail_ge h
    have e : parseDecimalDigits (P.drop 2 ++ b) = parseDecimalDigits (P.drop 2 ++ a) := by
      have hx : 2 + (parseDecimalDigits (P.drop 2 ++ a)).2 ≤ n := by
        split at hle
        · exact hle
        · rename_i h0
          simp at h0 hle
          omega
      refine parseDecimalLoop_stable _ _ _ _ _ _ ?_ fun h => (hs ?_).drop _
      · unfold parseDecimalDigits at hx; simp at hx ⊢; omega
      · unfold parseDecimalDigits at hx; simp at hx h; omega
    rw [e]
    exact numTail_stable h hn ha hb hok hs
  · rename_i hz
    rw [if_neg hz]
    subst hP
    rw [List.cons_append, parseExponent_zero] at h ⊢
    simp only [bind, Except.bind] at h ⊢
    obtain ⟨h1, h2⟩ := number_eq_ok.1 h
    exact number_eq_ok.2 ⟨boundary_prefix (p := c!"0" :: p) h1 (by simp) hok, h2⟩

theorem tokZeroNum_stable {checked : Bool} {p a b : Bytes} {tok : Token} {n : Nat}
    (h : tokZeroNum checked ((c!"0" :: p) ++ a) = .ok (tok, n)) (hn : n ≤ (c!"0" :: p).length)
    (ha : a ≠ []) (hb : b ≠ []) (hok : HeadOk b)
    (hs : n = (c!"0" :: p).length → NumStop (c!"0" :: p) b) :
    tokZeroNum checked ((c!"0" :: p) ++ b) = .ok (tok, n) := by
  rw [tokZeroNum_body] at h ⊢
  cases p with
  | nil =>
    simp only [List.cons_append, List.nil_append, List.length_singleton] at *
    have hge := zeroBody_ge h
    generalize (if 2 < (c!"0" :: a).length then (c!"0" :: a)[1]?.getD 0 else 0) = z at *
    have hz : ¬ (z = c!"x" ∨ z = c!"X" ∨ z = c!"o" ∨ z = c!"O" ∨ z = c!"b" ∨ z = c!"B") ∧ z ≠ c!"." :=
      ⟨fun h => by have := hge.1 h; omega, fun h => by have := hge.2 h; omega⟩
    rw [zeroBody_plain hz] at h
    obtain ⟨h1, h2⟩ := number_eq_ok.1 h
    injection h2 with h2 h3
    have hs := hs h3
    rw [zeroBody_plain]
    · exact number_eq_ok.2 ⟨boundary_prefix (p := [c!"0"]) h1 (by simp) hok, by rw [h2, h3]⟩
    · obtain ⟨b0, b', rfl⟩ := List.exists_cons_of_ne_nil hb
      have hne := hs.ne (r := b') rfl
      split
      · simp only [List.getElem?_cons_succ, List.getElem?_cons_zero, Option.getD_some]
        refine ⟨?_, hne _ (.inr rfl)⟩
        rintro (h | h | h | h | h | h)
        all_goals exact hne _ (.inl (by decide)) h
      · decide
  | cons c p =>
    have hz : ∀ t : Bytes, t ≠ [] → (if 2 < (c!"0" :: c :: p ++ t).length then
        (c!"0" :: c :: p ++ t)[1]?.getD 0 else 0) = c := by
      intro t ht
      have : 0 < t.length := List.length_pos_iff.2 ht
      rw [if_pos (by simp; omega)]
      rfl
    rw [hz _ ha] at h
    rw [hz _ hb]
    exact zeroBody_stable h hn ha hb hok hs

end Jsparse
