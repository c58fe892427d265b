import Verif.Spec.Strings
import Verif.Proofs.Loops
/-! # The string scanner accepts exactly `LooseBody` -/

namespace Jsparse

open Spec

/-- The state outside of escapes. -/
def st0 (ig : Bool) : StrState := { ignoreNl := ig }

theorem startsLine_append {b q : UInt8} (hq : Quote q) (v rest : Bytes) :
    StartsLine (b :: v ++ q :: rest) ↔ StartsLine (b :: v) := by
  have h1 : q ≠ 0x80 ∧ q ≠ 0xA8 ∧ q ≠ 0xA9 := by
    rcases hq with rfl | rfl <;> decide
  rcases v with _ | ⟨x, _ | ⟨y, v⟩⟩ <;>
    simp [StartsLine, lineSeparator, paragraphSeparator, List.cons_prefix_cons, h1.1.symm,
      h1.2.1.symm, h1.2.2.symm]

theorem strStep_normal {t : UInt8} (ht : Quote t) (b : UInt8) (s : Bytes) (ig : Bool) :
    strStep t b (b :: s) (st0 ig) =
      if b = c!"\\" then .next { st0 ig with inEscape := 1 }
      else if b = t then .stop
      else if b = 0x0A ∧ ig = true then .next (st0 ig)
      else if StartsLine (b :: s) then .fail .newlineInString
      else .next (st0 ig) := by
  have h1 := startsLine_iff b s
  by_cases hb : b = c!"\\"
  · subst hb; simp [strStep, strStepTail, st0]
  · rcases ht with rfl | rfl
    · by_cases h2 : b = c!"'"
      · subst h2; simp [strStep, strStepTail, st0]
      · simp only [strStep, strStepTail, st0]
        simp only [hb, h2, if_false]
        simp only [h1]
        by_cases h3 : b = 0x0A ∧ ig = true
        · simp [h3]
        · simp only [h3, if_false]
          by_cases h4 : b = 0x0D ∨ b = 0x0A
          · simp [h4]; rintro rfl; simpa using h3
          · by_cases h5 : b = 0xE2 ∧ startsLSPS (b :: s) = true
            · simp [h5]
            · simp [h4, h5]
    · by_cases h2 : b = c!"\""
      · subst h2; simp [strStep, strStepTail, st0]
      · simp only [strStep, strStepTail, st0]
        simp only [hb, h2, if_false]
        simp only [h1]
        by_cases h3 : b = 0x0A ∧ ig = true
        · simp [h3]
        · simp only [h3, if_false]
          by_cases h4 : b = 0x0D ∨ b = 0x0A
          · simp [h4]; rintro rfl; simpa using h3
          · by_cases h5 : b = 0xE2 ∧ startsLSPS (b :: s) = true
            · simp [h5]
            · simp [h4, h5]

/-- Right after a backslash. -/
def stEsc (ig : Bool) : StrState := { inEscape := 1, ignoreNl := ig }

theorem strLoop_hex (t : UInt8) (s : Bytes) (i : Nat) (ig : Bool) :
    strLoop t s i { inEscape := 3, inHex := true, ignoreNl := ig } = strLoop t s i (st0 ig) := by
  cases s with
  | nil => rfl
  | cons b s => simp [strLoop, strStep, strStepTail, st0]

theorem strLoop_uni (t : UInt8) (s : Bytes) (i : Nat) (ig : Bool) :
    strLoop t s i { inEscape := 5, inUnicode := true, ignoreNl := ig } = strLoop t s i (st0 ig) := by
  cases s with
  | nil => rfl
  | cons b s => simp [strLoop, strStep, strStepTail, st0]

/-- Inside `\u{…`, after `n + 3` bytes. -/
def stLong (n : Nat) (ig : Bool) : StrState :=
  { inEscape := n + 3, inUnicode := true, inLong := true, ignoreNl := ig }

theorem strLoop_long_step {b : UInt8} (hb : b ≠ c!"}") (t : UInt8) (s : Bytes) (i n : Nat)
    (ig : Bool) : strLoop t (b :: s) i (stLong n ig) = strLoop t s (i + 1) (stLong (n + 1) ig) := by
  simp [strLoop, strStep, strStepTail, stLong, hb]

theorem strLoop_long_end {t : UInt8} (ht : Quote t) (s : Bytes) (i n : Nat) (ig : Bool) :
    strLoop t (c!"}" :: s) i (stLong n ig) = strLoop t s (i + 1) (st0 ig) := by
  rcases ht with rfl | rfl <;> simp [strLoop, strStep, strStepTail, stLong, st0]

theorem strLoop_long {t : UInt8} (ht : Quote t) (ds s : Bytes) (hd : ∀ d ∈ ds, d ≠ c!"}")
    (i n : Nat) (ig : Bool) :
    strLoop t (ds ++ c!"}" :: s) i (stLong n ig) = strLoop t s (i + ds.length + 1) (st0 ig) := by
  induction ds generalizing i n with
  | nil => exact strLoop_long_end ht s i n ig
  | cons d ds ih =>
    rw [List.cons_append, strLoop_long_step (hd d (by simp)), ih (fun x hx => hd x (by simp [hx]))]
    congr 1; simp; omega

theorem strLoop_long_none {t : UInt8} (ds : Bytes) (hd : ∀ d ∈ ds, d ≠ c!"}") (i n : Nat)
    (ig : Bool) : strLoop t ds i (stLong n ig) = .ok none := by
  induction ds generalizing i n with
  | nil => rfl
  | cons d ds ih =>
    rw [strLoop_long_step (hd d (by simp)), ih (fun x hx => hd x (by simp [hx]))]

theorem strLoop_bs {t : UInt8} (ht : Quote t) (s : Bytes) (i : Nat) (ig : Bool) :
    strLoop t (c!"\\" :: s) i (st0 ig) = strLoop t s (i + 1) (stEsc ig) := by
  rw [strLoop, strStep_normal ht, if_pos rfl]
  rfl

theorem esc_single {t : UInt8} {b : UInt8} (hb : SingleEscape b ∨ b = c!"0" ∨ b = 0x0A) (s : Bytes)
    (i : Nat) (ig : Bool) : strLoop t (b :: s) i (stEsc ig) = strLoop t s (i + 1) (st0 ig) := by
  rcases hb with (rfl | rfl | rfl | rfl | rfl | rfl | rfl | rfl | rfl) | rfl | rfl <;>
    simp [strLoop, strStep, stEsc, st0]

theorem esc_cr {t : UInt8} (s : Bytes) (i : Nat) (ig : Bool) :
    strLoop t (0x0D :: s) i (stEsc ig) = strLoop t s (i + 1) (st0 true) := by
  simp [strLoop, strStep, stEsc, st0]

theorem esc_lsps {t : UInt8} (s : Bytes) (h : startsLSPS (0xE2 :: s) = true) (i : Nat) (ig : Bool) :
    strLoop t (0xE2 :: s) i (stEsc ig) = strLoop t s (i + 1) (st0 ig) := by
  simp [strLoop, strStep, stEsc, st0, h]

theorem esc_x {t : UInt8} (s : Bytes) (i : Nat) (ig : Bool) :
    strLoop t (c!"x" :: s) i (stEsc ig) =
      match s with
      | [] => .ok none
      | _ :: s => strLoop t s (i + 2) (st0 ig) := by
  cases s with
  | nil => simp [strLoop, strStep, strStepTail, stEsc]
  | cons a s =>
    simp only
    rw [← strLoop_hex]
    simp [strLoop, strStep, strStepTail, stEsc]

theorem esc_u {t : UInt8} (s : Bytes) (i : Nat) (ig : Bool) :
    strLoop t (c!"u" :: s) i (stEsc ig) =
      match s with
      | [] => .ok none
      | a :: s =>
        if a = c!"{" then strLoop t s (i + 2) (stLong 0 ig)
        else match s with
          | _ :: _ :: s => strLoop t s (i + 4) (st0 ig)
          | _ => .ok none := by
  cases s with
  | nil => simp [strLoop, strStep, strStepTail, stEsc]
  | cons a s =>
    simp only
    split
    · rename_i h; subst h
      simp [strLoop, strStep, strStepTail, stEsc, stLong]
    · rename_i h
      rcases s with _ | ⟨b, _ | ⟨c, s⟩⟩
      · simp [strLoop, strStep, strStepTail, stEsc, h]
      · simp [strLoop, strStep, strStepTail, stEsc, h]
      · simp only
        rw [← strLoop_uni]
        simp [strLoop, strStep, strStepTail, stEsc, h]

theorem esc_fail {t : UInt8} {b : UInt8} (s : Bytes) (i : Nat) (ig : Bool)
    (h1 : ¬ (SingleEscape b ∨ b = c!"0" ∨ b = 0x0A)) (h2 : b ≠ 0x0D)
    (h3 : ¬ (b = 0xE2 ∧ startsLSPS (b :: s) = true)) (h4 : b ≠ c!"x") (h5 : b ≠ c!"u") :
    strLoop t (b :: s) i (stEsc ig) =
      .error (if c!"1" ≤ b ∧ b ≤ c!"9" then .numericEscape else .badEscape) := by
  simp only [not_or] at h1
  obtain ⟨h1, h6, h7⟩ := h1
  have h1' : ¬ (b = c!"'" ∨ b = c!"\"" ∨ b = c!"\\" ∨ b = c!"b" ∨ b = c!"f" ∨ b = c!"n" ∨ b = c!"r"
        ∨ b = c!"t" ∨ b = c!"v") := h1
  rw [strLoop, strStep]
  simp only [stEsc, if_true]
  rw [if_neg h2, if_neg h7, if_neg h3, if_neg h1', if_neg h6, if_neg h4, if_neg h5]
  by_cases h9 : c!"1" ≤ b ∧ b ≤ c!"9" <;> simp [h9]

theorem strLoop_char {t b : UInt8} (ht : Quote t) {s : Bytes} (h1 : b ≠ t) (h2 : b ≠ c!"\\")
    (h3 : ¬ StartsLine (b :: s)) (i : Nat) (ig : Bool) :
    strLoop t (b :: s) i (st0 ig) = strLoop t s (i + 1) (st0 ig) := by
  rw [strLoop, strStep_normal ht, if_neg h2, if_neg h1]
  by_cases h4 : b = 0x0A ∧ ig = true
  · rw [if_pos h4]
  · rw [if_neg h4, if_neg h3]

theorem strLoop_quote {t : UInt8} (ht : Quote t) (s : Bytes) (i : Nat) (ig : Bool) :
    strLoop t (t :: s) i (st0 ig) = .ok (some i) := by
  rw [strLoop, strStep_normal ht, if_neg (by rcases ht with rfl | rfl <;> decide), if_pos rfl]

theorem strLoop_lf {t : UInt8} (ht : Quote t) (s : Bytes) (i : Nat) :
    strLoop t (0x0A :: s) i (st0 true) = strLoop t s (i + 1) (st0 true) := by
  rw [strLoop, strStep_normal ht, if_neg (by decide), if_neg (by rcases ht with rfl | rfl <;> decide),
    if_pos ⟨rfl, rfl⟩]

theorem strLoop_newline {t b : UInt8} (ht : Quote t) {s : Bytes} (h3 : StartsLine (b :: s))
    (i : Nat) (ig : Bool) (hlf : ¬ (b = 0x0A ∧ ig = true)) :
    strLoop t (b :: s) i (st0 ig) = .error .newlineInString := by
  have hb : b ≠ t ∧ b ≠ c!"\\" := by
    rw [startsLine_iff] at h3
    rcases ht with rfl | rfl <;> rcases h3 with (rfl | rfl) | ⟨rfl, -⟩ <;> decide
  rw [strLoop, strStep_normal ht, if_neg hb.2, if_neg hb.1, if_neg hlf, if_pos h3]

/-- The rest of a separator is ordinary text. -/
theorem strLoop_sep {t : UInt8} (ht : Quote t) {x : UInt8} (hx : x = 0xA8 ∨ x = 0xA9) (s : Bytes)
    (i : Nat) (ig : Bool) :
    strLoop t (0x80 :: x :: s) i (st0 ig) = strLoop t s (i + 2) (st0 ig) := by
  rw [strLoop_char ht (by rcases ht with rfl | rfl <;> decide) (by decide)
    (by simp [StartsLine, lineSeparator, paragraphSeparator])]
  rw [strLoop_char ht (by rcases ht with rfl | rfl <;> rcases hx with rfl | rfl <;> decide)
    (by rcases hx with rfl | rfl <;> decide)
    (by rcases hx with rfl | rfl <;> simp [StartsLine, lineSeparator, paragraphSeparator])]

theorem strLoop_loose {t : UInt8} (ht : Quote t) {ig : Bool} {v : Bytes} (h : LooseBody t ig v)
    (rest : Bytes) (i : Nat) : strLoop t (v ++ t :: rest) i (st0 ig) = .ok (some (i + v.length)) := by
  induction h generalizing i with
  | nil ig => exact strLoop_quote ht rest i ig
  | char ig b v h1 h2 h3 _ ih =>
    rw [List.cons_append, strLoop_char ht h1 h2 (by rwa [← List.cons_append, startsLine_append ht]), ih]
    simp; omega
  | lf v _ ih => rw [List.cons_append, strLoop_lf ht, ih]; simp; omega
  | single ig b v hb _ ih =>
    rw [List.cons_append, strLoop_bs ht, List.cons_append, esc_single hb, ih]; simp; omega
  | hex ig a v _ ih =>
    rw [List.cons_append, strLoop_bs ht, List.cons_append, List.cons_append, esc_x]
    simp only [ih]; simp; omega
  | unicode ig a b c v ha _ ih =>
    simp only [List.cons_append]
    rw [strLoop_bs ht, esc_u]
    simp only [ha, if_false, ih]; simp; omega
  | long ig ds v hd _ ih =>
    simp only [List.cons_append, List.append_assoc]
    rw [strLoop_bs ht, esc_u]
    simp only [if_true]
    rw [strLoop_long ht ds _ hd, ih]; simp; omega
  | cr ig v _ ih =>
    rw [List.cons_append, strLoop_bs ht, List.cons_append, esc_cr, ih]; simp; omega
  | ls ig v _ ih =>
    simp only [List.cons_append, lineSeparator, List.nil_append]
    rw [strLoop_bs ht, esc_lsps _ (by simp [startsLSPS, startsWith, NS_LS, NS_PS]),
      strLoop_sep ht (.inl rfl), ih]
    simp; omega
  | ps ig v _ ih =>
    simp only [List.cons_append, paragraphSeparator, List.nil_append]
    rw [strLoop_bs ht, esc_lsps _ (by simp [startsLSPS, startsWith, NS_LS, NS_PS]),
      strLoop_sep ht (.inr rfl), ih]
    simp; omega

theorem strLoop_complete {t : UInt8} (ht : Quote t) (s : Bytes) : ∀ (ig : Bool) (i k : Nat),
    strLoop t s i (st0 ig) = .ok (some k) →
      ∃ v rest, s = v ++ t :: rest ∧ LooseBody t ig v ∧ k = i + v.length := by
  induction hn : s.length using Nat.strongRecOn generalizing s with
  | ind n ih =>
    intro ig i k h
    subst hn
    cases s with
    | nil => simp [strLoop] at h
    | cons b s =>
      by_cases hb : b = c!"\\"
      · subst hb
        rw [strLoop_bs ht] at h
        cases s with
        | nil => simp [strLoop] at h
        | cons b s =>
          by_cases h1 : SingleEscape b ∨ b = c!"0" ∨ b = 0x0A
          · rw [esc_single h1] at h
            obtain ⟨v, rest, rfl, hv, rfl⟩ := ih _ (by simp; omega) s rfl _ _ _ h
            exact ⟨_, rest, by simp, .single ig b v h1 hv, by simp; omega⟩
          by_cases h2 : b = 0x0D
          · subst h2
            rw [esc_cr] at h
            obtain ⟨v, rest, rfl, hv, rfl⟩ := ih _ (by simp; omega) s rfl _ _ _ h
            exact ⟨_, rest, by simp, .cr ig v hv, by simp; omega⟩
          by_cases h3 : b = 0xE2 ∧ startsLSPS (b :: s) = true
          · obtain ⟨rfl, h3⟩ := h3
            rw [esc_lsps s h3] at h
            rw [startsLSPS_iff] at h3
            rcases h3 with ⟨r, hr⟩ | ⟨r, hr⟩
            · simp only [lineSeparator, List.cons_append, List.nil_append, List.cons.injEq,
                true_and] at hr
              subst hr
              rw [strLoop_sep ht (.inl rfl)] at h
              obtain ⟨v, rest, rfl, hv, rfl⟩ := ih _ (by simp; omega) r rfl _ _ _ h
              exact ⟨_, rest, by simp [lineSeparator], .ls ig v hv, by simp [lineSeparator]; omega⟩
            · simp only [paragraphSeparator, List.cons_append, List.nil_append, List.cons.injEq,
                true_and] at hr
              subst hr
              rw [strLoop_sep ht (.inr rfl)] at h
              obtain ⟨v, rest, rfl, hv, rfl⟩ := ih _ (by simp; omega) r rfl _ _ _ h
              exact ⟨_, rest, by simp [paragraphSeparator], .ps ig v hv,
                by simp [paragraphSeparator]; omega⟩
          by_cases h4 : b = c!"x"
          · subst h4
            rw [esc_x] at h
            cases s with
            | nil => simp at h
            | cons a s =>
              simp only at h
              obtain ⟨v, rest, rfl, hv, rfl⟩ := ih _ (by simp; omega) s rfl _ _ _ h
              exact ⟨_, rest, by simp, .hex ig a v hv, by simp; omega⟩
          by_cases h5 : b = c!"u"
          · subst h5
            rw [esc_u] at h
            cases s with
            | nil => simp at h
            | cons a s =>
              simp only at h
              by_cases ha : a = c!"{"
              · subst ha
                rw [if_pos rfl] at h
                obtain ⟨ds, r, rfl, hd, hr⟩ := run_split (· ≠ c!"}") s
                cases r with
                | nil => rw [List.append_nil, strLoop_long_none ds hd] at h; simp at h
                | cons x r =>
                  have hx : x = c!"}" := Classical.not_not.1 (hr x r rfl)
                  subst hx
                  rw [strLoop_long ht ds r hd] at h
                  obtain ⟨v, rest, rfl, hv, rfl⟩ := ih _ (by simp; omega) r rfl _ _ _ h
                  exact ⟨_, rest, by simp, .long ig ds v hd hv, by simp; omega⟩
              · rw [if_neg ha] at h
                rcases s with _ | ⟨b, _ | ⟨c, s⟩⟩
                · simp at h
                · simp at h
                · simp only at h
                  obtain ⟨v, rest, rfl, hv, rfl⟩ := ih _ (by simp; omega) s rfl _ _ _ h
                  exact ⟨_, rest, by simp, .unicode ig a b c v ha hv, by simp; omega⟩
          rw [esc_fail s _ _ h1 h2 h3 h4 h5] at h
          simp at h
      · by_cases h1 : b = t
        · subst h1
          rw [strLoop_quote ht] at h
          simp only [Except.ok.injEq, Option.some.injEq] at h
          exact ⟨[], s, rfl, .nil ig, by simp [h]⟩
        · by_cases h2 : b = 0x0A ∧ ig = true
          · obtain ⟨rfl, rfl⟩ := h2
            rw [strLoop_lf ht] at h
            obtain ⟨v, rest, rfl, hv, rfl⟩ := ih _ (by simp) s rfl _ _ _ h
            exact ⟨_, rest, by simp, .lf v hv, by simp; omega⟩
          · by_cases h3 : StartsLine (b :: s)
            · rw [strLoop_newline ht h3 _ _ h2] at h; simp at h
            · rw [strLoop_char ht h1 hb h3] at h
              obtain ⟨v, rest, rfl, hv, rfl⟩ := ih _ (by simp) s rfl _ _ _ h
              refine ⟨b :: v, rest, by simp, .char ig b v h1 hb ?_ hv, by simp; omega⟩
              rwa [← List.cons_append, startsLine_append ht] at h3

/-- Well-formed literals belong to the accepted language. -/
theorem StrBody.loose {q : UInt8} (hq : Quote q) {v : Bytes} (h : StrBody q v) (ig : Bool) :
    LooseBody q ig v := by
  have hhex : ∀ b, HexDigit b → b ≠ q ∧ b ≠ c!"\\" ∧ b ≠ c!"{" ∧ b ≠ c!"}" ∧ b ≠ 0x0A ∧ b ≠ 0x0D ∧
      b ≠ 0xE2 := by
    intro b hb
    rcases hq with rfl | rfl <;>
      refine ⟨?_, ?_, ?_, ?_, ?_, ?_, ?_⟩ <;> rintro rfl <;>
      rcases hb with hb | hb | hb <;> revert hb <;> decide
  have hch : ∀ ig b v, HexDigit b → LooseBody q ig v → LooseBody q ig (b :: v) := by
    intro ig b v hb hv
    obtain ⟨h1, h2, -, -, h3, h4, h5⟩ := hhex b hb
    refine .char ig b v h1 h2 ?_ hv
    rw [startsLine_iff]
    simp [h3, h4, h5]
  induction h generalizing ig with
  | nil => exact .nil ig
  | char b v h1 h2 h3 _ ih => exact .char ig b v h1 h2 h3 (ih ig)
  | single b v hb _ ih => exact .single ig b v (.inl hb) (ih ig)
  | zero v _ ih => exact .single ig _ v (.inr (.inl rfl)) (ih ig)
  | hex a b v _ hb _ ih => exact .hex ig a (b :: v) (hch ig b v hb (ih ig))
  | unicode a b c d v ha _ _ hd _ ih =>
    exact .unicode ig a b c _ (hhex a ha).2.2.1 (hch ig d v hd (ih ig))
  | long ds v _ hd _ ih =>
    exact .long ig ds v (fun d h => (hhex d (hd d h)).2.2.2.1) (ih ig)
  | contLf v _ ih => exact .single ig _ v (.inr (.inr rfl)) (ih ig)
  | contCr v _ ih => exact .cr ig v (ih true)
  | contCrLf v _ ih => exact .cr ig _ (.lf v (ih true))
  | contLs v _ ih => exact .ls ig v (ih ig)
  | contPs v _ ih => exact .ps ig v (ih ig)

/-- The last part of `strStepTail`. -/
def strFin (t b : UInt8) (rest : Bytes) (st : StrState) : StrStep :=
  if st.inEscape ≠ 0 then .next { st with inEscape := st.inEscape + 1 }
  else if b = c!"\\" then .next { st with inEscape := 1 }
  else if b = c!"\"" ∧ t = c!"\"" then .stop
  else if b = c!"'" ∧ t = c!"'" then .stop
  else if b = 0x0A ∧ st.ignoreNl = true then .next st
  else if b = 0x0D ∨ b = 0x0A then .fail .newlineInString
  else if b = 0xE2 ∧ startsLSPS rest = true then .fail .newlineInString
  else .next st

theorem strStepTail_fin (t b : UInt8) (rest : Bytes) (st : StrState) :
    ∃ st', strStepTail t b rest st = strFin t b rest st' := ⟨_, rfl⟩

/-- The only panics of the string scanner. -/
theorem strLoop_error {t : UInt8} (s : Bytes) (i : Nat) (st : StrState) (p : Panic)
    (h : strLoop t s i st = .error p) :
    p = .numericEscape ∨ p = .badEscape ∨ p = .newlineInString := by
  induction s generalizing i st with
  | nil => simp [strLoop] at h
  | cons b s ih =>
    rw [strLoop] at h
    have hf : ∀ p', strStep t b (b :: s) st = .fail p' →
        p' = .numericEscape ∨ p' = .badEscape ∨ p' = .newlineInString := by
      intro p' hp
      have ht : ∀ st', strStepTail t b (b :: s) st' = .fail p' → p' = .newlineInString := by
        intro st' hp
        obtain ⟨x, hx⟩ := strStepTail_fin t b (b :: s) st'
        rw [hx] at hp
        unfold strFin at hp
        repeat' split at hp
        all_goals simp_all
      unfold strStep at hp
      repeat' split at hp
      all_goals first
        | exact .inr (.inr (ht _ hp))
        | simp_all
    split at h
    · exact ih _ _ h
    · simp at h
    · rename_i p' hp
      simp only [Except.error.injEq] at h
      subst h
      exact hf _ hp

theorem strLoop_error_shape {t : UInt8} (ht : Quote t) (s : Bytes) :
    ∀ (ig : Bool) (i : Nat) (p : Panic), strLoop t s i (st0 ig) = .error p →
      ∃ v e, s = v ++ e ∧ LooseBody t ig v ∧ StrBad e p := by
  induction hn : s.length using Nat.strongRecOn generalizing s with
  | ind n ih =>
    intro ig i p h
    subst hn
    cases s with
    | nil => simp [strLoop] at h
    | cons b s =>
      by_cases hb : b = c!"\\"
      · subst hb
        rw [strLoop_bs ht] at h
        cases s with
        | nil => simp [strLoop] at h
        | cons b s =>
          by_cases h1 : SingleEscape b ∨ b = c!"0" ∨ b = 0x0A
          · rw [esc_single h1] at h
            obtain ⟨v, e, rfl, hv, he⟩ := ih _ (by simp; omega) s rfl _ _ _ h
            exact ⟨_, e, by simp, .single ig b v h1 hv, he⟩
          by_cases h2 : b = 0x0D
          · subst h2
            rw [esc_cr] at h
            obtain ⟨v, e, rfl, hv, he⟩ := ih _ (by simp; omega) s rfl _ _ _ h
            exact ⟨_, e, by simp, .cr ig v hv, he⟩
          by_cases h3 : b = 0xE2 ∧ startsLSPS (b :: s) = true
          · obtain ⟨rfl, h3⟩ := h3
            rw [esc_lsps s h3] at h
            rw [startsLSPS_iff] at h3
            rcases h3 with ⟨r, hr⟩ | ⟨r, hr⟩
            · simp only [lineSeparator, List.cons_append, List.nil_append, List.cons.injEq,
                true_and] at hr
              subst hr
              rw [strLoop_sep ht (.inl rfl)] at h
              obtain ⟨v, e, rfl, hv, he⟩ := ih _ (by simp; omega) r rfl _ _ _ h
              exact ⟨_, e, by simp [lineSeparator], .ls ig v hv, he⟩
            · simp only [paragraphSeparator, List.cons_append, List.nil_append, List.cons.injEq,
                true_and] at hr
              subst hr
              rw [strLoop_sep ht (.inr rfl)] at h
              obtain ⟨v, e, rfl, hv, he⟩ := ih _ (by simp; omega) r rfl _ _ _ h
              exact ⟨_, e, by simp [paragraphSeparator], .ps ig v hv, he⟩
          by_cases h4 : b = c!"x"
          · subst h4
            rw [esc_x] at h
            cases s with
            | nil => simp at h
            | cons a s =>
              simp only at h
              obtain ⟨v, e, rfl, hv, he⟩ := ih _ (by simp; omega) s rfl _ _ _ h
              exact ⟨_, e, by simp, .hex ig a v hv, he⟩
          by_cases h5 : b = c!"u"
          · subst h5
            rw [esc_u] at h
            cases s with
            | nil => simp at h
            | cons a s =>
              simp only at h
              by_cases ha : a = c!"{"
              · subst ha
                rw [if_pos rfl] at h
                obtain ⟨ds, r, rfl, hd, hr⟩ := run_split (· ≠ c!"}") s
                cases r with
                | nil => rw [List.append_nil, strLoop_long_none ds hd] at h; simp at h
                | cons x r =>
                  have hx : x = c!"}" := Classical.not_not.1 (hr x r rfl)
                  subst hx
                  rw [strLoop_long ht ds r hd] at h
                  obtain ⟨v, e, rfl, hv, he⟩ := ih _ (by simp; omega) r rfl _ _ _ h
                  exact ⟨_, e, by simp, .long ig ds v hd hv, he⟩
              · rw [if_neg ha] at h
                rcases s with _ | ⟨b, _ | ⟨c, s⟩⟩
                · simp at h
                · simp at h
                · simp only at h
                  obtain ⟨v, e, rfl, hv, he⟩ := ih _ (by simp; omega) s rfl _ _ _ h
                  exact ⟨_, e, by simp, .unicode ig a b c v ha hv, he⟩
          rw [esc_fail s _ _ h1 h2 h3 h4 h5] at h
          simp only [Except.error.injEq] at h
          subst h
          refine ⟨[], _, rfl, .nil ig, ?_⟩
          split
          · rename_i h6; exact .numeric b s h6
          · rename_i h6
            simp only [not_or] at h1
            refine .bad b s h1.1 ?_ h4 h5 ?_
            · rintro ⟨h7, h8⟩
              apply h6
              refine ⟨?_, h8⟩
              have h9 := h1.2.1
              simp only [UInt8.le_iff_toNat_le, ← UInt8.toNat_inj] at *
              simp at *; omega
            · rw [startsLine_iff]
              simp [h1.2.2, h2, h3]
      · by_cases h1 : b = t
        · subst h1
          rw [strLoop_quote ht] at h
          simp at h
        · by_cases h2 : b = 0x0A ∧ ig = true
          · obtain ⟨rfl, rfl⟩ := h2
            rw [strLoop_lf ht] at h
            obtain ⟨v, e, rfl, hv, he⟩ := ih _ (by simp) s rfl _ _ _ h
            exact ⟨_, e, by simp, .lf v hv, he⟩
          · by_cases h3 : StartsLine (b :: s)
            · rw [strLoop_newline ht h3 _ _ h2] at h
              simp only [Except.error.injEq] at h
              subst h
              exact ⟨[], _, rfl, .nil ig, .newline b s h3⟩
            · rw [strLoop_char ht h1 hb h3] at h
              obtain ⟨v, e, rfl, hv, he⟩ := ih _ (by simp) s rfl _ _ _ h
              refine ⟨b :: v, e, by simp, .char ig b v h1 hb ?_ hv, he⟩
              intro h4
              apply h3
              rcases h4 with ⟨r, hr⟩ | ⟨r, hr⟩ | ⟨r, hr⟩ | ⟨r, hr⟩
              · exact .inl ⟨r ++ e, by rw [← List.append_assoc, hr]; rfl⟩
              · exact .inr (.inl ⟨r ++ e, by rw [← List.append_assoc, hr]; rfl⟩)
              · exact .inr (.inr (.inl ⟨r ++ e, by rw [← List.append_assoc, hr]; rfl⟩))
              · exact .inr (.inr (.inr ⟨r ++ e, by rw [← List.append_assoc, hr]; rfl⟩))

end Jsparse
