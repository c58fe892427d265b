import Verif.Model.Tokenizer
import Verif.Spec.Lexical
import Verif.Spec.Regex
/-! # The scanning loops of the tokenizer find first occurrences -/

namespace Jsparse

open Spec

theorem nowhereIn_nil (rest : Bytes) (Q : Bytes → Prop) : NowhereIn [] rest Q := by
  intro a b h hb
  simp at h
  exact absurd h.2 hb

theorem nowhereIn_cons {x : UInt8} {v rest : Bytes} {Q : Bytes → Prop} :
    NowhereIn (x :: v) rest Q ↔ ¬ Q (x :: v ++ rest) ∧ NowhereIn v rest Q := by
  constructor
  · intro h
    exact ⟨h [] (x :: v) rfl (by simp), fun a b hab hb => h (x :: a) b (by simp [hab]) hb⟩
  · rintro ⟨h1, h2⟩ a b hab hb
    cases a with
    | nil => simp at hab; subst hab; exact h1
    | cons a0 a =>
      simp only [List.cons_append, List.cons.injEq] at hab
      exact h2 a b hab.2 hb

/-- A text either contains a first place where `Q` holds, or none. -/
theorem first_occurrence (Q : Bytes → Prop) (s : Bytes) :
    (∃ v e, s = v ++ e ∧ e ≠ [] ∧ Q e ∧ NowhereIn v e Q) ∨ NowhereIn s [] Q := by
  induction s with
  | nil => right; exact nowhereIn_nil _ _
  | cons b s ih =>
    by_cases hq : Q (b :: s)
    · left; exact ⟨[], b :: s, rfl, by simp, hq, nowhereIn_nil _ _⟩
    · rcases ih with ⟨v, e, rfl, h1, h2, h3⟩ | h
      · left; exact ⟨b :: v, e, rfl, h1, h2, nowhereIn_cons.2 ⟨hq, h3⟩⟩
      · right; exact nowhereIn_cons.2 ⟨by simpa using hq, h⟩

/-! ## Identifiers -/

theorem isIdentByte_iff (b : UInt8) : isIdentByte b = true ↔ IdentPart b := by
  simp only [isIdentByte, IdentPart, IdentStart, Letter, Digit, Bool.or_eq_true, Bool.and_eq_true,
    decide_eq_true_eq, beq_iff_eq]
  constructor
  · rintro ((((h | h) | h) | h) | h)
    · exact .inl (.inl (.inl h))
    · exact .inl (.inl (.inr h))
    · exact .inr h
    · exact .inl (.inr (.inl h))
    · exact .inl (.inr (.inr h))
  · rintro ((((h | h)) | h | h) | h) <;> simp [h]

theorem identLoop_eq (v rest : Bytes) (hv : ∀ b ∈ v, IdentPart b)
    (hr : ∀ b r, rest = b :: r → ¬ IdentPart b) (i : Nat) :
    identLoop (v ++ rest) i i = i + v.length := by
  induction v generalizing i with
  | nil =>
    cases rest with
    | nil => rfl
    | cons b r =>
      have := hr b r rfl
      rw [← isIdentByte_iff] at this
      simp [identLoop, this]
  | cons b v ih =>
    have h1 := (isIdentByte_iff b).2 (hv b (by simp))
    rw [List.cons_append, identLoop, if_pos h1, ih (fun x hx => hv x (by simp [hx]))]
    simp; omega

/-- Longest prefix of bytes with a property. -/
theorem run_split (p : UInt8 → Prop) (s : Bytes) :
    ∃ v rest, s = v ++ rest ∧ (∀ b ∈ v, p b) ∧ ∀ b r, rest = b :: r → ¬ p b := by
  induction s with
  | nil => exact ⟨[], [], rfl, by simp, by simp⟩
  | cons b s ih =>
    by_cases h : p b
    · obtain ⟨v, r, rfl, h1, h2⟩ := ih
      exact ⟨b :: v, r, rfl, by simpa using ⟨h, h1⟩, h2⟩
    · refine ⟨[], b :: s, rfl, by simp, ?_⟩
      intro b' r hb
      simp only [List.cons.injEq] at hb
      exact hb.1 ▸ h

/-! ## Templates -/

theorem templateLoop_tick {v rest : Bytes}
    (hn : NowhereIn v (c!"`" :: rest) TemplateStop) (i : Nat) (brk : Bool)
    (hb : brk = true → ∀ r, v ≠ c!"{" :: r) :
    templateLoop (v ++ c!"`" :: rest) i brk = some (.tick (i + v.length)) := by
  induction v generalizing i brk with
  | nil => simp [templateLoop]
  | cons x v ih =>
    obtain ⟨h1, h2⟩ := nowhereIn_cons.1 hn
    simp only [TemplateStop, List.cons_append, List.cons_prefix_cons, List.nil_prefix, and_true,
      not_or] at h1
    have hx : ¬ (x = c!"{" ∧ brk = true) := by
      rintro ⟨rfl, hbr⟩; exact hb hbr v rfl
    have hx2 : ¬ x = c!"`" := fun h => h1.1 h.symm
    rw [List.cons_append, templateLoop, if_neg hx, if_neg hx2]
    split
    · rename_i hd
      rw [ih h2 (i + 1) true]
      · simp; omega
      · rintro - r rfl
        apply h1.2
        simp [hd]
    · rw [ih h2 (i + 1) false (by simp)]
      simp; omega

theorem templateLoop_curly {v rest : Bytes}
    (hn : NowhereIn v (c!"$" :: c!"{" :: rest) TemplateStop) (i : Nat) (brk : Bool)
    (hb : brk = true → ∀ r, v ≠ c!"{" :: r) :
    templateLoop (v ++ c!"$" :: c!"{" :: rest) i brk = some (.curly (i + v.length + 1)) := by
  induction v generalizing i brk with
  | nil => simp [templateLoop]
  | cons x v ih =>
    obtain ⟨h1, h2⟩ := nowhereIn_cons.1 hn
    simp only [TemplateStop, List.cons_append, List.cons_prefix_cons, List.nil_prefix, and_true,
      not_or] at h1
    have hx : ¬ (x = c!"{" ∧ brk = true) := by
      rintro ⟨rfl, hbr⟩; exact hb hbr v rfl
    have hx2 : ¬ x = c!"`" := fun h => h1.1 h.symm
    rw [List.cons_append, templateLoop, if_neg hx, if_neg hx2]
    split
    · rename_i hd
      rw [ih h2 (i + 1) true]
      · simp; omega
      · rintro - r rfl
        apply h1.2
        simp [hd]
    · rw [ih h2 (i + 1) false (by simp)]
      simp; omega

theorem templateLoop_none {v : Bytes}
    (hn : NowhereIn v [] TemplateStop) (i : Nat) (brk : Bool)
    (hb : brk = true → ∀ r, v ≠ c!"{" :: r) : templateLoop v i brk = none := by
  induction v generalizing i brk with
  | nil => simp [templateLoop]
  | cons x v ih =>
    obtain ⟨h1, h2⟩ := nowhereIn_cons.1 hn
    simp only [TemplateStop, List.cons_prefix_cons, List.nil_prefix, and_true,
      not_or, List.append_nil] at h1
    have hx : ¬ (x = c!"{" ∧ brk = true) := by
      rintro ⟨rfl, hbr⟩; exact hb hbr v rfl
    have hx2 : ¬ x = c!"`" := fun h => h1.1 h.symm
    rw [templateLoop, if_neg hx, if_neg hx2]
    split
    · rename_i hd
      rw [ih h2 (i + 1) true]
      rintro - r rfl
      apply h1.2
      simp [hd]
    · rw [ih h2 (i + 1) false (by simp)]

/-! ## Comments -/

theorem blockCommentLoop_some {v rest : Bytes}
    (hn : NowhereIn v (b!"*/" ++ rest) (b!"*/" <+: ·)) (i : Nat) (brk : Bool)
    (hb : brk = true → ∀ r, v ≠ c!"/" :: r) :
    blockCommentLoop (v ++ (b!"*/" ++ rest)) i brk = some (i + v.length + 1) := by
  induction v generalizing i brk with
  | nil => simp [blockCommentLoop]
  | cons x v ih =>
    obtain ⟨h1, h2⟩ := nowhereIn_cons.1 hn
    have hx : ¬ (x = c!"/" ∧ brk = true) := by
      rintro ⟨rfl, hbr⟩; exact hb hbr v rfl
    rw [List.cons_append, blockCommentLoop, if_neg hx]
    split
    · rename_i hd
      subst hd
      rw [ih h2 (i + 1) true]
      · simp; omega
      · rintro - r rfl
        apply h1
        simp
    · rw [ih h2 (i + 1) false (by simp)]
      simp; omega

theorem blockCommentLoop_none {v : Bytes}
    (hn : NowhereIn v [] (b!"*/" <+: ·)) (i : Nat) (brk : Bool)
    (hb : brk = true → ∀ r, v ≠ c!"/" :: r) :
    blockCommentLoop v i brk = none := by
  induction v generalizing i brk with
  | nil => simp [blockCommentLoop]
  | cons x v ih =>
    obtain ⟨h1, h2⟩ := nowhereIn_cons.1 hn
    have hx : ¬ (x = c!"/" ∧ brk = true) := by
      rintro ⟨rfl, hbr⟩; exact hb hbr v rfl
    rw [blockCommentLoop, if_neg hx]
    split
    · rename_i hd
      subst hd
      rw [ih h2 (i + 1) true]
      rintro - r rfl
      apply h1
      simp
    · rw [ih h2 (i + 1) false (by simp)]

theorem startsLSPS_iff (s : Bytes) :
    startsLSPS s = true ↔ lineSeparator <+: s ∨ paragraphSeparator <+: s := by
  simp only [startsLSPS, startsWith, Bool.or_eq_true, List.isPrefixOf_iff_prefix, NS_LS, NS_PS,
    lineSeparator, paragraphSeparator]
  exact Or.comm

theorem startsLine_iff (b : UInt8) (s : Bytes) :
    StartsLine (b :: s) ↔ (b = 0x0D ∨ b = 0x0A) ∨ (b = 0xE2 ∧ startsLSPS (b :: s) = true) := by
  rw [startsLSPS_iff]
  simp only [StartsLine, lineSeparator, paragraphSeparator, List.cons_prefix_cons, List.nil_prefix,
    and_true]
  constructor
  · rintro (rfl | rfl | ⟨rfl, h⟩ | ⟨rfl, h⟩) <;> simp [*]
  · rintro ((rfl | rfl) | ⟨rfl, h⟩) <;> simp_all

theorem lineCommentLoop_some {v e : Bytes} (hn : NowhereIn v e StartsLine) (he : e ≠ [])
    (hl : StartsLine e) (i : Nat) : lineCommentLoop (v ++ e) i = i + v.length := by
  induction v generalizing i with
  | nil =>
    cases e with
    | nil => simp at he
    | cons b e =>
      rw [startsLine_iff] at hl
      simp only [List.nil_append, lineCommentLoop]
      rcases hl with h | h
      · rw [if_pos h]; rfl
      · split
        · rfl
        · rfl
  | cons x v ih =>
    obtain ⟨h1, h2⟩ := nowhereIn_cons.1 hn
    rw [List.cons_append, startsLine_iff, not_or] at h1
    rw [List.cons_append, lineCommentLoop, if_neg h1.1, if_neg h1.2, ih h2]
    simp; omega

theorem lineCommentLoop_none {v : Bytes} (hn : NowhereIn v [] StartsLine) (i : Nat) :
    lineCommentLoop v i = 0 := by
  induction v generalizing i with
  | nil => rfl
  | cons x v ih =>
    obtain ⟨h1, h2⟩ := nowhereIn_cons.1 hn
    rw [List.append_nil, startsLine_iff, not_or] at h1
    rw [lineCommentLoop, if_neg h1.1, if_neg h1.2, ih h2]

/-! ## Regular expressions -/

theorem regexLoop_class {c rest : Bytes} (h : ClassBody c) (i : Nat) :
    regexLoop (c ++ c!"]" :: rest) i false true = regexLoop rest (i + c.length + 1) false false := by
  induction h generalizing i with
  | nil => simp [regexLoop]
  | esc b c _ ih =>
    rw [List.cons_append, List.cons_append, regexLoop, if_neg (by simp), if_pos rfl, regexLoop,
      if_pos rfl, ih]
    simp; congr 1; omega
  | char b c h1 h2 _ ih =>
    rw [List.cons_append, regexLoop, if_neg (by simp), if_neg h1, if_neg (by simp),
      if_neg (by simp), if_neg (by simp [h2]), ih]
    simp; congr 1; omega

theorem regexLoop_body {v rest : Bytes} (h : RegexBody v) (i : Nat) :
    regexLoop (v ++ c!"/" :: rest) i false false = some (i + v.length) := by
  induction h generalizing i with
  | nil => simp [regexLoop]
  | esc b v _ ih =>
    rw [List.cons_append, List.cons_append, regexLoop, if_neg (by simp), if_pos rfl, regexLoop,
      if_pos rfl, ih]
    simp; omega
  | cls c v hc _ ih =>
    rw [List.cons_append, regexLoop, if_neg (by simp), if_neg (by decide), if_neg (by simp),
      if_pos (by simp)]
    rw [List.append_assoc, List.cons_append, regexLoop_class hc, ih]
    simp; omega
  | char b v h1 h2 h3 _ ih =>
    rw [List.cons_append, regexLoop, if_neg (by simp), if_neg h1, if_neg (by simp [h2]),
      if_neg (by simp [h3]), if_neg (by simp), ih]
    simp; omega

/-- What the scanner is in the middle of: a prefix of an element of a regular expression. -/
theorem regexLoop_complete (s : Bytes) : ∀ (i k : Nat),
    (regexLoop s i false false = some k → ∃ v rest, s = v ++ c!"/" :: rest ∧ RegexBody v ∧
      k = i + v.length) ∧
    (regexLoop s i false true = some k → ∃ c v rest, s = c ++ c!"]" :: v ++ c!"/" :: rest ∧
      ClassBody c ∧ RegexBody v ∧ k = i + c.length + 1 + v.length) := by
  induction hn : s.length using Nat.strongRecOn generalizing s with
  | ind n ih =>
    intro i k
    subst hn
    cases s with
    | nil => simp [regexLoop]
    | cons b s =>
      constructor
      · intro h
        rw [regexLoop, if_neg (by simp)] at h
        split at h
        · -- escape
          rename_i hb; subst hb
          cases s with
          | nil => simp [regexLoop] at h
          | cons x s =>
            rw [regexLoop, if_pos rfl] at h
            obtain ⟨v, rest, rfl, hv, rfl⟩ := (ih _ (by simp; omega) s rfl _ k).1 h
            exact ⟨_, rest, by simp, .esc x v hv, by simp; omega⟩
        · rename_i hb
          split at h
          · rename_i h2
            simp only [Option.some.injEq] at h
            exact ⟨[], s, by simp [h2.1], .nil, by simp [h]⟩
          · rename_i h2
            split at h
            · rename_i h3
              obtain ⟨c, v, rest, rfl, hc, hv, rfl⟩ := (ih _ (by simp) s rfl _ k).2 h
              refine ⟨c!"[" :: (c ++ c!"]" :: v), rest, by simp [h3.1], .cls c v hc hv, ?_⟩
              simp; omega
            · rename_i h3
              rw [if_neg (by simp)] at h
              obtain ⟨v, rest, rfl, hv, rfl⟩ := (ih _ (by simp) s rfl _ k).1 h
              refine ⟨b :: v, rest, by simp, .char b v hb ?_ ?_ hv, by simp; omega⟩
              · simpa using h2
              · simpa using h3
      · intro h
        rw [regexLoop, if_neg (by simp)] at h
        split at h
        · rename_i hb; subst hb
          cases s with
          | nil => simp [regexLoop] at h
          | cons x s =>
            rw [regexLoop, if_pos rfl] at h
            obtain ⟨c, v, rest, rfl, hc, hv, rfl⟩ := (ih _ (by simp; omega) s rfl _ k).2 h
            exact ⟨_, v, rest, by simp, .esc x c hc, hv, by simp; omega⟩
        · rename_i hb
          rw [if_neg (by simp), if_neg (by simp)] at h
          split at h
          · rename_i h3
            obtain ⟨v, rest, rfl, hv, rfl⟩ := (ih _ (by simp) s rfl _ k).1 h
            exact ⟨[], v, rest, by simp [h3.1], .nil, hv, by simp⟩
          · rename_i h3
            obtain ⟨c, v, rest, rfl, hc, hv, rfl⟩ := (ih _ (by simp) s rfl _ k).2 h
            refine ⟨b :: c, v, rest, by simp, .char b c hb ?_ hc, hv, by simp; omega⟩
            simpa using h3

theorem flagLoop_eq (v rest : Bytes) (hv : ∀ b ∈ v, 0x61 ≤ b ∧ b ≤ 0x7A)
    (hr : ∀ b r, rest = b :: r → ¬ (0x61 ≤ b ∧ b ≤ 0x7A)) (n : Nat) :
    flagLoop (v ++ rest) n = n + v.length := by
  induction v generalizing n with
  | nil =>
    cases rest with
    | nil => rfl
    | cons b r => simp only [List.nil_append, flagLoop]; rw [if_neg (hr b r rfl)]; simp
  | cons b v ih =>
    rw [List.cons_append, flagLoop, if_pos (hv b (by simp)), ih (fun x hx => hv x (by simp [hx]))]
    simp; omega

end Jsparse
