import Verif.Model.Tokenizer
import Verif.Spec.Lexical
import Verif.Proofs.Utf8
/-! # Case analysis of `read_next` -/

namespace Jsparse

open Spec

/-- A text on which `read_next` returns the punctuator `p` by simple spelling. -/
structure SimplePunct (p : Punct) (s : Bytes) : Prop where
  pre : spelling p <+: s
  longest : ∀ q, q ≠ .lAngleExclamDashDash → spelling q <+: s →
    (spelling q).length ≤ (spelling p).length
  neSlash : p ≠ .slash
  neSlashEq : p ≠ .slashEq
  neCurly : p ≠ .curlyClose
  neHtml : p ≠ .lAngleExclamDashDash
  period : p = .period → ∀ b rest, s = c!"." :: b :: rest → isDigit b = false

/-- The bytes at which `read_next` does something other than `tok_ident`, whatever follows. -/
def special (b : UInt8) : Bool :=
  b = c!"{" || b = c!"(" || b = c!")" || b = c!"[" || b = c!"]" || b = c!";" || b = c!","
  || b = c!"?" || b = c!":" || b = c!"~" || b = c!"." || b = c!"<" || b = c!">" || b = c!"="
  || b = c!"!" || b = c!"+" || b = c!"-" || b = c!"&" || b = c!"|" || b = c!"^" || b = c!"%"
  || b = c!"*" || b = c!"/" || b = c!"}" || b = c!"'" || b = c!"\"" || b = c!"`"
  || (c!"0" ≤ b && b ≤ c!"9") || b = 0x09 || b = 0x0B || b = 0x0C || b = 0x20 || b = 0x0A || b = 0x0D

/-- The possible behaviours of `read_next`. -/
inductive Dispatch (checked : Bool) (h : Hint) : Bytes → Except Panic (Token × Nat) → Prop
  | eof : Dispatch checked h [] (.ok (.eof, 0))
  | punct (p s) : SimplePunct p s → Dispatch checked h s (.ok (.punct p, (spelling p).length))
  | fractional (b rest) : isDigit b = true →
      Dispatch checked h (c!"." :: b :: rest) (tokFractional checked (c!"." :: b :: rest))
  | slash (rest) : Dispatch checked h (c!"/" :: rest) (tokSlash (c!"/" :: rest) h)
  | curly (rest) : Dispatch checked h (c!"}" :: rest) (tokCurlyClose (c!"}" :: rest) h)
  | str (q rest) : q = c!"'" ∨ q = c!"\"" → Dispatch checked h (q :: rest) (tokStr q (q :: rest))
  | zero (rest) : Dispatch checked h (c!"0" :: rest) (tokZeroNum checked (c!"0" :: rest))
  | num (b rest) : c!"1" ≤ b ∧ b ≤ c!"9" →
      Dispatch checked h (b :: rest) (tokNum checked (b :: rest))
  | template (rest) : Dispatch checked h (c!"`" :: rest) (tokTemplateHead (c!"`" :: rest))
  | blank (b rest) : Blank b → Dispatch checked h (b :: rest) (.error .unreachable)
  | wide (s) : startsWith s WS_ZWNBSP = true ∨ startsWith s WS_NBSP = true →
      Dispatch checked h s (.error .unreachable)
  | newline (b rest) : b = 0x0A ∨ b = 0x0D → Dispatch checked h (b :: rest) (.ok (.lineTerminator, 1))
  | lsps (s) : startsLSPS s = true → Dispatch checked h s (.ok (.lineTerminator, 3))
  | ident (b rest) : special b = false → startsWith (b :: rest) WS_ZWNBSP = false →
      startsWith (b :: rest) WS_NBSP = false → startsLSPS (b :: rest) = false →
      Dispatch checked h (b :: rest) (tokIdent (b :: rest))

theorem getElem?_zero_some {s : Bytes} {c : UInt8} : s[0]? = some c ↔ ∃ t, s = c :: t := by
  cases s <;> simp

set_option maxHeartbeats 2000000 in
theorem readNext_dispatch (checked : Bool) (s : Bytes) (h : Hint) :
    Dispatch checked h s (readNext checked s h) := by
  unfold readNext
  cases s with
  | nil => exact .eof
  | cons b rest =>
    dsimp only
    repeat' (with_reducible refine iteInduction (motive := Dispatch checked h (b :: rest)) ?_ ?_ <;> intro)
    all_goals try subst b
    all_goals try exact .slash _
    all_goals try exact .curly _
    all_goals try exact .str _ _ ‹_›
    all_goals try exact .zero _
    all_goals try exact .num _ _ ‹_›
    all_goals try exact .template _
    all_goals try exact .blank _ _ ‹_›
    all_goals try exact .newline _ _ ‹_›
    all_goals try exact .wide _ (.inl (And.right ‹_›))
    all_goals try exact .wide _ (.inr (And.right ‹_›))
    all_goals try exact .lsps _ (And.right ‹_›)
    all_goals try simp only [List.getElem?_cons_succ, UInt8.reduceEq, not_false_eq_true] at *
    all_goals try
      (refine Dispatch.punct _ _ ⟨?_, ?_, by decide, by decide, by decide, by decide, ?_⟩
       · rcases rest with _ | ⟨c, _ | ⟨d, _ | ⟨e, t⟩⟩⟩ <;> simp_all [spelling]
       · intro q hq hpre
         obtain ⟨t, ht⟩ := hpre
         cases q <;> simp [spelling] at ht hq ⊢ <;> (try subst ht) <;> simp_all
       · simp)
    · rcases rest with _ | ⟨c, t⟩
      · simp at *
      · exact .fractional _ _ (by rename_i h1; exact h1)
    · refine Dispatch.punct _ _ ⟨?_, ?_, by decide, by decide, by decide, by decide, ?_⟩
      · simp [spelling]
      · intro q hq hpre
        obtain ⟨t, ht⟩ := hpre
        cases q <;> simp [spelling] at ht hq ⊢ <;> (try subst ht) <;> simp_all
      · intro _ b r hr
        simp only [List.cons.injEq, true_and] at hr
        subst hr
        simp_all
    · have hz : ¬ b = 48 := by assumption
      have hn : ¬ (49 ≤ b ∧ b ≤ 57) := by assumption
      have hd : (decide (48 ≤ b) && decide (b ≤ 57)) = false := by
        simp only [UInt8.le_iff_toNat_le, ← UInt8.toNat_inj, Bool.and_eq_false_iff,
          decide_eq_false_iff_not] at *
        simp at *
        omega
      have h1 : ¬ (b = 239 ∧ startsWith (b :: rest) WS_ZWNBSP = true) := by assumption
      have h2 : ¬ (b = 194 ∧ startsWith (b :: rest) WS_NBSP = true) := by assumption
      have h3 : ¬ (b = 226 ∧ startsLSPS (b :: rest) = true) := by assumption
      refine .ident _ _ ?_ ?_ ?_ ?_
      · simp only [special, hd]
        simp_all
      · rw [Bool.eq_false_iff]; intro h
        simp [startsWith, WS_ZWNBSP] at h h1
        exact h1 h.1.symm h.1 h.2
      · rw [Bool.eq_false_iff]; intro h
        simp [startsWith, WS_NBSP] at h h2
        exact h2 h.1.symm h.1 h.2
      · rw [Bool.eq_false_iff]; intro h
        apply h3
        simp [startsLSPS, startsWith, NS_LS, NS_PS] at h ⊢
        rcases h with ⟨rfl, h⟩ | ⟨rfl, h⟩ <;> simp [h]

end Jsparse
