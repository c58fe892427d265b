import Verif.Proofs.PrintedText
import Verif.Proofs.Forward
import Verif.Proofs.GapScan
import Verif.Proofs.Numbers
/-!
# The text of a printed script is UTF-8
-/

namespace Jsparse.Ast.Printed

open Jsparse.Spec

theorem num_utf8 {v : NumExpr} {t : Bytes} (h : Lexeme (.num v) t) : Utf8 t := by
  have le : ∀ b k : UInt8, b ≤ k → k < 0x80 → b < 0x80 := by
    intro b k h1 h2
    simp only [UInt8.le_iff_toNat_le, UInt8.lt_iff_toNat_lt] at *
    omega
  have hex : ∀ b, HexDigit b → b < 0x80 := by
    rintro b (h | h | h) <;> exact le b _ h.2 (by decide)
  have radix : ∀ {x : UInt8} {ds : Bytes}, x < 0x80 → (∀ b ∈ ds, b < 0x80) → Utf8 (c!"0" :: x :: ds) := by
    intro x ds hx hd
    refine utf8_ascii fun b hb => ?_
    simp only [List.mem_cons] at hb
    rcases hb with rfl | rfl | hb
    · decide
    · exact hx
    · exact hd b hb
  cases h with
  | @decimal d _ hd _ _ _ =>
    refine utf8_ascii fun b hb => ?_
    simp only [Decimal.text, List.mem_append] at hb
    rcases hb with (hb | hb) | hb
    · exact digit_ascii (hd.int b hb)
    · cases hf : d.frac with
      | none => simp [hf] at hb
      | some f =>
        simp only [hf, Option.elim_some, List.mem_cons] at hb
        rcases hb with rfl | hb
        · decide
        · exact digit_ascii (hd.frac f hf b hb)
    · cases he : d.exp with
      | none => simp [he] at hb
      | some e =>
        simp only [he, Option.elim_some] at hb
        exact exponent_ascii (hd.exp e he) b hb
  | octal hx hd =>
    refine radix ?_ fun b hb => le _ _ (hd b hb).2 (by decide)
    rcases hx with rfl | rfl <;> decide
  | binary hx hd =>
    refine radix ?_ fun b hb => le _ _ (hd b hb).2 (by decide)
    rcases hx with rfl | rfl <;> decide
  | hex hx hd =>
    refine radix ?_ fun b hb => hex _ (hd b hb)
    rcases hx with rfl | rfl <;> decide

theorem kw_utf8 (k : Keyword) : Utf8 k.text := utf8_ascii (by cases k <;> decide)

theorem punct_utf8 (p : Punct) : Utf8 p.text := utf8_ascii (by cases p <;> decide)

theorem ident_utf8 {n : Bytes} (h : Lexeme (.ident n) n) : Utf8 n := by
  cases h with
  | name h hw =>
    refine utf8_ascii fun b hb => identPart_ascii ?_
    rcases List.mem_cons.1 hb with rfl | hb
    · exact .inl h
    · exact hw b hb

theorem written_utf8 {ps : List Piece} {u : List Tok} (h : Written ps u) : ∀ p ∈ ps, Utf8 p.text := by
  induction h with
  | nil => simp
  | kw k _ ih => exact List.forall_mem_cons.2 ⟨kw_utf8 k, ih⟩
  | ident h _ ih => exact List.forall_mem_cons.2 ⟨ident_utf8 h, ih⟩
  | num h _ ih => exact List.forall_mem_cons.2 ⟨num_utf8 h, ih⟩
  | str _ h _ ih =>
    exact List.forall_mem_cons.2 ⟨punct_utf8 .sQuote, List.forall_mem_cons.2 ⟨h,
      List.forall_mem_cons.2 ⟨punct_utf8 .sQuote, ih⟩⟩⟩
  | punct _ _ _ ih => exact List.forall_mem_cons.2 ⟨punct_utf8 _, ih⟩
  | joined _ _ _ _ ih => exact List.forall_mem_cons.2 ⟨punct_utf8 _, List.forall_mem_cons.2
      ⟨punct_utf8 .eq, ih⟩⟩

theorem print_utf8 {xs : List Piece} {u : List Tok} (h : Written (strip xs) u) :
    Utf8 (xs.flatMap Piece.text) := by
  have hp : ∀ p ∈ xs, Utf8 p.text := by
    intro p hp
    by_cases hs : p = .space
    · subst hs
      exact utf8_ascii (by decide)
    · exact written_utf8 h p (by simp [strip, hp, hs])
  clear h
  induction xs with
  | nil => exact Utf8.nil
  | cons x xs ih => exact (hp x (by simp)).append (ih fun p h => hp p (by simp [h]))

end Jsparse.Ast.Printed
