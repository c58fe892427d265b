import Verif.Spec.StrValue
import Verif.Props.Tokens
/-!
# C14–C16: string literals
-/

namespace Jsparse

open Spec

/-! ## C14 -/

theorem readNext_str {checked : Bool} {h : Hint} {q : UInt8} (hq : Quote q) (s : Bytes) :
    readNext checked (q :: s) h = tokStr q (q :: s) := by
  rcases hq with rfl | rfl <;> rfl

theorem quote_ahead {t : Tokenizer} {bl s : Bytes} {q : UInt8} (hq : Quote q)
    (hu : unread t = bl ++ q :: s) (hbl : Blanks bl) :
    Ahead t bl (q :: s) ∧ ¬ StartsWide (q :: s) := by
  refine ⟨⟨hu, hbl, noBlankHead_cons ?_⟩, ascii_notWide ?_⟩ <;> rcases hq with rfl | rfl <;> decide

/-- Every body of the loose language is read whole. -/
theorem loose_whole {t : Tokenizer} (hv : Valid t) {bl v rest : Bytes} {q : UInt8} (hq : Quote q)
    (hu : unread t = bl ++ ([q] ++ v ++ [q] ++ rest)) (hbl : Blanks bl) (hb : LooseBody q false v)
    (h : Hint) : Reads t h (.str v) bl ([q] ++ v ++ [q]) := by
  obtain ⟨ha, hw⟩ := quote_ahead (s := v ++ q :: rest) hq (by rw [hu]; simp) hbl
  have h8 := ha.utf8 hv
  have h1 : readNext t.checked (q :: (v ++ q :: rest)) h = .ok (.str v, v.length + 2) := by
    rw [readNext_str hq]; exact tokStr_loose hq hb h8
  have := ha.reads hv hw h1 ((Lexed.str (h := h) q v rest hq hb).boundary h8)
  have h2 : q :: (v ++ q :: rest) = ([q] ++ v ++ [q]) ++ rest := by simp
  rwa [h2, take_append_length _ _ (by simp)] at this

/-- **C14.** A well-formed string literal is read as one token that covers exactly the literal,
whatever follows. -/
theorem C14_string_whole {t : Tokenizer} (hv : Valid t) {bl v rest : Bytes} {q : UInt8} (hq : Quote q)
    (hu : unread t = bl ++ ([q] ++ v ++ [q] ++ rest)) (hbl : Blanks bl) (hb : StrBody q v)
    (h : Hint) : Reads t h (.str v) bl ([q] ++ v ++ [q]) :=
  loose_whole hv hq hu hbl (StrBody.loose hq hb false) h

/-- `'a\'\x41"'` -/
example : Reads (intoTokenizer true b!" 'a\\'\\x41\"';'") {} (.str b!"a\\'\\x41\"") b!" "
    b!"'a\\'\\x41\"'" :=
  C14_string_whole (valid_intoTokenizer true (utf8_ascii (by decide))) (bl := b!" ")
    (v := b!"a\\'\\x41\"") (rest := b!";'") (q := c!"'") (.inl rfl) rfl (by decide)
    (.char _ _ (by decide) (by decide) (by decide) <| .single _ _ (.inl rfl) <|
      .hex _ _ _ (.inl (by decide)) (.inl (by decide)) <|
      .char _ _ (by decide) (by decide) (by decide) .nil) {}

/-! ## C15 -/

/-- The texts read as a string token are exactly those of the loose language. -/
theorem str_token {t : Tokenizer} (hv : Valid t) {h : Hint} {v skip w : Bytes}
    (hr : Reads t h (.str v) skip w) (hw : w ≠ []) :
    ∃ q, Quote q ∧ w = [q] ++ v ++ [q] ∧ LooseBody q false v := by
  obtain ⟨bl, s, ha⟩ := ahead t
  obtain ⟨rfl, -, n, hl, hle, rfl, -⟩ := ha.inv hv hr
  cases hl with
  | str q v rest hq hb =>
    refine ⟨q, hq, ?_, hb⟩
    have h2 : q :: (v ++ q :: rest) = ([q] ++ v ++ [q]) ++ rest := by simp
    rw [h2, take_append_length _ _ (by simp)]
  | strOpen q s hq hs => simp at hw

/-- **C15**, what is accepted exactly: a string token that covers some text covers a quote, a body of
the loose language (see there how it differs from ECMAScript), and the same quote; and every such text
is read as a string token. -/
theorem C15_accepted_iff {t : Tokenizer} (hv : Valid t) {bl s : Bytes} (hu : unread t = bl ++ s)
    (hbl : Blanks bl) (h : Hint) (v w : Bytes) (hw : w ≠ []) :
    Reads t h (.str v) bl w ↔
      w <+: s ∧ ∃ q, Quote q ∧ w = [q] ++ v ++ [q] ∧ LooseBody q false v := by
  constructor
  · intro hr
    refine ⟨?_, str_token hv hr hw⟩
    obtain ⟨r, t', -, h2, -⟩ := hr
    rw [hu, List.append_assoc] at h2
    exact ⟨_, (List.append_cancel_left h2).symm⟩
  · rintro ⟨⟨rest, rfl⟩, q, hq, rfl, hb⟩
    exact loose_whole hv hq hu hbl hb h

/-- The escapes that the tokenizer does not check occur nowhere in the body. -/
def Spec.NoLongEscape (v : Bytes) : Prop :=
  ¬ b!"\\x" <:+: v ∧ ¬ b!"\\u" <:+: v ∧ ¬ b!"\\\r" <:+: v

theorem noLong_tail {a v : Bytes} (h : NoLongEscape (a ++ v)) : NoLongEscape v :=
  ⟨fun g => h.1 (g.trans (List.suffix_append a v).isInfix),
   fun g => h.2.1 (g.trans (List.suffix_append a v).isInfix),
   fun g => h.2.2 (g.trans (List.suffix_append a v).isInfix)⟩

theorem LooseBody.strict {q : UInt8} {ig : Bool} {v : Bytes} (h : LooseBody q ig v) (hig : ig = false)
    (hn : NoLongEscape v) : StrBody q v := by
  induction h with
  | nil => exact .nil
  | char ig b v h1 h2 h3 _ ih => exact .char b v h1 h2 h3 (ih hig (noLong_tail (a := [b]) hn))
  | lf v _ ih => cases hig
  | single ig b v hb _ ih =>
    have := ih hig (noLong_tail (a := [_, b]) hn)
    rcases hb with hb | rfl | rfl
    · exact .single b v hb this
    · exact .zero v this
    · exact .contLf v this
  | hex ig a v _ ih => exact absurd ⟨[], a :: v, rfl⟩ hn.1
  | unicode ig a b c v _ _ ih => exact absurd ⟨[], a :: b :: c :: v, rfl⟩ hn.2.1
  | long ig ds v _ _ ih => exact absurd ⟨[], _, rfl⟩ hn.2.1
  | cr ig v _ ih => exact absurd ⟨[], _, rfl⟩ hn.2.2
  | ls ig v _ ih => exact .contLs v (ih hig (noLong_tail (a := _ :: lineSeparator) hn))
  | ps ig v _ ih => exact .contPs v (ih hig (noLong_tail (a := _ :: paragraphSeparator) hn))

/-- **C15**, the part that holds: a string token without `\x`, `\u` and backslash–CR covers a
well-formed literal.  (Missing: literals with those escapes, for which it is false.) -/
theorem C15_wellformed_partial {t : Tokenizer} (hv : Valid t) {h : Hint} {v skip w : Bytes}
    (hr : Reads t h (.str v) skip w) (hw : w ≠ []) (hn : NoLongEscape v) :
    ∃ q, Quote q ∧ w = [q] ++ v ++ [q] ∧ StrBody q v := by
  obtain ⟨q, hq, h1, h2⟩ := str_token hv hr hw
  exact ⟨q, hq, h1, LooseBody.strict h2 rfl hn⟩

example : ∃ q, Quote q ∧ b!"'a\\\nb'" = [q] ++ b!"a\\\nb" ++ [q] ∧ StrBody q b!"a\\\nb" :=
  C15_wellformed_partial (t := intoTokenizer true b!"'a\\\nb'") (h := {}) (skip := [])
    (valid_intoTokenizer true (utf8_ascii (by decide))) ⟨_, _, rfl, rfl, rfl, rfl, rfl, rfl, rfl⟩
    (by decide) ⟨by decide, by decide, by decide⟩

/-- **C15** is false: `'\xzz'`, `'\u{z}'`, and a raw line feed after a backslash–CR continuation are
read as string tokens although they are not well-formed. -/
theorem C15_malformed_accepted :
    (Reads (intoTokenizer true b!"'\\xzz'") {} (.str b!"\\xzz") [] b!"'\\xzz'" ∧
      ¬ StrBody c!"'" b!"\\xzz") ∧
    (Reads (intoTokenizer true b!"'\\u{z}'") {} (.str b!"\\u{z}") [] b!"'\\u{z}'" ∧
      ¬ StrBody c!"'" b!"\\u{z}") ∧
    (Reads (intoTokenizer true b!"'\\\ra\n'") {} (.str b!"\\\ra\n") [] b!"'\\\ra\n'" ∧
      ¬ StrBody c!"'" b!"\\\ra\n") := by
  refine ⟨⟨⟨_, _, rfl, rfl, rfl, rfl, rfl, rfl, rfl⟩, ?_⟩,
    ⟨⟨_, _, rfl, rfl, rfl, rfl, rfl, rfl, rfl⟩, ?_⟩, ⟨⟨_, _, rfl, rfl, rfl, rfl, rfl, rfl, rfl⟩, ?_⟩⟩
  · intro h
    generalize hx : b!"\\xzz" = x at h
    cases h with
    | nil => cases hx
    | char b v h1 h2 => cases hx; exact h2 rfl
    | single b v h1 => cases hx; revert h1; unfold SingleEscape; decide
    | hex a b v h1 => cases hx; revert h1; unfold HexDigit; decide
    | zero | unicode | long | contLf | contCr | contCrLf | contLs | contPs => cases hx
  · intro h
    generalize hx : b!"\\u{z}" = x at h
    cases h with
    | nil => cases hx
    | char b v h1 h2 => cases hx; exact h2 rfl
    | single b v h1 => cases hx; revert h1; unfold SingleEscape; decide
    | unicode a b c d v => cases hx
    | long ds v h0 h1 =>
      cases ds with
      | nil => exact h0 rfl
      | cons d ds =>
        have h2 := h1 d (by simp)
        simp only [List.cons_append, List.cons.injEq] at hx
        rw [← hx.2.2.2.1] at h2
        revert h2; unfold HexDigit; decide
    | zero | hex | contLf | contCr | contCrLf | contLs | contPs => cases hx
  · intro h
    generalize hx : b!"\\\ra\n" = x at h
    have key : ¬ StrBody c!"'" b!"a\n" := by
      intro h
      cases h with
      | char b v h1 h2 h3 h4 =>
        cases h4 with
        | char b v h1 h2 h3 h4 => exact h3 (by decide)
    cases h with
    | nil => cases hx
    | char b v h1 h2 => cases hx; exact h2 rfl
    | single b v h1 => cases hx; revert h1; unfold SingleEscape; decide
    | contCr v h1 => cases hx; exact key h1
    | zero | hex | unicode | long | contLf | contCrLf | contLs | contPs => cases hx

/-! ## C16 -/

/-- **C16.** The value of a string token is the raw text between the quotes. -/
theorem C16_raw_value {t : Tokenizer} (hv : Valid t) {h : Hint} {v skip w : Bytes}
    (hr : Reads t h (.str v) skip w) (hw : w ≠ []) : ∃ q, Quote q ∧ w = [q] ++ v ++ [q] := by
  obtain ⟨q, hq, h1, -⟩ := str_token hv hr hw
  exact ⟨q, hq, h1⟩

theorem encodeChar_len (c : Char) : (encodeChar c).length ≤ 4 := by
  unfold encodeChar
  dsimp only
  split
  · simp
  · split
    · simp
    · split <;> simp

theorem encodeChar_len2 (c : Char) (h : c.toNat < 0x800) : (encodeChar c).length ≤ 2 := by
  unfold encodeChar
  dsimp only
  split
  · simp
  · simp

theorem hexVal_lt : ∀ b, HexDigit b → hexVal b < 16 := by
  apply forall_byte
  unfold HexDigit
  decide +kernel

/-- A denoted text is never longer than the body, and shorter if there is a backslash. -/
theorem Denotes.length {q : UInt8} {v w : Bytes} (h : Denotes q v w) :
    w.length ≤ v.length ∧ (c!"\\" ∈ v → w.length < v.length) := by
  induction h with
  | nil => simp
  | char b v w h1 h2 h3 _ ih =>
    simp only [List.length_cons, List.mem_cons]
    refine ⟨by omega, ?_⟩
    rintro (h | h)
    · exact absurd h.symm h2
    · have := ih.2 h; omega
  | hex a b v w c ha hb hc _ ih =>
    have := encodeChar_len2 c (by
      rw [hc]; have := hexVal_lt a ha; have := hexVal_lt b hb; simp [hexNat]; omega)
    simp only [List.length_cons, List.length_append]
    exact ⟨by omega, fun _ => by omega⟩
  | unicode _ _ _ _ v w c _ _ _ _ _ _ ih =>
    have := encodeChar_len c
    simp only [List.length_cons, List.length_append]
    exact ⟨by omega, fun _ => by omega⟩
  | long ds v w c hds _ _ _ ih =>
    have := encodeChar_len c
    have := List.length_pos_iff.2 hds
    simp only [List.length_cons, List.length_append]
    exact ⟨by omega, fun _ => by omega⟩
  | single | zero =>
    simp only [List.length_cons]
    exact ⟨by omega, fun _ => by omega⟩
  | contLf | contCr | contCrLf =>
    simp only [List.length_cons]
    exact ⟨by omega, fun _ => by omega⟩
  | contLs | contPs =>
    simp only [List.length_cons, List.length_append]
    exact ⟨by omega, fun _ => by omega⟩

theorem Denotes.plain {q : UInt8} {v w : Bytes} (h : Denotes q v w) (hb : c!"\\" ∉ v) : w = v := by
  induction h with
  | nil => rfl
  | char b v w h1 h2 h3 _ ih =>
    simp only [List.mem_cons, not_or] at hb
    rw [ih hb.2]
  | _ => simp at hb

/-- **C16.** For a well-formed literal that denotes `d`, the value of the token is the denoted text
exactly if the literal contains no backslash: the property holds for literals without escapes
(the part that is missing is the one with escapes) and fails for all others. -/
theorem C16_value_right_iff_partial {t : Tokenizer} (hv : Valid t) {bl v rest d : Bytes} {q : UInt8}
    (hq : Quote q) (hu : unread t = bl ++ ([q] ++ v ++ [q] ++ rest)) (hbl : Blanks bl)
    (hb : StrBody q v) (hd : Denotes q v d) (h : Hint) :
    ∃ value w, Reads t h (.str value) bl w ∧ (value = d ↔ c!"\\" ∉ v) := by
  refine ⟨v, _, C14_string_whole hv hq hu hbl hb h, ?_⟩
  constructor
  · rintro rfl hm
    exact absurd ((Denotes.length hd).2 hm) (by omega)
  · intro hm
    exact (Denotes.plain hd hm).symm

/-- **C16** is false: the literal `'\n'` denotes a line feed, but the value is a backslash and `n`. -/
theorem C16_escapes_not_decoded :
    Denotes c!"'" b!"\\n" b!"\n" ∧
      Reads (intoTokenizer true b!"'\\n'") {} (.str b!"\\n") [] b!"'\\n'" :=
  ⟨.single c!"n" [] [] (.inr (.inr (.inr (.inr (.inr (.inl rfl)))))) .nil,
    ⟨_, _, rfl, rfl, rfl, rfl, rfl, rfl, rfl⟩⟩

example : ∃ value w, Reads (intoTokenizer true b!"'ab'") {} (.str value) [] w ∧
    (value = b!"ab" ↔ c!"\\" ∉ b!"ab") :=
  C16_value_right_iff_partial (valid_intoTokenizer true (utf8_ascii (by decide))) (bl := [])
    (v := b!"ab") (rest := []) (q := c!"'") (.inl rfl) rfl (by decide)
    (.char _ _ (by decide) (by decide) (by decide) <| .char _ _ (by decide) (by decide) (by decide) .nil)
    (.char _ _ _ (by decide) (by decide) (by decide) <|
      .char _ _ _ (by decide) (by decide) (by decide) .nil) {}

end Jsparse
