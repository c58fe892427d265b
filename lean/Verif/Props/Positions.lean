import Verif.Props.Ranges
/-!
# C21: lines and columns
-/

namespace Jsparse

open Spec

theorem nextCodePoint_encode (c : Char) :
    ∃ x r, encodeChar c = x :: r ∧ ∀ rest, nextCodePoint x (r ++ rest) = (c.toNat, rest) := by
  have hc := char_bound c
  unfold encodeChar
  dsimp only
  split
  · refine ⟨_, _, rfl, fun rest => ?_⟩
    unfold nextCodePoint
    rw [ofNat_toNat_lt (by omega)]
    simp only [List.nil_append]
    rw [if_pos (by assumption)]
  · split
    · refine ⟨_, _, rfl, fun rest => ?_⟩
      unfold nextCodePoint
      rw [ofNat_toNat_lt (by omega)]
      dsimp only
      rw [if_neg (by omega), if_pos (by omega)]
      simp only [List.cons_append, List.nil_append, List.headD_cons, List.drop_succ_cons, List.drop_zero]
      rw [ofNat_toNat_lt (by omega)]
      congr 1; omega
    · split
      · refine ⟨_, _, rfl, fun rest => ?_⟩
        unfold nextCodePoint
        rw [ofNat_toNat_lt (by omega)]
        dsimp only
        rw [if_neg (by omega), if_neg (by omega), if_pos (by omega)]
        simp only [List.cons_append, List.nil_append, List.headD_cons, List.drop_succ_cons,
          List.drop_zero]
        rw [ofNat_toNat_lt (by omega), ofNat_toNat_lt (by omega)]
        congr 1; omega
      · refine ⟨_, _, rfl, fun rest => ?_⟩
        unfold nextCodePoint
        rw [ofNat_toNat_lt (by omega)]
        dsimp only
        rw [if_neg (by omega), if_neg (by omega), if_neg (by omega)]
        simp only [List.cons_append, List.nil_append, List.headD_cons, List.drop_succ_cons,
          List.drop_zero]
        rw [ofNat_toNat_lt (by omega), ofNat_toNat_lt (by omega), ofNat_toNat_lt (by omega)]
        congr 1; omega

/-- Decoding is the inverse of encoding. -/
theorem codePoints_encode (cs : List Char) : codePoints (encode cs) = cs.map Char.toNat := by
  induction cs with
  | nil => exact codePoints_nil
  | cons c cs ih =>
    obtain ⟨x, r, h1, h2⟩ := nextCodePoint_encode c
    rw [encode_cons, h1, List.cons_append, codePoints]
    simp only [h2, ih, List.map_cons]

/-- The text ends with CR. -/
def endsCr (cs : List Char) : Bool := cs.getLast?.any (·.toNat == 0x0D)

theorem endsCr_snoc (cs : List Char) (c : Char) : endsCr (cs ++ [c]) = (c.toNat == 0x0D) := by
  simp [endsCr]

theorem lineCount_snoc (cs : List Char) (c : Char) :
    lineCount (cs ++ [c]) + (if endsCr cs = true ∧ c.toNat = 0x0A then 1 else 0) =
      lineCount cs + (if isTerminator c then 1 else 0) := by
  induction cs with
  | nil => simp [lineCount, endsCr]
  | cons d cs ih =>
    cases cs with
    | nil =>
      simp only [List.cons_append, List.nil_append, lineCount, endsCr, List.getLast?_singleton,
        Option.any_some, List.head?_cons, List.head?_nil, Option.any_none, Bool.and_false, Bool.not_false,
        Bool.and_true, beq_iff_eq, Nat.add_zero]
      by_cases h1 : d.toNat = 0x0D
      · by_cases h2 : c.toNat = 0x0A
        · simp [h1, h2, isTerminator]
        · have : isTerminator d = true := by simp [isTerminator, h1]
          simp [h1, h2, this]
      · simp [h1]
    | cons e cs =>
      have h1 : endsCr (d :: e :: cs) = endsCr (e :: cs) := by simp [endsCr]
      rw [h1]
      rw [List.cons_append, lineCount, lineCount]
      have h2 : (e :: cs ++ [c]).head? = (e :: cs).head? := rfl
      rw [h2]
      omega

theorem lastColumn_snoc (cs : List Char) (c : Char) :
    lastColumn (cs ++ [c]) = if isTerminator c then 0 else lastColumn cs + 1 := by
  unfold lastColumn
  rw [List.reverse_append]
  simp only [List.reverse_cons, List.reverse_nil, List.nil_append, List.singleton_append,
    List.takeWhile_cons]
  cases isTerminator c <;> simp

@[elab_as_elim]
theorem snoc_induction {α : Type} {motive : List α → Prop} (nil : motive [])
    (append_singleton : ∀ l a, motive l → motive (l ++ [a])) (l : List α) : motive l := by
  have : ∀ l : List α, motive l.reverse := by
    intro l
    induction l with
    | nil => exact nil
    | cons a l ih => rw [List.reverse_cons]; exact append_singleton _ _ ih
  simpa using this l.reverse

/-- What the loop over the characters of a token computes. -/
theorem bump_fold (before : List Char) (k : Nat) (w : List Char) :
    (w.map Char.toNat).foldl bumpChar (lineCount before + k, lastColumn before, false) =
      (lineCount (before ++ w) + k +
        (if endsCr before = true ∧ w.head?.any (·.toNat == 0x0A) = true then 1 else 0),
       lastColumn (before ++ w), endsCr w) := by
  induction w using snoc_induction with
  | nil => simp [endsCr]
  | append_singleton w c ih =>
    rw [List.map_append, List.foldl_append, ih, List.map_cons, List.map_nil, List.foldl_cons,
      List.foldl_nil, ← List.append_assoc, lastColumn_snoc, endsCr_snoc]
    have hl := lineCount_snoc (before ++ w) c
    have hh : (if endsCr before = true ∧ (w ++ [c]).head?.any (·.toNat == 0x0A) = true then 1 else 0) =
        (if endsCr before = true ∧ w.head?.any (·.toNat == 0x0A) = true then 1 else 0) +
        (if w = [] ∧ endsCr before = true ∧ c.toNat = 0x0A then 1 else 0) := by
      cases w <;> simp
    rw [hh]
    have he : endsCr (before ++ w) = if w = [] then endsCr before else endsCr w := by
      cases w with
      | nil => simp
      | cons x w => simp [endsCr, List.getLast?_append, List.getLast?_cons]
    have hw : w = [] → endsCr w = false := by rintro rfl; rfl
    rw [he] at hl
    unfold bumpChar
    dsimp only
    by_cases h1 : c.toNat = 0x0D
    · have ht : isTerminator c = true := by simp [isTerminator, h1]
      simp only [h1, if_true, ht] at hl ⊢
      simp at hl ⊢
      omega
    by_cases h2 : c.toNat = 0x0A
    · have ht : isTerminator c = true := by simp [isTerminator, h2]
      simp only [h2, ht] at hl ⊢
      by_cases hw0 : w = []
      · subst hw0
        simp [endsCr] at hl ⊢
        omega
      · simp only [hw0, if_false, false_and] at hl ⊢
        cases hcr : endsCr w with
        | true =>
          have hcol : lastColumn (before ++ w) = 0 := by
            rcases List.eq_nil_or_concat w with h | ⟨w', x, rfl⟩
            · exact absurd h hw0
            · rw [List.concat_eq_append, endsCr_snoc] at hcr
              rw [List.concat_eq_append, ← List.append_assoc, lastColumn_snoc]
              have : isTerminator x = true := by
                simp only [beq_iff_eq] at hcr
                simp [isTerminator, hcr]
              simp [this]
          simp [hcr, hcol] at hl ⊢
          omega
        | false =>
          simp [hcr] at hl ⊢
          omega
    by_cases h3 : c.toNat = 0x2028 ∨ c.toNat = 0x2029
    · have ht : isTerminator c = true := by rcases h3 with h | h <;> simp [isTerminator, h]
      simp only [h1, h2, h3, if_true, if_false, ht] at hl ⊢
      simp [h1] at hl ⊢
      omega
    · have ht : isTerminator c = false := by
        simp only [not_or] at h3
        simp [isTerminator, h1, h2, h3]
      simp [h1, h2, h3, ht] at hl ⊢
      omega

theorem blanks_chars {bl : Bytes} (h : Blanks bl) :
    ∃ cs : List Char, bl = encode cs ∧ cs.length = bl.length ∧
      ∀ c ∈ cs, isTerminator c = false ∧ c.toNat ≠ 0x0D := by
  induction bl with
  | nil => exact ⟨[], rfl, rfl, by simp⟩
  | cons b bl ih =>
    obtain ⟨cs, h1, h2, h3⟩ := ih fun x hx => h x (by simp [hx])
    have hb : Blank b := h b (by simp)
    have : ∃ c, encodeChar c = [b] ∧ isTerminator c = false ∧ c.toNat ≠ 0x0D := by
      rcases hb with rfl | rfl | rfl | rfl
      · exact ⟨Char.ofNat 0x09, by decide, by decide, by decide⟩
      · exact ⟨Char.ofNat 0x0B, by decide, by decide, by decide⟩
      · exact ⟨Char.ofNat 0x0C, by decide, by decide, by decide⟩
      · exact ⟨Char.ofNat 0x20, by decide, by decide, by decide⟩
    obtain ⟨c, hc1, hc2⟩ := this
    refine ⟨c :: cs, by rw [encode_cons, hc1, ← h1]; rfl, by simp [h2], ?_⟩
    intro x hx
    rcases List.mem_cons.1 hx with rfl | hx
    · exact hc2
    · exact h3 x hx

theorem skip_chars (before cs : List Char) (h : ∀ c ∈ cs, isTerminator c = false ∧ c.toNat ≠ 0x0D) :
    lineCount (before ++ cs) = lineCount before ∧
      lastColumn (before ++ cs) = lastColumn before + cs.length := by
  induction cs using snoc_induction with
  | nil => simp
  | append_singleton cs c ih =>
    obtain ⟨h1, h2⟩ := ih fun x hx => h x (by simp [hx])
    have hc := (h c (by simp)).1
    have hl := lineCount_snoc (before ++ cs) c
    have hlf : c.toNat ≠ 0x0A := by
      intro h0; simp [isTerminator, h0] at hc
    rw [← List.append_assoc, lastColumn_snoc]
    simp [hc, hlf] at hl ⊢
    omega

theorem encode_cr (cs : List Char) : (encode cs).getLast? = some 0x0D ↔ endsCr cs = true := by
  rcases List.eq_nil_or_concat cs with rfl | ⟨cs, c, rfl⟩
  · simp [encode, endsCr]
  · rw [List.concat_eq_append, encode_append, endsCr_snoc]
    have h1 : encode [c] = encodeChar c := by simp [encode]
    rw [h1]
    have hb := char_bound c
    unfold encodeChar
    dsimp only
    have key : ∀ n, n < 256 → 128 ≤ n → ¬ (UInt8.ofNat n = 0x0D) := by
      intro n h1 h2 h
      have := congrArg UInt8.toNat h
      rw [ofNat_toNat_lt h1] at this
      have h13 : (0x0D : UInt8).toNat = 13 := rfl
      omega
    split
    · simp only [List.getLast?_append, List.getLast?_singleton, Option.some_or, Option.some.injEq,
        beq_iff_eq]
      constructor
      · intro h
        have := congrArg UInt8.toNat h
        rw [ofNat_toNat_lt (by omega)] at this
        exact this
      · intro h; rw [h]; rfl
    · have hne : (c.toNat == 13) = false := by simp; omega
      rw [hne]
      have k2 : ∀ (a : Bytes) n, n < 256 → 128 ≤ n →
          ((encode cs ++ (a ++ [UInt8.ofNat n])).getLast? = some 0x0D ↔ false = true) := by
        intro a n h1 h2
        rw [← List.append_assoc, List.getLast?_append, List.getLast?_singleton, Option.some_or]
        simp only [Option.some.injEq, Bool.false_eq_true, iff_false]
        exact key n h1 h2
      split
      · exact k2 [_] _ (by omega) (by omega)
      · split
        · exact k2 [_, _] _ (by omega) (by omega)
        · exact k2 [_, _, _] _ (by omega) (by omega)

theorem encode_lf (cs : List Char) :
    (encode cs).head? = some 0x0A ↔ cs.head?.any (·.toNat == 0x0A) = true := by
  cases cs with
  | nil => simp [encode]
  | cons c cs =>
    obtain ⟨x, r, h1, h2⟩ := nextCodePoint_encode c
    have h3 := h2 []
    rw [encode_cons, h1]
    simp only [List.cons_append, List.head?_cons, Option.some.injEq, Option.any_some, beq_iff_eq]
    constructor
    · rintro rfl
      unfold nextCodePoint at h3
      simp at h3
      exact h3.1.symm
    · intro hc
      have : encodeChar c = [0x0A] := by
        unfold encodeChar
        simp [hc]
      rw [this] at h1
      simp only [List.cons.injEq] at h1
      exact h1.1.symm

/-- One call: the start of the token is off by as many lines as the position before, and the end by one
more if the token starts between CR and LF. -/
theorem position_step {t : Tokenizer} {h : Hint} {tok r t'} (hv : Valid t)
    (hn : t.nextToken h = .ok (tok, r, t')) {k : Nat} (hp : PositionUpTo t.code k t.position) :
    PositionUpTo t.code k r.start ∧
    PositionUpTo t.code (k + if SplitsCrLf t.code r.start.offset then 1 else 0) r.stop := by
  obtain ⟨bl, s, n, hi⟩ := nextToken_ok hn
  obtain ⟨before, after, h1, h2, h3, h4⟩ := hp
  obtain ⟨cs, rfl, hcs, hterm⟩ := blanks_chars hi.blanks
  obtain ⟨hlc, hcol⟩ := skip_chars before cs hterm
  have hu : encode after = encode cs ++ s := by
    have : unread t = encode after := by
      unfold unread
      rw [h1, h2, encode_append, List.drop_left]
    rw [← this]; exact hi.unread
  have hsok : Utf8 s := utf8_skip (hi.unread ▸ hv.unread_utf8) hi.blanks
  obtain ⟨w, hw⟩ := hsok.take hi.bd
  obtain ⟨rest, hrest⟩ := hsok.drop hi.bd
  have hs : s = encode w ++ encode rest := by rw [← hw, ← hrest, List.take_append_drop]
  have hcode : t.code = encode (before ++ cs ++ (w ++ rest)) := by
    rw [h1, encode_append, hu, hs]; simp [encode_append]
  have hstart : r.start.offset = (encode (before ++ cs)).length := by
    rw [hi.start, encode_append, List.length_append]
    simp [skipPos, h2]
  refine ⟨⟨before ++ cs, w ++ rest, hcode, hstart, ?_, ?_⟩, ?_⟩
  · rw [hi.start, hlc]; simp [skipPos, h3]
  · rw [hi.start, hcol, ← hcs]; simp [skipPos, h4, hcs]
  · have hstop := hi.stop
    have hf := bump_fold (before ++ cs) k w
    have hline : r.start.line = lineCount (before ++ cs) + k := by
      rw [hi.start, hlc]; simp [skipPos, h3]
    have hcolumn : r.start.column = lastColumn (before ++ cs) := by
      rw [hi.start, hcol]; simp [skipPos, h4, hcs]
    rw [hw, codePoints_encode, hline, hcolumn, hf] at hstop
    have hsplit : SplitsCrLf t.code r.start.offset ↔
        endsCr (before ++ cs) = true ∧ w.head?.any (·.toNat == 0x0A) = true := by
      have e1 : t.code[r.start.offset]? = s.head? := by
        rw [hcode, hstart, encode_append (before ++ cs), List.getElem?_append_right (Nat.le_refl _),
          Nat.sub_self, encode_append, ← hs, List.head?_eq_getElem?]
      have e2 : s.head? = some 0x0A ↔ w.head?.any (·.toNat == 0x0A) = true := by
        rw [← encode_lf, ← hw]
        constructor
        · intro h0
          cases s with
          | nil => cases h0
          | cons b s =>
            simp only [List.head?_cons, Option.some.injEq] at h0
            subst h0
            have hread := hi.read
            have h5 : readNext t.checked (0x0A :: s) h = .ok (.lineTerminator, 1) := rfl
            rw [h5] at hread
            cases hread
            rfl
        · intro h0
          rw [List.head?_take] at h0
          split at h0
          · cases h0
          · exact h0
      have e3 : (0 < r.start.offset ∧ t.code[r.start.offset - 1]? = some 0x0D) ↔
          endsCr (before ++ cs) = true := by
        rw [← encode_cr, hstart, hcode, encode_append (before ++ cs)]
        generalize encode (before ++ cs) = x
        rcases List.eq_nil_or_concat x with rfl | ⟨x, b, rfl⟩
        · simp
        · rw [List.concat_eq_append]; simp
      unfold SplitsCrLf
      rw [e1, ← and_assoc, e2, e3]
    refine ⟨before ++ cs ++ w, rest, by rw [hcode]; simp, ?_, ?_, ?_⟩
    · rw [hstop]
      have hn : n = (encode w).length := by
        rw [← hw]
        have := isBoundary_le hi.bd
        simp; omega
      rw [encode_append, List.length_append, hstart, hn]
    · rw [hstop]
      simp only
      rw [Nat.add_assoc]
      congr 2
      simp only [hsplit]
    · rw [hstop]

/-- **C21**, exactly: in every run, the columns are right, and the line numbers are too large by the
number of tokens (so far) that start between a CR and a LF. -/
theorem C21_positions_exact {checked : Bool} {code : Bytes} (hu : Utf8 code)
    {toks : List (Token × TokenRange)} {t : Tokenizer}
    (hc : Calls (intoTokenizer checked code) toks t) (i : Nat) (tok : Token) (r : TokenRange)
    (hi : toks[i]? = some (tok, r)) :
    PositionUpTo code (crLfSplits code (toks.take i)) r.start ∧
    PositionUpTo code (crLfSplits code (toks.take (i + 1))) r.stop := by
  have key : ∀ (t t' : Tokenizer) toks, Calls t toks t' → Valid t → t.code = code → ∀ k,
      PositionUpTo code k t.position → ∀ i tok r, toks[i]? = some (tok, r) →
      PositionUpTo code (k + crLfSplits code (toks.take i)) r.start ∧
      PositionUpTo code (k + crLfSplits code (toks.take (i + 1))) r.stop := by
    intro t t' toks hc
    induction hc with
    | nil => simp
    | cons t h tok r t' toks t'' hn _ ih =>
      intro hv ht k hp i tok' r' hm
      subst ht
      obtain ⟨h1, h2⟩ := position_step hv hn hp
      have h3 : ∀ l, crLfSplits t.code ((tok, r) :: l) =
          (if SplitsCrLf t.code r.start.offset then 1 else 0) + crLfSplits t.code l := by
        intro l
        unfold crLfSplits
        rw [List.countP_cons]
        simp only [decide_eq_true_eq]
        omega
      obtain ⟨bl, s, n, hi⟩ := nextToken_ok hn
      cases i with
      | zero =>
        simp only [List.getElem?_cons_zero, Option.some.injEq, Prod.mk.injEq] at hm
        obtain ⟨-, rfl⟩ := hm
        refine ⟨h1, ?_⟩
        rw [List.take_succ_cons, h3]
        exact h2
      | succ i =>
        rw [List.getElem?_cons_succ] at hm
        have hcode : t'.code = t.code := by rw [hi.next]
        have hpos : t'.position = r.stop := by rw [hi.next]
        have := ih (valid_nextToken hv hn) hcode _ (by rw [hpos]; exact h2) i tok' r' hm
        rw [List.take_succ_cons, List.take_succ_cons, h3, h3]
        constructor
        · have := this.1; rwa [Nat.add_assoc] at this
        · have := this.2; rwa [Nat.add_assoc] at this
  have h0 : PositionUpTo code 0 (intoTokenizer checked code).position := by
    obtain ⟨cs, rfl⟩ := hu
    exact ⟨[], cs, rfl, rfl, rfl, rfl⟩
  have := key _ _ _ hc (valid_intoTokenizer checked hu) rfl 0 h0 i tok r hi
  simpa using this

/-- **C21**, the part that holds: if no token starts between a CR and a LF, then the reported lines and
columns are right.  (Missing: texts with CR LF between tokens, for which it is false.) -/
theorem C21_positions_partial {checked : Bool} {code : Bytes} (hu : Utf8 code)
    {toks : List (Token × TokenRange)} {t : Tokenizer}
    (hc : Calls (intoTokenizer checked code) toks t)
    (hs : ∀ tok r, (tok, r) ∈ toks → ¬ SplitsCrLf code r.start.offset) :
    ∀ tok r, (tok, r) ∈ toks → RightPosition code r.start ∧ RightPosition code r.stop := by
  intro tok r hm
  obtain ⟨i, hi⟩ := List.getElem?_of_mem hm
  have hz : ∀ l, l <+: toks → crLfSplits code l = 0 := by
    intro l hl
    unfold crLfSplits
    rw [List.countP_eq_zero]
    rintro ⟨tok, r⟩ hx
    simpa using hs tok r (hl.subset hx)
  have := C21_positions_exact hu hc i tok r hi
  rw [hz _ (List.take_prefix _ _), hz _ (List.take_prefix _ _)] at this
  exact this

/-- CR LF inside of a comment is counted once: in the text `/*CR LF*/x`, the name is on line 1. -/
example : ∃ r1 r2 t, Calls (intoTokenizer true b!"/*\r\n*/x")
      [(.comment .block b!"\r\n", r1), (.ident b!"x", r2)] t ∧
    RightPosition b!"/*\r\n*/x" r2.start ∧ r2.start.line = 1 ∧ r2.start.column = 2 := by
  refine ⟨_, _, _, .cons _ {} _ _ _ _ _ rfl (.cons _ {} _ _ _ _ _ rfl (.nil _)), ?_, by decide +kernel, by decide +kernel⟩
  refine (C21_positions_partial (checked := true) (utf8_ascii (by decide +kernel))
    (.cons _ {} _ _ _ _ _ rfl (.cons _ {} _ _ _ _ _ rfl (.nil _))) ?_ _ _
    (List.mem_cons_of_mem _ (List.mem_singleton.2 rfl))).1
  intro tok r hm
  simp only [List.mem_cons, List.not_mem_nil, or_false, Prod.mk.injEq] at hm
  rcases hm with ⟨-, rfl⟩ | ⟨-, rfl⟩ <;> decide +kernel

/-- **C21** is false: CR LF between tokens counts as two lines.  In the text `CR LF x` the name is
reported on line 2, but it is on line 1 (counting from 0). -/
theorem C21_crlf_counts_twice :
    ∃ r1 r2 r3 t, Calls (intoTokenizer true b!"\r\nx")
      [(.lineTerminator, r1), (.lineTerminator, r2), (.ident b!"x", r3)] t ∧
    r3.start.line = 2 ∧ lineCount "\r\n".toList = 1 :=
  ⟨_, _, _, _, .cons _ {} _ _ _ _ _ rfl (.cons _ {} _ _ _ _ _ rfl (.cons _ {} _ _ _ _ _ rfl (.nil _))),
    by decide +kernel, by decide +kernel⟩

end Jsparse
