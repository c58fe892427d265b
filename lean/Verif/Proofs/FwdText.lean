import Verif.Proofs.FwdAll
import Verif.Proofs.GapScan
import Verif.Proofs.Renumber
import Verif.Props.Numbers
import Verif.Props.ParserTermination
import Verif.Props.Strings
import Verif.Spec.Text
/-!
# From the text to the tokens
-/

namespace Jsparse.Forward

open P Spec

theorem scan_of_reads {c : Bool} {h : Hint} {w rest : Bytes} {tok : Token} (f : Bool)
    (hr : Reads (intoTokenizer c (w ++ rest)) h tok [] w) (hi : ¬ Insignificant tok) :
    Scan c h (w ++ rest) f (f, tok) w rest := by
  obtain ⟨rg, t', h1, h2, h3, h4, h5, h6, h7⟩ := hr
  obtain ⟨w', bl, s, n, ho, -, -, h8, h9, h10, -⟩ := one_of_nextToken h1
  have hu : unread (intoTokenizer c (w ++ rest)) = w ++ rest := rfl
  rw [hu] at h2 ho
  have hrest : unread t' = rest := by
    simp only [List.nil_append] at h2
    exact (List.append_cancel_left h2).symm
  have hw : w' = w := by
    have h11 : bl = [] := List.length_eq_zero_iff.1 (by simp only [List.length_nil] at h6; omega)
    have h12 : w'.length = w.length := by omega
    have := ho.text
    subst h11
    rw [ho.spelled, show s = w ++ rest from this.symm]
    rw [ho.spelled, show s = w ++ rest from this.symm] at h12
    rw [List.length_take] at h12
    have hle := isBoundary_le ho.bd
    rw [show s = w ++ rest from this.symm] at hle
    rw [Nat.min_eq_left hle] at h12
    rw [h12, List.take_left]
  rw [hw, hrest] at ho
  exact .tok ho hi

theorem piece_nowhere {v r : Bytes} {d : UInt8} (h : PieceBody v) (hd : d ≠ c!"{") :
    NowhereIn v (d :: r) TemplateStop := by
  rintro a b rfl hb (⟨e, he⟩ | ⟨e, he⟩)
  · cases b with
    | nil => exact hb rfl
    | cons x b =>
      obtain rfl : c!"`" = x := (List.cons.inj he).1
      exact h.1 ⟨a, b, by simp⟩
  · rcases b with _ | ⟨x, _ | ⟨y, b⟩⟩
    · exact hb rfl
    · simp only [List.cons_append, List.nil_append, List.cons.injEq] at he
      exact hd he.2.1.symm
    · simp only [List.cons_append, List.nil_append, List.cons.injEq] at he
      obtain ⟨rfl, rfl, -⟩ := he
      exact h.2 ⟨a, b, by simp⟩

theorem piece_tick {v r : Bytes} (h : PieceBody v) : NowhereIn v (b!"`" ++ r) TemplateStop :=
  piece_nowhere h (by decide)

theorem piece_curly {v r : Bytes} (h : PieceBody v) : NowhereIn v (b!"${" ++ r) TemplateStop :=
  piece_nowhere (r := b!"{" ++ r) h (by decide)

theorem digit_notBlank : ∀ b, Digit b → ¬ Blank b := by
  apply forall_byte
  decide +kernel

theorem hexDigit_part : ∀ b, HexDigit b → IdentPart b := by
  intro b h
  rcases h with h | h | h
  · exact .inr h
  · exact .inl (.inl (.inl ⟨h.1, by have := h.2; rw [UInt8.le_iff_toNat_le] at this ⊢; exact Nat.le_trans this (by decide)⟩))
  · exact .inl (.inl (.inr ⟨h.1, by have := h.2; rw [UInt8.le_iff_toNat_le] at this ⊢; exact Nat.le_trans this (by decide)⟩))

/-- A number is read with every hint. -/
theorem reads_num {t : Tokenizer} {v : NumExpr} {w r : Bytes} {b : UInt8} {h h' : Hint}
    (hu : unread t = b :: r) (hb : Digit b ∨ b = c!".") (hr : Reads t h (.num v) [] w) :
    Reads t h' (.num v) [] w := by
  have key : ∀ q : UInt8, q = c!"/" ∨ q = c!"}" → ¬ ∃ bl s, unread t = bl ++ s ∧ Blanks bl ∧ [q] <+: s := by
    rintro q hq ⟨bl, s, h1, h2, r', rfl⟩
    rw [hu] at h1
    cases bl with
    | nil =>
      simp only [List.nil_append, List.cons_append, List.cons.injEq] at h1
      obtain ⟨rfl, -⟩ := h1
      rcases hq with rfl | rfl <;> revert hb <;> decide
    | cons x bl =>
      simp only [List.cons_append, List.cons.injEq] at h1
      obtain ⟨rfl, -⟩ := h1
      have := h2 b (by simp)
      revert this
      rcases hb with hb | rfl
      · exact digit_notBlank b hb
      · decide
  have : t.nextToken h = t.nextToken h' := C06_hints_irrelevant t h h'
    (.inr fun ⟨bl, s, h1, h2, h3, _⟩ => key c!"/" (.inl rfl) ⟨bl, s, h1, h2, h3⟩)
    (.inr fun ⟨bl, s, h1, h2, h3⟩ => key c!"}" (.inr rfl) ⟨bl, s, h1, h2, h3⟩)
  unfold Reads at hr ⊢
  rw [← this]
  exact hr

/-- The token is read whenever the hint allows it; numbers have some value. -/
theorem lexeme_reads {c : Bool} {x : Token} {w r : Bytes} (hl : Lexeme x w) (ha : Apart x w r)
    (hu : Utf8 (w ++ r)) :
    ∃ v, ∀ h, Fits h x → Reads (intoTokenizer c (w ++ r)) h (renum v x) [] w := by
  have hv := valid_intoTokenizer c hu
  have hun : unread (intoTokenizer c (w ++ r)) = [] ++ (w ++ r) := rfl
  have hbl : Blanks [] := by simp [Blanks]
  cases hl with
  | @punct q hq =>
    refine ⟨.lit 0, fun h hf => ?_⟩
    obtain ⟨h1, h2, h3, h4⟩ := ha
    refine (C08_longest_punctuator hv hun hbl (spelling_notBlank (List.prefix_append _ _)) h q).2
      ⟨hq, ⟨List.prefix_append _ _, h2⟩, ?_⟩
    rintro (h5 | h5 | ⟨b, r', h5, hd⟩ | ⟨h5, h6⟩ | ⟨h5, h6⟩)
    · cases q <;> simp [spelling, List.cons_prefix_cons] at h5
      exact (h3 rfl).1 h5
    · cases q <;> simp [spelling, List.cons_prefix_cons] at h5
      exact (h3 rfl).2 h5
    · cases q <;> simp [spelling] at h5
      · exact h4 rfl b r' h5 hd
      · obtain ⟨rfl, -⟩ := h5
        revert hd; decide
    · cases q <;> simp [spelling, List.cons_prefix_cons] at h5
      · rw [hf.2.1 rfl] at h6; cases h6
      · rw [hf.2.1 rfl] at h6; cases h6
    · cases q <;> simp [spelling, List.cons_prefix_cons] at h5
      have := hf.1
      rw [h6] at this
      cases this
  | name hb hp =>
    exact ⟨.lit 0, fun h _ => C09_identifier hv hun hbl hb hp ha.2 h⟩
  | decimal hwf hx hc1 hc2 =>
    obtain ⟨v, h1, -⟩ := C17_decimal_partial hv hun hbl hwf
      ⟨fun b r' h => fun hd => (ha.2 b r' h).1 (.inr hd), fun _ b r' h => ⟨fun he => (ha.2 b r' h).1 (by rw [he]; decide),
          fun he => (ha.2 b r' h).1 (by rw [he]; decide)⟩,
        fun _ _ r' h => (ha.2 _ r' h).2.1 rfl,
        fun _ _ _ b r' h hl => (ha.2 b r' h).1 (.inl (.inl hl))⟩
      (by
        rintro ⟨hi, ⟨h2, h3⟩ | ⟨h2, h3, -⟩⟩
        · exact hc1 ⟨hi, h2, h3⟩
        · exact hc2 ⟨hi, h2, h3⟩) hx {}
    obtain ⟨b, s, htext, hb⟩ := decimal_head hwf
    refine ⟨v, fun h _ => reads_num (b := b) (r := s ++ r) ?_ hb h1⟩
    rw [hun, htext]; rfl
  | octal hx hd =>
    obtain ⟨v, h1, -⟩ := C18_octal hv hun hbl hx hd (fun b r' h hd => (ha.2 b r' h).1 (.inr hd)) {}
    exact ⟨v, fun h _ => reads_num hun (.inl (by decide)) h1⟩
  | binary hx hd =>
    obtain ⟨v, h1, -⟩ := C18_binary hv hun hbl hx hd (fun b r' h hd => (ha.2 b r' h).1 (.inr hd)) {}
    exact ⟨v, fun h _ => reads_num hun (.inl (by decide)) h1⟩
  | hex hx hd =>
    obtain ⟨v, h1, -⟩ := C18_hex_right_iff_partial hv hun hbl hx hd
      (fun b r' h hd => (ha.2 b r' h).1 (hexDigit_part b hd)) {}
    exact ⟨v, fun h _ => reads_num hun (.inl (by decide)) h1⟩
  | str hq hb =>
    exact ⟨.lit 0, fun h _ => C14_string_whole hv hq hun hbl hb h⟩
  | regex hb h1 h2 hf =>
    exact ⟨.lit 0, fun h hh => C13_regex hv hun hbl hb h1 h2 hf ha.2 (hh.2.2 rfl)⟩
  | noSubstitution hp => exact ⟨.lit 0, fun h _ => C12_no_substitution hv hun hbl (piece_tick hp) h⟩
  | head hp => exact ⟨.lit 0, fun h _ => C12_head hv hun hbl (piece_curly hp) h⟩
  | middle hp => exact ⟨.lit 0, fun h hh => C12_middle hv hun hbl (piece_curly hp) hh.1⟩
  | tail hp => exact ⟨.lit 0, fun h hh => C12_tail hv hun hbl (piece_tick hp) hh.1⟩

theorem lexeme_significant {x : Token} {w : Bytes} (h : Lexeme x w) (v : NumExpr) : ¬ Insignificant (renum v x) := by
  cases h <;> exact id

theorem scan_end {c : Bool} {h : Hint} (f : Bool) : Scan c h [] f (f, .eof) [] [] := by
  refine .tok (bl := []) (s := []) (n := 0)
    ⟨rfl, by simp [Blanks], (by rintro b r h; cases h), ?_, rfl, rfl, rfl, rfl⟩ id
  rintro (⟨r, h⟩ | ⟨r, h⟩) <;> simp [noBreakSpace, byteOrderMark] at h

theorem fits_some (x : Token) : ∃ h, Fits h x := by
  refine ⟨{ expression := isRegexTok x, template := compat true x }, ?_, ?_, id⟩
  · cases x with
    | punct q => cases q <;> rfl
    | template k => cases k <;> rfl
    | _ => rfl
  · intro h
    cases x with
    | punct q => rfl
    | _ => cases h

theorem lexeme_rest {x : Token} {w r : Bytes} (hl : Lexeme x w) (ha : Apart x w r) (hu : Utf8 (w ++ r)) :
    Utf8 r := by
  obtain ⟨v, h1⟩ := lexeme_reads (c := true) hl ha hu
  obtain ⟨h, hf⟩ := fits_some x
  obtain ⟨look, t', -, -, h3, h4⟩ := readToken_of_scan (valid_intoTokenizer true hu)
    (scan_of_reads false (h1 h hf) (lexeme_significant hl v))
  rw [← h3]
  exact h4.valid.unread_utf8

theorem scan_comment {c : Bool} {h : Hint} {cs : List Char} (f : Bool)
    (hcs : ∀ c ∈ cs, isTerminator c = false) : Scan c h (b!"//" ++ encode cs) f (f, .eof) [] [] := by
  have hu : Utf8 (b!"//" ++ encode cs) := (utf8_encode ['/', '/']).append (utf8_encode cs)
  have hr : readNext c (b!"//" ++ encode cs ++ []) h =
      .ok (.comment .line (encode cs), (b!"//" ++ encode cs).length) := by
    have hl : (b!"//" ++ encode cs).length = (encode cs).length + 2 := by simp
    rw [hl]
    exact tokSlash_line (h := h) (e := []) (by simpa using hu) (nowhere_line hcs) (.inl rfl)
  have := (scan_skip (c := c) (h := h) (f := f) (z := (f, .eof)) (v := []) (r := []) hr trivial
    (noBlankHead_cons (by decide)) (ascii_notWide (by decide)) (by simpa using hu)).2
  rw [List.append_nil] at this
  refine this ?_
  have hb : breaks (b!"//" ++ encode cs) = false := by
    have : b!"//" ++ encode cs = encode ('/' :: '/' :: cs) := by
      rw [encode_cons, encode_cons, ← List.append_assoc]; rfl
    rw [this, breaks_encode]
    simpa [isTerminator] using hcs
  rw [hb, Bool.or_false]
  exact scan_end f

theorem stream_last {t : Tokenizer} {x : Tok} {w r : Bytes} (hv : Valid t)
    (h : ∀ h, Scan t.checked h (unread t) false x w r) : Stream t [x] := by
  intro hint _
  obtain ⟨look, t', h1, h2, -⟩ := readToken_of_scan hv (h hint)
  exact ⟨look, t', h1, h2, trivial⟩

/-- A text that spells the tokens `u` has the tokens `u`, with some values for the numbers. -/
theorem stream_of_spells (c : Bool) {code : Bytes} {u : List Tok} (hs : Spells code u) :
    Utf8 code → ∃ k, ∀ t, Valid t → t.checked = c → unread t = code → Stream t (renumber k u) := by
  induction hs with
  | @eof g f hg =>
    refine fun hu => ⟨fun _ => .lit 0, fun t hv hc ht => stream_last (w := []) (r := []) hv fun h => ?_⟩
    rw [ht]
    have := (scan_gap (c := t.checked) (h := h) hg (y := []) (f := false) (z := (f, .eof)) (v := []) (r := [])
      (by simpa using hu)).2
    rw [List.append_nil] at this
    exact this (scan_end f)
  | @comment g f cs hg hcs =>
    refine fun hu => ⟨fun _ => .lit 0, fun t hv hc ht => stream_last (w := []) (r := []) hv fun h => ?_⟩
    rw [ht]
    exact (scan_gap (c := t.checked) (h := h) hg hu).2 (scan_comment f hcs)
  | @cons g f x w r u hg hl ha _ ih =>
    intro hu
    have hu' := hu.cancel (gap_utf8 hg)
    obtain ⟨k, hk⟩ := ih (lexeme_rest hl ha hu')
    obtain ⟨v, hv⟩ := lexeme_reads (c := c) hl ha hu'
    refine ⟨fun i => if i = u.length then v else k i, fun t hval hc ht => ?_⟩
    have he : renumber (fun i => if i = u.length then v else k i) u = renumber k u :=
      renumber_congr fun i hi => by rw [if_neg (by omega)]
    simp only [renumber, he, if_true]
    intro h hf
    have hf' : Fits h x := by cases x <;> exact hf
    have hsc := (scan_gap (c := c) (h := h) (f := false) hg hu).2
      (scan_of_reads f (hv h hf') (lexeme_significant hl v))
    rw [← ht, ← hc] at hsc
    obtain ⟨look, t', h1, h2, h3, h4⟩ := readToken_of_scan hval hsc
    exact ⟨look, t', h1, h2, hk t' h4.valid (h4.checked.trans hc) h3⟩

/-! ## Programs -/

theorem accepted_of_stream {checked : Bool} {code : Bytes} {u : List Tok} (hu : Utf8 code)
    (hs : Stream (intoTokenizer checked code) u) (hf : FragX lx {} .program u []) :
    parseRoot checked code = .accepted := by
  have h := frag_sem hf {} ⟨rfl, rfl, rfl, nofun⟩ rfl [] (initState checked code)
    ⟨rfl, rfl, rfl, rfl, by simp [initState], u, hs, rfl⟩
  obtain ⟨s', ⟨N, hN⟩, -⟩ := h
  have h1 : parseModuleFuel (max N (fuelFor code)) checked code = _ := hN (max N (fuelFor code)) (Nat.le_max_left _ _)
  have h2 := C24_bound_irrelevant checked hu (n := max N (fuelFor code)) (Nat.le_max_right _ _)
  unfold parseRoot
  rw [← h2, h1]
  rfl

end Jsparse.Forward
