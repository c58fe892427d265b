import Verif.Spec.Ranges
import Verif.Proofs.NextCases
/-!
# C01, C02, C05, C07, C20: token ranges, end of input, locality, blanks
-/

namespace Jsparse

open Spec

/-! ## C01 -/

theorem calls_tiling {t t' : Tokenizer} {toks} (hc : Calls t toks t') :
    t'.code = t.code ∧ Tiling t.code t.position.offset (toks.map (·.2)) t'.position.offset := by
  induction hc with
  | nil t => exact ⟨rfl, rfl⟩
  | cons t h tok r t' toks t'' hn _ ih =>
    obtain ⟨bl, s, n, hi⟩ := nextToken_ok hn
    have h1 : t'.code = t.code := by rw [hi.next]
    have h2 : t'.position = r.stop := by rw [hi.next]
    have h3 : r.start.offset = t.position.offset + bl.length := by rw [hi.start]; rfl
    have h4 : r.stop.offset = r.start.offset + n := by rw [hi.stop]
    rw [h1, h2] at ih
    simp only [List.map_cons, Tiling]
    refine ⟨ih.1, by omega, by omega, isBoundary_le hi.bdStop, ?_, ih.2⟩
    intro k hk1 hk2
    have hu : t.code.drop t.position.offset = bl ++ s := hi.unread
    have hk : t.code[k]? = bl[k - t.position.offset]? := by
      have : (t.code.drop t.position.offset)[k - t.position.offset]? = t.code[k]? := by
        rw [List.getElem?_drop]; congr 1; omega
      rw [← this, hu, List.getElem?_append_left (by omega)]
    have hlt : k - t.position.offset < bl.length := by omega
    refine ⟨bl[k - t.position.offset], by rw [hk, List.getElem?_eq_getElem hlt], ?_⟩
    exact hi.blanks _ (List.getElem_mem hlt)

/-- **C01.** The ranges of the tokens returned by any sequence of calls tile the source. -/
theorem C01_ranges_tile {checked : Bool} {code : Bytes} {toks : List (Token × TokenRange)}
    {t : Tokenizer} (hc : Calls (intoTokenizer checked code) toks t) :
    Tiling code 0 (toks.map (·.2)) t.position.offset :=
  (calls_tiling hc).2

theorem glue_tiling {code : Bytes} {i j : Nat} {rs : List TokenRange} (h : Tiling code i rs j) :
    i ≤ j ∧ text code i j = glue code i rs := by
  induction rs generalizing i with
  | nil => cases h; simp [text, glue]
  | cons r rs ih =>
    obtain ⟨h1, h2, -, -, h5⟩ := h
    obtain ⟨h6, h7⟩ := ih h5
    refine ⟨by omega, ?_⟩
    rw [glue, ← h7]
    have cut : ∀ a b c : Nat, a ≤ b → b ≤ c → text code a c = text code a b ++ text code b c := by
      intro a b c hab hbc
      unfold text
      have : c - a = (b - a) + (c - b) := by omega
      rw [this, List.take_add, List.drop_drop]
      congr 3
      omega
    rw [cut i r.start.offset j h1 (by omega), cut _ _ j h2 h6, List.append_assoc]

/-- **C01.** Nothing is lost: gaps and token texts glued together are the consumed part of the
source. -/
theorem C01_glue {checked : Bool} {code : Bytes} {toks : List (Token × TokenRange)}
    {t : Tokenizer} (hc : Calls (intoTokenizer checked code) toks t) :
    code.take t.position.offset = glue code 0 (toks.map (·.2)) := by
  have := (glue_tiling (C01_ranges_tile hc)).2
  simpa [text] using this

/-- A run over `a  += 1` (two spaces), used as example below. -/
theorem example_run : ∃ r1 r2 r3 t, Calls (intoTokenizer true b!"a  += 1")
    [(.ident b!"a", r1), (.punct .plusEq, r2), (.num (.add (.mul (.lit 0) (.lit 10)) (.lit 1)), r3)] t := by
  refine ⟨_, _, _, _, .cons _ {} _ _ _ _ _ rfl (.cons _ {} _ _ _ _ _ rfl (.cons _ {} _ _ _ _ _ rfl
    (.nil _)))⟩

example : ∃ r1 r2 r3 j, Tiling b!"a  += 1" 0 [r1, r2, r3] j := by
  obtain ⟨r1, r2, r3, t, h⟩ := example_run
  exact ⟨r1, r2, r3, _, C01_ranges_tile h⟩

/-! ## C02 -/

theorem charRange_of_boundary {code : Bytes} (hu : Utf8 code) {i j : Nat} (hij : i ≤ j)
    (hi : isBoundary code i = true) (hj : isBoundary code j = true) : CharRange code i j := by
  obtain ⟨a, ha⟩ := hu.take hj
  obtain ⟨c, hc⟩ := hu.drop hj
  have hle := isBoundary_le hj
  have h1 : isBoundary (code.take j) i = true := by
    rw [isBoundary_iff] at hi ⊢
    rcases hi with hi | ⟨hi, hh⟩
    · exact .inl hi
    · right
      refine ⟨by simp; omega, ?_⟩
      rw [List.drop_take]
      cases hd : code.drop i with
      | nil => simp [HeadOk]
      | cons b r =>
        rw [hd] at hh
        cases hn : j - i with
        | zero => simp [HeadOk]
        | succ n => simpa [HeadOk] using hh
  have hu' : Utf8 (code.take j) := ⟨a, ha⟩
  obtain ⟨x, hx⟩ := hu'.take h1
  obtain ⟨y, hy⟩ := hu'.drop h1
  refine ⟨x, y, c, ?_, ?_, ?_⟩
  · rw [encode_append, encode_append, ← hx, ← hy, ← hc]
    simp
  · rw [← hx]; simp; omega
  · rw [encode_append, ← hx, ← hy, List.take_append_drop]; simp; omega

/-- **C02.** The range of every token consists of whole characters. -/
theorem C02_char_boundaries {checked : Bool} {code : Bytes} (hu : Utf8 code)
    {toks : List (Token × TokenRange)} {t : Tokenizer}
    (hc : Calls (intoTokenizer checked code) toks t) :
    ∀ tok r, (tok, r) ∈ toks → CharRange code r.start.offset r.stop.offset := by
  have key : ∀ (t t' : Tokenizer) toks, Calls t toks t' → t.code = code →
      ∀ tok r, (tok, r) ∈ toks → CharRange code r.start.offset r.stop.offset := by
    intro t t' toks hc
    induction hc with
    | nil => simp
    | cons t h tok r t' toks t'' hn _ ih =>
      intro ht tok' r' hm
      obtain ⟨bl, s, n, hi⟩ := nextToken_ok hn
      simp only [List.mem_cons, Prod.mk.injEq] at hm
      rcases hm with ⟨-, rfl⟩ | hm
      · subst ht
        exact charRange_of_boundary hu (by rw [hi.stop]; simp) hi.bdStart hi.bdStop
      · exact ih (by rw [hi.next]; exact ht) tok' r' hm
  exact key _ _ _ hc rfl

/-- `"é"` and then the end of input: the hypotheses hold for a text with a two-byte character. -/
example : ∃ r1 r2 t, Utf8 b!"\"é\" ." ∧
    Calls (intoTokenizer true b!"\"é\" .") [(.str b!"é", r1), (.punct .period, r2)] t :=
  ⟨_, _, _, ⟨"\"é\" .".toList, by decide⟩, .cons _ {} _ _ _ _ _ rfl (.cons _ {} _ _ _ _ _ rfl (.nil _))⟩

/-! ## Zero-width tokens repeat -/

theorem codePoints_nil : codePoints [] = [] := by unfold codePoints; rfl

/-- If a call returned a token of width zero, the position did not move behind the blanks. -/
theorem zero_width {t : Tokenizer} {h : Hint} {tok r t'} (hn : t.nextToken h = .ok (tok, r, t'))
    (hz : r.start.offset = r.stop.offset) :
    r.stop = r.start ∧ ∃ bl s, StepInfo t h tok r t' bl s 0 ∧ unread t' = s := by
  obtain ⟨bl, s, n, hi⟩ := nextToken_ok hn
  have h0 : n = 0 := by
    have : r.stop.offset = r.start.offset + n := by rw [hi.stop]
    omega
  subst h0
  refine ⟨?_, bl, s, hi, by simpa using hi.unread'⟩
  rw [hi.stop]
  simp [codePoints_nil]

theorem zero_width_repeats {t : Tokenizer} {h : Hint} {tok r t'}
    (hn : t.nextToken h = .ok (tok, r, t')) (hz : r.start.offset = r.stop.offset) (h' : Hint)
    (hsame : ∀ bl s, StepInfo t h tok r t' bl s 0 → readNext t.checked s h' = .ok (tok, 0)) :
    t'.nextToken h' = .ok (tok, r, t') := by
  obtain ⟨h1, bl, s, hi, h2⟩ := zero_width hn hz
  have h3 : t'.position = r.stop := by rw [hi.next]
  have h4 : t'.code = t.code := by rw [hi.next]
  have hb : isBoundary t'.code t'.position.offset = true := by rw [h3, h4]; exact hi.bdStop
  rw [nextToken_eq (bl := []) (s := s) h' hb h2 (by simp [Blanks]) hi.noBlank hi.noWide
    (by simpa using hb)]
  have h5 : t'.checked = t.checked := by rw [hi.next]
  rw [h5, hsame bl s hi]
  simp only [bind, Except.bind]
  rw [incrementPosition_eq_ok.2 ⟨isBoundary_zero _, rfl⟩]
  have h6 : skipPos t'.position 0 = r.stop := by rw [h3]; rfl
  simp only [List.length_nil, h6, List.take_zero, codePoints_nil, List.foldl_nil, Nat.add_zero, pure,
    Except.pure]
  have h7 : ({ start := r.stop, stop := r.stop } : TokenRange) = r := by
    rw [h1]; cases r; simp only at h1; subst h1; rfl
  rw [h7, ← h3, ← h5]

/-! ## C05 -/

theorem blanks_iff_ahead {t : Tokenizer} {bl s : Bytes} (ha : Ahead t bl s) :
    Blanks (unread t) ↔ s = [] := by
  constructor
  · intro h
    cases s with
    | nil => rfl
    | cons b s =>
      refine absurd (h b ?_) (ha.noBlank b s rfl)
      rw [ha.unread]; simp
  · rintro rfl
    rw [ha.unread]; simpa using ha.blanks

/-- **C05.** A call returns EOF exactly when only blanks remain. -/
theorem C05_eof_iff {t : Tokenizer} (hv : Valid t) (h : Hint) :
    (∃ skip w, Reads t h .eof skip w) ↔ Blanks (unread t) := by
  obtain ⟨bl, s, ha⟩ := ahead t
  rw [blanks_iff_ahead ha]
  constructor
  · rintro ⟨skip, w, hr⟩
    obtain ⟨-, -, n, hl, -⟩ := ha.inv hv hr
    cases hl; rfl
  · rintro rfl
    refine ⟨_, _, ha.reads hv ?_ (tok := .eof) (n := 0) rfl (isBoundary_zero _)⟩
    rintro (h | h) <;> simp [noBreakSpace, byteOrderMark] at h

/-- **C05.** EOF is reported with an empty range at the end of the text, and every later call (with
any hint) returns exactly the same result. -/
theorem C05_eof_forever {t : Tokenizer} (hv : Valid t) {h : Hint} {r t'}
    (hn : t.nextToken h = .ok (.eof, r, t')) :
    r.start.offset = t.code.length ∧ r.stop = r.start ∧
      ∀ h', t'.nextToken h' = .ok (.eof, r, t') := by
  obtain ⟨bl, s, n, hi⟩ := nextToken_ok hn
  have ha : Ahead t bl s := ⟨hi.unread, hi.blanks, hi.noBlank⟩
  have hs : s = [] := (blanks_iff_ahead ha).1 ((C05_eof_iff hv h).1 ⟨_, _, hi.reads hn⟩)
  subst hs
  have hn0 : n = 0 := by have := isBoundary_le hi.bd; simpa using this
  subst hn0
  have hz : r.start.offset = r.stop.offset := by rw [hi.stop]; rfl
  refine ⟨?_, (zero_width hn hz).1, fun h' => zero_width_repeats hn hz h' ?_⟩
  · have h1 : t.code.drop t.position.offset = bl ++ [] := hi.unread
    have h2 := congrArg List.length h1
    have h3 := isBoundary_le hv.boundary
    rw [hi.start]
    simp [skipPos] at h2 ⊢
    omega
  · intro bl' s' hi'
    obtain ⟨-, rfl⟩ := ha.unique ⟨hi'.unread, hi'.blanks, hi'.noBlank⟩
    rfl

/-- **C05.** Hence after EOF every sequence of calls returns nothing but EOF. -/
theorem C05_eof_calls {t : Tokenizer} (hv : Valid t) {h : Hint} {r t'}
    (hn : t.nextToken h = .ok (.eof, r, t')) {toks t''} (hc : Calls t' toks t'') :
    t'' = t' ∧ ∀ x ∈ toks, x = (.eof, r) := by
  have hf := (C05_eof_forever hv hn).2.2
  generalize ht : t' = t1 at hc
  induction hc with
  | nil => subst ht; simp
  | cons t1 h1 tok r1 t2 toks t3 hn1 _ ih =>
    subst ht
    rw [hf h1] at hn1
    simp only [Except.ok.injEq, Prod.mk.injEq] at hn1
    obtain ⟨rfl, rfl, rfl⟩ := hn1
    have := ih rfl
    refine ⟨this.1, ?_⟩
    intro x hx
    rcases List.mem_cons.1 hx with rfl | hx
    · rfl
    · exact this.2 x hx

/-- Two blanks remain after `x`: the next call returns EOF. -/
example : ∃ skip w, Reads ⟨true, b!"x \t", ⟨1, 0, 1⟩⟩ {} .eof skip w :=
  (C05_eof_iff ⟨utf8_ascii (by decide), by decide⟩ {}).2 (by decide)

/-! ## C07 -/

/-- A fresh tokenizer over the rest of the text. -/
theorem ahead_fresh {t : Tokenizer} {bl s : Bytes} (ha : Ahead t bl s) :
    Ahead (intoTokenizer t.checked (unread t)) bl s :=
  ⟨by rw [← ha.unread]; rfl, ha.blanks, ha.noBlank⟩

/-- Two states with the same text ahead (up to blanks) read the same token. -/
theorem reads_transfer {t1 t2 : Tokenizer} {bl1 bl2 s : Bytes} (h1 : Valid t1) (h2 : Valid t2)
    (h3 : Ahead t1 bl1 s) (h4 : Ahead t2 bl2 s) (h5 : t1.checked = t2.checked) {h tok skip w}
    (hr : Reads t1 h tok skip w) : skip = bl1 ∧ Reads t2 h tok bl2 w := by
  obtain ⟨rfl, hw, n, hl, -, rfl, hrd⟩ := h3.inv h1 hr
  rw [h5] at hrd
  exact ⟨rfl, h4.reads h2 hw hrd (hl.boundary (h3.utf8 h1))⟩

theorem panics_transfer {t1 t2 : Tokenizer} {bl1 bl2 s : Bytes} (h1 : Valid t1) (h2 : Valid t2)
    (h3 : Ahead t1 bl1 s) (h4 : Ahead t2 bl2 s) (h5 : t1.checked = t2.checked) {h p}
    (hp : PanicsWith t1 h p) : PanicsWith t2 h p := by
  by_cases hw : StartsWide s
  · have e1 := nextToken_wide h h1.boundary h3.unread h3.blanks hw
    have e2 := nextToken_wide h h2.boundary h4.unread h4.blanks hw
    unfold PanicsWith at *
    rw [e1] at hp; rw [e2]; exact hp
  · cases hr : readNext t1.checked s h with
    | error q =>
      have e1 := h3.panics h1 hw hr
      rw [h5] at hr
      have e2 := h4.panics h2 hw hr
      unfold PanicsWith at *
      rw [e1] at hp; rw [e2]; exact hp
    | ok x =>
      exfalso
      rcases readNext_described t1.checked h (h3.utf8 h1) h3.noBlank hw with
        ⟨tok, n, hr', hl⟩ | ⟨p', hr', -⟩
      · obtain ⟨r, t', hn, -⟩ := h3.reads h1 hw hr' (hl.boundary (h3.utf8 h1))
        unfold PanicsWith at hp
        rw [hp] at hn; cases hn
      · rw [hr] at hr'; cases hr'

/-- **C07.** The token, the blanks before it and its width depend only on the text ahead: a fresh
tokenizer over the rest of the text behaves the same. -/
theorem C07_local {t : Tokenizer} (hv : Valid t) (h : Hint) :
    (∀ tok skip w, Reads t h tok skip w ↔
      Reads (intoTokenizer t.checked (unread t)) h tok skip w) ∧
    (∀ p, PanicsWith t h p ↔ PanicsWith (intoTokenizer t.checked (unread t)) h p) := by
  obtain ⟨bl, s, ha⟩ := ahead t
  have hv' := valid_intoTokenizer t.checked hv.unread_utf8
  have hf := ahead_fresh ha
  refine ⟨fun tok skip w => ⟨fun hr => ?_, fun hr => ?_⟩,
    fun p => ⟨panics_transfer hv hv' ha hf rfl, panics_transfer hv' hv hf ha rfl⟩⟩
  · obtain ⟨rfl, h1⟩ := reads_transfer hv hv' ha hf rfl hr; exact h1
  · obtain ⟨rfl, h1⟩ := reads_transfer hv' hv hf ha rfl hr; exact h1

/-- After `x=`, at offset 2, the text ahead is ` y;`. -/
example : Reads ⟨true, b!"x= y;", ⟨2, 0, 2⟩⟩ {} (.ident b!"y") b!" " b!"y" ↔
    Reads (intoTokenizer true b!" y;") {} (.ident b!"y") b!" " b!"y" :=
  (C07_local (t := ⟨true, b!"x= y;", ⟨2, 0, 2⟩⟩) ⟨utf8_ascii (by decide), by decide⟩ {}).1 _ _ _

/-! ## C20 -/

/-- **C20** (for tab, vertical tab, form feed and space). Blanks put before a text do not change the
token that is read from it, nor whether reading panics.  The full property, for all white space, is
false: see `C20_wide_space_panics`. -/
theorem C20_blanks_skipped_partial {checked : Bool} {bl code : Bytes} (hbl : Blanks bl)
    (hu : Utf8 code) (h : Hint) :
    (∀ tok skip w, Reads (intoTokenizer checked code) h tok skip w ↔
      Reads (intoTokenizer checked (bl ++ code)) h tok (bl ++ skip) w) ∧
    (∀ p, PanicsWith (intoTokenizer checked code) h p ↔
      PanicsWith (intoTokenizer checked (bl ++ code)) h p) := by
  obtain ⟨bl0, s, ha⟩ := ahead (intoTokenizer checked code)
  have hc : code = bl0 ++ s := ha.unread
  have ha' : Ahead (intoTokenizer checked (bl ++ code)) (bl ++ bl0) s := by
    refine ⟨?_, ?_, ha.noBlank⟩
    · show bl ++ code = _
      rw [hc, List.append_assoc]
    · intro b hb
      rcases List.mem_append.1 hb with hb | hb
      · exact hbl b hb
      · exact ha.blanks b hb
  have hv := valid_intoTokenizer checked hu
  have hbu : Utf8 bl := utf8_ascii fun b hb => by
    rcases hbl b hb with rfl | rfl | rfl | rfl <;> decide
  have hv' := valid_intoTokenizer checked (hbu.append hu)
  refine ⟨fun tok skip w => ⟨fun hr => ?_, fun hr => ?_⟩,
    fun p => ⟨panics_transfer hv hv' ha ha' rfl, panics_transfer hv' hv ha' ha rfl⟩⟩
  · obtain ⟨rfl, h1⟩ := reads_transfer hv hv' ha ha' rfl hr; exact h1
  · obtain ⟨h0, h1⟩ := reads_transfer hv' hv ha' ha rfl hr
    rw [List.append_cancel_left h0]; exact h1

/-- Blanks before ` =` leave the punctuator as it is. -/
example : Reads (intoTokenizer true b!" =") {} (.punct .eq) b!" " b!"=" ↔
    Reads (intoTokenizer true (b!" \t " ++ b!" =")) {} (.punct .eq) (b!" \t " ++ b!" ") b!"=" :=
  (C20_blanks_skipped_partial (by decide) (utf8_ascii (by decide)) {}).1 _ _ _

/-- **C20** is false of the code for no-break space and byte-order mark: reading a token from a text
in which one of them comes next always panics. -/
theorem C20_wide_space_panics {t : Tokenizer} (hv : Valid t) {bl s : Bytes} (hbl : Blanks bl)
    (hu : unread t = bl ++ s) (hw : noBreakSpace <+: s ∨ byteOrderMark <+: s) (h : Hint) :
    PanicsWith t h .strSlice :=
  nextToken_wide h hv.boundary hu hbl hw

/-- A byte-order mark at the start of a file. -/
example : PanicsWith (intoTokenizer false (byteOrderMark ++ b!"x")) {} .strSlice :=
  C20_wide_space_panics (bl := []) (s := byteOrderMark ++ b!"x")
    ⟨⟨[Char.ofNat 0xFEFF, 'x'], by decide⟩, by decide⟩ (by simp [Blanks]) rfl (.inr ⟨_, rfl⟩) {}

end Jsparse
