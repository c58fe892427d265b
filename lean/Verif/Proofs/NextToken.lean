import Verif.Spec.Api
import Verif.Proofs.Dispatch
/-! # `next_token` in terms of `read_next` -/

namespace Jsparse

open Spec

theorem startsWith_iff (s p : Bytes) : startsWith s p = true ↔ p <+: s := by
  simp [startsWith]

theorem blanks_split (s : Bytes) : ∃ bl t, s = bl ++ t ∧ Blanks bl ∧ NoBlankHead t := by
  induction s with
  | nil => exact ⟨[], [], rfl, by simp [Blanks], by simp [NoBlankHead]⟩
  | cons b s ih =>
    by_cases hb : Blank b
    · obtain ⟨bl, t, rfl, h1, h2⟩ := ih
      exact ⟨b :: bl, t, rfl, by simpa [Blanks] using ⟨hb, h1⟩, h2⟩
    · refine ⟨[], b :: s, rfl, by simp [Blanks], ?_⟩
      intro b' r h
      simp only [List.cons.injEq] at h
      exact h.1 ▸ hb

theorem eatWhitespaceLoop_blanks {bl : Bytes} (h : Blanks bl) (s : Bytes) (i : Nat) :
    eatWhitespaceLoop (bl ++ s) i = eatWhitespaceLoop s (i + bl.length) := by
  induction bl generalizing i with
  | nil => rfl
  | cons b bl ih =>
    have h1 : Blank b := h b (by simp)
    have h2 : Blanks bl := fun x hx => h x (by simp [hx])
    have h1' : b = 0x09 ∨ b = 0x0B ∨ b = 0x0C ∨ b = 0x20 := h1
    rw [List.cons_append, eatWhitespaceLoop, if_pos h1', ih h2]
    simp only [List.length_cons]; congr 1; omega

theorem eatWhitespaceLoop_stop {s : Bytes} (h : NoBlankHead s) (hw : ¬ StartsWide s) (i : Nat) :
    eatWhitespaceLoop s i = i := by
  cases s with
  | nil => rfl
  | cons b s =>
    have h1 : ¬ (b = 0x09 ∨ b = 0x0B ∨ b = 0x0C ∨ b = 0x20) := h b s rfl
    rw [eatWhitespaceLoop, if_neg h1, if_neg, if_neg]
    · rintro ⟨-, h⟩; exact hw (.inl ((startsWith_iff _ _).1 h))
    · rintro ⟨-, h⟩; exact hw (.inr ((startsWith_iff _ _).1 h))

theorem eatWhitespaceLoop_wide {s : Bytes} (hw : StartsWide s) (i : Nat) :
    eatWhitespaceLoop s i = i + 1 ∧ ∃ l c r, s = l :: c :: r ∧ isCont c = true := by
  rcases hw with ⟨r, rfl⟩ | ⟨r, rfl⟩
  · refine ⟨?_, 0xC2, 0xA0, r, rfl, by decide⟩
    simp [noBreakSpace, eatWhitespaceLoop, startsWith, WS_NBSP]
  · refine ⟨?_, 0xEF, 0xBB, 0xBF :: r, rfl, by decide⟩
    simp [byteOrderMark, eatWhitespaceLoop, startsWith, WS_ZWNBSP]

/-- The position after the blanks. -/
def skipPos (p : Position) (n : Nat) : Position :=
  { p with column := p.column + n, offset := p.offset + n }

theorem eatWhitespace_eq {t : Tokenizer} {bl s : Bytes}
    (hb : isBoundary t.code t.position.offset = true) (hu : unread t = bl ++ s) (hbl : Blanks bl)
    (hs : NoBlankHead s) (hw : ¬ StartsWide s) :
    eatWhitespace t.code t.position = .ok (skipPos t.position bl.length) := by
  unfold eatWhitespace
  rw [sliceFrom_eq_ok.2 ⟨hb, rfl⟩]
  show Except.ok _ = _
  have hu' : List.drop t.position.offset t.code = bl ++ s := hu
  simp only [hu']
  rw [eatWhitespaceLoop_blanks hbl, eatWhitespaceLoop_stop hs hw]
  simp [skipPos]

theorem drop_skip {t : Tokenizer} {bl s : Bytes} (hu : unread t = bl ++ s) :
    t.code.drop (t.position.offset + bl.length) = s := by
  rw [← List.drop_drop]
  have hu' : List.drop t.position.offset t.code = bl ++ s := hu
  simp [hu']

/-- `next_token` = skip blanks, `read_next`, advance. -/
theorem nextToken_eq {t : Tokenizer} {bl s : Bytes} (h : Hint)
    (hb : isBoundary t.code t.position.offset = true) (hu : unread t = bl ++ s) (hbl : Blanks bl)
    (hs : NoBlankHead s) (hw : ¬ StartsWide s)
    (hb' : isBoundary t.code (t.position.offset + bl.length) = true) :
    t.nextToken h = (do
      let (token, size) ← readNext t.checked s h
      let stop ← incrementPosition s size (skipPos t.position bl.length)
      return (token, { start := skipPos t.position bl.length, stop := stop },
        { t with position := stop })) := by
  unfold Tokenizer.nextToken
  rw [eatWhitespace_eq hb hu hbl hs hw]
  have : sliceFrom t.code (skipPos t.position bl.length).offset = .ok s :=
    sliceFrom_eq_ok.2 ⟨hb', (drop_skip hu).symm⟩
  simp only [bind, Except.bind, this]

/-- A wide space where a token may start makes `next_token` panic. -/
theorem nextToken_wide {t : Tokenizer} {bl s : Bytes} (h : Hint)
    (hb : isBoundary t.code t.position.offset = true) (hu : unread t = bl ++ s) (hbl : Blanks bl)
    (hw : StartsWide s) : t.nextToken h = .error .strSlice := by
  unfold Tokenizer.nextToken eatWhitespace
  rw [sliceFrom_eq_ok.2 ⟨hb, rfl⟩]
  have hu' : List.drop t.position.offset t.code = bl ++ s := hu
  obtain ⟨h1, l, c, r, rfl, hc⟩ := eatWhitespaceLoop_wide hw (t.position.offset + bl.length)
  simp only [bind, Except.bind, pure, Except.pure, hu', eatWhitespaceLoop_blanks hbl, h1]
  have hd := drop_skip hu
  have hd2 : t.code.drop (t.position.offset + bl.length + 1) = c :: r := by
    rw [← List.drop_drop, hd]; rfl
  have : sliceFrom t.code (t.position.offset + bl.length + 1) = .error .strSlice := by
    unfold sliceFrom
    rw [if_neg]
    rw [isBoundary_iff, hd2]
    simp [HeadOk, hc]
  simp [this]

theorem Spec.Valid.boundary_skip {t : Tokenizer} {bl s : Bytes} (hv : Valid t)
    (hu : unread t = bl ++ s) (hbl : Blanks bl) :
    isBoundary t.code (t.position.offset + bl.length) = true := by
  apply isBoundary_drop hv.boundary
  have hu' : List.drop t.position.offset t.code = bl ++ s := hu
  rw [hu']
  have h8 := hv.utf8.drop hv.boundary
  rw [hu'] at h8
  rcases List.eq_nil_or_concat bl with rfl | ⟨bl', b, rfl⟩
  · exact isBoundary_zero _
  · apply isBoundary_append
    rw [List.concat_eq_append, List.append_assoc] at h8
    apply h8.headOk_after_ascii
    have : Blank b := hbl b (by simp)
    rcases this with rfl | rfl | rfl | rfl <;> decide

theorem Spec.Valid.unread_utf8 {t : Tokenizer} (hv : Valid t) : Utf8 (unread t) :=
  hv.utf8.drop hv.boundary

theorem utf8_skip {bl s : Bytes} (h : Utf8 (bl ++ s)) (hbl : Blanks bl) : Utf8 s := by
  rcases List.eq_nil_or_concat bl with rfl | ⟨bl', b, rfl⟩
  · exact h
  · rw [List.concat_eq_append, List.append_assoc] at h
    have : HeadOk s := by
      apply h.headOk_after_ascii
      have : Blank b := hbl b (by simp)
      rcases this with rfl | rfl | rfl | rfl <;> decide
    rw [← List.append_assoc] at h
    exact (h.split this).2

theorem incrementPosition_eq_ok {code : Bytes} {size : Nat} {p q : Position} :
    incrementPosition code size p = .ok q ↔
      isBoundary code size = true ∧ q =
        (let r := (codePoints (code.take size)).foldl bumpChar (p.line, p.column, false)
         { offset := p.offset + size, line := r.1, column := r.2.1 }) := by
  unfold incrementPosition
  constructor
  · intro h
    cases hs : slice code 0 size with
    | error e => rw [hs] at h; simp [bind, Except.bind] at h
    | ok r =>
      rw [hs] at h
      rw [slice_eq_ok] at hs
      simp only [bind, Except.bind, pure, Except.pure, Except.ok.injEq] at h
      refine ⟨hs.2.2.1, ?_⟩
      rw [← h, hs.2.2.2]; simp
  · rintro ⟨hb, rfl⟩
    rw [slice_eq_ok.2 ⟨by omega, isBoundary_zero _, hb, rfl⟩]
    simp [bind, Except.bind, pure, Except.pure]

theorem incrementPosition_error {code : Bytes} {size : Nat} {p : Position}
    (h : isBoundary code size = false) : incrementPosition code size p = .error .strSlice := by
  unfold incrementPosition slice
  rw [if_neg (by simp [h])]
  rfl

/-- Everything known about a successful call. -/
structure StepInfo (t : Tokenizer) (h : Hint) (tok : Token) (r : TokenRange) (t' : Tokenizer)
    (bl s : Bytes) (size : Nat) : Prop where
  unread : unread t = bl ++ s
  blanks : Blanks bl
  noBlank : NoBlankHead s
  noWide : ¬ StartsWide s
  read : readNext t.checked s h = .ok (tok, size)
  bdStart : isBoundary t.code r.start.offset = true
  bd : isBoundary s size = true
  bdStop : isBoundary t.code r.stop.offset = true
  start : r.start = skipPos t.position bl.length
  stop : r.stop = (
    let q := (codePoints (s.take size)).foldl bumpChar (r.start.line, r.start.column, false)
    { offset := r.start.offset + size, line := q.1, column := q.2.1 })
  next : t' = { t with position := r.stop }
  unread' : Spec.unread t' = s.drop size

theorem nextToken_ok {t : Tokenizer} {h : Hint} {tok : Token} {r : TokenRange} {t' : Tokenizer}
    (hn : t.nextToken h = .ok (tok, r, t')) : ∃ bl s size, StepInfo t h tok r t' bl s size := by
  have hb : isBoundary t.code t.position.offset = true := by
    by_cases hb : isBoundary t.code t.position.offset = true
    · exact hb
    · simp [Tokenizer.nextToken, eatWhitespace, sliceFrom, hb, bind, Except.bind] at hn
  obtain ⟨bl, s, hu, hbl, hs⟩ := blanks_split (unread t)
  by_cases hw : StartsWide s
  · rw [nextToken_wide h hb hu hbl hw] at hn; cases hn
  have hb' : isBoundary t.code (t.position.offset + bl.length) = true := by
    by_cases hb' : isBoundary t.code (t.position.offset + bl.length) = true
    · exact hb'
    · unfold Tokenizer.nextToken at hn
      rw [eatWhitespace_eq hb hu hbl hs hw] at hn
      simp [skipPos, sliceFrom, hb', bind, Except.bind] at hn
  rw [nextToken_eq h hb hu hbl hs hw hb'] at hn
  cases hr : readNext t.checked s h with
  | error e => rw [hr] at hn; cases hn
  | ok p =>
    obtain ⟨tok', size⟩ := p
    rw [hr] at hn
    simp only [bind, Except.bind] at hn
    cases hi : incrementPosition s size (skipPos t.position bl.length) with
    | error e => rw [hi] at hn; cases hn
    | ok q =>
      rw [hi] at hn
      simp only [pure, Except.pure, Except.ok.injEq, Prod.mk.injEq] at hn
      obtain ⟨rfl, rfl, rfl⟩ := hn
      obtain ⟨hbd, rfl⟩ := incrementPosition_eq_ok.1 hi
      have hd := drop_skip hu
      refine ⟨bl, s, size, hu, hbl, hs, hw, hr, hb', hbd, ?_, rfl, rfl, rfl, ?_⟩
      · apply isBoundary_drop hb'
        rw [hd]; exact hbd
      · show t.code.drop (t.position.offset + bl.length + size) = _
        rw [← List.drop_drop, hd]

theorem StepInfo.reads {t h tok r t' bl s size} (hi : StepInfo t h tok r t' bl s size)
    (hn : t.nextToken h = .ok (tok, r, t')) : Reads t h tok bl (s.take size) := by
  refine ⟨r, t', hn, ?_, by rw [hi.next], by rw [hi.next], by rw [hi.next], by rw [hi.start]; rfl, ?_⟩
  · rw [hi.unread, hi.unread']; simp
  · rw [hi.stop]
    have := isBoundary_le hi.bd
    simp; omega

/-- The tool for all "this text gives that token" theorems. -/
theorem reads_of_readNext {t : Tokenizer} {h : Hint} {tok : Token} {bl s : Bytes} {size : Nat}
    (hv : Valid t) (hu : unread t = bl ++ s) (hbl : Blanks bl) (hs : NoBlankHead s)
    (hw : ¬ StartsWide s) (hr : readNext t.checked s h = .ok (tok, size))
    (hbd : isBoundary s size = true) : Reads t h tok bl (s.take size) := by
  have hn := nextToken_eq h hv.boundary hu hbl hs hw (hv.boundary_skip hu hbl)
  rw [hr] at hn
  simp only [bind, Except.bind, incrementPosition_eq_ok.2 ⟨hbd, rfl⟩] at hn
  have hd := drop_skip hu
  have hle := isBoundary_le hbd
  refine ⟨_, _, hn, ?_, rfl, rfl, rfl, rfl, ?_⟩
  · show unread t = bl ++ s.take size ++ t.code.drop (t.position.offset + bl.length + size)
    rw [← List.drop_drop, hd, hu]; simp
  · simp [hle]

theorem panics_of_readNext {t : Tokenizer} {h : Hint} {bl s : Bytes} {p : Panic}
    (hv : Valid t) (hu : unread t = bl ++ s) (hbl : Blanks bl) (hs : NoBlankHead s)
    (hw : ¬ StartsWide s) (hr : readNext t.checked s h = .error p) : PanicsWith t h p := by
  have hn := nextToken_eq h hv.boundary hu hbl hs hw (hv.boundary_skip hu hbl)
  rw [hr] at hn
  exact hn

theorem valid_intoTokenizer (checked : Bool) {code : Bytes} (h : Utf8 code) :
    Valid (intoTokenizer checked code) := ⟨h, isBoundary_zero _⟩

theorem valid_nextToken {t : Tokenizer} {h : Hint} {tok r t'} (hv : Valid t)
    (hn : t.nextToken h = .ok (tok, r, t')) : Valid t' := by
  obtain ⟨bl, s, size, hi⟩ := nextToken_ok hn
  rw [hi.next]
  exact ⟨hv.utf8, hi.bdStop⟩

theorem valid_calls {t t' : Tokenizer} {toks} (hv : Valid t) (hc : Calls t toks t') : Valid t' := by
  induction hc with
  | nil => exact hv
  | cons t h tok r t' toks t'' hn _ ih => exact ih (valid_nextToken hv hn)

/-- Utf8 texts that do not start with a blank or a wide space start no token in the middle of a
character. -/
theorem noBlankHead_cons {b : UInt8} {r : Bytes} (h : ¬ Blank b) : NoBlankHead (b :: r) := by
  intro b' r' h'
  simp only [List.cons.injEq] at h'
  exact h'.1 ▸ h

theorem noWide_cons {b : UInt8} {r : Bytes} (h1 : b ≠ 0xC2) (h2 : b ≠ 0xEF) :
    ¬ StartsWide (b :: r) := by
  rintro (h | h) <;> simp [noBreakSpace, byteOrderMark] at h
  · exact h1 h.1.symm
  · exact h2 h.1.symm

end Jsparse
