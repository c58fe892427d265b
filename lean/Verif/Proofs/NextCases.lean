import Verif.Proofs.Lexed
/-! # `next_token` on valid states: inversion and totality -/

namespace Jsparse

open Spec

theorem utf8_ascii {s : Bytes} (h : ∀ b ∈ s, b < 0x80) : Utf8 s := by
  refine ⟨s.map fun b => Char.ofNat b.toNat, ?_⟩
  induction s with
  | nil => rfl
  | cons b s ih =>
    have hb : b < 0x80 := h b (by simp)
    have hb' : b.toNat < 128 := by simpa [UInt8.lt_iff_toNat_lt] using hb
    rw [List.map_cons, encode_cons, ← ih fun x hx => h x (by simp [hx])]
    have hv : (Char.ofNat b.toNat).toNat = b.toNat := by
      have hvalid : b.toNat.isValidChar := .inl (by omega)
      unfold Char.ofNat
      rw [dif_pos hvalid]
      rfl
    have : encodeChar (Char.ofNat b.toNat) = [b] := by
      unfold encodeChar
      simp only [hv, if_pos hb']
      simp
    rw [this]; rfl

/-- The text ahead, split into the blanks and the start of the token. -/
structure Ahead (t : Tokenizer) (bl s : Bytes) : Prop where
  unread : unread t = bl ++ s
  blanks : Blanks bl
  noBlank : NoBlankHead s

theorem ahead (t : Tokenizer) : ∃ bl s, Ahead t bl s := by
  obtain ⟨bl, s, h1, h2, h3⟩ := blanks_split (Spec.unread t)
  exact ⟨bl, s, h1, h2, h3⟩

theorem blanks_unique {bl bl' s s' : Bytes} (h : bl ++ s = bl' ++ s') (h1 : Blanks bl)
    (h2 : Blanks bl') (h3 : NoBlankHead s) (h4 : NoBlankHead s') : bl = bl' ∧ s = s' := by
  induction bl generalizing bl' with
  | nil =>
    cases bl' with
    | nil => exact ⟨rfl, h⟩
    | cons b bl' => exact absurd (h2 b (by simp)) (h3 b (bl' ++ s') h)
  | cons b bl ih =>
    cases bl' with
    | nil => exact absurd (h1 b (by simp)) (h4 b (bl ++ s) h.symm)
    | cons b' bl' =>
      simp only [List.cons_append, List.cons.injEq] at h
      obtain ⟨rfl, rfl⟩ := ih h.2 (fun x hx => h1 x (by simp [hx])) (fun x hx => h2 x (by simp [hx]))
      exact ⟨by rw [h.1], rfl⟩

theorem Ahead.unique {t : Tokenizer} {bl s bl' s' : Bytes} (h : Ahead t bl s) (h' : Ahead t bl' s') :
    bl = bl' ∧ s = s' :=
  blanks_unique (h.unread.symm.trans h'.unread) h.blanks h'.blanks h.noBlank h'.noBlank

theorem Ahead.utf8 {t : Tokenizer} {bl s : Bytes} (h : Ahead t bl s) (hv : Valid t) : Utf8 s :=
  utf8_skip (h.unread ▸ hv.unread_utf8) h.blanks

theorem Ahead.reads {t : Tokenizer} {bl s : Bytes} (h : Ahead t bl s) (hv : Valid t) {hint tok n}
    (hw : ¬ StartsWide s) (hr : readNext t.checked s hint = .ok (tok, n))
    (hb : isBoundary s n = true) : Reads t hint tok bl (s.take n) :=
  reads_of_readNext hv h.unread h.blanks h.noBlank hw hr hb

theorem Ahead.panics {t : Tokenizer} {bl s : Bytes} (h : Ahead t bl s) (hv : Valid t) {hint p}
    (hw : ¬ StartsWide s) (hr : readNext t.checked s hint = .error p) : PanicsWith t hint p :=
  panics_of_readNext hv h.unread h.blanks h.noBlank hw hr

/-- What a call does. -/
theorem Ahead.cases {t : Tokenizer} {bl s : Bytes} (h : Ahead t bl s) (hv : Valid t) (hint : Hint) :
    (StartsWide s ∧ PanicsWith t hint .strSlice) ∨
    (¬ StartsWide s ∧ ∃ p, Malformed t.checked hint s p ∧ PanicsWith t hint p) ∨
    (¬ StartsWide s ∧ ∃ tok n, Lexed hint s tok n ∧ isBoundary s n = true ∧
      Reads t hint tok bl (s.take n)) := by
  by_cases hw : StartsWide s
  · exact .inl ⟨hw, nextToken_wide hint hv.boundary h.unread h.blanks hw⟩
  · rcases readNext_described t.checked hint (h.utf8 hv) h.noBlank hw with
      ⟨tok, n, hr, hl⟩ | ⟨p, hr, hm⟩
    · exact .inr (.inr ⟨hw, tok, n, hl, hl.boundary (h.utf8 hv),
        h.reads hv hw hr (hl.boundary (h.utf8 hv))⟩)
    · exact .inr (.inl ⟨hw, p, hm, h.panics hv hw hr⟩)

theorem Spec.Reads.unique {t : Tokenizer} {h : Hint} {tok tok' skip w skip' w'}
    (h1 : Reads t h tok skip w) (h2 : Reads t h tok' skip' w') :
    tok = tok' ∧ skip = skip' ∧ w = w' := by
  obtain ⟨r, t', hn, hu, -, -, -, hs, he⟩ := h1
  obtain ⟨r', t'', hn', hu', -, -, -, hs', he'⟩ := h2
  rw [hn] at hn'
  simp only [Except.ok.injEq, Prod.mk.injEq] at hn'
  obtain ⟨rfl, rfl, rfl⟩ := hn'
  rw [hu, List.append_assoc, List.append_assoc] at hu'
  obtain ⟨rfl, h3⟩ := List.append_inj hu' (by omega)
  obtain ⟨rfl, -⟩ := List.append_inj h3 (by omega)
  exact ⟨rfl, rfl, rfl⟩

/-- Inversion of a successful call. -/
theorem Ahead.inv {t : Tokenizer} {bl s : Bytes} (h : Ahead t bl s) (hv : Valid t) {hint tok skip w}
    (hr : Reads t hint tok skip w) :
    skip = bl ∧ ¬ StartsWide s ∧ ∃ n, Lexed hint s tok n ∧ n ≤ s.length ∧ w = s.take n ∧
      readNext t.checked s hint = .ok (tok, n) := by
  obtain ⟨r, t', hn, -⟩ := id hr
  obtain ⟨bl', s', n, hi⟩ := nextToken_ok hn
  obtain ⟨rfl, rfl⟩ := h.unique ⟨hi.unread, hi.blanks, hi.noBlank⟩
  obtain ⟨-, rfl, rfl⟩ := hr.unique (hi.reads hn)
  refine ⟨rfl, hi.noWide, n, ?_, isBoundary_le hi.bd, rfl, hi.read⟩
  rcases readNext_described t.checked hint (h.utf8 hv) h.noBlank hi.noWide with
    ⟨tok', n', hr', hl⟩ | ⟨p, hr', -⟩
  · rw [hi.read] at hr'; cases hr'; exact hl
  · rw [hi.read] at hr'; cases hr'

/-- Inversion of a panic. -/
theorem Ahead.inv_panic {t : Tokenizer} {bl s : Bytes} (h : Ahead t bl s) (hv : Valid t) {hint p}
    (hp : PanicsWith t hint p) : Malformed t.checked hint s p := by
  rcases h.cases hv hint with ⟨hw, h1⟩ | ⟨-, p', hm, h1⟩ | ⟨-, tok, n, -, -, r, t', h1, -⟩
  · unfold PanicsWith at hp h1; rw [hp] at h1; cases h1; exact .wide s hw
  · unfold PanicsWith at hp h1; rw [hp] at h1; cases h1; exact hm
  · unfold PanicsWith at hp; rw [hp] at h1; cases h1

end Jsparse
