import Verif.Proofs.Scan
import Verif.Proofs.PrefixRead
/-!
# `read_token` and the text between tokens
-/

namespace Jsparse

open P Spec

theorem readNext_terminator {c : Bool} {h : Hint} {d : Bytes} (hd : Terminator d) (y : Bytes) :
    readNext c (d ++ y) h = .ok (.lineTerminator, d.length) ∧ NoBlankHead (d ++ y) ∧
      ¬ StartsWide (d ++ y) ∧ breaks d = true := by
  rcases hd with rfl | rfl | rfl | rfl
  · exact ⟨rfl, noBlankHead_cons (by decide), ascii_notWide (by decide), breaks_encode ['\n']⟩
  · exact ⟨rfl, noBlankHead_cons (by decide), ascii_notWide (by decide), breaks_encode ['\r']⟩
  · refine ⟨rfl, noBlankHead_cons (by decide), ?_, breaks_encode ['\u2028']⟩
    rintro (⟨r, h⟩ | ⟨r, h⟩) <;> simp [noBreakSpace, byteOrderMark, lineSeparator] at h
  · refine ⟨rfl, noBlankHead_cons (by decide), ?_, breaks_encode ['\u2029']⟩
    rintro (⟨r, h⟩ | ⟨r, h⟩) <;> simp [noBreakSpace, byteOrderMark, paragraphSeparator] at h

theorem terminator_startsLine {d : Bytes} (hd : Terminator d) (y : Bytes) : StartsLine (d ++ y) := by
  rcases hd with rfl | rfl | rfl | rfl
  · exact .inl ⟨y, rfl⟩
  · exact .inr (.inl ⟨y, rfl⟩)
  · exact .inr (.inr (.inl ⟨y, rfl⟩))
  · exact .inr (.inr (.inr ⟨y, rfl⟩))

/-- Blanks in front of the text do not matter. -/
theorem scan_blanks {c : Bool} {h : Hint} {bl u : Bytes} {f z v r} (hb : Blanks bl) :
    Scan c h (bl ++ u) f z v r ↔ Scan c h u f z v r := by
  have key : ∀ {tok w r bl' s n}, One c h (bl ++ u) tok w r bl' s n ↔
      ∃ bl'', bl' = bl ++ bl'' ∧ One c h u tok w r bl'' s n := by
    intro tok w r bl' s n
    constructor
    · intro ho
      obtain ⟨b1, s1, h1, h2, h3⟩ := blanks_split u
      have := ho.text
      rw [h1, ← List.append_assoc] at this
      obtain ⟨h4, rfl⟩ := blanks_unique this (fun x hx => (List.mem_append.1 hx).elim (hb x) (h2 x))
        ho.blanks h3 ho.noBlank
      exact ⟨b1, h4.symm, h1, h2, h3, ho.noWide, ho.read, ho.bd, ho.spelled, ho.rest⟩
    · rintro ⟨b, rfl, ho⟩
      exact ⟨by rw [ho.text, List.append_assoc],
        fun x hx => (List.mem_append.1 hx).elim (hb x) (ho.blanks x), ho.noBlank, ho.noWide, ho.read,
        ho.bd, ho.spelled, ho.rest⟩
  constructor
  · intro hs
    cases hs with
    | skip ho hi hs => obtain ⟨_, -, ho⟩ := key.1 ho; exact .skip ho hi hs
    | tok ho hi => obtain ⟨_, -, ho⟩ := key.1 ho; exact .tok ho hi
  · intro hs
    cases hs with
    | skip ho hi hs => exact .skip (key.2 ⟨_, rfl, ho⟩) hi hs
    | tok ho hi => exact .tok (key.2 ⟨_, rfl, ho⟩) hi

/-- An insignificant token in front of the text. -/
theorem scan_skip {c : Bool} {h : Hint} {w y : Bytes} {tok : Token} {f z v r}
    (hr : readNext c (w ++ y) h = .ok (tok, w.length)) (hi : Insignificant tok)
    (hb : NoBlankHead (w ++ y)) (hw : ¬ StartsWide (w ++ y)) (hu : Utf8 (w ++ y)) :
    Scan c h (w ++ y) f z v r ↔ Scan c h y (f || breaks w) z v r := by
  have ho : One c h (w ++ y) tok w y [] (w ++ y) w.length := by
    refine ⟨rfl, by simp [Blanks], hb, hw, hr, ?_, by simp, by simp⟩
    rcases readNext_described c h hu hb hw with ⟨tok', n', hr', hl⟩ | ⟨p, hr', -⟩
    · rw [hr] at hr'; cases hr'; exact hl.boundary hu
    · rw [hr] at hr'; cases hr'
  constructor
  · intro hs
    cases hs with
    | skip ho' hi' hs =>
      obtain ⟨rfl, rfl, rfl, -⟩ := ho.unique ho'
      exact hs
    | tok ho' hi' =>
      obtain ⟨rfl, -⟩ := ho.unique ho'
      exact absurd hi hi'
  · intro hs
    exact .skip ho hi hs

theorem char_cancel {c l : Char} {a b : Bytes} (h : encodeChar c ++ a = encodeChar l ++ b) :
    c.toNat = l.toNat ∧ a = b := by
  obtain ⟨x, r, h1, h2⟩ := nextCodePoint_encode c
  obtain ⟨x', r', h3, h4⟩ := nextCodePoint_encode l
  rw [h1, h3, List.cons_append, List.cons_append, List.cons.injEq] at h
  obtain ⟨rfl, h⟩ := h
  have := h2 a
  rw [h, h4 b] at this
  simp only [Prod.mk.injEq] at this
  exact ⟨this.1.symm, this.2.symm⟩

/-- Text after text. -/
theorem Utf8.cancel {a b : Bytes} (h : Utf8 (a ++ b)) (ha : Utf8 a) : Utf8 b := by
  obtain ⟨cs, rfl⟩ := ha
  induction cs with
  | nil => exact h
  | cons c cs ih =>
    obtain ⟨L, hL⟩ := h
    rw [encode_cons, List.append_assoc] at hL
    cases L with
    | nil =>
      obtain ⟨x, r, h1, -⟩ := nextCodePoint_encode c
      rw [h1] at hL
      simp [encode] at hL
    | cons l L =>
      rw [encode_cons] at hL
      exact ih ⟨L, (char_cancel hL).2⟩

theorem encode_startsLine {c : Char} {y : Bytes}
    (h : StartsLine (encodeChar c ++ y)) : isTerminator c = true := by
  unfold isTerminator
  rcases h with ⟨r, h⟩ | ⟨r, h⟩ | ⟨r, h⟩ | ⟨r, h⟩
  · rw [(char_cancel (c := '\n') h).1.symm]; rfl
  · rw [(char_cancel (c := '\r') h).1.symm]; rfl
  · rw [(char_cancel (c := '\u2028') h).1.symm]; rfl
  · rw [(char_cancel (c := '\u2029') h).1.symm]; rfl

theorem headOk_left {b y : Bytes} (hb : b ≠ []) (h : HeadOk (b ++ y)) : HeadOk b := by
  cases b with
  | nil => exact absurd rfl hb
  | cons x b => exact h

theorem nowhere_line {cs : List Char} {y : Bytes} (h : ∀ c ∈ cs, isTerminator c = false) :
    NowhereIn (encode cs) y StartsLine := by
  intro a b hab hb hs
  obtain ⟨x, z, rfl, -, rfl⟩ := encode_split cs a b hab (headOk_left hb (startsLine_headOk hs))
  cases z with
  | nil => exact hb rfl
  | cons c z =>
    rw [encode_cons, List.append_assoc] at hs
    have := encode_startsLine hs
    rw [h c (by simp)] at this
    cases this

theorem utf8_encode (cs : List Char) : Utf8 (encode cs) := ⟨cs, rfl⟩

theorem terminator_encode {d : Bytes} (hd : Terminator d) :
    ∃ c, d = encode [c] ∧ isTerminator c = true := by
  rcases hd with rfl | rfl | rfl | rfl
  · exact ⟨'\n', rfl, rfl⟩
  · exact ⟨'\r', rfl, rfl⟩
  · exact ⟨'\u2028', rfl, rfl⟩
  · exact ⟨'\u2029', rfl, rfl⟩

theorem terminator_utf8 {d : Bytes} (hd : Terminator d) : Utf8 d := by
  obtain ⟨c, h, -⟩ := terminator_encode hd
  exact ⟨_, h⟩

theorem gap_utf8 {g : Bytes} {fl : Bool} (hg : Gap g fl) : Utf8 g := by
  induction hg with
  | nil => exact Utf8.nil
  | blank b g fl hb _ ih =>
    refine Utf8.append (a := [b]) (utf8_ascii ?_) ih
    intro x hx
    obtain rfl := List.mem_singleton.1 hx
    revert hb
    revert x
    apply forall_byte
    decide +kernel
  | newline d g fl hd _ ih => exact (terminator_utf8 hd).append ih
  | block cs g fl hcs _ ih =>
    exact (((utf8_encode ['/', '*']).append (utf8_encode cs)).append (utf8_encode ['*', '/'])).append ih
  | line cs d g fl hcs hd _ ih =>
    exact (((utf8_encode ['/', '/']).append (utf8_encode cs)).append (terminator_utf8 hd)).append ih

/-- The gap is skipped, and it marks the next token if it contains a line terminator. -/
theorem scan_gap {c : Bool} {h : Hint} {g : Bytes} {fl : Bool} (hg : Gap g fl) :
    ∀ {y : Bytes} {f z v r}, Utf8 (g ++ y) → (Scan c h (g ++ y) f z v r ↔ Scan c h y (f || fl) z v r) := by
  induction hg with
  | nil => intro y f z v r _; simp
  | blank b g fl hb _ ih =>
    intro y f z v r hu
    have hb' : Blanks [b] := by simpa [Blanks] using hb
    have := scan_blanks (c := c) (h := h) (u := g ++ y) (f := f) (z := z) (v := v)
      (r := r) hb'
    rw [List.cons_append] at hu ⊢
    exact this.trans (ih (utf8_skip (bl := [b]) hu hb'))
  | newline d g fl hd _ ih =>
    intro y f z v r hu
    rw [List.append_assoc] at hu ⊢
    obtain ⟨h1, h2, h3, h4⟩ := readNext_terminator (c := c) (h := h) hd (g ++ y)
    rw [scan_skip h1 trivial h2 h3 hu, h4, ih]
    · simp
    · exact hu.cancel (terminator_utf8 hd)
  | block cs g fl hcs _ ih =>
    intro y f z v r hu
    have e : b!"/*" ++ encode cs ++ b!"*/" ++ g ++ y =
        c!"/" :: c!"*" :: (encode cs ++ (b!"*/" ++ (g ++ y))) := by simp
    have hn : NowhereIn (encode cs) (b!"*/" ++ (g ++ y)) (b!"*/" <+: ·) :=
      nowhere_short (r := b!"/") (by decide) hcs
    have hr : readNext c (b!"/*" ++ encode cs ++ b!"*/" ++ (g ++ y)) h =
        .ok (.comment .block (encode cs), (b!"/*" ++ encode cs ++ b!"*/").length) := by
      rw [← List.append_assoc, e]
      rw [e] at hu
      have hl : (b!"/*" ++ encode cs ++ b!"*/").length = (encode cs).length + 4 := by simp
      rw [hl]
      exact tokSlash_block (h := h) hu hn
    have hu8 : Utf8 (b!"/*" ++ encode cs ++ b!"*/") :=
      ((utf8_encode ['/', '*']).append (utf8_encode cs)).append (utf8_encode ['*', '/'])
    rw [List.append_assoc] at hu ⊢
    rw [scan_skip hr trivial (noBlankHead_cons (by decide)) (ascii_notWide (by decide)) hu,
      ih (hu.cancel hu8)]
    have hbr : breaks (b!"/*" ++ encode cs ++ b!"*/") = cs.any isTerminator := by
      have : b!"/*" ++ encode cs ++ b!"*/" = encode ('/' :: '*' :: (cs ++ ['*', '/'])) := by
        rw [encode_cons, encode_cons, encode_append]
        rw [← List.append_assoc, ← List.append_assoc]
        rfl
      rw [this, breaks_encode]
      simp [isTerminator]
    rw [hbr, Bool.or_assoc]
  | line cs d g fl hcs hd _ ih =>
    intro y f z v r hu
    have e : b!"//" ++ encode cs ++ d ++ g ++ y = c!"/" :: c!"/" :: (encode cs ++ (d ++ (g ++ y))) := by
      simp
    have hr : readNext c (b!"//" ++ encode cs ++ (d ++ (g ++ y))) h =
        .ok (.comment .line (encode cs), (b!"//" ++ encode cs).length) := by
      rw [e] at hu
      have hl : (b!"//" ++ encode cs).length = (encode cs).length + 2 := by simp
      rw [hl]
      exact tokSlash_line (h := h) hu (nowhere_line hcs) (.inr (terminator_startsLine hd _))
    have hu8 : Utf8 (b!"//" ++ encode cs) := (utf8_encode ['/', '/']).append (utf8_encode cs)
    have e2 : b!"//" ++ encode cs ++ d ++ g ++ y = b!"//" ++ encode cs ++ (d ++ (g ++ y)) := by simp
    rw [e2] at hu ⊢
    have hu2 := hu.cancel hu8
    obtain ⟨h1, h2, h3, h4⟩ := readNext_terminator (c := c) (h := h) hd (g ++ y)
    rw [scan_skip hr trivial (noBlankHead_cons (by decide)) (ascii_notWide (by decide)) hu,
      scan_skip h1 trivial h2 h3 hu2, ih (hu2.cancel (terminator_utf8 hd)), h4]
    simp

/-! ## The text in front of a gap -/

theorem wide_prefix {u a b : Bytes} (hu : u ≠ []) (ha : HeadOk b) (h : StartsWide (u ++ b)) :
    StartsWide (u ++ a) := by
  have key : StartsWide u := by
    rcases u with _ | ⟨x, _ | ⟨y, _ | ⟨z, u⟩⟩⟩
    · exact absurd rfl hu
    · exfalso
      rcases b with _ | ⟨b0, b⟩
      · simp [StartsWide, noBreakSpace, byteOrderMark] at h
      · rcases h with h | h
        · simp [noBreakSpace] at h
          rw [← h.2] at ha; exact absurd ha (by simp only [HeadOk]; decide)
        · simp [byteOrderMark] at h
          rw [← h.2.1] at ha; exact absurd ha (by simp only [HeadOk]; decide)
    · rcases b with _ | ⟨b0, b⟩
      · simpa using h
      · rcases h with h | h
        · exact .inl (by simpa [noBreakSpace] using h)
        · simp [byteOrderMark] at h
          rw [← h.2.2] at ha; exact absurd ha (by simp only [HeadOk]; decide)
    · rcases h with h | h
      · exact .inl (by simpa [noBreakSpace] using h)
      · exact .inr (by simpa [byteOrderMark] using h)
  rcases key with h | h
  · exact .inl (h.trans (List.prefix_append _ _))
  · exact .inr (h.trans (List.prefix_append _ _))

theorem noBlank_prefix {u a b : Bytes} (hu : u ≠ []) (h : NoBlankHead (u ++ a)) : NoBlankHead (u ++ b) := by
  cases u with
  | nil => exact absurd rfl hu
  | cons x u =>
    rintro y r he
    rw [List.cons_append, List.cons.injEq] at he
    obtain ⟨rfl, -⟩ := he
    exact h x (u ++ a) rfl

/-- One call of `next_token` that ends before the gap. -/
theorem one_prefix {c : Bool} {h : Hint} {p a b : Bytes} {tok w r bl s n}
    (ho : One c h (p ++ a) tok w r bl s n) (h0 : 0 < n) (hr : a.length ≤ r.length)
    (hab : ∀ v, tok = .num v → a ≠ [] ∧ b ≠ []) (hua : Utf8 (p ++ a)) (hub : Utf8 (p ++ b)) (hoa : HeadOk a)
    (hok : HeadOk b) (hap : r.length = a.length → Apart tok w b)
    (hdot : ¬ ([c!"."] <:+ p ∧ [c!"."] <+: b)) :
    ∃ q s', r = q ++ a ∧ p = bl ++ w ++ q ∧ One c h (p ++ b) tok w (q ++ b) bl s' n := by
  have hle := isBoundary_le ho.bd
  have hwl : w.length = n := by rw [ho.spelled, List.length_take, Nat.min_eq_left hle]
  have hs : s = w ++ r := by rw [ho.spelled, ho.rest, List.take_append_drop]
  have he : p ++ a = (bl ++ w) ++ r := by rw [ho.text, hs, List.append_assoc]
  have hpl : (bl ++ w).length ≤ p.length := by
    have := congrArg List.length he
    rw [List.length_append, List.length_append (as := bl ++ w)] at this
    omega
  obtain ⟨q, hp, hrq⟩ := prefix_split he hpl
  have hwne : w ≠ [] := by rintro rfl; simp at hwl; omega
  have hwq : w ++ q ≠ [] := by simp [hwne]
  have hpa : p ++ a = bl ++ ((w ++ q) ++ a) := by rw [hp]; simp
  have hpb : p ++ b = bl ++ ((w ++ q) ++ b) := by rw [hp]; simp
  have hsa : s = (w ++ q) ++ a := by rw [hs, hrq]; simp
  have hnb : NoBlankHead ((w ++ q) ++ a) := hsa ▸ ho.noBlank
  have hnw : ¬ StartsWide ((w ++ q) ++ a) := hsa ▸ ho.noWide
  have hub' : Utf8 ((w ++ q) ++ b) := utf8_skip (hpb ▸ hub) ho.blanks
  have hread : readNext c ((w ++ q) ++ b) h = .ok (tok, n) := by
    refine readNext_prefix (hsa ▸ ho.read) h0 (by simp; omega) hab (utf8_skip (hpa ▸ hua) ho.blanks)
      hub' hoa hok hnb hnw (fun hn => ?_) ?_
    · have hq : q = [] := by
        rw [List.length_append] at hn
        exact List.length_eq_zero_iff.1 (by omega)
      rw [hq, List.append_nil]
      exact hap (by rw [hrq, hq, List.nil_append])
    · rintro ⟨h1, h2⟩
      exact hdot ⟨by rw [hp, List.append_assoc]; exact h1.trans (List.suffix_append _ _), h2⟩
  have hnw' : ¬ StartsWide ((w ++ q) ++ b) := fun h => hnw (wide_prefix hwq hok h)
  have hnb' := noBlank_prefix (b := b) hwq hnb
  refine ⟨q, (w ++ q) ++ b, hrq, hp, hpb, ho.blanks, hnb', hnw', hread, ?_, ?_, ?_⟩
  · rcases readNext_described c h hub' hnb' hnw' with ⟨tok', n', hr', hl⟩ | ⟨e, hr', -⟩
    · rw [hread] at hr'; cases hr'; exact hl.boundary hub'
    · rw [hread] at hr'; cases hr'
  · rw [List.append_assoc, ← hwl, List.take_left]
  · rw [List.append_assoc, ← hwl, List.drop_left]

theorem scan_length {c : Bool} {h : Hint} {u f z w r} (hs : Scan c h u f z w r) :
    w.length + r.length ≤ u.length := by
  induction hs with
  | skip ho hi _ ih =>
    have := ho.text
    have h2 := ho.rest
    rw [this, List.length_append]
    rw [h2, List.length_drop] at ih
    omega
  | tok ho hi =>
    have := isBoundary_le ho.bd
    rw [ho.text, ho.rest, ho.spelled, List.length_append, List.length_drop, List.length_take]
    omega

theorem One.utf8 {c : Bool} {h : Hint} {u tok w r bl s n} (ho : One c h u tok w r bl s n)
    (hu : Utf8 u) : Utf8 r := by
  rw [ho.rest]
  exact (utf8_skip (ho.text ▸ hu) ho.blanks).drop ho.bd

/-- `read_token` in front of a gap. -/
theorem scan_prefix {c : Bool} {h : Hint} {a b u : Bytes} {f z w r}
    (hs : Scan c h u f z w r) (hw : w ≠ []) (hr : a.length ≤ r.length)
    (hab : ∀ v, z.2 = .num v → a ≠ [] ∧ b ≠ []) (hoa : HeadOk a) (hok : HeadOk b) :
    ∀ {p : Bytes}, u = p ++ a → Utf8 (p ++ a) → Utf8 (p ++ b) →
    (w <:+ p → r.length = a.length → Apart z.2 w b) → (¬ ([c!"."] <:+ p ∧ [c!"."] <+: b)) →
    ∃ q, r = q ++ a ∧ w ++ q <:+ p ∧ Scan c h (p ++ b) f z w (q ++ b) := by
  induction hs with
  | @skip u f tok v r1 bl s n z w r ho hi hs ih =>
    rintro p rfl hua hub hap hdot
    have h0 := (ho.insignificant hua hi).2
    have hl := scan_length hs
    have hw1 : 0 < w.length := List.length_pos_iff.2 hw
    obtain ⟨q1, s', hq1, hp, ho'⟩ := one_prefix ho h0 (by omega) (fun v hv => by rw [hv] at hi; exact hi.elim) hua hub hoa hok
      (fun h => by omega) hdot
    obtain ⟨q, h1, h2, h3⟩ := ih hw hr hab hq1 (hq1 ▸ ho.utf8 hua) (ho'.utf8 hub)
      (fun h1 h2 => hap (hp ▸ h1.trans (List.suffix_append _ _)) h2)
      (fun h1 => hdot ⟨hp ▸ h1.1.trans (List.suffix_append _ _), h1.2⟩)
    exact ⟨q, h1, hp ▸ h2.trans (List.suffix_append _ _), .skip ho' hi h3⟩
  | @tok u f tok w r bl s n ho hi =>
    rintro p rfl hua hub hap hdot
    have h0 : 0 < n := by
      rcases Nat.eq_zero_or_pos n with rfl | h
      · exact absurd (by rw [ho.spelled]; rfl) hw
      · exact h
    obtain ⟨q, s', hq, hp, ho'⟩ := one_prefix ho h0 hr hab hua hub hoa hok (fun h => by
      refine hap ?_ h
      have hle := isBoundary_le ho.bd
      have hs : s = w ++ r := by rw [ho.spelled, ho.rest, List.take_append_drop]
      have he : p ++ a = (bl ++ w) ++ r := by rw [ho.text, hs, List.append_assoc]
      obtain ⟨h1, -⟩ := List.append_inj' he h.symm
      exact ⟨bl, h1.symm⟩) hdot
    refine ⟨q, hq, ⟨bl, ?_⟩, .tok ho' hi⟩
    rw [hp, List.append_assoc]

theorem scan_last {c : Bool} {h : Hint} {u f z w r} (hs : Scan c h u f z w r) (hu : Utf8 u) :
    ¬ Insignificant z.2 ∧ ∃ s n, Lexed h s z.2 n ∧ n ≤ s.length ∧ w = s.take n ∧ r = s.drop n := by
  induction hs with
  | skip ho hi _ ih => exact ih (ho.utf8 hu)
  | tok ho hi => exact ⟨hi, _, _, ho.lexed hu, isBoundary_le ho.bd, ho.spelled, ho.rest⟩

theorem scan_eof {c : Bool} {h : Hint} {u f z w r} (hs : Scan c h u f z w r) (hu : Utf8 u)
    (hz : z.2 = .eof) : r = [] := by
  obtain ⟨-, s, n, hl, -, -, hr⟩ := scan_last hs hu
  rw [hz] at hl
  cases hl
  exact hr

/-! ## A gap that ends the token before it -/

def separator (b : UInt8) : Bool := b == 0x20 || b == 0x09 || b == 0x0B || b == 0x0C || b == 0x0A ||
  b == 0x0D || b == 0xE2

theorem separator_head {g y : Bytes} (hg : Separates g) :
    ∃ b r, g ++ y = b :: r ∧ separator b = true := by
  rcases hg with ⟨b, r, rfl, hb⟩ | ⟨r, rfl⟩ | ⟨r, rfl⟩ | ⟨r, rfl⟩ | ⟨r, rfl⟩
  · refine ⟨b, r ++ y, rfl, ?_⟩
    revert b
    apply forall_byte
    decide +kernel
  all_goals exact ⟨_, _, rfl, by decide⟩

instance (b : UInt8) : Decidable (Lower b) := by unfold Lower; infer_instance

theorem separator_not : ∀ b : UInt8, separator b = true → ¬ IdentPart b ∧ b ≠ c!"." ∧ b ≠ c!"+" ∧
    b ≠ c!"-" ∧ ¬ Lower b ∧ b ≠ c!"/" ∧ b ≠ c!"*" ∧ ¬ Digit b := by
  apply forall_byte
  decide +kernel

theorem separator_spelling (q : Punct) : ∀ b ∈ spelling q, separator b = false := by
  cases q <;> decide

theorem apart_of_separates {h : Hint} {s : Bytes} {tok : Token} {n : Nat} (hl : Lexed h s tok n)
    (hi : ¬ Insignificant tok) {g : Bytes} (hg : Separates g) (y : Bytes) :
    Apart tok (s.take n) (g ++ y) := by
  obtain ⟨b, r, he, hb⟩ := separator_head (y := y) hg
  rw [he]
  obtain ⟨h1, h2, h3, h4, h5, h6, h7, h8⟩ := separator_not b hb
  refine ⟨fun hd => ?_, ?_⟩
  · obtain ⟨e, hd⟩ := hd.2
    rw [List.cons_append, List.cons.injEq] at hd
    exact h2 hd.1.symm
  have hp : ∀ p, spelling p <+: s → n = (spelling p).length → ∀ q, q ≠ .lAngleExclamDashDash →
      spelling q <+: s.take n ++ b :: r → (spelling q).length ≤ (spelling p).length := by
    rintro p ⟨e, rfl⟩ rfl q - ⟨e', hq⟩
    rw [List.take_left] at hq
    rcases Nat.lt_or_ge (spelling p).length (spelling q).length with hlt | hle
    swap
    · exact hle
    · exfalso
      obtain ⟨d, hd, hd'⟩ := prefix_split hq (Nat.le_of_lt hlt)
      cases d with
      | nil => rw [hd, List.append_nil] at hlt; omega
      | cons d0 d =>
        rw [List.cons_append, List.cons.injEq] at hd'
        have := separator_spelling q d0 (by rw [hd]; simp)
        rw [← hd'.1, hb] at this
        cases this
  cases hl with
  | eof => trivial
  | punct p s hsp =>
    refine ⟨hp p hsp.pre rfl, fun e => absurd e hsp.neSlash, ?_⟩
    rintro - d r' hd
    obtain ⟨rfl, -⟩ := List.cons.inj hd
    exact h8
  | slash rest =>
    refine ⟨hp .slash ⟨rest, rfl⟩ rfl, fun _ => ⟨?_, ?_⟩, nofun⟩
    · rintro ⟨e, hd⟩; exact h6 (List.cons.inj hd).1.symm
    · rintro ⟨e, hd⟩; exact h7 (List.cons.inj hd).1.symm
  | slashEq rest => exact ⟨hp .slashEq ⟨rest, rfl⟩ rfl, nofun, nofun⟩
  | curlyClose rest => exact ⟨hp .curlyClose ⟨rest, rfl⟩ rfl, nofun, nofun⟩
  | line => exact absurd trivial hi
  | block => exact absurd trivial hi
  | regex =>
    intro d r' hd
    obtain ⟨rfl, -⟩ := List.cons.inj hd
    exact h5
  | str => trivial
  | strOpen => trivial
  | num =>
    intro d r' hd
    obtain ⟨rfl, -⟩ := List.cons.inj hd
    exact ⟨h1, h2, fun _ => ⟨h3, h4⟩⟩
  | templateTick => trivial
  | templateCurly => trivial
  | tailTick => trivial
  | tailCurly => trivial
  | newline => exact absurd trivial hi
  | lsps => exact absurd trivial hi
  | ident =>
    intro d r' hd
    obtain ⟨rfl, -⟩ := List.cons.inj hd
    exact h1

end Jsparse
