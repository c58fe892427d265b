import Verif.Proofs.ReadToken
import Verif.Props.Positions
/-!
# `read_token` as a relation on the unread text

What `read_token` delivers, apart from positions, depends on the unread text and the hint only.
-/

namespace Jsparse

open P Spec

/-! ## Line terminators inside of a token -/

def codeBreak (c : Nat) : Bool := c == 0x0A || c == 0x0D || c == 0x2028 || c == 0x2029

def breaks (w : Bytes) : Bool := (codePoints w).any codeBreak

theorem bump_mono (cs : List Nat) : ∀ st : Nat × Nat × Bool, st.1 ≤ (cs.foldl bumpChar st).1 := by
  induction cs with
  | nil => intro st; exact Nat.le_refl _
  | cons c cs ih =>
    rintro ⟨l, k, b⟩
    refine Nat.le_trans ?_ (ih _)
    unfold bumpChar
    simp only
    split
    · exact Nat.le_succ _
    · split
      · split
        · exact Nat.le_succ _
        · exact Nat.le_refl _
      · split
        · exact Nat.le_succ _
        · exact Nat.le_refl _

theorem bump_lines (cs : List Nat) : ∀ l k : Nat,
    decide (l ≠ (cs.foldl bumpChar (l, k, false)).1) = cs.any codeBreak := by
  induction cs with
  | nil => intro l k; simp
  | cons c cs ih =>
    intro l k
    rw [List.foldl_cons, List.any_cons]
    by_cases hc : codeBreak c = true
    · rw [hc, Bool.true_or, decide_eq_true_eq]
      have h1 : l + 1 ≤ (bumpChar (l, k, false) c).1 := by
        unfold codeBreak at hc
        simp only [Bool.or_eq_true, beq_iff_eq] at hc
        rcases hc with ((rfl | rfl) | rfl) | rfl <;> simp [bumpChar]
      have := bump_mono cs (bumpChar (l, k, false) c)
      omega
    · rw [Bool.not_eq_true] at hc
      rw [hc, Bool.false_or]
      have h1 : bumpChar (l, k, false) c = (l, k + 1, false) := by
        unfold codeBreak at hc
        simp only [Bool.or_eq_false_iff, beq_eq_false_iff_ne] at hc
        unfold bumpChar
        simp [hc]
      rw [h1]
      exact ih _ _

theorem breaks_encode (cs : List Char) : breaks (encode cs) = cs.any isTerminator := by
  unfold breaks
  rw [codePoints_encode, List.any_map]
  rfl

/-! ## One call of `next_token` -/

/-- On the unread text `u`, `next_token` returns the token `tok`, spelled `w`, and leaves `r`. -/
structure One (c : Bool) (h : Hint) (u : Bytes) (tok : Token) (w r : Bytes) (bl s : Bytes) (n : Nat) :
    Prop where
  text : u = bl ++ s
  blanks : Blanks bl
  noBlank : NoBlankHead s
  noWide : ¬ StartsWide s
  read : readNext c s h = .ok (tok, n)
  bd : isBoundary s n = true
  spelled : w = s.take n
  rest : r = s.drop n

theorem one_of_nextToken {t : Tokenizer} {h : Hint} {tok : Token} {rg : TokenRange} {t' : Tokenizer}
    (hn : t.nextToken h = .ok (tok, rg, t')) :
    ∃ w bl s n, One t.checked h (unread t) tok w (unread t') bl s n ∧
      decide (rg.start.line ≠ rg.stop.line) = breaks w ∧ t'.checked = t.checked ∧
      rg.start.offset = t.position.offset + bl.length ∧ rg.stop.offset = rg.start.offset + w.length ∧
      t'.position = rg.stop ∧ t'.code = t.code := by
  obtain ⟨bl, s, n, hi⟩ := nextToken_ok hn
  refine ⟨s.take n, bl, s, n, ⟨hi.unread, hi.blanks, hi.noBlank, hi.noWide, hi.read, hi.bd, rfl,
    hi.unread'⟩, ?_, by rw [hi.next], by rw [hi.start]; rfl, ?_, by rw [hi.next], by rw [hi.next]⟩
  · rw [hi.stop]
    exact bump_lines _ _ _
  · rw [hi.stop, List.length_take, Nat.min_eq_left (isBoundary_le hi.bd)]

theorem One.unique {c : Bool} {h : Hint} {u tok w r bl s n tok' w' r' bl' s' n'}
    (h1 : One c h u tok w r bl s n) (h2 : One c h u tok' w' r' bl' s' n') :
    tok = tok' ∧ w = w' ∧ r = r' ∧ bl = bl' ∧ s = s' ∧ n = n' := by
  obtain ⟨rfl, rfl⟩ := blanks_unique (h1.text.symm.trans h2.text) h1.blanks h2.blanks h1.noBlank
    h2.noBlank
  have := h1.read.symm.trans h2.read
  simp only [Except.ok.injEq, Prod.mk.injEq] at this
  obtain ⟨rfl, rfl⟩ := this
  exact ⟨rfl, h1.spelled.trans h2.spelled.symm, h1.rest.trans h2.rest.symm, rfl, rfl, rfl⟩

theorem nextToken_of_one {t : Tokenizer} (hv : Valid t) {h : Hint} {tok w r bl s n}
    (ho : One t.checked h (unread t) tok w r bl s n) :
    ∃ rg t', t.nextToken h = .ok (tok, rg, t') ∧ unread t' = r ∧ t'.checked = t.checked ∧
      decide (rg.start.line ≠ rg.stop.line) = breaks w ∧ rg.stop.offset = rg.start.offset + w.length ∧
      t'.position = rg.stop ∧ t'.code = t.code := by
  obtain ⟨rg, t', h1, -⟩ := reads_of_readNext hv ho.text ho.blanks ho.noBlank ho.noWide ho.read ho.bd
  obtain ⟨w', bl', s', n', h2, h3, h4, -, h5, h6, h7⟩ := one_of_nextToken h1
  obtain ⟨-, rfl, rfl, -⟩ := ho.unique h2
  exact ⟨rg, t', h1, rfl, h4, h3, h5, h6, h7⟩

/-- Facts about insignificant tokens. -/
theorem One.lexed {c : Bool} {h : Hint} {u tok w r bl s n} (ho : One c h u tok w r bl s n)
    (hu : Utf8 u) : Lexed h s tok n := by
  rcases readNext_described c h (utf8_skip (ho.text ▸ hu) ho.blanks) ho.noBlank ho.noWide with
    ⟨tok', n', hr, hl⟩ | ⟨p, hr, -⟩
  · rw [ho.read] at hr; cases hr; exact hl
  · rw [ho.read] at hr; cases hr

theorem One.insignificant {c : Bool} {h : Hint} {u tok w r bl s n} (ho : One c h u tok w r bl s n)
    (hu : Utf8 u) (hi : Insignificant tok) :
    (tok = .lineTerminator ∧ breaks w = true ∨ ∃ k v, tok = .comment k v) ∧ 0 < n := by
  have hl := ho.lexed hu
  have hw := ho.spelled
  cases hl with
  | eof => exact hi.elim
  | punct => exact hi.elim
  | slash => exact hi.elim
  | slashEq => exact hi.elim
  | curlyClose => exact hi.elim
  | line v e => exact ⟨.inr ⟨_, _, rfl⟩, by omega⟩
  | block v e => exact ⟨.inr ⟨_, _, rfl⟩, by omega⟩
  | regex => exact hi.elim
  | str => exact hi.elim
  | strOpen => exact hi.elim
  | num => exact hi.elim
  | templateTick => exact hi.elim
  | templateCurly => exact hi.elim
  | tailTick => exact hi.elim
  | tailCurly => exact hi.elim
  | newline b rest hb =>
    refine ⟨.inl ⟨rfl, ?_⟩, by omega⟩
    rw [hw]
    rcases hb with rfl | rfl
    · exact breaks_encode ['\n']
    · exact breaks_encode ['\r']
  | lsps s hs =>
    refine ⟨.inl ⟨rfl, ?_⟩, by omega⟩
    rw [hw]
    rcases hs with ⟨e, rfl⟩ | ⟨e, rfl⟩
    · exact breaks_encode ['\u2028']
    · exact breaks_encode ['\u2029']
  | ident => exact hi.elim

instance (tok : Token) : Decidable (Insignificant tok) := by
  cases tok <;> unfold Insignificant <;> infer_instance

/-! ## `read_token` -/

/-- On the unread text, `read_token` delivers the marked token `z`, spelled `w`, and leaves the rest. -/
inductive Scan (c : Bool) (h : Hint) : Bytes → Bool → Bool × Token → Bytes → Bytes → Prop
  | skip {u f tok v r bl s n z w r'} : One c h u tok v r bl s n → Insignificant tok →
      Scan c h r (f || breaks v) z w r' → Scan c h u f z w r'
  | tok {u f tok w r bl s n} : One c h u tok w r bl s n → ¬ Insignificant tok →
      Scan c h u f (f, tok) w r

/-- The delivered token and the tokenizer behind it. -/
structure Scanned (t : Tokenizer) (look : Look) (t' : Tokenizer) (w : Bytes) : Prop where
  valid : Valid t'
  checked : t'.checked = t.checked
  width : look.range.stop.offset = look.range.start.offset + w.length
  position : t'.position = look.range.stop
  code : t'.code = t.code

theorem scan_of_loop (h : Hint) : ∀ (m : Nat) (t : Tokenizer) (f : Bool) (look : Look) (t' : Tokenizer),
    Valid t → readTokenLoop m t h f = .ok look t' →
    ∃ w, Scan t.checked h (unread t) f look.seen w (unread t') ∧ Scanned t look t' w := by
  intro m
  induction m with
  | zero => intro t f look t' _ h1; cases h1
  | succ m ih =>
    intro t f look t' hv h1
    unfold readTokenLoop at h1
    cases hn : t.nextToken h with
    | error p => rw [hn] at h1; cases h1
    | ok x =>
      obtain ⟨tok, rg, t1⟩ := x
      rw [hn] at h1
      obtain ⟨w, bl, s, n, ho, hb, hc, -, hw, hp, hcd⟩ := one_of_nextToken hn
      have hv1 := valid_nextToken hv hn
      have key : ∀ f', Insignificant tok → readTokenLoop m t1 h f' = .ok look t' → f' = (f || breaks w) →
          ∃ w, Scan t.checked h (unread t) f look.seen w (unread t') ∧ Scanned t look t' w := by
        rintro f' hi h2 rfl
        obtain ⟨w', h3, h4⟩ := ih t1 _ look t' hv1 h2
        rw [hc] at h3
        exact ⟨w', .skip ho hi h3, h4.valid, h4.checked.trans hc, h4.width, h4.position, h4.code.trans hcd⟩
      by_cases hi : Insignificant tok
      · have hu : Utf8 (unread t) := hv.unread_utf8
        rcases (ho.insignificant hu hi).1 with ⟨rfl, hbr⟩ | ⟨k, v, rfl⟩
        · exact key true trivial h1 (by rw [hbr, Bool.or_true])
        · refine key _ trivial h1 ?_
          rw [← hb]
          by_cases hl : rg.start.line ≠ rg.stop.line <;> simp [hl]
      · have : look = ⟨f, tok, rg⟩ ∧ t' = t1 := by
          cases tok <;> first | exact absurd trivial hi | (cases h1; exact ⟨rfl, rfl⟩)
        obtain ⟨rfl, rfl⟩ := this
        exact ⟨w, .tok ho hi, hv1, hc, hw, hp, hcd⟩

theorem loop_of_scan {c : Bool} {h : Hint} {u f z w r} (hs : Scan c h u f z w r) :
    ∀ (m : Nat) (t : Tokenizer), Valid t → t.checked = c → unread t = u → u.length < m →
    ∃ look t', readTokenLoop m t h f = .ok look t' ∧ look.seen = z ∧ unread t' = r ∧
      Scanned t look t' w := by
  induction hs with
  | @skip u f tok v r bl s n z w r' ho hi _ ih =>
    rintro m t hv rfl rfl hm
    obtain ⟨rg, t1, hn, hr, hc, hb, -, -, hcd⟩ := nextToken_of_one hv ho
    obtain ⟨m, rfl⟩ : ∃ m', m = m' + 1 := ⟨m - 1, by omega⟩
    have hu : Utf8 (unread t) := hv.unread_utf8
    obtain ⟨htk, h0⟩ := ho.insignificant hu hi
    have hl : r.length < m := by
      rw [ho.text, List.length_append] at hm
      rw [ho.rest, List.length_drop]
      have := isBoundary_le ho.bd
      omega
    obtain ⟨look, t', h1, h2, h3, h4⟩ := ih m t1 (valid_nextToken hv hn) hc hr hl
    refine ⟨look, t', ?_, h2, h3, h4.valid, h4.checked.trans hc, h4.width, h4.position,
      h4.code.trans hcd⟩
    unfold readTokenLoop
    rw [hn]
    rcases htk with ⟨rfl, hbr⟩ | ⟨k, v, rfl⟩
    · rw [hbr, Bool.or_true] at h1
      exact h1
    · rw [← h1]
      show readTokenLoop m t1 h _ = _
      congr 1
      rw [← hb]
      by_cases hl : rg.start.line ≠ rg.stop.line <;> simp [hl]
  | @tok u f tok w r bl s n ho hi =>
    rintro m t hv rfl rfl hm
    obtain ⟨rg, t1, hn, hr, hc, hb, hw, hp, hcd⟩ := nextToken_of_one hv ho
    obtain ⟨m, rfl⟩ : ∃ m', m = m' + 1 := ⟨m - 1, by omega⟩
    refine ⟨⟨f, tok, rg⟩, t1, ?_, rfl, hr, valid_nextToken hv hn, hc, hw, hp, hcd⟩
    unfold readTokenLoop
    rw [hn]
    cases tok <;> first | exact absurd trivial hi | rfl

theorem scan_of_readToken {t : Tokenizer} (hv : Valid t) {h : Hint} {look : Look} {t' : Tokenizer}
    (hr : readToken t h = .ok look t') :
    ∃ w, Scan t.checked h (unread t) false look.seen w (unread t') ∧ Scanned t look t' w :=
  scan_of_loop h _ t false look t' hv hr

theorem readToken_of_scan {t : Tokenizer} (hv : Valid t) {h : Hint} {z w r}
    (hs : Scan t.checked h (unread t) false z w r) :
    ∃ look t', readToken t h = .ok look t' ∧ look.seen = z ∧ unread t' = r ∧ Scanned t look t' w :=
  loop_of_scan hs _ t hv rfl rfl (by simp only [unread, List.length_drop]; omega)

end Jsparse
