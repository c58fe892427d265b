import Verif.Proofs.Prefix
import Verif.Props.Tokens
import Verif.Props.Numbers
import Verif.Props.Strings
/-!
# A token does not depend on the text that follows it: `read_next`
-/

namespace Jsparse

open Spec

theorem prefix_split {p a w e : Bytes} (h : p ++ a = w ++ e) (hl : w.length ≤ p.length) :
    ∃ p', p = w ++ p' ∧ e = p' ++ a := by
  rcases List.append_eq_append_iff.1 h with ⟨c, rfl, rfl⟩ | ⟨c, rfl, rfl⟩
  · have : c = [] := List.length_eq_zero_iff.1 (by rw [List.length_append] at hl; omega)
    subst this
    exact ⟨[], by simp, by simp⟩
  · exact ⟨c, rfl, rfl⟩

theorem spelling_length (q : Punct) : 1 ≤ (spelling q).length ∧ (spelling q).length ≤ 4 := by
  cases q <;> decide

theorem spelling_take (q : Punct) (hq : q ≠ .lAngleExclamDashDash) (k : Fin 4) :
    (spelling q).take (k + 1) = b!".." ∨
      (punctOf ((spelling q).take (k + 1))).any (· != .lAngleExclamDashDash) = true := by
  revert k
  cases q <;> first | exact absurd rfl hq | decide

theorem punctOf_some {w : Bytes} {q : Punct} (h : punctOf w = some q) : spelling q = w := by
  have := List.find?_some h
  simpa using this

/-- Anything but `..` that begins a punctuator is one. -/
theorem spelling_prefix (q : Punct) (hq : q ≠ .lAngleExclamDashDash) {u e : Bytes} (hu : u ≠ [])
    (h : spelling q = u ++ e) : u = b!".." ∨ ∃ q', q' ≠ .lAngleExclamDashDash ∧ spelling q' = u := by
  have hl := (spelling_length q).2
  have h1 : 1 ≤ u.length := List.length_pos_iff.2 hu
  rw [h, List.length_append] at hl
  have := spelling_take q hq ⟨u.length - 1, by omega⟩
  rw [h, show ((⟨u.length - 1, by omega⟩ : Fin 4) : Nat) + 1 = u.length by simp only; omega,
    List.take_left] at this
  rcases this with h2 | h2
  · exact .inl h2
  · cases hp : punctOf u with
    | none => rw [hp] at h2; cases h2
    | some q' =>
      rw [hp] at h2
      exact .inr ⟨q', by simpa using h2, punctOf_some hp⟩

theorem spelling_notBlank {p : Punct} {s : Bytes} (h : spelling p <+: s) : NoBlankHead s := by
  rintro b r rfl hb
  obtain ⟨e, he⟩ := h
  cases hc : spelling p with
  | nil => have := (spelling_length p).1; rw [hc] at this; simp at this
  | cons c w =>
    rw [hc] at he
    simp only [List.cons_append, List.cons.injEq] at he
    rw [← he.1] at hb
    cases p <;> simp [spelling] at hc <;> (obtain ⟨rfl, -⟩ := hc) <;> revert hb <;> decide

theorem simplePunct_read {checked : Bool} {p : Punct} {s : Bytes} (hu : Utf8 s) (hp : SimplePunct p s)
    (h : Hint) : readNext checked s h = .ok (.punct p, (spelling p).length) := by
  have hv := valid_intoTokenizer checked hu
  have hr := (C08_longest_punctuator hv (bl := []) (s := s) rfl (by simp [Blanks])
    (spelling_notBlank hp.pre) h p).2 ⟨hp.neHtml, ⟨hp.pre, hp.longest⟩, simplePunct_notPunct hp h⟩
  have ha : Ahead (intoTokenizer checked s) [] s := ⟨rfl, by simp [Blanks], spelling_notBlank hp.pre⟩
  obtain ⟨-, -, n, -, hn, hw, hr⟩ := ha.inv hv hr
  rw [show (intoTokenizer checked s).checked = checked from rfl] at hr
  rw [hr, hw, List.length_take, Nat.min_eq_left hn]

theorem simplePunct_prefix {q : Punct} {p a b : Bytes} (hp : SimplePunct q (p ++ a))
    (hn : (spelling q).length ≤ p.length)
    (hap : (spelling q).length = p.length → Apart (.punct q) p b)
    (hdot : ¬ ([c!"."] <:+ p ∧ [c!"."] <+: b)) : SimplePunct q (p ++ b) := by
  obtain ⟨e, he⟩ := hp.pre
  obtain ⟨p', hp', -⟩ := prefix_split he.symm hn
  have hsq : spelling q ≠ [] := by
    have := (spelling_length q).1
    intro h; rw [h] at this; simp at this
  refine ⟨⟨p' ++ b, by rw [hp']; simp⟩, ?_, hp.neSlash, hp.neSlashEq, hp.neCurly, hp.neHtml, ?_⟩
  · intro q2 hq2 hpre
    by_cases hl : p' = []
    · have hle : (spelling q).length = p.length := by rw [hp', hl]; simp
      exact (hap hle).2.1 q2 hq2 hpre
    · rcases Nat.le_total (spelling q2).length p.length with h1 | h1
      · obtain ⟨e2, he2⟩ := hpre
        obtain ⟨p2, hp2, -⟩ := prefix_split he2.symm h1
        exact hp.longest q2 hq2 ⟨p2 ++ a, by rw [hp2]; simp⟩
      · obtain ⟨e2, he2⟩ := hpre
        obtain ⟨p2, hp2, hb2⟩ := prefix_split he2 h1
        have hpne : p ≠ [] := by rw [hp']; simp [hsq]
        rcases spelling_prefix q2 hq2 hpne hp2 with h3 | ⟨q3, h3, h4⟩
        · -- `..`
          rcases Nat.lt_or_ge (spelling q).length (spelling q2).length with h5 | h5
          · exfalso
            apply hdot
            refine ⟨by rw [h3]; exact ⟨b!".", rfl⟩, ?_⟩
            rw [h3] at hp2
            have hq2e : q2 = .ellipsis := by
              cases q2 <;> simp [spelling] at hp2 ⊢
            subst hq2e
            have : p2 = b!"." := by simpa [spelling] using hp2.symm
            rw [hb2, this]
            exact ⟨e2, rfl⟩
          · exact h5
        · have h5 := hp.longest q3 h3 ⟨a, by rw [h4]⟩
          rw [h4, hp', List.length_append] at h5
          have : 0 < p'.length := List.length_pos_iff.2 hl
          omega
  · rintro rfl d rest hs
    cases p' with
    | nil =>
      rw [List.append_nil] at hp'
      have := (hap (by rw [hp'])).2.2.2 rfl d rest
      rw [hp'] at hs
      simp only [spelling, List.cons_append, List.nil_append, List.cons.injEq, true_and] at hs
      cases hd : isDigit d with
      | false => rfl
      | true => exact absurd ((isDigit_iff d).1 hd) (this hs)
    | cons d' p' =>
      rw [hp'] at hs
      simp only [spelling, List.cons_append, List.nil_append, List.cons.injEq, true_and] at hs
      rw [← hs.1]
      exact hp.period rfl d' (p' ++ a) (by rw [hp']; rfl)

/-! ## Line terminators -/

theorem startsLine_prefix {u b : Bytes} (hu : u ≠ []) (hb : HeadOk b) (h : StartsLine (u ++ b)) :
    StartsLine u := by
  rcases u with _ | ⟨x, _ | ⟨y, _ | ⟨z, u⟩⟩⟩
  · exact absurd rfl hu
  · rcases b with _ | ⟨b0, b⟩
    · simpa using h
    · rcases h with h | h | h | h
      · exact .inl (by simpa using h)
      · exact .inr (.inl (by simpa using h))
      · simp [lineSeparator] at h
        rw [← h.2.1] at hb; exact absurd hb (by simp only [HeadOk]; decide)
      · simp [paragraphSeparator] at h
        rw [← h.2.1] at hb; exact absurd hb (by simp only [HeadOk]; decide)
  · rcases b with _ | ⟨b0, b⟩
    · simpa using h
    · rcases h with h | h | h | h
      · exact .inl (by simpa using h)
      · exact .inr (.inl (by simpa using h))
      · simp [lineSeparator] at h
        rw [← h.2.2] at hb; exact absurd hb (by simp only [HeadOk]; decide)
      · simp [paragraphSeparator] at h
        rw [← h.2.2] at hb; exact absurd hb (by simp only [HeadOk]; decide)
  · rcases h with h | h | h | h
    · exact .inl (by simpa using h)
    · exact .inr (.inl (by simpa using h))
    · exact .inr (.inr (.inl (by simpa [lineSeparator] using h)))
    · exact .inr (.inr (.inr (by simpa [paragraphSeparator] using h)))

theorem startsLine_more {u : Bytes} (h : StartsLine u) (b : Bytes) : StartsLine (u ++ b) := by
  rcases h with h | h | h | h
  · exact .inl (h.trans (List.prefix_append _ _))
  · exact .inr (.inl (h.trans (List.prefix_append _ _)))
  · exact .inr (.inr (.inl (h.trans (List.prefix_append _ _))))
  · exact .inr (.inr (.inr (h.trans (List.prefix_append _ _))))

theorem nowhere_line_prefix {v e b : Bytes} (a : Bytes) (hb : HeadOk b)
    (h : NowhereIn v (e ++ a) StartsLine) : NowhereIn v (e ++ b) StartsLine := by
  intro x y hv hy hs
  rw [← List.append_assoc] at hs
  have := startsLine_more (startsLine_prefix (by simp [hy]) hb hs) a
  rw [List.append_assoc] at this
  exact h x y hv hy this

/-- A stop of at most two bytes inside of a text that is followed by a fixed byte. -/
theorem nowhere_short {v : Bytes} {d : UInt8} {w r r' : Bytes} (hw : w.length ≤ 2)
    (h : NowhereIn v (d :: r) (w <+: ·)) : NowhereIn v (d :: r') (w <+: ·) := by
  intro x y hv hy hs
  refine h x y hv hy ?_
  rcases y with _ | ⟨y0, y⟩
  · exact absurd rfl hy
  have h1 : w.length ≤ ((y0 :: y) ++ [d]).length := by simp; omega
  obtain ⟨e, he⟩ := hs
  have he' : (y0 :: y) ++ [d] ++ r' = w ++ e := by rw [he]; simp
  obtain ⟨p', hp', -⟩ := prefix_split he' h1
  exact ⟨p' ++ r, by rw [← List.append_assoc, ← hp']; simp⟩

theorem nowhere_template {v : Bytes} {d : UInt8} {r r' : Bytes}
    (h : NowhereIn v (d :: r) TemplateStop) : NowhereIn v (d :: r') TemplateStop := by
  intro x y hv hy hs
  rcases hs with hs | hs
  · exact nowhere_short (w := b!"`") (by decide) (fun x y hv hy hs => h x y hv hy (.inl hs)) x y hv hy hs
  · exact nowhere_short (w := b!"${") (by decide) (fun x y hv hy hs => h x y hv hy (.inr hs)) x y hv hy hs

/-! ## `read_next` -/

theorem readNext_prefix {checked : Bool} {h : Hint} {p a b : Bytes} {tok : Token} {n : Nat}
    (hr : readNext checked (p ++ a) h = .ok (tok, n)) (h0 : 0 < n) (hn : n ≤ p.length)
    (hab : ∀ v, tok = .num v → a ≠ [] ∧ b ≠ []) (hua : Utf8 (p ++ a)) (hub : Utf8 (p ++ b)) (hoa : HeadOk a)
    (hok : HeadOk b) (hbl : NoBlankHead (p ++ a)) (hw : ¬ StartsWide (p ++ a))
    (hap : n = p.length → Apart tok p b) (hdot : ¬ ([c!"."] <:+ p ∧ [c!"."] <+: b)) :
    readNext checked (p ++ b) h = .ok (tok, n) := by
  rcases readNext_described checked h hua hbl hw with ⟨tok', n', hr', hl⟩ | ⟨e, he, -⟩
  swap
  · rw [hr] at he; cases he
  rw [hr] at hr'
  obtain ⟨rfl, rfl⟩ : tok = tok' ∧ n = n' := by simpa using hr'
  generalize hpa : p ++ a = s at hl
  cases hl with
  | eof => omega
  | punct q s hq =>
    subst hpa
    exact simplePunct_read hub (simplePunct_prefix hq hn hap hdot) h
  | slash rest hx hc hne =>
    obtain ⟨p', rfl, rfl⟩ := prefix_split (w := [c!"/"]) (hpa) hn
    have hc' : NoComment (p' ++ b) ∧ ¬ b!"=" <+: p' ++ b := by
      cases p' with
      | nil =>
        have := hap rfl
        refine ⟨this.2.2.1 rfl, fun h2 => ?_⟩
        obtain ⟨r, hr⟩ := h2
        have := this.2.1 .slashEq (by decide) ⟨r, by rw [List.nil_append] at hr; rw [← hr]; rfl⟩
        simp [spelling] at this
      | cons x p' => simpa [NoComment] using And.intro hc hne
    exact tokSlash_slash hx hc'.1 hc'.2
  | slashEq rest hx =>
    obtain ⟨p', rfl, rfl⟩ := prefix_split (w := [c!"/", c!"="]) (hpa) hn
    exact tokSlash_slashEq hx
  | curlyClose rest ht =>
    obtain ⟨p', rfl, rfl⟩ := prefix_split (w := [c!"}"]) (hpa) hn
    exact tokCurlyClose_plain ht
  | line v e hv he =>
    obtain ⟨p', rfl, rfl⟩ := prefix_split (w := c!"/" :: c!"/" :: v) (e := e) (by rw [hpa]; simp) (by simpa using hn)
    have heb : StartsLine (p' ++ b) := by
      cases p' with
      | nil => exact (hap (by simp)).2
      | cons x p' => exact startsLine_more (startsLine_prefix (by simp) hoa (he.resolve_left (by simp))) b
    have : NowhereIn v (p' ++ b) StartsLine := nowhere_line_prefix a hok hv
    rw [List.append_assoc] at hub ⊢
    exact tokSlash_line (h := h) hub this (.inr heb)
  | block v rest hv =>
    obtain ⟨p', rfl, rfl⟩ := prefix_split (w := c!"/" :: c!"*" :: (v ++ b!"*/")) (e := rest) (by rw [hpa]; simp)
      (by simpa using hn)
    have : NowhereIn v (b!"*/" ++ (p' ++ b)) (b!"*/" <+: ·) := nowhere_short (by decide) hv
    have e : c!"/" :: c!"*" :: (v ++ b!"*/") ++ p' ++ b = c!"/" :: c!"*" :: (v ++ (b!"*/" ++ (p' ++ b))) := by
      simp
    rw [e] at hub ⊢
    exact tokSlash_block (h := h) hub this
  | regex v flags rest hx hc hv hf hrest =>
    obtain ⟨p', rfl, rfl⟩ := prefix_split (w := c!"/" :: (v ++ c!"/" :: flags)) (e := rest) (by rw [hpa]; simp)
      (by simp; omega)
    have hrest' : ∀ d r, p' ++ b = d :: r → ¬ Lower d := by
      cases p' with
      | nil => exact (hap (by simp; omega)).2
      | cons x p' =>
        rintro d r hd
        obtain ⟨rfl, -⟩ : x = d ∧ _ := by simpa using hd
        exact hrest x (p' ++ a) rfl
    have hc' : NoComment (v ++ c!"/" :: (flags ++ (p' ++ b))) := by
      cases v with
      | nil => exact absurd (by simp) hc.1
      | cons x v => simpa [NoComment] using hc
    have e : c!"/" :: (v ++ c!"/" :: flags) ++ p' ++ b = c!"/" :: (v ++ c!"/" :: (flags ++ (p' ++ b))) := by
      simp
    rw [e] at hub ⊢
    exact tokSlash_regex (h := h) hx hub hc' hv hf hrest'
  | str q v rest hq hv =>
    obtain ⟨p', rfl, rfl⟩ := prefix_split (w := q :: (v ++ [q])) (e := rest) (by rw [hpa]; simp)
      (by simpa using hn)
    have e : q :: (v ++ [q]) ++ p' ++ b = q :: (v ++ q :: (p' ++ b)) := by simp
    rw [e] at hub ⊢
    rw [readNext_str hq]
    exact tokStr_loose hq hv hub
  | strOpen => omega
  | num v s n h1 hbd hs =>
    subst hpa
    obtain ⟨ha, hb⟩ := hab v rfl
    have hp : p ≠ [] := by rintro rfl; simp at hn; omega
    have hstop : n = p.length → NumStop p b := fun e => (hap e).2
    obtain ⟨d, p', rfl⟩ : ∃ d p', p = d :: p' := by
      cases p with
      | nil => exact absurd rfl hp
      | cons d p' => exact ⟨d, p', rfl⟩
    rcases hs with ⟨d', r, hs, hd⟩ | ⟨d', r, hs, hd⟩
    · obtain ⟨rfl, -⟩ : d = d' ∧ _ := by simpa using hs
      rcases digit_zero_or hd with rfl | hd
      · exact tokZeroNum_stable hr hn ha hb hok hstop
      · have e (x : Bytes) : readNext checked (d :: p' ++ x) h = tokNum checked (d :: p' ++ x) :=
          readNext_num hd _
        rw [e] at hr ⊢
        exact tokNum_stable hr hn ha hb hok hstop
    · obtain ⟨rfl, hs⟩ : d = c!"." ∧ _ := by simpa using hs
      cases p' with
      | nil =>
        exfalso
        rw [show [c!"."] ++ a = c!"." :: d' :: r by simpa using hs, readNext_fractional hd,
          tokFractional_tail] at hr
        have h2 := numTail_ge hr
        have h3 : 1 ≤ (parseDecimalDigits (d' :: r)).2 := by
          unfold parseDecimalDigits parseDecimalLoop
          rw [if_pos ((isDigit_iff d').2 hd)]
          exact parseDecimalLoop_ge _ _ _ _
        simp only [List.drop_succ_cons, List.drop_zero, List.length_singleton] at h2 hn
        omega
      | cons d2 p' =>
        obtain ⟨rfl, -⟩ : d2 = d' ∧ _ := by simpa using hs
        have e (x : Bytes) : readNext checked (c!"." :: d2 :: p' ++ x) h =
            tokFractional checked (c!"." :: d2 :: p' ++ x) := readNext_fractional hd _
        rw [e] at hr ⊢
        exact tokFractional_stable (by simp) hr hn ha hb hok hstop
  | templateTick v rest hv =>
    obtain ⟨p', rfl, rfl⟩ := prefix_split (w := c!"`" :: (v ++ b!"`")) (e := rest) (by rw [hpa]; simp)
      (by simpa using hn)
    have e : c!"`" :: (v ++ b!"`") ++ p' ++ b = c!"`" :: (v ++ c!"`" :: (p' ++ b)) := by simp
    rw [e] at hub ⊢
    exact tokTemplateHead_tick hub (nowhere_template hv)
  | templateCurly v rest hv =>
    obtain ⟨p', rfl, rfl⟩ := prefix_split (w := c!"`" :: (v ++ b!"${")) (e := rest) (by rw [hpa]; simp)
      (by simpa using hn)
    have e : c!"`" :: (v ++ b!"${") ++ p' ++ b = c!"`" :: (v ++ c!"$" :: c!"{" :: (p' ++ b)) := by simp
    rw [e] at hub ⊢
    exact tokTemplateHead_curly hub (nowhere_template hv)
  | tailTick v rest ht hv =>
    obtain ⟨p', rfl, rfl⟩ := prefix_split (w := c!"}" :: (v ++ b!"`")) (e := rest) (by rw [hpa]; simp)
      (by simpa using hn)
    have e : c!"}" :: (v ++ b!"`") ++ p' ++ b = c!"}" :: (v ++ c!"`" :: (p' ++ b)) := by simp
    rw [e] at hub ⊢
    exact tokCurlyClose_tick ht hub (nowhere_template hv)
  | tailCurly v rest ht hv =>
    obtain ⟨p', rfl, rfl⟩ := prefix_split (w := c!"}" :: (v ++ b!"${")) (e := rest) (by rw [hpa]; simp)
      (by simpa using hn)
    have e : c!"}" :: (v ++ b!"${") ++ p' ++ b = c!"}" :: (v ++ c!"$" :: c!"{" :: (p' ++ b)) := by simp
    rw [e] at hub ⊢
    exact tokCurlyClose_curly ht hub (nowhere_template hv)
  | newline d rest hd =>
    obtain ⟨p', rfl, rfl⟩ := prefix_split (w := [d]) (hpa) hn
    rcases hd with rfl | rfl <;> rfl
  | lsps s hs =>
    subst hpa
    rcases hs with ⟨r, hs⟩ | ⟨r, hs⟩
    · obtain ⟨p', rfl, rfl⟩ := prefix_split (w := lineSeparator) hs.symm hn
      rfl
    · obtain ⟨p', rfl, rfl⟩ := prefix_split (w := paragraphSeparator) hs.symm hn
      rfl
  | ident v rest hv hrest hd hv0 =>
    obtain ⟨p', rfl, rfl⟩ := prefix_split (hpa) hn
    have hrest' : ∀ d r, p' ++ b = d :: r → ¬ IdentPart d := by
      cases p' with
      | nil => exact (hap (by simp)).2
      | cons x p' =>
        rintro d r hd
        obtain ⟨rfl, -⟩ : x = d ∧ _ := by simpa using hd
        exact hrest x (p' ++ a) rfl
    cases v with
    | nil => simp at h0
    | cons x v =>
      rw [List.append_assoc] at hub ⊢
      rw [List.cons_append] at hub ⊢
      rw [readNext_ident ((hv x (by simp)).resolve_right (hd x v rfl))]
      exact tokIdent_eq hub hv hrest'

end Jsparse
