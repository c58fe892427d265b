import Verif.Proofs.NextToken
import Verif.Proofs.Forward
import Verif.Proofs.Strings
import Verif.Proofs.NumTotal
/-! # Every outcome of `read_next` on a valid text -/

namespace Jsparse

open Spec

/-- The successful outcomes of `read_next`: the text, the token, the number of bytes it covers. -/
inductive Lexed (h : Hint) : Bytes → Token → Nat → Prop
  | eof : Lexed h [] .eof 0
  | punct (p s) : SimplePunct p s → Lexed h s (.punct p) (spelling p).length
  | slash (rest) : h.expression = false → NoComment rest → ¬ b!"=" <+: rest →
      Lexed h (c!"/" :: rest) (.punct .slash) 1
  | slashEq (rest) : h.expression = false → Lexed h (c!"/" :: c!"=" :: rest) (.punct .slashEq) 2
  | curlyClose (rest) : h.template = false → Lexed h (c!"}" :: rest) (.punct .curlyClose) 1
  | line (v e) : NowhereIn v e StartsLine → (e = [] ∨ StartsLine e) →
      Lexed h (c!"/" :: c!"/" :: (v ++ e)) (.comment .line v) (v.length + 2)
  | block (v rest) : NowhereIn v (b!"*/" ++ rest) (b!"*/" <+: ·) →
      Lexed h (c!"/" :: c!"*" :: (v ++ (b!"*/" ++ rest))) (.comment .block v) (v.length + 4)
  | regex (v flags rest) : h.expression = true → NoComment (v ++ c!"/" :: (flags ++ rest)) →
      RegexBody v → (∀ b ∈ flags, Lower b) → (∀ b r, rest = b :: r → ¬ Lower b) →
      Lexed h (c!"/" :: (v ++ c!"/" :: (flags ++ rest))) (.regex v flags)
        (v.length + flags.length + 2)
  | str (q v rest) : Quote q → LooseBody q false v →
      Lexed h (q :: (v ++ q :: rest)) (.str v) (v.length + 2)
  | strOpen (q s) : Quote q → (∀ v rest, s = v ++ q :: rest → ¬ LooseBody q false v) →
      Lexed h (q :: s) (.str []) 0
  | num (v s n) : 1 ≤ n → isBoundary s n = true →
      ((∃ b r, s = b :: r ∧ Digit b) ∨ ∃ b r, s = c!"." :: b :: r ∧ Digit b) →
      Lexed h s (.num v) n
  | templateTick (v rest) : NowhereIn v (c!"`" :: rest) TemplateStop →
      Lexed h (c!"`" :: (v ++ c!"`" :: rest)) (.template .noSubstitution v v) (v.length + 2)
  | templateCurly (v rest) : NowhereIn v (c!"$" :: c!"{" :: rest) TemplateStop →
      Lexed h (c!"`" :: (v ++ c!"$" :: c!"{" :: rest)) (.template .head v v) (v.length + 3)
  | tailTick (v rest) : h.template = true → NowhereIn v (c!"`" :: rest) TemplateStop →
      Lexed h (c!"}" :: (v ++ c!"`" :: rest)) (.template .tail v v) (v.length + 2)
  | tailCurly (v rest) : h.template = true → NowhereIn v (c!"$" :: c!"{" :: rest) TemplateStop →
      Lexed h (c!"}" :: (v ++ c!"$" :: c!"{" :: rest)) (.template .middle v v) (v.length + 3)
  | newline (b rest) : b = 0x0A ∨ b = 0x0D → Lexed h (b :: rest) .lineTerminator 1
  | lsps (s) : lineSeparator <+: s ∨ paragraphSeparator <+: s → Lexed h s .lineTerminator 3
  | ident (v rest) : (∀ b ∈ v, IdentPart b) → (∀ b r, rest = b :: r → ¬ IdentPart b) →
      (∀ b r, v = b :: r → ¬ Digit b) →
      (v = [] → ∃ b r, rest = b :: r ∧ special b = false ∧ ¬ StartsLine rest) →
      Lexed h (v ++ rest) (.ident v) v.length

/-- A result is either a described token or a described panic. -/
def Described (checked : Bool) (h : Hint) (s : Bytes) (r : Except Panic (Token × Nat)) : Prop :=
  (∃ tok n, r = .ok (tok, n) ∧ Lexed h s tok n) ∨ (∃ p, r = .error p ∧ Malformed checked h s p)

theorem template_cases (s : Bytes) :
    (∃ v rest, s = v ++ c!"`" :: rest ∧ NowhereIn v (c!"`" :: rest) TemplateStop) ∨
    (∃ v rest, s = v ++ c!"$" :: c!"{" :: rest ∧
      NowhereIn v (c!"$" :: c!"{" :: rest) TemplateStop) ∨
    NowhereIn s [] TemplateStop := by
  rcases first_occurrence TemplateStop s with ⟨v, e, rfl, -, h | h, hn⟩ | h
  · obtain ⟨r, rfl⟩ := h; exact .inl ⟨v, r, rfl, hn⟩
  · obtain ⟨r, rfl⟩ := h; exact .inr (.inl ⟨v, r, rfl, hn⟩)
  · exact .inr (.inr h)

theorem tokTemplateHead_described (checked : Bool) (h : Hint) {s : Bytes} (hu : Utf8 (c!"`" :: s)) :
    Described checked h (c!"`" :: s) (tokTemplateHead (c!"`" :: s)) := by
  rcases template_cases s with ⟨v, rest, rfl, hn⟩ | ⟨v, rest, rfl, hn⟩ | hn
  · exact .inl ⟨_, _, tokTemplateHead_tick hu hn, .templateTick v rest hn⟩
  · exact .inl ⟨_, _, tokTemplateHead_curly hu hn, .templateCurly v rest hn⟩
  · exact .inr ⟨_, tokTemplateHead_none hn, .template s hn⟩

theorem tokCurlyClose_described (checked : Bool) (h : Hint) {s : Bytes} (hu : Utf8 (c!"}" :: s)) :
    Described checked h (c!"}" :: s) (tokCurlyClose (c!"}" :: s) h) := by
  by_cases ht : h.template = true
  · rcases template_cases s with ⟨v, rest, rfl, hn⟩ | ⟨v, rest, rfl, hn⟩ | hn
    · exact .inl ⟨_, _, tokCurlyClose_tick ht hu hn, .tailTick v rest ht hn⟩
    · exact .inl ⟨_, _, tokCurlyClose_curly ht hu hn, .tailCurly v rest ht hn⟩
    · exact .inr ⟨_, tokCurlyClose_none ht hn, .templateTail s ht hn⟩
  · have ht : h.template = false := by simpa using ht
    exact .inl ⟨_, _, tokCurlyClose_plain ht, .curlyClose s ht⟩

theorem tokSlash_described (checked : Bool) (h : Hint) {s : Bytes} (hu : Utf8 (c!"/" :: s)) :
    Described checked h (c!"/" :: s) (tokSlash (c!"/" :: s) h) := by
  by_cases h1 : b!"/" <+: s
  · obtain ⟨r, rfl⟩ := h1
    simp only [List.cons_append, List.nil_append] at hu ⊢
    rcases first_occurrence StartsLine r with ⟨v, e, rfl, -, he, hn⟩ | hn
    · exact .inl ⟨_, _, tokSlash_line hu hn (.inr he), .line v e hn (.inr he)⟩
    · have := tokSlash_line (h := h) (v := r) (e := []) (by simpa using hu) hn (.inl rfl)
      have l := Lexed.line (h := h) r [] hn (.inl rfl)
      simp only [List.append_nil] at this l
      exact .inl ⟨_, _, this, l⟩
  by_cases h2 : b!"*" <+: s
  · obtain ⟨r, rfl⟩ := h2
    simp only [List.cons_append, List.nil_append] at hu ⊢
    rcases first_occurrence (b!"*/" <+: ·) r with ⟨v, e, rfl, -, ⟨e, rfl⟩, hn⟩ | hn
    · exact .inl ⟨_, _, tokSlash_block hu hn, .block v e hn⟩
    · exact .inr ⟨_, tokSlash_block_none hn, .comment r hn⟩
  have hc : NoComment s := ⟨h1, h2⟩
  by_cases hx : h.expression = true
  · by_cases hr : ∃ v rest, s = v ++ c!"/" :: rest ∧ RegexBody v
    · obtain ⟨v, rest, rfl, hv⟩ := hr
      obtain ⟨flags, rest, rfl, hf, hr⟩ := run_split Lower rest
      exact .inl ⟨_, _, tokSlash_regex hx hu hc hv hf hr, .regex v flags rest hx hc hv hf hr⟩
    · have hr' : ∀ v rest, s = v ++ c!"/" :: rest → ¬ RegexBody v :=
        fun v rest h1 h2 => hr ⟨v, rest, h1, h2⟩
      exact .inr ⟨_, tokSlash_regex_none hx hc hr', .regex s hx h1 h2 hr'⟩
  · have hx : h.expression = false := by simpa using hx
    by_cases he : b!"=" <+: s
    · obtain ⟨r, rfl⟩ := he
      exact .inl ⟨_, _, tokSlash_slashEq hx, .slashEq r hx⟩
    · exact .inl ⟨_, _, tokSlash_slash hx hc he, .slash s hx hc he⟩

theorem tokStr_loose {q : UInt8} (hq : Quote q) {v rest : Bytes} (hl : LooseBody q false v)
    (hu : Utf8 (q :: (v ++ q :: rest))) :
    tokStr q (q :: (v ++ q :: rest)) = .ok (.str v, v.length + 2) := by
  have hqa : q < 0x80 := by rcases hq with rfl | rfl <;> decide
  have h1 := strLoop_loose hq hl rest 1
  have hr : HeadOk rest := by
    have : Utf8 ((q :: v) ++ q :: rest) := by simpa using hu
    exact this.headOk_after_ascii hqa
  unfold tokStr
  have h1' : strLoop q ((q :: (v ++ q :: rest)).drop 1) 1 {} = .ok (some (1 + v.length)) := h1
  rw [h1']
  simp only [bind, Except.bind]
  rw [slice_one (v := v) (e := q :: rest) rfl (hu.tail_ascii hqa).headOk (headOk_ascii _ hqa)]
  simp only
  rw [slice_zero (v := q :: (v ++ [q])) (e := rest) (by simp) (by simp; omega) hr]
  simp [pure, Except.pure]; omega

theorem tokStr_described (checked : Bool) (h : Hint) {q : UInt8} (hq : Quote q) {s : Bytes}
    (hu : Utf8 (q :: s)) : Described checked h (q :: s) (tokStr q (q :: s)) := by
  cases hs : strLoop q s 1 (st0 false) with
  | error p =>
    right
    obtain ⟨v, e, rfl, h1, h2⟩ := strLoop_error_shape hq s _ _ _ hs
    refine ⟨p, ?_, .str q v e p hq h1 h2⟩
    unfold tokStr
    have hs' : strLoop q ((q :: (v ++ e)).drop 1) 1 {} = .error p := hs
    rw [hs']; rfl
  | ok o =>
    left
    cases o with
    | none =>
      refine ⟨.str [], 0, ?_, .strOpen q s hq ?_⟩
      · unfold tokStr
        have hs' : strLoop q ((q :: s).drop 1) 1 {} = .ok none := hs
        rw [hs']; rfl
      · rintro v rest rfl hl
        rw [strLoop_loose hq hl rest 1] at hs
        cases hs
    | some k =>
      obtain ⟨v, rest, rfl, hl, -⟩ := strLoop_complete hq s _ _ _ hs
      exact ⟨_, _, tokStr_loose hq hl hu, .str q v rest hq hl⟩

theorem special_digit {b : UInt8} (h : special b = false) : ¬ Digit b := by
  rintro ⟨h1, h2⟩
  have h1' : c!"0" ≤ b := h1
  have h2' : b ≤ c!"9" := h2
  simp [special, h1', h2'] at h

theorem readNext_described (checked : Bool) (h : Hint) {s : Bytes} (hu : Utf8 s)
    (hb : NoBlankHead s) (hw : ¬ StartsWide s) :
    Described checked h s (readNext checked s h) := by
  have hd := readNext_dispatch checked s h
  generalize hr : readNext checked s h = r at hd
  cases hd with
  | eof => exact .inl ⟨_, _, rfl, .eof⟩
  | punct p _ hp => exact .inl ⟨_, _, rfl, .punct p s hp⟩
  | fractional b rest hbd =>
    rcases tokFractional_total checked hbd hu with ⟨v, m, rest', h1, h2, h3, h4⟩ | ⟨-, h1, h2⟩
    · refine .inl ⟨_, _, h4, .num v _ _ h3 ?_ (.inr ⟨b, rest, rfl, (isDigit_iff b).1 hbd⟩)⟩
      rw [h1] at hu ⊢
      exact ascii_boundary hu h2
    · exact .inr ⟨_, h1, .number _ _ h2⟩
  | slash rest => exact tokSlash_described checked h hu
  | curly rest => exact tokCurlyClose_described checked h hu
  | str q rest hq => exact tokStr_described checked h hq hu
  | zero rest =>
    rcases tokZeroNum_total checked hu with ⟨v, n, h1, h2, h3⟩ | ⟨p, h1, h2⟩
    · exact .inl ⟨_, _, h1, .num v _ n h2 h3 (.inl ⟨_, _, rfl, by decide⟩)⟩
    · exact .inr ⟨_, h1, .number _ _ h2⟩
  | num b rest hbd =>
    rcases tokNum_total checked hbd hu with ⟨v, m, rest', h1, h2, h3, h4⟩ | ⟨-, h1, h2⟩
    · refine .inl ⟨_, _, h4, .num v _ _ h3 ?_ (.inl ⟨b, rest, rfl, ?_⟩)⟩
      · rw [h1] at hu ⊢
        exact ascii_boundary hu h2
      · exact ⟨UInt8.le_trans (by decide) hbd.1, hbd.2⟩
    · exact .inr ⟨_, h1, .number _ _ h2⟩
  | template rest => exact tokTemplateHead_described checked h hu
  | blank b rest hbl => exact absurd hbl (hb b rest rfl)
  | wide _ h1 =>
    rcases h1 with h1 | h1
    · exact absurd (.inr ((startsWith_iff _ _).1 h1)) hw
    · exact absurd (.inl ((startsWith_iff _ _).1 h1)) hw
  | newline b rest hbn => exact .inl ⟨_, _, rfl, .newline b rest hbn⟩
  | lsps _ h1 => exact .inl ⟨_, _, rfl, .lsps s ((startsLSPS_iff s).1 h1)⟩
  | ident b rest h1 h2 h3 h4 =>
    obtain ⟨v, rest', hv, hp, hr'⟩ := run_split IdentPart (b :: rest)
    rw [hv] at hu ⊢
    refine .inl ⟨_, _, tokIdent_eq hu hp hr', .ident v rest' hp hr' ?_ ?_⟩
    · rintro c r rfl
      simp only [List.cons_append, List.cons.injEq] at hv
      rw [← hv.1]; exact special_digit h1
    · rintro rfl
      simp only [List.nil_append] at hv
      refine ⟨b, rest, hv.symm, h1, ?_⟩
      rw [← hv, startsLine_iff, h4]
      rintro ((rfl | rfl) | h)
      · simp [special] at h1
      · simp [special] at h1
      · simp at h

/-- The bytes covered are inside the text and end on a boundary. -/
theorem Lexed.boundary {h : Hint} {s : Bytes} {tok : Token} {n : Nat} (hu : Utf8 s)
    (hl : Lexed h s tok n) : isBoundary s n = true := by
  cases hl with
  | eof => exact isBoundary_zero _
  | punct p _ hp =>
    obtain ⟨r, rfl⟩ := hp.pre
    refine ascii_boundary hu ?_
    cases p <;> decide
  | slash rest => exact ascii_boundary (m := b!"/") hu (by decide)
  | slashEq rest => exact ascii_boundary (m := b!"/=") hu (by decide)
  | curlyClose rest => exact ascii_boundary (m := b!"}") hu (by decide)
  | line v e hn he =>
    refine boundary_of (v := c!"/" :: c!"/" :: v) (e := e) rfl rfl ?_
    rcases he with rfl | he
    · trivial
    · exact startsLine_headOk he
  | block v rest hn =>
    refine boundary_of (v := c!"/" :: c!"*" :: (v ++ b!"*/")) (e := rest) (by simp) (by simp) ?_
    have : Utf8 ((c!"/" :: c!"*" :: (v ++ b!"*")) ++ c!"/" :: rest) := by simpa using hu
    exact this.headOk_after_ascii (by decide)
  | regex v flags rest hx hc hb hf hr =>
    refine boundary_of (v := c!"/" :: (v ++ c!"/" :: flags)) (e := rest) (by simp)
      (by simp; omega) ?_
    have h1 : Utf8 ((c!"/" :: v) ++ c!"/" :: (flags ++ rest)) := by simpa using hu
    have h2 := h1.headOk_after_ascii (by decide)
    have h3 : Utf8 ((c!"/" :: (v ++ b!"/")) ++ (flags ++ rest)) := by simpa using hu
    exact ((h3.split h2).2.append_ascii fun b hb => lower_ascii (hf b hb)).headOk
  | str q v rest hq hl =>
    refine boundary_of (v := q :: (v ++ [q])) (e := rest) (by simp) (by simp) ?_
    have : Utf8 ((q :: v) ++ q :: rest) := by simpa using hu
    exact this.headOk_after_ascii (by rcases hq with rfl | rfl <;> decide)
  | strOpen q s => exact isBoundary_zero _
  | num v s n h1 h2 => exact h2
  | templateTick v rest =>
    refine boundary_of (v := c!"`" :: (v ++ b!"`")) (e := rest) (by simp) (by simp) ?_
    have : Utf8 ((c!"`" :: v) ++ c!"`" :: rest) := by simpa using hu
    exact this.headOk_after_ascii (by decide)
  | templateCurly v rest =>
    refine boundary_of (v := c!"`" :: (v ++ b!"${")) (e := rest) (by simp) (by simp) ?_
    have : Utf8 ((c!"`" :: (v ++ b!"$")) ++ c!"{" :: rest) := by simpa using hu
    exact this.headOk_after_ascii (by decide)
  | tailTick v rest =>
    refine boundary_of (v := c!"}" :: (v ++ b!"`")) (e := rest) (by simp) (by simp) ?_
    have : Utf8 ((c!"}" :: v) ++ c!"`" :: rest) := by simpa using hu
    exact this.headOk_after_ascii (by decide)
  | tailCurly v rest =>
    refine boundary_of (v := c!"}" :: (v ++ b!"${")) (e := rest) (by simp) (by simp) ?_
    have : Utf8 ((c!"}" :: (v ++ b!"$")) ++ c!"{" :: rest) := by simpa using hu
    exact this.headOk_after_ascii (by decide)
  | newline b rest hb =>
    refine ascii_boundary (m := [b]) hu ?_
    rcases hb with rfl | rfl <;> decide
  | lsps _ h1 =>
    rcases h1 with ⟨r, rfl⟩ | ⟨r, rfl⟩
    · exact boundary_of (v := lineSeparator) (e := r) rfl rfl hu.headOk_e2
    · exact boundary_of (v := paragraphSeparator) (e := r) rfl rfl hu.headOk_e2
  | ident v rest hv =>
    exact ascii_boundary hu fun b hb => identPart_ascii (hv b hb)

end Jsparse
