import Verif.Proofs.NextToken
import Verif.Proofs.Loops
/-! # Results of the token functions on texts of known shape -/

namespace Jsparse

open Spec

theorem Utf8.tail_ascii {b : UInt8} {r : Bytes} (h : Utf8 (b :: r)) (hb : b < 0x80) : Utf8 r := by
  have h1 : HeadOk r := Utf8.headOk_after_ascii (a := []) h hb
  exact (Utf8.split (a := [b]) h h1).2

theorem Utf8.append_ascii {a r : Bytes} (h : Utf8 (a ++ r)) (ha : ∀ b ∈ a, b < 0x80) : Utf8 r := by
  induction a with
  | nil => exact h
  | cons b a ih => exact ih (h.tail_ascii (ha b (by simp))) (fun x hx => ha x (by simp [hx]))

theorem headOk_ascii {b : UInt8} (r : Bytes) (h : b < 0x80) : HeadOk (b :: r) := by
  show isCont b = false
  simp only [isCont, Bool.and_eq_false_iff, decide_eq_false_iff_not, UInt8.le_iff_toNat_le,
    UInt8.lt_iff_toNat_lt] at *
  left; simpa using h

/-- The value between an opening of length `a.length` and an ASCII byte. -/
theorem slice_mid {s a v e : Bytes} {i j : Nat} (hs : s = a ++ v ++ e) (hi : i = a.length)
    (hj : j = a.length + v.length) (hv : HeadOk (v ++ e)) (he : HeadOk e) :
    slice s i j = .ok v := by
  subst hs hi hj
  exact slice_append (.inl hv) he

theorem slice_zero {s v e : Bytes} {j : Nat} (hs : s = v ++ e) (hj : j = v.length) (he : HeadOk e) :
    slice s 0 j = .ok v := by
  subst hs hj
  have := slice_append (a := []) (b := v) (c := e) (.inr rfl) he
  simpa using this

theorem slice_one {x : UInt8} {v e : Bytes} {j : Nat} (hj : j = 1 + v.length)
    (hv : HeadOk (v ++ e)) (he : HeadOk e) : slice (x :: (v ++ e)) 1 j = .ok v :=
  slice_mid (a := [x]) (v := v) (e := e) rfl rfl hj hv he

theorem slice_two {x y : UInt8} {v e : Bytes} {j : Nat} (hj : j = 2 + v.length)
    (hv : HeadOk (v ++ e)) (he : HeadOk e) : slice (x :: y :: (v ++ e)) 2 j = .ok v :=
  slice_mid (a := [x, y]) (v := v) (e := e) rfl rfl hj hv he

theorem boundary_of {s v e : Bytes} {j : Nat} (hs : s = v ++ e) (hj : j = v.length)
    (he : HeadOk e) : isBoundary s j = true := by
  subst hs hj; exact isBoundary_append _ _ he

theorem identPart_ascii {b : UInt8} (h : IdentPart b) : b < 0x80 := by
  have hb : b ≤ 0x7A := by
    rcases h with ((h | h) | rfl | rfl) | h
    · exact h.2
    · exact UInt8.le_trans h.2 (by decide)
    · decide
    · decide
    · exact UInt8.le_trans h.2 (by decide)
  simp only [UInt8.le_iff_toNat_le, UInt8.lt_iff_toNat_lt] at *
  simp at *; omega

theorem lower_ascii {b : UInt8} (h : Lower b) : b < 0x80 := by
  have := h.2
  simp only [UInt8.le_iff_toNat_le, UInt8.lt_iff_toNat_lt] at *
  simp at *; omega

theorem tokIdent_eq {v rest : Bytes} (hu : Utf8 (v ++ rest)) (hv : ∀ b ∈ v, IdentPart b)
    (hr : ∀ b r, rest = b :: r → ¬ IdentPart b) :
    tokIdent (v ++ rest) = .ok (.ident v, v.length) := by
  unfold tokIdent
  rw [identLoop_eq v rest hv hr]
  have h8 := (hu.append_ascii (fun b hb => identPart_ascii (hv b hb))).headOk
  have hs : slice (v ++ rest) 0 (0 + v.length) = .ok v := slice_zero rfl (by simp) h8
  simp only [hs]
  simp [bind, Except.bind, pure, Except.pure]

theorem tokTemplateHead_tick {v rest : Bytes} (hu : Utf8 (c!"`" :: (v ++ c!"`" :: rest)))
    (hn : NowhereIn v (c!"`" :: rest) TemplateStop) :
    tokTemplateHead (c!"`" :: (v ++ c!"`" :: rest)) =
      .ok (.template .noSubstitution v v, v.length + 2) := by
  unfold tokTemplateHead
  have h1 := templateLoop_tick hn 1 false (by simp)
  simp only [List.drop_succ_cons, List.drop_zero, h1]
  rw [slice_one rfl
    (hu.tail_ascii (by decide)).headOk (headOk_ascii _ (by decide))]
  simp [bind, Except.bind, pure, Except.pure]; omega

theorem tokTemplateHead_curly {v rest : Bytes} (hu : Utf8 (c!"`" :: (v ++ c!"$" :: c!"{" :: rest)))
    (hn : NowhereIn v (c!"$" :: c!"{" :: rest) TemplateStop) :
    tokTemplateHead (c!"`" :: (v ++ c!"$" :: c!"{" :: rest)) =
      .ok (.template .head v v, v.length + 3) := by
  unfold tokTemplateHead
  have h1 := templateLoop_curly hn 1 false (by simp)
  simp only [List.drop_succ_cons, List.drop_zero, h1]
  rw [slice_one (by simp)
    (hu.tail_ascii (by decide)).headOk (headOk_ascii _ (by decide))]
  simp [bind, Except.bind, pure, Except.pure]; omega

theorem tokTemplateHead_none {v : Bytes} (hn : NowhereIn v [] TemplateStop) :
    tokTemplateHead (c!"`" :: v) = .error .unterminatedTemplate := by
  unfold tokTemplateHead
  have h1 := templateLoop_none hn 1 false (by simp)
  simp only [List.drop_succ_cons, List.drop_zero, h1]

theorem tokCurlyClose_tick {v rest : Bytes} {h : Hint} (ht : h.template = true)
    (hu : Utf8 (c!"}" :: (v ++ c!"`" :: rest)))
    (hn : NowhereIn v (c!"`" :: rest) TemplateStop) :
    tokCurlyClose (c!"}" :: (v ++ c!"`" :: rest)) h =
      .ok (.template .tail v v, v.length + 2) := by
  unfold tokCurlyClose
  have h1 := templateLoop_tick hn 1 false (by simp)
  simp only [List.drop_succ_cons, List.drop_zero, h1, ht, if_true]
  rw [slice_one rfl
    (hu.tail_ascii (by decide)).headOk (headOk_ascii _ (by decide))]
  simp [bind, Except.bind, pure, Except.pure]; omega

theorem tokCurlyClose_curly {v rest : Bytes} {h : Hint} (ht : h.template = true)
    (hu : Utf8 (c!"}" :: (v ++ c!"$" :: c!"{" :: rest)))
    (hn : NowhereIn v (c!"$" :: c!"{" :: rest) TemplateStop) :
    tokCurlyClose (c!"}" :: (v ++ c!"$" :: c!"{" :: rest)) h =
      .ok (.template .middle v v, v.length + 3) := by
  unfold tokCurlyClose
  have h1 := templateLoop_curly hn 1 false (by simp)
  simp only [List.drop_succ_cons, List.drop_zero, h1, ht, if_true]
  rw [slice_one (by simp)
    (hu.tail_ascii (by decide)).headOk (headOk_ascii _ (by decide))]
  simp [bind, Except.bind, pure, Except.pure]; omega

theorem tokCurlyClose_none {v : Bytes} {h : Hint} (ht : h.template = true)
    (hn : NowhereIn v [] TemplateStop) :
    tokCurlyClose (c!"}" :: v) h = .error .unterminatedTemplateTail := by
  unfold tokCurlyClose
  have h1 := templateLoop_none hn 1 false (by simp)
  simp only [List.drop_succ_cons, List.drop_zero, h1, ht, if_true]

theorem tokCurlyClose_plain {s : Bytes} {h : Hint} (ht : h.template = false) :
    tokCurlyClose s h = .ok (.punct .curlyClose, 1) := by
  simp [tokCurlyClose, ht]

theorem startsLine_headOk {e : Bytes} (h : StartsLine e) : HeadOk e := by
  rcases h with ⟨r, rfl⟩ | ⟨r, rfl⟩ | ⟨r, rfl⟩ | ⟨r, rfl⟩ <;> simp [HeadOk, lineSeparator,
    paragraphSeparator] <;> decide

theorem tokSlash_line {v e : Bytes} {h : Hint} (hu : Utf8 (c!"/" :: c!"/" :: (v ++ e)))
    (hn : NowhereIn v e StartsLine) (he : e = [] ∨ StartsLine e) :
    tokSlash (c!"/" :: c!"/" :: (v ++ e)) h = .ok (.comment .line v, v.length + 2) := by
  unfold tokSlash
  rw [if_pos (by simp)]
  have hsl : slice (c!"/" :: c!"/" :: (v ++ e)) 2 (v.length + 2) = .ok v := by
    apply slice_mid (a := [c!"/", c!"/"]) (v := v) (e := e) rfl rfl
    · simp; omega
    · exact ((hu.tail_ascii (by decide)).tail_ascii (by decide)).headOk
    · rcases he with rfl | he
      · trivial
      · exact startsLine_headOk he
  have hsz : (let x := lineCommentLoop (v ++ e) 2
      if x = 0 then (c!"/" :: c!"/" :: (v ++ e)).length else x) = v.length + 2 := by
    by_cases hne : e = []
    · subst hne
      simp [lineCommentLoop_none hn]
    · rcases he with he | he
      · exact absurd he hne
      · simp only [lineCommentLoop_some hn hne he]
        rw [if_neg (by omega)]; omega
  simp only [List.drop_succ_cons, List.drop_zero] at hsz ⊢
  rw [hsz, hsl]
  simp [bind, Except.bind, pure, Except.pure]

theorem tokSlash_block {v rest : Bytes} {h : Hint}
    (hu : Utf8 (c!"/" :: c!"*" :: (v ++ (b!"*/" ++ rest))))
    (hn : NowhereIn v (b!"*/" ++ rest) (b!"*/" <+: ·)) :
    tokSlash (c!"/" :: c!"*" :: (v ++ (b!"*/" ++ rest))) h =
      .ok (.comment .block v, v.length + 4) := by
  unfold tokSlash
  rw [if_neg (by simp), if_pos (by simp)]
  have h1 := blockCommentLoop_some hn 2 false (by simp)
  simp only [List.drop_succ_cons, List.drop_zero, h1]
  rw [slice_two (by simp)
    ((hu.tail_ascii (by decide)).tail_ascii (by decide)).headOk (headOk_ascii _ (by decide))]
  simp [bind, Except.bind, pure, Except.pure]; omega

theorem tokSlash_block_none {v : Bytes} {h : Hint} (hn : NowhereIn v [] (b!"*/" <+: ·)) :
    tokSlash (c!"/" :: c!"*" :: v) h = .error .unterminatedComment := by
  unfold tokSlash
  rw [if_neg (by simp), if_pos (by simp)]
  have h1 := blockCommentLoop_none hn 2 false (by simp)
  simp only [List.drop_succ_cons, List.drop_zero, h1]

/-- The text after a slash does not make it a comment. -/
def NoComment (rest : Bytes) : Prop := ¬ b!"/" <+: rest ∧ ¬ b!"*" <+: rest

theorem NoComment.ne {rest : Bytes} (h : NoComment rest) :
    (c!"/" :: rest)[1]? ≠ some c!"/" ∧ (c!"/" :: rest)[1]? ≠ some c!"*" := by
  cases rest with
  | nil => simp
  | cons b r => simpa [NoComment, eq_comm] using h

theorem tokSlash_regex {v flags rest : Bytes} {h : Hint} (hx : h.expression = true)
    (hu : Utf8 (c!"/" :: (v ++ c!"/" :: (flags ++ rest))))
    (hc : NoComment (v ++ c!"/" :: (flags ++ rest)))
    (hb : RegexBody v) (hf : ∀ b ∈ flags, Lower b) (hr : ∀ b r, rest = b :: r → ¬ Lower b) :
    tokSlash (c!"/" :: (v ++ c!"/" :: (flags ++ rest))) h =
      .ok (.regex v flags, v.length + flags.length + 2) := by
  unfold tokSlash
  rw [if_neg hc.ne.1, if_neg hc.ne.2, if_pos hx]
  have hne : v ≠ [] := by
    rintro rfl; exact hc.1 (by simp)
  have h1 := regexLoop_body hb (rest := flags ++ rest) 1
  simp only [List.drop_succ_cons, List.drop_zero, h1, Option.getD_some]
  have hlen : v.length ≠ 0 := by simpa using hne
  rw [if_neg (by omega)]
  have hu1 := hu.tail_ascii (by decide)
  have hu2 : Utf8 (flags ++ rest) := by
    have h3 := Utf8.split (a := v) (b := c!"/" :: (flags ++ rest)) hu1 (headOk_ascii _ (by decide))
    exact h3.2.tail_ascii (by decide)
  have hu3 : Utf8 rest := hu2.append_ascii (fun b hb => lower_ascii (hf b hb))
  have hd : List.drop (1 + v.length + 1) (c!"/" :: (v ++ c!"/" :: (flags ++ rest))) =
      flags ++ rest := by
    have : 1 + v.length + 1 = (c!"/" :: (v ++ [c!"/"])).length := by simp; omega
    rw [this]
    have h4 : c!"/" :: (v ++ c!"/" :: (flags ++ rest)) =
      (c!"/" :: (v ++ [c!"/"])) ++ (flags ++ rest) := by simp
    rw [h4, List.drop_left]
  have hs1 : sliceFrom (c!"/" :: (v ++ c!"/" :: (flags ++ rest))) (1 + v.length + 1) =
      .ok (flags ++ rest) := by
    rw [sliceFrom_eq_ok, hd]
    refine ⟨?_, rfl⟩
    exact boundary_of (v := c!"/" :: (v ++ [c!"/"])) (e := flags ++ rest) (by simp)
      (by simp; omega) hu2.headOk
  rw [hs1]
  simp only [bind, Except.bind]
  rw [flagLoop_eq flags rest hf hr]
  have hs2 : slice (c!"/" :: (v ++ c!"/" :: (flags ++ rest))) 1 (1 + v.length) = .ok v :=
    slice_mid (a := [c!"/"]) (v := v) (e := c!"/" :: (flags ++ rest)) rfl rfl rfl hu1.headOk
      (headOk_ascii _ (by decide))
  have hs3 : slice (c!"/" :: (v ++ c!"/" :: (flags ++ rest))) (1 + v.length + 1)
      (1 + v.length + 1 + flags.length) = .ok flags :=
    slice_mid (a := c!"/" :: (v ++ [c!"/"])) (v := flags) (e := rest) (by simp) (by simp; omega)
      (by simp; omega) hu2.headOk hu3.headOk
  rw [hs2, hs3]
  simp [pure, Except.pure]; omega

theorem tokSlash_regex_none {s : Bytes} {h : Hint} (hx : h.expression = true) (hc : NoComment s)
    (hn : ∀ v rest, s = v ++ c!"/" :: rest → ¬ RegexBody v) :
    tokSlash (c!"/" :: s) h = .error .unterminatedRegex := by
  unfold tokSlash
  rw [if_neg hc.ne.1, if_neg hc.ne.2, if_pos hx]
  have h1 : regexLoop s 1 false false = none := by
    cases hl : regexLoop s 1 false false with
    | none => rfl
    | some k =>
      obtain ⟨v, rest, h2, h3, -⟩ := (regexLoop_complete s 1 k).1 hl
      exact absurd h3 (hn v rest h2)
  simp [h1]

theorem tokSlash_slashEq {rest : Bytes} {h : Hint} (hx : h.expression = false) :
    tokSlash (c!"/" :: c!"=" :: rest) h = .ok (.punct .slashEq, 2) := by
  simp [tokSlash, hx]

theorem tokSlash_slash {rest : Bytes} {h : Hint} (hx : h.expression = false) (hc : NoComment rest)
    (he : ¬ b!"=" <+: rest) : tokSlash (c!"/" :: rest) h = .ok (.punct .slash, 1) := by
  unfold tokSlash
  rw [if_neg hc.ne.1, if_neg hc.ne.2, if_neg (by simp [hx]), if_neg]
  cases rest with
  | nil => simp
  | cons b r => simpa [eq_comm] using he

end Jsparse
