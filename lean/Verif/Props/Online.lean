import Verif.Proofs.Online
import Verif.Props.Gaps
/-!
# C43: an error depends only on the tokens read

`RejectedAs checked code e read`: the program is rejected with the error `e`, and the parser had read the
tokens `read` by then (those that it consumed, and those in its lookahead buffer).
-/

namespace Jsparse

open P Spec

/-- The run on `code` ends with the error `e`; the parser has read the tokens `read`. -/
def RejectedAs (checked : Bool) (code : Bytes) (e : ParseErr) (read : List Look) : Prop :=
  ∃ s, parseModuleFuel (fuelFor code) checked code = .err e s ∧ s.log ++ buf s = read

theorem RejectedAs.rejected {checked : Bool} {code : Bytes} {e : ParseErr} {read : List Look}
    (h : RejectedAs checked code e read) : parseRoot checked code = .rejected e := by
  obtain ⟨s, h, -⟩ := h
  unfold parseRoot
  rw [h]
  rfl

theorem rejectedAs_of_rejected {checked : Bool} {code : Bytes} {e : ParseErr}
    (h : parseRoot checked code = .rejected e) : ∃ read, RejectedAs checked code e read := by
  unfold parseRoot at h
  cases hm : parseModuleFuel (fuelFor code) checked code with
  | err e' s =>
    rw [hm] at h
    injection h with h
    subst h
    exact ⟨_, s, hm, rfl⟩
  | _ => rw [hm] at h; cases h

/-- **C43.** The tokens that were read before the error are in order, they lie in the text, and only the
last one can be the end of the text. -/
theorem C43_tokens_read {checked : Bool} {code : Bytes} {e : ParseErr} {read : List Look} (hu : Utf8 code)
    (h : RejectedAs checked code e read) :
    (∀ pre a b post, read = pre ++ a :: b :: post →
      a.range.stop.offset ≤ b.range.start.offset ∧ a.token ≠ .eof) ∧
    (∀ a ∈ read, a.range.start.offset ≤ a.range.stop.offset ∧ a.range.stop.offset ≤ code.length) := by
  obtain ⟨s, h, rfl⟩ := h
  have hv := valid_intoTokenizer checked hu
  obtain ⟨hi, hl⟩ := err_inv hu h
  refine ⟨fun pre a b post he => ⟨?_, ?_⟩, fun a ha => ?_⟩
  · have hd := hi.stream
    rw [he, show pre ++ a :: b :: post = (pre ++ [a] ++ [b]) ++ post by simp] at hd
    obtain ⟨t, d, -⟩ := Delivered.split _ hd
    have := (d.order hv rfl).1
    rwa [endOf_snoc] at this
  · obtain ⟨p, l, hp⟩ : ∃ p l, b :: post = p ++ [l] := by
      rcases List.eq_nil_or_concat (b :: post) with h | ⟨p, l, h⟩
      · cases h
      · exact ⟨p, l, by simpa using h⟩
    refine reads_eof hi hl (pre := pre ++ a :: p) (look := l) ?_ a (by simp)
    unfold reads
    rw [he, hp]
    simp
  · obtain ⟨p, q, he⟩ := List.append_of_mem ha
    have hd := hi.stream
    rw [he, show p ++ a :: q = (p ++ [a]) ++ q by simp] at hd
    obtain ⟨t, d, -⟩ := Delivered.split _ hd
    obtain ⟨-, h1, h2⟩ := d.order hv rfl
    exact ⟨by omega, h1⟩

/-- The tokens `read` lie in `x`, and they are not changed by the text `y2` behind `x` in place of `y1`. -/
structure Within (x y1 y2 : Bytes) (read : List Look) : Prop where
  /-- the last token is not empty, and it ends in `x` -/
  last : ∃ pre a, read = pre ++ [a] ∧ a.range.start.offset < a.range.stop.offset ∧
    a.range.stop.offset ≤ x.length
  /-- `y2` begins with a blank or a line terminator, or does not continue a token that ends with `x` -/
  join : Separates y2 ∨ ¬ ([c!"."] <:+ x ∧ [c!"."] <+: y2) ∧
    ∀ a ∈ read, a.range.stop.offset = x.length → Apart a.token (x.drop a.range.start.offset) y2
  /-- some text follows the numbers -/
  number : ∀ a ∈ read, ∀ v, a.token = .num v → y1 ≠ [] ∧ y2 ≠ []

/-- **C43.** If the tokens that were read before the error lie in `x`, then the text behind `x` does not
matter: the parser gives the same error, after reading the same tokens. -/
theorem C43_rest_irrelevant {checked : Bool} {x y1 y2 : Bytes} {e : ParseErr} {read : List Look}
    (hu1 : Utf8 (x ++ y1)) (hu2 : Utf8 (x ++ y2)) (hux : Utf8 x)
    (h : RejectedAs checked (x ++ y1) e read) (hw : Within x y1 y2 read) :
    ∃ read', RejectedAs checked (x ++ y2) e read' ∧ List.Forall₂ SamePlace read read' := by
  obtain ⟨s, h, rfl⟩ := h
  have hv := valid_intoTokenizer checked hu1
  obtain ⟨hi, hl⟩ := err_inv hu1 h
  obtain ⟨pre, a, hpa, hwide, hin⟩ := hw.last
  have hn1 := C24_bound_irrelevant checked hu1
    (n := max (fuelFor (x ++ y1)) (fuelFor (x ++ y2))) (Nat.le_max_left _ _)
  have hn2 := C24_bound_irrelevant checked hu2
    (n := max (fuelFor (x ++ y1)) (fuelFor (x ++ y2))) (Nat.le_max_right _ _)
  have hst : Stays checked x y1 y2 (reads s) := by
    refine ⟨⟨s.tok, hi.stream⟩, ?_, ?_, hw.number, hw.join⟩
    · unfold reads; rw [hpa, endOf_snoc]; exact hin
    · unfold reads
      rw [hpa]
      exact delivered_wide hu1 (hpa ▸ hi.stream) hwide
  obtain ⟨s', h', h2, -⟩ := replayE (checked2 := checked) (code2 := x ++ y2) kinds_place ⟨rfl, rfl, rfl, rfl⟩
    (hn1.trans h) (online_follows hu1 hu2 hux hst) ⟨x, fork_start hu1 hu2⟩
  exact ⟨_, ⟨s', hn2.symm.trans h', rfl⟩, h2⟩

/-- **C43.** The parser does not give up too early: if it rejects `x ++ y1` after reading tokens in `x` only,
then no other continuation of `x` is accepted. -/
theorem C43_no_continuation {checked : Bool} {x y1 y2 : Bytes} {e : ParseErr} {read : List Look}
    (hu1 : Utf8 (x ++ y1)) (hu2 : Utf8 (x ++ y2)) (hux : Utf8 x)
    (h : RejectedAs checked (x ++ y1) e read) (hw : Within x y1 y2 read) :
    parseRoot checked (x ++ y2) = .rejected e := by
  obtain ⟨read', h', -⟩ := C43_rest_irrelevant hu1 hu2 hux h hw
  exact h'.rejected

/-- **C43.** Replacing the text between two tokens of a rejected program: the error is the same, and so are
the tokens that the parser read before it. -/
theorem C43_replace_gap {checked : Bool} {x g1 g2 y : Bytes} {f : Bool} {e : ParseErr} {read : List Look}
    (hu : Utf8 (x ++ (g1 ++ y))) (hg1 : Gap g1 f) (hg2 : Gap g2 f)
    (h : RejectedAs checked (x ++ (g1 ++ y)) e read)
    (hx : x = [] ∨ ∃ pre a post, read = pre ++ a :: post ∧ Within x (g1 ++ y) (g2 ++ y) (pre ++ [a]) ∧
      a.range.stop.offset = x.length) :
    Utf8 (x ++ (g2 ++ y)) ∧
    ∃ read', RejectedAs checked (x ++ (g2 ++ y)) e read' ∧
      read'.map Look.seen = read.map Look.seen := by
  obtain ⟨s, h, rfl⟩ := h
  have hv := valid_intoTokenizer checked hu
  obtain ⟨hi, hl⟩ := err_inv hu h
  obtain ⟨pre, post, hlog, hend, hst⟩ : ∃ pre post, reads s = pre ++ post ∧ endOf pre = x.length ∧
      (pre ≠ [] → Stays checked x (g1 ++ y) (g2 ++ y) pre) := by
    rcases hx with rfl | ⟨pre, a, post, he, hw, hs⟩
    · exact ⟨[], reads s, rfl, rfl, fun h => absurd rfl h⟩
    · refine ⟨pre ++ [a], post, by unfold reads; rw [he]; simp, by rw [endOf_snoc, hs], fun _ => ?_⟩
      have hd := hi.stream
      rw [he, show pre ++ a :: post = (pre ++ [a]) ++ post by simp] at hd
      obtain ⟨t, d, -⟩ := Delivered.split _ hd
      refine ⟨⟨t, d⟩, by rw [endOf_snoc, hs], delivered_wide hu d ?_, hw.number, hw.join⟩
      obtain ⟨p', a', hp, h1, -⟩ := hw.last
      obtain ⟨-, hp⟩ := List.append_inj' hp rfl
      obtain rfl : a = a' := by simpa using hp
      exact h1
  have hux : Utf8 x := by
    rcases List.eq_nil_or_concat pre with rfl | ⟨p, l, rfl⟩
    · rw [List.length_eq_zero_iff.1 hend.symm]; exact ⟨[], rfl⟩
    · obtain ⟨t, d⟩ := (hst (by simp)).stream
      obtain ⟨h1, h2⟩ := d.last hv rfl
      have h3 := (d.valid hv).boundary
      rw [h1, h2, hend] at h3
      have := hu.take h3
      rwa [List.take_left] at this
  have hua : Utf8 (g1 ++ y) := hu.cancel hux
  have huy : Utf8 y := hua.cancel (gap_utf8 hg1)
  have hu2 : Utf8 (x ++ (g2 ++ y)) := hux.append ((gap_utf8 hg2).append huy)
  have hF := layout_follows (post := post) hu hu2 hux hg1 hg2 hst hend
  have hn1 := C24_bound_irrelevant checked hu
    (n := max (fuelFor (x ++ (g1 ++ y))) (fuelFor (x ++ (g2 ++ y)))) (Nat.le_max_left _ _)
  have hn2 := C24_bound_irrelevant checked hu2
    (n := max (fuelFor (x ++ (g1 ++ y))) (fuelFor (x ++ (g2 ++ y)))) (Nat.le_max_right _ _)
  obtain ⟨s', h', h2, -⟩ := replayE (checked2 := checked) (code2 := x ++ (g2 ++ y)) kinds_look ⟨rfl, rfl⟩
    (hn1.trans h) (hlog ▸ hF) ⟨fun _ => ⟨x, fork_start hu hu2, fun hk => by
      obtain rfl : pre = [] := List.length_eq_zero_iff.1 hk.symm
      exact List.length_eq_zero_iff.1 hend.symm⟩, fun hk => by omega⟩
  refine ⟨hu2, _, ⟨s', hn2.symm.trans h', rfl⟩, ?_⟩
  unfold reads at h2
  generalize s.log ++ buf s = l1 at h2
  generalize s'.log ++ buf s' = l2 at h2
  induction h2 with
  | nil => rfl
  | cons h _ ih => rw [List.map_cons, List.map_cons, ih, Look.seen, Look.seen, h.1, h.2]

/-! ## Examples -/

/-- The tokens that the parser reads before the error, if it rejects the text. -/
def readOf (code : Bytes) : List Look :=
  match parseModuleF (fuelFor code) true code with
  | .err _ s => s.log ++ buf s
  | _ => []

theorem rejectedAs_readOf {code : Bytes} {e : ParseErr} (h : parseRoot true code = .rejected e) :
    RejectedAs true code e (readOf code) := by
  rw [parseRoot_eval] at h
  unfold RejectedAs readOf
  rw [parseModule_eval]
  cases hm : parseModuleF (fuelFor code) true code with
  | err e' s =>
    rw [hm] at h
    injection h with h
    subst h
    exact ⟨s, rfl, rfl⟩
  | _ => rw [hm] at h; cases h

/-- `a b` followed by a blank and anything else. -/
example (y : Bytes) (hy : Utf8 y) : parseRoot true (b!"a b" ++ (b!" " ++ y)) = .rejected .unexpectedToken := by
  have h : RejectedAs true (b!"a b" ++ []) .unexpectedToken (readOf b!"a b") :=
    rejectedAs_readOf (by rw [parseRoot_eval]; decide +kernel)
  have hr : readOf b!"a b" = [⟨false, .ident b!"a", ⟨{}, ⟨1, 0, 1⟩⟩⟩, ⟨false, .ident b!"b", ⟨⟨2, 0, 2⟩, ⟨3, 0, 3⟩⟩⟩] := by
    decide +kernel
  have hu : ∀ x : Bytes, (∀ b ∈ x, b < 128) → Utf8 x := fun x hx => utf8_ascii hx
  refine C43_no_continuation (hu _ (by decide)) ((hu _ (by decide)).append ((hu _ (by decide)).append hy))
    (hu _ (by decide)) h ?_
  rw [hr]
  refine ⟨⟨[⟨false, .ident b!"a", ⟨{}, ⟨1, 0, 1⟩⟩⟩], ⟨false, .ident b!"b", ⟨⟨2, 0, 2⟩, ⟨3, 0, 3⟩⟩⟩, rfl, by decide,
    by decide⟩, .inl (.inl ⟨_, _, rfl, by decide⟩), ?_⟩
  intro a ha v hv
  simp only [List.mem_cons, List.not_mem_nil, or_false] at ha
  rcases ha with rfl | rfl <;> cases hv

/-- Not only the tokens consumed: the parser consumed nothing of `) a` but has seen the parenthesis. -/
example : RejectedAs true b!") a" .unexpectedToken (readOf b!") a") ∧
    (readOf b!") a").map Look.seen = [(false, .punct .parenClose)] :=
  ⟨rejectedAs_readOf (by rw [parseRoot_eval]; decide +kernel), by decide +kernel⟩

/-- The error in `a b` and in `a /*+*/b`: the gap is the one behind the first token. -/
example : parseRoot true (b!"a" ++ (b!" /*+*/" ++ b!"b")) = .rejected .unexpectedToken := by
  have h : RejectedAs true (b!"a" ++ (b!" " ++ b!"b")) .unexpectedToken (readOf b!"a b") :=
    rejectedAs_readOf (by rw [parseRoot_eval]; decide +kernel)
  have hr : readOf b!"a b" = [⟨false, .ident b!"a", ⟨{}, ⟨1, 0, 1⟩⟩⟩, ⟨false, .ident b!"b", ⟨⟨2, 0, 2⟩, ⟨3, 0, 3⟩⟩⟩] := by
    decide +kernel
  have hu : Utf8 b!"a b" := utf8_ascii (by decide)
  obtain ⟨-, read', h', -⟩ := C43_replace_gap (x := b!"a") (y := b!"b") hu gap_blank gap_comment h (.inr
    ⟨[], ⟨false, .ident b!"a", ⟨{}, ⟨1, 0, 1⟩⟩⟩, [⟨false, .ident b!"b", ⟨⟨2, 0, 2⟩, ⟨3, 0, 3⟩⟩⟩], hr,
      ⟨⟨[], _, rfl, by decide, by decide⟩, .inl (.inl ⟨_, _, rfl, by decide⟩), fun _ _ _ _ => ⟨by decide, by decide⟩⟩,
      rfl⟩)
  exact h'.rejected

/-- The conditions matter: the end of the text counts as a token, the next token must stay apart, and the
number scanner reads `1e` differently at the end of the text. -/
example : parseRoot true b!"a +" = .rejected .unexpectedToken ∧ parseRoot true b!"a + b" = .accepted ∧
    parseRoot true b!"a i" = .rejected .unexpectedToken ∧ parseRoot true b!"a in b" = .accepted ∧
    parseRoot true b!"1e" = .rejected .unexpectedToken ∧ parseRoot true b!"1e " = .accepted := by
  simp only [parseRoot_eval]; decide +kernel

end Jsparse
