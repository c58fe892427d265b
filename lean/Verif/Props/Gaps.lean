import Verif.Proofs.GapFollow
import Verif.Proofs.Eval
/-!
# C36: the text between two tokens

`x ++ g1 ++ y` is an accepted program, `x` ends where one of its tokens ends (or is empty), and `g1`, the
text behind it, consists of blanks, line terminators and comments.  Then `g1` can be replaced by any
other such text with a line terminator in it exactly if `g1` has one, provided that the token before it
stays apart from what follows.  The text behind the gap must not be empty, because the number scanner
reads `0x` and `1e` differently at the end of the text (`C36_end_of_text`).
-/

namespace Jsparse

open P Spec

/-- The run on `code` accepts it, and the parser consumed the tokens `log`. -/
def AcceptedAs (checked : Bool) (code : Bytes) (log : List Look) : Prop :=
  ∃ s, parseModuleFuel (fuelFor code) checked code = .ok () s ∧ s.log = log

theorem AcceptedAs.accepted {checked : Bool} {code : Bytes} {log : List Look}
    (h : AcceptedAs checked code log) : parseRoot checked code = .accepted := by
  obtain ⟨s, h, -⟩ := h
  unfold parseRoot
  rw [h]
  rfl

theorem acceptedAs_of_accepted {checked : Bool} {code : Bytes}
    (h : parseRoot checked code = .accepted) : ∃ log, AcceptedAs checked code log := by
  unfold parseRoot at h
  cases hm : parseModuleFuel (fuelFor code) checked code with
  | ok a s => exact ⟨s.log, s, hm, rfl⟩
  | _ => rw [hm] at h; cases h

/-- Some token in `log` ends at `k`, or `k` is the start of the text. -/
def EndsAt (log : List Look) (k : Nat) : Prop := k = 0 ∨ ∃ a ∈ log, a.range.stop.offset = k

theorem utf8_tokens_end {checked : Bool} {code : Bytes} (hu : Utf8 code) {s : PState}
    (hl : FullLog checked code s) {pre post : List Look} (h : s.log = pre ++ post) :
    Utf8 (code.take (endOf pre)) := by
  have hv := valid_intoTokenizer checked hu
  obtain ⟨t, d, -⟩ := Delivered.split post (h ▸ hl.stream)
  obtain ⟨h1, h2⟩ := d.last hv rfl
  have h3 := (d.valid hv).boundary
  rw [h1, h2] at h3
  exact hu.take h3

/-- Two tokens at corresponding places of `x ++ g1 ++ y` and `x ++ g2 ++ y`: they are the same token with
the same line flag, and either both lie in `x`, at the same place, or both end behind `x`, at the same
distance from the end. -/
def Corresponds (x g1 g2 y : Bytes) (a b : Look) : Prop :=
  b.line = a.line ∧ b.token = a.token ∧
  (a.range.stop.offset ≤ x.length ∧ b.range.start.offset = a.range.start.offset ∧
      b.range.stop.offset = a.range.stop.offset ∨
    x.length < a.range.stop.offset ∧ x.length < b.range.stop.offset ∧
      b.range.start.offset + (x ++ (g1 ++ y)).length = a.range.start.offset + (x ++ (g2 ++ y)).length ∧
      b.range.stop.offset + (x ++ (g1 ++ y)).length = a.range.stop.offset + (x ++ (g2 ++ y)).length)

theorem log_within {checked : Bool} {code : Bytes} (hu : Utf8 code) {s : PState}
    (hl : FullLog checked code s) {a : Look} (ha : a ∈ s.log) :
    a.range.start.offset ≤ a.range.stop.offset ∧ a.range.stop.offset ≤ code.length := by
  have hv := valid_intoTokenizer checked hu
  obtain ⟨p, q, he⟩ := List.append_of_mem ha
  have hst := hl.stream
  rw [he, show p ++ a :: q = (p ++ [a]) ++ q by simp] at hst
  obtain ⟨t, d, -⟩ := Delivered.split q hst
  obtain ⟨-, h1, h2⟩ := d.order hv rfl
  exact ⟨by omega, h1⟩

theorem forall2_of_map {α β γ : Type} {f : α → γ} {g : β → γ} : ∀ {l1 : List α} {l2 : List β},
    l2.map g = l1.map f → List.Forall₂ (fun a b => g b = f a ∧ a ∈ l1 ∧ b ∈ l2) l1 l2 := by
  intro l1
  induction l1 with
  | nil => intro l2 h; rw [List.map_eq_nil_iff.1 h]; exact .nil
  | cons a l1 ih =>
    intro l2 h
    cases l2 with
    | nil => cases h
    | cons b l2 =>
      rw [List.map_cons, List.map_cons] at h
      obtain ⟨h1, h2⟩ := List.cons.inj h
      refine .cons ⟨h1, by simp, by simp⟩ ((ih h2).imp fun a b h => ⟨h.1, by simp [h.2.1], by simp [h.2.2]⟩)

theorem corresponds_of_via {x g1 g2 y : Bytes} {a b : Look}
    (h : b.via (fromCut x.length (x ++ (g2 ++ y)).length) = a.via (fromCut x.length (x ++ (g1 ++ y)).length))
    (ha : a.range.start.offset ≤ a.range.stop.offset ∧ a.range.stop.offset ≤ (x ++ (g1 ++ y)).length)
    (hb : b.range.start.offset ≤ b.range.stop.offset ∧ b.range.stop.offset ≤ (x ++ (g2 ++ y)).length) :
    Corresponds x g1 g2 y a b := by
  unfold Look.via Look.seen fromCut at h
  obtain ⟨h1, h2⟩ := Prod.mk.inj h
  obtain ⟨h3, h4⟩ := Prod.mk.inj h1
  refine ⟨h3, h4, ?_⟩
  split at h2 <;> split at h2 <;>
    simp only [Prod.mk.injEq, reduceCtorEq, false_and, true_and] at h2 <;> omega

theorem EndsAt.corresponds {x g1 g2 y : Bytes} {l1 l2 : List Look} {k k' : Nat}
    (h : List.Forall₂ (Corresponds x g1 g2 y) l1 l2) (he : EndsAt l1 k) (hl : k ≤ x.length → k' = k)
    (hg : x.length < k → k' + (x ++ (g1 ++ y)).length = k + (x ++ (g2 ++ y)).length) : EndsAt l2 k' := by
  rcases he with rfl | ⟨a, ha, hk⟩
  · exact .inl (hl (Nat.zero_le _))
  · right
    obtain ⟨i, hi, rfl⟩ := List.getElem_of_mem ha
    have h1 := (List.forall₂_iff_get.1 h).2 i hi (by rw [← h.length_eq]; exact hi)
    refine ⟨_, List.getElem_mem (by rw [← h.length_eq]; exact hi), ?_⟩
    simp only [List.get_eq_getElem] at h1
    obtain ⟨-, -, h1⟩ := h1
    rcases h1 with ⟨h2, -, h3⟩ | ⟨h2, h3, -, h4⟩
    · rw [h3, hk, hl (hk ▸ h2)]
    · have := hg (hk ▸ h2)
      omega

/-- **C36.** Replacing the text between two tokens of an accepted program: the other program is accepted
as well, and its tokens are the same ones at corresponding places. -/
theorem C36_replace_gap {checked : Bool} {x g1 g2 y : Bytes} {f : Bool} {log : List Look}
    (hu : Utf8 (x ++ (g1 ++ y))) (hg1 : Gap g1 f) (hg2 : Gap g2 f)
    (h1 : g1 ++ y ≠ []) (h2 : g2 ++ y ≠ [])
    (h : AcceptedAs checked (x ++ (g1 ++ y)) log)
    (hx : x = [] ∨ ∃ a ∈ log, a.range.stop.offset = x.length ∧
      (Separates g2 ∨ Apart a.token (x.drop a.range.start.offset) (g2 ++ y))) :
    Utf8 (x ++ (g2 ++ y)) ∧
    ∃ log', AcceptedAs checked (x ++ (g2 ++ y)) log' ∧
      List.Forall₂ (Corresponds x g1 g2 y) log log' := by
  obtain ⟨s, h, rfl⟩ := h
  have hl := fullLog hu h
  obtain ⟨pre, post, hlog, hend, hap⟩ : ∃ pre post, s.log = pre ++ post ∧ endOf pre = x.length ∧
      ∀ pre' look, pre = pre' ++ [look] →
        Separates g2 ∨ Apart look.token (x.drop look.range.start.offset) (g2 ++ y) := by
    rcases hx with rfl | ⟨a, ha, hs, hap⟩
    · exact ⟨[], s.log, rfl, rfl, fun p l h => by simp at h⟩
    · obtain ⟨p, q, he⟩ := List.append_of_mem ha
      refine ⟨p ++ [a], q, by rw [he]; simp, by rw [endOf_snoc, hs], fun p' l h => ?_⟩
      obtain ⟨-, h⟩ := List.append_inj' h rfl
      obtain rfl : a = l := by simpa using h
      exact hap
  have hux : Utf8 x := by
    have := utf8_tokens_end hu hl hlog
    rw [hend, List.take_left] at this
    exact this
  have hua : Utf8 (g1 ++ y) := hu.cancel hux
  have huy : Utf8 y := hua.cancel (gap_utf8 hg1)
  have hu2 : Utf8 (x ++ (g2 ++ y)) := hux.append ((gap_utf8 hg2).append huy)
  have hF := gap_follows hu hu2 hux hg1 hg2 h1 h2 hl hlog hend hap
  have hv1 := valid_intoTokenizer checked hu
  have hv2 := valid_intoTokenizer checked hu2
  have hn1 := C24_bound_irrelevant checked hu
    (n := max (fuelFor (x ++ (g1 ++ y))) (fuelFor (x ++ (g2 ++ y)))) (Nat.le_max_left _ _)
  have hn2 := C24_bound_irrelevant checked hu2
    (n := max (fuelFor (x ++ (g1 ++ y))) (fuelFor (x ++ (g2 ++ y)))) (Nat.le_max_right _ _)
  obtain ⟨s', h', hlog', -⟩ := replay hu
    (by unfold fromCut; rw [if_pos (Nat.zero_le _), if_pos (Nat.zero_le _)])
    (hn1.trans h) hF (checked2 := checked) (code2 := x ++ (g2 ++ y))
    ⟨hv1, hv2, rfl, rfl, rfl, rfl, fun _ => ⟨x, List.suffix_refl _, rfl, rfl, fun hk => by
      obtain rfl : pre = [] := List.length_eq_zero_iff.1 hk.symm
      exact List.length_eq_zero_iff.1 hend.symm⟩, fun hk => by omega⟩
  have h' := hn2.symm.trans h'
  have hl' := fullLog hu2 h'
  exact ⟨hu2, s'.log, ⟨s', h', rfl⟩, (forall2_of_map hlog').imp fun a b hab =>
    corresponds_of_via hab.1 (log_within hu hl hab.2.1) (log_within hu2 hl' hab.2.2)⟩

/-! ## All the gaps of a program at once -/

/-- A piece of a program, with two versions of the text that separates it from the next piece. -/
structure Piece where
  word : Bytes
  gap1 : Bytes
  gap2 : Bytes

def Piece.Alike (p : Piece) : Prop :=
  ∃ f, Gap p.gap1 f ∧ Gap p.gap2 f ∧ Separates p.gap1 ∧ Separates p.gap2

/-- The program with the first versions. -/
def text1 (ps : List Piece) : Bytes := ps.flatMap fun p => p.word ++ p.gap1

/-- The program with the second versions. -/
def text2 (ps : List Piece) : Bytes := ps.flatMap fun p => p.word ++ p.gap2

theorem separates_ne {g : Bytes} (h : Separates g) : g ≠ [] := by
  obtain ⟨d, r, he, -⟩ := separator_head (y := []) h
  rw [List.append_nil] at he
  rw [he]
  exact List.cons_ne_nil _ _

/-- Every piece ends where a token ends; the pieces `done` are in their second version. -/
def Marks (log : List Look) (ps done : List Piece) : Prop :=
  (∀ a p b, ps = a ++ p :: b → EndsAt log (text1 a ++ p.word).length) ∧
  (∀ a p b, done = a ++ p :: b → EndsAt log (text1 ps ++ (text2 a ++ p.word)).length)

theorem respace {checked : Bool} (y : Bytes) (ps : List Piece) : ∀ (done : List Piece) (log : List Look),
    (∀ p ∈ ps, p.Alike) → Utf8 (text1 ps ++ (text2 done ++ y)) →
    AcceptedAs checked (text1 ps ++ (text2 done ++ y)) log → Marks log ps done →
    Utf8 (text2 ps ++ (text2 done ++ y)) ∧
    ∃ log', AcceptedAs checked (text2 ps ++ (text2 done ++ y)) log' ∧
      log'.map Look.seen = log.map Look.seen ∧ Marks log' [] (ps ++ done) := by
  induction ps using snoc_induction with
  | nil => intro done log _ hu h hm; exact ⟨hu, log, h, rfl, hm⟩
  | append_singleton ps p ih =>
    intro done log hp hu h hm
    obtain ⟨f, hg1, hg2, hs1, hs2⟩ := hp p (by simp)
    have e1 : text1 (ps ++ [p]) ++ (text2 done ++ y) =
        (text1 ps ++ p.word) ++ (p.gap1 ++ (text2 done ++ y)) := by simp [text1]
    have e2 : (text1 ps ++ p.word) ++ (p.gap2 ++ (text2 done ++ y)) =
        text1 ps ++ (text2 (p :: done) ++ y) := by simp [text2]
    have e3 : text2 (ps ++ [p]) ++ (text2 done ++ y) = text2 ps ++ (text2 (p :: done) ++ y) := by
      simp [text2]
    have hmark := hm.1 ps p [] rfl
    rw [e1] at hu h
    obtain ⟨hu', log', h', hc⟩ := C36_replace_gap hu hg1 hg2 (by simp [separates_ne hs1])
      (by simp [separates_ne hs2]) h (by
        rcases hmark with h0 | ⟨a, ha, hk⟩
        · exact .inl (List.length_eq_zero_iff.1 h0)
        · exact .inr ⟨a, ha, hk, .inl hs2⟩)
    have hseen : log'.map Look.seen = log.map Look.seen := by
      clear h' h hmark hm
      induction hc with
      | nil => rfl
      | cons h _ ih => rw [List.map_cons, List.map_cons, ih, Look.seen, h.1, h.2.1, Look.seen]
    rw [e2] at hu' h'
    rw [e3]
    have hm' : Marks log' ps (p :: done) := by
      refine ⟨fun a q b he => ?_, fun a q b he => ?_⟩
      · have h1 := hm.1 a q (b ++ [p]) (by rw [he]; simp)
        refine h1.corresponds hc (fun _ => rfl) fun hlt => ?_
        rw [he] at hlt
        simp [text1] at hlt
      · cases a with
        | nil =>
          obtain ⟨rfl, -⟩ := List.cons.inj he
          have h1 := hm.1 ps p [] rfl
          refine h1.corresponds hc (fun _ => by simp [text2]) fun hlt => ?_
          exact absurd hlt (Nat.lt_irrefl _)
        | cons q' a =>
          obtain ⟨rfl, he2⟩ := List.cons.inj he
          have h1 := hm.2 a q b he2
          refine h1.corresponds hc (fun hle => ?_) fun hlt => ?_
          · have := List.length_pos_iff.2 (separates_ne hs1)
            simp only [text1, List.flatMap_append, List.flatMap_cons, List.flatMap_nil, List.length_append] at hle
            omega
          · simp [text1, text2]
            omega
    obtain ⟨hu'', log'', h'', hs'', hm''⟩ := ih (p :: done) log' (fun q hq => hp q (by simp [hq])) hu' h' hm'
    exact ⟨hu'', log'', h'', hs''.trans hseen, by simpa using hm''⟩

/-- Every piece of the first version ends where one of the tokens in `log` ends. -/
def Marked1 (log : List Look) (ps : List Piece) : Prop :=
  ∀ a p b, ps = a ++ p :: b → EndsAt log (text1 a ++ p.word).length

/-- Every piece of the second version ends where one of the tokens in `log` ends. -/
def Marked2 (log : List Look) (ps : List Piece) : Prop :=
  ∀ a p b, ps = a ++ p :: b → EndsAt log (text2 a ++ p.word).length

/-- **C36.** Laying out a program differently: if each separator is replaced by another one, with a line
terminator in it exactly if the first has one, then the program is accepted with the same tokens. -/
theorem C36_respace {checked : Bool} {ps : List Piece} {y : Bytes} {log : List Look}
    (hp : ∀ p ∈ ps, p.Alike) (hu : Utf8 (text1 ps ++ y)) (h : AcceptedAs checked (text1 ps ++ y) log)
    (hm : Marked1 log ps) :
    ∃ log', AcceptedAs checked (text2 ps ++ y) log' ∧ log'.map Look.seen = log.map Look.seen ∧
      Marked2 log' ps := by
  obtain ⟨-, log', h1, h2, h3⟩ := respace y ps [] log hp (by simpa [text2] using hu)
    (by simpa [text2] using h) ⟨hm, fun a p b h => by simp at h⟩
  refine ⟨log', by simpa [text2] using h1, h2, fun a p b he => ?_⟩
  have := h3.2 a p b (by simpa using he)
  simpa [text1] using this

/-- The pieces with the versions exchanged. -/
def Piece.swap (p : Piece) : Piece := ⟨p.word, p.gap2, p.gap1⟩

/-- **C36.** Blanks, line terminators and comments between the tokens of a program are irrelevant, but for
whether there is a line terminator: both versions are accepted, with the same tokens, or neither. -/
theorem C36_layout_irrelevant {checked : Bool} {ps : List Piece} {y : Bytes} {toks : List (Bool × Token)}
    (hp : ∀ p ∈ ps, p.Alike) (hw : ∀ p ∈ ps, Utf8 p.word) (hy : Utf8 y) :
    (∃ log, AcceptedAs checked (text1 ps ++ y) log ∧ log.map Look.seen = toks ∧ Marked1 log ps) ↔
    (∃ log, AcceptedAs checked (text2 ps ++ y) log ∧ log.map Look.seen = toks ∧ Marked2 log ps) := by
  have hu : ∀ qs : List Piece, (∀ p ∈ qs, p.Alike) → (∀ p ∈ qs, Utf8 p.word) → Utf8 (text1 qs ++ y) := by
    intro qs
    induction qs with
    | nil => intro _ _; exact hy
    | cons q qs ih =>
      intro h1 h2
      obtain ⟨f, h3, -⟩ := h1 q (by simp)
      have := ((h2 q (by simp)).append (gap_utf8 h3)).append
        (ih (fun p hp => h1 p (by simp [hp])) fun p hp => h2 p (by simp [hp]))
      simpa [text1] using this
  constructor
  · rintro ⟨log, h1, rfl, h2⟩
    exact C36_respace hp (hu ps hp hw) h1 h2
  · rintro ⟨log, h1, rfl, h2⟩
    have e1 : ∀ qs : List Piece, text1 (qs.map Piece.swap) = text2 qs := fun qs => by
      simp [text1, text2, List.flatMap_map, Piece.swap]
    have e2 : ∀ qs : List Piece, text2 (qs.map Piece.swap) = text1 qs := fun qs => by
      simp [text1, text2, List.flatMap_map, Piece.swap]
    have hp' : ∀ p ∈ ps.map Piece.swap, p.Alike := by
      intro p hp1
      obtain ⟨q, hq, rfl⟩ := List.mem_map.1 hp1
      obtain ⟨f, h3, h4, h5, h6⟩ := hp q hq
      exact ⟨f, h4, h3, h6, h5⟩
    have hw' : ∀ p ∈ ps.map Piece.swap, Utf8 p.word := by
      intro p hp1
      obtain ⟨q, hq, rfl⟩ := List.mem_map.1 hp1
      exact hw q hq
    have := C36_respace (checked := checked) (log := log) hp' (hu _ hp' hw') (by rw [e1]; exact h1) (by
      intro a p b he
      obtain ⟨a', b', rfl, rfl, he'⟩ := List.map_eq_append_iff.1 he
      cases b' with
      | nil => cases he'
      | cons p' b' =>
        obtain ⟨rfl, -⟩ := List.cons.inj he'
        rw [e1]
        exact h2 a' p' b' rfl)
    obtain ⟨log', h3, h4, h5⟩ := this
    refine ⟨log', by rw [e2] at h3; exact h3, h4, fun a p b he => ?_⟩
    have := h5 (a.map Piece.swap) p.swap (b.map Piece.swap) (by rw [he]; simp)
    rw [e2] at this
    exact this

/-! ## Without the tokens -/

/-- **C36.** What comes before the first token. -/
theorem C36_leading {checked : Bool} {g1 g2 y : Bytes} {f : Bool} (hy : Utf8 y) (hg1 : Gap g1 f)
    (hg2 : Gap g2 f) (h1 : g1 ++ y ≠ []) (h2 : g2 ++ y ≠ []) :
    parseRoot checked (g1 ++ y) = .accepted ↔ parseRoot checked (g2 ++ y) = .accepted := by
  constructor <;> intro h <;> obtain ⟨log, h⟩ := acceptedAs_of_accepted h
  · obtain ⟨-, log', h', -⟩ := C36_replace_gap (x := []) ((gap_utf8 hg1).append hy) hg1 hg2 h1 h2 h (.inl rfl)
    exact h'.accepted
  · obtain ⟨-, log', h', -⟩ := C36_replace_gap (x := []) ((gap_utf8 hg2).append hy) hg2 hg1 h2 h1 h (.inl rfl)
    exact h'.accepted

/-! ## Examples -/

theorem acceptedAs_eval {checked : Bool} {code : Bytes} {log : List Look}
    (h : (match parseModuleF (fuelFor code) checked code with
      | .ok _ s => decide (s.log = log) | _ => false) = true) : AcceptedAs checked code log := by
  rw [← parseModule_eval] at h
  cases hm : parseModuleFuel (fuelFor code) checked code with
  | ok a s => rw [hm] at h; exact ⟨s, hm, of_decide_eq_true h⟩
  | _ => rw [hm] at h; cases h

/-- The tokens that the parser consumed, if it accepts the text. -/
def tokensOf (code : Bytes) : List Look :=
  match parseModuleF (fuelFor code) true code with
  | .ok _ s => s.log
  | _ => []

theorem acceptedAs_tokensOf {code : Bytes} (h : parseRoot true code = .accepted) :
    AcceptedAs true code (tokensOf code) := by
  apply acceptedAs_eval
  rw [parseRoot_eval] at h
  unfold tokensOf
  cases hm : parseModuleF (fuelFor code) true code with
  | ok a s => simp
  | _ => rw [hm] at h; cases h

theorem gap_blank : Gap b!" " false := .blank _ _ _ (by decide) .nil

theorem gap_comment : Gap b!" /*+*/" false :=
  .blank _ _ _ (by decide) (.block ['+'] [] false (by
    intro a b h1 h2
    have : a ++ b = [c!"+"] := h1.symm
    rcases List.append_eq_singleton_iff.1 this with ⟨-, rfl⟩ | ⟨-, rfl⟩
    · decide
    · exact absurd rfl h2) .nil)

theorem gap_newline (d : Bytes) (hd : Terminator d) : Gap d true := by
  simpa using Gap.newline d [] false hd .nil

/-- One gap with a token that stays apart: `a +b` and `a+b`. -/
example : parseRoot true b!"a+b" = .accepted := by
  have h : AcceptedAs true (b!"a" ++ (b!" " ++ b!"+b")) (tokensOf b!"a +b") :=
    acceptedAs_tokensOf (by rw [parseRoot_eval]; decide +kernel)
  have hu : Utf8 b!"a +b" := utf8_ascii (by decide)
  have ha : Apart (.ident b!"a") b!"a" b!"+b" := by
    refine ⟨by decide, fun b r h => ?_⟩
    obtain ⟨rfl, -⟩ := List.cons.inj h
    decide
  obtain ⟨-, log', h', -⟩ := C36_replace_gap (x := b!"a") (g1 := b!" ") (g2 := []) (y := b!"+b") hu gap_blank
    .nil (by decide) (by decide) h
    (.inr ⟨{ token := .ident b!"a", range := ⟨{}, ⟨1, 0, 1⟩⟩ }, by decide +kernel, rfl, .inr ha⟩)
  exact h'.accepted

/-- The side condition matters: `a+ +b` is accepted, `a++b` is not. -/
example : parseRoot true b!"a+ +b" = .accepted ∧ parseRoot true b!"a++b" = .rejected .unexpectedToken := by
  simp only [parseRoot_eval]; decide +kernel

/-- The line flag matters: `a` and `b` on two lines are two statements. -/
example : parseRoot true b!"a\nb" = .accepted ∧ parseRoot true b!"a b" = .rejected .unexpectedToken := by
  simp only [parseRoot_eval]; decide +kernel

/-- **C36.** The condition that some text follows is needed: `parse_exponent` (tokenizer/mod.rs) wants two
more bytes, so that `1e ` is one token and `1e` at the end of the text is two. -/
theorem C36_end_of_text : parseRoot true b!"1e " = .accepted ∧
    parseRoot true b!"1e" = .rejected .unexpectedToken := by
  simp only [parseRoot_eval]; decide +kernel

/-- Three gaps at once. -/
example : parseRoot true b!" /*+*/f( /*+*/a\r)" = .accepted := by
  let ps : List Piece := [⟨[], b!" ", b!" /*+*/"⟩, ⟨b!"f(", b!" ", b!" /*+*/"⟩, ⟨b!"a", b!"\n", b!"\r"⟩]
  have h : AcceptedAs true (text1 ps ++ b!")") (tokensOf b!" f( a\n)") :=
    acceptedAs_tokensOf (by rw [parseRoot_eval]; decide +kernel)
  have hu : Utf8 b!" f( a\n)" := utf8_ascii (by decide)
  have hs1 : Separates b!" " := .inl ⟨_, _, rfl, by decide⟩
  have hs2 : Separates b!" /*+*/" := .inl ⟨_, _, rfl, by decide⟩
  have hp : ∀ p ∈ ps, p.Alike := by
    intro p hp
    simp only [ps, List.mem_cons, List.not_mem_nil, or_false] at hp
    rcases hp with rfl | rfl | rfl
    · exact ⟨_, gap_blank, gap_comment, hs1, hs2⟩
    · exact ⟨_, gap_blank, gap_comment, hs1, hs2⟩
    · exact ⟨_, gap_newline _ (by decide), gap_newline _ (by decide), .inr (by decide), .inr (by decide)⟩
  have hm : Marked1 (tokensOf b!" f( a\n)") ps := by
    intro a p b he
    rcases a with _ | ⟨q, _ | ⟨q', _ | ⟨q'', a⟩⟩⟩ <;>
      simp only [ps, List.cons_append, List.nil_append, List.cons.injEq] at he
    · obtain ⟨rfl, -⟩ := he
      exact .inl rfl
    · obtain ⟨rfl, rfl, -⟩ := he
      exact .inr (by decide +kernel)
    · obtain ⟨rfl, rfl, rfl, -⟩ := he
      exact .inr (by decide +kernel)
    · simp at he
  obtain ⟨log', h', -⟩ := C36_respace hp hu h hm
  exact h'.accepted

end Jsparse
