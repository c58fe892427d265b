import Verif.Proofs.GapScan
import Verif.Proofs.Replay
import Verif.Proofs.Progress
import Verif.Props.ParserState
import Verif.Props.ParserTermination
/-!
# Replacing the text between two tokens
-/

namespace Jsparse

open P Spec

/-! ## The tokens of an accepted program cover at least one byte, apart from the last -/

theorem Delivered.split {t0 : Tokenizer} {a : List Look} (b : List Look) :
    ∀ {t}, Delivered t0 (a ++ b) t → ∃ t1, Delivered t0 a t1 ∧ Delivered t1 b t := by
  induction b using snoc_induction with
  | nil => intro t h; exact ⟨t, by simpa using h, .nil⟩
  | append_singleton b x ih =>
    intro t h
    rw [← List.append_assoc] at h
    obtain ⟨t1, hint, h1, h2⟩ := h.snoc_inv
    obtain ⟨t2, h3, h4⟩ := ih h1
    exact ⟨t2, h3, .snoc h4 h2⟩

theorem deliver_tokens {tok : Token} {r : TokenRange} {toks : List (Token × TokenRange)}
    (h : ∀ x ∈ toks, x = (tok, r)) : ∀ f, ∀ l ∈ deliver f toks, l.token = tok := by
  induction toks with
  | nil => intro f l hl; cases hl
  | cons x toks ih =>
    obtain rfl := h x (by simp)
    have ih := ih fun x hx => h x (by simp [hx])
    intro f l hl
    cases tok <;> simp only [deliver, List.mem_cons] at hl <;>
      first
      | exact ih _ l hl
      | (rcases hl with rfl | hl
         · rfl
         · exact ih _ l hl)

/-- The log of an accepted program. -/
structure FullLog (checked : Bool) (code : Bytes) (s : PState) : Prop where
  stream : Delivered (intoTokenizer checked code) s.log s.tok
  strict : ∀ pre look post, s.log = pre ++ look :: post → post ≠ [] →
    look.range.start.offset < look.range.stop.offset
  last : ∀ pre look, s.log = pre ++ [look] → look.token = .eof ∧ look.range.start.offset = code.length

theorem fullLog {checked : Bool} {code : Bytes} (hu : Utf8 code) {s : PState}
    (h : parseModuleFuel (fuelFor code) checked code = .ok () s) : FullLog checked code s := by
  have hv := valid_intoTokenizer checked hu
  have ha : parseRoot checked code = .accepted := by unfold parseRoot; rw [h]; rfl
  obtain ⟨-, -, s', front, last, -, h', -, hlog, hlast, hoff, hfront, -⟩ := C26_accepted_consumes_all hu ha
  rw [h] at h'
  injection h' with _ h'
  subst h'
  have hst : Delivered (intoTokenizer checked code) s.log s.tok := by
    have := parseModule_spec hv (fuelFor code) (inv_initState checked code)
    unfold parseModuleFuel at h
    rw [h] at this
    obtain ⟨s1, h1, -, -, h4, rfl⟩ := this
    have h5 := h1.stream
    rw [buf_one h4] at h5
    exact h5
  refine ⟨hst, ?_, ?_⟩
  · intro pre look post hl hp
    by_contra hz
    obtain ⟨t1, d1, d2⟩ := Delivered.split (a := pre ++ [look]) post
      (by rw [List.append_assoc]; exact hl ▸ hst)
    have ho := d1.order hv rfl
    have hz0 : look.range.start.offset = look.range.stop.offset := by
      rcases ho.2.2 with h | h
      · exact absurd h hz
      · exact h.1
    obtain ⟨t2, hint, d3, hi⟩ := d1.snoc_inv
    obtain ⟨toks1, t3, c1, c2, -⟩ := hi.calls
    obtain ⟨toks, c3, c4⟩ := d2.calls
    have hv3 : Valid t3 := valid_calls (d3.valid hv) c1
    obtain ⟨-, hall⟩ := C04_stuck hv3 c2 hz0 c3
    have c5 := c4 []
    rw [List.append_nil, deliver, List.append_nil] at c5
    obtain ⟨post', last', rfl⟩ : ∃ p l, post = p ++ [l] := by
      rcases List.eq_nil_or_concat post with rfl | ⟨p, l, rfl⟩
      · exact absurd rfl hp
      · exact ⟨p, l, by simp⟩
    have hlt : last'.token = look.token := deliver_tokens hall false last' (by rw [c5]; simp)
    have e : front ++ [last] = (pre ++ look :: post') ++ [last'] := by rw [← hlog, hl]; simp
    obtain ⟨e1, e2⟩ := List.append_inj' e rfl
    obtain rfl : last = last' := by simpa using e2
    exact hfront look (by rw [e1]; simp) (hlt ▸ hlast)
  · intro pre look hl
    rw [hlog] at hl
    obtain ⟨-, e2⟩ := List.append_inj' hl rfl
    obtain rfl : last = look := by simpa using e2
    exact ⟨hlast, hoff⟩

/-! ## The two tokenizers -/

/-- The two tokenizers after `k` of the tokens; `m` tokens come before the gap. -/
structure Pair (c : Bool) (x a b : Bytes) (m k : Nat) (t1 t2 : Tokenizer) : Prop where
  valid1 : Valid t1
  valid2 : Valid t2
  checked1 : t1.checked = c
  checked2 : t2.checked = c
  code1 : t1.code = x ++ a
  code2 : t2.code = x ++ b
  before : k ≤ m → ∃ p, p <:+ x ∧ unread t1 = p ++ a ∧ unread t2 = p ++ b ∧
    (k = m → p = [])
  after : m < k → unread t1 = unread t2 ∧ x.length < t1.position.offset ∧ x.length < t2.position.offset

theorem unread_length {t : Tokenizer} (hv : Valid t) :
    t.position.offset + (unread t).length = t.code.length := by
  have := isBoundary_le hv.boundary
  simp only [unread, List.length_drop]
  omega

theorem suffix_eq_drop {w x : Bytes} (h : w <:+ x) : w = x.drop (x.length - w.length) := by
  obtain ⟨e, rfl⟩ := h
  rw [List.length_append, Nat.add_sub_cancel, List.drop_left]

/-- A range in a text of `L` bytes that is cut at `B`: before the cut it is counted from the start of the
text, behind it from the end. -/
def fromCut (B L : Nat) (r : TokenRange) : Bool × Nat × Nat :=
  if r.stop.offset ≤ B then (true, r.start.offset, r.stop.offset)
  else (false, L - r.start.offset, L - r.stop.offset)

theorem via_beyond {B L1 L2 : Nat} {l1 l2 : Look} (h1 : B < l1.range.stop.offset)
    (h2 : B < l2.range.stop.offset) (h : l2.seen = l1.seen)
    (h3 : L2 - l2.range.start.offset = L1 - l1.range.start.offset)
    (h4 : L2 - l2.range.stop.offset = L1 - l1.range.stop.offset) :
    l2.via (fromCut B L2) = l1.via (fromCut B L1) := by
  unfold Look.via fromCut
  rw [h, if_neg (by omega), if_neg (by omega), h3, h4]

theorem gap_follows {c : Bool} {x g1 g2 y : Bytes} {f : Bool} {s : PState}
    (hu1 : Utf8 (x ++ (g1 ++ y))) (hu2 : Utf8 (x ++ (g2 ++ y))) (hux : Utf8 x)
    (hg1 : Gap g1 f) (hg2 : Gap g2 f) (ha : g1 ++ y ≠ []) (hb : g2 ++ y ≠ [])
    (hl : FullLog c (x ++ (g1 ++ y)) s) {pre post : List Look} (hlog : s.log = pre ++ post)
    (hend : endOf pre = x.length)
    (hap : ∀ pre' look, pre = pre' ++ [look] →
      Separates g2 ∨ Apart look.token (x.drop look.range.start.offset) (g2 ++ y)) :
    Follows (fromCut x.length (x ++ (g1 ++ y)).length) (fromCut x.length (x ++ (g2 ++ y)).length)
      s.log (Pair c x (g1 ++ y) (g2 ++ y) pre.length) := by
  have hua : Utf8 (g1 ++ y) := hu1.cancel hux
  have hub : Utf8 (g2 ++ y) := hu2.cancel hux
  have hv0 := valid_intoTokenizer c hu1
  intro pre' look t1 t2 h t1' hpre hR hread
  obtain ⟨w, hs, hw⟩ := scan_of_readToken hR.valid1 hread
  obtain ⟨tail, hF⟩ := hpre
  have hF' : s.log = pre' ++ look :: tail := by rw [← hF]; simp
  have hlen1 := unread_length hR.valid1
  have hlen2 := unread_length hR.valid2
  have hlen1' := unread_length hw.valid
  rw [hw.code] at hlen1'
  rw [hR.code1] at hlen1 hlen1'
  rw [hR.code2] at hlen2
  simp only [List.length_append] at hlen1 hlen1' hlen2
  have hla : 0 < (g1 ++ y).length := List.length_pos_iff.2 ha
  have hlb : 0 < (g2 ++ y).length := List.length_pos_iff.2 hb
  simp only [List.length_append] at hla hlb
  have hsl := scan_length hs
  have hpost : post ≠ [] := by
    rintro rfl
    rw [List.append_nil] at hlog
    rcases List.eq_nil_or_concat pre with rfl | ⟨p, l, rfl⟩
    · rw [hlog] at hF'; simp at hF'
    · rw [List.concat_eq_append] at hlog hend
      have h1 := (hl.last p l hlog).2
      have h2 := (hlog ▸ hl.stream).order hv0 rfl
      rw [endOf_snoc] at hend
      simp only [List.length_append] at h1
      omega
  rw [hw.position] at hlen1'
  rw [hR.checked1] at hs
  rcases Nat.lt_trichotomy pre'.length pre.length with hk | hk | hk
  · -- before the gap
    obtain ⟨p, hpx, hp1, hp2, -⟩ := hR.before (Nat.le_of_lt hk)
    have hpp : ∃ mid, pre = pre' ++ look :: mid ∧ tail = mid ++ post := by
      have e : pre ++ post = (pre' ++ [look]) ++ tail := by rw [← hlog, hF]
      rcases List.append_eq_append_iff.1 e with ⟨m, h1, h2⟩ | ⟨m, h1, h2⟩
      · have : m = [] := by
          have := congrArg List.length h1
          simp at this
          exact List.length_eq_zero_iff.1 (by omega)
        subst this
        exact ⟨[], by simpa using h1.symm, by simpa using h2.symm⟩
      · exact ⟨m, by rw [h1]; simp, h2⟩
    obtain ⟨mid, hmid, htail⟩ := hpp
    have hstop : look.range.stop.offset ≤ x.length ∧ (mid ≠ [] → look.range.stop.offset < x.length) := by
      obtain ⟨t3, d3, -⟩ := Delivered.split post (hlog ▸ hl.stream)
      rw [hmid, show pre' ++ look :: mid = (pre' ++ [look]) ++ mid by simp] at d3
      have h1 := d3.prefix_le hv0 rfl
      rw [endOf_snoc] at h1
      rw [← hend, hmid, show pre' ++ look :: mid = (pre' ++ [look]) ++ mid by simp]
      refine ⟨h1, fun hm => ?_⟩
      rcases List.eq_nil_or_concat mid with rfl | ⟨mid', m, rfl⟩
      · exact absurd rfl hm
      · rw [List.concat_eq_append, show pre' ++ [look] ++ (mid' ++ [m]) = (pre' ++ [look] ++ mid') ++ [m] by
          simp] at d3 ⊢
        have h2 := (d3.order hv0 rfl).1
        obtain ⟨t4, d4, -⟩ := d3.split [m]
        have h3 := d4.prefix_le hv0 rfl
        have h4 := hl.strict (pre' ++ [look] ++ mid') m post
          (by rw [hlog, hmid, List.concat_eq_append]; simp) hpost
        rw [endOf_snoc] at h3 ⊢
        omega
    have hpos : look.range.start.offset < look.range.stop.offset :=
      hl.strict pre' look tail hF' (by rw [htail]; simp [hpost])
    have hwne : w ≠ [] := by
      rintro rfl
      have := hw.width
      simp at this
      omega
    have hdotx : ¬ ([c!"."] <:+ x ∧ [c!"."] <+: g2 ++ y) := by
      rintro ⟨hd1, hd2⟩
      obtain ⟨p', l, hpl⟩ : ∃ p l, pre = p ++ [l] := by
        rcases List.eq_nil_or_concat pre with rfl | ⟨p, l, rfl⟩
        · simp at hk
        · exact ⟨p, l, by simp⟩
      rcases hap p' l hpl with hsep | hap
      · obtain ⟨d, r, he, hd⟩ := separator_head (y := y) hsep
        rw [he] at hd2
        obtain ⟨e, hd2⟩ := hd2
        exact (separator_not d hd).2.1 (List.cons.inj hd2).1.symm
      · refine hap.1 ⟨?_, hd2⟩
        have h1 := hl.strict p' l post (by rw [hlog, hpl]; simp) hpost
        have h2 : l.range.stop.offset = x.length := by rw [← hend, hpl, endOf_snoc]
        refine List.suffix_of_suffix_length_le hd1 (List.drop_suffix _ _) ?_
        simp
        omega
    have hpa : Utf8 (p ++ (g1 ++ y)) := hp1 ▸ hR.valid1.unread_utf8
    have hpb : Utf8 (p ++ (g2 ++ y)) := hp2 ▸ hR.valid2.unread_utf8
    have hs' := hs
    rw [hp1] at hs'
    obtain ⟨q, hq, hwq, hs2⟩ := scan_prefix hs' hwne (by simp only [List.length_append]; omega) (fun _ _ => ⟨ha, hb⟩) hua.headOk hub.headOk rfl hpa hpb
      (fun hwp hrl => by
        have hm : mid = [] := by
          by_contra hm
          have := hstop.2 hm
          simp only [List.length_append] at hrl
          omega
        subst hm
        rcases hap pre' look hmid with hsep | hap
        · obtain ⟨hi, s', n, hlx, -, rfl, -⟩ := scan_last hs (hp1 ▸ hpa)
          exact apart_of_separates hlx hi hsep y
        · have : w = x.drop look.range.start.offset := by
            rw [suffix_eq_drop (hwp.trans hpx)]
            congr 1
            have := hw.width
            have := (hwp.trans hpx).length_le
            simp only [List.length_append] at hrl
            omega
          rw [this]
          exact hap)
      (fun hd => hdotx ⟨hd.1.trans hpx, hd.2⟩)
    obtain ⟨look2, t2', hread2, hseen, hr2, hw2⟩ := readToken_of_scan hR.valid2
      (by rw [hR.checked2, hp2]; exact hs2)
    have hlen2' := unread_length hw2.valid
    rw [hw2.code, hR.code2, hr2, hw2.position] at hlen2'
    rw [hq] at hlen1'
    simp only [List.length_append] at hlen1' hlen2'
    have h1 := hw.width
    have h2 := hw2.width
    refine ⟨look2, t2', hread2, ?_, ?_⟩
    · unfold Look.via fromCut
      rw [hseen, if_pos (by omega), if_pos (by omega), show look2.range.stop.offset =
        look.range.stop.offset by omega, show look2.range.start.offset = look.range.start.offset by omega]
    · refine ⟨hw.valid, hw2.valid, hw.checked.trans hR.checked1, hw2.checked.trans hR.checked2,
        hw.code.trans hR.code1, hw2.code.trans hR.code2, fun _ => ⟨q, ?_, hq, hr2, fun hm => ?_⟩,
        fun hlt => by omega⟩
      · exact ((List.suffix_append _ _).trans hwq).trans hpx
      · have : mid = [] := by
          have := congrArg List.length hmid
          simp at this
          exact List.length_eq_zero_iff.1 (by omega)
        subst this
        have : look.range.stop.offset = x.length := by
          rw [← hend, hmid, endOf_snoc]
        exact List.length_eq_zero_iff.1 (by omega)
  · -- the gap
    obtain ⟨p, -, hp1, hp2, hp⟩ := hR.before (Nat.le_of_eq hk)
    obtain rfl := hp hk
    rw [List.nil_append] at hp1 hp2
    have hs' := hs
    rw [hp1, scan_gap hg1 hua] at hs'
    obtain ⟨look2, t2', hread2, hseen, hr2, hw2⟩ := readToken_of_scan hR.valid2
      (z := look.seen) (w := w) (r := unread t1')
      (by rw [hR.checked2, hp2, scan_gap hg2 hub]; exact hs')
    have hlen2' := unread_length hw2.valid
    rw [hw2.code, hR.code2, hr2, hw2.position] at hlen2'
    simp only [List.length_append] at hlen2'
    have hsl2 := scan_length hs'
    have hsl3 := scan_length ((scan_gap hg2 hub).2 hs')
    rw [hp1] at hlen1 hsl
    rw [hp2] at hlen2
    simp only [List.length_append] at hlen1 hlen2 hsl hsl3
    have key : x.length < look.range.stop.offset ∧ x.length < look2.range.stop.offset := by
      by_cases hw0 : w = []
      · have ht : tail = [] := by
          by_contra ht
          have h1 := hl.strict pre' look tail hF' ht
          have h2 := hw.width
          rw [hw0] at h2
          simp at h2
          omega
        subst ht
        have hr : unread t1' = [] := scan_eof hs hR.valid1.unread_utf8 (hl.last pre' look hF').1
        rw [hr] at hlen1' hlen2'
        simp at hlen1' hlen2'
        omega
      · have := List.length_pos_iff.2 hw0
        omega
    refine ⟨look2, t2', hread2, via_beyond key.1 key.2 hseen ?_ ?_, hw.valid, hw2.valid,
      hw.checked.trans hR.checked1, hw2.checked.trans hR.checked2, hw.code.trans hR.code1,
      hw2.code.trans hR.code2, fun h => by omega, fun _ => ⟨hr2.symm, ?_, ?_⟩⟩
    · simp only [List.length_append]
      have := hw.width
      have := hw2.width
      omega
    · simp only [List.length_append]
      omega
    · rw [hw.position]; exact key.1
    · rw [hw2.position]; exact key.2
  · -- behind the gap
    obtain ⟨he, ho1, ho2⟩ := hR.after hk
    have hs' := hs
    rw [he] at hs'
    obtain ⟨look2, t2', hread2, hseen, hr2, hw2⟩ := readToken_of_scan hR.valid2
      (z := look.seen) (w := w) (r := unread t1') (by rw [hR.checked2]; exact hs')
    have hlen2' := unread_length hw2.valid
    rw [hw2.code, hR.code2, hr2, hw2.position] at hlen2'
    simp only [List.length_append] at hlen2'
    rw [← he] at hlen2
    refine ⟨look2, t2', hread2, via_beyond (by omega) (by omega) hseen ?_ ?_, hw.valid, hw2.valid,
      hw.checked.trans hR.checked1, hw2.checked.trans hR.checked2, hw.code.trans hR.code1,
      hw2.code.trans hR.code2, fun h => by omega, fun _ => ⟨hr2.symm, ?_, ?_⟩⟩
    · simp only [List.length_append]
      have := hw.width
      have := hw2.width
      omega
    · simp only [List.length_append]
      omega
    · rw [hw.position]; omega
    · rw [hw2.position]; omega

end Jsparse
