import Verif.Proofs.ReplayErr
import Verif.Proofs.KindFollow
import Verif.Spec.Places
/-!
# The tokens read by a run that fails
-/

namespace Jsparse

open P Spec Forward

/-! ## The tokens read -/

theorem err_inv {checked : Bool} {code : Bytes} (hu : Utf8 code) {n : Nat} {e : ParseErr} {s : PState}
    (h : parseModuleFuel n checked code = .err e s) :
    Inv (intoTokenizer checked code) s ∧ ∀ x ∈ s.log, x.token ≠ .eof := by
  have := parseModule_spec (valid_intoTokenizer checked hu) n (inv_initState checked code)
  unfold parseModuleFuel at h
  rw [h] at this
  obtain ⟨h1, l, h2, h3⟩ := this
  refine ⟨h1, ?_⟩
  rw [h2]
  simpa [initState] using h3

/-- The end of the text is read last. -/
theorem reads_eof {t0 : Tokenizer} {s : PState} (hi : Inv t0 s) (hl : ∀ x ∈ s.log, x.token ≠ .eof)
    {pre : List Look} {look : Look} (h : reads s = pre ++ [look]) : ∀ x ∈ pre, x.token ≠ .eof := by
  have hc := hi.count
  unfold reads at h
  rcases (by omega : s.count = 0 ∨ s.count = 1 ∨ s.count = 2) with hc | hc | hc
  · rw [buf_zero hc, List.append_nil] at h
    exact fun x hx => hl x (by rw [h]; simp [hx])
  · rw [buf_one hc] at h
    obtain ⟨h, -⟩ := List.append_inj' h rfl
    exact fun x hx => hl x (by rw [h]; exact hx)
  · rw [buf_two hc, show s.log ++ [cur s, other s] = (s.log ++ [cur s]) ++ [other s] by simp] at h
    obtain ⟨h, -⟩ := List.append_inj' h rfl
    intro x hx
    rw [← h] at hx
    rcases List.mem_append.1 hx with hx | hx
    · exact hl x hx
    · rw [List.mem_singleton.1 hx]
      obtain ⟨v, hv⟩ := hi.second hc
      rw [hv]
      nofun

theorem deliver_ranges {tok : Token} {r : TokenRange} {toks : List (Token × TokenRange)}
    (h : ∀ x ∈ toks, x = (tok, r)) : ∀ f, ∀ l ∈ deliver f toks, l.range = r := by
  induction toks with
  | nil => intro f l hl; cases hl
  | cons x toks ih =>
    obtain rfl := h x (by simp)
    have ih' := ih fun x hx => h x (by simp [hx])
    clear ih h
    intro f l hl
    cases tok <;> simp only [deliver, List.mem_cons] at hl <;>
      first
      | exact ih' _ l hl
      | (rcases hl with rfl | hl
         · rfl
         · exact ih' _ l hl)

/-- If the last token is not empty, then none is. -/
theorem delivered_wide {checked : Bool} {code : Bytes} (hu : Utf8 code) {pre : List Look} {last : Look}
    {t : Tokenizer} (hd : Delivered (intoTokenizer checked code) (pre ++ [last]) t)
    (hl : last.range.start.offset < last.range.stop.offset) :
    ∀ a ∈ pre ++ [last], a.range.start.offset < a.range.stop.offset := by
  have hv := valid_intoTokenizer checked hu
  intro look ha
  rcases List.mem_append.1 ha with ha | ha
  swap
  · rw [List.mem_singleton.1 ha]; exact hl
  obtain ⟨p, q, rfl⟩ := List.append_of_mem ha
  by_contra hz
  obtain ⟨t1, d1, d2⟩ := Delivered.split (a := p ++ [look]) (q ++ [last]) (by simpa using hd)
  have ho := d1.order hv rfl
  have hz0 : look.range.start.offset = look.range.stop.offset := by
    rcases ho.2.2 with h | h
    · exact absurd h hz
    · exact h.1
  obtain ⟨t2, hint, d3, hi⟩ := d1.snoc_inv
  obtain ⟨toks1, t3, c1, c2, -⟩ := hi.calls
  obtain ⟨toks, c3, c4⟩ := d2.calls
  have hv3 : Valid t3 := valid_calls (d3.valid hv) c1
  obtain ⟨-, hall⟩ := C04_stuck hv3 c2 hz0 c3
  have c5 := c4 []
  rw [List.append_nil, deliver, List.append_nil] at c5
  have := deliver_ranges hall false last (by rw [c5]; simp)
  rw [this] at hl
  omega

/-! ## Two texts that begin in the same way -/

/-- The two tokenizers have read the same tokens at the start of the texts `x ++ a` and `x ++ b`. -/
structure Fork (c : Bool) (x a b p : Bytes) (t1 t2 : Tokenizer) : Prop where
  valid1 : Valid t1
  valid2 : Valid t2
  checked1 : t1.checked = c
  checked2 : t2.checked = c
  code1 : t1.code = x ++ a
  code2 : t2.code = x ++ b
  part : p <:+ x
  unread1 : unread t1 = p ++ a
  unread2 : unread t2 = p ++ b

/-- The tokens `pre` lie in `x` and stay the same if `b` follows. -/
structure Stays (c : Bool) (x a b : Bytes) (pre : List Look) : Prop where
  stream : ∃ t, Delivered (intoTokenizer c (x ++ a)) pre t
  stop : endOf pre ≤ x.length
  wide : ∀ l ∈ pre, l.range.start.offset < l.range.stop.offset
  number : ∀ l ∈ pre, ∀ v, l.token = .num v → a ≠ [] ∧ b ≠ []
  apart : Separates b ∨ ¬ ([c!"."] <:+ x ∧ [c!"."] <+: b) ∧
    ∀ l ∈ pre, l.range.stop.offset = x.length → Apart l.token (x.drop l.range.start.offset) b

theorem fork_step {c : Bool} {x a b p : Bytes} (hu1 : Utf8 (x ++ a)) (hu2 : Utf8 (x ++ b)) (hux : Utf8 x)
    {pre' mid : List Look} {look : Look} (hst : Stays c x a b (pre' ++ look :: mid))
    {t1 t2 t1' : Tokenizer} {h : Hint} (hR : Fork c x a b p t1 t2) (hread : readToken t1 h = .ok look t1') :
    ∃ look2 t2' q, readToken t2 h = .ok look2 t2' ∧ SamePlace look look2 ∧ Fork c x a b q t1' t2' ∧
      (mid = [] → endOf (pre' ++ look :: mid) = x.length → q = []) := by
  have hua : Utf8 a := hu1.cancel hux
  have hub : Utf8 b := hu2.cancel hux
  have hv0 := valid_intoTokenizer c hu1
  obtain ⟨w, hs, hw⟩ := scan_of_readToken hR.valid1 hread
  have hlen1 := unread_length hR.valid1
  have hlen2 := unread_length hR.valid2
  have hlen1' := unread_length hw.valid
  rw [hw.code] at hlen1'
  rw [hR.code1] at hlen1 hlen1'
  rw [hR.code2, hR.unread2] at hlen2
  rw [hR.unread1] at hlen1
  simp only [List.length_append] at hlen1 hlen1' hlen2
  have hsl := scan_length hs
  rw [hw.position] at hlen1'
  rw [hR.checked1] at hs
  have hstop : look.range.stop.offset ≤ x.length ∧ (mid ≠ [] → look.range.stop.offset < x.length) := by
    obtain ⟨t3, d3⟩ := hst.stream
    have he := hst.stop
    rw [show pre' ++ look :: mid = (pre' ++ [look]) ++ mid by simp] at d3 he
    have h1 := d3.prefix_le hv0 rfl
    rw [endOf_snoc] at h1
    refine ⟨Nat.le_trans h1 he, fun hm => Nat.lt_of_lt_of_le ?_ he⟩
    rcases List.eq_nil_or_concat mid with rfl | ⟨mid', m, rfl⟩
    · exact absurd rfl hm
    · rw [List.concat_eq_append, show pre' ++ [look] ++ (mid' ++ [m]) = (pre' ++ [look] ++ mid') ++ [m] by
        simp] at d3 ⊢
      have h2 := (d3.order hv0 rfl).1
      obtain ⟨t4, d4, -⟩ := d3.split [m]
      have h3 := d4.prefix_le hv0 rfl
      have h4 := hst.wide m (by simp)
      rw [endOf_snoc] at h3 ⊢
      omega
  have hpos := hst.wide look (by simp)
  have hwne : w ≠ [] := by
    rintro rfl
    have := hw.width
    simp at this
    omega
  have hdotx : ¬ ([c!"."] <:+ x ∧ [c!"."] <+: b) := by
    rintro ⟨hd1, hd2⟩
    rcases hst.apart with hsep | hap
    · obtain ⟨d, r, he, hd⟩ := separator_head (y := []) hsep
      rw [List.append_nil] at he
      rw [he] at hd2
      obtain ⟨e, hd2⟩ := hd2
      exact (separator_not d hd).2.1 (List.cons.inj hd2).1.symm
    · exact hap.1 ⟨hd1, hd2⟩
  have hpa : Utf8 (p ++ a) := hR.unread1 ▸ hR.valid1.unread_utf8
  have hpb : Utf8 (p ++ b) := hR.unread2 ▸ hR.valid2.unread_utf8
  have hs' := hs
  rw [hR.unread1] at hs'
  obtain ⟨q, hq, hwq, hs2⟩ := scan_prefix hs' hwne (by omega)
    (fun v hv => hst.number look (by simp) v hv) hua.headOk hub.headOk rfl hpa hpb
    (fun hwp hrl => by
      have hm : mid = [] := by
        by_contra hm
        have := hstop.2 hm
        omega
      subst hm
      rcases hst.apart with hsep | hap
      · obtain ⟨hi, s', n, hlx, -, rfl, -⟩ := scan_last hs (hR.unread1 ▸ hpa)
        have := apart_of_separates hlx hi hsep []
        rwa [List.append_nil] at this
      · have : w = x.drop look.range.start.offset := by
          rw [suffix_eq_drop (hwp.trans hR.part)]
          congr 1
          have := hw.width
          have := (hwp.trans hR.part).length_le
          omega
        rw [this]
        exact hap.2 look (by simp) (by omega))
    (fun hd => hdotx ⟨hd.1.trans hR.part, hd.2⟩)
  obtain ⟨look2, t2', hread2, hseen, hr2, hw2⟩ := readToken_of_scan hR.valid2
    (by rw [hR.checked2, hR.unread2]; exact hs2)
  have hlen2' := unread_length hw2.valid
  rw [hw2.code, hR.code2, hr2, hw2.position] at hlen2'
  rw [hq] at hlen1'
  simp only [List.length_append] at hlen1' hlen2'
  have h1 := hw.width
  have h2 := hw2.width
  have h3 : look2.line = look.line ∧ look2.token = look.token := Prod.mk.inj hseen
  refine ⟨look2, t2', q, hread2, ⟨h3.1, h3.2, by omega, by omega⟩, ⟨hw.valid, hw2.valid,
    hw.checked.trans hR.checked1, hw2.checked.trans hR.checked2, hw.code.trans hR.code1,
    hw2.code.trans hR.code2, ((List.suffix_append _ _).trans hwq).trans hR.part, hq, hr2⟩, fun hm he => ?_⟩
  rw [hm, endOf_snoc] at he
  exact List.length_eq_zero_iff.1 (by omega)

theorem kinds_place : Kinds SamePlace :=
  ⟨fun h => h.1, fun h => by rw [h.2.1]; exact .same _, fun h => ⟨h.1, rfl, h.2.2⟩⟩

theorem fork_start {c : Bool} {x a b : Bytes} (hu1 : Utf8 (x ++ a)) (hu2 : Utf8 (x ++ b)) :
    Fork c x a b x (intoTokenizer c (x ++ a)) (intoTokenizer c (x ++ b)) :=
  ⟨valid_intoTokenizer c hu1, valid_intoTokenizer c hu2, rfl, rfl, rfl, rfl, List.suffix_refl _, rfl, rfl⟩

theorem online_follows {c : Bool} {x a b : Bytes} (hu1 : Utf8 (x ++ a)) (hu2 : Utf8 (x ++ b)) (hux : Utf8 x)
    {F : List Look} (hst : Stays c x a b F) :
    FollowsK SamePlace F (fun _ t1 t2 => ∃ p, Fork c x a b p t1 t2) := by
  rintro pre look t1 t2 h t1' ⟨mid, hp⟩ ⟨p, hR⟩ hr
  rw [List.append_assoc] at hp
  subst hp
  obtain ⟨look2, t2', q, h1, h2, h3, -⟩ := fork_step hu1 hu2 hux hst hR hr
  exact ⟨look2, t2', h1, h2, q, h3⟩

/-! ## Two texts that differ in a gap -/

/-- The tokenizers after `k` tokens; `m` tokens come before the gap. -/
def Across (c : Bool) (x a b : Bytes) (m k : Nat) (t1 t2 : Tokenizer) : Prop :=
  (k ≤ m → ∃ p, Fork c x a b p t1 t2 ∧ (k = m → p = [])) ∧
  (m < k → Valid t1 ∧ Valid t2 ∧ t1.checked = c ∧ t2.checked = c ∧ unread t1 = unread t2)

def SameLook (a b : Look) : Prop := b.line = a.line ∧ b.token = a.token

theorem kinds_look : Kinds SameLook :=
  ⟨fun h => h.1, fun h => by rw [h.2]; exact .same _, fun h => ⟨h.1, rfl⟩⟩

theorem layout_follows {c : Bool} {x g1 g2 y : Bytes} {f : Bool} (hu1 : Utf8 (x ++ (g1 ++ y)))
    (hu2 : Utf8 (x ++ (g2 ++ y))) (hux : Utf8 x) (hg1 : Gap g1 f) (hg2 : Gap g2 f)
    {pre post : List Look} (hst : pre ≠ [] → Stays c x (g1 ++ y) (g2 ++ y) pre) (hend : endOf pre = x.length) :
    FollowsK SameLook (pre ++ post) (Across c x (g1 ++ y) (g2 ++ y) pre.length) := by
  have hua : Utf8 (g1 ++ y) := hu1.cancel hux
  have hub : Utf8 (g2 ++ y) := hu2.cancel hux
  rintro pre' look t1 t2 h t1' ⟨tail, hF⟩ hR hread
  rcases Nat.lt_trichotomy pre'.length pre.length with hk | hk | hk
  · obtain ⟨p, hR, -⟩ := hR.1 (Nat.le_of_lt hk)
    obtain ⟨mid, hmid⟩ : ∃ mid, pre = pre' ++ look :: mid := by
      rcases List.append_eq_append_iff.1 hF.symm with ⟨m, h1, h2⟩ | ⟨m, h1, h2⟩
      · have : m = [] := by
          have := congrArg List.length h1
          simp at this
          exact List.length_eq_zero_iff.1 (by omega)
        subst this
        exact ⟨[], by simpa using h1.symm⟩
      · exact ⟨m, by rw [h1]; simp⟩
    have hst := hst (by rw [hmid]; simp)
    rw [hmid] at hst
    obtain ⟨look2, t2', q, h1, h2, h3, h4⟩ := fork_step hu1 hu2 hux hst hR hread
    refine ⟨look2, t2', h1, ⟨h2.1, h2.2.1⟩, fun _ => ⟨q, h3, fun he => h4 ?_ (hmid ▸ hend)⟩, fun h => by omega⟩
    have := congrArg List.length hmid
    simp at this
    exact List.length_eq_zero_iff.1 (by omega)
  · obtain ⟨p, hR, hp⟩ := hR.1 (Nat.le_of_eq hk)
    obtain rfl := hp hk
    obtain ⟨w, hs, hw⟩ := scan_of_readToken hR.valid1 hread
    have h1 := hR.unread1
    have h2 := hR.unread2
    rw [List.nil_append] at h1 h2
    rw [hR.checked1, h1, scan_gap hg1 hua] at hs
    obtain ⟨look2, t2', hread2, hseen, hr2, hw2⟩ := readToken_of_scan hR.valid2
      (z := look.seen) (w := w) (r := unread t1')
      (by rw [hR.checked2, h2, scan_gap hg2 hub]; exact hs)
    exact ⟨look2, t2', hread2, Prod.mk.inj hseen, fun h => by omega, fun _ => ⟨hw.valid, hw2.valid,
      hw.checked.trans hR.checked1, hw2.checked.trans hR.checked2, hr2.symm⟩⟩
  · obtain ⟨hv1, hv2, hc1, hc2, he⟩ := hR.2 hk
    obtain ⟨w, hs, hw⟩ := scan_of_readToken hv1 hread
    rw [hc1, he] at hs
    obtain ⟨look2, t2', hread2, hseen, hr2, hw2⟩ := readToken_of_scan hv2
      (z := look.seen) (w := w) (r := unread t1') (by rw [hc2]; exact hs)
    exact ⟨look2, t2', hread2, Prod.mk.inj hseen, fun h => by omega, fun _ => ⟨hw.valid, hw2.valid,
      hw.checked.trans hc1, hw2.checked.trans hc2, hr2.symm⟩⟩

end Jsparse
