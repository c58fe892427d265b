import Verif.Proofs.TopLevel
import Verif.Proofs.Names
import Verif.Proofs.Inits
import Verif.Proofs.Juxtaposed
import Verif.Spec.Placement
/-!
# Which tokens may stand next to each other
-/

namespace Jsparse

open Spec

namespace Auto

variable {Q L : Type} (A : Auto Q L)

theorem run_split {q : Q} {σ : List (Br × Q)} {u v : List Tok} {c : Q × List (Br × Q)}
    (h : A.run q σ (u ++ v) = some c) :
    ∃ d, A.run q σ u = some d ∧ A.run d.1 d.2 v = some c := by
  rw [run_append, Option.bind_eq_some_iff] at h
  exact h

theorem run_cons {q : Q} {σ : List (Br × Q)} {u : List Tok} {x : Tok} {c : Q × List (Br × Q)}
    (h : A.run q σ (x :: u) = some c) :
    ∃ d, A.move q σ (nestOf x.2) (A.cls x) = some d ∧ A.run d.1 d.2 u = some c := by
  simp only [run, Option.bind_eq_some_iff] at h
  exact h

theorem run_one {q : Q} {σ : List (Br × Q)} {x : Tok} {c : Q × List (Br × Q)}
    (h : A.run q σ [x] = some c) : A.move q σ (nestOf x.2) (A.cls x) = some c := by
  obtain ⟨d, h1, h2⟩ := A.run_cons h
  cases h2
  exact h1

theorem move_plain {q : Q} {σ : List (Br × Q)} {x : Tok} {c : Q × List (Br × Q)}
    (hx : nestOf x.2 = .plain) (h : A.move q σ (nestOf x.2) (A.cls x) = some c) :
    A.step q (A.cls x) = some c.1 ∧ c.2 = σ := by
  rw [hx] at h
  simp only [move, Option.map_eq_some_iff] at h
  obtain ⟨d, h, rfl⟩ := h
  exact ⟨h, rfl⟩

theorem move_opens {q : Q} {σ : List (Br × Q)} {x : Tok} {c : Q × List (Br × Q)} {b : Br}
    (hx : nestOf x.2 = .opens b) (h : A.move q σ (nestOf x.2) (A.cls x) = some c) :
    A.enter (A.before q (A.cls x)) b = some c.1 ∧ c.2 = (b, A.before q (A.cls x)) :: σ := by
  rw [hx] at h
  simp only [move, Option.map_eq_some_iff] at h
  obtain ⟨d, h, rfl⟩ := h
  exact ⟨h, rfl⟩

theorem move_closes {q p : Q} {σ : List (Br × Q)} {x : Tok} {c : Q × List (Br × Q)} {b : Br}
    (hx : nestOf x.2 = .closes b) (h : A.move q ((b, p) :: σ) (nestOf x.2) (A.cls x) = some c) :
    A.leave p q b = some c.1 ∧ c.2 = σ := by
  rw [hx] at h
  simp only [move, if_pos, Option.map_eq_some_iff] at h
  obtain ⟨d, h, rfl⟩ := h
  exact ⟨h, rfl⟩

end Auto

theorem program_module_items {u : List Tok} (h : Program u) : ModuleItemsOutside u := by
  constructor
  · rintro pre ⟨b, k⟩ x post hu hd hk hn
    simp only [List.mem_cons, List.not_mem_nil, or_false] at hk
    rcases hk with rfl | rfl <;>
      exact TopLevel.nested_word h (by rw [hu, List.map_append]; rfl) (by simp) hd hn
  · rintro pre s ⟨b, k⟩ x post hu hd hs hk
    simp only [List.mem_cons, List.not_mem_nil, or_false] at hk
    rcases hk with rfl | rfl <;>
      exact TopLevel.start_word h (by rw [hu, List.map_append]; rfl) (by simp) hs hd
  · rintro pre s o m y k x post rfl hd hs ho hm hy hk
    obtain ⟨c, hr⟩ := TopLevel.program_run h
    obtain ⟨d, r1, r2⟩ := Auto.run_split _ hr
    obtain ⟨e, r2, r3⟩ := Auto.run_cons _ r2
    obtain ⟨f, r3, r4⟩ := Auto.run_cons _ r3
    obtain ⟨g, r4, r5⟩ := Auto.run_split _ r4
    obtain ⟨i, r5, r6⟩ := Auto.run_cons _ r5
    obtain ⟨j, r6, r7⟩ := Auto.run_cons _ r6
    obtain ⟨l, r7, -⟩ := Auto.run_cons _ r7
    have hnd := TopLevel.not_dot r1 hd
    have he : e.1.2 = .cond := by
      obtain ⟨⟨q1, q2⟩, σ⟩ := d
      obtain ⟨bz, tz⟩ := s
      simp only [List.mem_cons, List.not_mem_nil, or_false] at hs
      rcases hs with rfl | rfl | rfl <;> rw [TopLevel.cls_ident] at r2 <;> cases q2 <;>
        first | exact absurd rfl hnd | (cases r2; rfl) | cases r2
    obtain ⟨r3, h1⟩ := Auto.move_opens _ (b := .paren) (by rw [ho]; rfl) r3
    obtain ⟨h2, -⟩ := Auto.run_balanced _ (P := fun _ => True) (fun _ _ _ _ _ _ => trivial)
      (fun _ _ _ _ => trivial) (fun _ _ _ _ _ _ => trivial) trivial hm r4
    rw [h2, h1] at r5
    obtain ⟨r5, h3⟩ := Auto.move_closes _ (by rw [hy]; rfl) r5
    have hi : i.1.2 = .start := by
      obtain ⟨⟨g1, g2⟩, τ⟩ := g
      obtain ⟨⟨e1, e2⟩, τ'⟩ := e
      obtain ⟨i1, i2⟩ := i
      cases he
      cases g2 <;> first | (cases r5; rfl) | (cases r5; done)
    obtain ⟨⟨i1, i2⟩, τ⟩ := i
    cases hi
    obtain ⟨bk, tk⟩ := k
    simp only [List.mem_cons, List.not_mem_nil, or_false] at hk
    rcases hk with rfl | rfl <;> rw [TopLevel.cls_ident, if_pos (by simp)] at r6 <;> cases r6 <;>
      exact TopLevel.follow_label r7

namespace Names

theorem sound : lens.auto.Sound := by
  refine Lens.sound right (fun b l h => ?_) (fun _ => rfl) (fun l h => ?_) (fun _ => rfl)
    (fun _ _ h => by cases h)
  · cases b
    · cases l with
      | punct p => cases p <;> first | rfl | cases h
      | _ => first | rfl | cases h
    · rfl
  · cases l with
    | punct p => cases p <;> first | rfl | cases h
    | _ => first | rfl | cases h

theorem program_run {u : List Tok} (h : Program u) :
    ∃ c, lens.auto.run (false, .other) [] u = some c := by
  obtain ⟨w, hw, h1⟩ := der_run (q := (false, .other)) sound closed h rfl
  obtain ⟨d, hd, h1, -⟩ := h1 fun _ _ => rfl
  rw [List.append_nil] at hw
  subst hw
  exact ⟨_, h1⟩

theorem kind_dot {t : Token} (h : kind (ltr words t) = .dot) : t = .punct .period := by
  unfold kind at h
  split at h <;> try cases h
  · exact ltr_punct ‹_›
  · obtain ⟨v, -, hv⟩ := ltr_word ‹_›
    simp [words] at hv

theorem plain_dot {par : Bool} {k : K} (h : plain par k = .dot) : k = .dot := by
  cases k <;> simp [plain] at h ⊢
  split at h <;> cases h

theorem step_dot {q q' : Q} {l : L} (h : step q l = some q') (hq : q'.2 = .dot) : l.2 = .dot := by
  obtain ⟨p, q⟩ := q
  obtain ⟨b, k⟩ := l
  simp only [step] at h
  generalize (p && notYield k) = p' at h
  unfold stepPar at h
  split at h <;> (try split at h) <;> first
    | (cases h; first | exact plain_dot hq | cases hq)
    | cases h

theorem not_dot {u : List Tok} {c : Q × List (Br × Q)}
    (h : lens.auto.run (false, .other) [] u = some c) (hl : ¬ AfterDot u) : c.1.2 ≠ .dot := by
  refine Lens.last_dot lens (D := fun q => q.2 = .dot) ?_ ?_ ?_ ?_ (by simp) h hl
  · intro q x q' h hq
    exact kind_dot (step_dot h hq)
  · rintro ⟨p, q⟩ b q' h
    cases q <;> cases b <;> cases h <;> simp
  · rintro ⟨p, q⟩ q' h
    cases q <;> cases h <;> simp
  · rintro p ⟨_, q⟩ b q' h
    cases q <;> cases b <;> cases h <;> simp

theorem bad_reserved {x : Tok} (h : ReservedName x.2) : bad (lens.auto.cls x).2 = true := by
  obtain ⟨b, t⟩ := x
  obtain ⟨v, rfl, hv⟩ := h
  change bad (kind (nameLtr words (code v))) = true
  unfold nameLtr
  split
  · rename_i k hk
    have hm := find_some hk
    cases k <;> first | rfl | (exfalso; revert hm; simp [words]; done) | skip
    exfalso
    have : code v = code b!"as" := by
      have : code b!"as" = w!"as" := by decide +kernel
      rw [this]
      revert hm
      simp [words]
    rw [code_inj this] at hv
    revert hv
    decide
  · rw [isReserved_iff.2 hv]
    rfl

theorem reserved_plain {x : Tok} (h : ReservedName x.2) : nestOf x.2 = .plain := by
  obtain ⟨v, h, -⟩ := h
  rw [h]
  rfl

/-- A reserved word does not fit. -/
theorem no_reserved {q : Q} {σ : List (Br × Q)} {x : Tok} {c : Q × List (Br × Q)}
    (hq : q.2 = .decl ∨ q.2 = .func ∨ q.2 = .bind ∨ (q.2 = .jump ∧ x.1 = false))
    (h : lens.auto.move q σ (nestOf x.2) (lens.auto.cls x) = some c) : ¬ ReservedName x.2 := by
  intro hr
  have hb := bad_reserved hr
  obtain ⟨h, -⟩ := Auto.move_plain _ (reserved_plain hr) h
  change step q (lens.auto.cls x) = some c.1 at h
  have h1 : (lens.auto.cls x).1 = x.1 := rfl
  obtain ⟨p, q⟩ := q
  revert hb h h1
  generalize lens.auto.cls x = l
  obtain ⟨b, k⟩ := l
  intro hb h1 h
  simp only at hq h1 hb
  rcases hq with rfl | rfl | rfl | ⟨rfl, hx⟩
  · simp [step, stepPar, hb] at h
  · cases k <;> first | (cases h; done) | (cases hb; done)
  · cases k <;> first | (cases h; done) | (cases hb; done)
  · rw [hx] at h1
    subst h1
    simp [step, stepPar, hb] at h

theorem cls_word {b : Bool} {v : Bytes} {k : K} (h : find words (code v) = some k) :
    lens.auto.cls (b, .ident v) = (b, k) := by
  change see b (nameLtr words (code v)) = _
  rw [nameLtr_word h]
  rfl

/-- The states after a word of a certain kind. -/
theorem after_word {q : Q} {σ : List (Br × Q)} {x : Tok} {c : Q × List (Br × Q)} {v : Bytes} {k : K}
    (hv : x.2 = .ident v) (hk : find words (code v) = some k) (hq : q.2 ≠ .dot) (hb : bad k = true)
    (h : lens.auto.move q σ (nestOf x.2) (lens.auto.cls x) = some c) :
    c.1.2 = plain false k ∧ c.2 = σ := by
  obtain ⟨b, t⟩ := x
  cases hv
  obtain ⟨h, hσ⟩ := Auto.move_plain _ rfl h
  refine ⟨?_, hσ⟩
  rw [cls_word hk] at h
  change step q (b, k) = some c.1 at h
  obtain ⟨p, q⟩ := q
  obtain ⟨⟨cp, c1⟩, c2⟩ := c
  cases q with
  | dot => exact absurd rfl hq
  | jump =>
    cases b <;> cases k <;> first | (cases h; rfl) | (cases h; done) | (cases hb; done)
  | _ =>
    cases k <;> first | (cases h; rfl) | (cases h; done) | (cases hb; done)

theorem star_func {q : Q} {σ : List (Br × Q)} {s : List Tok} {c : Q × List (Br × Q)}
    (hq : q.2 = .func) (hs : s.map (·.2) ∈ [[], [.punct .star]])
    (h : lens.auto.run q σ s = some c) : c.1.2 = .func ∧ c.2 = σ := by
  simp only [List.mem_cons, List.not_mem_nil, or_false] at hs
  rcases hs with hs | hs
  · cases List.map_eq_nil_iff.1 hs
    cases h
    exact ⟨hq, rfl⟩
  · obtain ⟨⟨b, t⟩, u, rfl, ht, hu⟩ := List.map_eq_cons_iff.1 hs
    cases List.map_eq_nil_iff.1 hu
    cases ht
    obtain ⟨h1, hσ⟩ := Auto.move_plain _ rfl (Auto.run_one _ h)
    obtain ⟨c1, c2⟩ := c
    refine ⟨?_, hσ⟩
    obtain ⟨p, q⟩ := q
    cases hq
    cases h1
    rfl

theorem name_func {q : Q} {σ : List (Br × Q)} {n : List Tok} {c : Q × List (Br × Q)}
    (hq : q.2 = .func) (hn : n = [] ∨ ∃ y v, n = [y] ∧ y.2 = .ident v)
    (h : lens.auto.run q σ n = some c) : (c.1.2 = .func ∨ c.1.2 = .fname) ∧ c.2 = σ := by
  rcases hn with rfl | ⟨⟨b, t⟩, v, rfl, ht⟩
  · cases h
    exact ⟨.inl hq, rfl⟩
  · cases ht
    obtain ⟨h1, hσ⟩ := Auto.move_plain _ rfl (Auto.run_one _ h)
    obtain ⟨c1, c2⟩ := c
    refine ⟨.inr ?_, hσ⟩
    obtain ⟨p, q⟩ := q
    cases hq
    have hw : isWord (lens.auto.cls (b, .ident v)).2 = true := by
      change isWord (kind (nameLtr words (code v))) = true
      unfold nameLtr
      split
      · rename_i k hk
        have hm := find_some hk
        cases k <;> first | rfl | (exfalso; revert hm; simp [words]; done)
      · cases isReserved (code v) <;> rfl
    clear h
    change step (p, .func) (lens.auto.cls (b, .ident v)) = some c1 at h1
    revert hw h1
    generalize lens.auto.cls (b, .ident v) = l
    obtain ⟨b', k⟩ := l
    intro hw h
    cases k <;> first | (cases h; rfl) | (cases h; done) | (cases hw; done)

theorem open_params {q : Q} {σ : List (Br × Q)} {x : Tok} {c : Q × List (Br × Q)}
    (hq : q.2 = .func ∨ q.2 = .fname) (hx : x.2 = .punct .parenOpen)
    (h : lens.auto.move q σ (nestOf x.2) (lens.auto.cls x) = some c) : c.1 = (true, .bind) := by
  obtain ⟨h, -⟩ := Auto.move_opens _ (b := .paren) (by rw [hx]; rfl) h
  obtain ⟨p, q⟩ := q
  obtain ⟨c1, c2⟩ := c
  rcases hq with hq | hq <;> cases hq <;> cases h <;> rfl

theorem rest_bind {q : Q} {σ : List (Br × Q)} {r : List Tok} {c : Q × List (Br × Q)}
    (hq : q.2 = .bind) (hs : r.map (·.2) ∈ [[], [.punct .ellipsis]])
    (h : lens.auto.run q σ r = some c) : c.1.2 = .bind := by
  simp only [List.mem_cons, List.not_mem_nil, or_false] at hs
  rcases hs with hs | hs
  · cases List.map_eq_nil_iff.1 hs
    cases h
    exact hq
  · obtain ⟨⟨b, t⟩, u, rfl, ht, hu⟩ := List.map_eq_cons_iff.1 hs
    cases List.map_eq_nil_iff.1 hu
    cases ht
    obtain ⟨h1, hσ⟩ := Auto.move_plain _ rfl (Auto.run_one _ h)
    obtain ⟨c1, c2⟩ := c
    obtain ⟨p, q⟩ := q
    cases hq
    cases h1
    rfl

theorem step_par {q q' : Q} {l : L} (h : step q l = some q') : q'.1 = (q.1 && notYield l.2) := by
  obtain ⟨p, q⟩ := q
  obtain ⟨b, k⟩ := l
  simp only [step] at h ⊢
  generalize (p && notYield k) = p' at h
  unfold stepPar at h
  split at h <;> (try split at h) <;> first
    | (cases h; rfl)
    | cases h

theorem not_yield {x : Tok} (h : x.2 ≠ .ident b!"yield") : notYield (lens.auto.cls x).2 = true := by
  change notYield (kind (ltr words x.2)) = true
  cases hk : kind (ltr words x.2) <;> try rfl
  exfalso
  unfold kind at hk
  split at hk <;> try cases hk
  obtain ⟨v, hv, hm⟩ := ltr_word ‹_›
  refine h ?_
  rw [hv]
  have : code v = code b!"yield" := by
    have : code b!"yield" = w!"yield" := by decide +kernel
    rw [this]
    revert hm
    simp [words]
  rw [code_inj this]

/-- The parameters before a comma. -/
theorem params {q : Q} {σ : List (Br × Q)} {d : List Tok} {x : Tok} {c : Q × List (Br × Q)} {v}
    (hq : q.1 = true) (hd : Balanced (d.map (·.2))) (hy : ∀ y ∈ d, y.2 ≠ .ident b!"yield")
    (hx : x.2 = .punct .comma) (h : lens.auto.run q σ (d ++ x :: v) = some c) :
    ∃ q' : Q, q'.2 = .bind ∧ lens.auto.run q' σ v = some c := by
  obtain ⟨e, h1, h2⟩ := Auto.run_split _ h
  obtain ⟨f, h2, h3⟩ := Auto.run_cons _ h2
  have hc : nestOf x.2 = .plain := by rw [hx]; rfl
  obtain ⟨h4, h5⟩ := Auto.run_balanced _ (P := fun q : Q => q.1 = true)
    (fun q q' y hy' hp hs => by rw [step_par hs, hp, not_yield (hy y hy')]; rfl)
    (fun q y _ hp => hp)
    (fun p q q' b hp hl => by
      obtain ⟨q1, q2⟩ := q
      cases q2 <;> cases b <;> cases hl <;> exact hp) hq hd h1
  obtain ⟨h6, h7⟩ := Auto.move_plain _ hc h2
  rw [h4] at h7
  rw [h7] at h3
  refine ⟨f.1, ?_, h3⟩
  obtain ⟨b, t⟩ := x
  cases hx
  obtain ⟨⟨e1, e2⟩, τ⟩ := e
  simp only at h5
  subst h5
  obtain ⟨f1, f2⟩ := f
  cases e2 <;> cases h6 <;> rfl

theorem follow_pend {q : Bool} {σ : List (Br × Q)} {y : Tok} {c : Q × List (Br × Q)}
    (h : lens.auto.move (q, .pend) σ (nestOf y.2) (lens.auto.cls y) = some c) :
    y.2 ∈ nameFollow := by
  unfold nameFollow
  obtain ⟨b, t⟩ := y
  cases t with
  | punct p =>
    cases p <;> first
      | (simp; done)
      | (exfalso; revert h; rcases σ with _ | ⟨⟨_ | _ | _ | _, _⟩, _⟩ <;>
          simp [Auto.move, nestOf, Lens.auto, lens, leave, enter, step, stepPar, follows, ltr, see,
            kind]; done)
  | ident v =>
    by_cases hv : v = b!"as"
    · subst hv; simp
    · exfalso
      obtain ⟨h, -⟩ := Auto.move_plain _ rfl h
      have hf : follows (lens.auto.cls (b, .ident v)).2 = false := by
        change follows (kind (nameLtr words (code v))) = false
        unfold nameLtr
        split
        · rename_i k hk
          have hm := find_some hk
          cases k <;> first | rfl | (exfalso; revert hm; simp [words]; done) | skip
          exfalso
          refine hv (code_inj ?_)
          have : code b!"as" = w!"as" := by decide +kernel
          rw [this]
          revert hm
          simp [words]
        · cases isReserved (code v) <;> rfl
      change step (q, .pend) (lens.auto.cls (b, .ident v)) = some c.1 at h
      simp only [step, stepPar, hf] at h
      cases h
  | template f _ _ =>
    exfalso
    revert h
    cases f <;> rcases σ with _ | ⟨⟨_ | _ | _ | _, _⟩, _⟩ <;>
      simp [Auto.move, nestOf, Lens.auto, lens, leave, enter, next, step, stepPar, follows, ltr, see,
        kind]
  | _ =>
    exfalso; revert h
    simp [Auto.move, nestOf, Lens.auto, lens, step, stepPar, follows, ltr, see, kind]

end Names

open Names in
theorem program_names {u : List Tok} (h : Program u) : NamesFit u := by
  obtain ⟨c, hr⟩ := Names.program_run h
  constructor
  · rintro pre k x post rfl hd hk
    obtain ⟨d, r1, r2⟩ := Auto.run_split _ hr
    obtain ⟨e, r2, r3⟩ := Auto.run_cons _ r2
    obtain ⟨f, r3, -⟩ := Auto.run_cons _ r3
    refine no_reserved (.inl ?_) r3
    simp only [List.mem_cons, List.not_mem_nil, or_false] at hk
    rcases hk with hk | hk | hk <;>
      exact (after_word hk (k := .decl) (by decide +kernel) (not_dot r1 hd) rfl r2).1
  · rintro pre k s x post rfl hd hk hs
    obtain ⟨d, r1, r2⟩ := Auto.run_split _ hr
    obtain ⟨e, r2, r3⟩ := Auto.run_cons _ r2
    obtain ⟨f, r3, r4⟩ := Auto.run_split _ r3
    obtain ⟨g, r4, -⟩ := Auto.run_cons _ r4
    have h1 := (after_word hk (k := .func) (by decide +kernel) (not_dot r1 hd) rfl r2).1
    exact no_reserved (.inr (.inl (star_func h1 hs r3).1)) r4
  · rintro pre k o x post rfl hd hk ho
    obtain ⟨d, r1, r2⟩ := Auto.run_split _ hr
    obtain ⟨e, r2, r3⟩ := Auto.run_cons _ r2
    obtain ⟨f, r3, r4⟩ := Auto.run_cons _ r3
    obtain ⟨g, r4, -⟩ := Auto.run_cons _ r4
    refine no_reserved (.inr (.inr (.inl ?_))) r4
    have h1 := (after_word hk (k := .catchW) (by decide +kernel) (not_dot r1 hd) rfl r2).1
    obtain ⟨h2, -⟩ := Auto.move_opens _ (b := .paren) (by rw [ho]; rfl) r3
    obtain ⟨⟨e1, e2⟩, τ⟩ := e
    cases h1
    obtain ⟨f1, f2⟩ := f
    cases h2
    rfl
  · rintro pre k s n o r x post rfl hd hk hs hn ho hrr
    obtain ⟨d, r1, r2⟩ := Auto.run_split _ hr
    obtain ⟨e, r2, r3⟩ := Auto.run_cons _ r2
    obtain ⟨f, r3, r4⟩ := Auto.run_split _ r3
    obtain ⟨g, r4, r5⟩ := Auto.run_split _ r4
    obtain ⟨i, r5, r6⟩ := Auto.run_cons _ r5
    obtain ⟨j, r6, r7⟩ := Auto.run_split _ r6
    obtain ⟨l, r7, -⟩ := Auto.run_cons _ r7
    have h1 := (after_word hk (k := .func) (by decide +kernel) (not_dot r1 hd) rfl r2).1
    have h2 := (star_func h1 hs r3).1
    have h3 := open_params (name_func h2 hn r4).1 ho r5
    exact no_reserved (.inr (.inr (.inl (rest_bind (by rw [h3]) hrr r6)))) r7
  · rintro pre k s n o d c r x post rfl hd hk hs hn ho hb hy hc hrr
    obtain ⟨d, r1, r2⟩ := Auto.run_split _ hr
    obtain ⟨e, r2, r3⟩ := Auto.run_cons _ r2
    obtain ⟨f, r3, r4⟩ := Auto.run_split _ r3
    obtain ⟨g, r4, r5⟩ := Auto.run_split _ r4
    obtain ⟨i, r5, r6⟩ := Auto.run_cons _ r5
    have h1 := (after_word hk (k := .func) (by decide +kernel) (not_dot r1 hd) rfl r2).1
    have h2 := (star_func h1 hs r3).1
    have h3 := open_params (name_func h2 hn r4).1 ho r5
    obtain ⟨q, h4, r7⟩ := params (by rw [h3]) hb hy hc r6
    obtain ⟨j, r7, r8⟩ := Auto.run_split _ r7
    obtain ⟨l, r8, -⟩ := Auto.run_cons _ r8
    exact no_reserved (.inr (.inr (.inl (rest_bind h4 hrr r7)))) r8
  · rintro pre k x post rfl hd hk hx
    obtain ⟨d, r1, r2⟩ := Auto.run_split _ hr
    obtain ⟨e, r2, r3⟩ := Auto.run_cons _ r2
    obtain ⟨f, r3, -⟩ := Auto.run_cons _ r3
    refine no_reserved (.inr (.inr (.inr ⟨?_, hx⟩))) r3
    simp only [List.mem_cons, List.not_mem_nil, or_false] at hk
    rcases hk with hk | hk <;>
      exact (after_word hk (k := .jump) (by decide +kernel) (not_dot r1 hd) rfl r2).1
  · rintro pre k x post rfl hd hk
    obtain ⟨d, r1, r2⟩ := Auto.run_split _ hr
    obtain ⟨⟨⟨e1, e2⟩, τ⟩, r2, r3⟩ := Auto.run_cons _ r2
    obtain ⟨f, r3, -⟩ := Auto.run_cons _ r3
    have h1 := (after_word hk (k := .pend) (by decide +kernel) (not_dot r1 hd) rfl r2).1
    cases h1
    exact Names.follow_pend r3

end Jsparse
