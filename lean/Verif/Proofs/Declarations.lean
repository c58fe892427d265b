import Verif.Proofs.Placement
/-!
# Declarations are initialized, operands are separated
-/

namespace Jsparse

open Spec

namespace Inits

theorem sound : lens.auto.Sound := by
  refine Lens.sound right (fun b l h => ?_) (fun _ => rfl) (fun l h => ?_) (fun _ => rfl)
    (fun _ _ h => by cases h)
  · cases b
    · cases l with
      | punct p => cases p <;> first | rfl | cases h
      | _ => first | rfl | cases h
    · rfl
  · cases l with
    | punct p => cases p <;> first | rfl | cases h
    | _ => first | rfl | cases h

theorem program_run {u : List Tok} (h : Program u) :
    ∃ c, lens.auto.run (.none, .other) [] u = some c := by
  obtain ⟨w, hw, h1⟩ := der_run (q := (.none, .other)) sound closed h rfl
  obtain ⟨d, hd, h1, -⟩ := h1 fun _ _ => rfl
  rw [List.append_nil] at hw
  subst hw
  exact ⟨_, h1⟩

theorem kind_dot {t : Token} (h : kind (ltr words t) = .dot) : t = .punct .period := by
  unfold kind at h
  split at h <;> try cases h
  · exact ltr_punct ‹_›
  · obtain ⟨v, -, hv⟩ := ltr_word ‹_›
    simp [words] at hv

theorem kind_semicolon {t : Token} (h : kind (ltr words t) = .semicolon) :
    t = .punct .semicolon := by
  unfold kind at h
  split at h <;> try cases h
  · exact ltr_punct ‹_›
  · obtain ⟨v, -, hv⟩ := ltr_word ‹_›
    simp [words] at hv

theorem kind_eq {t : Token} (h : kind (ltr words t) = .eq) : t = .punct .eq := by
  unfold kind at h
  split at h <;> try cases h
  · exact ltr_punct ‹_›
  · obtain ⟨v, -, hv⟩ := ltr_word ‹_›
    simp [words] at hv

theorem kind_word {t : Token} {k : K} (hk : k ≠ .name) (hw : isWord k = true)
    (h : kind (ltr words t) = k) : ∃ v, t = .ident v ∧ (code v, k) ∈ words := by
  unfold kind at h
  split at h
  all_goals first
    | (subst h; cases hw; done)
    | (subst h; exact absurd rfl hk)
    | (subst h; exact ltr_word ‹_›)

theorem kind_yield {t : Token} (h : kind (ltr words t) = .yield) : t = .ident b!"yield" := by
  obtain ⟨v, rfl, hm⟩ := kind_word (by simp) rfl h
  have : code b!"yield" = w!"yield" := by decide +kernel
  rw [code_inj (v := v) (w := b!"yield") (by rw [this]; revert hm; simp [words])]

theorem kind_as {v : Bytes} (h : kind (ltr words (.ident v)) = .as) : v = b!"as" := by
  obtain ⟨v', hv, hm⟩ := kind_word (by simp) rfl h
  cases hv
  have : code b!"as" = w!"as" := by decide +kernel
  exact code_inj (w := b!"as") (by rw [this]; revert hm; simp [words])

theorem kind_inOf {t : Token} (h : kind (ltr words t) = .inOf) :
    t = .ident b!"in" ∨ t = .ident b!"of" := by
  obtain ⟨v, rfl, hm⟩ := kind_word (by simp) rfl h
  have h1 : code b!"in" = w!"in" := by decide +kernel
  have h2 : code b!"of" = w!"of" := by decide +kernel
  have : code v = w!"in" ∨ code v = w!"of" := by
    revert hm
    simp [words]
  rcases this with h | h
  · left; rw [code_inj (h.trans h1.symm)]
  · right; rw [code_inj (h.trans h2.symm)]

theorem is_word {b : Bool} {v : Bytes} : isWord (lens.auto.cls (b, .ident v)).2 = true := by
  change isWord (kind (nameLtr words (code v))) = true
  unfold nameLtr
  split
  · rename_i k hk
    have hm := find_some hk
    cases k <;> first | rfl | (exfalso; revert hm; simp [words]; done)
  · rfl

theorem plain_dot {m : Mode} {k : K} {q : Q} (h : plain m k = some q) (hq : q.2 = .dot) :
    k = .dot := by
  cases k <;> cases m <;> first | rfl | (cases h; done) | (cases h; cases hq; done)

theorem step_dot {q q' : Q} {l : L} (h : step q l = some q') (hq : q'.2 = .dot) : l.2 = .dot := by
  obtain ⟨m, q⟩ := q
  obtain ⟨b, k⟩ := l
  cases q with
  | dot =>
    simp only [step] at h
    split at h
    · cases h; cases hq
    · exact plain_dot h hq
  | other =>
    cases b
    · refine plain_dot (m := m) ?_ hq
      cases k <;> exact h
    · cases k with
      | comma => exact plain_dot (m := m) h hq
      | _ => exact plain_dot (m := .none) h hq
  | more => cases k <;> cases m <;> first | rfl | (cases h; cases hq; done) | (cases h; done)
  | _ => cases k <;> first | rfl | (cases h; cases hq; done) | (cases h; done)

theorem leave_dot {p q q' : Q} {b : Br} (h : leave p q b = some q') : q'.2 ≠ .dot := by
  obtain ⟨m, p⟩ := p
  obtain ⟨n, q⟩ := q
  cases q <;> cases p <;> cases b <;> cases h <;> simp

theorem not_dot {u : List Tok} {c : Q × List (Br × Q)}
    (h : lens.auto.run (.none, .other) [] u = some c) (hl : ¬ AfterDot u) : c.1.2 ≠ .dot := by
  refine Lens.last_dot lens (D := fun q => q.2 = .dot) ?_ ?_ ?_ ?_ (by simp) h hl
  · intro q x q' h hq
    exact kind_dot (step_dot h hq)
  · rintro ⟨p, q⟩ b q' h
    cases q <;> cases b <;> cases h <;> simp
  · rintro ⟨p, q⟩ q' h
    cases q <;> cases h <;> simp
  · intro p q b q' h
    exact leave_dot h

theorem cls_word {b : Bool} {v : Bytes} {k : K} (h : find words (code v) = some k) :
    lens.auto.cls (b, .ident v) = (b, k) := by
  change see b (nameLtr words (code v)) = _
  rw [nameLtr_word h]
  rfl

theorem after_const {q : Q} {σ : List (Br × Q)} {x : Tok} {c : Q × List (Br × Q)}
    (hv : x.2 = .ident b!"const") (hq : q.2 ≠ .dot)
    (h : lens.auto.move q σ (nestOf x.2) (lens.auto.cls x) = some c) :
    c = ((.const, .const), σ) := by
  obtain ⟨b, t⟩ := x
  cases hv
  obtain ⟨h, hσ⟩ := Auto.move_plain _ rfl h
  rw [cls_word (k := .const) (by decide +kernel)] at h
  obtain ⟨m, q⟩ := q
  obtain ⟨c1, c2⟩ := c
  cases hσ
  cases q <;> cases m <;> cases b <;> first | (cases h; rfl) | (cases h; done) | exact absurd rfl hq

theorem after_var {q : Q} {σ : List (Br × Q)} {x : Tok} {c : Q × List (Br × Q)}
    (hv : x.2 = .ident b!"var") (hq : q.2 ≠ .dot)
    (h : lens.auto.move q σ (nestOf x.2) (lens.auto.cls x) = some c) :
    c = ((.var, .var), σ) := by
  obtain ⟨b, t⟩ := x
  cases hv
  obtain ⟨h, hσ⟩ := Auto.move_plain _ rfl h
  rw [cls_word (k := .var) (by decide +kernel)] at h
  obtain ⟨m, q⟩ := q
  obtain ⟨c1, c2⟩ := c
  cases hσ
  cases q <;> cases m <;> cases b <;> first | (cases h; rfl) | (cases h; done) | exact absurd rfl hq

/-- What may follow something that needs a value. -/
theorem follow_bound {m : Mode} {σ : List (Br × Q)} {y : Tok} {c : Q × List (Br × Q)}
    (h : lens.auto.move (m, .bound) σ (nestOf y.2) (lens.auto.cls y) = some c) :
    y.2 ∈ valueFollow := by
  have hp : nestOf y.2 = .plain := by
    cases hk : nestOf y.2 with
    | plain => rfl
    | opens b => rw [hk] at h; cases b <;> cases h
    | closes b =>
      rw [hk] at h
      exfalso
      revert h
      unfold Auto.move
      rcases σ with _ | ⟨⟨b', p⟩, σ⟩
      · simp
      · simp only
        split
        · intro h; cases h
        · simp
    | middle =>
      rw [hk] at h
      exfalso
      revert h
      unfold Auto.move
      rcases σ with _ | ⟨⟨_ | _ | _ | _, p⟩, σ⟩ <;> simp [Lens.auto, lens, next]
  obtain ⟨h, -⟩ := Auto.move_plain _ hp h
  have hk : kind (ltr words y.2) = .eq ∨ kind (ltr words y.2) = .inOf := by
    change step (m, .bound) (y.1, kind (ltr words y.2)) = some c.1 at h
    revert h
    cases kind (ltr words y.2) <;> simp [step]
  rcases hk with hk | hk
  · rw [kind_eq hk]; simp [valueFollow]
  · rcases kind_inOf hk with hk | hk <;> rw [hk] <;> simp [valueFollow]

/-- A name after `const`. -/
theorem const_name {σ : List (Br × Q)} {x : Tok} {c : Q × List (Br × Q)} {v : Bytes}
    (hx : x.2 = .ident v) (hv : v ≠ b!"as")
    (h : lens.auto.move (.const, .const) σ (nestOf x.2) (lens.auto.cls x) = some c) :
    c = ((.const, .bound), σ) := by
  obtain ⟨b, t⟩ := x
  cases hx
  obtain ⟨h1, hσ⟩ := Auto.move_plain _ rfl h
  clear h
  have hw := is_word (b := b) (v := v)
  have ha : (lens.auto.cls (b, .ident v)).2 ≠ .as := fun h => hv (kind_as h)
  obtain ⟨c1, c2⟩ := c
  cases hσ
  revert h1 hw ha
  generalize lens.auto.cls (b, .ident v) = l
  obtain ⟨b', k⟩ := l
  intro hw ha h
  cases k <;> first | (cases h; rfl) | (cases hw; done) | (cases h; done) | exact absurd rfl ha

theorem var_name {σ : List (Br × Q)} {x : Tok} {c : Q × List (Br × Q)} {v : Bytes}
    (hx : x.2 = .ident v) (hv : v ≠ b!"as")
    (h : lens.auto.move (.var, .var) σ (nestOf x.2) (lens.auto.cls x) = some c) :
    c = ((.var, .other), σ) := by
  obtain ⟨b, t⟩ := x
  cases hx
  obtain ⟨h1, hσ⟩ := Auto.move_plain _ rfl h
  clear h
  have hw := is_word (b := b) (v := v)
  have ha : (lens.auto.cls (b, .ident v)).2 ≠ .as := fun h => hv (kind_as h)
  obtain ⟨c1, c2⟩ := c
  cases hσ
  revert h1 hw ha
  generalize lens.auto.cls (b, .ident v) = l
  obtain ⟨b', k⟩ := l
  intro hw ha h
  cases k <;> first | (cases h; rfl) | (cases hw; done) | (cases h; done) | exact absurd rfl ha

theorem more_name {σ : List (Br × Q)} {x : Tok} {c : Q × List (Br × Q)} {v : Bytes}
    (hx : x.2 = .ident v)
    (h : lens.auto.move (.const, .more) σ (nestOf x.2) (lens.auto.cls x) = some c) :
    c = ((.const, .bound), σ) := by
  obtain ⟨b, t⟩ := x
  cases hx
  obtain ⟨h1, hσ⟩ := Auto.move_plain _ rfl h
  clear h
  have hw := is_word (b := b) (v := v)
  obtain ⟨c1, c2⟩ := c
  cases hσ
  revert h1 hw
  generalize lens.auto.cls (b, .ident v) = l
  obtain ⟨b', k⟩ := l
  intro hw h
  cases k <;> first | (cases h; rfl) | (cases hw; done) | (cases h; done)

/-- A pattern where a name is expected. -/
theorem pattern {q : Q} {σ : List (Br × Q)} {w : List Tok} {c : Q × List (Br × Q)}
    (hq : q = (.const, .const) ∨ q = (.var, .var) ∨ q.2 = .more) (hw : Bracketed w)
    (h : lens.auto.run q σ w = some c) : c.1.2 = .bound ∧ c.2 = σ := by
  obtain ⟨o, m, y, rfl, hb, hk⟩ := hw
  have hbr : ∃ b, (b = .square ∨ b = .curly) ∧ nestOf o.2 = .opens b ∧ nestOf y.2 = .closes b := by
    rcases hk with ⟨h1, h2⟩ | ⟨h1, h2⟩
    · exact ⟨.square, .inl rfl, by rw [h1]; rfl, by rw [h2]; rfl⟩
    · exact ⟨.curly, .inr rfl, by rw [h1]; rfl, by rw [h2]; rfl⟩
  obtain ⟨b, hb', ho, hy⟩ := hbr
  obtain ⟨d, r1, r2⟩ := Auto.run_cons _ h
  obtain ⟨e, r2, r3⟩ := Auto.run_split _ r2
  obtain ⟨r1, h1⟩ := Auto.move_opens _ ho r1
  obtain ⟨h2, -⟩ := Auto.run_balanced _ (P := fun _ => True) (fun _ _ _ _ _ _ => trivial)
    (fun _ _ _ _ => trivial) (fun _ _ _ _ _ _ => trivial) trivial hb r2
  have r3 := Auto.run_one _ r3
  rw [h2, h1] at r3
  obtain ⟨r3, h3⟩ := Auto.move_closes _ hy r3
  refine ⟨?_, h3⟩
  obtain ⟨⟨e1, e2⟩, τ⟩ := e
  obtain ⟨c1, c2⟩ := c
  have hbe : lens.auto.before q (lens.auto.cls o) = q := by
    obtain ⟨q1, q2⟩ := q
    rcases hq with hq | hq | hq <;> cases hq <;> rfl
  rw [hbe] at r3
  obtain ⟨q1, q2⟩ := q
  rcases hq with hq | hq | hq <;> cases hq <;> rcases hb' with rfl | rfl <;> cases e2 <;>
    first | (cases r3; rfl) | (cases r3; done)

/-- In a declaration. -/
def In (m : Mode) (q : Q) : Prop := q.1 = m ∧ q.2 ≠ .const ∧ q.2 ≠ .var

theorem in_step {m : Mode} (hm : m ≠ .none) {q q' : Q} {x : Tok} (hl : x.1 = false)
    (hs : x.2 ≠ .punct .semicolon) (hy : x.2 ≠ .ident b!"yield") (hq : In m q)
    (h : lens.auto.step q (lens.auto.cls x) = some q') : In m q' := by
  have h1 : (lens.auto.cls x).2 ≠ .semicolon := fun h => hs (kind_semicolon h)
  have h2 : (lens.auto.cls x).2 ≠ .yield := fun h => hy (kind_yield h)
  have h3 : (lens.auto.cls x).1 = false := hl
  revert h h1 h2 h3
  generalize lens.auto.cls x = l
  obtain ⟨b, k⟩ := l
  intro h h1 h2 h3
  simp only at h1 h2 h3
  subst h3
  obtain ⟨q1, q2⟩ := q
  obtain ⟨rfl, hc, hv⟩ := hq
  change step (q1, q2) (false, k) = some q' at h
  cases q1
  · exact absurd rfl hm
  all_goals
    cases q2 <;> cases k <;> first
      | exact absurd rfl hc
      | exact absurd rfl hv
      | exact absurd rfl h1
      | exact absurd rfl h2
      | (cases h; done)
      | (cases h; exact ⟨rfl, by simp [named], by simp [named]⟩)

theorem in_leave {m : Mode} {p q q' : Q} {b : Br} (hp : In m p) (h : leave p q b = some q') :
    In m q' := by
  obtain ⟨p1, p2⟩ := p
  obtain ⟨q1, q2⟩ := q
  obtain ⟨rfl, hc, hv⟩ := hp
  cases p2 <;> cases q2 <;> cases b <;> first
    | exact absurd rfl hc
    | exact absurd rfl hv
    | (cases h; done)
    | (cases h; exact ⟨rfl, by simp, by simp⟩)

/-- The rest of a declarator, and a comma. -/
theorem declarator {m : Mode} (hm : m ≠ .none) {q : Q} {σ : List (Br × Q)} {e : List Tok} {x : Tok}
    {v : List Tok} {c : Q × List (Br × Q)} (hq : In m q) (he : OneDeclaration e)
    (hx : x.2 = .punct .comma) (h : lens.auto.run q σ (e ++ x :: v) = some c) :
    lens.auto.run (m, .more) σ v = some c := by
  obtain ⟨d, r1, r2⟩ := Auto.run_split _ h
  obtain ⟨f, r2, r3⟩ := Auto.run_cons _ r2
  obtain ⟨h1, h2⟩ := Auto.run_balanced _ (P := In m)
    (fun q q' y hy hp hs => in_step hm (he.2 y hy).1 (he.2 y hy).2.1 (he.2 y hy).2.2 hp hs)
    (fun q y hy hp => by
      have hl : (lens.auto.cls y).1 = false := (he.2 y hy).1
      change In m (before q (lens.auto.cls y))
      unfold before
      split
      · rw [hl]; exact hp
      · exact hp)
    (fun p q q' b hp hl => in_leave hp hl) hq he.1 r1
  obtain ⟨r2, h3⟩ := Auto.move_plain _ (by rw [hx]; rfl) r2
  rw [h1] at h3
  suffices f.1 = (m, .more) by rw [h3, this] at r3; exact r3
  obtain ⟨b, t⟩ := x
  cases hx
  obtain ⟨⟨d1, d2⟩, τ⟩ := d
  obtain ⟨f1, f2⟩ := f
  obtain ⟨h4, hc, hv⟩ := h2
  simp only at h4
  subst h4
  cases d1
  · exact absurd rfl hm
  all_goals
    cases d2 <;> first
      | exact absurd rfl hc
      | exact absurd rfl hv
      | (cases r2; done)
      | (cases r2; rfl)

end Inits

open Inits in
theorem program_inits {u : List Tok} (h : Program u) : InitsFit u := by
  obtain ⟨c, hr⟩ := Inits.program_run h
  constructor
  · rintro pre k x v y post rfl hd hk hx hv
    obtain ⟨d, r1, r2⟩ := Auto.run_split _ hr
    obtain ⟨e, r2, r3⟩ := Auto.run_cons _ r2
    obtain ⟨f, r3, r4⟩ := Auto.run_cons _ r3
    obtain ⟨g, r4, -⟩ := Auto.run_cons _ r4
    cases after_const hk (not_dot r1 hd) r2
    cases const_name hx hv r3
    exact follow_bound r4
  · rintro pre k w y post rfl hd hk hw
    obtain ⟨d, r1, r2⟩ := Auto.run_split _ hr
    obtain ⟨e, r2, r3⟩ := Auto.run_cons _ r2
    obtain ⟨⟨⟨f1, f2⟩, τ⟩, r3, r4⟩ := Auto.run_split _ r3
    obtain ⟨g, r4, -⟩ := Auto.run_cons _ r4
    have hb : f2 = .bound := by
      simp only [List.mem_cons, List.not_mem_nil, or_false] at hk
      rcases hk with hk | hk
      · cases after_const hk (not_dot r1 hd) r2
        exact (pattern (.inl rfl) hw r3).1
      · cases after_var hk (not_dot r1 hd) r2
        exact (pattern (.inr (.inl rfl)) hw r3).1
    subst hb
    exact follow_bound r4
  · rintro pre k x v e c x' v' y post rfl hd hk hx hv he hc hx'
    obtain ⟨d, r1, r2⟩ := Auto.run_split _ hr
    obtain ⟨i, r2, r3⟩ := Auto.run_cons _ r2
    obtain ⟨f, r3, r4⟩ := Auto.run_cons _ r3
    cases after_const hk (not_dot r1 hd) r2
    cases const_name hx hv r3
    have r5 := declarator (m := .const) (by simp) ⟨rfl, by simp, by simp⟩ he hc r4
    obtain ⟨g, r5, r6⟩ := Auto.run_cons _ r5
    obtain ⟨j, r6, -⟩ := Auto.run_cons _ r6
    cases more_name hx' r5
    exact follow_bound r6
  · rintro pre k x v e c w y post rfl hd hk hx hv he hc hw
    obtain ⟨d, r1, r2⟩ := Auto.run_split _ hr
    obtain ⟨i, r2, r3⟩ := Auto.run_cons _ r2
    obtain ⟨f, r3, r4⟩ := Auto.run_cons _ r3
    have r5 : ∃ m σ c, lens.auto.run (m, .more) σ (w ++ y :: post) = some c := by
      simp only [List.mem_cons, List.not_mem_nil, or_false] at hk
      rcases hk with hk | hk
      · cases after_const hk (not_dot r1 hd) r2
        cases const_name hx hv r3
        exact ⟨_, _, _, declarator (m := .const) (by simp) ⟨rfl, by simp, by simp⟩ he hc r4⟩
      · cases after_var hk (not_dot r1 hd) r2
        cases var_name hx hv r3
        exact ⟨_, _, _, declarator (m := .var) (by simp) ⟨rfl, by simp, by simp⟩ he hc r4⟩
    obtain ⟨m, σ, c', r5⟩ := r5
    obtain ⟨⟨⟨f1, f2⟩, τ⟩, r5, r6⟩ := Auto.run_split _ r5
    obtain ⟨g, r6, -⟩ := Auto.run_cons _ r6
    have hb : f2 = .bound := (pattern (.inr (.inr rfl)) hw r5).1
    subst hb
    exact follow_bound r6

namespace Juxtaposed

theorem sound : lens.auto.Sound := by
  refine Lens.sound right (fun b l h => ?_) (fun _ => rfl) (fun l h => ?_) (fun _ => rfl)
    (fun _ _ h => by cases h)
  · cases b
    · cases l with
      | punct p => cases p <;> first | rfl | cases h
      | _ => first | rfl | cases h
    · rfl
  · cases l with
    | punct p => cases p <;> first | rfl | cases h
    | _ => first | rfl | cases h

/-- The kind of a word among the words. -/
theorem kind_word {v : Bytes} {k : K} (h : find words (code v) = some k) :
    kind (ltr words (.ident v)) = k := by
  change kind (nameLtr words (code v)) = k
  rw [nameLtr_word h]
  rfl

theorem cls_word {b : Bool} {v : Bytes} {k : K} (h : find words (code v) = some k) :
    lens.auto.cls (b, .ident v) = (b, k) := by
  change see b (nameLtr words (code v)) = _
  rw [nameLtr_word h]
  rfl

/-- The words. -/
def wordList : List (Bytes × K) :=
  [(b!"throw", .throw), (b!"class", .class),
   (b!"let", .let), (b!"get", .context), (b!"set", .context), (b!"static", .context),
   (b!"async", .context), (b!"await", .context),
   (b!"of", .infix), (b!"as", .infix), (b!"from", .infix),
   (b!"in", .infixR), (b!"instanceof", .infixR), (b!"extends", .infixR),
   (b!"this", .value), (b!"null", .value), (b!"true", .value), (b!"false", .value),
   (b!"super", .value)]

theorem words_eq : words = wordList.map fun x => (code x.1, x.2) := by decide +kernel

/-- The kind of a name: that of the word, or whether it is reserved. -/
theorem kind_ident {v : Bytes} : (∃ k, (v, k) ∈ wordList ∧ kind (ltr words (.ident v)) = k) ∨
    (v ∉ wordList.map (·.1) ∧ kind (ltr words (.ident v)) =
      if v ∈ reservedWords ∨ v = b!"yield" then .reserved else .name) := by
  change (∃ k, _ ∧ kind (nameLtr words (code v)) = k) ∨ (_ ∧ kind (nameLtr words (code v)) = _)
  unfold nameLtr
  split
  · rename_i k hk
    have hm := find_some hk
    rw [words_eq] at hm
    obtain ⟨⟨w, k'⟩, hw, he⟩ := List.mem_map.1 hm
    simp only [Prod.mk.injEq] at he
    obtain ⟨h1, rfl⟩ := he
    rw [code_inj h1] at hw
    exact .inl ⟨_, hw, rfl⟩
  · rename_i hn
    refine .inr ⟨?_, ?_⟩
    · intro hm
      refine find_none.1 hn ?_
      rw [words_eq]
      obtain ⟨x, hx, rfl⟩ := List.mem_map.1 hm
      rw [List.map_map]
      exact List.mem_map.2 ⟨x, hx, rfl⟩
    · split
      · rw [isReserved_iff.2 ‹_›]; rfl
      · cases hr : isReserved (code v)
        · rfl
        · exact absurd (isReserved_iff.1 hr) ‹_›

theorem kind_throw {t : Token} (h : kind (ltr words t) = .throw) : t = .ident b!"throw" := by
  cases t with
  | ident v =>
    rcases kind_ident (v := v) with ⟨k, hm, hk⟩ | ⟨-, hk⟩
    · rw [h] at hk
      subst hk
      simp [wordList] at hm
      rw [hm]
    · rw [h] at hk
      split at hk <;> cases hk
  | punct p => cases p <;> cases h
  | template f _ _ => cases f <;> cases h
  | _ => cases h

theorem kind_dot {t : Token} (h : kind (ltr words t) = .dot) : t = .punct .period := by
  cases t with
  | ident v =>
    exfalso
    rcases kind_ident (v := v) with ⟨k, hm, hk⟩ | ⟨-, hk⟩
    · rw [h] at hk
      subst hk
      simp [wordList] at hm
    · rw [h] at hk
      split at hk <;> cases hk
  | punct p => cases p <;> first | rfl | cases h
  | template f _ _ => cases f <;> cases h
  | _ => cases h

theorem program_run {u : List Tok} (h : Program u) (ht : ∀ x ∈ u, x.2 ≠ .ident b!"throw") :
    ∃ c, lens.auto.run .other [] u = some c := by
  obtain ⟨w, hw, h1⟩ := der_run (q := .other) sound closed h rfl
  rw [List.append_nil] at hw
  subst hw
  obtain ⟨d, hd, h1, -⟩ := h1 fun x hx => by
    change isThrow (kind (ltr words x.2)) = false
    cases hk : kind (ltr words x.2) <;> try rfl
    exact absurd (kind_throw hk) (ht x hx)
  exact ⟨_, h1⟩

theorem begins_kind {t : Token} (h : BeginsOperand t) :
    nestOf t = .plain ∧ begins (kind (ltr words t)) = true := by
  cases h with
  | word v h =>
    refine ⟨rfl, ?_⟩
    rcases kind_ident (v := v) with ⟨k, hm, hk⟩ | ⟨-, hk⟩
    · rw [hk]
      cases k <;> first | rfl | skip
      all_goals
        exfalso
        simp [wordList] at hm
        try simp only [List.mem_cons, List.not_mem_nil, or_false, not_or] at h
        try rcases hm with rfl | rfl | rfl <;> simp at h
    · rw [hk]
      split <;> rfl
  | _ => exact ⟨rfl, rfl⟩

/-- After the end of an operand. -/
theorem ends {q : Q} {σ : List (Br × Q)} {x : Tok} {c : Q × List (Br × Q)} (hx : EndsOperand x.2)
    (h : lens.auto.move q σ (nestOf x.2) (lens.auto.cls x) = some c) : c.1 = .operand := by
  have key : ∀ k, kind (ltr words x.2) = k → nestOf x.2 = .plain →
      (k = .name ∨ k = .value ∨ k = .literal ∨ k = .template) → c.1 = .operand := by
    intro k hk hp hor
    obtain ⟨h, -⟩ := Auto.move_plain _ hp h
    change step q (x.1, kind (ltr words x.2)) = some c.1 at h
    rw [hk] at h
    obtain ⟨c1, c2⟩ := c
    obtain ⟨b, t⟩ := x
    rcases hor with rfl | rfl | rfl | rfl <;> cases q <;> cases b <;>
      first | (cases h; rfl) | (cases h; done)
  have closes : ∀ b, nestOf x.2 = .closes b → (b = .square ∨ b = .template) → c.1 = .operand := by
    intro b hb hor
    rw [hb] at h
    unfold Auto.move at h
    split at h
    · cases ‹Nest.closes b = _›
    · cases ‹Nest.closes b = _›
    · cases ‹Nest.closes b = _›
      split at h
      · split at h
        · obtain ⟨c1, c2⟩ := c
          rcases hor with rfl | rfl <;> cases h <;> rfl
        · cases h
      · cases h
    · cases ‹Nest.closes b = _›
  obtain ⟨b, t⟩ := x
  cases hx with
  | num => exact key _ rfl rfl (by simp [kind, ltr])
  | str => exact key _ rfl rfl (by simp [kind, ltr])
  | regex => exact key _ rfl rfl (by simp [kind, ltr])
  | array => exact closes .square rfl (.inl rfl)
  | template f _ _ hf =>
    rcases hf with rfl | rfl
    · exact key .template rfl rfl (by simp)
    · exact closes .template rfl (.inr rfl)
  | name v h1 h2 h3 =>
    refine key .name ?_ rfl (.inl rfl)
    rcases kind_ident (v := v) with ⟨k, hm, hk⟩ | ⟨-, hk⟩
    · exfalso
      have hall : ∀ x ∈ wordList.map (·.1), x ∈ reservedWords ∨ x ∈ contextWords := by decide +kernel
      rcases hall v (List.mem_map.2 ⟨_, hm, rfl⟩) with h | h
      · exact h1 h
      · exact h3 h
    · rw [hk, if_neg]
      rintro (h | h)
      · exact h1 h
      · exact h2 h
  | value v hv =>
    refine key .value ?_ rfl (.inr (.inl rfl))
    simp only [List.mem_cons, List.not_mem_nil, or_false] at hv
    rcases hv with rfl | rfl | rfl | rfl | rfl <;> exact kind_word (by decide +kernel)

theorem after_operand {q : Q} {σ : List (Br × Q)} {y : Tok} {c : Q × List (Br × Q)}
    (hq : q = .operand) (hy : BeginsOperand y.2)
    (h : lens.auto.move q σ (nestOf y.2) (lens.auto.cls y) = some c) : y.1 = true := by
  obtain ⟨hp, hb⟩ := begins_kind hy
  obtain ⟨h, -⟩ := Auto.move_plain _ hp h
  change step q (y.1, kind (ltr words y.2)) = some c.1 at h
  subst hq
  cases hl : y.1
  · rw [hl] at h
    simp [step, hb] at h
  · rfl

theorem is_word {v : Bytes} : isWord (kind (ltr words (.ident v))) = true := by
  rcases kind_ident (v := v) with ⟨k, hm, hk⟩ | ⟨-, hk⟩
  · rw [hk]
    have hall : ∀ x ∈ wordList, isWord x.2 = true := by decide +kernel
    exact hall _ hm
  · rw [hk]
    split <;> rfl

theorem not_dot {u : List Tok} {c : Q × List (Br × Q)}
    (h : lens.auto.run .other [] u = some c) (hl : ¬ AfterDot u) : c.1 ≠ .dot := by
  refine Lens.last_dot lens (D := fun q => q = .dot) ?_ ?_ ?_ ?_ (by simp) h hl
  · intro q x q' h hq
    refine kind_dot ?_
    subst hq
    change step q (x.1, kind (ltr words x.2)) = some .dot at h
    revert h
    generalize kind (ltr words x.2) = k
    generalize x.1 = b
    intro h
    cases q <;> cases k <;> cases b <;> first | rfl | (cases h; done)
  · rintro q b q' h
    cases h
    simp
  · rintro q q' h
    cases h
    simp
  · rintro p q b q' h
    cases b <;> cases h <;> simp

end Juxtaposed

open Juxtaposed in
theorem program_operands {u : List Tok} (h : Program u)
    (ht : ∀ x ∈ u, x.2 ≠ .ident b!"throw") : OperandsSeparated u := by
  obtain ⟨c, hr⟩ := Juxtaposed.program_run h ht
  constructor
  · rintro pre x y post rfl hx hy
    obtain ⟨d, r1, r2⟩ := Auto.run_split _ hr
    obtain ⟨e, r2, r3⟩ := Auto.run_cons _ r2
    obtain ⟨f, r3, -⟩ := Auto.run_cons _ r3
    exact after_operand (ends hx r2) hy r3
  · rintro pre d ⟨bx, tx⟩ v y post rfl hd hx hy
    obtain ⟨c1, r1, r2⟩ := Auto.run_split _ hr
    obtain ⟨c2, r2, r3⟩ := Auto.run_cons _ r2
    obtain ⟨c3, r3, r4⟩ := Auto.run_cons _ r3
    obtain ⟨c4, r4, -⟩ := Auto.run_cons _ r4
    refine after_operand ?_ hy r4
    have h1 : c2.1 = .dot := by
      obtain ⟨b, t⟩ := d
      cases hd
      obtain ⟨r2, -⟩ := Auto.move_plain _ rfl r2
      obtain ⟨c2, _⟩ := c2
      obtain ⟨c1, _⟩ := c1
      cases c1 <;> cases b <;> cases r2 <;> rfl
    cases hx
    obtain ⟨r3, -⟩ := Auto.move_plain _ rfl r3
    rw [h1] at r3
    change step .dot (bx, kind (ltr words (.ident v))) = some c3.1 at r3
    simp only [step, is_word, Option.some.injEq] at r3
    exact r3.symm
  · rintro pre k y post rfl hd hk hy hv
    obtain ⟨d, r1, r2⟩ := Auto.run_split _ hr
    obtain ⟨e, r2, r3⟩ := Auto.run_cons _ r2
    obtain ⟨f, r3, -⟩ := Auto.run_cons _ r3
    have hnd := not_dot r1 hd
    have h1 : e.1 = .class := by
      obtain ⟨b, t⟩ := k
      obtain ⟨e, _⟩ := e
      obtain ⟨d, _⟩ := d
      simp only [List.mem_cons, List.not_mem_nil, or_false] at hk
      rcases hk with rfl | rfl
      · obtain ⟨r2, -⟩ := Auto.move_plain _ rfl r2
        rw [cls_word (k := .class) (by decide +kernel)] at r2
        cases d <;> cases b <;> first
          | exact absurd rfl hnd | (cases r2; rfl) | (cases r2; done)
      · obtain ⟨r2, -⟩ := Auto.move_plain _ rfl r2
        rw [cls_word (k := .let) (by decide +kernel)] at r2
        cases d <;> cases b <;> first
          | exact absurd rfl hnd | (cases r2; rfl) | (cases r2; done)
    obtain ⟨hp, hb⟩ := begins_kind hy
    have hn : notName (kind (ltr words y.2)) = true := by
      obtain ⟨b, t⟩ := y
      cases hy with
      | word v _ =>
        rcases kind_ident (v := v) with ⟨k, hm, hk⟩ | ⟨-, hk⟩
        · have hall : ∀ x ∈ wordList, x.1 ∈ reservedWords → begins x.2 = true →
            notName x.2 = true := by decide +kernel
          simp only at hb ⊢
          rw [hk] at hb ⊢
          exact hall _ hm (hv v rfl) hb
        · simp only
          rw [hk, if_pos (.inl (hv v rfl))]
          rfl
      | _ => rfl
    obtain ⟨r3, -⟩ := Auto.move_plain _ hp r3
    change step e.1 (y.1, kind (ltr words y.2)) = some f.1 at r3
    rw [h1] at r3
    cases hl : y.1
    · rw [hl] at r3
      simp [step, hn] at r3
    · rfl

end Jsparse
