import Verif.Proofs.GrammarBody
import Verif.Proofs.Balance
import Verif.Spec.Declarators
/-!
# Declarators that have been parsed
-/

namespace Jsparse

open Spec P

/-- What a method that has found its production has consumed. -/
theorem run_der {n : Nat} {f : Fn} {s s' : PState} (hc : s.count ≤ 2)
    (h : run n f s = .ok (some ()) s') :
    ∃ w, s'.log.map Look.seen = s.log.map Look.seen ++ w ∧
      Der (ctxOf s.flags) (symOf f) (w ++ (buf s').map Look.seen) ((buf s').map Look.seen) := by
  obtain ⟨g, h1, h2⟩ := run_gr n (ctxOf s.flags) f s s _ s' (.refl hc rfl) h
  have hL : Pre ((s'.log ++ buf s').map Look.seen) s' := List.prefix_rfl
  have h3 := h2.der _ hL
  have h4 := h2.grow _ hL
  rcases h1 with h1 | h1
  · cases h1
  have h5 := h1 _ _ h3
  obtain ⟨d, hd⟩ := h4
  have hv : remaining ((s'.log ++ buf s').map Look.seen) s' = (buf s').map Look.seen := by
    unfold remaining
    rw [List.map_append]
    exact List.drop_left' (by simp)
  have hu : (s'.log ++ buf s').map Look.seen =
      s.log.map Look.seen ++ remaining ((s'.log ++ buf s').map Look.seen) s := by
    unfold remaining
    rw [← hd, List.map_append, List.append_assoc, List.drop_left' (by simp)]
  rw [hv] at h5
  obtain ⟨w, hw, -⟩ := der_pst balance_sound balance_closed h5
  rw [hw] at h5 hu
  refine ⟨w, ?_, h5⟩
  rw [List.map_append, ← List.append_assoc] at hu
  exact List.append_cancel_right hu

theorem der_balanced {C : Ctx} {g : G} {w v : List Tok}
    (hg : post balanceAuto balanceTable g [(Known.any, (), [])] = some [(Known.any, (), [])])
    (h : Der C g (w ++ v) v) : Balanced (w.map (·.2)) := by
  obtain ⟨w', hw, h1⟩ := der_run (q := ()) balance_sound balance_closed h hg
  obtain ⟨d, hd, h1, -⟩ := h1 fun _ _ => rfl
  rw [← List.append_cancel_right hw] at h1
  have := Auto.run_nest _ h1
  obtain rfl := List.mem_singleton.1 hd
  exact this

/-- A derived segment is a segment. -/
theorem der_split {C : Ctx} {g : G} {u v : List Tok} (h : Der C g u v) : ∃ w, u = w ++ v := by
  obtain ⟨w, hw, -⟩ := der_pst balance_sound balance_closed h
  exact ⟨w, hw⟩

theorem der_p {C : Ctx} {q : Punct} {u v : List Tok} (h : Der C (.p q) u v) :
    ∃ b, u = (b, .punct q) :: v := by
  cases h with
  | t hk => cases hk; exact ⟨_, rfl⟩

theorem der_kw {C : Ctx} {k : Bytes} {u v : List Tok} (h : Der C (.kw k) u v) :
    ∃ b, u = (b, .ident k) :: v := by
  cases h with
  | t hk => cases hk; exact ⟨_, rfl⟩

theorem der_binding {C : Ctx} {u v : List Tok} (h : Der C .binding u v) :
    ∃ b x, u = (b, .ident x) :: v := by
  cases h with
  | t hk => obtain ⟨x, rfl, -⟩ := hk; exact ⟨_, _, rfl⟩

theorem der_seq {C : Ctx} {a b : G} {u v : List Tok} (h : Der C (.seq a b) u v) :
    ∃ m, Der C a u m ∧ Der C b m v := by
  cases h with
  | seq h1 h2 => exact ⟨_, h1, h2⟩

theorem der_alt {C : Ctx} {a b : G} {u v : List Tok} (h : Der C (.alt a b) u v) :
    Der C a u v ∨ Der C b u v := by
  cases h with
  | altl h => exact .inl h
  | altr h => exact .inr h

theorem der_opt {C : Ctx} {a : G} {u v : List Tok} (h : Der C (.opt a) u v) :
    u = v ∨ Der C a u v := by
  cases h with
  | skip => exact .inl rfl
  | opt h => exact .inr h

theorem der_nt {C : Ctx} {n : NT} {u v : List Tok} (h : Der C (.nt n) u v) :
    Der C (production n) u v := by
  cases h with
  | nt h => exact h

theorem der_par {C : Ctx} {p : Par} {b : Bool} {g : G} {u v : List Tok} (h : Der C (.par p b g) u v) :
    Der (C.set b p) g u v := by
  cases h with
  | par h => exact h

/-- Something in brackets. -/
theorem der_bracketed {C : Ctx} {g : G} {o c : Punct} {u v : List Tok}
    (hg : post balanceAuto balanceTable g [(Known.any, (), [])] = some [(Known.any, (), [])])
    (hb : (o = .squareOpen ∧ c = .squareClose) ∨ (o = .curlyOpen ∧ c = .curlyClose))
    (h : Der C (.seq (.p o) (.seq g (.p c))) u v) : ∃ w, u = w ++ v ∧ Bracketed w := by
  obtain ⟨u1, h1, h⟩ := der_seq h
  obtain ⟨u2, h2, h3⟩ := der_seq h
  obtain ⟨b1, rfl⟩ := der_p h1
  obtain ⟨b2, rfl⟩ := der_p h3
  obtain ⟨m, rfl⟩ := der_split h2
  refine ⟨(b1, .punct o) :: (m ++ [(b2, .punct c)]), by simp, _, m, _, rfl, der_balanced hg h2, ?_⟩
  rcases hb with ⟨rfl, rfl⟩ | ⟨rfl, rfl⟩
  · exact .inl ⟨rfl, rfl⟩
  · exact .inr ⟨rfl, rfl⟩

theorem der_pattern {C : Ctx} {u v : List Tok} (h : Der C (.nt .BindingPattern) u v) :
    ∃ w, u = w ++ v ∧ Bracketed w := by
  rcases der_alt (der_nt h) with h | h
  · exact der_bracketed (g := .listed (.nt .BindingProperty)) (by decide +kernel) (.inr ⟨rfl, rfl⟩)
      (der_nt h)
  · have h := der_nt h
    obtain ⟨u1, h1, h⟩ := der_seq h
    obtain ⟨u2, h2, h⟩ := der_seq h
    obtain ⟨u3, h3, h4⟩ := der_seq h
    exact der_bracketed (g := .seq (.star (.seqs [.opt (.nt .BindingElement), .p .comma]))
      (.alt (.nt .BindingRestElement) (.opt (.nt .BindingElement)))) (by decide +kernel)
      (.inl ⟨rfl, rfl⟩) (.seq h1 (.seq (.seq h2 h3) h4))

theorem der_target {C : Ctx} {u v : List Tok} (h : Der C .patternOrName u v) :
    ∃ w, u = w ++ v ∧ Target w := by
  rcases der_alt h with h | h
  · obtain ⟨w, hw, hb⟩ := der_pattern h
    exact ⟨w, hw, .inr hb⟩
  · obtain ⟨b, x, rfl⟩ := der_binding h
    exact ⟨[(b, .ident x)], rfl, .inl ⟨b, x, rfl⟩⟩

/-- The automaton that knows whether there was a token. -/
def someAuto : Auto Bool Unit where
  states := [false, true]
  cls _ := ()
  step _ _ := some true
  before _ _ := true
  enter _ _ := some true
  next _ := some true
  leave _ _ _ := some true
  may _ := [()]
  keeps := false
  agrees _ _ := true
  warned := false
  declares _ := false
  absent _ := false

def someTable : Table Bool := fun n p q =>
  match p, q, n with
  | ⟨.any, false⟩, true, _ => some [(Known.any, true)]
  | ⟨.any, false⟩, false, .ArrayElement => some [(Known.any, true), (Known.any, false)]
  | ⟨.any, false⟩, false, _ => some [(Known.any, true)]
  | _, _, _ => none

theorem some_closed : Closed someAuto someTable :=
  closed_iff (qs := [false, true]) (fun b => by cases b <;> decide) (by decide +kernel)

theorem some_sound : someAuto.Sound :=
  ⟨fun _ => List.mem_singleton.2 rfl, fun _ => rfl, fun h => by cases h⟩

theorem der_some {C : Ctx} {g : G} {w v : List Tok}
    (hg : post someAuto someTable g [(Known.any, false, [])] = some [(Known.any, true, [])])
    (h : Der C g (w ++ v) v) : w ≠ [] := by
  rintro rfl
  obtain ⟨w', hw, h1⟩ := der_run (q := false) some_sound some_closed h hg
  obtain ⟨d, hd, h1, -⟩ := h1 fun _ _ => rfl
  rw [← List.append_cancel_right hw] at h1
  obtain rfl := List.mem_singleton.1 hd
  cases h1

theorem der_initializer {C : Ctx} {u v : List Tok} (h : Der C (.nt .Initializer) u v) :
    ∃ b e, u = (b, .punct .eq) :: e ++ v ∧ e ≠ [] ∧ Balanced (e.map (·.2)) := by
  obtain ⟨u1, h1, h2⟩ := der_seq (der_nt h)
  obtain ⟨b, rfl⟩ := der_p h1
  obtain ⟨e, rfl⟩ := der_split h2
  exact ⟨b, e, rfl, der_some (by decide +kernel) h2, der_balanced (by decide +kernel) h2⟩

/-- A declarator with an initializer. -/
theorem der_valued {C C' : Ctx} {u m v : List Tok} (h1 : Der C .patternOrName u m)
    (h2 : Der C' (.nt .Initializer) m v) : ∃ w, u = w ++ v ∧ Valued w := by
  obtain ⟨p, rfl, hp⟩ := der_target h1
  obtain ⟨b, e, rfl, he, hb⟩ := der_initializer h2
  exact ⟨p ++ (b, .punct .eq) :: e, by simp, p, b, e, rfl, hp, he, hb⟩

theorem der_loose {C : Ctx} {u v : List Tok} {i j : G}
    (hi : ∀ {m}, Der C i m v → ∃ C', Der C' (.nt .Initializer) m v)
    (hj : ∀ {m}, Der C j m v → m = v ∨ Der C i m v)
    (h : Der C (.alts [.seqs [.nt .BindingPattern, i], .seqs [.binding, j]]) u v) :
    ∃ w, u = w ++ v ∧ Declarators false w := by
  rcases der_alt h with h | h
  · obtain ⟨m, h1, h2⟩ := der_seq h
    obtain ⟨C', h2⟩ := hi h2
    obtain ⟨w, hw, hv⟩ := der_valued (.altl h1) h2
    exact ⟨w, hw, .valued hv⟩
  · obtain ⟨m, h1, h2⟩ := der_seq h
    rcases hj h2 with rfl | h2
    · obtain ⟨b, x, rfl⟩ := der_binding h1
      exact ⟨[(b, .ident x)], rfl, .name rfl⟩
    · obtain ⟨C', h2⟩ := hi h2
      obtain ⟨w, hw, hv⟩ := der_valued (.altr h1) h2
      exact ⟨w, hw, .valued hv⟩

theorem der_orNone {C : Ctx} {g : G} {ts : List Token} {u v : List Tok} (h : Der C (.alt g (.notAhead ts)) u v) :
    u = v ∨ Der C g u v := by
  rcases der_alt h with h | h
  · exact .inr h
  · cases h; exact .inl rfl

theorem der_strict {C : Ctx} {u v : List Tok} (h : Der C (.nt (.LexicalBinding true)) u v) :
    ∃ w, u = w ++ v ∧ ∀ b, Declarators b w := by
  rcases der_alt (der_nt h) with h | h
  · obtain ⟨m, h1, h2⟩ := der_seq h
    obtain ⟨w, hw, hv⟩ := der_valued (.altl h1) h2
    exact ⟨w, hw, fun _ => .valued hv⟩
  · obtain ⟨m, h1, h2⟩ := der_seq h
    obtain ⟨w, hw, hv⟩ := der_valued (.altr h1) h2
    exact ⟨w, hw, fun _ => .valued hv⟩

/-- Further declarators. -/
theorem der_more {C : Ctx} {g : G} {strict : Bool}
    (hg : ∀ {u v}, Der C g u v → ∃ w, u = w ++ v ∧ Declarators strict w) {u v ds : List Tok}
    (hd : Declarators strict ds) (h : Der C (.more g) u v) :
    ∃ w, u = w ++ v ∧ Declarators strict (ds ++ w) := by
  generalize hm : G.more g = g' at h
  induction h generalizing ds with
  | nil => exact ⟨[], rfl, by simpa using hd⟩
  | star h1 _ _ ih =>
    cases hm
    obtain ⟨m, h3, h4⟩ := der_seq h1
    obtain ⟨b, rfl⟩ := der_p h3
    obtain ⟨w1, rfl, hw1⟩ := hg h4
    obtain ⟨w2, rfl, hw2⟩ := ih hg (hd.more (b := b) hw1) rfl
    exact ⟨(b, .punct .comma) :: w1 ++ w2, by simp, by simpa using hw2⟩
  | _ => cases hm

theorem der_semi {C : Ctx} {u v : List Tok} (h : Der C .semi u v) :
    ∃ e, u = e ++ v ∧ (e = [] ∨ ∃ b, e = [(b, .punct .semicolon)]) := by
  cases h with
  | semi => exact ⟨[_], rfl, .inr ⟨_, rfl⟩⟩
  | insert => exact ⟨[], rfl, .inl rfl⟩

/-- A declaration. -/
theorem der_declared {C : Ctx} {k : Bytes} {g : G} {strict : Bool}
    (hg : ∀ {u v}, Der C g u v → ∃ w, u = w ++ v ∧ Declarators strict w) {w v : List Tok}
    (h : Der C (.seqs [.kw k, g, .more g, .notAhead [.punct .comma], .semi]) (w ++ v) v) : Declared k strict w := by
  obtain ⟨u1, h1, h⟩ := der_seq h
  obtain ⟨u2, h2, h⟩ := der_seq h
  obtain ⟨u3, h3, h⟩ := der_seq h
  obtain ⟨u4, h5, h4⟩ := der_seq h
  obtain rfl : u3 = u4 := by cases h5; rfl
  obtain ⟨b, hb⟩ := der_kw h1
  obtain ⟨w1, rfl, hw1⟩ := hg h2
  obtain ⟨w2, rfl, hw2⟩ := der_more hg hw1 h3
  obtain ⟨e, rfl, he⟩ := der_semi h4
  refine ⟨b, w1 ++ w2, e, ?_, hw2, he⟩
  refine List.append_cancel_right (bs := v) ?_
  rw [hb]
  simp

theorem der_const {C : Ctx} {w v : List Tok} (h : Der C (.nt .ConstDeclaration) (w ++ v) v) :
    Declared b!"const" true w :=
  der_declared (fun h => by
    obtain ⟨w, hw, hd⟩ := der_strict h
    exact ⟨w, hw, hd _⟩) (der_nt h)

theorem der_let {C : Ctx} {w v : List Tok} (h : Der C (.nt .LetDeclaration) (w ++ v) v) :
    Declared b!"let" false w :=
  der_declared (fun h => der_loose (fun h => ⟨_, h⟩) der_orNone (der_nt h)) (der_nt h)

theorem der_var {C : Ctx} {w v : List Tok} (h : Der C (.nt .VariableStatement) (w ++ v) v) :
    Declared b!"var" false w :=
  der_declared (fun h => der_loose (fun h => ⟨_, h⟩) der_orNone (der_nt (der_par h))) (der_nt h)

/-- The declarations in the head of a `for`. -/
theorem der_forDeclarations {C : Ctx} {k : Bytes} {first : G} {rest : NT} {strict : Bool}
    (hf : ∀ {u v}, Der C first u v → ∃ w, u = w ++ v ∧ Declarators strict w)
    (hr : ∀ {C u v}, Der C (.nt rest) u v → ∃ w, u = w ++ v ∧ Declarators strict w)
    {w v : List Tok} (h : Der C (forDeclarations k first rest) (w ++ v) v) :
    ∃ b r, w = (b, .ident k) :: r ∧ ForDeclared strict r := by
  obtain ⟨u1, h1, h⟩ := der_seq h
  obtain ⟨u2, h2, h⟩ := der_seq h
  obtain ⟨u3, h3, h⟩ := der_seq h
  obtain ⟨u4, h4, h5⟩ := der_seq h
  obtain ⟨b, hb⟩ := der_kw h1
  obtain ⟨w1, rfl, hw1⟩ := hf h2
  obtain ⟨w2, rfl, hw2⟩ := der_more (g := .notIn (.nt rest)) (fun h => hr (der_par h)) hw1 h3
  obtain ⟨b', rfl⟩ := der_p h4
  obtain ⟨e, rfl⟩ := der_split h5
  refine ⟨b, _, ?_, .inl ⟨w1 ++ w2, b', e, rfl, hw2⟩⟩
  refine List.append_cancel_right (bs := v) ?_
  rw [hb]
  simp

theorem der_forHead {C : Ctx} {w v : List Tok} (h : Der C Spec.forHead (w ++ v) v) :
    (∃ b r, w = (b, .ident b!"const") :: r ∧ ForDeclared true r) ∨
    (∃ b r, w = (b, .ident b!"var") :: r ∧ ForDeclared false r) ∨
    (∃ b r, w = (b, .ident b!"let") :: r ∧ ForDeclared false r) ∨
    (∃ b k r, w = (b, .ident k) :: r ∧ ∀ s, ForDeclared s r) ∨
    (w ≠ [] ∧ ¬ BeginsForDeclaration (w ++ v)) := by
  rcases der_alt h with h | h
  · exact .inr (.inl (der_forDeclarations (fun h => der_loose (fun h => ⟨_, der_par h⟩) der_opt h)
      (fun h => der_loose (fun h => ⟨_, h⟩) der_orNone (der_nt h)) h))
  rcases der_alt h with h | h
  · refine .inr (.inr (.inl (der_forDeclarations (fun h => ?_) (fun h => ?_) h)))
    · obtain ⟨_, h1, h⟩ := der_seq h
      cases h1
      exact der_loose (fun h => ⟨_, der_par h⟩) der_opt h
    obtain ⟨w, hw, hd⟩ := der_strict h
    exact ⟨w, hw, hd _⟩
  rcases der_alt h with h | h
  · refine .inl (der_forDeclarations (fun h => ?_) (fun h => ?_) h)
    · obtain ⟨m, h1, h2⟩ := der_seq h
      obtain ⟨w, hw, hv⟩ := der_valued h1 (der_par h2)
      exact ⟨w, hw, .valued hv⟩
    · obtain ⟨w, hw, hd⟩ := der_strict h
      exact ⟨w, hw, hd _⟩
  rcases der_alt h with h | h
  · refine .inr (.inr (.inr (.inl ?_)))
    obtain ⟨u1, h1, h⟩ := der_seq h
    obtain ⟨u2, h2, h⟩ := der_seq h
    obtain ⟨u3, h3, h4⟩ := der_seq h
    have hk : ∃ b k, w ++ v = (b, .ident k) :: u1 := by
      rcases der_alt h1 with h1 | h1
      · obtain ⟨b, hb⟩ := der_kw h1; exact ⟨b, _, hb⟩
      rcases der_alt h1 with h1 | h1
      · obtain ⟨b, hb⟩ := der_kw h1; exact ⟨b, _, hb⟩
      · obtain ⟨_, h2', h1'⟩ := der_seq (show Der C (.seq (.kw b!"let") (.notAhead [.ident b!"of"])) _ _ from h1)
        cases h1'
        obtain ⟨b, hb⟩ := der_kw h2'; exact ⟨b, _, hb⟩
    obtain ⟨b, k, hb⟩ := hk
    obtain ⟨p, rfl, hp⟩ := der_target h2
    obtain ⟨e, rfl⟩ := der_split h4
    have hi : ∃ b i, u2 = (b, .ident i) :: (e ++ v) ∧ (i = b!"in" ∨ i = b!"of") := by
      rcases der_alt h3 with h3 | h3
      · obtain ⟨b, hb⟩ := der_kw h3; exact ⟨b, _, hb, .inl rfl⟩
      · obtain ⟨b, hb⟩ := der_kw h3; exact ⟨b, _, hb, .inr rfl⟩
    obtain ⟨b', i, rfl, hi⟩ := hi
    refine ⟨b, k, p ++ (b', .ident i) :: e, ?_, fun s => .inr ⟨p, b', i, e, rfl, hi, hp⟩⟩
    refine List.append_cancel_right (bs := v) ?_
    rw [hb]
    simp
  · refine .inr (.inr (.inr (.inr ?_)))
    rcases der_alt h with h | h
    · refine ⟨der_some (by decide +kernel) h, ?_⟩
      obtain ⟨m, h1, h2⟩ := der_seq h
      cases h1 with
      | notDeclared h1 => exact h1
    · refine ⟨der_some (by decide +kernel) h, ?_⟩
      obtain ⟨m, h1, h2⟩ := der_seq h
      cases h1 with
      | notDeclared h1 => exact h1

theorem der_for {C : Ctx} {w v : List Tok} (h : Der C (.nt .For) (w ++ v) v) : ForFits w := by
  obtain ⟨u1, h1, h⟩ := der_seq (der_nt h)
  obtain ⟨u2, h2, h⟩ := der_seq h
  obtain ⟨u3, h3, h⟩ := der_seq h
  obtain ⟨u4, h4, h5⟩ := der_seq h
  obtain ⟨b1, hb1⟩ := der_kw h1
  obtain ⟨b2, rfl⟩ := der_p h2
  obtain ⟨b4, rfl⟩ := der_p h4
  obtain ⟨body, rfl⟩ := der_split h5
  obtain ⟨e, rfl⟩ := der_split h3
  have hbal := der_balanced (by decide +kernel) h3
  have hne : e ≠ [] := der_some (by decide +kernel) h3
  have hh := der_forHead h3
  cases e with
  | nil => exact absurd rfl hne
  | cons k r =>
    refine ⟨(b1, .ident b!"for"), (b2, .punct .parenOpen), k, r, (b4, .punct .parenClose), body, ?_, rfl,
      rfl, rfl, hbal, ?_⟩
    · refine List.append_cancel_right (bs := v) ?_
      rw [hb1]
      simp
    · rcases hh with ⟨b, r', hk, hd⟩ | ⟨b, r', hk, hd⟩ | ⟨b, r', hk, hd⟩ | ⟨b, k', r', hk, hd⟩ |
        ⟨-, hn⟩
      · cases hk
        exact ⟨fun _ => hd, (fun h => by cases h), (fun h => by cases h)⟩
      · cases hk
        exact ⟨(fun h => by cases h), fun _ => hd, (fun h => by cases h)⟩
      · cases hk
        exact ⟨(fun h => by cases h), (fun h => by cases h), fun _ _ => hd⟩
      · cases hk
        exact ⟨fun _ => hd _, fun _ => hd _, fun _ _ => hd _⟩
      · have hr : ∃ y s, r ++ (b4, Token.punct .parenClose) :: (body ++ v) = y :: s := by
          cases r with
          | nil => exact ⟨_, _, rfl⟩
          | cons y s => exact ⟨_, _, rfl⟩
        obtain ⟨y, s, hy⟩ := hr
        refine ⟨fun h => ?_, fun h => ?_, ?_⟩
        · exact absurd ⟨k, y, s, by rw [List.cons_append, hy], .inr (.inl h)⟩ hn
        · exact absurd ⟨k, y, s, by rw [List.cons_append, hy], .inl h⟩ hn
        · rintro hl ⟨y, s, rfl, hb⟩
          exact absurd ⟨k, y, _, rfl, .inr (.inr ⟨hl, hb⟩)⟩ hn

/-- Declarators without `=` are names. -/
theorem Spec.Declarators.plain {strict : Bool} {w : List Tok} (h : Declarators strict w)
    (hw : ∀ t ∈ w, t.2 ≠ .punct .eq) :
    strict = false ∧ ∀ t ∈ w, t.2 = .punct .comma ∨ ∃ v, t.2 = .ident v := by
  induction h with
  | valued h =>
    obtain ⟨p, b, e, rfl, -⟩ := h
    exact absurd rfl (hw (b, .punct .eq) (by simp))
  | name h => exact ⟨h, fun t ht => by rw [List.mem_singleton.1 ht]; exact .inr ⟨_, rfl⟩⟩
  | more _ _ ihu ihv =>
    have hu := ihu (fun t ht => hw t (by simp [ht]))
    have hv := ihv (fun t ht => hw t (by simp [ht]))
    refine ⟨hu.1, fun t ht => ?_⟩
    simp only [List.mem_append, List.mem_cons] at ht
    rcases ht with ht | rfl | ht
    · exact hu.2 t ht
    · exact .inl rfl
    · exact hv.2 t ht

end Jsparse
