import Verif.Spec.Grammar
/-!
# Matching lists of grammar symbols against right-hand sides

`accepts g w`: the symbols `w`, in this order, are one way to read the right-hand side `g`.
-/

namespace Jsparse

open Spec

/-- The tokens of the symbols `w` in order. -/
def DerL (C : Ctx) : List G → List Tok → List Tok → Prop
  | [], u, v => u = v
  | g :: w, u, v => ∃ m, Der C g u m ∧ DerL C w m v

theorem derL_append {C : Ctx} {w w' : List G} {u m v : List Tok} (h : DerL C w u m)
    (h' : DerL C w' m v) : DerL C (w ++ w') u v := by
  induction w generalizing u with
  | nil => cases h; exact h'
  | cons g w ih =>
    obtain ⟨m', h1, h2⟩ := h
    exact ⟨m', h1, ih h2⟩

theorem derL_append_iff {C : Ctx} {w w' : List G} {u v : List Tok} :
    DerL C (w ++ w') u v ↔ ∃ m, DerL C w u m ∧ DerL C w' m v := by
  constructor
  · intro h
    induction w generalizing u with
    | nil => exact ⟨u, rfl, h⟩
    | cons g w ih =>
      obtain ⟨m', h1, h2⟩ := h
      obtain ⟨m, h3, h4⟩ := ih h2
      exact ⟨m, ⟨m', h1, h3⟩, h4⟩
  · rintro ⟨m, h1, h2⟩
    exact derL_append h1 h2

theorem derL_single {C : Ctx} {g : G} {u v : List Tok} : DerL C [g] u v ↔ Der C g u v := by
  constructor
  · rintro ⟨m, h, rfl⟩; exact h
  · intro h; exact ⟨v, h, rfl⟩

/-- Symbols that consume nothing. -/
def isRestriction : G → Bool
  | .eps => true
  | .onlyIf _ _ => true
  | .noLine => true
  | .line => true
  | .sameLine => true
  | .notAhead _ => true
  | .notDeclared => true
  | .notFunction => true
  | .notStart => true
  | .noTemplate => true
  | .notAsync => true
  | _ => false

theorem restriction_nothing {C : Ctx} {g : G} {u v : List Tok} (hg : isRestriction g = true)
    (h : Der C g u v) : u = v := by
  cases h <;> first | rfl | cases hg

/-- The suffixes of `w` after leaving out restrictions. -/
def skips : List G → List (List G)
  | [] => [[]]
  | g :: w => if isRestriction g then (g :: w) :: skips w else [g :: w]

theorem skips_sound {C : Ctx} {w e : List G} (he : e ∈ skips w) {u v : List Tok} (h : DerL C w u v) :
    DerL C e u v := by
  induction w generalizing u with
  | nil => simp only [skips, List.mem_singleton] at he; subst he; exact h
  | cons g w ih =>
    unfold skips at he
    split at he
    · rename_i hg
      rcases List.mem_cons.1 he with rfl | he
      · exact h
      · obtain ⟨m, h1, h2⟩ := h
        cases restriction_nothing hg h1
        exact ih he h2
    · rw [List.mem_singleton.1 he]
      exact h

/-- What is left of `w` after reading one symbol `g`. -/
def endsAtom (g : G) (w : List G) : List (List G) :=
  (skips w).filterMap fun e =>
    match e with
    | x :: e' => if x = g then some e' else none
    | [] => none

def iter (f : List G → List (List G)) : Nat → List G → List (List G)
  | 0, w => [w]
  | n + 1, w => w :: (f w).flatMap (iter f n)

/-- What may be left of `w` after reading `g`. -/
def ends : G → List G → List (List G)
  | .t k, w => endsAtom (.t k) w
  | .nt n, w => endsAtom (.nt n) w
  | .par f b g, w => endsAtom (.par f b g) w
  | .onlyIf f b, w => endsAtom (.onlyIf f b) w
  | .noLine, w => endsAtom .noLine w
  | .line, w => endsAtom .line w
  | .sameLine, w => endsAtom .sameLine w
  | .notAhead ts, w => endsAtom (.notAhead ts) w
  | .notDeclared, w => endsAtom .notDeclared w
  | .notFunction, w => endsAtom .notFunction w
  | .notStart, w => endsAtom .notStart w
  | .noTemplate, w => endsAtom .noTemplate w
  | .notAsync, w => endsAtom .notAsync w
  | .semi, w => endsAtom .semi w
  | .semiDo, w => endsAtom .semiDo w
  | .eps, w => w :: endsAtom .eps w
  | .seq a b, w => endsAtom (.seq a b) w ++ (ends a w).flatMap (ends b)
  | .alt a b, w => endsAtom (.alt a b) w ++ (ends a w ++ ends b w)
  | .opt a, w => endsAtom (.opt a) w ++ (w :: ends a w)
  | .star a, w => endsAtom (.star a) w ++ iter (ends a) w.length w

theorem endsAtom_sound {C : Ctx} {g : G} {w e : List G} (he : e ∈ endsAtom g w) {u v : List Tok}
    (h : DerL C w u v) : ∃ m, Der C g u m ∧ DerL C e m v := by
  unfold endsAtom at he
  rw [List.mem_filterMap] at he
  obtain ⟨x, h1, h2⟩ := he
  have h3 := skips_sound h1 h
  split at h2
  · split at h2
    · rename_i hx
      cases h2
      subst hx
      exact h3
    · cases h2
  · cases h2

theorem iter_sound {C : Ctx} {a : G} {f : List G → List (List G)}
    (hf : ∀ w e, e ∈ f w → ∀ u v, DerL C w u v → ∃ m, Der C a u m ∧ DerL C e m v) (n : Nat) :
    ∀ w e, e ∈ iter f n w → ∀ u v, DerL C w u v → ∃ m, Der C (.star a) u m ∧ DerL C e m v := by
  induction n with
  | zero =>
    intro w e he u v h
    simp only [iter, List.mem_singleton] at he
    subst he
    exact ⟨u, .nil, h⟩
  | succ n ih =>
    intro w e he u v h
    simp only [iter, List.mem_cons, List.mem_flatMap] at he
    rcases he with rfl | ⟨x, h1, h2⟩
    · exact ⟨u, .nil, h⟩
    · obtain ⟨m, h3, h4⟩ := hf w x h1 u v h
      obtain ⟨m', h5, h6⟩ := ih x e h2 m v h4
      exact ⟨m', .star h3 h5, h6⟩

theorem ends_sound {C : Ctx} (g : G) : ∀ w e, e ∈ ends g w → ∀ u v, DerL C w u v →
    ∃ m, Der C g u m ∧ DerL C e m v := by
  induction g with
  | seq a b iha ihb =>
    intro w e he u v h
    simp only [ends, List.mem_append, List.mem_flatMap] at he
    rcases he with he | ⟨x, h1, h2⟩
    · exact endsAtom_sound he h
    · obtain ⟨m, h3, h4⟩ := iha w x h1 u v h
      obtain ⟨m', h5, h6⟩ := ihb x e h2 m v h4
      exact ⟨m', .seq h3 h5, h6⟩
  | alt a b iha ihb =>
    intro w e he u v h
    simp only [ends, List.mem_append] at he
    rcases he with he | he | he
    · exact endsAtom_sound he h
    · obtain ⟨m, h3, h4⟩ := iha w e he u v h
      exact ⟨m, .altl h3, h4⟩
    · obtain ⟨m, h3, h4⟩ := ihb w e he u v h
      exact ⟨m, .altr h3, h4⟩
  | opt a iha =>
    intro w e he u v h
    simp only [ends, List.mem_append, List.mem_cons] at he
    rcases he with he | rfl | he
    · exact endsAtom_sound he h
    · exact ⟨u, .skip, h⟩
    · obtain ⟨m, h3, h4⟩ := iha w e he u v h
      exact ⟨m, .opt h3, h4⟩
  | star a iha =>
    intro w e he u v h
    simp only [ends, List.mem_append] at he
    rcases he with he | he
    · exact endsAtom_sound he h
    · exact iter_sound iha _ w e he u v h
  | eps =>
    intro w e he u v h
    simp only [ends, List.mem_cons] at he
    rcases he with rfl | he
    · exact ⟨u, .eps, h⟩
    · exact endsAtom_sound he h
  | _ => intro w e he u v h; exact endsAtom_sound he h

/-- The symbols `w` are one way to read `g`. -/
def accepts (g : G) (w : List G) : Bool := (ends g w).any fun e => e.all isRestriction

theorem restrictions_nothing {C : Ctx} {e : List G} (he : e.all isRestriction = true)
    {u v : List Tok} (h : DerL C e u v) : u = v := by
  induction e generalizing u with
  | nil => exact h
  | cons g e ih =>
    simp only [List.all_cons, Bool.and_eq_true] at he
    obtain ⟨m, h1, h2⟩ := h
    cases restriction_nothing he.1 h1
    exact ih he.2 h2

theorem accepts_sound {C : Ctx} {g : G} {w : List G} (h : accepts g w = true) {u v : List Tok}
    (hw : DerL C w u v) : Der C g u v := by
  unfold accepts at h
  rw [List.any_eq_true] at h
  obtain ⟨e, h1, h2⟩ := h
  obtain ⟨m, h3, h4⟩ := ends_sound g w e h1 u v hw
  cases restrictions_nothing h2 h4
  exact h3

/-- The symbol itself, or its production. -/
def fits (g : G) (w : List G) : Bool :=
  accepts g w || match g with
    | .nt n => accepts (production n) w
    | _ => false

theorem fits_sound {C : Ctx} {g : G} {w : List G} (h : fits g w = true) {u v : List Tok}
    (hw : DerL C w u v) : Der C g u v := by
  unfold fits at h
  rw [Bool.or_eq_true] at h
  rcases h with h | h
  · exact accepts_sound h hw
  · split at h
    · exact .nt (accepts_sound h hw)
    · cases h

/-- Adding a symbol; if the token after the next one is known to be on the same line and the symbol is a
single token, then there is no line terminator after it. -/
def app : List G → G → List G
  | [], g => [g]
  | [x], g => if x = .sameLine then (match g with | .t k => [.t k, .noLine] | g => [g]) else [x, g]
  | x :: y :: w, g => x :: app (y :: w) g

theorem app_sound {C : Ctx} {w : List G} {g : G} {u m v : List Tok} (h : DerL C w u m)
    (hg : Der C g m v) : DerL C (app w g) u v := by
  induction w generalizing u with
  | nil => cases h; exact derL_single.2 hg
  | cons x w ih =>
    obtain ⟨m', h1, h2⟩ := h
    cases w with
    | nil =>
      cases h2
      unfold app
      split
      · rename_i hx
        subst hx
        cases h1 with
        | sameLine hy =>
          split
          · cases hg with
            | t hk => exact ⟨_, .t hk, _, .noLine hy, rfl⟩
          · exact derL_single.2 hg
      · exact ⟨_, h1, derL_single.2 hg⟩
    | cons y w => exact ⟨m', h1, ih h2⟩

end Jsparse
