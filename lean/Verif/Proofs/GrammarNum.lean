import Verif.Spec.Renaming
import Verif.Spec.Grammar
import Mathlib.Data.List.Forall2
/-!
# The grammar does not look at the values of numbers
-/

namespace Jsparse

open Spec

/-- No restriction on lookahead mentions a number. -/
def Tidy : G → Prop
  | .notAhead ts => ∀ t ∈ ts, ∀ v, t ≠ .num v
  | .seq a b => Tidy a ∧ Tidy b
  | .alt a b => Tidy a ∧ Tidy b
  | .opt a => Tidy a
  | .star a => Tidy a
  | .par _ _ g => Tidy g
  | _ => True

def tidyB : G → Bool
  | .notAhead ts => ts.all fun t => match t with | .num _ => false | _ => true
  | .seq a b => tidyB a && tidyB b
  | .alt a b => tidyB a && tidyB b
  | .opt a => tidyB a
  | .star a => tidyB a
  | .par _ _ g => tidyB g
  | _ => true

theorem tidy_of : ∀ g, tidyB g = true → Tidy g
  | .notAhead ts, h => by
    intro t ht v hv
    have := List.all_eq_true.1 h t ht
    rw [hv] at this
    cases this
  | .seq a b, h => by
    have h : (tidyB a && tidyB b) = true := h
    rw [Bool.and_eq_true] at h
    exact ⟨tidy_of a h.1, tidy_of b h.2⟩
  | .alt a b, h => by
    have h : (tidyB a && tidyB b) = true := h
    rw [Bool.and_eq_true] at h
    exact ⟨tidy_of a h.1, tidy_of b h.2⟩
  | .opt a, h => tidy_of a h
  | .star a, h => tidy_of a h
  | .par _ _ g, h => tidy_of g h
  | .t _, _ => trivial
  | .nt _, _ => trivial
  | .onlyIf _ _, _ => trivial
  | .noLine, _ => trivial
  | .line, _ => trivial
  | .sameLine, _ => trivial
  | .notDeclared, _ => trivial
  | .notFunction, _ => trivial
  | .notStart, _ => trivial
  | .noTemplate, _ => trivial
  | .notAsync, _ => trivial
  | .semi, _ => trivial
  | .semiDo, _ => trivial
  | .eps, _ => trivial

theorem production_tidy (n : NT) : Tidy (production n) := by
  apply tidy_of
  cases n with
  | LexicalBinding b => cases b <;> rfl
  | FunctionRest a g => cases a <;> cases g <;> rfl
  | MethodHead k g a => cases k <;> cases g <;> cases a <;> rfl
  | MethodTail k g a => cases k <;> cases g <;> cases a <;> rfl
  | LeftHandSideExpression c => cases c <;> rfl
  | _ => rfl

theorem sameTok_iff {x y : Tok} (h : SameTok x y) {t : Token} (ht : ∀ v, t ≠ .num v) : x.2 = t ↔ y.2 = t := by
  rcases h.2 with h | ⟨v, v', h1, h2⟩
  · rw [h]
  · rw [h1, h2]
    exact ⟨fun h => absurd h.symm (ht _), fun h => absurd h.symm (ht _)⟩

theorem term_sameTok {C : Ctx} {k : Term} {x y : Tok} (h : SameTok x y) (hk : k.Is C x.2) : k.Is C y.2 := by
  rcases h.2 with h | ⟨v, v', h1, h2⟩
  · rw [h]; exact hk
  · rw [h1] at hk
    rw [h2]
    cases k with
    | num => exact ⟨v', rfl⟩
    | _ => simp [Term.Is] at hk

theorem begins_sameTok {x y : Tok} (h : SameTok x y) (hx : BeginsBinding y.2) : BeginsBinding x.2 := by
  rcases hx with h1 | h1 | ⟨v, h1, h2⟩
  · exact .inl ((sameTok_iff h (by intro _ h; cases h)).2 h1)
  · exact .inr (.inl ((sameTok_iff h (by intro _ h; cases h)).2 h1))
  · exact .inr (.inr ⟨v, (sameTok_iff h (by intro _ h; cases h)).2 h1, h2⟩)

theorem forDeclaration_sameTok {u u' : List Tok} (h : List.Forall₂ SameTok u u') (hb : BeginsForDeclaration u') :
    BeginsForDeclaration u := by
  obtain ⟨x, y, v, rfl, hb⟩ := hb
  obtain ⟨a, _, h1, h2, rfl⟩ := List.forall₂_cons_right_iff.1 h
  obtain ⟨b, _, h3, h4, rfl⟩ := List.forall₂_cons_right_iff.1 h2
  refine ⟨a, b, _, rfl, ?_⟩
  rcases hb with hb | hb | ⟨hb, hb'⟩
  · exact .inl ((sameTok_iff h1 (by intro _ h; cases h)).2 hb)
  · exact .inr (.inl ((sameTok_iff h1 (by intro _ h; cases h)).2 hb))
  · exact .inr (.inr ⟨(sameTok_iff h1 (by intro _ h; cases h)).2 hb, begins_sameTok h3 hb'⟩)

theorem function_sameTok {u u' : List Tok} (h : List.Forall₂ SameTok u u') (hb : BeginsFunction u') : BeginsFunction u := by
  obtain ⟨x, y, v, rfl, hx, hy⟩ := hb
  obtain ⟨a, _, h1, h2, rfl⟩ := List.forall₂_cons_right_iff.1 h
  obtain ⟨b, _, h3, h4, rfl⟩ := List.forall₂_cons_right_iff.1 h2
  refine ⟨a, b, _, rfl, (sameTok_iff h1 (by intro _ h; cases h)).2 hx, fun h => hy ⟨h3.1.trans h.1, ?_⟩⟩
  exact (sameTok_iff h3 (by intro _ h; cases h)).1 h.2

theorem async_sameTok {C : Ctx} {u u' : List Tok} (h : List.Forall₂ SameTok u u') (hb : BeginsAsync C u') :
    BeginsAsync C u := by
  obtain ⟨l, n, v, rfl, hn⟩ := hb
  obtain ⟨⟨la, a⟩, _, h1, h2, rfl⟩ := List.forall₂_cons_right_iff.1 h
  obtain ⟨⟨lb, b⟩, w, h3, h4, rfl⟩ := List.forall₂_cons_right_iff.1 h2
  obtain rfl : a = _ := (sameTok_iff h1 (by intro _ h; cases h)).2 rfl
  obtain rfl : b = _ := (sameTok_iff h3 (by intro _ h; cases h)).2 rfl
  obtain rfl : lb = false := h3.1.symm
  exact ⟨la, n, w, rfl, hn⟩

theorem starts_sameTok {C : Ctx} {x y : Tok} (h : SameTok x y) (hy : Starts C y.2) : Starts C x.2 := by
  rcases h.2 with h | ⟨v, v', h1, h2⟩
  · rw [← h]; exact hy
  · rw [h1]; trivial

theorem template_sameTok {x y : Tok} (h : SameTok x y) (hy : BeginsTemplate y.2) : BeginsTemplate x.2 := by
  rcases h.2 with h | ⟨v, v', h1, h2⟩
  · rw [← h]; exact hy
  · rw [h2] at hy; exact hy.elim

/-- Derivations with other values of the numbers. -/
theorem der_sameTok {C : Ctx} {g : G} {u v : List Tok} (h : Der C g u v) : Tidy g → ∀ {u'}, List.Forall₂ SameTok u u' →
    ∃ v', List.Forall₂ SameTok v v' ∧ Der C g u' v' := by
  have one : ∀ {x : Tok} {u u' : List Tok}, List.Forall₂ SameTok (x :: u) u' →
      ∃ y u'', u' = y :: u'' ∧ SameTok x y ∧ List.Forall₂ SameTok u u'' := fun h => by
    obtain ⟨y, u'', h1, h2, rfl⟩ := List.forall₂_cons_left_iff.1 h
    exact ⟨y, u'', rfl, h1, h2⟩
  induction h with
  | @t C k l x v hk =>
    intro _ u' hu
    obtain ⟨⟨l', y⟩, u'', rfl, h1, h2⟩ := one hu
    exact ⟨u'', h2, .t (term_sameTok (x := (l, x)) h1 hk)⟩
  | nt _ ih =>
    intro _ u' hu
    obtain ⟨v', h1, h2⟩ := ih (production_tidy _) hu
    exact ⟨v', h1, .nt h2⟩
  | par _ ih =>
    intro ht u' hu
    obtain ⟨v', h1, h2⟩ := ih ht hu
    exact ⟨v', h1, .par h2⟩
  | onlyIf h => exact fun _ u' hu => ⟨u', hu, .onlyIf h⟩
  | noLine h =>
    intro _ u' hu
    obtain ⟨y, u'', rfl, h1, h2⟩ := one hu
    exact ⟨_, hu, .noLine (h1.1.trans h)⟩
  | line h =>
    intro _ u' hu
    obtain ⟨y, u'', rfl, h1, h2⟩ := one hu
    exact ⟨_, hu, .line (h1.1.trans h)⟩
  | sameLine h =>
    intro _ u' hu
    obtain ⟨y, u'', rfl, h1, h2⟩ := one hu
    obtain ⟨z, u'', rfl, h3, h4⟩ := one h2
    exact ⟨_, hu, .sameLine (h3.1.trans h)⟩
  | notAhead h =>
    intro ht u' hu
    obtain ⟨y, u'', rfl, h1, h2⟩ := one hu
    refine ⟨_, hu, .notAhead fun hy => ?_⟩
    rw [← (sameTok_iff h1 (ht _ hy)).2 rfl] at hy
    exact h hy
  | notDeclared h => exact fun _ u' hu => ⟨u', hu, .notDeclared fun h' => h (forDeclaration_sameTok hu h')⟩
  | notFunction h => exact fun _ u' hu => ⟨u', hu, .notFunction fun h' => h (function_sameTok hu h')⟩
  | notAsync h => exact fun _ u' hu => ⟨u', hu, .notAsync fun h' => h (async_sameTok hu h')⟩
  | noTemplate h =>
    intro _ u' hu
    have hu' := hu
    obtain ⟨y, u'', rfl, h1, h2⟩ := one hu
    exact ⟨_, hu', .noTemplate fun hy => h (template_sameTok h1 hy)⟩
  | notStart h =>
    intro _ u' hu
    have hu' := hu
    obtain ⟨y, u'', rfl, h1, h2⟩ := one hu
    exact ⟨_, hu', .notStart fun hy => h (starts_sameTok h1 hy)⟩
  | semi =>
    intro _ u' hu
    obtain ⟨⟨l', y⟩, u'', rfl, h1, h2⟩ := one hu
    obtain rfl : y = _ := (sameTok_iff h1 (by intro _ h; cases h)).1 rfl
    exact ⟨_, h2, .semi⟩
  | insert h =>
    intro _ u' hu
    obtain ⟨y, u'', rfl, h1, h2⟩ := one hu
    refine ⟨_, hu, .insert ⟨fun hy => h.1 ((sameTok_iff h1 (by intro _ h; cases h)).2 hy), ?_⟩⟩
    rcases h.2 with h | h | h
    · exact .inl (h1.1.trans h)
    · exact .inr (.inl ((sameTok_iff h1 (by intro _ h; cases h)).1 h))
    · exact .inr (.inr ((sameTok_iff h1 (by intro _ h; cases h)).1 h))
  | semiDo =>
    intro _ u' hu
    obtain ⟨⟨l', y⟩, u'', rfl, h1, h2⟩ := one hu
    obtain rfl : y = _ := (sameTok_iff h1 (by intro _ h; cases h)).1 rfl
    exact ⟨_, h2, .semiDo⟩
  | insertDo h =>
    intro _ u' hu
    obtain ⟨y, u'', rfl, h1, h2⟩ := one hu
    exact ⟨_, hu, .insertDo fun hy => h ((sameTok_iff h1 (by intro _ h; cases h)).2 hy)⟩
  | eps => exact fun _ u' hu => ⟨u', hu, .eps⟩
  | seq _ _ ih1 ih2 =>
    intro ht u' hu
    obtain ⟨v', h1, h2⟩ := ih1 ht.1 hu
    obtain ⟨w', h3, h4⟩ := ih2 ht.2 h1
    exact ⟨w', h3, .seq h2 h4⟩
  | altl _ ih =>
    intro ht u' hu
    obtain ⟨v', h1, h2⟩ := ih ht.1 hu
    exact ⟨v', h1, .altl h2⟩
  | altr _ ih =>
    intro ht u' hu
    obtain ⟨v', h1, h2⟩ := ih ht.2 hu
    exact ⟨v', h1, .altr h2⟩
  | skip => exact fun _ u' hu => ⟨u', hu, .skip⟩
  | opt _ ih =>
    intro ht u' hu
    obtain ⟨v', h1, h2⟩ := ih ht hu
    exact ⟨v', h1, .opt h2⟩
  | nil => exact fun _ u' hu => ⟨u', hu, .nil⟩
  | star _ _ ih1 ih2 =>
    intro ht u' hu
    obtain ⟨v', h1, h2⟩ := ih1 ht hu
    obtain ⟨w', h3, h4⟩ := ih2 ht h1
    exact ⟨w', h3, .star h2 h4⟩

theorem program_sameTok {u u' : List Tok} (h : Program u) (hu : List.Forall₂ SameTok u u') : Program u' := by
  obtain ⟨v', h1, h2⟩ := der_sameTok h trivial hu
  cases h1
  exact h2

end Jsparse
