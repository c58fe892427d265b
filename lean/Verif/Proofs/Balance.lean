import Verif.Proofs.Automaton
import Verif.Spec.Stream
/-!
# Programs of the grammar are balanced
-/

namespace Jsparse

open Spec

/-- The automaton that only counts brackets. -/
def balanceAuto : Auto Unit Unit where
  states := [()]
  cls _ := ()
  step _ _ := some ()
  before _ _ := ()
  enter _ _ := some ()
  next _ := some ()
  leave _ _ _ := some ()
  may _ := [()]
  keeps := false
  agrees _ _ := true
  warned := false
  declares _ := false
  absent _ := false

def balanceTable : Table Unit := fun _ p _ =>
  match p with
  | ⟨.any, false⟩ => some [(Known.any, ())]
  | _ => none

theorem balance_closed : Closed balanceAuto balanceTable :=
  closed_iff (qs := [()]) (fun _ => List.mem_singleton.2 rfl) (by decide +kernel)

theorem balance_sound : balanceAuto.Sound :=
  ⟨fun _ => List.mem_singleton.2 rfl, fun _ => rfl, fun h => by cases h⟩

theorem program_balanced {u : List Tok} (h : Program u) : Balanced (u.map (·.2)) := by
  obtain ⟨w, hw, h1⟩ := der_run (q := ()) balance_sound balance_closed h rfl
  obtain ⟨d, hd, h1, -⟩ := h1 fun _ _ => rfl
  rw [List.append_nil] at hw
  subst hw
  have := Auto.run_nest _ h1
  obtain rfl := List.mem_singleton.1 hd
  exact this

/-- Comments and line terminators are not brackets. -/
theorem nest_deliver {toks : List (Token × TokenRange)} {line : Bool} {σ : List Br} :
    nest σ ((deliver line toks).map (·.token)) = nest σ (toks.map (·.1)) := by
  induction toks generalizing line σ with
  | nil => rfl
  | cons x toks ih =>
    obtain ⟨t, r⟩ := x
    unfold deliver
    split
    · rename_i h; cases h
    · rename_i h; cases h; exact ih
    · rename_i h; cases h; exact ih
    · rename_i h; cases h; exact ih
    · rename_i h1 h2 h3 h; cases h
      simp only [List.map_cons, nest]
      cases nestStep σ t with
      | none => rfl
      | some o => exact ih

theorem mem_deliver {toks : List (Token × TokenRange)} {line : Bool} {l : Look}
    (h : l ∈ deliver line toks) : ∃ x ∈ toks, l.token = x.1 := by
  induction toks generalizing line with
  | nil => cases h
  | cons x toks ih =>
    obtain ⟨t, r⟩ := x
    have next : ∀ line, l ∈ deliver line toks → ∃ x ∈ (t, r) :: toks, l.token = x.1 := by
      intro line h
      obtain ⟨x, hx, he⟩ := ih h
      exact ⟨x, List.mem_cons_of_mem _ hx, he⟩
    unfold deliver at h
    split at h
    · rename_i h; cases h
    · rename_i h'; cases h'; exact next _ h
    · rename_i h'; cases h'; exact next _ h
    · rename_i h'; cases h'; exact next _ h
    · rename_i h'; cases h'
      rcases List.mem_cons.1 h with rfl | h
      · exact ⟨_, List.mem_cons_self, rfl⟩
      · exact next _ h

end Jsparse
