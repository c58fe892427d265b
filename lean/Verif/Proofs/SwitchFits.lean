import Verif.Proofs.Declarators
import Verif.Spec.Switch
/-!
# A `switch` that has been parsed
-/

namespace Jsparse

open Spec P

theorem der_items {C : Ctx} {u v : List Tok} (h : Der C (.star (.nt .StatementListItem)) u v) :
    ∃ e, u = e ++ v ∧ Balanced (e.map (·.2)) := by
  obtain ⟨e, rfl⟩ := der_split h
  exact ⟨e, rfl, der_balanced (by decide +kernel) h⟩

theorem der_value {C : Ctx} {u v : List Tok} (h : Der C .expression u v) :
    ∃ e, u = e ++ v ∧ e ≠ [] ∧ Balanced (e.map (·.2)) := by
  obtain ⟨e, rfl⟩ := der_split h
  exact ⟨e, rfl, der_some (by decide +kernel) h, der_balanced (by decide +kernel) h⟩

theorem der_defaultPart {C : Ctx} {u v : List Tok} (h : Der C (.nt .DefaultClause) u v) :
    ∃ w, u = w ++ v ∧ DefaultPart w := by
  obtain ⟨u1, h1, h⟩ := der_seq (der_nt h)
  obtain ⟨u2, h2, h3⟩ := der_seq h
  obtain ⟨b1, rfl⟩ := der_kw h1
  obtain ⟨b2, rfl⟩ := der_p h2
  obtain ⟨e, rfl, he⟩ := der_items h3
  exact ⟨_ :: _ :: e, rfl, _, _, _, rfl, rfl, rfl, he⟩

theorem der_casePart {C : Ctx} {u v : List Tok} (h : Der C (.nt .CaseClause) u v) :
    ∃ w, u = w ++ v ∧ CasePart w := by
  obtain ⟨u1, h1, h⟩ := der_seq (der_nt h)
  obtain ⟨u2, h2, h⟩ := der_seq h
  obtain ⟨u3, h3, h4⟩ := der_seq h
  obtain ⟨b1, rfl⟩ := der_kw h1
  obtain ⟨x, rfl, hx, hb⟩ := der_value h2
  obtain ⟨b2, rfl⟩ := der_p h3
  obtain ⟨e, rfl, he⟩ := der_items h4
  exact ⟨(b1, .ident b!"case") :: (x ++ (b2, .punct .colon) :: e), by simp, _, x, _, e, rfl, rfl,
    hx, hb, rfl, he⟩

theorem der_caseParts {C : Ctx} {u v : List Tok} (h : Der C (.star (.nt .CaseClause)) u v) :
    ∃ cs : List (List Tok), u = cs.flatten ++ v ∧ ∀ x ∈ cs, CasePart x := by
  generalize hg : G.star (.nt .CaseClause) = g at h
  induction h with
  | nil => exact ⟨[], rfl, fun _ h => by cases h⟩
  | star h1 _ _ ih =>
    cases hg
    obtain ⟨w, rfl, hw⟩ := der_casePart h1
    obtain ⟨cs, rfl, hcs⟩ := ih rfl
    exact ⟨w :: cs, by simp, fun x hx => by
      rcases List.mem_cons.1 hx with rfl | hx
      · exact hw
      · exact hcs x hx⟩
  | _ => cases hg

theorem der_switch {C : Ctx} {w v : List Tok} (h : Der C (.nt .SwitchStatement) (w ++ v) v) :
    SwitchFits w := by
  obtain ⟨u1, h1, h⟩ := der_seq (der_nt h)
  obtain ⟨u2, hp, h⟩ := der_seq h
  obtain ⟨u3, h3, h⟩ := der_seq h
  obtain ⟨u4, h4, h⟩ := der_seq h
  obtain ⟨u5, h5, h6⟩ := der_seq h
  obtain ⟨p1, hp1, hp⟩ := der_seq hp
  obtain ⟨p2, hp2, hp3⟩ := der_seq hp
  obtain ⟨b1, hb1⟩ := der_kw h1
  obtain ⟨b2, rfl⟩ := der_p hp1
  obtain ⟨x, rfl, hx, hxb⟩ := der_value hp2
  obtain ⟨b3, rfl⟩ := der_p hp3
  obtain ⟨b4, rfl⟩ := der_p h3
  obtain ⟨cs, rfl, hcs⟩ := der_caseParts h5
  obtain ⟨b5, rfl⟩ := der_p h6
  have hd : ∃ d, u3 = d ++ (cs.flatten ++ (b5, .punct .curlyClose) :: v) ∧ (d = [] ∨ DefaultPart d) := by
    rcases der_opt h4 with rfl | h4
    · exact ⟨[], rfl, .inl rfl⟩
    · obtain ⟨d, hd, h⟩ := der_defaultPart h4
      exact ⟨d, hd, .inr h⟩
  obtain ⟨d, rfl, hd⟩ := hd
  refine ⟨(b1, .ident b!"switch"), (b2, .punct .parenOpen), x, (b3, .punct .parenClose),
    (b4, .punct .curlyOpen), d, cs, (b5, .punct .curlyClose), ?_, rfl, rfl, hx, hxb, rfl, rfl, hd,
    hcs, rfl⟩
  refine List.append_cancel_right (bs := v) ?_
  rw [hb1]
  simp

end Jsparse
