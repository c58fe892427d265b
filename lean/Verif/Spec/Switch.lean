import Verif.Spec.Grammar
import Verif.Spec.Nesting
/-!
# What a `switch` looks like

In terms of tokens; brackets in the parts are balanced.
-/

namespace Jsparse.Spec

/-- `default :` and what belongs to it. -/
def DefaultPart (w : List Tok) : Prop :=
  ∃ k c e, w = k :: c :: e ∧ k.2 = .ident b!"default" ∧ c.2 = .punct .colon ∧ Balanced (e.map (·.2))

/-- `case`, a value, a colon and what belongs to it. -/
def CasePart (w : List Tok) : Prop :=
  ∃ k v c e, w = k :: (v ++ c :: e) ∧ k.2 = .ident b!"case" ∧ v ≠ [] ∧ Balanced (v.map (·.2)) ∧
    c.2 = .punct .colon ∧ Balanced (e.map (·.2))

/-- A `switch` statement `w`: the value in parentheses, then in braces at most one default part, which
is the first, and any number of parts that begin with `case`. -/
def SwitchFits (w : List Tok) : Prop :=
  ∃ (k po : Tok) (v : List Tok) (pc o : Tok) (d : List Tok) (cs : List (List Tok)) (c : Tok),
    w = k :: po :: (v ++ pc :: o :: (d ++ cs.flatten ++ [c])) ∧
    k.2 = .ident b!"switch" ∧ po.2 = .punct .parenOpen ∧ v ≠ [] ∧ Balanced (v.map (·.2)) ∧
    pc.2 = .punct .parenClose ∧ o.2 = .punct .curlyOpen ∧ (d = [] ∨ DefaultPart d) ∧
    (∀ x ∈ cs, CasePart x) ∧ c.2 = .punct .curlyClose

end Jsparse.Spec
