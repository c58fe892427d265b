import Verif.Model.Parser
/-!
# Tokens at the same place
-/

namespace Jsparse.Spec

open Jsparse

/-- The same token, at the same place of two texts, with a line terminator before both or before neither. -/
def SamePlace (a b : Look) : Prop :=
  b.line = a.line ∧ b.token = a.token ∧ b.range.start.offset = a.range.start.offset ∧
  b.range.stop.offset = a.range.stop.offset

end Jsparse.Spec
