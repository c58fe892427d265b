import Verif.Model.ParseFns
/-!
# Specification: the work of the parser

The methods are run with a budget: one unit is spent for each call of a method and one for each token
removed, and a call that finds the budget spent gives up with `timeout`.

The list of removed tokens (`log`), which the Rust code does not have and no method looks at, serves as
the meter: each call writes an entry without meaning to it.
-/

namespace Jsparse.Spec

open Jsparse

/-- A call within the budget `N`: it costs one unit. -/
def metered {α : Type} (N : Nat) (m : P α) : P α := fun s =>
  if s.log.length < N then m { s with log := s.log ++ [{}] } else .timeout

/-- The methods with the budget `N`. -/
def runMetered (N : Nat) : Nat → Fn → P (Option Unit)
  | 0, _ => fun _ => .timeout
  | n + 1, f => metered N (body ⟨n, runMetered N n⟩ f)

/-- Parsing `code` with the budget `N`. -/
def parseMetered (N : Nat) (checked : Bool) (code : Bytes) : Res Unit :=
  parseModule ⟨fuelFor code, runMetered N (fuelFor code)⟩ (initState checked code)

end Jsparse.Spec
