import Mathlib.Data.List.Forall2
import Verif.Model.Parser
/-!
# Grammar contexts without effect

The parser tracks eight parameters of the ECMAScript grammar.  States that differ only in three of them.
-/

namespace Jsparse.Spec

/-- The same context, with other values of Yield, Return and Module. -/
def SameContext (a b : Flags) : Prop :=
  ∃ y r m, b = { a with allowYield := y, allowReturn := r, isModule := m }

/-- The same state of the parser, up to Yield, Return and Module in the current and the saved contexts. -/
structure SameButContexts (s t : PState) : Prop where
  rest : { t with flags := s.flags, stack := s.stack } = s
  flags : SameContext s.flags t.flags
  stack : List.Forall₂ SameContext s.stack t.stack

/-- The same outcome, with states that are the same up to these contexts. -/
inductive SameEnd {α : Type} : Res α → Res α → Prop
  | ok (a : α) {s t : PState} : SameButContexts s t → SameEnd (.ok a s) (.ok a t)
  | err (e : ParseErr) {s t : PState} : SameButContexts s t → SameEnd (.err e s) (.err e t)
  | panic (p : Panic) : SameEnd (.panic p) (.panic p)
  | timeout : SameEnd .timeout .timeout

/-- Strict mode is off, in the current and in all saved contexts. -/
def Sloppy (s : PState) : Prop := ∀ f ∈ s.flags :: s.stack, f.isStrict = false

end Jsparse.Spec
