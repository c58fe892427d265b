import Verif.Proofs.Errors
import Verif.Props.Grammar
/-!
# C41: the errors the parser reports
-/

namespace Jsparse

open P

/-- **C41.** "duplicate default statements" is never reported: no method fails with it, in any state,
reachable or not, and whatever bound `n` is used. -/
theorem C41_no_second_default (n : Nat) (f : Fn) (s s' : PState) :
    run n f s ≠ .err .duplicateDefault s' := run_noSecond n f s s'

/-- **C41.** No text, whether it is UTF-8 or not, is rejected with "duplicate default statements". -/
theorem C41_not_duplicate_default (checked : Bool) (code : Bytes) :
    parseRoot checked code ≠ .rejected .duplicateDefault := by
  intro h
  unfold parseRoot Res.outcome parseModuleFuel at h
  split at h
  · cases h
  · rename_i e _ he
    injection h with h
    subst h
    exact parseModule_noSecond _ _ _ he
  · cases h
  · cases h

/-- A text with many default clauses is parsed; it does not just fail for another reason. -/
example : parseRoot true b!"switch (a) { default: default: b; case 1: default: c; default: }" =
    .rejected .unexpectedToken ∧
    parseRoot true b!"switch (a) { default: default: b; case 1: default: c; default: d }" = .accepted := by
  simp only [parseRoot_eval]; decide +kernel

/-- **C41.** All other errors are reported for some text. -/
theorem C41_others_reported (e : ParseErr) (he : e ≠ .duplicateDefault) :
    ∃ code, Utf8 code ∧ ∀ checked, parseRoot checked code = .rejected e := by
  cases e with
  | unexpectedToken =>
    refine ⟨b!"a b", utf8_ascii (by decide), fun checked => ?_⟩
    cases checked <;> rw [parseRoot_eval] <;> decide +kernel
  | invalidFor =>
    refine ⟨b!"for (var a b) c", utf8_ascii (by decide), fun checked => ?_⟩
    cases checked <;> rw [parseRoot_eval] <;> decide +kernel
  | badFor =>
    refine ⟨b!"for (var a = b in c) d", utf8_ascii (by decide), fun checked => ?_⟩
    cases checked <;> rw [parseRoot_eval] <;> decide +kernel
  | duplicateDefault => exact absurd rfl he
  | asyncArrowLine =>
    refine ⟨b!"async a\n=> b", utf8_ascii (by decide), fun checked => ?_⟩
    cases checked <;> rw [parseRoot_eval] <;> decide +kernel
  | expectedMethodName =>
    refine ⟨b!"class A { *() {} }", utf8_ascii (by decide), fun checked => ?_⟩
    cases checked <;> rw [parseRoot_eval] <;> decide +kernel

end Jsparse
