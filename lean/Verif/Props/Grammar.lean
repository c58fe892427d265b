import Verif.Proofs.GrammarBody
/-!
# C32: accepted programs are derivable in the grammar
-/

namespace Jsparse

open Spec P

/-! ## C32 -/

/-- **C32.** The tokens of an accepted text — all tokens of the tokenizer without comments and line
terminators, up to the end of the text — are a program of the grammar. -/
theorem C32_accepted_derivable {checked : Bool} {code : Bytes} (hu : Utf8 code)
    (h : parseRoot checked code = .accepted) :
    ∃ toks t, Calls (intoTokenizer checked code) toks t ∧ t.position.offset = code.length ∧
      Program ((deliver false toks).map Look.seen) := by
  obtain ⟨toks, t, s', front, last, h1, h2, h3, -, -, -, -, h4⟩ := C26_accepted_consumes_all hu h
  refine ⟨toks, t, h1, h4, ?_⟩
  rw [← h3]
  exact parseModule_program (valid_intoTokenizer checked hu) (inv_initState checked code) rfl rfl h2

/-- Accepted, but not a program of ECMA-262: the inner declaration has no name. -/
example : parseRoot true b!"export default function () { function () { } }" = .accepted ∧
    parseRoot true b!"function f() { function () { } }" = .rejected .unexpectedToken := by
  simp only [parseRoot_eval]; decide +kernel

/-- Accepted, with an import, an export, a generator, patterns, a template, an inserted semicolon and a
`for` loop. -/
example : parseRoot true b!"import {a} from 'm'\nexport default function* (x, {y: [z] = `${x}`}) { for (let k of x) yield k\n }" = .accepted := by
  rw [parseRoot_eval]; decide +kernel

end Jsparse
