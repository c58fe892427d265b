import Verif.Proofs.Modes
import Verif.Proofs.Eval
import Verif.Spec.Stream
/-!
# C23: builds with and without overflow checks
-/

namespace Jsparse

open Spec P

theorem release_calls {t t' : Tokenizer} (hc : t.checked = true) {toks}
    (h : Calls t toks t') : Calls t.release toks t'.release ∧ t'.checked = true := by
  induction h with
  | nil t => exact ⟨.nil _, hc⟩
  | cons t h tok r t1 toks t2 hn _ ih =>
    have := nextToken_agree hc h
    rw [hn] at this
    obtain ⟨a, b⟩ := ih this.2
    exact ⟨.cons _ h _ _ _ _ _ this.1 a, b⟩

/-- **C23.** Tokens, ranges and panics other than overflow are the same in a build without overflow
checks, whatever calls were made before. -/
theorem C23_tokens_agree {code : Bytes} {toks : List (Token × TokenRange)} {t : Tokenizer} (h : Hint)
    (hc : Calls (intoTokenizer true code) toks t) :
    ∃ t', Calls (intoTokenizer false code) toks t' ∧
      (∀ tok r t1, t.nextToken h = .ok (tok, r, t1) → ∃ t2, t'.nextToken h = .ok (tok, r, t2)) ∧
      ∀ p, PanicsWith t h p → p = .overflow ∨ PanicsWith t' h p := by
  obtain ⟨h1, h2⟩ := release_calls rfl hc
  have h3 := nextToken_agree h2 h
  refine ⟨t.release, h1, fun tok r t1 hn => ?_, fun p hp => ?_⟩
  · rw [hn] at h3
    exact ⟨_, h3.1⟩
  · rw [show t.nextToken h = _ from hp] at h3
    exact h3

/-- **C23.** Unless `parse_root` stops with an overflow in a build with overflow checks, a build
without them gives the same outcome. -/
theorem C23_outcomes_agree {code : Bytes} (h : parseRoot true code ≠ .panicked .overflow) :
    parseRoot false code = parseRoot true code := by
  have h1 := parseModule_agrees (fuelFor code) (initState true code) rfl
  unfold parseRoot parseModuleFuel at h ⊢
  rw [show initState false code = (initState true code).release from rfl]
  cases hm : parseModule (recOf (fuelFor code)) (initState true code) with
  | ok a s => rw [hm] at h1; rw [h1.1]; rfl
  | err e s => rw [hm] at h1; rw [show parseModule _ _ = _ from h1]; rfl
  | timeout => rw [hm] at h1; rw [show parseModule _ _ = _ from h1]
  | panic p =>
    rw [hm] at h1 h
    rcases h1 with rfl | h1
    · exact absurd rfl h
    · rw [h1]

/-- **C23.** The tokens consumed, with their positions, are the same as well. -/
theorem C23_consumed_agree {code : Bytes} {s : PState}
    (h : parseModuleFuel (fuelFor code) true code = .ok () s) :
    ∃ s', parseModuleFuel (fuelFor code) false code = .ok () s' ∧ s'.log = s.log := by
  have h1 := parseModule_agrees (fuelFor code) (initState true code) rfl
  unfold parseModuleFuel at h ⊢
  rw [h] at h1
  exact ⟨_, h1.1, rfl⟩

/-- The exception is real: an exponent that is too large. -/
example : parseRoot true b!"a = 1e99999999999" = .panicked .overflow ∧
    parseRoot false b!"a = 1e99999999999" = .accepted := by
  constructor <;> (rw [parseRoot_eval]; decide +kernel)

/-- And so is the rule. -/
example : parseRoot true b!"a = 1e9; f(`x`)" = .accepted := by
  rw [parseRoot_eval]; decide +kernel

end Jsparse
