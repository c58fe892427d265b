import Verif.Proofs.Deaf
import Verif.Props.Gaps
/-!
# C44: three grammar contexts have no effect, and strict mode is never entered

The parser carries the parameters Yield, Return and Module of the ECMAScript grammar, but nothing that it
does depends on them.  So `return` is accepted outside functions, and `yield` is an operator everywhere.
The parameter Strict is looked at, but no method ever sets it.
-/

namespace Jsparse

open P Spec

theorem Spec.SameEnd.of_ends {U : Flags → Prop} {x y : Res (Option Unit)} (h : Ends U x y) : SameEnd x y := by
  cases h with
  | @ok a b s t hr h =>
    have : a = b := by
      cases hr with
      | none => rfl
      | some h => exact congrArg some h
    subst this
    exact .ok a h.same
  | err e h => exact .err e h.same
  | panic p => exact .panic p
  | timeout => exact .timeout

/-- **C44.** Every method of the parser does the same in two states that differ only in Yield, Return and
Module: it returns the same value, or fails with the same error, or panics in the same way, and leaves states
that again differ only in these. -/
theorem C44_contexts_ignored (n : Nat) (f : Fn) {s t : PState} (h : SameButContexts s t) :
    SameEnd (run n f s) (run n f t) :=
  .of_ends (run_deaf closed_true n f s t ⟨h, fun _ _ => trivial⟩)

/-- **C44.** Switching one of these contexts on or off has the same effect as the parser's own `NOOP`. -/
theorem C44_switch_ignored (n : Nat) (f : Fn) (s : PState) (b c : Bool) {flag : Flag}
    (hf : flag = .yield ∨ flag = .return ∨ flag = .module) :
    SameEnd (withFlag flag b (run n f) s) (withFlag .noop c (run n f) s) := by
  have hs : SameButContexts (pushFlags flag b s) (pushFlags .noop c s) := by
    refine ⟨?_, ?_, ?_⟩
    · rcases hf with rfl | rfl | rfl <;> rfl
    · rcases hf with rfl | rfl | rfl <;> exact sameContext_iff.2 ⟨rfl, rfl, rfl, rfl, rfl⟩
    · have : ∀ (s : List Flags), List.Forall₂ SameContext s s := fun s => by
        induction s with
        | nil => exact .nil
        | cons x xs ih => exact .cons (sameContext_iff.2 ⟨rfl, rfl, rfl, rfl, rfl⟩) ih
      rcases hf with rfl | rfl | rfl <;> exact this _
  refine .of_ends (U := fun _ => True) ?_
  have h1 : ∀ x y, Ends (fun _ => True) (run n f x) (run n f y) →
      Ends (fun _ => True) ((do let a ← run n f; popFlags; return a : P (Option Unit)) x)
        ((do let a ← run n f; popFlags; return a : P (Option Unit)) y) := by
    intro x y hxy
    rw [bind_apply, bind_apply]
    generalize run n f x = u at hxy ⊢
    generalize run n f y = v at hxy ⊢
    cases hxy with
    | ok ha hs =>
      exact deaf_bind (α := Unit) deaf_popFlags (fun _ _ _ => deaf_pure ha) _ _ hs
    | err e hs => exact .err e hs
    | panic p => exact .panic p
    | timeout => exact .timeout
  exact h1 _ _ (run_deaf closed_true n f _ _ ⟨hs, fun _ _ => trivial⟩)

/-- **C44.** A program has the same outcome whatever the three contexts are when the parser starts: a script
or a module, inside or outside of a generator, inside or outside of a function. -/
theorem C44_start_ignored (checked : Bool) (code : Bytes) {flags : Flags} (h : SameContext {} flags) :
    (parseModule (recOf (fuelFor code)) { initState checked code with flags }).outcome =
      parseRoot checked code := by
  have := parseModule_deaf closed_true (fuelFor code) (initState checked code)
    { initState checked code with flags } ⟨⟨rfl, h, .nil⟩, fun _ _ => trivial⟩
  unfold parseRoot parseModuleFuel
  generalize parseModule (recOf (fuelFor code)) (initState checked code) = u at this ⊢
  generalize parseModule (recOf (fuelFor code)) { initState checked code with flags } = v at this ⊢
  cases this <;> rfl

/-- **C44.** No method enters strict mode, whether it returns or fails. -/
theorem C44_never_strict (n : Nat) (f : Fn) {s : PState} (h : Sloppy s) :
    (∀ a s', run n f s = .ok a s' → Sloppy s') ∧ (∀ e s', run n f s = .err e s' → Sloppy s') := by
  have hs : SameButContexts s s := by
    refine ⟨rfl, sameContext_iff.2 ⟨rfl, rfl, rfl, rfl, rfl⟩, ?_⟩
    induction s.stack with
    | nil => exact .nil
    | cons x xs ih => exact .cons (sameContext_iff.2 ⟨rfl, rfl, rfl, rfl, rfl⟩) ih
  have := run_deaf closed_sloppy n f s s ⟨hs, h⟩
  refine ⟨fun a s' e => ?_, fun e s' he => ?_⟩
  · rw [e] at this
    cases this with
    | ok _ h => exact h.all
  · rw [he] at this
    cases this with
    | err _ h => exact h.all

/-- **C44.** So the parser never is in strict mode: when a program has been accepted or rejected, strict mode
is off. -/
theorem C44_program_never_strict (n : Nat) (checked : Bool) (code : Bytes) :
    (∀ a s, parseModuleFuel n checked code = .ok a s → Sloppy s) ∧
    (∀ e s, parseModuleFuel n checked code = .err e s → Sloppy s) := by
  have := parseModule_deaf closed_sloppy n (initState checked code) (initState checked code)
    ⟨⟨rfl, sameContext_iff.2 ⟨rfl, rfl, rfl, rfl, rfl⟩, .nil⟩, by
      intro f hf
      simp only [initState, List.mem_cons, List.not_mem_nil, or_false] at hf
      subst hf
      rfl⟩
  refine ⟨fun a s' e => ?_, fun e s' he => ?_⟩
  · unfold parseModuleFuel at e
    rw [e] at this
    cases this with
    | ok _ h => exact h.all
  · unfold parseModuleFuel at he
    rw [he] at this
    cases this with
    | err _ h => exact h.all

/-! ## Examples -/

/-- `return` is accepted outside of functions, `break` and `continue` outside of loops. -/
example : parseRoot true b!"return a; break; continue;" = .accepted := by
  simp only [parseRoot_eval]; decide +kernel

/-- `yield` is an operator outside of generators. -/
example : parseRoot true b!"yield a; function f() { yield b; }" = .accepted := by
  simp only [parseRoot_eval]; decide +kernel

/-- In strict mode `let` would not be a name.  A directive does not enter strict mode. -/
example : isBindingIdentifier { isStrict := true } b!"let" = false ∧
    parseRoot true b!"'use strict'; a = public;" = .accepted := by
  simp only [parseRoot_eval]; decide +kernel

/-- The contexts that do have an effect: In … -/
example :
    (parseModule (recOf 200) { initState true b!"let x = a in b;" with flags := { allowIn := true } }).outcome ≠
      (parseModule (recOf 200) (initState true b!"let x = a in b;")).outcome := by
  decide +kernel

/-- … Await … -/
example :
    (parseModule (recOf 200) { initState true b!"x = await a;" with flags := { allowAwait := true } }).outcome ≠
      (parseModule (recOf 200) (initState true b!"x = await a;")).outcome := by
  decide +kernel

/-- … Default … -/
example :
    (parseModule (recOf 200) { initState true b!"function () { }" with flags := { allowDefault := true } }).outcome ≠
      (parseModule (recOf 200) (initState true b!"function () { }")).outcome := by
  decide +kernel

/-- … and Strict. -/
example :
    (parseModule (recOf 200) { initState true b!"a = public;" with flags := { isStrict := true } }).outcome ≠
      (parseModule (recOf 200) (initState true b!"a = public;")).outcome := by
  decide +kernel

end Jsparse
