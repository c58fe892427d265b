import Verif.Proofs.Termination
import Verif.Proofs.Trial
import Verif.Proofs.Eval
import Verif.Props.ParserState
/-!
# C24, C27: the parser terminates; methods that report `None` have consumed nothing
-/

namespace Jsparse

open Spec P

/-! ## C24 -/

/-- `m'` agrees with `m` wherever `m` does not run out of its bound. -/
def Refines {α : Type} (m m' : P α) : Prop := ∀ s, m s ≠ .timeout → m' s = m s

theorem refines_refl {α : Type} (m : P α) : Refines m m := fun _ _ => rfl

theorem refines_bind {α β : Type} {m m' : P α} {k k' : α → P β} (hm : Refines m m')
    (hk : ∀ a, Refines (k a) (k' a)) : Refines (m >>= k) (m' >>= k') := by
  intro s h
  rw [bind_apply] at h ⊢
  have h1 := hm s
  rw [bind_apply]
  cases hs : m s with
  | ok a s1 =>
    rw [hs] at h1 h
    rw [h1 nofun]
    exact hk a s1 h
  | err e => rw [hs] at h1; rw [h1 nofun]
  | panic e => rw [hs] at h1; rw [h1 nofun]
  | timeout => rw [hs] at h; exact absurd rfl h

theorem refines_congr {N N' : Nat} (hN : N ≤ N') : Congr N N' (fun {_} m m' => Refines m m') where
  pure a := refines_refl _
  bind hm hk := refines_bind hm hk
  fail e _ := refines_refl _
  flags := refines_refl _
  withFlag f b m m' hm := by
    intro s h
    rw [withFlag_apply] at h ⊢
    rw [withFlag_apply]
    have h1 := hm (pushFlags f b s)
    cases hs : m (pushFlags f b s) with
    | ok a s1 => rw [hs] at h1; rw [h1 nofun]
    | err e => rw [hs] at h1; rw [h1 nofun]
    | panic e => rw [hs] at h1; rw [h1 nofun]
    | timeout => rw [hs] at h; exact absurd rfl h
  expect := refines_refl _
  look := refines_refl _
  ahead := refines_refl _
  take f _ := refines_refl _
  loop hb st := by
    induction N generalizing st N' with
    | zero => intro s h; exact absurd rfl h
    | succ n ih =>
      obtain ⟨n', rfl⟩ : ∃ n', N' = n' + 1 := ⟨N' - 1, by omega⟩
      refine refines_bind (hb st) fun x => ?_
      cases x with
      | inl st' => exact ih (by omega) st'
      | inr b => exact refines_refl _

theorem run_refines {n m : Nat} (h : n ≤ m) (f : Fn) : Refines (run n f) (run m f) := by
  obtain ⟨k, rfl⟩ := Nat.exists_eq_add_of_le h
  exact run_congr (J := fun {_} m m' => Refines m m') (fun n => refines_congr (Nat.le_add_right n k))
    (refines_refl _) (fun f s h => absurd rfl h) n f

theorem start_intoTokenizer (checked : Bool) {code : Bytes} (hu : Utf8 code) :
    Start (intoTokenizer checked code) := ⟨valid_intoTokenizer checked hu, rfl⟩

theorem recTerm_recOf {t0 : Tokenizer} (hv : Start t0) (n : Nat) : RecTerm t0 (recOf n) :=
  ⟨fun f => run_terminates hv n f⟩

theorem moduleItems_tm {t0 : Tokenizer} (hv : Start t0) (n : Nat) :
    Tr t0 64 n .same (whileSome n (run n .moduleItem)) fun _ _ => True := by
  refine loopWeak_tm hv (by omega) fun _ => ?_
  refine bind_tm (call_tm (r := recOf n) hv (recTerm_recOf hv n) (.inr (by simp [rank])) ?_ fun b => ?_)
  · exact pure_tm ⟨trivial, trivial⟩
  · exact pure_tm rfl

theorem parseModule_ne_timeout {t0 : Tokenizer} (hv : Start t0) {n : Nat} {s : PState} (hs : Inv t0 s)
    (hn : 64 * mu t0 s + 64 ≤ n) : parseModule (recOf n) s ≠ .timeout := by
  have h1 := moduleItems_tm hv n s s hs hs (.refl s) rfl hn
  unfold parseModule
  rw [bind_apply]
  simp only [recOf]
  cases h2 : whileSome n (run n .moduleItem) s with
  | ok a s1 =>
    rw [h2] at h1
    have h3 := fill_inv hv.valid h1.1
    simp only [bind_apply, eat, eof_eq, takeIf]
    cases h4 : fill s1 with
    | timeout => rw [h4] at h3; exact h3.elim
    | ok u s2 =>
      simp only
      cases isEof (cur s2).line (cur s2).token <;> nofun
    | _ => nofun
  | timeout => rw [h2] at h1; exact h1.elim
  | _ => nofun

/-- **C24.** `parse_root` stops on every text. -/
theorem C24_terminates (checked : Bool) {code : Bytes} (hu : Utf8 code) :
    parseRoot checked code ≠ .outOfFuel := by
  have := parseModule_ne_timeout (start_intoTokenizer checked hu) (inv_initState checked code)
    (n := fuelFor code) (by unfold mu fuelFor; simp only [intoTokenizer]; omega)
  unfold parseRoot parseModuleFuel
  intro h
  cases hm : parseModule (recOf (fuelFor code)) (initState checked code) with
  | timeout => exact this hm
  | _ => rw [hm] at h; cases h

/-- **C24.** The bound on the depth of the recursion and on the rounds of the loops, which is linear in
the length of the text, is never met: with any larger bound the run is the same. -/
theorem C24_bound_irrelevant (checked : Bool) {code : Bytes} (hu : Utf8 code) {n : Nat}
    (hn : 64 * (code.length + 2) ≤ n) :
    parseModuleFuel n checked code = parseModuleFuel (fuelFor code) checked code := by
  obtain ⟨k, rfl⟩ := Nat.exists_eq_add_of_le hn
  have h1 := parseModule_ne_timeout (start_intoTokenizer checked hu) (inv_initState checked code)
    (n := fuelFor code) (by unfold mu fuelFor; simp only [intoTokenizer]; omega)
  have hJ : Congr (fuelFor code) (fuelFor code + k) (fun {_} m m' => Refines m m') :=
    refines_congr (Nat.le_add_right _ k)
  have h2 : Refines (parseModule (recOf (fuelFor code))) (parseModule (recOf (fuelFor code + k))) := by
    unfold parseModule
    refine refines_bind (whileSome_cg hJ.base (run_refines (Nat.le_add_right _ _) _)) fun _ => ?_
    exact refines_refl _
  exact h2 _ h1

/-- Every method stops in every state that the parser can reach: what was consumed and buffered so far
are delivered tokens of the text (`Inv`). -/
theorem C24_methods_terminate {checked : Bool} {code : Bytes} (hu : Utf8 code) (f : Fn) {s : PState}
    (hs : Inv (intoTokenizer checked code) s) {n : Nat} (hn : 64 * (code.length + 2) ≤ n) :
    run n f s ≠ .timeout ∧ run n f s = run (fuelFor code) f s := by
  have hv := start_intoTokenizer checked hu
  have hb : 64 * mu (intoTokenizer checked code) s + rank f < fuelFor code := by
    have := rank_lt f
    unfold mu fuelFor
    simp only [intoTokenizer]
    omega
  have h1 : run (fuelFor code) f s ≠ .timeout := by
    intro h
    have := run_terminates hv (fuelFor code) f s hs hb
    rw [h] at this
    exact this
  have h2 := run_refines (n := fuelFor code) (m := n) hn f s h1
  exact ⟨by rw [h2]; exact h1, h2⟩

/-- The tokenizer is stuck on `#`, and returns an empty name forever; `parse_root` stops all the
same. -/
example : parseRoot true b!"a; #" = .rejected .unexpectedToken := by
  rw [parseRoot_eval]; decide +kernel

/-! ## C27 -/

/-- **C27.** A method that reports that its production is not there has consumed no token, the tokens
that were read ahead are still the next ones, and the flags are what they were.  In any state,
reachable or not, and whatever bound `n` is used. -/
theorem C27_absent_consumes_nothing (n : Nat) (f : Fn) {s s' : PState}
    (h : run n f s = .ok none s') :
    s'.log = s.log ∧ buf s <+: buf s' ∧ s'.flags = s.flags ∧ s'.stack = s.stack := by
  obtain ⟨l, h1, h2⟩ := run_ab n f s s none s' (.refl s) h
  have : l = .still := h1
  subst this
  obtain ⟨h3, h4, -⟩ := run_restores n f s none s' h
  exact ⟨h2.log, h2.buf, h3, h4⟩

/-- A method that looks at two tokens before it gives up: `async x` is not a function. -/
example : (match run 100 .functionExpression (initState true b!"async x") with
    | .ok none s' => s'.log.length == 0 && (buf s').length == 2
    | _ => false) = true := by
  rw [← runF_eq]; decide +kernel

end Jsparse
