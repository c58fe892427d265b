import Verif.Proofs.CostAll
import Verif.Props.ParserTermination
/-!
# C40: parsing takes linear time
-/

namespace Jsparse

open Spec P

theorem moduleItems_co {t0 : Tokenizer} (hv : Start t0) (N n : Nat) :
    Co t0 N 64 n .start (whileSome n (runMetered N n .moduleItem)) fun _ l =>
      (Nat.ble l.c 64 && Nat.ble l.e price) = true := by
  refine loopWeak_co hv 28 150 rfl fun _ => ?_
  refine bind_co (call_co (r := ⟨n, runMetered N n⟩) hv ⟨fun f => runMetered_costs hv N n f⟩ rfl ?_
    fun b => ?_)
  · exact pure_co ⟨rfl, rfl, rfl⟩
  · exact pure_co rfl

theorem parseModule_co {t0 : Tokenizer} (hv : Start t0) {N n : Nat} {s : PState} (hs : Inv t0 s)
    (h0 : s.log = []) (hn : 64 * mu t0 s + 64 ≤ n) (hN : price * mu t0 s + 64 ≤ N) :
    match parseModule ⟨n, runMetered N n⟩ s with
    | .timeout => False
    | .ok _ s' => s'.log.length ≤ price * mu t0 s + 65
    | _ => True := by
  have h1 := moduleItems_co hv N n 0 s s s 0 rfl hs hs (.refl s)
    ⟨rfl, fun _ => Nat.le_refl _, fun _ => Nat.zero_le _⟩ (by rw [h0]; rfl) hn (by omega)
  unfold parseModule
  rw [bind_apply]
  simp only
  cases h2 : whileSome n (runMetered N n .moduleItem) s with
  | ok a s1 =>
    rw [h2] at h1
    obtain ⟨x1, k1, g1, g2, g3, g4, l, g5, g6⟩ := h1
    simp only [Bool.and_eq_true, Nat.ble_eq] at g5
    have h3 := fill_inv hv.valid g2
    have h4 := fill_sim s1 x1 g1
    have hm := mu_le hv g2 g3.ext
    simp only [bind_apply, eat, eof_eq, takeIf]
    cases h5 : fill s1 <;> cases h6 : fill x1 <;> rw [h5, h6] at h4 <;> rw [h6] at h3 <;>
      first
        | exact h3
        | exact h4.elim
        | trivial
        | skip
    rename_i s2 _ _
    simp only
    cases isEof (cur s2).line (cur s2).token with
    | none => trivial
    | some b =>
      show (s2.log ++ [cur s2]).length ≤ _
      rw [fill_log h5, List.length_append, g4]
      have : k1 ≤ price * mu t0 s + 64 := by
        by_cases h7 : mu t0 x1 = mu t0 s
        · have := g6.2.1 h7
          omega
        · have := g6.2.2 (by omega)
          unfold price at *
          omega
      simp only [List.length_singleton]
      omega
  | timeout => rw [h2] at h1; exact h1.elim
  | err e => trivial
  | panic p => trivial

/-- **C40.** A budget that is linear in the length of the text suffices for the calls of the methods and
the tokens removed in the run on any text, whether it is accepted, rejected or makes the parser panic. -/
theorem C40_linear_time (checked : Bool) {code : Bytes} (hu : Utf8 code) {N : Nat}
    (hN : 192 * (code.length + 1) ≤ N) :
    (parseMetered N checked code).outcome = parseRoot checked code := by
  have hv := start_intoTokenizer checked hu
  have h1 := parseModule_co hv (inv_initState checked code) rfl (n := fuelFor code) (N := N)
    (by unfold mu fuelFor; simp only [intoTokenizer]; omega)
    (by unfold mu price; simp only [intoTokenizer]; omega)
  have h2 := parseModule_metered N (fuelFor code) (initState checked code) (initState checked code) rfl
  unfold parseMetered parseRoot parseModuleFuel
  cases h3 : parseModule ⟨fuelFor code, runMetered N (fuelFor code)⟩ (initState checked code) <;>
    cases h4 : parseModule (recOf (fuelFor code)) (initState checked code) <;>
    rw [h3, h4] at h2 <;> rw [h3] at h1 <;>
    first
      | exact h1.elim
      | exact h2.elim
      | rfl
      | (cases h2; rfl)

/-- **C40.** The number of calls and removed tokens in the run on an accepted text. -/
theorem C40_work (checked : Bool) {code : Bytes} (hu : Utf8 code)
    (ha : parseRoot checked code = .accepted) {N : Nat} (hN : 192 * (code.length + 1) ≤ N) :
    ∃ s, parseMetered N checked code = .ok () s ∧ s.log.length ≤ 192 * (code.length + 1) := by
  have h := C40_linear_time checked hu hN
  rw [ha] at h
  have h1 := parseModule_co (start_intoTokenizer checked hu) (inv_initState checked code) rfl
    (n := fuelFor code) (N := N)
    (by unfold mu fuelFor; simp only [intoTokenizer]; omega)
    (by unfold mu price; simp only [intoTokenizer]; omega)
  unfold parseMetered at h ⊢
  cases h3 : parseModule ⟨fuelFor code, runMetered N (fuelFor code)⟩ (initState checked code) with
  | ok u s =>
    rw [h3] at h1
    refine ⟨s, rfl, ?_⟩
    simp only [mu, price, intoTokenizer] at h1
    omega
  | err e => rw [h3] at h; cases h
  | panic p => rw [h3] at h; cases h
  | timeout => rw [h3] at h; cases h

-- the meter is live: with a budget of ten units the run on `a;` gives up
example : (parseMetered 10 true b!"a;").outcome = .outOfFuel := by decide +kernel

example : (parseMetered (192 * 9) true b!"f(a, b);").outcome = .accepted := by
  refine (C40_linear_time true (code := b!"f(a, b);") (utf8_ascii (by decide)) (by decide)).trans ?_
  rw [parseRoot_eval]
  decide +kernel

-- a text that is rejected at its end, and one that makes the parser panic
example : (parseMetered (192 * 8) true b!"f(a, b").outcome = .rejected .unexpectedToken := by
  refine (C40_linear_time true (code := b!"f(a, b") (utf8_ascii (by decide)) (by decide)).trans ?_
  rw [parseRoot_eval]
  decide +kernel

example : (parseMetered (192 * 6) true b!"1 / 2").outcome = .panicked .unterminatedRegex := by
  refine (C40_linear_time true (code := b!"1 / 2") (utf8_ascii (by decide)) (by decide)).trans ?_
  rw [parseRoot_eval]
  decide +kernel

end Jsparse
