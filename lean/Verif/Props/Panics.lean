import Verif.Props.Positions
/-!
# C22: where the tokenizer panics
-/

namespace Jsparse

open Spec

theorem calls_checked {t t' : Tokenizer} {toks} (hc : Calls t toks t') : t'.checked = t.checked := by
  induction hc with
  | nil => rfl
  | cons t h tok r t' toks t'' hn _ ih =>
    obtain ⟨bl, s, n, hi⟩ := nextToken_ok hn
    rw [ih, hi.next]

/-- **C22.** Whatever was read before and with whatever hints, `next_token` panics only if the text
behind the blanks that follow is malformed. -/
theorem C22_panics_only_if_malformed {checked : Bool} {code : Bytes} (hu : Utf8 code)
    {toks : List (Token × TokenRange)} {t : Tokenizer}
    (hc : Calls (intoTokenizer checked code) toks t) {h : Hint} {p : Panic} (hp : PanicsWith t h p) :
    ∃ bl s, unread t = bl ++ s ∧ Blanks bl ∧ NoBlankHead s ∧ Malformed checked h s p := by
  have hv := valid_calls (valid_intoTokenizer checked hu) hc
  obtain ⟨bl, s, ha⟩ := ahead t
  have hm := ha.inv_panic hv hp
  have hk : t.checked = checked := calls_checked hc
  rw [hk] at hm
  exact ⟨bl, s, ha.unread, ha.blanks, ha.noBlank, hm⟩

/-- **C22.** The internal failure points are never reached, overflow panics only occur in builds with
overflow checks, and a slice is out of range only where a character outside of ASCII is the culprit. -/
theorem C22_no_internal_panic {checked : Bool} {code : Bytes} (hu : Utf8 code)
    {toks : List (Token × TokenRange)} {t : Tokenizer}
    (hc : Calls (intoTokenizer checked code) toks t) {h : Hint} {p : Panic} (hp : PanicsWith t h p) :
    p ≠ .unreachable ∧ p ≠ .flagStackEmpty ∧ p ≠ .bufferEmpty ∧ p ≠ .unwrapErr ∧ (p = .overflow → checked = true) ∧
    (p = .strSlice → ∃ b ∈ unread t, 0x80 ≤ b) := by
  obtain ⟨bl, s, h1, -, -, h2⟩ := C22_panics_only_if_malformed hu hc hp
  rw [h1]
  cases h2 with
  | wide s hw =>
    refine ⟨nofun, nofun, nofun, nofun, nofun, fun _ => ?_⟩
    rcases hw with ⟨r, rfl⟩ | ⟨r, rfl⟩
    · exact ⟨0xC2, by simp [noBreakSpace], by decide⟩
    · exact ⟨0xEF, by simp [byteOrderMark], by decide⟩
  | number s p hb =>
    cases hb with
    | exponent d e rest hk => exact ⟨nofun, nofun, nofun, nofun, fun _ => hk, nofun⟩
    | below x d r hk => exact ⟨nofun, nofun, nofun, nofun, fun _ => hk, nofun⟩
    | octal => exact ⟨nofun, nofun, nofun, nofun, nofun, nofun⟩
    | binary => exact ⟨nofun, nofun, nofun, nofun, nofun, nofun⟩
    | wide x d r h1 h2 => exact ⟨nofun, nofun, nofun, nofun, nofun, fun _ => ⟨d, by simp, h2⟩⟩
  | template => exact ⟨nofun, nofun, nofun, nofun, nofun, nofun⟩
  | templateTail => exact ⟨nofun, nofun, nofun, nofun, nofun, nofun⟩
  | comment => exact ⟨nofun, nofun, nofun, nofun, nofun, nofun⟩
  | regex => exact ⟨nofun, nofun, nofun, nofun, nofun, nofun⟩
  | str q v e p hq hl hs =>
    cases hs <;> exact ⟨nofun, nofun, nofun, nofun, nofun, nofun⟩

/-- A panic in the middle of a text: the name is read, then `0o78` panics. -/
example : ∃ r t, Calls (intoTokenizer false b!"a 0o78") [(.ident b!"a", r)] t ∧
    PanicsWith t {} .invalidNumber := by
  refine ⟨_, _, .cons _ {} _ _ _ _ _ rfl (.nil _), ?_⟩
  unfold PanicsWith
  decide +kernel

end Jsparse
