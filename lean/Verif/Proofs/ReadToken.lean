import Verif.Spec.Stream
import Verif.Props.Tokens
/-! # What `read_token` of the parser does -/

namespace Jsparse

open Spec P

theorem Spec.Calls.trans {t t' t'' : Tokenizer} {a b} (h : Calls t a t') (h' : Calls t' b t'') :
    Calls t (a ++ b) t'' := by
  induction h with
  | nil => exact h'
  | cons t hh tok r t' toks t'' hn _ ih => exact .cons _ hh _ _ _ _ _ hn (ih h')

theorem Spec.Calls.code {t t' : Tokenizer} {a} (h : Calls t a t') :
    t'.code = t.code ∧ t'.checked = t.checked := by
  induction h with
  | nil => exact ⟨rfl, rfl⟩
  | cons t hh tok r t' toks t'' hn _ ih =>
    obtain ⟨bl, s, n, hi⟩ := nextToken_ok hn
    rw [ih.1, ih.2, hi.next]
    exact ⟨rfl, rfl⟩

/-- Where a token starts and ends. -/
theorem step_width {t : Tokenizer} {h : Hint} {tok r t'} (hv : Valid t)
    (hn : t.nextToken h = .ok (tok, r, t')) :
    t.position.offset ≤ r.start.offset ∧ t'.position = r.stop ∧ t'.code = t.code ∧
    r.stop.offset ≤ t.code.length ∧
    (r.start.offset < r.stop.offset ∨
      (r.start.offset = r.stop.offset ∧ (tok = .eof ∨ tok = .ident [] ∨ tok = .str []))) := by
  obtain ⟨bl, s, n, hi⟩ := nextToken_ok hn
  have h1 : r.start.offset = t.position.offset + bl.length := by rw [hi.start]; rfl
  have h2 : r.stop.offset = r.start.offset + n := by rw [hi.stop]
  have hl : Lexed h s tok n := by
    rcases readNext_described t.checked h (utf8_skip (hi.unread ▸ hv.unread_utf8) hi.blanks) hi.noBlank
      hi.noWide with ⟨tok', n', hr', hl⟩ | ⟨p, hr', -⟩
    · rw [hi.read] at hr'; cases hr'; exact hl
    · rw [hi.read] at hr'; cases hr'
  refine ⟨by omega, by rw [hi.next], by rw [hi.next], isBoundary_le hi.bdStop, ?_⟩
  by_cases hz : n = 0
  · refine .inr ⟨by omega, ?_⟩
    cases hl with
    | eof => exact .inl rfl
    | strOpen => exact .inr (.inr rfl)
    | ident v rest =>
      have : v = [] := List.length_eq_zero_iff.1 hz
      subst this
      exact .inr (.inl rfl)
    | punct p _ hp => exfalso; cases p <;> simp [spelling] at hz
    | num v _ n h1 => omega
    | _ => omega
  · exact .inl (by omega)

/-- What is known after `read_token` returned a token. -/
structure ReadInfo (t : Tokenizer) (h : Hint) (look : Look) (t' : Tokenizer) : Prop where
  calls : ∃ toks t1, Calls t toks t1 ∧ t1.nextToken h = .ok (look.token, look.range, t') ∧
    ∀ rest, deliver false (toks ++ (look.token, look.range) :: rest) = look :: deliver false rest
  read : readToken t h = .ok look t'

theorem ReadInfo.all {t : Tokenizer} {h : Hint} {look : Look} {t' : Tokenizer} (hi : ReadInfo t h look t') :
    ∃ toks, Calls t toks t' ∧ ∀ rest, deliver false (toks ++ rest) = look :: deliver false rest := by
  obtain ⟨toks, t1, h1, h2, h3⟩ := hi.calls
  refine ⟨toks ++ [(look.token, look.range)], h1.trans (.cons _ h _ _ _ _ _ h2 (.nil _)), ?_⟩
  intro rest
  rw [List.append_assoc]
  exact h3 rest

theorem calls_offset {t t' : Tokenizer} {toks} (hc : Calls t toks t') (hv : Valid t) :
    t.position.offset ≤ t'.position.offset := by
  induction hc with
  | nil => exact Nat.le_refl _
  | cons t h tok r t' toks t'' hn _ ih =>
    obtain ⟨h1, h2, -, -, h4⟩ := step_width hv hn
    have := ih (valid_nextToken hv hn)
    rw [h2] at this
    omega

theorem ReadInfo.width {t : Tokenizer} {h : Hint} {look : Look} {t' : Tokenizer}
    (hi : ReadInfo t h look t') (hv : Valid t) :
    t.position.offset ≤ look.range.start.offset ∧ t'.position = look.range.stop ∧ t'.code = t.code ∧
    look.range.stop.offset ≤ t.code.length ∧
    (look.range.start.offset < look.range.stop.offset ∨
      (look.range.start.offset = look.range.stop.offset ∧
        (look.token = .eof ∨ look.token = .ident [] ∨ look.token = .str []))) := by
  obtain ⟨toks, t1, h1, h2, -⟩ := hi.calls
  obtain ⟨a, b, c, d, e⟩ := step_width (valid_calls hv h1) h2
  have := calls_offset h1 hv
  refine ⟨by omega, b, by rw [c, h1.code.1], by rw [← h1.code.1]; exact d, e⟩

theorem ReadInfo.valid {t : Tokenizer} {h : Hint} {look : Look} {t' : Tokenizer}
    (hi : ReadInfo t h look t') (hv : Valid t) : Valid t' := by
  obtain ⟨toks, t1, h1, h2, -⟩ := hi.calls
  exact valid_nextToken (valid_calls hv h1) h2

/-- `read_token` reads tokens until a significant one, and does not loop. -/
theorem readTokenLoop_spec (h : Hint) : ∀ (n : Nat) (t : Tokenizer) (line : Bool), Valid t →
    (unread t).length < n →
    match readTokenLoop n t h line with
    | .ok look t' => ∃ toks t1, Calls t toks t1 ∧ t1.nextToken h = .ok (look.token, look.range, t') ∧
        ∀ rest, deliver line (toks ++ (look.token, look.range) :: rest) = look :: deliver false rest
    | .panic p => ∃ toks t1, Calls t toks t1 ∧ PanicsWith t1 h p
    | .timeout => False := by
  intro n
  induction n with
  | zero => intro t line _ hlt; omega
  | succ n ih =>
    intro t line hv hlt
    unfold readTokenLoop
    cases hn : t.nextToken h with
    | error p => exact ⟨[], t, .nil t, hn⟩
    | ok x =>
      obtain ⟨tok, r, t'⟩ := x
      have hv' := valid_nextToken hv hn
      obtain ⟨h1, h2, h3, h4, h5⟩ := step_width hv hn
      have key : ∀ line', (tok ≠ .eof ∧ tok ≠ .ident [] ∧ tok ≠ .str []) →
          (∀ rest, deliver line ((tok, r) :: rest) = deliver line' rest) →
          match readTokenLoop n t' h line' with
          | .ok look t' => ∃ toks t1, Calls t toks t1 ∧
              t1.nextToken h = .ok (look.token, look.range, t') ∧
              ∀ rest, deliver line (toks ++ (look.token, look.range) :: rest) =
                look :: deliver false rest
          | .panic p => ∃ toks t1, Calls t toks t1 ∧ PanicsWith t1 h p
          | .timeout => False := by
        intro line' hne hd
        have hlt' : (unread t').length < n := by
          simp only [unread, List.length_drop] at hlt ⊢
          rw [h3, h2]
          rcases h5 with h5 | ⟨-, h5⟩
          · omega
          · rcases h5 with h5 | h5 | h5
            · exact absurd h5 hne.1
            · exact absurd h5 hne.2.1
            · exact absurd h5 hne.2.2
        have := ih t' line' hv' hlt'
        revert this
        cases readTokenLoop n t' h line' with
        | ok look t'' =>
          rintro ⟨toks, t1, hc, hx, hr⟩
          refine ⟨(tok, r) :: toks, t1, .cons _ h _ _ _ _ _ hn hc, hx, fun rest => ?_⟩
          rw [List.cons_append, hd, hr]
        | panic p =>
          rintro ⟨toks, t1, hc, hx⟩
          exact ⟨(tok, r) :: toks, t1, .cons _ h _ _ _ _ _ hn hc, hx⟩
        | timeout => exact id
      cases tok with
      | whitespace => exact key line ⟨nofun, nofun, nofun⟩ fun _ => rfl
      | lineTerminator => exact key true ⟨nofun, nofun, nofun⟩ fun _ => rfl
      | comment f v =>
        refine key _ ⟨nofun, nofun, nofun⟩ fun rest => ?_
        simp only [deliver]
        congr 1
        by_cases hl : r.start.line ≠ r.stop.line
        · simp [hl]
        · simp [hl]
      | _ => exact ⟨[], t, .nil t, hn, fun rest => rfl⟩

theorem readToken_spec {t : Tokenizer} (hv : Valid t) (h : Hint) :
    match readToken t h with
    | .ok look t' => ReadInfo t h look t'
    | .panic p => ∃ toks t1, Calls t toks t1 ∧ PanicsWith t1 h p
    | .timeout => False := by
  have := readTokenLoop_spec h (t.code.length + 1) t false hv (by
    simp only [unread, List.length_drop]; omega)
  have heq : readToken t h = readTokenLoop (t.code.length + 1) t h false := rfl
  rw [← heq] at this
  revert this
  cases hr : readToken t h with
  | ok look t' => exact fun h => ⟨h, hr⟩
  | panic p => exact id
  | timeout => exact id

/-- `read_token` never loops. -/
theorem readTokenLoop_ne_timeout {t : Tokenizer} (hv : Valid t) (h : Hint) :
    readToken t h ≠ .timeout := by
  have := readToken_spec hv h
  intro h'
  rw [h'] at this
  exact this

end Jsparse
