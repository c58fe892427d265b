import Verif.Proofs.SlashName
import Verif.Props.Gaps
/-!
# C38: a slash behind a name

A slash is read as an operator or as the start of a regular expression, depending on a hint that the
parser sets before it reads the token.  Behind a name at the start of a statement the hint must be off:
`a / b` divides.  The parser reads the token behind the name when it looks for the colon of a label, and
that read is made without the hint.

The same is not true of the other operands a statement can start with: the parser sets the hint again
while the operand is already in its buffer, and then reads the slash behind it with the hint on.
-/

namespace Jsparse

open P Spec

/-- **C38** (any statement, wherever the parser meets it).  A method for a statement runs successfully
from a state `s` with at most one token buffered; `s1` is the state once its first token is there, a name
that may be used as a variable, other than `let`; behind it the text goes on with a gap and a slash that
opens no comment.  Then the next token that is read, of all tokens up to the end of the run, is that slash
as an operator. -/
theorem C38_name_slash {f : Fn} (hf : f ∈ starts) {n : Nat} {s s1 s' : PState} {a : Option Unit}
    (h : run n f s = .ok a s') (hc : s.count ≤ 1) (h1 : fill (expecting s) = .ok () s1) {name : Bytes}
    (ht : (cur s1).token = .ident name) (hb : isBindingIdentifier s.flags name = true)
    (hl : name ≠ b!"let") (hv : Valid s1.tok) {g r : Bytes} {fl : Bool}
    (hu : unread s1.tok = g ++ c!"/" :: r) (hg : Gap g fl) (hr : ¬ b!"/" <+: r ∧ ¬ b!"*" <+: r) :
    ∃ look, reads s1 ++ [look] <+: reads s' ∧ look.line = fl ∧
      (look.token = .punct .slash ∨ look.token = .punct .slashEq) :=
  secondRead_slash (any_start hf hc h1 ht hb hl h) hv hu hg hr

/-- **C38** (programs).  An accepted program whose first token is a name that may be used as a variable,
followed by a gap and a slash that opens no comment: its second token is that slash as an operator. -/
theorem C38_program {checked : Bool} {code : Bytes} (hu : Utf8 code) {first : Look}
    {log : List Look} (h : AcceptedAs checked code (first :: log)) {name : Bytes}
    (ht : first.token = .ident name) (hb : isBindingIdentifier {} name = true) (hl : name ≠ b!"let")
    {g r : Bytes} {fl : Bool} (hx : code.drop first.range.stop.offset = g ++ c!"/" :: r)
    (hg : Gap g fl) (hr : ¬ b!"/" <+: r ∧ ¬ b!"*" <+: r) :
    ∃ second rest, log = second :: rest ∧ second.line = fl ∧
      (second.token = .punct .slash ∨ second.token = .punct .slashEq) := by
  obtain ⟨s', h, hlog⟩ := h
  have hv := valid_intoTokenizer checked hu
  have hd := parseModule_done hv (inv_initState checked code) h
  obtain ⟨a, s2, h2, h3⟩ := module_first (Nat.zero_le _) h
  obtain ⟨s1, h1, h8⟩ := moduleItem_fill (by simp [initState]) h2
  have hr' : reads s' = first :: log := by
    unfold reads; rw [buf_zero hd, List.append_nil, hlog]
  rw [hr'] at h3
  have hread : ∃ look t, readToken (intoTokenizer checked code) { expression := true } = .ok look t ∧
      s1.tok = t ∧ cur s1 = look ∧ reads s1 = [look] := by
    unfold fill at h1
    rw [if_pos (by rfl)] at h1
    cases hrt : readToken (expecting (initState checked code)).tok
        (expecting (initState checked code)).hint with
    | ok look t =>
      rw [hrt] at h1
      injection h1 with _ h1
      subst h1
      exact ⟨look, t, hrt, rfl, rfl, rfl⟩
    | _ => rw [hrt] at h1; cases h1
  obtain ⟨look, t, h4, rfl, rfl, h6⟩ := hread
  obtain ⟨w, -, h7⟩ := scan_of_readToken hv h4
  have hfirst : cur s1 = first := by
    have := h8.trans h3
    rw [h6] at this
    obtain ⟨q, hq⟩ := this
    exact (List.cons.inj hq).1
  rw [hfirst] at h6 h7
  obtain ⟨look, h9, h10⟩ := C38_name_slash (f := .moduleItem) (by simp [starts]) h2 (by simp [initState]) h1
    (hfirst ▸ ht) hb hl h7.valid (g := g) (r := r) (fl := fl)
    (by unfold unread; rw [h7.code, h7.position]; exact hx) hg hr
  obtain ⟨q, hq⟩ := h9.trans h3
  rw [h6] at hq
  simp only [List.cons_append, List.nil_append, List.cons.injEq, true_and] at hq
  exact ⟨look, q, hq.symm, h10⟩

/-- **C38 is false of other operands**: a number, `this`, an index expression or an update at the start of
a statement, followed by a division, makes the parser panic in the regular expression scanner. -/
theorem C38_other_operands_false :
    parseRoot true b!"1 / 2" = .panicked .unterminatedRegex ∧
    parseRoot true b!"this / 2" = .panicked .unterminatedRegex ∧
    parseRoot true b!"a[0] / 2" = .panicked .unterminatedRegex ∧
    parseRoot true b!"a++ / 2" = .panicked .unterminatedRegex ∧
    parseRoot true b!"x = a[0] / 2" = .panicked .unterminatedRegex := by
  simp only [parseRoot_eval]; decide +kernel

/-- Behind a name, a call or a parenthesis the same division is accepted. -/
example : parseRoot true b!"a / 2" = .accepted ∧ parseRoot true b!"f(x) / 2" = .accepted ∧
    parseRoot true b!"(1) / 2" = .accepted ∧ parseRoot true b!"x = 1 / 2" = .accepted := by
  simp only [parseRoot_eval]; decide +kernel

/-- `a /*+*/ / b / c`: the first slash behind `a` opens a comment, the second one divides. -/
example : ∃ first second rest, AcceptedAs true b!"a /*+*// b / c" (first :: second :: rest) ∧
    second.token = .punct .slash := by
  have h : AcceptedAs true b!"a /*+*// b / c" (tokensOf b!"a /*+*// b / c") :=
    acceptedAs_tokensOf (by rw [parseRoot_eval]; decide +kernel)
  have hd : tokensOf b!"a /*+*// b / c" = { token := .ident b!"a", range := ⟨{}, ⟨1, 0, 1⟩⟩ } ::
      (tokensOf b!"a /*+*// b / c").tail := by decide +kernel
  rw [hd] at h
  obtain ⟨second, rest, h1, -, h2⟩ := C38_program (utf8_ascii (by decide)) h (name := b!"a") rfl
    (by decide) (by decide) (g := b!" /*+*/") (r := b!" b / c") rfl gap_comment (by decide)
  rw [h1] at h
  exact ⟨_, second, rest, h, by
    have : (tokensOf b!"a /*+*// b / c").tail.head?.map (·.token) = some (.punct .slash) := by
      decide +kernel
    rw [h1] at this
    simpa using this⟩

end Jsparse
