import Verif.Props.Grammar
import Verif.Proofs.Balance
import Verif.Proofs.Declarations
import Verif.Proofs.SwitchFits
/-!
# C29, C30, C31, C33, C34, C35: what holds of the tokens of every accepted program

The tokens of a text are those of the run of the tokenizer that ends at the end of the text;
`deliver` leaves out comments and line terminators and adds the flag "a line terminator precedes it".
-/

namespace Jsparse

open Spec P

/-! ## C31 -/

/-- **C31.** The brackets of an accepted text are properly nested. -/
theorem C31_balanced {checked : Bool} {code : Bytes} (hu : Utf8 code)
    (h : parseRoot checked code = .accepted) :
    ∃ toks t, Calls (intoTokenizer checked code) toks t ∧ t.position.offset = code.length ∧
      Balanced (toks.map (·.1)) := by
  obtain ⟨toks, t, h1, h2, h3⟩ := C32_accepted_derivable hu h
  refine ⟨toks, t, h1, h2, ?_⟩
  have := program_balanced h3
  rw [List.map_map] at this
  unfold Balanced at this ⊢
  rw [← nest_deliver (line := false)]
  exact this

/-- All kinds of brackets inside each other. -/
example : parseRoot true b!"f([{a: `x${ {b: `y${g()}z`} }w${1}`}])" = .accepted := by
  rw [parseRoot_eval]; decide +kernel

/-- Not balanced: `( [ ) ]`. -/
example : ¬ Balanced [.punct .parenOpen, .punct .squareOpen, .punct .parenClose,
    .punct .squareClose] := by
  unfold Balanced; decide

/-- Not balanced: the brace of an object is not that of a template. -/
example : ¬ Balanced [.punct .curlyOpen, .template .tail b!"" b!""] := by
  unfold Balanced; decide

/-! ## C35 -/

/-- **C35.** Inside brackets of any kind, and as the body of `if`, `else`, `do`, `for`, `with`,
an arrow function or a label, the words `import` and `export` occur in accepted programs only as names: of properties, of
imported or exported things, and of labels. -/
theorem C35_module_items_outside {checked : Bool} {code : Bytes} (hu : Utf8 code)
    (h : parseRoot checked code = .accepted) :
    ∃ toks t, Calls (intoTokenizer checked code) toks t ∧ t.position.offset = code.length ∧
      ModuleItemsOutside ((deliver false toks).map Look.seen) := by
  obtain ⟨toks, t, h1, h2, h3⟩ := C32_accepted_derivable hu h
  exact ⟨toks, t, h1, h2, program_module_items h3⟩

/-- Accepted: the words as names inside brackets. -/
example : parseRoot true b!"export {import as export}; { import: x = {export: 1, import() {}} }" =
    .accepted := by
  rw [parseRoot_eval]; decide +kernel

/-- Rejected: a declaration inside a block, and inside a function. -/
example : parseRoot true b!"{ import a from 'b' }" = .rejected .unexpectedToken ∧
    parseRoot true b!"function f() { export default 1 }" = .rejected .unexpectedToken := by
  rw [parseRoot_eval, parseRoot_eval]; decide +kernel

/-- The statement says something: `{ import a` does not satisfy it. -/
example : ¬ ModuleItemsOutside [(false, .punct .curlyOpen), (false, .ident b!"import"),
    (false, .ident b!"a")] := by
  intro h
  have := h.nested [(false, .punct .curlyOpen)] (false, .ident b!"import") (false, .ident b!"a") []
    rfl (by unfold AfterDot; decide) (by decide) (by decide)
  revert this
  decide

/-! ## C30 -/

/-- The table of `is_binding_identifier`. -/
theorem isBindingIdentifier_iff {F : Flags} {v : Bytes} : isBindingIdentifier F v = true ↔
    v ∉ reservedWords ∧ v ≠ b!"yield" ∧ (v = b!"await" → F.allowAwait = true) ∧
      (F.isStrict = true → v ∉ strictWords) := by
  constructor
  · exact bindingName_of
  · rintro ⟨h1, h2, h3, h4⟩
    have hk : ∀ w ∈ keywords, w ∈ reservedWords ∨ w = b!"yield" := by decide +kernel
    have he : ∀ w ∈ [b!"enum", b!"null", b!"true", b!"false"], w ∈ reservedWords := by decide +kernel
    have hs : ∀ w ∈ [b!"let", b!"static", b!"implements", b!"package", b!"protected", b!"interface",
      b!"private", b!"public"], w ∈ strictWords := by decide +kernel
    unfold isBindingIdentifier
    rw [if_neg (fun h => h2 h.1), if_neg, if_neg, if_neg, if_neg, if_neg, if_neg]
    · rintro (rfl | rfl | rfl) <;> exact h1 (he _ (by simp))
    · rintro ⟨h | h | h | h | h | h, hst⟩ <;> subst h <;> exact h4 hst (hs _ (by simp))
    · rintro rfl
      exact h1 (he _ (by simp))
    · rintro ⟨h | h, hst⟩ <;> subst h <;> exact h4 hst (hs _ (by simp))
    · intro h
      rcases hk _ h with h | h
      · exact h1 h
      · exact h2 h
    · rintro ⟨h, ha⟩
      rw [h3 h] at ha
      cases ha

/-- **C30, for single names.** In every state, `binding_identifier` consumes the next token exactly if
it is a name that is not a ReservedWord, not `yield`, not `await` unless inside an async function, and
in strict mode not one of the words reserved there. -/
theorem C30_binding_identifier {s s' : PState} {a : Option Bytes}
    (h : bindingIdentifier s = .ok a s') :
    ∃ s1, fill s = .ok () s1 ∧
      (∀ v, a = some v ↔ (cur s1).token = .ident v ∧ v ∉ reservedWords ∧ v ≠ b!"yield" ∧
        (v = b!"await" → s.flags.allowAwait = true) ∧ (s.flags.isStrict = true → v ∉ strictWords)) ∧
      s'.log = s1.log ++ (if a.isSome then [cur s1] else []) := by
  rw [bindingIdentifier_eq] at h
  change takeIf (isBinding s.flags) s = .ok a s' at h
  unfold takeIf at h
  split at h <;> try cases h
  rename_i s1 hf
  refine ⟨s1, hf, ?_⟩
  simp only [← isBindingIdentifier_iff]
  split at h <;> cases h <;> rename_i hb <;> unfold isBinding at hb <;> split at hb
  · rename_i v hv
    split at hb
    · cases hb
      refine ⟨fun w => ?_, rfl⟩
      rw [hv]
      constructor
      · intro h; cases h; exact ⟨rfl, ‹_›⟩
      · rintro ⟨h, -⟩; cases h; rfl
    · cases hb
  · cases hb
  · rename_i v hv
    split at hb
    · cases hb
    · refine ⟨fun w => ?_, by simp⟩
      rw [hv]
      constructor
      · intro h; cases h
      · rintro ⟨h, hw⟩; cases h; contradiction
  · rename_i hn
    refine ⟨fun w => ?_, by simp⟩
    constructor
    · intro h; cases h
    · rintro ⟨h, -⟩
      exact absurd h (hn w)

/-- Outside async functions `await` is refused, inside it is taken (JavaScript has it the other way
round): at the start of a text, in both contexts. -/
example : isBindingIdentifier {} b!"await" = false ∧
    isBindingIdentifier { allowAwait := true } b!"await" = true := by decide +kernel

/-- **C30, the part that holds.** In accepted programs a reserved word is not the name of a variable
(`var`, `const`), a default import, a function, a caught value, a parameter of a function that is not
inside a pattern, or the target of `break` and `continue`.  What is missing from the property is false:
see `C30_reserved_names_accepted`; for `let` and `class` see `C29_operands_separated_partial`. -/
theorem C30_names_partial {checked : Bool} {code : Bytes} (hu : Utf8 code)
    (h : parseRoot checked code = .accepted) :
    ∃ toks t, Calls (intoTokenizer checked code) toks t ∧ t.position.offset = code.length ∧
      NamesFit ((deliver false toks).map Look.seen) := by
  obtain ⟨toks, t, h1, h2, h3⟩ := C32_accepted_derivable hu h
  exact ⟨toks, t, h1, h2, program_names h3⟩

/-- **C30 is false of the code:** names in shorthand properties of patterns, imported names, the
parameter of an arrow function without parentheses, references in shorthand properties, and labels. -/
theorem C30_reserved_names_accepted :
    parseRoot true b!"var {if} = x" = .accepted ∧ parseRoot true b!"import {if} from 'a'" = .accepted ∧
    parseRoot true b!"this => 1" = .accepted ∧ parseRoot true b!"({if})" = .accepted ∧
    parseRoot true b!"else: x" = .accepted := by
  simp only [parseRoot_eval]; decide +kernel

/-- Accepted, with names in all the places. -/
example : parseRoot true
    b!"import a from 'm'; var b; const c = 1; function* f(d, {if: e}, ...g) { for (;;) break f\n if (b) try {} catch (h) {} }" =
    .accepted := by
  rw [parseRoot_eval]; decide +kernel

/-- Rejected: a reserved word in each of them. -/
example :
    parseRoot true b!"import if from 'm'" ≠ .accepted ∧ parseRoot true b!"var if" ≠ .accepted ∧
    parseRoot true b!"function if() {}" ≠ .accepted ∧
    parseRoot true b!"function f(a, ...if) {}" ≠ .accepted ∧
    parseRoot true b!"for (;;) break if" ≠ .accepted ∧
    parseRoot true b!"try {} catch (if) {}" ≠ .accepted := by
  simp only [parseRoot_eval]; decide +kernel

/-- The statement says something: `function f(a, if` does not satisfy it. -/
example : ¬ NamesFit [(false, .ident b!"function"), (false, .ident b!"f"), (false, .punct .parenOpen),
    (false, .ident b!"a"), (false, .punct .comma), (false, .ident b!"if")] := by
  intro h
  refine h.parameter [] (false, .ident b!"function") [] [(false, .ident b!"f")]
    (false, .punct .parenOpen) [(false, .ident b!"a")] (false, .punct .comma) []
    (false, .ident b!"if") [] rfl (by unfold AfterDot; decide) rfl (by decide) (.inr ⟨_, _, rfl, rfl⟩)
    rfl (by unfold Balanced; decide) (by decide) rfl (by decide) ⟨_, rfl, .inl (by decide)⟩

/-! ## C33 -/

/-- **C33.** In accepted programs a name after `const` and a pattern after `const` or `var` has an
initializer or belongs to the head of a `for` loop; so have the further declarators of a declaration
that is written on one line and without `yield`.  What is missing from the property: patterns after
`let` (a word that is also a name, so that `let [a]` is an expression too), and further declarators
across line ends. -/
theorem C33_initialized_partial {checked : Bool} {code : Bytes} (hu : Utf8 code)
    (h : parseRoot checked code = .accepted) :
    ∃ toks t, Calls (intoTokenizer checked code) toks t ∧ t.position.offset = code.length ∧
      InitsFit ((deliver false toks).map Look.seen) := by
  obtain ⟨toks, t, h1, h2, h3⟩ := C32_accepted_derivable hu h
  exact ⟨toks, t, h1, h2, program_inits h3⟩

/-- Accepted, with all kinds of declarations. -/
example : parseRoot true
    b!"const a = (1, 2), [b] = a, c = {d}; var e, {f} = a; for (const g of a) for (var [h] in a) ;" =
    .accepted := by
  rw [parseRoot_eval]; decide +kernel

/-- Rejected: missing initializers. -/
example :
    parseRoot true b!"const a" ≠ .accepted ∧ parseRoot true b!"const a = 1, b" ≠ .accepted ∧
    parseRoot true b!"var [a]" ≠ .accepted ∧ parseRoot true b!"var a, {b}" ≠ .accepted ∧
    parseRoot true b!"const {a}" ≠ .accepted := by
  simp only [parseRoot_eval]; decide +kernel

/-- The statement says something: `const a = 1, b;` does not satisfy it. -/
example : ¬ InitsFit [(false, .ident b!"const"), (false, .ident b!"a"), (false, .punct .eq),
    (false, .num (.lit 1)), (false, .punct .comma), (false, .ident b!"b"),
    (false, .punct .semicolon)] := by
  intro h
  have := h.nextConst [] (false, .ident b!"const") (false, .ident b!"a") b!"a"
    [(false, .punct .eq), (false, .num (.lit 1))] (false, .punct .comma)
    (false, .ident b!"b") b!"b" (false, .punct .semicolon) [] rfl (by unfold AfterDot; decide) rfl rfl
    (by decide) ⟨by unfold Balanced; decide, by decide⟩ rfl rfl
  revert this
  decide

/-- **C33.** Whenever a method for declarations succeeds — in any state with at most two tokens in the
buffer (which is all that ever occurs, C25), reachable or not, and whatever bound `n` is used — the tokens
`w` it has consumed are a declaration in which every constant and every pattern has an initializer; in
the head of a `for`, which may contain a name or pattern before `in` or `of` instead, likewise. -/
theorem C33_declarations (n : Nat) {s s' : PState} (hs : s.count ≤ 2) :
    (run n .constDeclaration s = .ok (some ()) s' →
      ∃ w, s'.log.map Look.seen = s.log.map Look.seen ++ w ∧ Declared b!"const" true w) ∧
    (run n .letDeclaration s = .ok (some ()) s' →
      ∃ w, s'.log.map Look.seen = s.log.map Look.seen ++ w ∧ Declared b!"let" false w) ∧
    (run n .variableStatement s = .ok (some ()) s' →
      ∃ w, s'.log.map Look.seen = s.log.map Look.seen ++ w ∧ Declared b!"var" false w) ∧
    (run n .forStatement s = .ok (some ()) s' →
      ∃ w, s'.log.map Look.seen = s.log.map Look.seen ++ w ∧ ForFits w) := by
  refine ⟨fun h => ?_, fun h => ?_, fun h => ?_, fun h => ?_⟩ <;> obtain ⟨w, hw, hd⟩ := run_der hs h
  · exact ⟨w, hw, der_const hd⟩
  · exact ⟨w, hw, der_let hd⟩
  · exact ⟨w, hw, der_var hd⟩
  · exact ⟨w, hw, der_for hd⟩

/-- The methods succeed, with patterns and several lines. -/
example :
    (match run 100 .letDeclaration (initState true b!"let [a] = b\n, c, {d} =\n (1, 2)\n e") with
    | .ok (some ()) s' => s'.log.length == 18
    | _ => false) = true ∧
    (match run 100 .forStatement (initState true b!"for (let [a] of b) ;") with
    | .ok (some ()) s' => s'.log.length == 10
    | _ => false) = true := by
  rw [← runF_eq]; decide +kernel

/-- The statement says something: `let [a]` is not a declaration, nor is `const a`. -/
example : ¬ Declared b!"let" false [(false, .ident b!"let"), (false, .punct .squareOpen),
    (false, .ident b!"a"), (false, .punct .squareClose)] ∧
    ¬ Declared b!"const" true [(false, .ident b!"const"), (false, .ident b!"a")] := by
  refine ⟨?_, ?_⟩ <;> rintro ⟨b, ds, e, h, hd, he⟩ <;> injection h with _ h
  · obtain ⟨-, hp⟩ := hd.plain (fun t ht => by
      have := h ▸ List.mem_append_left e ht
      simp only [List.mem_cons, List.not_mem_nil, or_false] at this
      rcases this with rfl | rfl | rfl <;> decide)
    cases ds with
    | nil => rcases he with rfl | ⟨b, rfl⟩ <;> simp at h
    | cons t ds =>
      simp only [List.cons_append, List.cons.injEq] at h
      have := hp t (by simp)
      rw [← h.1] at this
      rcases this with h | ⟨v, h⟩ <;> cases h
  · obtain ⟨h, -⟩ := hd.plain (fun t ht => by
      have := h ▸ List.mem_append_left e ht
      simp only [List.mem_cons, List.not_mem_nil, or_false] at this
      rw [this]; decide)
    cases h

/-! ## C29 -/

/-- **C29.** In every state, `semicolon` (and `semicolon_dowhile`, `w = true`) looks at the next token.
It succeeds if that is a semicolon, which it consumes, and also if the token is `}`, the end, on a new
line or (after `do … while`) any token, in which case nothing is consumed; otherwise it fails and
consumes nothing. -/
theorem C29_semicolon (w : Bool) {s s' : PState} {a : Option Unit}
    (h : semicolonInner w s = .ok a s') :
    ∃ s1, fill s = .ok () s1 ∧ s1.log = s.log ∧
      (a.isSome ↔ (cur s1).token ∈ [.punct .semicolon, .punct .curlyClose, .eof] ∨
        (cur s1).line = true ∨ w = true) ∧
      s'.log = s.log ++ (if (cur s1).token = .punct .semicolon then [cur s1] else []) := by
  unfold semicolonInner at h
  rw [bind_apply] at h
  rw [tokenAndLine_apply] at h
  cases hf : fill s with
  | ok u s1 =>
    rw [hf] at h
    have hlog : s1.log = s.log := by
      unfold fill at hf
      split at hf
      · split at hf <;> cases hf
        rfl
      · cases hf
        rfl
    refine ⟨s1, rfl, hlog, ?_⟩
    simp only at h
    have hs : (cur s1).seen = ((cur s1).line, (cur s1).token) := rfl
    rw [hs] at h
    simp only at h
    generalize ht : (cur s1).token = t at h
    generalize hl : (cur s1).line = l at h
    have key : ∀ b, semicolonExists w l t = some b → (b = true ↔ t = .punct .semicolon) := by
      intro b hb
      unfold semicolonExists at hb
      split at hb
      · cases hb; simp
      · cases hb; simp
      · cases hb; simp
      · rename_i h1 _ _
        split at hb <;> cases hb
        simp only [Bool.false_eq_true, false_iff]
        exact h1
    cases he : semicolonExists w l t with
    | none =>
      rw [he] at h
      cases h
      unfold semicolonExists at he
      split at he <;> try cases he
      rename_i h1 h2 h3
      split at he
      · cases he
      · rename_i hwl
        simp only [Bool.or_eq_true, not_or, Bool.not_eq_true] at hwl
        have h1 : t ≠ .punct .semicolon := h1
        have h2 : t ≠ .punct .curlyClose := h2
        have h3 : t ≠ .eof := h3
        simp [h1, h2, h3, hwl, hlog]
    | some b =>
      have hk := key b he
      rw [he] at h
      cases b with
      | true =>
        have ht' := hk.1 rfl
        simp only [bind_apply] at h
        unfold pop at h
        by_cases hc : s1.count = 0
        · rw [if_pos hc] at h
          cases h
        · rw [if_neg hc] at h
          cases h
          simp [ht', hlog]
      | false =>
        have ht' : t ≠ .punct .semicolon := fun h => by cases hk.2 h
        cases h
        refine ⟨?_, by simp [ht', hlog]⟩
        simp only [Option.isSome_some, true_iff]
        unfold semicolonExists at he
        split at he
        · cases he
        · simp
        · simp
        · split at he
          · rename_i hwl
            simp only [Bool.or_eq_true] at hwl
            rcases hwl with h | h
            · exact .inr (.inr h)
            · exact .inr (.inl h)
          · cases he
  | err e => rw [hf] at h; cases h
  | panic p => rw [hf] at h; cases h
  | timeout => rw [hf] at h; cases h

/-- **C29, for programs.** In an accepted program that does not contain the word `throw`, two operands
on the same line have something between them: a number, string, regular expression, template, `]`,
name, value word or name of a property is not followed on its line by another literal or word, except
the words that may follow an expression.  What is missing from the property: statements that end in `)`
or `}`, or in a name that is a word of the language in other places, and programs with `throw`,
for which it is false (`C29_throw`). -/
theorem C29_operands_separated_partial {checked : Bool} {code : Bytes} (hu : Utf8 code)
    (h : parseRoot checked code = .accepted) :
    ∃ toks t, Calls (intoTokenizer checked code) toks t ∧ t.position.offset = code.length ∧
      ((∀ x ∈ toks, x.1 ≠ .ident b!"throw") →
        OperandsSeparated ((deliver false toks).map Look.seen)) := by
  obtain ⟨toks, t, h1, h2, h3⟩ := C32_accepted_derivable hu h
  refine ⟨toks, t, h1, h2, fun ht => program_operands h3 ?_⟩
  intro x hx
  obtain ⟨l, hl, rfl⟩ := List.mem_map.1 hx
  obtain ⟨y, hy, he⟩ := mem_deliver hl
  change l.token ≠ _
  rw [he]
  exact ht y hy

/-- **C29 is false of the code** for `throw`, which needs no semicolon. -/
theorem C29_throw : parseRoot true b!"throw 1 x" = .accepted ∧
    parseRoot true b!"throw a if (b) c" = .accepted := by
  simp only [parseRoot_eval]; decide +kernel

/-- Accepted: statements separated by line ends, by semicolons and by braces. -/
example : parseRoot true b!"a = b\nc.if\n'd'; e[1] in f\n{ g }; do h(); while (i) j" = .accepted := by
  rw [parseRoot_eval]; decide +kernel

/-- Rejected: the same on one line. -/
example :
    parseRoot true b!"a = b c" ≠ .accepted ∧ parseRoot true b!"c.if 'd'" ≠ .accepted ∧
    parseRoot true b!"e[1] f" ≠ .accepted ∧ parseRoot true b!"let if" ≠ .accepted ∧
    parseRoot true b!"class if {}" ≠ .accepted := by
  simp only [parseRoot_eval]; decide +kernel

/-- The statement says something: `a b` does not satisfy it. -/
example : ¬ OperandsSeparated [(false, .ident b!"a"), (false, .ident b!"b")] := by
  intro h
  have := h.operands [] (false, .ident b!"a") (false, .ident b!"b") [] rfl
    (.name _ (by decide) (by decide) (by decide)) (.word _ (by decide))
  cases this

/-! ## C34 -/

/-- **C34 is false of the code.** A `default:` after the first clause of a `switch` is taken for a
label, so that any number of them is accepted. -/
theorem C34_two_defaults_accepted :
    parseRoot true b!"switch (a) { default: b; default: c }" = .accepted ∧
    parseRoot true b!"switch (a) { case 1: default: b; default: c; default: d }" = .accepted := by
  simp only [parseRoot_eval]; decide +kernel

/-- **C34.** What holds instead.  Whenever `parse_switch_statement` succeeds — in any state with at most
two tokens in the buffer (which is all that ever occurs, C25), reachable or not, and whatever bound `n`
is used — it has found at most one default clause, and that is the first clause; all others begin with
`case`.  (Missing for C34: a clause may contain further `default:`, as labels.) -/
theorem C34_default_first_partial (n : Nat) {s s' : PState} (hs : s.count ≤ 2)
    (h : run n .switchStatement s = .ok (some ()) s') :
    ∃ w, s'.log.map Look.seen = s.log.map Look.seen ++ w ∧ SwitchFits w := by
  obtain ⟨w, hw, hd⟩ := run_der hs h
  exact ⟨w, hw, der_switch hd⟩

/-- A `switch` with a default clause and two others. -/
example :
    (match run 100 .switchStatement
      (initState true b!"switch (a) { default: b\n case 1: {} case c: default: d }") with
    | .ok (some ()) s' => s'.log.length == 20
    | _ => false) = true := by
  rw [← runF_eq]; decide +kernel

/-- The statement says something: statements in the braces must belong to a clause. -/
example : ¬ SwitchFits [(false, .ident b!"switch"), (false, .punct .parenOpen), (false, .ident b!"a"),
    (false, .punct .parenClose), (false, .punct .curlyOpen), (false, .ident b!"b"),
    (false, .punct .curlyClose)] := by
  rintro ⟨k, po, v, pc, o, d, cs, c, h, -, -, -, hv, hpc, -, hd, hcs, -⟩
  have hl := congrArg List.length h
  match v, h with
  | [x], h =>
    simp only [List.cons_append, List.nil_append, List.cons.injEq] at h
    obtain ⟨-, -, -, -, -, h⟩ := h
    rcases hd with rfl | ⟨k, c', e, rfl, hk, -, -⟩
    · match cs, hcs, h with
      | [], _, h => simp at h
      | x :: cs, hcs, h =>
        obtain ⟨k, v, c', e, rfl, hk, -⟩ := hcs _ (List.mem_cons_self ..)
        simp only [List.flatten_cons, List.cons_append, List.nil_append, List.cons.injEq] at h
        rw [← h.1] at hk
        revert hk
        decide
    · simp only [List.cons_append, List.cons.injEq] at h
      rw [← h.1] at hk
      revert hk
      decide
  | [], h => simp only [List.nil_append, List.cons.injEq] at h; rw [← h.2.2.1] at hpc; cases hpc
  | x :: y :: v, h =>
    simp only [List.cons_append, List.cons.injEq] at h
    obtain ⟨-, -, rfl, rfl, -⟩ := h
    cases hv

end Jsparse
