import Verif.Proofs.CoreLeaf
import Verif.Proofs.GrammarNum
import Verif.Proofs.Calm
import Verif.Props.Renaming
import Verif.Props.Grammar
/-!
# C45: on core tokens, the accepted programs are exactly those of the grammar
# C46: texts without slashes and templates are parsed without panic

`CoreText` (Spec/Core.lean) restricts the tokens, `Spells code u` says that `code` is a text with the tokens `u`,
`Program u` that `u` is derived in the grammar of C32.
-/

namespace Jsparse

open P Spec Forward

theorem program_of_parsedAs {checked : Bool} {code : Bytes} {u : List Tok} (hu : Utf8 code)
    (h : ParsedAs checked code u) : Program u := by
  obtain ⟨log, ⟨s, hm, rfl⟩, hs⟩ := h
  refine program_sameTok ?_ (hs.flip.imp fun _ _ h => SameTok.symm h)
  exact parseModule_program (valid_intoTokenizer checked hu) (inv_initState checked code) rfl rfl hm

/-- **C45.** A text with core tokens that are a program of the grammar is accepted. -/
theorem C45_derivable_accepted {checked : Bool} {code : Bytes} {u : List Tok} (hu : Utf8 code)
    (hs : Spells code u) (hc : CoreText u) (hp : Program u) : parseRoot checked code = .accepted := by
  obtain ⟨k, hk⟩ := stream_of_spells checked hs hu
  exact accepted_of_stream hu (hk _ (valid_intoTokenizer checked hu) rfl rfl)
    (frag_renumber k (Core.frag_of_program hc hp))

theorem unslashed_of_core {u : List Tok} (hc : CoreText u) : Unslashed u := by
  refine ⟨?_, ?_⟩
  · rintro ⟨l, x⟩ hx
    have key : ∀ {q}, q ∈ leftOutPunctuators → x ≠ .punct q := fun {q} hq (h : x = _) => by
      subst h
      exact (hc.mem _ hx : Spec.Core (l, .punct q)) hq
    exact ⟨key (by decide), key (by decide)⟩
  · rintro ⟨l, x⟩ hx p f (h : x = _)
    subst h
    exact hc.mem _ hx

/-- **C45.** A text with core tokens is accepted if and only if the tokens are a program of the grammar. Of the ways to
cut the text into tokens the one is meant that the nesting of braces and templates demands. -/
theorem C45_core_exact {checked : Bool} {code : Bytes} {u : List Tok} (hu : Utf8 code)
    (hs : Spells code u) (hc : CoreText u) (hw : WellCut [] u) :
    parseRoot checked code = .accepted ↔ Program u :=
  ⟨fun h => program_of_parsedAs hu ((unslashed_of_core hc).parsedAs hw hu hs h), C45_derivable_accepted hu hs hc⟩

/-- **C46.** A text whose tokens are no division signs, regular expressions or pieces of templates is parsed without panic: it is accepted or rejected. -/
theorem C46_no_panic {checked : Bool} {code : Bytes} {u : List Tok} (hu : Utf8 code) (hs : Spells code u)
    (hf : Simple u) : parseRoot checked code = .accepted ∨ ∃ e, parseRoot checked code = .rejected e := by
  obtain ⟨v, -, h⟩ := hf.calm (checked := checked) hu hs (fuelFor code)
  cases hr : parseRoot checked code with
  | accepted => exact .inl rfl
  | rejected e => exact .inr ⟨e, rfl⟩
  | panicked p =>
    unfold parseRoot at hr
    cases hm : parseModuleFuel (fuelFor code) checked code with
    | panic q => rw [hm] at h; exact h.elim
    | _ => rw [hm] at hr; cases hr
  | outOfFuel => exact absurd hr (C24_terminates checked hu)

/-- Nothing to decide without templates. -/
theorem wellCut_of_simple {u : List Tok} (h : ∀ x ∈ u, ¬ IsTemplate x.2) :
    ∀ {o : List Br}, Br.template ∉ o → WellCut o u := by
  induction u with
  | nil => exact fun _ => trivial
  | cons x u ih =>
    obtain ⟨l, t⟩ := x
    intro o ho
    have ht : ∀ k a b, t ≠ .template k a b := fun k a b e => h (l, t) (by simp) (by subst e; trivial)
    refine ⟨?_, fun o' ho' => ih (fun y hy => h y (List.mem_cons_of_mem _ hy)) ?_⟩
    · show Cuts o t
      unfold Cuts
      split
      · intro h
        exact ho (List.mem_of_mem_head? h)
      · exact absurd rfl (ht _ _ _)
      · exact absurd rfl (ht _ _ _)
      · trivial
    · replace ho' : nestStep o t = some o' := ho'
      unfold nestStep at ho'
      split at ho'
      · cases ho'; exact ho
      · rename_i b hb
        cases ho'
        have : b ≠ .template := by
          rintro rfl
          unfold nestOf at hb
          split at hb <;> first | exact absurd rfl (ht _ _ _) | cases hb
        simp [ho, this.symm]
      · split at ho'
        · split at ho'
          · cases ho'
            simp only [List.mem_cons, not_or] at ho
            exact ho.2
          · cases ho'
        · cases ho'
      · split at ho'
        · cases ho'; exact ho
        · cases ho'

/-- **C45.** A text with core tokens and without templates is rejected if and only if the tokens are no program of the
grammar. -/
theorem C45_rejected {checked : Bool} {code : Bytes} {u : List Tok} (hu : Utf8 code)
    (hs : Spells code u) (hc : CoreText u) (ht : ∀ x ∈ u, ¬ IsTemplate x.2) :
    (∃ e, parseRoot checked code = .rejected e) ↔ ¬ Program u := by
  rw [← C45_core_exact (checked := checked) hu hs hc (wellCut_of_simple ht (by simp))]
  have hc := unslashed_of_core hc
  rcases C46_no_panic (checked := checked) hu hs ⟨hc.slash, hc.regex, fun x hx k a b e => ht x hx (by rw [e]; trivial)⟩ with h | ⟨e, h⟩
  · rw [h]; simp
  · rw [h]; simp

/-! ## Examples -/

/-- `a` LF `b` -/
theorem spells_two_lines : Spells b!"a\nb" [kw false b!"a", kw true b!"b", (false, .eof)] := by
  refine .cons (w := b!"a") (r := b!"\nb") .nil (.name (by decide) (by decide)) (by apart) ?_
  refine .cons (w := b!"b") (r := []) gap_lf (.name (by decide) (by decide)) ⟨by decide, nofun⟩ ?_
  exact .eof .nil

/-- `a b` -/
theorem spells_one_line : Spells b!"a b" [kw false b!"a", kw false b!"b", (false, .eof)] := by
  refine .cons (w := b!"a") (r := b!" b") .nil (.name (by decide) (by decide)) (by apart) ?_
  refine .cons (w := b!"b") (r := []) gap_blank (.name (by decide) (by decide)) ⟨by decide, nofun⟩ ?_
  exact .eof .nil

/-- `do ; while (a) b`: the semicolon behind the parenthesis may be missing. -/
theorem spells_do : Spells b!"do ; while (a) b" [kw false b!"do", pt false .semicolon, kw false b!"while",
    pt false .parenOpen, kw false b!"a", pt false .parenClose, kw false b!"b", (false, .eof)] := by
  refine .cons (w := b!"do") (r := b!" ; while (a) b") .nil (.name (by decide) (by decide)) (by apart) ?_
  refine .cons (w := b!";") (r := b!" while (a) b") gap_blank (.punct (q := .semicolon) (by decide)) (by apart) ?_
  refine .cons (w := b!"while") (r := b!" (a) b") gap_blank (.name (by decide) (by decide)) (by apart) ?_
  refine .cons (w := b!"(") (r := b!"a) b") gap_blank (.punct (q := .parenOpen) (by decide)) (by apart) ?_
  refine .cons (w := b!"a") (r := b!") b") .nil (.name (by decide) (by decide)) (by apart) ?_
  refine .cons (w := b!")") (r := b!" b") .nil (.punct (q := .parenClose) (by decide)) (by apart) ?_
  refine .cons (w := b!"b") (r := []) gap_blank (.name (by decide) (by decide)) ⟨by decide, nofun⟩ ?_
  exact .eof .nil

/-- From the text to the grammar. -/
example : Program [kw false b!"do", pt false .semicolon, kw false b!"while",
    pt false .parenOpen, kw false b!"a", pt false .parenClose, kw false b!"b", (false, .eof)] :=
  (C45_core_exact (checked := true) (utf8_ascii (by decide)) spells_do (by decide) (by decide)).1
    (by rw [parseRoot_eval]; decide +kernel)

/-- ``x = `a${ {} }b${c}d` `` -/
theorem spells_template : Spells b!"x = `a${ {} }b${c}d`"
    [kw false b!"x", pt false .eq, (false, .template .head b!"a" b!"a"), pt false .curlyOpen, pt false .curlyClose, (false, .template .middle b!"b" b!"b"), kw false b!"c", (false, .template .tail b!"d" b!"d"), (false, .eof)] := by
  refine .cons (w := b!"x") (r := b!" = `a${ {} }b${c}d`") .nil (.name (by decide) (by decide)) (by apart) ?_
  refine .cons (w := b!"=") (r := b!" `a${ {} }b${c}d`") gap_blank (.punct (q := .eq) (by decide)) (by apart) ?_
  refine .cons (w := b!"`a${") (r := b!" {} }b${c}d`") gap_blank (.head (v := b!"a") (by unfold PieceBody; decide)) (by apart) ?_
  refine .cons (w := b!"{") (r := b!"} }b${c}d`") gap_blank (.punct (q := .curlyOpen) (by decide)) (by apart) ?_
  refine .cons (w := b!"}") (r := b!" }b${c}d`") .nil (.punct (q := .curlyClose) (by decide)) (by apart) ?_
  refine .cons (w := b!"}b${") (r := b!"c}d`") gap_blank (.middle (v := b!"b") (by unfold PieceBody; decide)) (by apart) ?_
  refine .cons (w := b!"c") (r := b!"}d`") .nil (.name (by decide) (by decide)) (by apart) ?_
  refine .cons (w := b!"}d`") (r := []) .nil (.tail (v := b!"d") (by unfold PieceBody; decide)) (by apart) ?_
  exact .eof .nil

/-- `` `${a b}` `` -/
theorem spells_template_operands : Spells b!"`${a b}`"
    [(false, .template .head [] []), kw false b!"a", kw false b!"b", (false, .template .tail [] []), (false, .eof)] := by
  refine .cons (w := b!"`${") (r := b!"a b}`") .nil (.head (v := []) (by unfold PieceBody; decide)) (by apart) ?_
  refine .cons (w := b!"a") (r := b!" b}`") .nil (.name (by decide) (by decide)) (by apart) ?_
  refine .cons (w := b!"b") (r := b!"}`") gap_blank (.name (by decide) (by decide)) (by apart) ?_
  refine .cons (w := b!"}`") (r := []) .nil (.tail (v := []) (by unfold PieceBody; decide)) (by apart) ?_
  exact .eof .nil

/-- `` `${a}`;class ${}`b` `` -/
theorem spells_class_template : Spells b!"`${a}`;class ${}`b`"
    [(false, .template .head [] []), kw false b!"a", (false, .template .tail [] []), pt false .semicolon, kw false b!"class", kw false b!"$", pt false .curlyOpen, pt false .curlyClose, (false, .template .noSubstitution b!"b" b!"b"), (false, .eof)] := by
  refine .cons (w := b!"`${") (r := b!"a}`;class ${}`b`") .nil (.head (v := []) (by unfold PieceBody; decide)) (by apart) ?_
  refine .cons (w := b!"a") (r := b!"}`;class ${}`b`") .nil (.name (by decide) (by decide)) (by apart) ?_
  refine .cons (w := b!"}`") (r := b!";class ${}`b`") .nil (.tail (v := []) (by unfold PieceBody; decide)) (by apart) ?_
  refine .cons (w := b!";") (r := b!"class ${}`b`") .nil (.punct (q := .semicolon) (by decide)) (by apart) ?_
  refine .cons (w := b!"class") (r := b!" ${}`b`") .nil (.name (by decide) (by decide)) (by apart) ?_
  refine .cons (w := b!"$") (r := b!"{}`b`") gap_blank (.name (by decide) (by decide)) (by apart) ?_
  refine .cons (w := b!"{") (r := b!"}`b`") .nil (.punct (q := .curlyOpen) (by decide)) (by apart) ?_
  refine .cons (w := b!"}") (r := b!"`b`") .nil (.punct (q := .curlyClose) (by decide)) (by apart) ?_
  refine .cons (w := b!"`b`") (r := []) .nil (.noSubstitution (v := b!"b") (by unfold PieceBody; decide)) (by apart) ?_
  exact .eof .nil

/-- The same text, cut in another way: the braces close nothing. -/
theorem spells_misread_template : Spells b!"`${a}`;class ${}`b`"
    [(false, .template .head [] []), kw false b!"a", pt false .curlyClose, (false, .template .head b!";class " b!";class "), pt false .curlyClose, (false, .template .noSubstitution b!"b" b!"b"), (false, .eof)] := by
  refine .cons (w := b!"`${") (r := b!"a}`;class ${}`b`") .nil (.head (v := []) (by unfold PieceBody; decide)) (by apart) ?_
  refine .cons (w := b!"a") (r := b!"}`;class ${}`b`") .nil (.name (by decide) (by decide)) (by apart) ?_
  refine .cons (w := b!"}") (r := b!"`;class ${}`b`") .nil (.punct (q := .curlyClose) (by decide)) (by apart) ?_
  refine .cons (w := b!"`;class ${") (r := b!"}`b`") .nil (.head (v := b!";class ") (by unfold PieceBody; decide)) (by apart) ?_
  refine .cons (w := b!"}") (r := b!"`b`") .nil (.punct (q := .curlyClose) (by decide)) (by apart) ?_
  refine .cons (w := b!"`b`") (r := []) .nil (.noSubstitution (v := b!"b") (by unfold PieceBody; decide)) (by apart) ?_
  exact .eof .nil

/-- Templates. -/
example : Program [kw false b!"x", pt false .eq, (false, .template .head b!"a" b!"a"), pt false .curlyOpen, pt false .curlyClose, (false, .template .middle b!"b" b!"b"), kw false b!"c", (false, .template .tail b!"d" b!"d"), (false, .eof)] ∧
    ¬ Program [(false, .template .head [] []), kw false b!"a", kw false b!"b", (false, .template .tail [] []), (false, .eof)] :=
  ⟨(C45_core_exact (checked := true) (utf8_ascii (by decide)) spells_template (by decide) (by decide)).1
    (by rw [parseRoot_eval]; decide +kernel),
    fun h => absurd ((C45_core_exact (checked := true) (utf8_ascii (by decide)) spells_template_operands (by decide) (by decide)).2 h)
    (by rw [parseRoot_eval]; decide +kernel)⟩

/-- A text that can be cut into tokens in two ways.  It is accepted because of the first one; the second one is not
derived in the grammar. -/
example : parseRoot true b!"`${a}`;class ${}`b`" = .accepted ∧
    WellCut [] [(false, .template .head [] []), kw false b!"a", (false, .template .tail [] []), pt false .semicolon, kw false b!"class", kw false b!"$", pt false .curlyOpen, pt false .curlyClose, (false, .template .noSubstitution b!"b" b!"b"), (false, .eof)] ∧
    ¬ WellCut [] [(false, .template .head [] []), kw false b!"a", pt false .curlyClose, (false, .template .head b!";class " b!";class "), pt false .curlyClose, (false, .template .noSubstitution b!"b" b!"b"), (false, .eof)] ∧
    ¬ Program [(false, .template .head [] []), kw false b!"a", pt false .curlyClose, (false, .template .head b!";class " b!";class "), pt false .curlyClose, (false, .template .noSubstitution b!"b" b!"b"), (false, .eof)] :=
  ⟨by rw [parseRoot_eval]; decide +kernel, by decide, by decide,
    fun h => absurd (program_balanced h) (by unfold Balanced; decide)⟩

/-- `throw a b`: no semicolon is required behind `throw`. -/
theorem spells_throw : Spells b!"throw a b" [kw false b!"throw", kw false b!"a", kw false b!"b", (false, .eof)] := by
  refine .cons (w := b!"throw") (r := b!" a b") .nil (.name (by decide) (by decide)) (by apart) ?_
  refine .cons (w := b!"a") (r := b!" b") gap_blank (.name (by decide) (by decide)) (by apart) ?_
  refine .cons (w := b!"b") (r := []) gap_blank (.name (by decide) (by decide)) ⟨by decide, nofun⟩ ?_
  exact .eof .nil

example : Program [kw false b!"throw", kw false b!"a", kw false b!"b", (false, .eof)] :=
  (C45_core_exact (checked := true) (utf8_ascii (by decide)) spells_throw (by decide) (by decide)).1
    (by rw [parseRoot_eval]; decide +kernel)

/-- `for (let of of a);` declares nothing: `let` is an expression here. -/
theorem spells_for : Spells b!"for (let of of a);" [kw false b!"for", pt false .parenOpen, kw false b!"let",
    kw false b!"of", kw false b!"of", kw false b!"a", pt false .parenClose, pt false .semicolon, (false, .eof)] := by
  refine .cons (w := b!"for") (r := b!" (let of of a);") .nil (.name (by decide) (by decide)) (by apart) ?_
  refine .cons (w := b!"(") (r := b!"let of of a);") gap_blank (.punct (q := .parenOpen) (by decide)) (by apart) ?_
  refine .cons (w := b!"let") (r := b!" of of a);") .nil (.name (by decide) (by decide)) (by apart) ?_
  refine .cons (w := b!"of") (r := b!" of a);") gap_blank (.name (by decide) (by decide)) (by apart) ?_
  refine .cons (w := b!"of") (r := b!" a);") gap_blank (.name (by decide) (by decide)) (by apart) ?_
  refine .cons (w := b!"a") (r := b!");") gap_blank (.name (by decide) (by decide)) (by apart) ?_
  refine .cons (w := b!")") (r := b!";") .nil (.punct (q := .parenClose) (by decide)) (by apart) ?_
  refine .cons (w := b!";") (r := []) .nil (.punct (q := .semicolon) (by decide)) (by apart) ?_
  exact .eof .nil

example : ¬ Program [kw false b!"for", pt false .parenOpen, kw false b!"let",
    kw false b!"of", kw false b!"of", kw false b!"a", pt false .parenClose, pt false .semicolon, (false, .eof)] :=
  (C45_rejected (checked := true) (utf8_ascii (by decide)) spells_for (by decide) (by decide)).1
    ⟨.unexpectedToken, by rw [parseRoot_eval]; decide +kernel⟩

/-- `class A { static a(...b) {} }` -/
theorem spells_class : Spells b!"class A { static a(...b) {} }" [kw false b!"class", kw false b!"A",
    pt false .curlyOpen, kw false b!"static", kw false b!"a", pt false .parenOpen, pt false .ellipsis, kw false b!"b",
    pt false .parenClose, pt false .curlyOpen, pt false .curlyClose, pt false .curlyClose, (false, .eof)] := by
  refine .cons (w := b!"class") (r := b!" A { static a(...b) {} }") .nil (.name (by decide) (by decide)) (by apart) ?_
  refine .cons (w := b!"A") (r := b!" { static a(...b) {} }") gap_blank (.name (by decide) (by decide)) (by apart) ?_
  refine .cons (w := b!"{") (r := b!" static a(...b) {} }") gap_blank (.punct (q := .curlyOpen) (by decide)) (by apart) ?_
  refine .cons (w := b!"static") (r := b!" a(...b) {} }") gap_blank (.name (by decide) (by decide)) (by apart) ?_
  refine .cons (w := b!"a") (r := b!"(...b) {} }") gap_blank (.name (by decide) (by decide)) (by apart) ?_
  refine .cons (w := b!"(") (r := b!"...b) {} }") .nil (.punct (q := .parenOpen) (by decide)) (by apart) ?_
  refine .cons (w := b!"...") (r := b!"b) {} }") .nil (.punct (q := .ellipsis) (by decide)) (by apart) ?_
  refine .cons (w := b!"b") (r := b!") {} }") .nil (.name (by decide) (by decide)) (by apart) ?_
  refine .cons (w := b!")") (r := b!" {} }") .nil (.punct (q := .parenClose) (by decide)) (by apart) ?_
  refine .cons (w := b!"{") (r := b!"} }") gap_blank (.punct (q := .curlyOpen) (by decide)) (by apart) ?_
  refine .cons (w := b!"}") (r := b!" }") .nil (.punct (q := .curlyClose) (by decide)) (by apart) ?_
  refine .cons (w := b!"}") (r := []) gap_blank (.punct (q := .curlyClose) (by decide)) (by apart) ?_
  exact .eof .nil

example : Program [kw false b!"class", kw false b!"A",
    pt false .curlyOpen, kw false b!"static", kw false b!"a", pt false .parenOpen, pt false .ellipsis, kw false b!"b",
    pt false .parenClose, pt false .curlyOpen, pt false .curlyClose, pt false .curlyClose, (false, .eof)] :=
  (C45_core_exact (checked := true) (utf8_ascii (by decide)) spells_class (by decide) (by decide)).1
    (by rw [parseRoot_eval]; decide +kernel)

/-- `export {a}` LF `=` -/
theorem spells_export : Spells b!"export {a}\n=" [kw false b!"export", pt false .curlyOpen, kw false b!"a",
    pt false .curlyClose, pt true .eq, (false, .eof)] := by
  refine .cons (w := b!"export") (r := b!" {a}\n=") .nil (.name (by decide) (by decide)) (by apart) ?_
  refine .cons (w := b!"{") (r := b!"a}\n=") gap_blank (.punct (q := .curlyOpen) (by decide)) (by apart) ?_
  refine .cons (w := b!"a") (r := b!"}\n=") .nil (.name (by decide) (by decide)) (by apart) ?_
  refine .cons (w := b!"}") (r := b!"\n=") .nil (.punct (q := .curlyClose) (by decide)) (by apart) ?_
  refine .cons (w := b!"=") (r := []) gap_lf (.punct (q := .eq) (by decide)) (by apart) ?_
  exact .eof .nil

/-- `export default function () {}` -/
theorem spells_default : Spells b!"export default function () {}" [kw false b!"export", kw false b!"default",
    kw false b!"function", pt false .parenOpen, pt false .parenClose, pt false .curlyOpen, pt false .curlyClose,
    (false, .eof)] := by
  refine .cons (w := b!"export") (r := b!" default function () {}") .nil (.name (by decide) (by decide)) (by apart) ?_
  refine .cons (w := b!"default") (r := b!" function () {}") gap_blank (.name (by decide) (by decide)) (by apart) ?_
  refine .cons (w := b!"function") (r := b!" () {}") gap_blank (.name (by decide) (by decide)) (by apart) ?_
  refine .cons (w := b!"(") (r := b!") {}") gap_blank (.punct (q := .parenOpen) (by decide)) (by apart) ?_
  refine .cons (w := b!")") (r := b!" {}") .nil (.punct (q := .parenClose) (by decide)) (by apart) ?_
  refine .cons (w := b!"{") (r := b!"}") gap_blank (.punct (q := .curlyOpen) (by decide)) (by apart) ?_
  refine .cons (w := b!"}") (r := []) .nil (.punct (q := .curlyClose) (by decide)) (by apart) ?_
  exact .eof .nil

/-- Modules: an exported function without a name, and a line that begins with `=` behind `export {a}`. -/
example : Program [kw false b!"export", kw false b!"default",
      kw false b!"function", pt false .parenOpen, pt false .parenClose, pt false .curlyOpen, pt false .curlyClose,
      (false, .eof)] ∧
    ¬ Program [kw false b!"export", pt false .curlyOpen, kw false b!"a", pt false .curlyClose, pt true .eq, (false, .eof)] :=
  ⟨(C45_core_exact (checked := true) (utf8_ascii (by decide)) spells_default (by decide) (by decide)).1
      (by rw [parseRoot_eval]; decide +kernel),
    (C45_rejected (checked := true) (utf8_ascii (by decide)) spells_export (by decide) (by decide)).1
      ⟨.unexpectedToken, by rw [parseRoot_eval]; decide +kernel⟩⟩

/-- `a => {}` LF `(b)` -/
theorem spells_arrow : Spells b!"a => {}\n(b)" [kw false b!"a", pt false .arrow, pt false .curlyOpen, pt false .curlyClose, pt true .parenOpen, kw
    false b!"b", pt false .parenClose, (false, .eof)] := by
  refine .cons (w := b!"a") (r := b!" => {}\n(b)") .nil (.name (by decide) (by decide)) (by apart) ?_
  refine .cons (w := b!"=>") (r := b!" {}\n(b)") gap_blank (.punct (q := .arrow) (by decide)) (by apart) ?_
  refine .cons (w := b!"{") (r := b!"}\n(b)") gap_blank (.punct (q := .curlyOpen) (by decide)) (by apart) ?_
  refine .cons (w := b!"}") (r := b!"\n(b)") .nil (.punct (q := .curlyClose) (by decide)) (by apart) ?_
  refine .cons (w := b!"(") (r := b!"b)") gap_lf (.punct (q := .parenOpen) (by decide)) (by apart) ?_
  refine .cons (w := b!"b") (r := b!")") .nil (.name (by decide) (by decide)) (by apart) ?_
  refine .cons (w := b!")") (r := []) .nil (.punct (q := .parenClose) (by decide)) (by apart) ?_
  exact .eof .nil

/-- `a => {} (b)` -/
theorem spells_arrow_call : Spells b!"a => {} (b)" [kw false b!"a", pt false .arrow, pt false .curlyOpen, pt false .curlyClose, pt false .parenOpen, kw
    false b!"b", pt false .parenClose, (false, .eof)] := by
  refine .cons (w := b!"a") (r := b!" => {} (b)") .nil (.name (by decide) (by decide)) (by apart) ?_
  refine .cons (w := b!"=>") (r := b!" {} (b)") gap_blank (.punct (q := .arrow) (by decide)) (by apart) ?_
  refine .cons (w := b!"{") (r := b!"} (b)") gap_blank (.punct (q := .curlyOpen) (by decide)) (by apart) ?_
  refine .cons (w := b!"}") (r := b!" (b)") .nil (.punct (q := .curlyClose) (by decide)) (by apart) ?_
  refine .cons (w := b!"(") (r := b!"b)") gap_blank (.punct (q := .parenOpen) (by decide)) (by apart) ?_
  refine .cons (w := b!"b") (r := b!")") .nil (.name (by decide) (by decide)) (by apart) ?_
  refine .cons (w := b!")") (r := []) .nil (.punct (q := .parenClose) (by decide)) (by apart) ?_
  exact .eof .nil

/-- Behind the block of an arrow function, a parenthesis on a new line begins a statement. -/
example : Program [kw false b!"a", pt false .arrow, pt false .curlyOpen, pt false .curlyClose, pt true .parenOpen, kw
    false b!"b", pt false .parenClose, (false, .eof)] ∧
    ¬ Program [kw false b!"a", pt false .arrow, pt false .curlyOpen, pt false .curlyClose, pt false .parenOpen, kw
    false b!"b", pt false .parenClose, (false, .eof)] :=
  ⟨(C45_core_exact (checked := true) (utf8_ascii (by decide)) spells_arrow (by decide) (by decide)).1
      (by rw [parseRoot_eval]; decide +kernel),
    (C45_rejected (checked := true) (utf8_ascii (by decide)) spells_arrow_call (by decide) (by decide)).1
      ⟨.unexpectedToken, by rw [parseRoot_eval]; decide +kernel⟩⟩

/-- `yield * a, b` -/
theorem spells_yield : Spells b!"yield * a, b" [kw false b!"yield", pt false .star, kw false b!"a", pt false .comma, kw false b!"b", (false, .eof)] := by
  refine .cons (w := b!"yield") (r := b!" * a, b") .nil (.name (by decide) (by decide)) (by apart) ?_
  refine .cons (w := b!"*") (r := b!" a, b") gap_blank (.punct (q := .star) (by decide)) (by apart) ?_
  refine .cons (w := b!"a") (r := b!", b") gap_blank (.name (by decide) (by decide)) (by apart) ?_
  refine .cons (w := b!",") (r := b!" b") .nil (.punct (q := .comma) (by decide)) (by apart) ?_
  refine .cons (w := b!"b") (r := []) gap_blank (.name (by decide) (by decide)) ⟨by decide, nofun⟩ ?_
  exact .eof .nil

/-- `yield = a` -/
theorem spells_yield_eq : Spells b!"yield = a" [kw false b!"yield", pt false .eq, kw false b!"a", (false, .eof)] := by
  refine .cons (w := b!"yield") (r := b!" = a") .nil (.name (by decide) (by decide)) (by apart) ?_
  refine .cons (w := b!"=") (r := b!" a") gap_blank (.punct (q := .eq) (by decide)) (by apart) ?_
  refine .cons (w := b!"a") (r := []) gap_blank (.name (by decide) (by decide)) ⟨by decide, nofun⟩ ?_
  exact .eof .nil

/-- `for (of a) b` -/
theorem spells_for_of : Spells b!"for (of a) b" [kw false b!"for", pt false .parenOpen, kw false b!"of", kw false b!"a", pt false .parenClose, kw
    false b!"b", (false, .eof)] := by
  refine .cons (w := b!"for") (r := b!" (of a) b") .nil (.name (by decide) (by decide)) (by apart) ?_
  refine .cons (w := b!"(") (r := b!"of a) b") gap_blank (.punct (q := .parenOpen) (by decide)) (by apart) ?_
  refine .cons (w := b!"of") (r := b!" a) b") .nil (.name (by decide) (by decide)) (by apart) ?_
  refine .cons (w := b!"a") (r := b!") b") gap_blank (.name (by decide) (by decide)) (by apart) ?_
  refine .cons (w := b!")") (r := b!" b") .nil (.punct (q := .parenClose) (by decide)) (by apart) ?_
  refine .cons (w := b!"b") (r := []) gap_blank (.name (by decide) (by decide)) ⟨by decide, nofun⟩ ?_
  exact .eof .nil

/-- `yield` takes a whole expression, is no target of an assignment, and `of` begins no head of a `for`. -/
example : Program [kw false b!"yield", pt false .star, kw false b!"a", pt false .comma, kw false b!"b", (false, .eof)] ∧
    ¬ Program [kw false b!"yield", pt false .eq, kw false b!"a", (false, .eof)] ∧
    ¬ Program [kw false b!"for", pt false .parenOpen, kw false b!"of", kw false b!"a", pt false .parenClose, kw
    false b!"b", (false, .eof)] :=
  ⟨(C45_core_exact (checked := true) (utf8_ascii (by decide)) spells_yield (by decide) (by decide)).1
      (by rw [parseRoot_eval]; decide +kernel),
    (C45_rejected (checked := true) (utf8_ascii (by decide)) spells_yield_eq (by decide) (by decide)).1
      ⟨.unexpectedToken, by rw [parseRoot_eval]; decide +kernel⟩,
    (C45_rejected (checked := true) (utf8_ascii (by decide)) spells_for_of (by decide) (by decide)).1
      ⟨.invalidFor, by rw [parseRoot_eval]; decide +kernel⟩⟩

/-- `async a => {}` -/
theorem spells_async : Spells b!"async a => {}" [kw false b!"async", kw false b!"a", pt false .arrow, pt false .curlyOpen, pt false .curlyClose,
    (false, .eof)] := by
  refine .cons (w := b!"async") (r := b!" a => {}") .nil (.name (by decide) (by decide)) (by apart) ?_
  refine .cons (w := b!"a") (r := b!" => {}") gap_blank (.name (by decide) (by decide)) (by apart) ?_
  refine .cons (w := b!"=>") (r := b!" {}") gap_blank (.punct (q := .arrow) (by decide)) (by apart) ?_
  refine .cons (w := b!"{") (r := b!"}") gap_blank (.punct (q := .curlyOpen) (by decide)) (by apart) ?_
  refine .cons (w := b!"}") (r := []) .nil (.punct (q := .curlyClose) (by decide)) (by apart) ?_
  exact .eof .nil

/-- `async function f() {}` -/
theorem spells_async_function : Spells b!"async function f() {}" [kw false b!"async", kw false b!"function", kw false b!"f", pt false .parenOpen, pt false
    .parenClose, pt false .curlyOpen, pt false .curlyClose, (false, .eof)] := by
  refine .cons (w := b!"async") (r := b!" function f() {}") .nil (.name (by decide) (by decide)) (by apart) ?_
  refine .cons (w := b!"function") (r := b!" f() {}") gap_blank (.name (by decide) (by decide)) (by apart) ?_
  refine .cons (w := b!"f") (r := b!"() {}") gap_blank (.name (by decide) (by decide)) (by apart) ?_
  refine .cons (w := b!"(") (r := b!") {}") .nil (.punct (q := .parenOpen) (by decide)) (by apart) ?_
  refine .cons (w := b!")") (r := b!" {}") .nil (.punct (q := .parenClose) (by decide)) (by apart) ?_
  refine .cons (w := b!"{") (r := b!"}") gap_blank (.punct (q := .curlyOpen) (by decide)) (by apart) ?_
  refine .cons (w := b!"}") (r := []) .nil (.punct (q := .curlyClose) (by decide)) (by apart) ?_
  exact .eof .nil

/-- `export default async function () {}` -/
theorem spells_async_default : Spells b!"export default async function () {}" [kw false b!"export", kw false b!"default", kw false b!"async", kw false b!"function", pt false
    .parenOpen, pt false .parenClose, pt false .curlyOpen, pt false .curlyClose, (false, .eof)] := by
  refine .cons (w := b!"export") (r := b!" default async function () {}") .nil (.name (by decide) (by decide)) (by apart) ?_
  refine .cons (w := b!"default") (r := b!" async function () {}") gap_blank (.name (by decide) (by decide)) (by apart) ?_
  refine .cons (w := b!"async") (r := b!" function () {}") gap_blank (.name (by decide) (by decide)) (by apart) ?_
  refine .cons (w := b!"function") (r := b!" () {}") gap_blank (.name (by decide) (by decide)) (by apart) ?_
  refine .cons (w := b!"(") (r := b!") {}") gap_blank (.punct (q := .parenOpen) (by decide)) (by apart) ?_
  refine .cons (w := b!")") (r := b!" {}") .nil (.punct (q := .parenClose) (by decide)) (by apart) ?_
  refine .cons (w := b!"{") (r := b!"}") gap_blank (.punct (q := .curlyOpen) (by decide)) (by apart) ?_
  refine .cons (w := b!"}") (r := []) .nil (.punct (q := .curlyClose) (by decide)) (by apart) ?_
  exact .eof .nil

/-- Async arrow functions and exported async functions are programs; other async functions are none. -/
example : Program [kw false b!"async", kw false b!"a", pt false .arrow, pt false .curlyOpen, pt false .curlyClose,
    (false, .eof)] ∧
    ¬ Program [kw false b!"async", kw false b!"function", kw false b!"f", pt false .parenOpen, pt false
    .parenClose, pt false .curlyOpen, pt false .curlyClose, (false, .eof)] ∧
    Program [kw false b!"export", kw false b!"default", kw false b!"async", kw false b!"function", pt false
    .parenOpen, pt false .parenClose, pt false .curlyOpen, pt false .curlyClose, (false, .eof)] :=
  ⟨(C45_core_exact (checked := true) (utf8_ascii (by decide)) spells_async (by decide) (by decide)).1
      (by rw [parseRoot_eval]; decide +kernel),
    (C45_rejected (checked := true) (utf8_ascii (by decide)) spells_async_function (by decide) (by decide)).1
      ⟨.unexpectedToken, by rw [parseRoot_eval]; decide +kernel⟩,
    (C45_core_exact (checked := true) (utf8_ascii (by decide)) spells_async_default (by decide) (by decide)).1
      (by rw [parseRoot_eval]; decide +kernel)⟩

/-- `({async f() {await a}})` -/
theorem spells_await : Spells b!"({async f() {await a}})" [pt false .parenOpen, pt false .curlyOpen, kw false b!"async", kw false b!"f", pt false .parenOpen,
    pt false .parenClose, pt false .curlyOpen, kw false b!"await", kw false b!"a", pt false .curlyClose,
    pt false .curlyClose, pt false .parenClose, (false, .eof)] := by
  refine .cons (w := b!"(") (r := b!"{async f() {await a}})") .nil (.punct (q := .parenOpen) (by decide)) (by apart) ?_
  refine .cons (w := b!"{") (r := b!"async f() {await a}})") .nil (.punct (q := .curlyOpen) (by decide)) (by apart) ?_
  refine .cons (w := b!"async") (r := b!" f() {await a}})") .nil (.name (by decide) (by decide)) (by apart) ?_
  refine .cons (w := b!"f") (r := b!"() {await a}})") gap_blank (.name (by decide) (by decide)) (by apart) ?_
  refine .cons (w := b!"(") (r := b!") {await a}})") .nil (.punct (q := .parenOpen) (by decide)) (by apart) ?_
  refine .cons (w := b!")") (r := b!" {await a}})") .nil (.punct (q := .parenClose) (by decide)) (by apart) ?_
  refine .cons (w := b!"{") (r := b!"await a}})") gap_blank (.punct (q := .curlyOpen) (by decide)) (by apart) ?_
  refine .cons (w := b!"await") (r := b!" a}})") .nil (.name (by decide) (by decide)) (by apart) ?_
  refine .cons (w := b!"a") (r := b!"}})") gap_blank (.name (by decide) (by decide)) (by apart) ?_
  refine .cons (w := b!"}") (r := b!"})") .nil (.punct (q := .curlyClose) (by decide)) (by apart) ?_
  refine .cons (w := b!"}") (r := b!")") .nil (.punct (q := .curlyClose) (by decide)) (by apart) ?_
  refine .cons (w := b!")") (r := []) .nil (.punct (q := .parenClose) (by decide)) (by apart) ?_
  exact .eof .nil

/-- `({f() {await a}})` -/
theorem spells_await_none : Spells b!"({f() {await a}})" [pt false .parenOpen, pt false .curlyOpen, kw false b!"f", pt false .parenOpen, pt false
    .parenClose, pt false .curlyOpen, kw false b!"await", kw false b!"a", pt false .curlyClose, pt false
    .curlyClose, pt false .parenClose, (false, .eof)] := by
  refine .cons (w := b!"(") (r := b!"{f() {await a}})") .nil (.punct (q := .parenOpen) (by decide)) (by apart) ?_
  refine .cons (w := b!"{") (r := b!"f() {await a}})") .nil (.punct (q := .curlyOpen) (by decide)) (by apart) ?_
  refine .cons (w := b!"f") (r := b!"() {await a}})") .nil (.name (by decide) (by decide)) (by apart) ?_
  refine .cons (w := b!"(") (r := b!") {await a}})") .nil (.punct (q := .parenOpen) (by decide)) (by apart) ?_
  refine .cons (w := b!")") (r := b!" {await a}})") .nil (.punct (q := .parenClose) (by decide)) (by apart) ?_
  refine .cons (w := b!"{") (r := b!"await a}})") gap_blank (.punct (q := .curlyOpen) (by decide)) (by apart) ?_
  refine .cons (w := b!"await") (r := b!" a}})") .nil (.name (by decide) (by decide)) (by apart) ?_
  refine .cons (w := b!"a") (r := b!"}})") gap_blank (.name (by decide) (by decide)) (by apart) ?_
  refine .cons (w := b!"}") (r := b!"})") .nil (.punct (q := .curlyClose) (by decide)) (by apart) ?_
  refine .cons (w := b!"}") (r := b!")") .nil (.punct (q := .curlyClose) (by decide)) (by apart) ?_
  refine .cons (w := b!")") (r := []) .nil (.punct (q := .parenClose) (by decide)) (by apart) ?_
  exact .eof .nil

/-- `({async f() {var await}})` -/
theorem spells_await_name : Spells b!"({async f() {var await}})" [pt false .parenOpen, pt false .curlyOpen, kw false b!"async", kw false b!"f", pt false .parenOpen,
    pt false .parenClose, pt false .curlyOpen, kw false b!"var", kw false b!"await", pt false
    .curlyClose, pt false .curlyClose, pt false .parenClose, (false, .eof)] := by
  refine .cons (w := b!"(") (r := b!"{async f() {var await}})") .nil (.punct (q := .parenOpen) (by decide)) (by apart) ?_
  refine .cons (w := b!"{") (r := b!"async f() {var await}})") .nil (.punct (q := .curlyOpen) (by decide)) (by apart) ?_
  refine .cons (w := b!"async") (r := b!" f() {var await}})") .nil (.name (by decide) (by decide)) (by apart) ?_
  refine .cons (w := b!"f") (r := b!"() {var await}})") gap_blank (.name (by decide) (by decide)) (by apart) ?_
  refine .cons (w := b!"(") (r := b!") {var await}})") .nil (.punct (q := .parenOpen) (by decide)) (by apart) ?_
  refine .cons (w := b!")") (r := b!" {var await}})") .nil (.punct (q := .parenClose) (by decide)) (by apart) ?_
  refine .cons (w := b!"{") (r := b!"var await}})") gap_blank (.punct (q := .curlyOpen) (by decide)) (by apart) ?_
  refine .cons (w := b!"var") (r := b!" await}})") .nil (.name (by decide) (by decide)) (by apart) ?_
  refine .cons (w := b!"await") (r := b!"}})") gap_blank (.name (by decide) (by decide)) (by apart) ?_
  refine .cons (w := b!"}") (r := b!"})") .nil (.punct (q := .curlyClose) (by decide)) (by apart) ?_
  refine .cons (w := b!"}") (r := b!")") .nil (.punct (q := .curlyClose) (by decide)) (by apart) ?_
  refine .cons (w := b!")") (r := []) .nil (.punct (q := .parenClose) (by decide)) (by apart) ?_
  exact .eof .nil

/-- `async () => {await a}` -/
theorem spells_await_arrow : Spells b!"async () => {await a}" [kw false b!"async", pt false .parenOpen, pt false .parenClose, pt false .arrow, pt false
    .curlyOpen, kw false b!"await", kw false b!"a", pt false .curlyClose, (false, .eof)] := by
  refine .cons (w := b!"async") (r := b!" () => {await a}") .nil (.name (by decide) (by decide)) (by apart) ?_
  refine .cons (w := b!"(") (r := b!") => {await a}") gap_blank (.punct (q := .parenOpen) (by decide)) (by apart) ?_
  refine .cons (w := b!")") (r := b!" => {await a}") .nil (.punct (q := .parenClose) (by decide)) (by apart) ?_
  refine .cons (w := b!"=>") (r := b!" {await a}") gap_blank (.punct (q := .arrow) (by decide)) (by apart) ?_
  refine .cons (w := b!"{") (r := b!"await a}") gap_blank (.punct (q := .curlyOpen) (by decide)) (by apart) ?_
  refine .cons (w := b!"await") (r := b!" a}") .nil (.name (by decide) (by decide)) (by apart) ?_
  refine .cons (w := b!"a") (r := b!"}") gap_blank (.name (by decide) (by decide)) (by apart) ?_
  refine .cons (w := b!"}") (r := []) .nil (.punct (q := .curlyClose) (by decide)) (by apart) ?_
  exact .eof .nil

/-- `await` is an operator in async methods, but not in async arrow functions; it may be the name of a variable
where it is an operator. -/
example : Program [pt false .parenOpen, pt false .curlyOpen, kw false b!"async", kw false b!"f", pt false .parenOpen,
    pt false .parenClose, pt false .curlyOpen, kw false b!"await", kw false b!"a", pt false .curlyClose,
    pt false .curlyClose, pt false .parenClose, (false, .eof)] ∧
    ¬ Program [pt false .parenOpen, pt false .curlyOpen, kw false b!"f", pt false .parenOpen, pt false
    .parenClose, pt false .curlyOpen, kw false b!"await", kw false b!"a", pt false .curlyClose, pt false
    .curlyClose, pt false .parenClose, (false, .eof)] ∧
    Program [pt false .parenOpen, pt false .curlyOpen, kw false b!"async", kw false b!"f", pt false .parenOpen,
    pt false .parenClose, pt false .curlyOpen, kw false b!"var", kw false b!"await", pt false
    .curlyClose, pt false .curlyClose, pt false .parenClose, (false, .eof)] ∧
    ¬ Program [kw false b!"async", pt false .parenOpen, pt false .parenClose, pt false .arrow, pt false
    .curlyOpen, kw false b!"await", kw false b!"a", pt false .curlyClose, (false, .eof)] :=
  ⟨(C45_core_exact (checked := true) (utf8_ascii (by decide)) spells_await (by decide) (by decide)).1
      (by rw [parseRoot_eval]; decide +kernel),
    (C45_rejected (checked := true) (utf8_ascii (by decide)) spells_await_none (by decide) (by decide)).1
      ⟨.unexpectedToken, by rw [parseRoot_eval]; decide +kernel⟩,
    (C45_core_exact (checked := true) (utf8_ascii (by decide)) spells_await_name (by decide) (by decide)).1
      (by rw [parseRoot_eval]; decide +kernel),
    (C45_rejected (checked := true) (utf8_ascii (by decide)) spells_await_arrow (by decide) (by decide)).1
      ⟨.unexpectedToken, by rw [parseRoot_eval]; decide +kernel⟩⟩

/-- What is in a string does not matter, even if it looks like a template. -/
theorem spells_string : Spells b!"'`${'" [(false, .str b!"`${"), (false, .eof)] :=
  .cons (w := b!"'`${'") (r := []) .nil
    (.str (q := c!"'") (v := b!"`${") (by simp [Quote]) (.char _ _ (by decide) (by decide) (by decide)
      (.char _ _ (by decide) (by decide) (by decide) (.char _ _ (by decide) (by decide) (by decide) .nil))))
    (by apart) (.eof .nil)

example : Program [(false, .str b!"`${"), (false, .eof)] :=
  (C45_core_exact (checked := true) (utf8_ascii (by decide)) spells_string (by decide) (by decide)).1
    (by rw [parseRoot_eval]; decide +kernel)

/-- `a++` LF `(b)` -/
theorem spells_update_line : Spells b!"a++\n(b)" [kw false b!"a", pt false .plusPlus, pt true .parenOpen, kw false b!"b", pt false .parenClose,
    (false, .eof)] := by
  refine .cons (w := b!"a") (r := b!"++\n(b)") .nil (.name (by decide) (by decide)) (by apart) ?_
  refine .cons (w := b!"++") (r := b!"\n(b)") .nil (.punct (q := .plusPlus) (by decide)) (by apart) ?_
  refine .cons (w := b!"(") (r := b!"b)") gap_lf (.punct (q := .parenOpen) (by decide)) (by apart) ?_
  refine .cons (w := b!"b") (r := b!")") .nil (.name (by decide) (by decide)) (by apart) ?_
  refine .cons (w := b!")") (r := []) .nil (.punct (q := .parenClose) (by decide)) (by apart) ?_
  exact .eof .nil

/-- `a++ (b)` -/
theorem spells_update_call : Spells b!"a++ (b)" [kw false b!"a", pt false .plusPlus, pt false .parenOpen, kw false b!"b", pt false .parenClose,
    (false, .eof)] := by
  refine .cons (w := b!"a") (r := b!"++ (b)") .nil (.name (by decide) (by decide)) (by apart) ?_
  refine .cons (w := b!"++") (r := b!" (b)") .nil (.punct (q := .plusPlus) (by decide)) (by apart) ?_
  refine .cons (w := b!"(") (r := b!"b)") gap_blank (.punct (q := .parenOpen) (by decide)) (by apart) ?_
  refine .cons (w := b!"b") (r := b!")") .nil (.name (by decide) (by decide)) (by apart) ?_
  refine .cons (w := b!")") (r := []) .nil (.punct (q := .parenClose) (by decide)) (by apart) ?_
  exact .eof .nil

/-- `let x = a` LF `in : b` -/
theorem spells_let_in : Spells b!"let x = a\nin : b" [kw false b!"let", kw false b!"x", pt false .eq, kw false b!"a", kw true b!"in", pt false .colon, kw
    false b!"b", (false, .eof)] := by
  refine .cons (w := b!"let") (r := b!" x = a\nin : b") .nil (.name (by decide) (by decide)) (by apart) ?_
  refine .cons (w := b!"x") (r := b!" = a\nin : b") gap_blank (.name (by decide) (by decide)) (by apart) ?_
  refine .cons (w := b!"=") (r := b!" a\nin : b") gap_blank (.punct (q := .eq) (by decide)) (by apart) ?_
  refine .cons (w := b!"a") (r := b!"\nin : b") gap_blank (.name (by decide) (by decide)) (by apart) ?_
  refine .cons (w := b!"in") (r := b!" : b") gap_lf (.name (by decide) (by decide)) (by apart) ?_
  refine .cons (w := b!":") (r := b!" b") gap_blank (.punct (q := .colon) (by decide)) (by apart) ?_
  refine .cons (w := b!"b") (r := []) gap_blank (.name (by decide) (by decide)) ⟨by decide, nofun⟩ ?_
  exact .eof .nil

/-- `var x = a` LF `in : b` -/
theorem spells_var_in : Spells b!"var x = a\nin : b" [kw false b!"var", kw false b!"x", pt false .eq, kw false b!"a", kw true b!"in", pt false .colon, kw
    false b!"b", (false, .eof)] := by
  refine .cons (w := b!"var") (r := b!" x = a\nin : b") .nil (.name (by decide) (by decide)) (by apart) ?_
  refine .cons (w := b!"x") (r := b!" = a\nin : b") gap_blank (.name (by decide) (by decide)) (by apart) ?_
  refine .cons (w := b!"=") (r := b!" a\nin : b") gap_blank (.punct (q := .eq) (by decide)) (by apart) ?_
  refine .cons (w := b!"a") (r := b!"\nin : b") gap_blank (.name (by decide) (by decide)) (by apart) ?_
  refine .cons (w := b!"in") (r := b!" : b") gap_lf (.name (by decide) (by decide)) (by apart) ?_
  refine .cons (w := b!":") (r := b!" b") gap_blank (.punct (q := .colon) (by decide)) (by apart) ?_
  refine .cons (w := b!"b") (r := []) gap_blank (.name (by decide) (by decide)) ⟨by decide, nofun⟩ ?_
  exact .eof .nil

/-- `async await => a` -/
theorem spells_async_await : Spells b!"async await => a" [kw false b!"async", kw false b!"await", pt false .arrow, kw false b!"a", (false, .eof)] := by
  refine .cons (w := b!"async") (r := b!" await => a") .nil (.name (by decide) (by decide)) (by apart) ?_
  refine .cons (w := b!"await") (r := b!" => a") gap_blank (.name (by decide) (by decide)) (by apart) ?_
  refine .cons (w := b!"=>") (r := b!" a") gap_blank (.punct (q := .arrow) (by decide)) (by apart) ?_
  refine .cons (w := b!"a") (r := []) gap_blank (.name (by decide) (by decide)) ⟨by decide, nofun⟩ ?_
  exact .eof .nil

/-- `throw async await : b` -/
theorem spells_throw_async : Spells b!"throw async await : b" [kw false b!"throw", kw false b!"async", kw false b!"await", pt false .colon, kw false b!"b",
    (false, .eof)] := by
  refine .cons (w := b!"throw") (r := b!" async await : b") .nil (.name (by decide) (by decide)) (by apart) ?_
  refine .cons (w := b!"async") (r := b!" await : b") gap_blank (.name (by decide) (by decide)) (by apart) ?_
  refine .cons (w := b!"await") (r := b!" : b") gap_blank (.name (by decide) (by decide)) (by apart) ?_
  refine .cons (w := b!":") (r := b!" b") gap_blank (.punct (q := .colon) (by decide)) (by apart) ?_
  refine .cons (w := b!"b") (r := []) gap_blank (.name (by decide) (by decide)) ⟨by decide, nofun⟩ ?_
  exact .eof .nil

/-- Behind `++` a call is no part of the expression; in a lexical declaration `in` is no operator, so that it may begin
the next line, here as a label; `await` is no parameter of an async arrow function, but may begin what follows `throw`. -/
example : Program [kw false b!"a", pt false .plusPlus, pt true .parenOpen, kw false b!"b", pt false .parenClose,
    (false, .eof)] ∧
    ¬ Program [kw false b!"a", pt false .plusPlus, pt false .parenOpen, kw false b!"b", pt false .parenClose,
    (false, .eof)] ∧
    Program [kw false b!"let", kw false b!"x", pt false .eq, kw false b!"a", kw true b!"in", pt false .colon, kw
    false b!"b", (false, .eof)] ∧
    ¬ Program [kw false b!"var", kw false b!"x", pt false .eq, kw false b!"a", kw true b!"in", pt false .colon, kw
    false b!"b", (false, .eof)] ∧
    ¬ Program [kw false b!"async", kw false b!"await", pt false .arrow, kw false b!"a", (false, .eof)] ∧
    Program [kw false b!"throw", kw false b!"async", kw false b!"await", pt false .colon, kw false b!"b",
    (false, .eof)] :=
  ⟨(C45_core_exact (checked := true) (utf8_ascii (by decide)) spells_update_line (by decide) (by decide)).1
      (by rw [parseRoot_eval]; decide +kernel),
    (C45_rejected (checked := true) (utf8_ascii (by decide)) spells_update_call (by decide) (by decide)).1
      ⟨.unexpectedToken, by rw [parseRoot_eval]; decide +kernel⟩,
    (C45_core_exact (checked := true) (utf8_ascii (by decide)) spells_let_in (by decide) (by decide)).1
      (by rw [parseRoot_eval]; decide +kernel),
    (C45_rejected (checked := true) (utf8_ascii (by decide)) spells_var_in (by decide) (by decide)).1
      ⟨.unexpectedToken, by rw [parseRoot_eval]; decide +kernel⟩,
    (C45_rejected (checked := true) (utf8_ascii (by decide)) spells_async_await (by decide) (by decide)).1
      ⟨.unexpectedToken, by rw [parseRoot_eval]; decide +kernel⟩,
    (C45_core_exact (checked := true) (utf8_ascii (by decide)) spells_throw_async (by decide) (by decide)).1
      (by rw [parseRoot_eval]; decide +kernel)⟩

/-- A parenthesis on a new line continues the expression, here beyond its end. -/
theorem spells_new_line : Spells b!"a\n(" [kw false b!"a", pt true .parenOpen, (false, .eof)] := by
  refine .cons (w := b!"a") (r := b!"\n(") .nil (.name (by decide) (by decide)) (by apart) ?_
  refine .cons (w := b!"(") (r := []) gap_lf (.punct (q := .parenOpen) (by decide)) (by apart) ?_
  exact .eof .nil

example : ¬ Program [kw false b!"a", pt true .parenOpen, (false, .eof)] :=
  (C45_rejected (checked := true) (utf8_ascii (by decide)) spells_new_line (by decide) (by decide)).1
    ⟨.unexpectedToken, by rw [parseRoot_eval]; decide +kernel⟩

/-- The line terminator decides. -/
example : Program [kw false b!"a", kw true b!"b", (false, .eof)] ∧
    ¬ Program [kw false b!"a", kw false b!"b", (false, .eof)] :=
  ⟨(C45_core_exact (checked := true) (utf8_ascii (by decide)) spells_two_lines (by decide) (by decide)).1
      (by rw [parseRoot_eval]; decide +kernel),
    (C45_rejected (checked := true) (utf8_ascii (by decide)) spells_one_line (by decide) (by decide)).1
      ⟨.unexpectedToken, by rw [parseRoot_eval]; decide +kernel⟩⟩

/-- From the grammar to the text, for the empty statement. -/
example : parseRoot true b!";" = .accepted :=
  C45_derivable_accepted (u := [pt false .semicolon, (false, .eof)]) (utf8_ascii (by decide))
    (.cons (w := b!";") (r := []) .nil (.punct (q := .semicolon) (by decide)) (by apart) (.eof .nil)) (by decide)
    (.nt (.seq (.star (.nt (.altl (.nt (.altr (.seq (.notAhead (by decide)) (.nt (.altr (.altl (.t rfl))))))))) .nil) (.t rfl)))

/-- C46 is about texts without slashes: this one stops the tokenizer. -/
example : parseRoot true b!"1 / 2" = .panicked .unterminatedRegex := by rw [parseRoot_eval]; decide +kernel

end Jsparse
