import Verif.Proofs.FwdText
import Verif.Proofs.Eval
/-!
# C39: a large part of JavaScript is accepted

`Spec/Fragment.lean` is the grammar of the fragment, over tokens; `Spec/Text.lean` says how tokens are
written down.
-/

namespace Jsparse

open P Spec Forward

/-- **C39.** Every text that consists of the tokens of a program of the fragment is accepted. -/
theorem C39_fragment_accepted {checked : Bool} {code : Bytes} {u : List Tok} (hu : Utf8 code)
    (hs : Spells code u) (hf : Frag {} .program u []) : parseRoot checked code = .accepted := by
  obtain ⟨k, hk⟩ := stream_of_spells checked hs hu
  exact accepted_of_stream hu (hk _ (valid_intoTokenizer checked hu) rfl rfl) (frag_renumber k hf)

/-! ## Examples -/

/-- The next token, a given one, continues no left-hand side. -/
macro "ended" : tactic => `(tactic| (intro x v h; cases h; decide))

/-- Tokens that do not run together. -/
macro "apart" : tactic => `(tactic| first
  | exact ⟨by decide, trivial⟩
  | exact ⟨by decide, by rintro _ _ ⟨⟩; decide⟩
  | exact ⟨by decide, by rintro _ _ ⟨⟩; exact ⟨by decide, by decide, by decide⟩⟩
  | exact ⟨by decide, by intro q; cases q <;> decide, by decide, nofun⟩
  | exact ⟨by decide, by intro q; cases q <;> decide, by decide, by rintro _ _ _ ⟨⟩; decide⟩)

theorem gap_blank : Gap b!" " false := .blank _ _ _ (by decide) .nil

theorem gap_lf : Gap b!"\n" true := .newline b!"\n" [] _ (by decide) .nil

/-- A number without leading zero. -/
theorem digit_lexeme {b : UInt8} {v : NumExpr} (h : Digit b) (h0 : b ≠ c!"0") : Lexeme (.num v) [b] :=
  .decimal (d := ⟨[b], none, none⟩) ⟨by simpa using h, nofun, nofun, fun r h => by cases h; exact absurd rfl h0, nofun⟩
    nofun (fun h => h.2.2 rfl) nofun

/-- `let x = f(1) / 2;` LF `x // end` -/
example : parseRoot true b!"let x = f(1) / 2;\nx // end" = .accepted := by
  refine C39_fragment_accepted (u := [kw false b!"let", kw false b!"x", pt false .eq, kw false b!"f",
    pt false .parenOpen, (false, .num (.lit 1)), pt false .parenClose, pt false .slash,
    (false, .num (.lit 2)), pt false .semicolon, kw true b!"x", (false, .eof)]) (utf8_ascii (by decide)) ?_ ?_
  · -- the tokens of the text
    refine .cons (w := b!"let") (r := b!" x = f(1) / 2;\nx // end") .nil (.name (by decide) (by decide)) (by apart) ?_
    refine .cons (w := b!"x") (r := b!" = f(1) / 2;\nx // end") gap_blank (.name (by decide) (by decide)) (by apart) ?_
    refine .cons (w := b!"=") (r := b!" f(1) / 2;\nx // end") gap_blank (.punct (q := .eq) (by decide)) (by apart) ?_
    refine .cons (w := b!"f") (r := b!"(1) / 2;\nx // end") gap_blank (.name (by decide) (by decide)) (by apart) ?_
    refine .cons (w := b!"(") (r := b!"1) / 2;\nx // end") .nil (.punct (q := .parenOpen) (by decide)) (by apart) ?_
    refine .cons (w := b!"1") (r := b!") / 2;\nx // end") .nil (digit_lexeme (by decide) (by decide)) (by apart) ?_
    refine .cons (w := b!")") (r := b!" / 2;\nx // end") .nil (.punct (q := .parenClose) (by decide)) (by apart) ?_
    refine .cons (w := b!"/") (r := b!" 2;\nx // end") gap_blank (.punct (q := .slash) (by decide)) (by apart) ?_
    refine .cons (w := b!"2") (r := b!";\nx // end") gap_blank (digit_lexeme (by decide) (by decide)) (by apart) ?_
    refine .cons (w := b!";") (r := b!"\nx // end") .nil (.punct (q := .semicolon) (by decide)) (by apart) ?_
    refine .cons (w := b!"x") (r := b!" // end") gap_lf (.name (by decide) (by decide)) (by apart) ?_
    exact .comment (cs := [' ', 'e', 'n', 'd']) gap_blank (by decide)
  · -- the program
    exact .program (l := false) (.moduleItemsCons
      (.moduleItem (.letDecl (.declrsLast (.declrInit (by decide) (.init (.value nofun (.unconditional
        (.operator (by decide) (fun _ => rfl)
          (.updated nofun (.plain (by ended) (.lhs (.name (by decide) (fun _ h => absurd h (by decide)) (by simp [NotNext])) (.tailCall
            (.argsLast nofun (.value nofun (.unconditional (.operand (.updated nofun (.plain (by ended) (.lhs .num .tailNil)))))))
            .tailNil))))
          (.operand (.updated nofun (.plain (by ended) (.lhs .num .tailNil)))))))))) (.token (l := false))))
      (.moduleItemsCons (.moduleItem (.itemStmt (.exprStmt (x := kw true b!"x") (u := [(false, .eof)])
          (by decide) (fun _ => by decide) nofun
          (.expr (.value nofun (.unconditional (.operand (.updated nofun (.plain (by ended) (.lhs (.name (by decide) (fun _ h => absurd h (by decide)) (by simp [NotNext])) .tailNil))))))
            .moreNil)
          (.insert (.inr (.inl rfl)))) nofun))
        .moduleItemsNil))

/-- `async (a) => ({get: a})` -/
example : parseRoot true b!"async (a) => ({get: a})" = .accepted := by
  refine C39_fragment_accepted (u := [kw false b!"async", pt false .parenOpen, kw false b!"a", pt false .parenClose,
    pt false .arrow, pt false .parenOpen, pt false .curlyOpen, kw false b!"get", pt false .colon, kw false b!"a",
    pt false .curlyClose, pt false .parenClose, (false, .eof)]) (utf8_ascii (by decide)) ?_ ?_
  · refine .cons (w := b!"async") (r := b!" (a) => ({get: a})") .nil (.name (by decide) (by decide)) (by apart) ?_
    refine .cons (w := b!"(") (r := b!"a) => ({get: a})") gap_blank (.punct (q := .parenOpen) (by decide)) (by apart) ?_
    refine .cons (w := b!"a") (r := b!") => ({get: a})") .nil (.name (by decide) (by decide)) (by apart) ?_
    refine .cons (w := b!")") (r := b!" => ({get: a})") .nil (.punct (q := .parenClose) (by decide)) (by apart) ?_
    refine .cons (w := b!"=>") (r := b!" ({get: a})") gap_blank (.punct (q := .arrow) (by decide)) (by apart) ?_
    refine .cons (w := b!"(") (r := b!"{get: a})") gap_blank (.punct (q := .parenOpen) (by decide)) (by apart) ?_
    refine .cons (w := b!"{") (r := b!"get: a})") .nil (.punct (q := .curlyOpen) (by decide)) (by apart) ?_
    refine .cons (w := b!"get") (r := b!": a})") .nil (.name (by decide) (by decide)) (by apart) ?_
    refine .cons (w := b!":") (r := b!" a})") .nil (.punct (q := .colon) (by decide)) (by apart) ?_
    refine .cons (w := b!"a") (r := b!"})") gap_blank (.name (by decide) (by decide)) (by apart) ?_
    refine .cons (w := b!"}") (r := b!")") .nil (.punct (q := .curlyClose) (by decide)) (by apart) ?_
    refine .cons (w := b!")") (r := []) .nil (.punct (q := .parenClose) (by decide)) (by apart) ?_
    exact .eof .nil
  · have name : ∀ {C f l l' q v}, ¬ Continues (pt false q) → Frag C (.assign f f) (kw l b!"a" :: pt l' q :: v) (pt l' q :: v) := fun {C f l l' q v} hq =>
      .value nofun (.unconditional (.operand (.updated nofun (.plain (Forward.ended_pt hq) (.lhs (.name (.inl (by decide)) (fun _ h => absurd h (by decide)) (by simp [NotNext]))
        .tailNil)))))
    have value : ∀ {C f e g u v}, Ended v → Frag C (.prim f e g) u v → Frag C (.assign f g) u v := fun hv h =>
      .value nofun (.unconditional (.operand (.updated nofun (.plain hv (.lhs h .tailNil)))))
    have body := value (by ended) (.paren (C := { ({} : Ctx) with in_ := true }) (f := true) (l := false) (l' := false)
      (v := [(false, .eof)])
      (value (by ended) (.object (l := false) (l' := false) (.propsLast (.keyValue (l := false) (.keyName (l := false) (n := b!"get"))
        (name (l := false) (by decide)))))) .moreNil)
    refine .program (l := false) (.moduleItemsCons (.moduleItem (.itemStmt (v := [(false, .eof)]) ?_ nofun)) .moduleItemsNil)
    refine .exprStmt (u' := [(false, .eof)]) (by decide) (fun _ => by decide) nofun ?_ (.insert (.inr (.inl rfl)))
    exact .expr (.asyncArrows (.arrowLast (.arrowParam (by decide))) (.argsLast nofun (name (by decide)))
      (.bodyExpr (x := pt false .parenOpen) (by decide) body)) .moreNil

/-! ## A family of programs without bound -/

/-- The text `((… a …))` with `n` pairs of parentheses. -/
def nested (n : Nat) : Bytes := List.replicate n c!"(" ++ b!"a" ++ List.replicate n c!")"

theorem spells_closing : ∀ n, Spells (List.replicate n c!")")
    (List.replicate n (pt false .parenClose) ++ [(false, .eof)])
  | 0 => .eof .nil
  | n + 1 => by
    have h : Apart (.punct .parenClose) b!")" (List.replicate n c!")") := by
      cases n with
      | zero => apart
      | succ n =>
        refine ⟨by rintro ⟨h, -⟩; exact absurd h (by decide), ?_, nofun, nofun⟩
        intro q _ h; cases q <;> first | decide | (simp [spelling] at h)
    exact .cons (w := b!")") .nil (.punct (q := .parenClose) (by decide)) h (spells_closing n)

theorem spells_nested (n : Nat) : Spells (nested n)
    (List.replicate n (pt false .parenOpen) ++ kw false b!"a" :: (List.replicate n (pt false .parenClose) ++
      [(false, .eof)])) := by
  have key : ∀ k, Spells (List.replicate k c!"(" ++ (b!"a" ++ List.replicate n c!")"))
      (List.replicate k (pt false .parenOpen) ++ kw false b!"a" :: (List.replicate n (pt false .parenClose) ++
        [(false, .eof)])) := by
    intro k
    induction k with
    | zero =>
      refine .cons (w := b!"a") .nil (.name (by decide) (by decide)) ⟨by rintro ⟨h, -⟩; exact absurd h (by decide), ?_⟩
        (spells_closing n)
      intro b r' h
      cases n with
      | zero => cases h
      | succ n => cases h; decide
    | succ k ih =>
      refine .cons (w := b!"(") .nil (.punct (q := .parenOpen) (by decide)) ?_ ih
      refine ⟨by rintro ⟨h, -⟩; exact absurd h (by decide), ?_, nofun, nofun⟩
      intro q _ h
      cases q <;> first | decide | (simp [spelling] at h)
  simpa [nested] using key n

theorem frag_nested {C : Ctx} : ∀ n f v, NotNext b!"function" v → Ended v → ∃ g, Frag C (.assign f g)
    (List.replicate n (pt false .parenOpen) ++ kw false b!"a" ::
      (List.replicate n (pt false .parenClose) ++ v)) v
  | 0, _, v, hv, he => ⟨_, .value nofun (.unconditional (.operand (.updated nofun (.plain he (.lhs (.name (.inl (by decide)) (fun _ h => absurd h (by decide)) hv) .tailNil)))))⟩
  | n + 1, f, v, _, he => by
    obtain ⟨g, h⟩ := frag_nested (C := C) n true (pt false .parenClose :: v) (by simp [NotNext]) (by ended)
    rw [show List.replicate n (pt false .parenClose) ++ pt false .parenClose :: v
      = List.replicate (n + 1) (pt false .parenClose) ++ v by
        rw [List.replicate_succ', List.append_assoc]; rfl] at h
    exact ⟨_, .value nofun (.unconditional (.operand (.updated nofun (.plain he (.lhs (.paren h .moreNil) .tailNil)))))⟩

/-- Parentheses can be nested to any depth. -/
theorem C39_nested (checked : Bool) (n : Nat) : parseRoot checked (nested n) = .accepted := by
  refine C39_fragment_accepted ?_ (spells_nested n) ?_
  · refine utf8_ascii ?_
    intro b hb
    simp only [nested, List.mem_append, List.mem_replicate, List.mem_singleton] at hb
    rcases hb with (⟨-, rfl⟩ | rfl) | ⟨-, rfl⟩ <;> decide
  · obtain ⟨g, h⟩ := frag_nested (C := { ({} : Ctx) with in_ := true }) n false [(false, .eof)] (by simp [NotNext]) (by ended)
    refine .program (l := false) (.moduleItemsCons (.moduleItem (.itemStmt (v := [(false, .eof)]) ?_ (by
      cases n <;> (rintro x u' h; cases h; decide)))) .moduleItemsNil)
    cases n with
    | zero => exact .exprStmt (by decide) (fun _ => by decide) nofun (.expr h .moreNil) (.insert (.inr (.inl rfl)))
    | succ n => exact .exprStmt (by decide) (fun _ => by decide) nofun (.expr h .moreNil) (.insert (.inr (.inl rfl)))

/-! ## What is left out -/

/-- Programs that every JavaScript engine accepts and this parser does not: why the fragment leaves these
constructs out. -/
theorem C39_left_out :
    (∀ code ∈ [b!"async function f() {}", b!"x = async function () {}", b!"x = class {}",
      b!"function f() { new.target }", b!"export function f() {}", b!"export class A {}",
      b!"f(...a, ...b)", b!"async x => await x", b!"(a,) => a",
      b!"switch (a) { case 1: default: }", b!"a\nfunction f() {}", b!"for (let i = 0, j; ;) ;", b!"for (let of of a) ;",
      b!"let x = a in b", b!"let x = (a in b)"],
      parseRoot true code = .rejected .unexpectedToken) ∧
    (∀ code ∈ [b!"1 / 2", b!"'a' / 2", b!"this / 2", b!"a[0] / 2", b!"return 1 / 2"],
      parseRoot true code = .panicked .unterminatedRegex) := by
  simp only [parseRoot_eval]
  decide +kernel

end Jsparse
