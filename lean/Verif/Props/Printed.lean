import Verif.Proofs.PrintedClear
import Verif.Proofs.PrintedUtf8
import Verif.Props.Core
import Verif.Props.Printer
/-!
# C53: the parser accepts the scripts that the printer writes

The printer writes pieces; `Written ps u` (Spec/Printed.lean) says which tokens they stand for, and
`Clear` that no two of them run together.
-/

namespace Jsparse

open Spec Ast

/-- A space is printed in front of words and numbers only, whatever the tree. -/
theorem C53_spaces (n : Node) : Spaced (n.fmt Fmt.new).output := Ast.Printed.spaced_print n

/-- The tokens of a printed script are a program of the grammar of C32. -/
theorem C53_program_partial (l : Nodes) (hl : ∀ s ∈ items l, PrintableStmt s)
    (hg : ∀ s ∈ items l, LegalStmt true s) :
    ∃ u, Written (strip ((Node.item .root l .none .none .none .none).fmt Fmt.new).output) u ∧
      Program (u ++ [(false, .eof)]) := by
  obtain ⟨stmts, a, b, c⟩ := C52_script_reads_back_partial l hl
  obtain ⟨u, hw, _, hp⟩ := Ast.Printed.der_script b (fun s hs => hg _ (a ▸ List.mem_map_of_mem hs))
  exact ⟨u, c ▸ hw, hp⟩

/-- The text of a printed script is UTF-8. -/
theorem C53_utf8_partial (l : Nodes) (hl : ∀ s ∈ items l, PrintableStmt s)
    (hg : ∀ s ∈ items l, LegalStmt true s) : Utf8 (Node.item .root l .none .none .none .none).print := by
  obtain ⟨u, hw, _⟩ := C53_program_partial l hl hg
  exact Ast.Printed.print_utf8 hw

/-- **C53.** The text of a printed script is accepted by the parser, if no two pieces run together. -/
theorem C53_accepted_partial {checked : Bool} (l : Nodes) (hl : ∀ s ∈ items l, PrintableStmt s)
    (hg : ∀ s ∈ items l, LegalStmt true s)
    (hc : Clear ((Node.item .root l .none .none .none .none).fmt Fmt.new).output = true) :
    parseRoot checked (Node.item .root l .none .none .none .none).print = .accepted := by
  obtain ⟨stmts, a, b, c⟩ := C52_script_reads_back_partial l hl
  obtain ⟨u, hw, hseg, hp⟩ :=
    Ast.Printed.der_script b (fun s hs => hg _ (a ▸ List.mem_map_of_mem hs))
  have hs := Ast.Printed.spells hw _ c (C53_spaces _) (C49_words_apart _) hc hseg.plain hseg.eq
  refine C45_derivable_accepted (C53_utf8_partial l hl hg) hs (Ast.Printed.coreText_of fun x hx => ⟨hseg.plain x hx, ?_⟩) hp
  exact Ast.Printed.written_line hw x hx

/-- No two pieces of a printed script run together, if in the tree no sign, `++` or `--` follows a sign or
the operators `+` and `-`, no operator that begins with `>` follows `--`, no dot, `in` or `instanceof`
follows a number, and no number ends with `e`. -/
theorem C53_clear_partial (l : Nodes) (hl : ∀ s ∈ items l, PrintableStmt s)
    (hg : ∀ s ∈ items l, LegalStmt true s) (hc : ∀ s ∈ items l, calm s = true) :
    Clear ((Node.item .root l .none .none .none .none).fmt Fmt.new).output = true := by
  obtain ⟨stmts, a, b, c⟩ := C52_script_reads_back_partial l hl
  obtain ⟨u, hw, _, _⟩ := Ast.Printed.der_script b (fun s hs => hg _ (a ▸ List.mem_map_of_mem hs))
  refine Ast.Printed.clear_of _ ?_ (fun n hn => Ast.Printed.written_ident hw ?_)
    fun t ht => Ast.Printed.written_num hw ?_
  · rw [c]
    exact Ast.Printed.calm_script stmts fun s hs => ⟨b s hs, hc _ (a ▸ List.mem_map_of_mem hs)⟩
  · rw [← c]
    simp [strip, hn]
  · rw [← c]
    simp [strip, ht]

/-- C53 without a condition on the text, for these trees: all hypotheses are on the tree. -/
theorem C53_accepted_calm_partial {checked : Bool} (l : Nodes) (hl : ∀ s ∈ items l, PrintableStmt s)
    (hg : ∀ s ∈ items l, LegalStmt true s) (hc : ∀ s ∈ items l, calm s = true) :
    parseRoot checked (Node.item .root l .none .none .none .none).print = .accepted :=
  C53_accepted_partial l hl hg (C53_clear_partial l hl hg hc)

/-- The trees left out by `calm` include some whose pieces do run together: signs, `++` and `--`, and numbers
before a dot or `in`. -/
theorem C53_not_clear :
    let text (e : Node) := (e.print, calm e || Clear (e.fmt Fmt.new).output)
    let a : Node := .ident b!"a"
    text (.bin .add a (.unary .positive a)) = (b!"a++a", false) ∧
    text (.bin .subtract a (.«prefix» false a)) = (b!"a---a", false) ∧
    text (.bin .greaterThan (.postfix false a) a) = (b!"a-->a", false) ∧
    text (.member (.num b!"1") (.dot a)) = (b!"1.a", false) ∧
    text (.unary .positive (.unary .positive a)) = (b!"++a", false) ∧
    text (.inOp (.num b!"1") a) = (b!"(1in a)", false) := by decide

/-- Signs and `--` where they do no harm. -/
example :
    let a : Node := .ident b!"a"
    let script := Node.item .root (.cons (.exprStmt (.assign a (.bin .multiply (.unary .positive (.num b!"1"))
      (.postfix false a)))) .nil) .none .none .none .none
    script.print = b!"a=+1*a--;" ∧ Clear (script.fmt Fmt.new).output = true := by
  intro a script
  have ha (i : Bool) : Legal i a := .ident (by
    refine ⟨.name (by decide) (by simp), ⟨?_, by simp, by simp, by simp⟩, by simp, by simp⟩
    decide)
  have one : Lexeme (.num (.lit 1)) b!"1" := .decimal (d := ⟨b!"1", none, none⟩)
    ⟨by decide, nofun, nofun, nofun, nofun⟩ nofun nofun nofun
  refine ⟨by decide, C53_clear_partial _ ?_ ?_ ?_⟩ <;> simp only [items, List.mem_singleton, forall_eq]
  · exact .exprStmt (.assign (.ident _) (.inr (by decide)) (.bin nofun (.unary nofun (.num _)
      (.inr (by decide))) (by decide) (.postfix _ (.ident _) (.inr (by decide))) (.inr (by decide))) (.inl rfl))
  · exact .exprStmt (.assign (ha _) (.bin nofun (.unary nofun (.num one)) (.postfix _ (ha _))))
  · decide

/-- Names of one letter. -/
theorem legalName_letter (n : UInt8) (h : IdentStart n) : LegalName [n] := by
  refine ⟨.name h (by simp), ⟨fun hm => ?_, by simp, by simp, by simp⟩, by simp, by simp⟩
  have : ∀ w ∈ reservedWords, w.length ≠ 1 := by decide
  exact this _ hm rfl

/-- A script. -/
example :
    let name (n : UInt8) : Node := .ident [n]
    let l : Nodes := .cons
      (.ifElse (name c!"a")
        (.ifStmt (name c!"b") (.exprStmt (.assign (name c!"x") (.num b!"1"))))
        (.exprStmt (.call (name c!"f") (.args (.cons (.str b!"s") .nil)
          (.bin .add (name c!"y") (.unary .typeof (name c!"z")))))))
      (.cons (.whileStmt (name c!"i") (.exprStmt (.postfix true (name c!"i")))) .nil)
    let n := Node.item .root l .none .none .none .none
    n.print = b!"if(a){if(b)x=1;}else f('s',y+typeof z);while(i)i++;" ∧
      parseRoot true n.print = .accepted := by
  intro name l n
  have nm (i : Bool) (n : UInt8) (h : IdentStart n) : Legal i (name n) := .ident (legalName_letter n h)
  have one (v : NumExpr) : Lexeme (.num v) b!"1" := .decimal (d := ⟨b!"1", none, none⟩)
    ⟨by decide, nofun, nofun, nofun, nofun⟩ nofun nofun nofun
  refine ⟨by decide, C53_accepted_partial _ ?_ ?_ (by decide)⟩
  · intro s hs
    simp only [l, items, List.mem_cons, List.not_mem_nil, or_false] at hs
    rcases hs with rfl | rfl
    · refine .ifElse (.ident _) (.ifStmt (.ident _)
        (.exprStmt (.assign (.ident _) (.inr (by decide)) (.num _) (.inr (by decide)))))
        (.exprStmt (.callLast (.ident _) (.inr (by decide)) ?_ ?_
          (.bin nofun (.ident _) (by decide) (.unary nofun (.ident _) (.inr (by decide)))
            (.inr (by decide))) (by decide))) <;> simp only [items, List.mem_singleton, forall_eq]
      · exact .str _
      · exact .inr (by decide)
    · exact .whileStmt (.ident _) (.exprStmt (.postfix _ (.ident _) (.inr (by decide))))
  · intro s hs
    simp only [l, items, List.mem_cons, List.not_mem_nil, or_false] at hs
    rcases hs with rfl | rfl
    · refine .ifElse (nm _ _ (by decide)) (.ifStmt (nm _ _ (by decide))
        (.exprStmt (.assign (nm _ _ (by decide)) (.num (one (.lit 1))))))
        (.exprStmt (.callLast (nm _ _ (by decide)) ?_ (.bin nofun (nm _ _ (by decide))
          (.unary nofun (nm _ _ (by decide))))))
      simp only [items, List.mem_singleton, forall_eq]
      exact .str (.char _ _ (by decide) (by decide) (by decide) .nil) (utf8_ascii (by decide))
    · exact .whileStmt (nm _ _ (by decide)) (.exprStmt (.postfix _ (nm _ _ (by decide))))

/-- An array in an initializer. -/
example :
    let script := Node.item .root (.cons (.decl .«let» .nil (.patternItem (.ident b!"a") (.init
      (.array (.cons (.arrayItem (.ident b!"b")) .nil)
        (.arrayItem (.seq (.ident b!"c") (.array .nil .none))))))) .nil) .none .none .none .none
    script.print = b!"let a=[b,(c,[])];" ∧ parseRoot true script.print = .accepted := by
  intro script
  have nm (n : UInt8) (h : IdentStart n) : LegalName [n] := legalName_letter n h
  refine ⟨by decide, C53_accepted_calm_partial _ ?_ ?_ ?_⟩ <;>
    simp only [items, List.mem_singleton, forall_eq]
  · refine .decl (by simp [items]) (.init (.arrayLast [.ident b!"b"] rfl ?_ ?_ (.seq (.ident _)
      (.array [] rfl nofun nofun) (.inr (by decide))) (.inl rfl)) (.inr (by decide))) <;>
      simp only [List.mem_singleton, forall_eq]
    · exact .ident _
    · exact .inr (by decide)
  · refine .decl (fun _ => rfl) (by simp [items]) (.init (nm _ (by decide)) (.arrayLast [.ident b!"b"] rfl ?_
      (.seq (.ident (nm _ (by decide))) (.array [] rfl nofun))))
    simp only [List.mem_singleton, forall_eq]
    exact .ident (nm _ (by decide))
  · decide

/-- A function with a loop over values and `catch`. -/
example :
    let n : Node := .funcDecl .normal (.ident b!"f") (.args (.cons (.patternItem (.ident b!"a") .none) .nil)
        (.patternItem (.ident b!"b") (.init (.ident b!"c"))))
      (.block (.cons (.forOf false (.forPattern .«let» (.ident b!"x") .none) (.ident b!"a")
        (.tryCatch (.block (.cons (.exprStmt (.ident b!"g")) .nil))
          (.catchClause (.paren (.ident b!"e")) (.block (.cons (.ret (.retValue (.ident b!"b"))) .nil))))) .nil))
    let script := Node.item .root (.cons n .nil) .none .none .none .none
    script.print = b!"function f(a,b=c){for(let x of a)try{g;}catch(e){return b;}}" ∧
      parseRoot true script.print = .accepted := by
  intro n script
  have nm (n : UInt8) (h : IdentStart n) : LegalName [n] := legalName_letter n h
  refine ⟨by decide, C53_accepted_partial _ ?_ ?_ (by decide)⟩ <;>
    simp only [n, items, List.mem_singleton, forall_eq]
  · refine .funcDecl ?_ (.inr (.init (.ident _) (.inr (by decide)))) (.block ?_) <;>
      simp only [items, List.mem_singleton, forall_eq]
    · exact .name _
    · refine .forOf (.ident _) (by decide) (.tryCatch (.block ?_) (.block ?_)) <;>
        simp only [items, List.mem_singleton, forall_eq]
      · exact .exprStmt (.ident _)
      · exact .retValue (.ident _)
  · refine .funcDecl (nm _ (by decide)) ?_ (.inr (.init (nm _ (by decide)) (.ident (nm _ (by decide)))))
      (.block ?_) <;> simp only [items, List.mem_singleton, forall_eq]
    · exact .name (nm _ (by decide)) nofun
    · refine .forOf (nm _ (by decide)) (by decide) (.ident (nm _ (by decide))) (.tryCatch
        (nm _ (by decide)) (.block ?_) (.block ?_)) <;> simp only [items, List.mem_singleton, forall_eq]
      · exact .exprStmt (.ident (nm _ (by decide)))
      · exact .retValue (.ident (nm _ (by decide)))

/-- The text of a script with one statement. -/
def scriptText (s : Node) : Bytes := (Node.item .root (.cons s .nil) .none .none .none .none).print

/-- What is left out is rejected: operators that run together; `in` in the initializer of `let` although
it is in parentheses; the division of a string; a constant without initializer. -/
theorem C53_rejected :
    (let s : Node := .exprStmt (.bin .add (.ident b!"a") (.unary .positive (.ident b!"b")))
     PrintableStmt s ∧ LegalStmt true s ∧ scriptText s = b!"a++b;" ∧
       parseRoot true (scriptText s) ≠ .accepted) ∧
    (let s : Node := .decl .«let» .nil (.patternItem (.ident b!"a")
       (.init (.inOp (.ident b!"b") (.ident b!"c"))))
     PrintableStmt s ∧ scriptText s = b!"let a=(b in c);" ∧
       parseRoot true (scriptText s) ≠ .accepted) ∧
    (let s : Node := .exprStmt (.bin .divide (.str b!"a") (.ident b!"b"))
     PrintableStmt s ∧ scriptText s = b!"'a'/b;" ∧ parseRoot true (scriptText s) ≠ .accepted) ∧
    (let s : Node := .decl .const .nil (.patternItem (.ident b!"a") .none)
     PrintableStmt s ∧ scriptText s = b!"const a;" ∧ parseRoot true (scriptText s) ≠ .accepted) := by
  have nm (n : UInt8) (h : IdentStart n) : Legal true (.ident [n]) := .ident (legalName_letter n h)
  refine ⟨⟨.exprStmt (.bin nofun (.ident _) (by decide) (.unary nofun (.ident _) (.inr (by decide)))
    (.inr (by decide))), .exprStmt (.bin nofun (nm _ (by decide)) (.unary nofun (nm _ (by decide)))),
    by decide, ?_⟩, ⟨.decl nofun (.init (.inOp (.ident _) (by decide) (.ident _) (.inr (by decide)))
    (.inr (by decide))), by decide, ?_⟩, ⟨.exprStmt (.bin nofun (.str _) (by decide) (.ident _)
    (.inr (by decide))), by decide, ?_⟩, ⟨.decl nofun (.name _), by decide, ?_⟩⟩ <;>
  · rw [parseRoot_eval]; decide +kernel

end Jsparse
