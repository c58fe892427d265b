# Formal model of jsparse-rs

Subject: the tokenizer and parser of `/repo` (crate `jsparse-rs`), i.e. everything reachable from
the public API: `parser::parse_root::<&str, ()>(code)` and `<&str>::into_tokenizer()` /
`Tokenizer::next_token`.

## Layout

| path | content |
|---|---|
| `lean/Verif/Model/Bytes.lean` | `&str` as bytes, UTF-8, slicing with boundary check, panics |
| `lean/Verif/Model/Tokens.lean` | `tokenizer/tokens.rs`, data types of `tokenizer/mod.rs` |
| `lean/Verif/Model/Tokenizer.lean` | `tokenizer/slice.rs`, function by function |
| `lean/Verif/Model/Parser.lean` | `parser/mod.rs`, `parser/utils.rs` |
| `lean/Verif/Model/ParseFns.lean` | `parser/{file,functions,statements,declarations,classes,module,expressions}.rs` |
| `lean/Verif/Model/Printer.lean` | `ast/display.rs` and the printers of the nodes |
| `lean/Verif/Spec/*` | specifications, written without the model's helper functions |
| `lean/Verif/Proofs/*` | lemmas |
| `lean/Verif/Props/*` | the property theorems, each with a concrete instance of its hypotheses |

Every definition of the model cites the file and lines it models.

## Trusted base

* Lean 4.33 kernel. Theorems depend on no axioms other than `propext`, `Classical.choice`,
  `Quot.sound`. No `sorry`, no `native_decide`, no `bv_decide`, no axioms of our own.
* The reading of the Rust code by the model (nothing is extracted automatically), and the reading of
  the Rust standard library functions used: `str` slicing (`&s[a..b]` panics unless `a ≤ b` and both
  are character boundaries), `str::chars`, `str::starts_with`, `Vec::push/pop`, `mem::replace`.

## What is modelled

* All of `src/tokenizer/{mod,tokens,slice}.rs` except `impl Clone` (which is `unimplemented!()`) and
  the tests.
* All of `src/parser/*.rs` except the tests, the `println!`s and the timing in `from_tokenizer`.
* The printer of syntax trees: `src/ast/display.rs` and the `NodeDisplay` impls of
  `src/ast/{literal,general,expression,objects,patterns,functions,statement,classes,decorators,modules,root}.rs`
  (`lean/Verif/Model/Printer.lean`). `pub mod ast` is commented out in `lib.rs`, and the code does not
  compile at this commit: calls lack arguments and enumerations lack node types. The model reads it as
  meant and says how. C47 and later properties are about this code, not about the compiled crate.
* Panics are values (`Panic`), so "the code panics" is a statement inside the model. A panic ends the
  run; the state left behind (visible only through `catch_unwind`) is not modelled.
* The build mode (arithmetic overflow checks on or off) is a parameter `checked`.

## What is not modelled, and simplifications

* `src/main.rs`, `src/lib.rs`: `main.rs` reads a file and calls `parse_root`.
* `src/ast/jsx.rs`, the conversions (`From`) and comment iterators of `src/ast`. The rest of the printer is
  modelled (see above) although `pub mod ast` is commented out in `lib.rs`.
* `usize` is `Nat` (no text is longer than the address space). `in_escape: i32` of `tok_str` is a
  `Nat` (would overflow only for a `\u{` escape of 2³¹ bytes).
* `f64`: the tokenizer records the exact sequence of `f64` operations it performs as a symbolic
  expression (`NumExpr`); theorems about values interpret that expression in exact rational
  arithmetic, or in any arithmetic that is exact on integers below 2⁵³. The comparison
  `value == 0f64` is decided syntactically (proved to agree with exact arithmetic).
* `failure::Error` is an enumeration of the reasons; `unwrap` of it is the outcome `rejected`.
* Stack overflow and memory exhaustion are not modelled. C24 bounds the recursion depth linearly, so a
  text with deep nesting can still exhaust a real stack.
* Mutual recursion of the parser methods goes through `run : Nat → Fn → …` with a bound. `timeout` is a
  separate outcome; C24 shows `parseRoot` never returns it, and that a larger bound never changes the
  result.
* Ghost state: `Look.range` and `PState.log` (tokens popped so far). Nothing reads them. An error carries
  the state in which it arose (`Res.err e s`), also as a ghost: nothing continues after an error.

## Plan per property

How each is expressed and proved. "Refuted" means: the negation is proved with a concrete text and the
strongest true version is proved under a name ending in `_partial`.

* C01 tiling. Relation "run of next_token calls with hints" by induction over the list of hints; the
  reconstruction is an equation between byte lists. Invariant: offset ≤ length.
* C02 boundaries. Invariant `isBoundary code position.offset`; needs that every token ends at a lead byte
  or end of text, by the first-byte analysis of each token function, and UTF-8 facts about `encode`.
* C03 lossless. `render : Token → Bytes → Prop` in Spec; case analysis of `read_next`.
* C04 refuted; exact characterisation of zero-width tokens; stuckness by determinism.
* C05 EOF. Case analysis; blanks by induction.
* C06 hints. Case analysis on the first byte.
* C07 locality. `next_token` on `drop` of the text, shifting offsets.
* C08 punctuators. Spec: table `spelling : Punct → Bytes`, longest prefix; proof by cases on the first
  bytes.
* C09–C13 first-occurrence specs stated with list splitting / small inductive grammars; induction on the
  loops.
* C14–C16 strings. Inductive grammar of ECMAScript string bodies; simulation by the escape state machine.
  C15/C16 refuted.
* C17–C19 numbers. Spec: positional value in ℚ; induction over digit loops. C18 (hex), C19 refuted.
* C20 whitespace; refuted for NBSP/BOM.
* C21 positions. Spec: function of the list of characters before the offset; refuted for CR LF.
* C22 panics. Case analysis with the UTF-8 invariant.
* C23 build modes. Lock-step simulation of the two modes.
* C24 termination. Measure: (bytes not yet consumed by popped tokens, rank of the method), linear fuel;
  loops progress by a byte per round (or are stuck in front of a zero-width token, where the following
  token test fails).
* C25–C28 parser invariants. A small program logic for the parser monad: a relation between initial and
  final states closed under sequencing, loops and `with`/`without`; one lemma per method.
* C29 ASI. The semicolon function in every state; for programs through the grammar (C32) by an automaton
  (below). Refuted for `throw`.
* C30 reserved words. Exact table of `is_binding_identifier`; for programs by an automaton. Refuted for
  shorthand patterns, import specifiers, single arrow parameters and labels.
* C31 brackets. From the grammar derivation, by the automaton that only counts brackets.
* C32 grammar soundness. Inductive grammar over token sequences (`Spec/Grammar.lean`); one lemma per
  method, by the program logic `Gr` (`Proofs/GrammarWp.lean`): the method consumes a word derived from
  its grammar expression; recursion by induction on the bound. The lookahead restrictions come from what
  is known where a method returned nothing (`run_shun`), and so does the fact that `else`, `catch`, `finally`
  and `;` are taken where they are present. Expressions extend as far
  as possible: `noOperator`, `noMember` and further negative lookaheads say that nothing follows that would
  continue them.
* C33 declarations. For the methods by inverting grammar derivations (`Declarators`; the words of C32 are
  split into declarators, `Spec/Declarators.lean`); for neighbouring tokens of programs by an automaton.
* C34 refuted; what is true instead (at most one default clause is found, as the first) follows from the
  grammar. C41: after the statements of a clause `parse_labelled_statement` has seen that no name and
  colon follow (`Proofs/Switch.lean`); the congruence carries this to all methods (`Proofs/Errors.lean`).
* C35 by an automaton.
* C36–C37 layout. `read_token` as a relation on byte strings (`Proofs/Scan.lean`); a gap can be skipped
  (`GapScan`), a token before it is not affected by what follows (`Prefix`, `PrefixRead`); a second parser
  that gets the same tokens does the same (`Replay`, by the congruence); `GapFollow` puts this together.
* C42 kinds of tokens. The congruence again, for two runs whose tokens differ in values: `Sim` relates the
  results of the methods by their types (names are blind, tokens of the same kind), `ReplayKind` replays a
  run along tokens of the same kinds, `KindFollow` gets these from the spelling of the second text.
* C43 errors. The replay again, for runs that end with an error (`ReplayErr`); the second tokenizer follows as
  far as the first run has read (`Online`), by the lemmas of C36 about a token and what follows it.
* C44 contexts. An instance of `Sim` (`Deaf`): two runs from states that differ in Yield, Return and Module;
  the relation between contexts ignores these three, and no method switches Strict.
* C38 slash after a name: lookahead reads with the expression hint off. Refuted for other operands.
* C39 completeness of a fragment (`Spec/Fragment.lean`, `Spec/Text.lean`): forward simulation. A program
  logic (`Proofs/FwdLogic.lean`) says what a method does in front of a given stream of tokens; one lemma
  per production (`FwdExpr` … `FwdModule`), put together by induction on derivations (`FwdAll`);
  `FwdText` connects the stream with the text. The grammar keeps track of the stale expression hint, so
  that it knows where a slash is read as intended. Values of numbers are irrelevant (`Renumber`).
* C45 exactness of the grammar on core tokens (`Spec/Core.lean`). The fragment of C39 has a flag for the
  constructs that jsparse accepts although they are no JavaScript (`FragX true`: `({*a})`, `++ ++ a`, `()`,
  `a ? b : c = d`, …). On core tokens every derivation of the C32 grammar is a derivation of that fragment:
  `Proofs/Core.lean` interprets grammar expressions by the fragment, `CoreLeaf` has a lemma for every
  nonterminal. With C39 and C32 this gives both directions. `GrammarNum`: values of numbers are irrelevant.
  The lemmas carry the token behind an expression (`Stops`: it would not continue the expression), because
  the fragment inserts a semicolon only in front of tokens that cannot continue (a left-hand side says itself,
  by `Ended`, that no bracket, dot or `++` follows, since these may follow `a++`); `Fresh`: what follows a
  statement does not begin with a colon or another token that begins no statement. Behind the block of an
  arrow function and behind a bare `yield` anything may follow: the open forms (`AssignOpen`, `ExprOpen`, …) carry such expressions.
* C46 no panics without slashes and templates (`Proofs/Calm.lean`): an invariant of all methods by the
  congruence, except that the hint for template continuations is set behind the head of a template only.
  It also says which tokens were delivered, and so ties the stream of C42 and C45 to the text. With templates
  (`Proofs/Cut.lean`) another invariant of all methods: the tokens delivered are those meant, or a closing brace
  was once read differently; the latter is impossible in an accepted text, whose brackets are balanced (C31).
* C40 linear time: a metered run (`Spec/Cost.lean`). The termination logic with amounts: a bill says what a
  piece of code spent if it consumed nothing, and what it spent beyond the price of the bytes it consumed
  otherwise (`Cost`); tables of both for all methods, checked method by method (`CostAll`).
* C47–C49 the printer (`Spec/Printer.lean`): a relation between the formatters before and after that holds
  for the primitives and passes through the locks holds for every tree (`Closed`, `Proofs/Printer.lean`).
  The settings, the brackets and the words are three such relations (`Proofs/PrinterInv.lean`).
* C50 lookahead restrictions (`Proofs/PrinterBegin.lean`): by induction on the expression along the node that
  its text begins with: the text is one name, or its beginning is allowed whatever comes after.
* C51, C52 reading back (`Proofs/PrinterReads.lean`): the specification has the grammar of expressions with
  levels (`ReadsExpr`) and of statements with the rule for `else` (`ReadsStmt`) as relations between trees and
  tokens; `Printable` and `PrintableStmt` are the trees without the known defects. By induction on them: what
  is written is of the level of the tree, or of the required level if the printer may put parentheses.
  `Proofs/PrinterUnique.lean`: a parser by precedence climbing finds the tree of every text that the grammar
  of expressions describes, so the grammar is unambiguous and printing is injective; the same for statements
  in `Proofs/PrinterUniqueStmt.lean`. The trees are compared up to nodes for parentheses (`erase`) and braces
  around a single `if` (`eraseStmt`), which the printer adds.
* C53 printing and parsing (`Spec/Printed.lean`): what the grammar of the printer reads is derived in the
  grammar of the parser (`Proofs/PrintedExpr.lean`, `PrintedStmt.lean`, by induction on `ReadsExpr` and
  `ReadsStmt`), with the tokens that the pieces stand for (`Written`). The text consists of these tokens
  (`Proofs/PrintedText.lean`): words are apart by C49, other pieces by the hypothesis `Clear`, which is a
  computation on the output. For the trees of `calm`, a function of the tree, `Clear` is proved
  (`Proofs/PrintedClear.lean`: which pieces an expression begins and ends with). The text is UTF-8
  (`Proofs/PrintedUtf8.lean`). Then C45 gives acceptance. `Legal` and `LegalStmt` exclude what the parser
  does not accept.

## Proof modules for the parser

* `Take`, `Head`, `Congr`: normal forms of the token methods; a generic congruence over the method bodies
  (one traversal of all methods, used for C23, C24, C28).
* `Invariant` (C25, C26), `Progress`/`Termination` (C24), `Trial` (C27), `Modes` (C23), `GrammarWp`,
  `GrammarMatch`, `GrammarBody` (C32).
* `Eval`: an evaluator for concrete texts (`parseRoot_eval`), for the examples and refutations.
* `Automaton`: nested-word automata. `Closed A T` says that the table `T` over-approximates, for every
  nonterminal and state, the states the automaton `A` can reach; `der_run` concludes, by induction on
  derivations, that `A` never gets stuck on a derivable word. `Closed` is a finite check over the whole
  table, done by the kernel. Facts about neighbouring tokens of all programs follow from the definition
  of the automaton: `Balance` (C31), `TopLevel` (C35), `Names` (C30), `Inits` (C33), `Juxtaposed` (C29),
  with the statements in `Spec/Placement.lean` and the extraction in `Placement`, `Declarations`.
  The tables were computed outside (least fixed point); nothing depends on how.
* `Cost`, `CostAll` (C40).
* `Sim`, `ReplayKind`, `KindFollow` (C42), `ReplayErr`, `Online` (C43), `Deaf` (C44).
* `Core`, `CoreLeaf`, `GrammarNum`, `Cut` (C45), `Calm` (C46).
* `Fwd*`, `Renumber` (C39), in the namespace `Jsparse.Forward`.
