{
 "claims": [
  {
   "property": "C01",
   "status": "proved",
   "theorems": [
    "Jsparse.C01_glue",
    "Jsparse.C01_ranges_tile"
   ],
   "note": "C01_ranges_tile for every finite sequence of calls; C01_glue reconstructs the consumed prefix."
  },
  {
   "property": "C02",
   "status": "proved",
   "theorems": [
    "Jsparse.C02_char_boundaries"
   ],
   "note": ""
  },
  {
   "property": "C03",
   "status": "proved",
   "theorems": [
    "Jsparse.C03_lossless"
   ],
   "note": "Every non-number token; the zero-width token of an unterminated string is the one exception."
  },
  {
   "property": "C04",
   "status": "partial",
   "theorems": [
    "Jsparse.C04_no_progress",
    "Jsparse.C04_progress_partial",
    "Jsparse.C04_stuck",
    "Jsparse.C04_zero_width_iff"
   ],
   "note": "The property is false of the code: C04_no_progress gives witnesses, C04_zero_width_iff characterises all positions with a zero-width token, C04_stuck shows the tokenizer then repeats it forever. C04_progress_partial is the property where neither case applies."
  },
  {
   "property": "C05",
   "status": "proved",
   "theorems": [
    "Jsparse.C05_eof_calls",
    "Jsparse.C05_eof_forever",
    "Jsparse.C05_eof_iff"
   ],
   "note": ""
  },
  {
   "property": "C06",
   "status": "proved",
   "theorems": [
    "Jsparse.C06_hints_irrelevant"
   ],
   "note": ""
  },
  {
   "property": "C07",
   "status": "proved",
   "theorems": [
    "Jsparse.C07_local"
   ],
   "note": ""
  },
  {
   "property": "C08",
   "status": "proved",
   "theorems": [
    "Jsparse.C08_longest_punctuator",
    "Jsparse.C08_never_html"
   ],
   "note": ""
  },
  {
   "property": "C09",
   "status": "proved",
   "theorems": [
    "Jsparse.C09_identifier"
   ],
   "note": ""
  },
  {
   "property": "C10",
   "status": "proved",
   "theorems": [
    "Jsparse.C10_line_comment",
    "Jsparse.C10_line_comment_total"
   ],
   "note": ""
  },
  {
   "property": "C11",
   "status": "proved",
   "theorems": [
    "Jsparse.C11_block_comment",
    "Jsparse.C11_unterminated_iff"
   ],
   "note": ""
  },
  {
   "property": "C12",
   "status": "proved",
   "theorems": [
    "Jsparse.C12_backslash_ignored",
    "Jsparse.C12_head",
    "Jsparse.C12_middle",
    "Jsparse.C12_no_substitution",
    "Jsparse.C12_tail",
    "Jsparse.C12_unterminated_iff"
   ],
   "note": "C12_backslash_ignored records the deviation from JavaScript."
  },
  {
   "property": "C13",
   "status": "proved",
   "theorems": [
    "Jsparse.C13_regex",
    "Jsparse.C13_unterminated_iff"
   ],
   "note": ""
  },
  {
   "property": "C14",
   "status": "proved",
   "theorems": [
    "Jsparse.C14_string_whole"
   ],
   "note": ""
  },
  {
   "property": "C15",
   "status": "partial",
   "theorems": [
    "Jsparse.C15_accepted_iff",
    "Jsparse.C15_malformed_accepted",
    "Jsparse.C15_wellformed_partial"
   ],
   "note": "False of the code: C15_malformed_accepted has witnesses. C15_accepted_iff gives the exact accepted language (Spec.LooseBody); C15_wellformed_partial is the property for literals without \\x, \\u and backslash-CR."
  },
  {
   "property": "C16",
   "status": "partial",
   "theorems": [
    "Jsparse.C16_escapes_not_decoded",
    "Jsparse.C16_raw_value",
    "Jsparse.C16_value_right_iff_partial"
   ],
   "note": "False of the code: C16_escapes_not_decoded. C16_raw_value: the value is always the raw text; C16_value_right_iff_partial: it is the denoted string exactly when the literal has no escape."
  },
  {
   "property": "C17",
   "status": "partial",
   "theorems": [
    "Jsparse.C17_cut_short",
    "Jsparse.C17_decimal_partial"
   ],
   "note": "False for 0e5 and for 0. at the end of input (C17_cut_short). C17_decimal_partial is the property for all other decimal literals; exact arithmetic over the rationals."
  },
  {
   "property": "C18",
   "status": "partial",
   "theorems": [
    "Jsparse.C18_binary",
    "Jsparse.C18_hex_right_iff_partial",
    "Jsparse.C18_hex_wrong",
    "Jsparse.C18_octal"
   ],
   "note": "C18_octal and C18_binary are the full property for those; for hexadecimal it is false (C18_hex_wrong) and C18_hex_right_iff_partial says exactly when it holds."
  },
  {
   "property": "C19",
   "status": "partial",
   "theorems": [
    "Jsparse.C19_checked_overflow_iff",
    "Jsparse.C19_overflow_witness",
    "Jsparse.C19_release_wraps"
   ],
   "note": "False of the code (C19_overflow_witness). C19_checked_overflow_iff and C19_release_wraps say exactly what happens."
  },
  {
   "property": "C20",
   "status": "partial",
   "theorems": [
    "Jsparse.C20_blanks_skipped_partial",
    "Jsparse.C20_wide_space_panics"
   ],
   "note": "False for no-break space and byte-order mark: C20_wide_space_panics shows that next_token panics on every text where one precedes a token. C20_blanks_skipped_partial is the property for tab, vertical tab, form feed and space."
  },
  {
   "property": "C21",
   "status": "partial",
   "theorems": [
    "Jsparse.C21_crlf_counts_twice",
    "Jsparse.C21_positions_exact",
    "Jsparse.C21_positions_partial"
   ],
   "note": "False for CR LF between tokens (C21_crlf_counts_twice). C21_positions_exact gives the exact line and column of every token of every run; C21_positions_partial is the property when no token starts between CR and LF."
  },
  {
   "property": "C22",
   "status": "proved",
   "theorems": [
    "Jsparse.C22_no_internal_panic",
    "Jsparse.C22_panics_only_if_malformed"
   ],
   "note": "For every run of calls from a fresh tokenizer; Spec.Malformed lists the malformed texts."
  },
  {
   "property": "C23",
   "status": "proved",
   "theorems": [
    "Jsparse.C23_consumed_agree",
    "Jsparse.C23_outcomes_agree",
    "Jsparse.C23_tokens_agree"
   ],
   "note": "Token streams (C23_tokens_agree), outcomes of parse_root (C23_outcomes_agree) and consumed tokens (C23_consumed_agree) are the same in both builds unless the checked build panics with an overflow."
  },
  {
   "property": "C24",
   "status": "proved",
   "theorems": [
    "Jsparse.C24_bound_irrelevant",
    "Jsparse.C24_methods_terminate",
    "Jsparse.C24_terminates"
   ],
   "note": "C24_terminates: no text exhausts the bound 64*(length+2) on recursion depth and loop rounds; C24_bound_irrelevant: any larger bound gives the same run; C24_methods_terminate: the same for every method in every reachable state."
  },
  {
   "property": "C25",
   "status": "proved",
   "theorems": [
    "Jsparse.C25_buffer_bound",
    "Jsparse.C25_no_internal_panic",
    "Jsparse.C25_panics_are_tokenizer_panics"
   ],
   "note": "Every execution of parse_root; the panics that remain are those of C22."
  },
  {
   "property": "C26",
   "status": "proved",
   "theorems": [
    "Jsparse.C26_accepted_consumes_all"
   ],
   "note": ""
  },
  {
   "property": "C27",
   "status": "proved",
   "theorems": [
    "Jsparse.C27_absent_consumes_nothing"
   ],
   "note": "In every state, not only reachable ones."
  },
  {
   "property": "C28",
   "status": "proved",
   "theorems": [
    "Jsparse.C28_context_restored"
   ],
   "note": "In every state, not only reachable ones."
  },
  {
   "property": "C29",
   "status": "partial",
   "theorems": [
    "Jsparse.C29_operands_separated_partial",
    "Jsparse.C29_semicolon",
    "Jsparse.C29_throw"
   ],
   "note": "C29_semicolon: the semicolon function in every state. C29_operands_separated_partial: consequence for the tokens of every accepted program without throw. False for throw (C29_throw: throw needs no semicolon). That every other statement ends in a semicolon or a place where one may be inserted is part of the grammar of C32."
  },
  {
   "property": "C30",
   "status": "partial",
   "theorems": [
    "Jsparse.C30_binding_identifier",
    "Jsparse.C30_names_partial",
    "Jsparse.C30_reserved_names_accepted"
   ],
   "note": "C30_binding_identifier: the exact names that binding_identifier takes, in every state. C30_names_partial: in accepted programs, reserved words are not variables, functions, parameters, jump targets. False for shorthand patterns, import specifiers, single arrow parameters and labels (C30_reserved_names_accepted)."
  },
  {
   "property": "C31",
   "status": "proved",
   "theorems": [
    "Jsparse.C31_balanced"
   ],
   "note": ""
  },
  {
   "property": "C32",
   "status": "proved",
   "theorems": [
    "Jsparse.C32_accepted_derivable"
   ],
   "note": "For every accepted text. The grammar (Spec/Grammar.lean) follows ECMA-262 and marks every place where jsparse deviates from it; lookahead restrictions are part of it where jsparse keeps them (statements, declarations, arrow bodies); early errors are not. The grammar takes else, catch, finally and semicolons where they are present and has no new.target, as the parser does; expressions extend as far as possible (no operator, member, template, comma or assignment may follow that would continue them); C45 shows that it is exact on core tokens."
  },
  {
   "property": "C33",
   "status": "proved",
   "theorems": [
    "Jsparse.C33_declarations",
    "Jsparse.C33_initialized_partial"
   ],
   "note": "C33_declarations: every successful call of the methods for const, let, var and for consumes a declaration whose constants and patterns have initializers, whatever the declarators and lines. C33_initialized_partial says in addition what this means for neighbouring tokens of the whole program (const names, const and var patterns, one-line declarations)."
  },
  {
   "property": "C34",
   "status": "partial",
   "theorems": [
    "Jsparse.C34_default_first_partial",
    "Jsparse.C34_two_defaults_accepted"
   ],
   "note": "False of the code: C34_two_defaults_accepted. C34_default_first_partial: what parse_switch_statement takes for a default clause occurs at most once and first; a later default: is a label (C41 shows that the check for a second one is dead code)."
  },
  {
   "property": "C35",
   "status": "proved",
   "theorems": [
    "Jsparse.C35_module_items_outside"
   ],
   "note": "Inside brackets of any kind, and as the body of if, else, do, for, with, arrow functions and labels. The body of while is covered by the grammar of C32 only: after do ... while (...) a declaration may follow."
  },
  {
   "property": "C36",
   "status": "proved",
   "theorems": [
    "Jsparse.C36_end_of_text",
    "Jsparse.C36_layout_irrelevant",
    "Jsparse.C36_leading",
    "Jsparse.C36_replace_gap",
    "Jsparse.C36_respace"
   ],
   "note": "C36_replace_gap: one gap, with the places of all tokens; C36_respace and C36_layout_irrelevant: all gaps of a program at once, in both directions; C36_leading: before the first token. Some text must follow the gap: C36_end_of_text shows that a number at the very end can be read differently."
  },
  {
   "property": "C37",
   "status": "proved",
   "theorems": [
    "Jsparse.C37_read_token"
   ],
   "note": "C37_read_token for every state of the tokenizer and every hint."
  },
  {
   "property": "C38",
   "status": "proved",
   "theorems": [
    "Jsparse.C38_name_slash",
    "Jsparse.C38_other_operands_false",
    "Jsparse.C38_program"
   ],
   "note": "C38_name_slash: every statement, in every state in which its first token is not yet behind another one; C38_program: the first statement of a program, in terms of text and tokens. C38_other_operands_false: the witnesses for other operands."
  },
  {
   "property": "C39",
   "status": "proved",
   "theorems": [
    "Jsparse.C39_fragment_accepted",
    "Jsparse.C39_left_out",
    "Jsparse.C39_nested"
   ],
   "note": "C39_fragment_accepted: Spec/Fragment.lean is the grammar (tokens), Spec/Text.lean the ways to write tokens. C39_nested: an unbounded family as an instance. The constructs that are accepted but are no JavaScript are in the same file behind a flag, for C45. C39_left_out: JavaScript programs outside the fragment that the code rejects or panics on, so the fragment cannot simply be all of JavaScript."
  },
  {
   "property": "C40",
   "status": "proved",
   "theorems": [
    "Jsparse.C40_linear_time",
    "Jsparse.C40_work"
   ],
   "note": "C40_linear_time: the budgeted run (Spec/Cost.lean) and parse_root have the same outcome on every text; C40_work: the meter at the end of an accepted run. Counted are method calls and removed tokens; between two of these a method does a bounded number of steps, and the tokenizer reads each byte for one token only (C01). Calls of the Rust standard library are not counted."
  },
  {
   "property": "C41",
   "status": "proved",
   "theorems": [
    "Jsparse.C41_no_second_default",
    "Jsparse.C41_not_duplicate_default",
    "Jsparse.C41_others_reported"
   ],
   "note": "C41_no_second_default for every method in every state, C41_not_duplicate_default for parse_root; C41_others_reported: a text for each of the other errors."
  },
  {
   "property": "C42",
   "status": "proved",
   "theorems": [
    "Jsparse.C42_kinds_decide",
    "Jsparse.C42_same_kinds_accepted",
    "Jsparse.C42_same_kinds_rejected",
    "Jsparse.C42_simple_errors",
    "Jsparse.C42_simple_texts",
    "Jsparse.C42_template_texts"
   ],
   "note": "C42_same_kinds_accepted: a text with tokens of the same kinds as those consumed in an accepted run is accepted. C42_kinds_decide: the same as an equivalence. C42_simple_texts: an equivalence about acceptance alone for texts without slash tokens and templates (elsewhere the parser itself decides what the tokens are). C42_template_texts: the same with templates. C42_same_kinds_rejected and C42_simple_errors: the same for rejections, with the error. The names that may be exchanged are those outside of a list of words with a meaning somewhere in JavaScript."
  },
  {
   "property": "C43",
   "status": "proved",
   "theorems": [
    "Jsparse.C43_no_continuation",
    "Jsparse.C43_replace_gap",
    "Jsparse.C43_rest_irrelevant",
    "Jsparse.C43_tokens_read"
   ],
   "note": "RejectedAs: the outcome is an error, and the tokens read so far. C43_rest_irrelevant: the text behind the tokens read can be exchanged (C43_no_continuation: so no continuation is accepted). C43_replace_gap: changing a gap. C43_tokens_read: the tokens read are in order, in the text, and only the last can be the end of the text. Side conditions: the last token read is not empty (not the end of the text), it stays apart from what follows, and some text follows if numbers were read (1e at the end of the text is scanned differently)."
  },
  {
   "property": "C44",
   "status": "proved",
   "theorems": [
    "Jsparse.C44_contexts_ignored",
    "Jsparse.C44_never_strict",
    "Jsparse.C44_program_never_strict",
    "Jsparse.C44_start_ignored",
    "Jsparse.C44_switch_ignored"
   ],
   "note": "C44_contexts_ignored: every method in every state; C44_switch_ignored: switching; C44_start_ignored: whole programs; C44_never_strict, C44_program_never_strict: strict mode stays off. The examples show that the other four parameters do matter."
  },
  {
   "property": "C45",
   "status": "proved",
   "theorems": [
    "Jsparse.C45_core_exact",
    "Jsparse.C45_derivable_accepted",
    "Jsparse.C45_rejected"
   ],
   "note": "C45_core_exact and C45_rejected: equivalence with the grammar of C32 (Program), for texts with core tokens (Spec/Core.lean); C45_derivable_accepted: the direction to acceptance. WellCut (Spec/Core.lean) fixes how closing braces are read; an example shows that it is needed. C45_rejected is about texts without templates, since a wrong text with templates may also make the tokenizer panic. Left out are slashes (how they are read depends on a stale hint, see C38 and C39) and the sequences of tokens named in the statement."
  },
  {
   "property": "C46",
   "status": "proved",
   "theorems": [
    "Jsparse.C46_no_panic"
   ],
   "note": "C46_no_panic. The tokens may come in any order. The example shows a panic of a text with a slash."
  },
  {
   "property": "C47",
   "status": "proved",
   "theorems": [
    "Jsparse.C47_lists",
    "Jsparse.C47_settings_restored"
   ],
   "note": "The module ast is not compiled at this commit and is read as meant (Model/Printer.lean says how)."
  },
  {
   "property": "C48",
   "status": "proved",
   "theorems": [
    "Jsparse.C48_brackets_match",
    "Jsparse.C48_in_context"
   ],
   "note": "Brackets that are written as such; the inside of strings, templates and regular expressions does not count, nor the braces of template substitutions, which the code writes in the wrong order."
  },
  {
   "property": "C49",
   "status": "proved",
   "theorems": [
    "Jsparse.C49_other_tokens_false",
    "Jsparse.C49_words_apart"
   ],
   "note": "C49_other_tokens_false: number and keyword, regular expression flags and keyword, two plus signs, an integer and a dot are run together."
  },
  {
   "property": "C50",
   "status": "partial",
   "theorems": [
    "Jsparse.C50_arrow_body",
    "Jsparse.C50_export_default",
    "Jsparse.C50_for_head",
    "Jsparse.C50_for_of_false",
    "Jsparse.C50_lookahead_partial",
    "Jsparse.C50_statement"
   ],
   "note": "False of the code for the head of for-of: the plain name let is printed there without parentheses, and for function.sent at the beginning of a statement (C50_for_of_false). C50_lookahead_partial: the other four restrictions; C50_statement, C50_export_default, C50_arrow_body, C50_for_head: the places. The expressions are those of beginsAsExpr (Spec/Printer.lean), which looks at the nodes that the text begins with."
  },
  {
   "property": "C51",
   "status": "partial",
   "theorems": [
    "Jsparse.C51_grammar_unambiguous",
    "Jsparse.C51_injective_partial",
    "Jsparse.C51_left_operand_false",
    "Jsparse.C51_others_false",
    "Jsparse.C51_reads_back_partial",
    "Jsparse.C51_statement_partial"
   ],
   "note": "False of the code: parentheses are forgotten around left operands (C51_left_operand_false), and around assignments as operands, the last argument, a new without arguments that is called, powers under a unary operator, increments as objects, and unary minus is printed as ! (C51_others_false). C51_reads_back_partial: all trees of Printable (Spec/Printer.lean) read back, in every state of the formatter; C51_grammar_unambiguous, C51_injective_partial: the grammar gives one tree at most, so trees that print alike are alike up to nodes for parentheses; C51_statement_partial: expression statements. Not covered: functions, classes, literals of objects, holes and ... in arrays, templates, new, yield."
  },
  {
   "property": "C52",
   "status": "partial",
   "theorems": [
    "Jsparse.C52_braces",
    "Jsparse.C52_grammar_unambiguous",
    "Jsparse.C52_injective_partial",
    "Jsparse.C52_script_injective_partial",
    "Jsparse.C52_script_reads_back_partial",
    "Jsparse.C52_statement_reads_back_partial",
    "Jsparse.C52_statements_false"
   ],
   "note": "False of the code for throw, which has no semicolon, for declarations in the head of a for statement, which have one too many, and for in there (C52_statements_false). C52_statement_reads_back_partial, C52_script_reads_back_partial: all trees of PrintableStmt read back; C52_grammar_unambiguous, C52_injective_partial, C52_script_injective_partial: one statement at most for a text, so statements and scripts that print alike are alike up to nodes for parentheses and braces around a single if; C52_braces: what the grammar of the specification says about a dangling else. Not covered: switch, for with an initialiser, patterns as parameters and in declarations, catch and for; and what C51 leaves out."
  },
  {
   "property": "C53",
   "status": "partial",
   "theorems": [
    "Jsparse.C53_accepted_calm_partial",
    "Jsparse.C53_accepted_partial",
    "Jsparse.C53_clear_partial",
    "Jsparse.C53_not_clear",
    "Jsparse.C53_program_partial",
    "Jsparse.C53_rejected",
    "Jsparse.C53_spaces",
    "Jsparse.C53_utf8_partial"
   ],
   "note": "False of the code: pieces other than words run together, in is rejected in initializers of let and const even in parentheses, division of a string is rejected (C53_rejected). C53_accepted_partial: every list of statements of PrintableStmt (C52) and LegalStmt (Spec/Printed.lean) whose pieces do not run together (Clear, computed on the output) is accepted; C53_clear_partial and C53_accepted_calm_partial: the condition on the output is not needed for trees without signs, ++ and -- after signs and the operators + and -, without operators that begin with > after --, without numbers before a dot, in or instanceof and without numbers that end with e (calm, a function of the tree; C53_not_clear: such pieces do run together); C53_program_partial: its tokens are a program of the grammar of C32; C53_utf8_partial: its text is UTF-8; C53_spaces: spaces stand in front of words and numbers only, for every tree. LegalStmt leaves out division, await, the names async, let and the member name yield. Not covered: the constructs that PrintableStmt does not cover."
  }
 ]
}