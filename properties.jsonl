{"id": "C01", "title": "Token ranges tile the source", "statement": "Calling next_token repeatedly, with any hints, never skips, duplicates or overlaps source text: the reported range of each token starts at or after the end of the previous one, every byte between them is a blank (tab, vertical tab, form feed or space), no range reaches past the end of the text, and gluing blanks and token texts together gives back a prefix of the source.", "quantifier": "every byte string, every finite sequence of next_token calls with arbitrary hints that does not panic", "why_tests_cant": "Needs every text and every history of calls; tests exercise single tokens read at offset 0.", "anchors": ["src/tokenizer/slice.rs: SliceTokenizer::next_token, eat_whitespace, increment_position, read_next"]}
{"id": "C02", "title": "Token ranges fall on character boundaries", "statement": "For every valid text, the start and end offsets reported for every token are character boundaries, so a caller may slice the source by any reported range without a panic.", "quantifier": "every valid UTF-8 text, every sequence of calls and hints", "why_tests_cant": "Depends on every multi-byte character in every position; unit tests use a handful of ASCII texts.", "anchors": ["src/tokenizer/slice.rs: next_token, read_next, tok_str, tok_slash, tok_zero_num"]}
{"id": "C03", "title": "Tokens are lossless", "statement": "For every token other than a number, writing the token back in JavaScript syntax (punctuator spelling, identifier name, comment, string, template, regular expression with their delimiters) gives exactly the source text of its reported range. The only exception is the zero-width token returned for an unterminated string.", "quantifier": "every text, every position, every hint", "why_tests_cant": "A statement about all payloads of all token kinds.", "anchors": ["src/tokenizer/slice.rs: read_next, tok_ident, tok_template_head, tok_slash, tok_curly_close, tok_str"]}
{"id": "C04", "title": "Every token before end of input makes progress", "statement": "A token that is not end-of-input covers at least one byte. FALSE of the code: an unrecognised character and an unterminated string literal both give a token of width zero, and next_token then returns the same token forever. Proved: the exact set of positions where this happens, and that the tokenizer is then stuck.", "quantifier": "every text, every position, every hint", "why_tests_cant": "Absence of stuck states quantifies over all texts.", "anchors": ["src/tokenizer/slice.rs: tok_ident, tok_str, read_next"]}
{"id": "C05", "title": "End of input is reported exactly at the end", "statement": "next_token returns EOF exactly when only blanks remain, and from then on every call returns EOF again with the same empty range at the end of the text.", "quantifier": "every text, every position, every hint", "why_tests_cant": "Quantifies over all texts and all later calls.", "anchors": ["src/tokenizer/slice.rs: next_token, read_next"]}
{"id": "C06", "title": "Hints only matter where JavaScript is ambiguous", "statement": "The strict hint never changes the result. The expression hint matters only when the next character is a slash that does not open a comment. The template hint matters only when the next character is a closing curly brace.", "quantifier": "every text, every position, every pair of hints", "why_tests_cant": "Non-interference is a statement about pairs of runs over all texts.", "anchors": ["src/tokenizer/slice.rs: read_next, tok_slash, tok_curly_close", "src/tokenizer/mod.rs: Hint"]}
{"id": "C07", "title": "Tokenization is local", "statement": "The token at a position, and whether reading it panics, depends only on the text from that position on: reading the rest of the text with a fresh tokenizer gives the same token and the same width.", "quantifier": "every text and every split of it at a character boundary, every hint", "why_tests_cant": "Relates two runs on arbitrary texts.", "anchors": ["src/tokenizer/slice.rs: next_token, eat_whitespace"]}
{"id": "C08", "title": "Punctuators follow the longest-match rule", "statement": "A punctuator token is produced exactly for the longest punctuator spelled at the current position, except where the text starts a comment, a fraction such as .5, a regular expression (slash with the expression hint) or a template continuation (closing brace with the template hint). The spelling `<!--` is never produced.", "quantifier": "every text, every hint", "why_tests_cant": "Longest match is a statement about every continuation of every text.", "anchors": ["src/tokenizer/slice.rs: read_next", "src/tokenizer/tokens.rs: PunctuatorToken"]}
{"id": "C09", "title": "Identifier names are maximal runs", "statement": "When the text starts with a letter, $ or _, the token is an identifier whose name is the longest run of letters, digits, $ and _, with no character lost.", "quantifier": "every text, every hint", "why_tests_cant": "Quantifies over all identifiers and everything that may follow them.", "anchors": ["src/tokenizer/slice.rs: tok_ident"]}
{"id": "C10", "title": "Line comments end at the first line terminator", "statement": "A text starting with // gives a line comment that ends just before the first CR, LF, U+2028 or U+2029, or at the end of the text; the terminator is left for the next token.", "quantifier": "every valid UTF-8 text, every hint", "why_tests_cant": "Quantifies over all comment bodies, including multi-byte characters sharing bytes with U+2028.", "anchors": ["src/tokenizer/slice.rs: tok_slash"]}
{"id": "C11", "title": "Block comments end at the first */", "statement": "A text starting with /* gives a block comment ending with the first following */, and panics exactly when there is none.", "quantifier": "every text, every hint", "why_tests_cant": "First-occurrence property over all bodies.", "anchors": ["src/tokenizer/slice.rs: tok_slash"]}
{"id": "C12", "title": "Templates end at the first backtick or ${", "statement": "A template token (from a backtick, or from a closing brace with the template hint) extends to the first backtick or ${ whichever comes first, its kind says which, its value is the text between, and it panics exactly when there is neither. (JavaScript escapes are not recognised: a backslash does not protect a backtick. This deviation is proved.)", "quantifier": "every text, every hint", "why_tests_cant": "First-occurrence property over all bodies.", "anchors": ["src/tokenizer/slice.rs: tok_template_head, tok_curly_close"]}
{"id": "C13", "title": "Regular expressions end at the first unprotected slash", "statement": "With the expression hint, a slash that opens no comment starts a regular expression that ends at the first slash that is neither escaped by a backslash nor inside a character class, followed by the longest run of lowercase letters as flags; it panics exactly when there is no such slash.", "quantifier": "every text", "why_tests_cant": "Quantifies over all bodies with nesting of escapes and classes.", "anchors": ["src/tokenizer/slice.rs: tok_slash"]}
{"id": "C14", "title": "Well-formed string literals are read whole", "statement": "Every string literal of the ECMAScript grammar whose escapes are among the ones the tokenizer knows (single-character escapes, \\0, \\xHH, \\uHHHH, \\u{H…}, line continuations) is returned as one string token that covers exactly the literal, whatever follows it.", "quantifier": "every string literal of that grammar and every following text, both quote characters", "why_tests_cant": "Quantifies over all literals and all continuations.", "anchors": ["src/tokenizer/slice.rs: tok_str"]}
{"id": "C15", "title": "Only well-formed string literals are accepted", "statement": "A string token is only returned for a literal without unescaped line terminators and with well-formed escapes. FALSE of the code: \\x is followed by one arbitrary byte (even the closing quote), \\u by three, \\u{ by anything up to }, and after a backslash-CR line feeds are let through (witnesses proved). Proved: the exact language that is accepted, and that it contains only well-formed literals when there is no \\x, no \\u and no backslash-CR.", "quantifier": "every text", "why_tests_cant": "Soundness over all malformed literals.", "anchors": ["src/tokenizer/slice.rs: tok_str"]}
{"id": "C16", "title": "String values are decoded", "statement": "The value of a string token is the string the literal denotes. FALSE of the code for literals with escapes (the value is the raw text; witness proved). Proved: the value is always the exact raw text between the quotes, hence the denoted string exactly when the literal has no escape.", "quantifier": "every string literal", "why_tests_cant": "Quantifies over all literals.", "anchors": ["src/tokenizer/slice.rs: tok_str"]}
{"id": "C17", "title": "Decimal literals are read whole with the right value", "statement": "A decimal literal (digits, optional fraction, optional exponent) not followed by a character that extends it is returned as one number token covering exactly the literal; the f64 operations performed compute its mathematical value exactly when evaluated in exact arithmetic, and an integer literal below 2^53 is exact under every correctly rounded f64 arithmetic. FALSE of the code for 0e5 and for 0. at the end of input, which are cut after the 0 (proved); proved for all other literals with an exponent below 2^31.", "quantifier": "every decimal literal not starting with 0 or starting with `0.` or `.`; every following text", "why_tests_cant": "Quantifies over all digit strings.", "anchors": ["src/tokenizer/slice.rs: tok_num, tok_zero_num, tok_fractional, parse_int_literal, parse_decimal_digits, parse_exponent"]}
{"id": "C18", "title": "Hexadecimal, octal and binary literals have the right value", "statement": "0x, 0o and 0b literals denote their mathematical value. Proved for octal and binary. FALSE of the code for hexadecimal digits a-f (0xff is read as 869; witness proved); proved: a hexadecimal literal has the right value exactly when all its digits are 0-9.", "quantifier": "every digit string in the base", "why_tests_cant": "Quantifies over all digit strings.", "anchors": ["src/tokenizer/slice.rs: tok_zero_num"]}
{"id": "C19", "title": "Exponents do not overflow", "statement": "Reading a decimal literal never panics and never yields a wrong exponent. FALSE of the code: exponents are accumulated in an i32, so a long exponent panics in builds with overflow checks and silently wraps in others (witnesses proved). Proved: reading a literal panics exactly when its exponent is 2^31 or more in a checked build, and in an unchecked build the exponent used is the right one modulo 2^32.", "quantifier": "every decimal literal, both build modes", "why_tests_cant": "Needs exponents of arbitrary size.", "anchors": ["src/tokenizer/slice.rs: parse_exponent"]}
{"id": "C20", "title": "White space is skipped", "statement": "Any run of white space before a token is skipped without changing the token. FALSE of the code for no-break space and byte-order mark, which make next_token panic (proved for every text in which one precedes a token). Proved for tab, vertical tab, form feed and space.", "quantifier": "every run of blanks, every following text", "why_tests_cant": "Quantifies over all runs and texts.", "anchors": ["src/tokenizer/slice.rs: eat_whitespace, next_token"]}
{"id": "C21", "title": "Reported lines and columns are right", "statement": "The line and column reported for the start and end of every token are the number of line terminators before it and the number of characters since the last one (CR LF counting as one line terminator). FALSE of the code for CR LF between tokens, which counts twice (witness proved). Proved: columns are always right, and the line number is too large by exactly the number of earlier tokens that start between a CR and a LF, hence right whenever no token does.", "quantifier": "every valid UTF-8 text, every token of every run", "why_tests_cant": "Positions accumulate over the whole history of calls.", "anchors": ["src/tokenizer/slice.rs: increment_position, eat_whitespace", "src/tokenizer/mod.rs: Position"]}
{"id": "C22", "title": "The tokenizer panics only on malformed input", "statement": "next_token panics only for: an unterminated template, regular expression or block comment; a string with a bad escape or a raw line terminator; a malformed octal or binary literal; arithmetic overflow on a number literal (checked builds only); a no-break space or byte-order mark where a token may start; 0x/0o/0b followed by a non-ASCII character. The unreachable! branches of the tokenizer are never reached and no slice is out of range.", "quantifier": "every valid UTF-8 text, every run", "why_tests_cant": "Absence of panics over all texts.", "anchors": ["src/tokenizer/slice.rs: all functions"]}
{"id": "C23", "title": "Debug and release builds agree", "statement": "If parsing or tokenizing does not stop with an arithmetic-overflow panic in a build with overflow checks, then a build without overflow checks produces exactly the same tokens, positions and outcome.", "quantifier": "every text, every run", "why_tests_cant": "Relates two builds over all inputs.", "anchors": ["src/tokenizer/slice.rs: parse_exponent, tok_zero_num", "src/parser/mod.rs: parse_root"]}
{"id": "C24", "title": "parse_root always terminates", "statement": "parse_root returns or panics on every text: no input makes it loop or recurse forever, although the tokenizer can return the same zero-width token forever. The recursion depth and the number of rounds of each loop are bounded by a linear function of the length of the text.", "quantifier": "every text, both build modes", "why_tests_cant": "Termination on all inputs cannot be tested.", "anchors": ["src/parser/mod.rs: parse_root", "src/parser/*.rs: all methods"]}
{"id": "C25", "title": "The parser never hits its own internal failure points", "statement": "Whatever the input, the flag stack is never popped when empty, the two-token lookahead buffer never under- or overflows, and none of the unreachable! points of the parser is reached: a parse_root panic is either a parse error or one of the tokenizer panics listed above.", "quantifier": "every text, both build modes", "why_tests_cant": "Quantifies over all executions.", "anchors": ["src/parser/mod.rs: pop, pop_flags, punc, keyword, identifier", "src/parser/expressions.rs: parse_assignment_expression"]}
{"id": "C26", "title": "An accepted program is consumed completely and in order", "statement": "If parse_root accepts, the tokens the grammar consumed are, in order and without omission or repetition, all the non-comment non-line-terminator tokens that the tokenizer produces for the whole text from offset 0 up to and including end of input.", "quantifier": "every accepted text", "why_tests_cant": "Relates the whole parse history to the whole token stream.", "anchors": ["src/parser/mod.rs: pop, token_and_line, ident_lookahead, read_token", "src/parser/file.rs: parse_module"]}
{"id": "C27", "title": "Trial productions leave no trace", "statement": "When an optional production reports that it is not present, no token has been consumed, so the alternatives tried after it see the same input.", "quantifier": "every method, every reachable parser state", "why_tests_cant": "Quantifies over all parser states and all tokens.", "anchors": ["src/parser/utils.rs: try_value!, try_sequence!", "src/parser/*.rs: all methods"]}
{"id": "C28", "title": "Parsing context is restored", "statement": "Every method leaves the grammar flags (in, yield, await, default, template, …) and the tokenizer template hint exactly as it found them, so a construct never changes how the text after it is parsed.", "quantifier": "every method, every reachable parser state", "why_tests_cant": "Quantifies over all executions and nesting depths.", "anchors": ["src/parser/mod.rs: push_flags, pop_flags, ParserProxy"]}
{"id": "C29", "title": "Semicolons are inserted only where allowed", "statement": "A statement that needs a semicolon is accepted only if followed by a semicolon, or by }, end of input, or a token on a later line; after do-while the semicolon is always optional; no token is consumed by an inserted semicolon. FALSE of the code for throw, which needs no semicolon (witness proved).", "quantifier": "every parser state; every accepted program", "why_tests_cant": "Quantifies over all programs.", "anchors": ["src/parser/mod.rs: semicolon_inner"]}
{"id": "C30", "title": "Reserved words are not bindings", "statement": "No accepted program uses a reserved word (or null, true, false, enum, yield) as the name of a variable, parameter, function, class or label reference; which words are reserved does not depend on anything but the await flag. (await is treated the wrong way round: allowed as a name inside async functions and forbidden outside. Proved.) FALSE of the code for shorthand patterns, import specifiers, single arrow parameters and labels (witnesses proved).", "quantifier": "every accepted program", "why_tests_cant": "Quantifies over all programs and names.", "anchors": ["src/parser/mod.rs: is_binding_identifier, binding_identifier"]}
{"id": "C31", "title": "Brackets are balanced in accepted programs", "statement": "In the token sequence of an accepted program the brackets (), [], {} and the template delimiters `…${ and }…` are properly nested.", "quantifier": "every accepted program", "why_tests_cant": "A Dyck-language property over all programs.", "anchors": ["src/parser/*.rs: all methods"]}
{"id": "C32", "title": "Accepted programs are derivable in the grammar", "statement": "The token sequence of every accepted program has a derivation in a declarative grammar of JavaScript modules (written separately as an inductive definition with ECMAScript nonterminals, including automatic semicolon insertion and restricted productions).", "quantifier": "every accepted program", "why_tests_cant": "Soundness of a recursive-descent parser over all inputs.", "anchors": ["src/parser/*.rs: all methods"]}
{"id": "C33", "title": "Declarations have the initializers JavaScript requires", "statement": "In every accepted program each const declarator and each destructuring declarator outside for-in/of heads has an initializer.", "quantifier": "every accepted program", "why_tests_cant": "Quantifies over all programs.", "anchors": ["src/parser/declarations.rs: parse_lexical_declarator", "src/parser/statements.rs: parse_var_declarator, parse_for_statement"]}
{"id": "C34", "title": "A switch has at most one default", "statement": "In every accepted program each switch statement has at most one default clause. FALSE of the code: after a first clause `default:` is read as a label (witness proved). What the parser takes for a default clause does occur at most once, as the first clause.", "quantifier": "every accepted program", "why_tests_cant": "Quantifies over all programs.", "anchors": ["src/parser/statements.rs: parse_switch_statement"]}
{"id": "C35", "title": "Imports and exports occur only at the top level", "statement": "The words import and export start a declaration only at the top level of the module; inside any function, block or other nested construct they make the parser reject.", "quantifier": "every text", "why_tests_cant": "Quantifies over all programs.", "anchors": ["src/parser/file.rs: parse_module_item", "src/parser/module.rs"]}
{"id": "C36", "title": "Layout between tokens does not matter", "statement": "Replacing what stands between two tokens of a program (any run of blanks, line terminators and comments) by another such run, with a line terminator in it exactly if the first one has one, does not change whether parse_root accepts the program nor the tokens it consumes, provided that the token before it stays separate from what follows. Blanks can thus be inserted and removed, comments added, and line ends changed.", "quantifier": "every text and every place between tokens", "why_tests_cant": "Relates pairs of texts.", "anchors": ["src/tokenizer/slice.rs: eat_whitespace", "src/parser/mod.rs: read_token"]}
{"id": "C37", "title": "Comments act as blanks or line breaks", "statement": "For the parser a comment that spans lines acts as a line terminator and any other comment acts as nothing: the token delivered to the grammar, and its preceded-by-a-newline mark, are those of the first non-comment token and of whether any line terminator or multi-line comment came before it.", "quantifier": "every text, every position", "why_tests_cant": "Quantifies over all sequences of comments and line terminators.", "anchors": ["src/parser/mod.rs: read_token"]}
{"id": "C38", "title": "A name followed by a slash is a division", "statement": "At the start of a statement, after a name that may be used as a variable (other than `let`), a slash that opens no comment is read as a division operator (`/` or `/=`) and never as the start of a regular expression. FALSE of the code after other operands at the start of a statement: `1 / 2`, `this / 2`, `a[0] / 2`, `a++ / 2` and `x = a[0] / 2` panic (witnesses proved).", "quantifier": "every text", "why_tests_cant": "Depends on the interplay of lookahead buffer and hints over all programs.", "anchors": ["src/parser/mod.rs: expect_expression, ident_lookahead, read_token"]}
{"id": "C39", "title": "Programs of a large fragment of JavaScript are accepted", "statement": "Every text that is made of the tokens of a program of a fixed fragment of JavaScript is accepted, whatever blanks, line breaks and comments stand between the tokens and however the tokens are spelled. The fragment is given by a grammar after ECMA-262 (all kinds of statements, declarations, patterns, functions, generators, classes, methods, templates, regular expressions, arrow functions, automatic semicolons, imports and exports). It leaves out the constructs that the code is known to reject or misread, such as async functions, class expressions, several spread arguments, the operator in within the initializer of let, and a division behind a number at the start of a statement; witnesses for these are part of the claim.", "quantifier": "every program of the fragment, of any size and nesting, and every way to write it down", "why_tests_cant": "Completeness over infinitely many programs and layouts.", "anchors": ["src/parser/*.rs", "src/tokenizer/slice.rs"]}
{"id": "C40", "title": "Parsing takes linear time", "statement": "On every text, accepted or not, the parser makes a number of method calls and removes a number of tokens that together are at most 192 times the length of the text plus one: run with a budget of that size, charged one unit per call and per removed token, it gives the same result as without a budget. In particular there is no backtracking or repeated attempt whose cost grows with the nesting of the text.", "quantifier": "every text, of any length and nesting", "why_tests_cant": "A bound on the work for all texts; tests only time a few.", "anchors": ["src/parser/mod.rs", "src/parser/*.rs"]}
{"id": "C41", "title": "The check for a second default clause is dead code", "statement": "No text makes the parser report \"duplicate default statements\": after any clause of a switch the words default and colon are taken for a label, so the loop of parse_switch_statement never sees a default clause when one has been found before. Each of the other errors of the parser is reported for some text.", "quantifier": "every text; every method in every parser state", "why_tests_cant": "That a line is never executed, for any input, is not shown by inputs that do not execute it.", "anchors": ["src/parser/statements.rs: parse_switch_statement, parse_default_clause, parse_case_clause, parse_labelled_statement"]}
{"id": "C42", "title": "The parser decides by the kinds of the tokens", "statement": "Whether a program is accepted, and which tokens the parser consumes, depends only on the kinds of its tokens and on which of them follow a line terminator. If an accepted program is rewritten so that each token is replaced by one of the same kind (an ordinary name by an ordinary name, a number by a number, a string by a string, a regular expression by a regular expression, a template piece by one of the same form; all other tokens by themselves), with any blanks and comments between them, then the result is accepted, with the new tokens. In particular renaming variables and changing constants never turns a valid program into a rejected one or the reverse. Rejections carry over as well: a text that begins with tokens of the same kinds as those read before the error is rejected with the same error.", "quantifier": "all pairs of texts that spell tokens of the same kinds", "why_tests_cant": "The texts and the renamings are unbounded; the claim is about pairs of runs.", "anchors": ["src/parser/mod.rs: keyword, identifier, binding_identifier, reference_identifier, numeric, string, regex, template", "src/parser/expressions.rs", "src/parser/statements.rs"]}
{"id": "C43", "title": "An error depends only on the tokens read", "statement": "The parser reads its input from left to right and decides as it goes: when it reports an error, it has read some tokens (consumed ones and at most two in its lookahead buffer), and the text behind these tokens has no influence on the outcome. Any other text with the same beginning is rejected with the same error after reading the same tokens at the same places, so that no continuation of the part already read could have been accepted; and changing blanks and comments between the tokens does not change the error.", "quantifier": "all rejected texts and all replacements of the part that was not read, provided that it does not run together with the last token read", "why_tests_cant": "All continuations of all rejected prefixes; the claim is about pairs of runs on unbounded texts.", "anchors": ["src/parser/mod.rs: fill, token, eat_token, ident_lookahead, with", "src/parser/statements.rs", "src/parser/expressions.rs", "src/tokenizer/mod.rs: read_token"]}
{"id": "C44", "title": "Three grammar contexts have no effect and strict mode is never entered", "statement": "The parser keeps track of eight parameters of the ECMAScript grammar, but three of them (Yield, Return and Module) have no influence on anything it does: every parser method, started in two states that differ only in these three (in the current and the saved contexts), returns the same value or fails with the same error or panics in the same way, and leaves states that again differ only in these three. Switching one of them has the same effect as the parser's NOOP. The parameter Strict does have an influence, but no method ever sets it: the parser is never in strict mode.", "quantifier": "all parser methods, all bounds, all pairs of states, all programs", "why_tests_cant": "A claim about pairs of runs from arbitrary states; no finite set of programs shows that a flag is never consulted.", "anchors": ["src/parser/mod.rs: GrammarFlags, push_flags, pop_flags, with, without, is_binding_identifier, ident_lookahead", "src/parser/functions.rs", "src/parser/classes.rs", "src/parser/expressions.rs"]}
{"id": "C45", "title": "On core tokens the grammar is exact", "statement": "The grammar of C32 is not only a necessary condition. For texts whose tokens belong to a large core of the language (all names, numbers, strings, templates, keywords and punctuators except slashes; no reserved word that begins no expression is behind yield on its line or behind yield and a star; no regular expressions), the text is accepted if and only if its tokens are derived in the grammar. With templates a text may be cut into tokens in several ways; the tokens meant are those for which a closing brace continues a template exactly if the innermost open bracket is a template. Without templates, the text is rejected (with an error, without panic) if and only if its tokens are not derived.", "quantifier": "all texts that spell a list of core tokens, of any length and nesting depth, in any layout", "why_tests_cant": "An equivalence between a grammar and a parser, for programs of any size: a test shows one program on one side.", "anchors": ["src/parser/mod.rs", "src/parser/statements.rs", "src/parser/expressions.rs", "src/parser/declarations.rs", "src/parser/functions.rs", "src/parser/patterns.rs", "src/parser/utils.rs"]}
{"id": "C46", "title": "Texts without slashes and templates are parsed without panic", "statement": "A text that is made of well-formed tokens (names, numbers, strings, punctuators, comments, white space and line terminators that the tokenizer knows), none of them a division sign, a regular expression or a piece of a template, is accepted or rejected with an error, whatever the order of its tokens: parse_root does not panic.", "quantifier": "all texts that spell a list of such tokens, in any order and number", "why_tests_cant": "The absence of panics on all token sequences, whether they are programs or not.", "anchors": ["src/parser/mod.rs: fill, read_token, ident_lookahead, push_flags, pop_flags", "src/parser/expressions.rs: parse_template_literal_expression", "src/tokenizer/slice.rs"]}
{"id": "C47", "title": "Printing restores the settings of the formatter", "statement": "Whatever the syntax tree and the state of the formatter, printing the tree only appends to the output, and afterwards the required precedence, the permission of the in operator and the wrap_standalone_if flag are what they were before, whatever locks were taken on the way. A lookahead restriction stays in force as long as nothing has been written and is over with the first thing written.", "quantifier": "all syntax trees (without JSX), all states of the formatter", "why_tests_cant": "The locks are taken and dropped in nested scopes; a setting that leaks shows only in trees where something later depends on it.", "anchors": ["src/ast/display.rs: NodeFormatter, wrap_parens_inner, require_precedence, restrict_lookahead, allow_in, disallow_in, wrap_curly, wrap_square, disallow_orphan_if, wrap_orphan_if", "src/ast/*.rs: NodeDisplay impls"]}
{"id": "C48", "title": "Brackets in printed text match", "statement": "In the printed text of every syntax tree the parentheses, square brackets and curly brackets match.", "quantifier": "all syntax trees (without JSX)", "why_tests_cant": "Which brackets are written depends on the settings of the formatter at each node, so on the path from the root.", "anchors": ["src/ast/display.rs: wrap_parens_inner, wrap_curly, wrap_square, wrap_orphan_if", "src/ast/*.rs: NodeDisplay impls"]}
{"id": "C49", "title": "Words in printed text are kept apart", "statement": "In the printed text of every syntax tree no keyword, name or number directly follows a keyword or a name; there is a space or another token between them.", "quantifier": "all syntax trees (without JSX)", "why_tests_cant": "Any two node types can meet at the boundary, with any number of empty nodes between them.", "anchors": ["src/ast/display.rs: keyword, identifier, number, punctuator, string, regexp, template_part", "src/ast/*.rs: NodeDisplay impls"]}
{"id": "C50", "title": "Printed expressions do not begin with what the place forbids", "statement": "An expression that is printed as an expression statement, behind export default, in the head of a for statement or as the body of an arrow function does not begin with a sequence of tokens that the grammar forbids there by a lookahead restriction (function, class, async function; {; let [; in the head of for-of, let), however deep the node is that the text begins with: parentheses are put around it.", "quantifier": "all syntax trees of expressions (without JSX), all states of the formatter", "why_tests_cant": "The node that the text begins with can be at any depth, below any left operands.", "anchors": ["src/ast/display.rs: restrict_lookahead, lookahead_wrap_parens", "src/ast/expression.rs: get_sequence, MemberExpression, AssignmentExpression", "src/ast/objects.rs: ObjectExpression", "src/ast/functions.rs: FunctionExpression, ArrowFunctionExpressionBody", "src/ast/classes.rs: ClassExpression", "src/ast/statement.rs: ExpressionStatement, ForStatement", "src/ast/modules.rs: ExportDefaultExpression"]}
{"id": "C51", "title": "Printed expressions read back as the same tree", "statement": "The tokens printed for an expression, read with the grammar of ECMAScript (precedence and associativity of the operators), give the tree that was printed: parentheses are put wherever an operand binds less tightly than its place requires.", "quantifier": "all syntax trees of expressions, all states of the formatter", "why_tests_cant": "Operands can be nested to any depth, and the required precedence depends on everything around them.", "anchors": ["src/ast/display.rs: precedence, require_precedence, wrap_parens", "src/ast/expression.rs: the NodeDisplay impls of the operators, CallExpression, MemberExpression"]}
{"id": "C52", "title": "Printed statements read back as the same tree; the dangling else", "statement": "The tokens printed for a statement, read with the grammar of ECMAScript, in which an else belongs to the nearest if before it that has none, give the tree that was printed: an if without else is put in braces wherever an else of an if further out would follow, however deep it is.", "quantifier": "all syntax trees of statements, all states of the formatter", "why_tests_cant": "Between the two if there can be any number of loops, labels and other if statements.", "anchors": ["src/ast/display.rs: disallow_orphan_if, wrap_orphan_if, wrap_curly", "src/ast/statement.rs: IfStatement, IfElseStatement, the other statements"]}
{"id": "C53", "title": "The parser accepts the scripts that the printer writes", "statement": "The text printed for a script is accepted by the parser of the same crate: the pieces written by the formatter are cut into the tokens they stand for, and these tokens are a program of the grammar.", "quantifier": "all lists of statements, of any size and nesting, in both builds", "why_tests_cant": "Statements and expressions can be nested to any depth, any two pieces can come to stand next to each other, and how the parser reads a token depends on everything before it.", "anchors": ["src/ast/display.rs: NodeFormatter", "src/ast/statement.rs", "src/ast/expression.rs", "src/parser/mod.rs: parse_root", "src/tokenizer/mod.rs: next_token"]}
