import Verif.Model.Bytes
/-!
# The printer of syntax trees

Models src/ast/display.rs and the `NodeDisplay` impls of src/ast/literal.rs, general.rs,
expression.rs, objects.rs, patterns.rs, functions.rs, statement.rs, classes.rs, decorators.rs,
modules.rs and root.rs.

The module `ast` is commented out of src/lib.rs:6-7, and at this commit it does not compile: most
calls of `punctuator` and `keyword` lack their last argument, the position, and most node types are
missing from `alias::Expression`. It is read here as meant:

* the position arguments, which no function looks at, are left out;
* every expression node can stand where an expression is expected.

Other simplifications:

* All node types are one type `Node`, so a tree here need not be well-typed in Rust; every tree
  that is well-typed in Rust is a tree here.
* A `String` output is a list of pieces, each the argument of one `write!`; its text is their
  concatenation (`Fmt.text`). Writing to a `String` does not fail, so there are no results.
* An identifier, a string or a template part carries the text that is written: `raw` if it is
  there, else `value`. A number carries the text of `format!("{}", value)`.
* A lock is a function that takes what is done under the lock; what `drop` does comes after.
  `?` after a temporary lock drops it at the end of the statement, a lock bound by `let` is dropped
  at the end of its block.
* JSX is left out.
-/

namespace Jsparse.Ast

/-- Models src/ast/display.rs:7-83, `enum Punctuator`. -/
inductive Punct where
  | eq | eqEq | eqEqEq | neq | neqEq | curlyR | curlyL | parenR | parenL | squareR | squareL
  | angleR | angleL | semicolon | sQuote | ellipsis | period | «at» | comma | question | colon
  | colonColon | slash | star | starStar | plus | plusPlus | subtract | minus | minusMinus
  | arrow | arrowStar | caret | lAngle | lAngleEq | lAngleAngle | rAngle | rAngleEq
  | rAngleAngle | rAngleAngleAngle | mod | amp | ampAmp | bar | barBar | bind | exclam | tilde
  | hash | templateOpen | templateClose | templateTick | slashAngle | angleSlash
  | questionPeriod
deriving DecidableEq, Repr

/-- Models src/ast/display.rs:90-141, `enum Keyword`. -/
inductive Keyword where
  | «export» | «default» | «function» | «class» | «import» | «from» | «this» | «extends»
  | «new» | target | «meta» | sent | arguments | super | typeof | var | «let» | const | «in»
  | «while» | «do» | switch | «with» | «finally» | debugger | «catch» | «true» | «false»
  | «return» | case | await | «for» | «throw» | «try» | of | «if» | «else» | «continue»
  | «break» | «async» | null | delete | yield | instanceof | void | get | set | «static» | «as»
deriving DecidableEq, Repr

/-- Models the text written for a punctuator; src/ast/display.rs:506-562. -/
def Punct.text : Punct → Bytes
  | .eq => b!"=" | .eqEq => b!"==" | .eqEqEq => b!"===" | .neq => b!"!=" | .neqEq => b!"!=="
  | .curlyR => b!"}" | .curlyL => b!"{" | .parenR => b!")" | .parenL => b!"("
  | .squareR => b!"]" | .squareL => b!"[" | .angleR => b!">" | .angleL => b!"<"
  | .semicolon => b!";" | .sQuote => b!"'" | .ellipsis => b!"..." | .period => b!"."
  | .«at» => b!"@" | .comma => b!"," | .question => b!"?" | .colon => b!":"
  | .colonColon => b!"::" | .slash => b!"/" | .star => b!"*" | .starStar => b!"**"
  | .plus => b!"+" | .plusPlus => b!"++" | .subtract => b!"-" | .minus => b!"-"
  | .minusMinus => b!"--" | .arrow => b!"=>" | .arrowStar => b!"=*>" | .caret => b!"^"
  | .lAngle => b!"<" | .lAngleEq => b!"<=" | .lAngleAngle => b!"<<" | .rAngle => b!">"
  | .rAngleEq => b!">=" | .rAngleAngle => b!">>" | .rAngleAngleAngle => b!">>>" | .mod => b!"%"
  | .amp => b!"&" | .ampAmp => b!"&&" | .bar => b!"|" | .barBar => b!"||" | .bind => b!"::"
  | .exclam => b!"!" | .tilde => b!"~" | .hash => b!"#" | .templateOpen => b!"${"
  | .templateClose => b!"}" | .templateTick => b!"`" | .slashAngle => b!"/>"
  | .angleSlash => b!"</" | .questionPeriod => b!"?."

/-- Models the text written for a keyword; src/ast/display.rs:447-497. -/
def Keyword.text : Keyword → Bytes
  | .«export» => b!"export" | .«default» => b!"default" | .«function» => b!"function"
  | .«class» => b!"class" | .«import» => b!"import" | .«from» => b!"from" | .«this» => b!"this"
  | .«extends» => b!"extends" | .«new» => b!"new" | .target => b!"target" | .«meta» => b!"meta"
  | .sent => b!"sent" | .arguments => b!"arguments" | .super => b!"super"
  | .typeof => b!"typeof" | .var => b!"var" | .«let» => b!"let" | .const => b!"const"
  | .«in» => b!"in" | .«while» => b!"while" | .«do» => b!"do" | .switch => b!"switch"
  | .«with» => b!"with" | .«finally» => b!"finally" | .debugger => b!"debugger"
  | .«catch» => b!"catch" | .«true» => b!"true" | .«false» => b!"false"
  | .«return» => b!"return" | .case => b!"case" | .await => b!"await" | .«for» => b!"for"
  | .«throw» => b!"throw" | .«try» => b!"try" | .of => b!"of" | .«if» => b!"if"
  | .«else» => b!"else" | .«continue» => b!"continue" | .«break» => b!"break"
  | .«async» => b!"async" | .null => b!"null" | .delete => b!"delete" | .yield => b!"yield"
  | .instanceof => b!"instanceof" | .void => b!"void" | .get => b!"get" | .set => b!"set"
  | .«static» => b!"static" | .«as» => b!"as"

/-- Models `Precedence`, src/ast/display.rs:143-165. -/
inductive Prec where
  | normal | assignment | conditional | logicalOr | logicalAnd | bitwiseOr | bitwiseXOr
  | bitwiseAnd | equality | relational | shift | additive | multiplicative | exponential
  | unary | update | leftHand | «new» | member | primary
deriving DecidableEq, Repr

/-- `p as u32`, src/ast/display.rs:145: the first is 1, each next one more. -/
def Prec.num : Prec → Nat
  | .normal => 1 | .assignment => 2 | .conditional => 3 | .logicalOr => 4 | .logicalAnd => 5
  | .bitwiseOr => 6 | .bitwiseXOr => 7 | .bitwiseAnd => 8 | .equality => 9 | .relational => 10
  | .shift => 11 | .additive => 12 | .multiplicative => 13 | .exponential => 14 | .unary => 15
  | .update => 16 | .leftHand => 17 | .«new» => 18 | .member => 19 | .primary => 20

/-- Models `LookaheadRestriction`, src/ast/display.rs:167-182. -/
inductive Look where
  | exportDefault | expressionStatement | forInit | forOfInit | conciseBody
deriving DecidableEq, Repr

/-- Models `LookaheadSequence`, src/ast/display.rs:184-191. -/
inductive LookSeq where
  | none | declaration | curly | letSquare | «let»
deriving DecidableEq, Repr

/-- What one `write!` writes. -/
inductive Piece where
  /-- A keyword. -/
  | kw (k : Keyword)
  /-- A punctuator. -/
  | punct (p : Punct)
  /-- The name of an identifier. -/
  | ident (t : Bytes)
  /-- A number. -/
  | num (t : Bytes)
  /-- The inside of a string, of a template or of a regular expression, or its flags. -/
  | raw (t : Bytes)
  /-- The space between two words. -/
  | space
deriving DecidableEq, Repr

/-- The text of a piece. -/
def Piece.text : Piece → Bytes
  | .kw k => k.text
  | .punct p => p.text
  | .ident t => t
  | .num t => t
  | .raw t => t
  | .space => b!" "

/-- Models `NodeFormatter`, src/ast/display.rs:195-205. -/
structure Fmt where
  prec : Prec
  inOperator : Bool
  wrapStandaloneIf : Bool
  look : Option Look
  endsWithInteger : Bool
  endsWithKeyword : Bool
  output : List Piece
deriving DecidableEq, Repr

/-- Models `NodeFormatter::new`, src/ast/display.rs:207-218. -/
def Fmt.new : Fmt := ⟨.normal, true, false, none, false, false, []⟩

/-- The `String` that is the output. -/
def Fmt.text (f : Fmt) : Bytes := f.output.flatMap Piece.text

namespace Fmt

/-- `write!(self, …)`, src/ast/display.rs:670-676. -/
def write (p : Piece) (f : Fmt) : Fmt := { f with output := f.output ++ [p] }

/-- The first three lines of `keyword` and of `identifier`, src/ast/display.rs:440-442, 567-569, and
the first of `number`, 600-601. -/
def separate (f : Fmt) : Fmt := if f.endsWithKeyword then f.write .space else f

/-- Models `keyword`, src/ast/display.rs:437-498. -/
def keyword (k : Keyword) (f : Fmt) : Fmt :=
  { f.separate with endsWithKeyword := true, endsWithInteger := false, look := none }.write (.kw k)

/-- Models `punctuator`, src/ast/display.rs:501-563. -/
def punctuator (p : Punct) (f : Fmt) : Fmt :=
  { f with endsWithKeyword := false, endsWithInteger := false, look := none }.write (.punct p)

/-- Models `identifier`, src/ast/display.rs:566-582. -/
def identifier (t : Bytes) (f : Fmt) : Fmt :=
  { f.separate with endsWithKeyword := true, endsWithInteger := false, look := none }.write
    (.ident t)

/-- Models `string`, src/ast/display.rs:583-598. -/
def string (t : Bytes) (f : Fmt) : Fmt :=
  (({ f with look := none }.punctuator .sQuote).write (.raw t)).punctuator .sQuote

/-- Models `number`, src/ast/display.rs:599-614. -/
def number (t : Bytes) (f : Fmt) : Fmt :=
  let f := { f.separate with look := none }.write (.num t)
  { f with endsWithInteger := !t.contains c!".", endsWithKeyword := false }

/-- Models `template_part`, src/ast/display.rs:616-625. -/
def templatePart (t : Bytes) (f : Fmt) : Fmt := f.write (.raw t)

/-- Models `regexp`, src/ast/display.rs:627-635; the flags are written one by one in the source. -/
def regexp (value flags : Bytes) (f : Fmt) : Fmt :=
  (((f.punctuator .slash).write (.raw value)).punctuator .slash).write (.raw flags)

/-- Models `wrap_parens_inner`, src/ast/display.rs:317-340. -/
def wrapParensInner (wrap : Bool) (body : Fmt → Fmt) (f : Fmt) : Fmt :=
  if !wrap then body f
  else
    let g := body
      ({ f with prec := .normal, inOperator := true, wrapStandaloneIf := false }.punctuator .parenL)
    { g with
      prec := f.prec, inOperator := f.inOperator,
      wrapStandaloneIf := f.wrapStandaloneIf }.punctuator .parenR

/-- Models `wrap_parens`, src/ast/display.rs:343-345. -/
def wrapParens (body : Fmt → Fmt) (f : Fmt) : Fmt := f.wrapParensInner true body

/-- Models `precedence`, src/ast/display.rs:221-229. -/
def precedence (p : Prec) (body : Fmt → Fmt) (f : Fmt) : Fmt :=
  f.wrapParensInner (decide (p.num < f.prec.num)) body

/-- Models `require_precedence`, src/ast/display.rs:231-236. -/
def requirePrecedence (p : Prec) (body : Fmt → Fmt) (f : Fmt) : Fmt :=
  { body { f with prec := p } with prec := f.prec }

/-- Models `restrict_lookahead`, src/ast/display.rs:241-258. -/
def restrictLookahead (l : Look) (body : Fmt → Fmt) (f : Fmt) : Fmt :=
  let g := body { f with look := some l }
  if g.look.isSome then { g with look := f.look } else g

/-- The `match` of `lookahead_wrap_parens`, src/ast/display.rs:266-285. -/
def _root_.Jsparse.Ast.LookSeq.forbidden (s : LookSeq) : Option Look → Bool
  | some .exportDefault => s == .declaration
  | some .expressionStatement => s != .none
  | some .forInit => s == .letSquare
  | some .forOfInit => s == .«let» || s == .letSquare
  | some .conciseBody => s == .curly
  | none => false

/-- Models `lookahead_wrap_parens`, src/ast/display.rs:262-286. -/
def lookaheadWrapParens (s : LookSeq) (body : Fmt → Fmt) (f : Fmt) : Fmt :=
  f.wrapParensInner (s.forbidden f.look) body

/-- Models `allow_in`, src/ast/display.rs:289-297. -/
def allowIn (body : Fmt → Fmt) (f : Fmt) : Fmt :=
  { body { f with inOperator := true } with inOperator := f.inOperator }

/-- Models `disallow_in`, src/ast/display.rs:300-308. -/
def disallowIn (body : Fmt → Fmt) (f : Fmt) : Fmt :=
  { body { f with inOperator := false } with inOperator := f.inOperator }

/-- Models `in_wrap_parens`, src/ast/display.rs:312-315. -/
def inWrapParens (body : Fmt → Fmt) (f : Fmt) : Fmt := f.wrapParensInner f.inOperator body

/-- What `wrap_curly` and `wrap_square` have in common, src/ast/display.rs:348-383. -/
def wrapBy (l r : Punct) (body : Fmt → Fmt) (f : Fmt) : Fmt :=
  let g := body ({ f with wrapStandaloneIf := false, inOperator := true }.punctuator l)
  { g with wrapStandaloneIf := f.wrapStandaloneIf, inOperator := f.inOperator }.punctuator r

/-- Models `wrap_curly`, src/ast/display.rs:348-364. -/
def wrapCurly (body : Fmt → Fmt) (f : Fmt) : Fmt := f.wrapBy .curlyL .curlyR body

/-- Models `wrap_square`, src/ast/display.rs:367-383. -/
def wrapSquare (body : Fmt → Fmt) (f : Fmt) : Fmt := f.wrapBy .squareL .squareR body

/-- Models `disallow_orphan_if`, src/ast/display.rs:387-395. -/
def disallowOrphanIf (body : Fmt → Fmt) (f : Fmt) : Fmt :=
  { body { f with wrapStandaloneIf := true } with wrapStandaloneIf := f.wrapStandaloneIf }

/-- Models `wrap_orphan_if`, src/ast/display.rs:399-405. -/
def wrapOrphanIf (body : Fmt → Fmt) (f : Fmt) : Fmt :=
  if !f.wrapStandaloneIf then body f else f.wrapCurly body

end Fmt

/-- The binary operators with the same shape of printer, src/ast/expression.rs:713-1124; `in` has its
own. -/
inductive BinOp where
  | add | subtract | leftShift | rightShift | rightShiftSigned | divide | multiply | modulus
  | bitAnd | bitOr | bitXor | power | equal | strictEqual | notEqual | strictNotEqual
  | lessThan | lessThanEqual | greaterThan | greaterThanEqual | instanceof | and | or
deriving DecidableEq, Repr

/-- The argument of `precedence`, src/ast/expression.rs:719-1114. -/
def BinOp.prec : BinOp → Prec
  | .add | .subtract => .additive
  | .leftShift | .rightShift | .rightShiftSigned => .shift
  | .divide | .multiply | .modulus => .multiplicative
  | .bitAnd => .bitwiseAnd
  | .bitOr => .bitwiseOr
  | .bitXor => .bitwiseXOr
  | .power => .update
  | .equal | .strictEqual | .notEqual | .strictNotEqual => .equality
  | .lessThan | .lessThanEqual | .greaterThan | .greaterThanEqual | .instanceof => .relational
  | .and => .logicalAnd
  | .or => .logicalOr

/-- The argument of `require_precedence`, src/ast/expression.rs:719-1120. -/
def BinOp.right : BinOp → Prec
  | .add | .subtract => .multiplicative
  | .leftShift | .rightShift | .rightShiftSigned => .additive
  | .divide | .multiply | .modulus => .exponential
  | .bitAnd => .equality
  | .bitOr => .bitwiseXOr
  | .bitXor => .bitwiseAnd
  | .power => .exponential
  | .equal | .strictEqual | .notEqual | .strictNotEqual => .relational
  | .lessThan | .lessThanEqual | .greaterThan | .greaterThanEqual | .instanceof => .shift
  | .and => .bitwiseOr
  | .or => .logicalAnd

/-- What is written between the operands, src/ast/expression.rs:719-1120. -/
def BinOp.fmt : BinOp → Fmt → Fmt
  | .add => .punctuator .plus
  | .subtract => .punctuator .minus
  | .leftShift => .punctuator .lAngleAngle
  | .rightShift => .punctuator .rAngleAngle
  | .rightShiftSigned => .punctuator .rAngleAngleAngle
  | .divide => .punctuator .slash
  | .multiply => .punctuator .star
  | .modulus => .punctuator .mod
  | .bitAnd => .punctuator .amp
  | .bitOr => .punctuator .bar
  | .bitXor => .punctuator .caret
  | .power => .punctuator .starStar
  | .equal => .punctuator .eqEq
  | .strictEqual => .punctuator .eqEqEq
  | .notEqual => .punctuator .neq
  | .strictNotEqual => .punctuator .neqEq
  | .lessThan => .punctuator .lAngle
  | .lessThanEqual => .punctuator .lAngleEq
  | .greaterThan => .punctuator .rAngle
  | .greaterThanEqual => .punctuator .rAngleEq
  | .instanceof => .keyword .instanceof
  | .and => .punctuator .ampAmp
  | .or => .punctuator .barBar

/-- The operators of assignments other than `=`, src/ast/expression.rs:1197-1387. -/
inductive AssignOp where
  | add | subtract | leftShift | rightShift | rightShiftSigned | divide | multiply | modulus
  | bitAnd | bitOr | bitXor | power
deriving DecidableEq, Repr

/-- The first punctuator of the operator; the second is `=`. src/ast/expression.rs:1203-1387. -/
def AssignOp.punct : AssignOp → Punct
  | .add => .plus | .subtract => .subtract | .leftShift => .lAngleAngle
  | .rightShift => .rAngleAngle | .rightShiftSigned => .rAngleAngleAngle | .divide => .slash
  | .multiply => .star | .modulus => .mod | .bitAnd => .amp | .bitOr => .bar | .bitXor => .caret
  | .power => .starStar

/-- The unary operators with the same shape of printer, src/ast/expression.rs:573-668. -/
inductive UnOp where
  | delete | void | typeof | positive | negative | bitNegate | negate | await
deriving DecidableEq, Repr

/-- What is written before the operand, src/ast/expression.rs:577-668. -/
def UnOp.fmt : UnOp → Fmt → Fmt
  | .delete => .keyword .delete
  | .void => .keyword .void
  | .typeof => .keyword .typeof
  | .positive => .punctuator .plus
  | .negative => .punctuator .exclam
  | .bitNegate => .punctuator .tilde
  | .negate => .punctuator .exclam
  | .await => .keyword .await

/-- The meta properties, src/ast/expression.rs:1429-1487. -/
inductive Meta where
  | newTarget | importMeta | functionSent | functionArguments
deriving DecidableEq, Repr

/-- Models the `fmt`s of src/ast/expression.rs:1435-1487. -/
def Meta.fmt : Meta → Fmt → Fmt
  | .newTarget, f => ((f.keyword .«new»).punctuator .period).keyword .target
  | .importMeta, f => ((f.keyword .«import»).punctuator .period).keyword .«meta»
  | .functionSent, f => ((f.keyword .«function»).punctuator .period).keyword .sent
  | .functionArguments, f => ((f.keyword .«function»).punctuator .period).keyword .arguments

/-- Models `FunctionKind`, src/ast/functions.rs:78-83, and `ArrowFunctionKind`, 404-409. -/
inductive FnKind where
  | normal | generator | «async» | asyncGenerator
deriving DecidableEq, Repr

/-- Models `FunctionKind::fmt`, src/ast/functions.rs:89-111. -/
def FnKind.fmt : FnKind → Fmt → Fmt
  | .normal, f => f.keyword .«function»
  | .generator, f => (f.keyword .«function»).punctuator .star
  | .«async», f => (f.keyword .«async»).keyword .«function»
  | .asyncGenerator, f => ((f.keyword .«async»).keyword .«function»).punctuator .star

/-- What is written before the parameters of an arrow function, src/ast/functions.rs:419-437. -/
def FnKind.fmtArrowHead : FnKind → Fmt → Fmt
  | .normal, f | .generator, f => f
  | .«async», f | .asyncGenerator, f => f.keyword .«async»

/-- The arrow of an arrow function, src/ast/functions.rs:419-437. -/
def FnKind.arrow : FnKind → Punct
  | .normal | .«async» => .arrow
  | .generator | .asyncGenerator => .arrowStar

/-- Models `MethodKind`, src/ast/objects.rs:118-125. -/
inductive MethodKind where
  | normal | generator | «async» | asyncGenerator | get | set
deriving DecidableEq, Repr

/-- Models `MethodKind::fmt`, src/ast/objects.rs:132-148. -/
def MethodKind.fmt : MethodKind → Fmt → Fmt
  | .normal, f => f
  | .generator, f => f.punctuator .star
  | .«async», f => f.keyword .«async»
  | .asyncGenerator, f => (f.keyword .«async»).punctuator .star
  | .get, f => f.keyword .get
  | .set, f => f.keyword .set

/-- The keyword of a declaration, src/ast/statement.rs:70, 154, 184, 573-612. -/
inductive DeclKind where
  | var | «let» | const
deriving DecidableEq, Repr

def DeclKind.kw : DeclKind → Keyword
  | .var => .var | .«let» => .«let» | .const => .const

/-- The nodes of decorators.rs, classes.rs, modules.rs and root.rs, and those of functions.rs that have
to do with them. -/
inductive ItemKind where
  | decorator | decoratorExpr | decoratorMember | decoratorCall | decorated
  | heritage | exportDefaultClass | classDecl | classExpr | classField
  | classMethod (kind : MethodKind) | «static»
  | exportDefaultFunc (kind : FnKind)
  | aliased | importNamed | importNamedNamespace | importNamespace | importNamedSpecifiers
  | importSpecifiers | exportDefault | exportDecl | exportLocal | exportSpecifiers | exportAll
  | exportNamed | exportNamedNamespace | exportNamespace | exportNamedSpecifiers
  | root
deriving DecidableEq, Repr

/-- Models the `NodeDisplay` impls of these nodes; the arguments are the printers of their list, the
list with commas, and their fields in order. Each case names the lines of its `fmt`. -/
def ItemKind.fmt (k : ItemKind) (list comma a b c d : Fmt → Fmt) (f : Fmt) : Fmt :=
  match k with
  -- functions.rs:270-275; classes.rs:477-482, 497-502
  | .decorator => a (f.punctuator .«at»)
  -- decorators.rs:23-27
  | .decoratorExpr => f.requirePrecedence .normal a
  -- decorators.rs:33-39
  | .decoratorMember => b ((a f).punctuator .period)
  -- decorators.rs:52-57
  | .decoratorCall => b (a f)
  -- functions.rs:217-226, with decorators
  | .decorated => a (list f)
  -- classes.rs:19-27
  | .heritage => (f.keyword .«extends»).requirePrecedence .leftHand a
  -- classes.rs:50-62
  | .exportDefaultClass =>
    c (b (a ((list ((f.keyword .«export»).keyword .«default»)).keyword .«class»)))
  -- classes.rs:128-138
  | .classDecl => c (b (a ((list f).keyword .«class»)))
  -- classes.rs:182-194
  | .classExpr => f.lookaheadWrapParens .declaration fun f =>
    c (b (a ((list f).keyword .«class»)))
  -- classes.rs:293-305
  | .classField => (c (b (a (list f)))).punctuator .semicolon
  -- classes.rs:389-402
  | .classMethod kind => d (c (b (kind.fmt (a (list f)))))
  -- classes.rs:461-466
  | .«static» => f.keyword .«static»
  -- functions.rs:285-294
  | .exportDefaultFunc kind => c (b (a (kind.fmt ((f.keyword .«export»).keyword .«default»))))
  -- modules.rs:76-82, 545-551, 633-639
  | .aliased => b ((a f).keyword .«as»)
  -- modules.rs:91-100
  | .importNamed => (b ((a (f.keyword .«import»)).keyword .«from»)).punctuator .semicolon
  -- modules.rs:127-140
  | .importNamedNamespace =>
    let f := ((a (f.keyword .«import»)).punctuator .comma).punctuator .star
    (c ((b (f.keyword .«as»)).keyword .«from»)).punctuator .semicolon
  -- modules.rs:167-178
  | .importNamespace =>
    let f := (f.keyword .«import»).punctuator .star
    (b ((a (f.keyword .«as»)).keyword .«from»)).punctuator .semicolon
  -- modules.rs:207-222
  | .importNamedSpecifiers =>
    let f := ((a (f.keyword .«import»)).punctuator .comma).wrapCurly fun f => b (comma f)
    (c (f.keyword .«from»)).punctuator .semicolon
  -- modules.rs:272-285
  | .importSpecifiers =>
    let f := (f.keyword .«import»).wrapCurly fun f => a (comma f)
    (b (f.keyword .«from»)).punctuator .semicolon
  -- modules.rs:333-348
  | .exportDefault =>
    let f := (f.keyword .«export»).keyword .«default»
    (f.restrictLookahead .exportDefault fun f => f.requirePrecedence .assignment a).punctuator
      .semicolon
  -- modules.rs:398-404, 412-418, 426-432, 440-446, 454-460
  | .exportDecl => a (f.keyword .«export»)
  -- modules.rs:472-483
  | .exportLocal => ((f.keyword .«export»).wrapCurly fun f => a (comma f)).punctuator .semicolon
  -- modules.rs:565-580
  | .exportSpecifiers =>
    let f := (f.keyword .«export»).wrapCurly fun f => a (comma f)
    (b (f.keyword .«from»)).punctuator .semicolon
  -- modules.rs:649-658
  | .exportAll =>
    (a (((f.keyword .«export»).punctuator .star).keyword .«from»)).punctuator .semicolon
  -- modules.rs:683-692
  | .exportNamed => (b ((a (f.keyword .«export»)).keyword .«from»)).punctuator .semicolon
  -- modules.rs:720-733
  | .exportNamedNamespace =>
    let f := ((a (f.keyword .«export»)).punctuator .comma).punctuator .star
    (c ((b (f.keyword .«as»)).keyword .«from»)).punctuator .semicolon
  -- modules.rs:744-755
  | .exportNamespace =>
    let f := (f.keyword .«export»).punctuator .star
    (b ((a (f.keyword .«as»)).keyword .«from»)).punctuator .semicolon
  -- modules.rs:788-803
  | .exportNamedSpecifiers =>
    let f := ((a (f.keyword .«export»)).punctuator .comma).wrapCurly fun f => b (comma f)
    (c (f.keyword .«from»)).punctuator .semicolon
  -- root.rs:18-26, 55-63; the directives and the body in one list
  | .root => f.allowIn list

mutual
/-- The nodes of the syntax tree. A list of items with commas between them is a list of the items
that a comma follows, and a last item. -/
inductive Node where
  /-- `Option::None`, src/ast/display.rs:733-740. -/
  | none
  -- literal.rs and general.rs
  | ident (name : Bytes)
  | this
  | null
  | bool (b : Bool)
  | num (text : Bytes)
  | str (text : Bytes)
  | regexp (value flags : Bytes)
  | init (e : Node)
  -- expression.rs
  | paren (e : Node)
  | tagged (tag template : Node)
  | template (parts : Nodes) (last : Bytes)
  | part (text : Bytes) (e : Node)
  | spread (e : Node)
  | args (items : Nodes) (last : Node)
  | call (callee args : Node)
  | optCall (callee args : Node)
  | newArgs (callee args : Node)
  | newEmpty (callee : Node)
  | importCall (arg : Node)
  | superCall (args : Node)
  | superMember (access : Node)
  | member (object access : Node)
  | optMember (object access : Node)
  | dot (id : Node)
  | computed (e : Node)
  | privateDot (id : Node)
  | optDot (id : Node)
  | optComputed (e : Node)
  | optPrivate (id : Node)
  | postfix (increment : Bool) (value : Node)
  | «prefix» (increment : Bool) (value : Node)
  | unary (op : UnOp) (value : Node)
  | yield (value : Node)
  | yieldStar (value : Node)
  | bindMember (value : Node)
  | bind (left right : Node)
  | bin (op : BinOp) (left right : Node)
  | inOp (left right : Node)
  | cond (test consequent alternate : Node)
  | assign (left right : Node)
  | opAssign (op : AssignOp) (left right : Node)
  | seq (left right : Node)
  | doExpr (body : Node)
  | «meta» (m : Meta)
  -- objects.rs
  | object (items : Nodes) (last : Node)
  | objectSpread (e : Node)
  | prop (name value : Node)
  | method (kind : MethodKind) (name params body : Node)
  | array (items : Nodes) (last : Node)
  | arrayItem (e : Node)
  | arraySpread (e : Node)
  -- patterns.rs
  | objectPattern (items : Nodes) (last : Node)
  | arrayPattern (items : Nodes) (last : Node)
  | patternItem (id init : Node)
  | patternProp (name pattern init : Node)
  -- functions.rs
  | func (kind : FnKind) (id params body : Node)
  | funcDecl (kind : FnKind) (id params body : Node)
  | arrow (kind : FnKind) (params body : Node)
  | concise (e : Node)
  | directive (text : Bytes)
  -- statement.rs
  | block (body : Nodes)
  | decl (kind : DeclKind) (items : Nodes) (last : Node)
  | exprStmt (e : Node)
  | ifStmt (test consequent : Node)
  | ifElse (test consequent alternate : Node)
  | forStmt (init test update body : Node)
  | forInit (e : Node)
  | forIn (left right body : Node)
  | forOf (await : Bool) (left right body : Node)
  | forPattern (kind : DeclKind) (pattern init : Node)
  | whileStmt (test body : Node)
  | doWhile (body test : Node)
  | switch (discriminant : Node) (cases : Nodes)
  | case (test : Node) (consequent : Nodes)
  | caseDefault (consequent : Nodes)
  | withStmt (object body : Node)
  | labelled (label body : Node)
  | throw (e : Node)
  | tryCatch (body clause : Node)
  | tryCatchFinally (body clause finalizer : Node)
  | tryFinally (body finalizer : Node)
  | catchClause (param body : Node)
  | «continue» (label : Node)
  | «break» (label : Node)
  | ret (value : Node)
  | retValue (e : Node)
  | debugger
  | empty
  /-- The nodes of `ItemKind`. -/
  | item (kind : ItemKind) (list : Nodes) (a b c d : Node)
/-- A list of nodes. -/
inductive Nodes where
  | nil
  | cons (n : Node) (rest : Nodes)
end

/-- Models `get_sequence`, src/ast/expression.rs:377-390. -/
def Node.sequence (object access : Node) : LookSeq :=
  match object with
  | .ident name =>
    if name = b!"let" then
      match access with
      | .computed _ => .letSquare
      | _ => .«let»
    else .none
  | _ => .none

/-- The `if let` of `AssignmentExpression::fmt`, src/ast/expression.rs:1180-1184. -/
def Node.assignSequence : Node → LookSeq
  | .objectPattern _ _ => .curly
  | _ => .none

mutual
/-- Models the `NodeDisplay` impls. The nodes are in the order of the sources; each case names the
lines of its `fmt`. -/
def Node.fmt : Node → Fmt → Fmt
  -- display.rs:733-740
  | .none, f => f
  -- general.rs:23-27, 54-58, 85-89; modules.rs:23-27; statement.rs:873-877, 1070-1076
  | .ident name, f => f.identifier name
  -- expression.rs:21-26
  | .this, f => f.keyword .this
  -- literal.rs:10-15
  | .null, f => f.keyword .null
  -- literal.rs:31-40
  | .bool b, f => if b then f.keyword .«true» else f.keyword .«false»
  -- literal.rs:66-70
  | .num t, f => f.number t
  -- literal.rs:100-104
  | .str t, f => f.string t
  -- literal.rs:130-134
  | .regexp v flags, f => f.regexp v flags
  -- general.rs:128-133
  | .init e, f => (f.punctuator .eq).requirePrecedence .assignment (Node.fmt e)
  -- expression.rs:43-47; patterns.rs:35-39; statement.rs:1024-1030
  | .paren e, f => f.wrapParens (Node.fmt e)
  -- expression.rs:77-82
  | .tagged tag t, f => Node.fmt t (f.requirePrecedence .member (Node.fmt tag))
  -- expression.rs:92-105
  | .template parts last, f =>
    ((Nodes.fmtList parts (f.punctuator .templateTick)).templatePart last).punctuator .templateTick
  -- expression.rs:95-100, one round of the loop
  | .part t e, f =>
    (((f.templatePart t).punctuator .templateClose).allowIn (Node.fmt e)).punctuator .templateOpen
  -- expression.rs:147-152; patterns.rs:111-116, 215-220, 323-328, 425-430; functions.rs:242-249
  | .spread e, f => Node.fmt e (f.punctuator .ellipsis)
  -- expression.rs:167-174; functions.rs:118-125
  | .args items last, f => f.wrapParens fun f => Node.fmt last (Nodes.fmtComma items f)
  -- expression.rs:265-271
  | .call callee args, f => Node.fmt args (f.requirePrecedence .«new» (Node.fmt callee))
  -- expression.rs:279-286
  | .optCall callee args, f =>
    Node.fmt args ((f.requirePrecedence .«new» (Node.fmt callee)).punctuator .questionPeriod)
  -- expression.rs:299-307
  | .newArgs callee args, f => f.precedence .member fun f =>
    Node.fmt args ((f.keyword .«new»).requirePrecedence .member (Node.fmt callee))
  -- expression.rs:314-321
  | .newEmpty callee, f => f.precedence .«new» fun f =>
    (f.keyword .«new»).requirePrecedence .«new» (Node.fmt callee)
  -- expression.rs:330-341
  | .importCall arg, f => (f.keyword .«import»).wrapParens fun f =>
    f.requirePrecedence .assignment (Node.fmt arg)
  -- expression.rs:348-353
  | .superCall args, f => Node.fmt args (f.keyword .super)
  -- expression.rs:1496-1501
  | .superMember access, f => Node.fmt access (f.keyword .super)
  -- expression.rs:363-374
  | .member object access, f => f.lookaheadWrapParens (Node.sequence object access) fun f =>
    Node.fmt access (f.requirePrecedence .member (Node.fmt object))
  -- expression.rs:399-406
  | .optMember object access, f =>
    Node.fmt access ((f.requirePrecedence .member (Node.fmt object)).punctuator .question)
  -- expression.rs:421-426
  | .dot id, f => Node.fmt id (f.punctuator .period)
  -- expression.rs:435-443; general.rs:111-121
  | .computed e, f => f.wrapSquare fun f => f.requirePrecedence .assignment (Node.fmt e)
  -- expression.rs:452-458
  | .privateDot id, f => Node.fmt id ((f.punctuator .period).punctuator .hash)
  -- expression.rs:495-500
  | .optDot id, f => Node.fmt id (f.punctuator .questionPeriod)
  -- expression.rs:477-487
  | .optComputed e, f => (f.punctuator .questionPeriod).wrapSquare fun f =>
    f.requirePrecedence .assignment (Node.fmt e)
  -- expression.rs:509-515
  | .optPrivate id, f => Node.fmt id ((f.punctuator .questionPeriod).punctuator .hash)
  -- expression.rs:523-529, 537-543
  | .postfix inc v, f => (f.requirePrecedence .leftHand (Node.fmt v)).punctuator
    (if inc then .plusPlus else .minusMinus)
  -- expression.rs:550-555, 562-567
  | .«prefix» inc v, f => (f.punctuator (if inc then .plusPlus else .minusMinus)).requirePrecedence
    .unary (Node.fmt v)
  -- expression.rs:577-668
  | .unary op v, f => f.precedence .unary fun f =>
    (op.fmt f).requirePrecedence .unary (Node.fmt v)
  -- expression.rs:675-682
  | .yield v, f => f.precedence .unary fun f =>
    (f.keyword .yield).requirePrecedence .assignment (Node.fmt v)
  -- expression.rs:689-697
  | .yieldStar v, f => f.precedence .unary fun f =>
    ((f.keyword .yield).punctuator .star).requirePrecedence .assignment (Node.fmt v)
  -- expression.rs:703-710
  | .bindMember v, f => f.precedence .unary fun f =>
    (f.punctuator .bind).requirePrecedence .member (Node.fmt v)
  -- expression.rs:1132-1141
  | .bind l r, f => f.precedence .leftHand fun f =>
    ((f.requirePrecedence .leftHand (Node.fmt l)).punctuator .colonColon).requirePrecedence .member
      (Node.fmt r)
  -- expression.rs:719-1120
  | .bin op l r, f => f.precedence op.prec fun f =>
    (op.fmt (Node.fmt l f)).requirePrecedence op.right (Node.fmt r)
  -- expression.rs:1061-1070
  | .inOp l r, f => f.precedence .relational fun f => f.inWrapParens fun f =>
    ((Node.fmt l f).keyword .«in»).requirePrecedence .shift (Node.fmt r)
  -- expression.rs:1154-1169
  | .cond t c a, f => f.precedence .conditional fun f =>
    ((f.requirePrecedence .logicalOr (Node.fmt t)).punctuator .question).requirePrecedence
      .assignment fun f => Node.fmt a ((f.allowIn (Node.fmt c)).punctuator .colon)
  -- expression.rs:1178-1194
  | .assign l r, f => f.lookaheadWrapParens l.assignSequence fun f =>
    ((f.requirePrecedence .leftHand (Node.fmt l)).punctuator .eq).requirePrecedence .assignment
      (Node.fmt r)
  -- expression.rs:1203-1387
  | .opAssign op l r, f =>
    (((f.requirePrecedence .leftHand (Node.fmt l)).punctuator op.punct).punctuator
      .eq).requirePrecedence .assignment (Node.fmt r)
  -- expression.rs:1398-1412
  | .seq l r, f => f.precedence .normal fun f =>
    ((Node.fmt l f).punctuator .comma).requirePrecedence .assignment (Node.fmt r)
  -- expression.rs:1421-1426
  | .doExpr body, f => Node.fmt body (f.keyword .«do»)
  -- expression.rs:1435-1487
  | .«meta» m, f => m.fmt f
  -- objects.rs:32-42
  | .object items last, f => f.lookaheadWrapParens .curly fun f => f.wrapCurly fun f =>
    Node.fmt last (Nodes.fmtComma items f)
  -- objects.rs:17-23
  | .objectSpread e, f => (f.punctuator .ellipsis).requirePrecedence .assignment (Node.fmt e)
  -- objects.rs:260-272
  | .prop name v, f => ((Node.fmt name f).punctuator .colon).requirePrecedence .assignment
    (Node.fmt v)
  -- objects.rs:157-164
  | .method kind name params body, f =>
    Node.fmt body (Node.fmt params (Node.fmt name (kind.fmt f)))
  -- objects.rs:344-352
  | .array items last, f => f.precedence .primary fun f => f.wrapSquare fun f =>
    Node.fmt last (Nodes.fmtComma items f)
  -- objects.rs:319-324
  | .arrayItem e, f => f.requirePrecedence .assignment (Node.fmt e)
  -- objects.rs:330-337
  | .arraySpread e, f => f.requirePrecedence .assignment fun f =>
    Node.fmt e (f.punctuator .ellipsis)
  -- patterns.rs:49-56, 259-266
  | .objectPattern items last, f => f.wrapCurly fun f => Node.fmt last (Nodes.fmtComma items f)
  -- patterns.rs:166-173, 376-383
  | .arrayPattern items last, f => f.wrapSquare fun f => Node.fmt last (Nodes.fmtComma items f)
  -- patterns.rs:122-129, 227-234, 335-342, 437-444; functions.rs:217-226; statement.rs:82-87,
  -- 167-172, 197-202
  | .patternItem id init, f => Node.fmt init (Node.fmt id f)
  -- patterns.rs:146-155, 359-368
  | .patternProp name pattern init, f =>
    Node.fmt init (Node.fmt pattern ((Node.fmt name f).punctuator .colon))
  -- functions.rs:364-373
  | .func kind id params body, f => f.lookaheadWrapParens .declaration fun f =>
    Node.fmt body (Node.fmt params (Node.fmt id (kind.fmt f)))
  -- functions.rs:330-337
  | .funcDecl kind id params body, f =>
    Node.fmt body (Node.fmt params (Node.fmt id (kind.fmt f)))
  -- functions.rs:417-442
  | .arrow kind params body, f =>
    Node.fmt body ((Node.fmt params (kind.fmtArrowHead f)).punctuator kind.arrow)
  -- functions.rs:612-620
  | .concise e, f => f.restrictLookahead .conciseBody fun f =>
    f.requirePrecedence .assignment (Node.fmt e)
  -- functions.rs:21-27, 51-57
  | .directive t, f => (f.string t).punctuator .semicolon
  -- statement.rs:20-28; functions.rs:256-265; classes.rs:254-260
  | .block body, f => f.wrapCurly (Nodes.fmtList body)
  -- statement.rs:68-76, 152-160, 182-190
  | .decl kind items last, f =>
    (Node.fmt last (Nodes.fmtComma items (f.keyword kind.kw))).punctuator .semicolon
  -- statement.rs:221-233
  | .exprStmt e, f => (f.restrictLookahead .expressionStatement fun f =>
    f.requirePrecedence .normal (Node.fmt e)).punctuator .semicolon
  -- statement.rs:341-348
  | .ifStmt t c, f => f.wrapOrphanIf fun f =>
    Node.fmt c ((f.keyword .«if»).wrapParens (Node.fmt t))
  -- statement.rs:360-368
  | .ifElse t c a, f =>
    Node.fmt a ((((f.keyword .«if»).wrapParens (Node.fmt t)).disallowOrphanIf
      (Node.fmt c)).keyword .«else»)
  -- statement.rs:454-467
  | .forStmt init t u body, f => Node.fmt body ((f.keyword .«for»).wrapParens fun f =>
    Node.fmt u ((Node.fmt t ((Node.fmt init f).punctuator .semicolon)).punctuator .semicolon))
  -- statement.rs:476-488
  | .forInit e, f => f.restrictLookahead .forInit fun f => f.disallowIn (Node.fmt e)
  -- statement.rs:547-560
  | .forIn l r body, f => Node.fmt body ((f.keyword .«for»).wrapParens fun f =>
    Node.fmt r ((f.restrictLookahead .forInit (Node.fmt l)).keyword .«in»))
  -- statement.rs:636-649, 664-678
  | .forOf await l r body, f =>
    let f := f.keyword .«for»
    Node.fmt body ((if await then f.keyword .await else f).wrapParens fun f =>
      Node.fmt r ((f.restrictLookahead .forOfInit (Node.fmt l)).keyword .of))
  -- statement.rs:571-579, 586-591, 598-603, 610-615
  | .forPattern kind pattern init, f => Node.fmt init (Node.fmt pattern (f.keyword kind.kw))
  -- statement.rs:697-703
  | .whileStmt t body, f => Node.fmt body ((f.keyword .«while»).wrapParens (Node.fmt t))
  -- statement.rs:717-727
  | .doWhile body t, f =>
    (((Node.fmt body (f.keyword .«do»)).keyword .«while»).wrapParens (Node.fmt t)).punctuator
      .semicolon
  -- statement.rs:740-749
  | .switch d cases, f =>
    ((f.keyword .switch).wrapParens (Node.fmt d)).wrapCurly (Nodes.fmtList cases)
  -- statement.rs:811-821
  | .case t body, f => Nodes.fmtList body (((f.keyword .case).requirePrecedence .normal
    (Node.fmt t)).punctuator .colon)
  -- statement.rs:830-839
  | .caseDefault body, f => Nodes.fmtList body ((f.keyword .«default»).punctuator .colon)
  -- statement.rs:850-856
  | .withStmt o body, f => Node.fmt body ((f.keyword .«with»).wrapParens (Node.fmt o))
  -- statement.rs:889-896
  | .labelled label body, f => Node.fmt body ((Node.fmt label f).punctuator .colon)
  -- statement.rs:904-911
  | .throw e, f => (f.keyword .«throw»).requirePrecedence .normal (Node.fmt e)
  -- statement.rs:920-926
  | .tryCatch body clause, f => Node.fmt clause (Node.fmt body (f.keyword .«try»))
  -- statement.rs:965-975
  | .tryCatchFinally body clause fin, f =>
    Node.fmt fin ((Node.fmt clause (Node.fmt body (f.keyword .«try»))).keyword .«finally»)
  -- statement.rs:994-1002
  | .tryFinally body fin, f => Node.fmt fin ((Node.fmt body (f.keyword .«try»)).keyword .«finally»)
  -- statement.rs:1011-1017
  | .catchClause param body, f => Node.fmt body (Node.fmt param (f.keyword .«catch»))
  -- statement.rs:1040-1047
  | .«continue» label, f => (Node.fmt label (f.keyword .«continue»)).punctuator .semicolon
  -- statement.rs:1057-1064
  | .«break» label, f => (Node.fmt label (f.keyword .«break»)).punctuator .semicolon
  -- statement.rs:1088-1095
  | .ret v, f => (Node.fmt v (f.keyword .«return»)).punctuator .semicolon
  -- statement.rs:1102-1108
  | .retValue e, f => f.requirePrecedence .normal (Node.fmt e)
  -- statement.rs:1116-1122
  | .debugger, f => (f.keyword .debugger).punctuator .semicolon
  -- statement.rs:1128-1133; classes.rs:265-270
  | .empty, f => f.punctuator .semicolon
  -- `ItemKind.fmt`
  | .item k l a b c d, f => k.fmt (Nodes.fmtList l) (Nodes.fmtComma l) (Node.fmt a) (Node.fmt b)
    (Node.fmt c) (Node.fmt d) f

/-- Models `node_list`, src/ast/display.rs:419-425. -/
def Nodes.fmtList : Nodes → Fmt → Fmt
  | .nil, f => f
  | .cons n rest, f => Nodes.fmtList rest (Node.fmt n f)

/-- Models `comma_list`, src/ast/display.rs:408-417. The lock is taken anew for each item here;
between two items nothing looks at the precedence. -/
def Nodes.fmtComma : Nodes → Fmt → Fmt
  | .nil, f => f
  | .cons n rest, f => Nodes.fmtComma rest (f.requirePrecedence .assignment fun f =>
    (Node.fmt n f).punctuator .comma)
end

/-- Models `Display::fmt` of a node, src/ast/mod.rs:90-99. -/
def Node.print (n : Node) : Bytes := (n.fmt Fmt.new).text

end Jsparse.Ast
