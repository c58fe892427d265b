import Verif.Spec.Grammar
/-!
# A large part of JavaScript that the parser must accept

`Frag C n u v` says that the tokens of `u` that precede its suffix `v` form a construct of kind `n`.  The
productions are those of ECMA-262 (2017), without the constructs that jsparse is known to reject or to
misread.  What is left out, apart from early errors:

* async functions other than methods, arrows and `export default async function`, class expressions, `new.target`, `export function`,
  `export class`, patterns with default values for shorthand names in the parameters of arrow functions;
* the names `await` and `yield` as identifiers, `let` at the beginning of a statement;
* some places of regular expressions and of the operators `/` and `/=` (see below);
* a spread argument that follows another one; the semicolon of `throw` (it counts as an empty statement);
* in a `switch`, `default` behind a `case` unless a statement follows;
* `function` behind a name; a variable `of` in `for (let of`;
* the operator `in` where the parser does not turn `[In]` on, e.g. in the initializers of `let` and `const`.

`C39_left_out` evaluates programs with such constructs.

Like in `Spec/Grammar.lean`, every token comes with the flag "a line terminator precedes it", and the
grammar parameters `[In]`, `[Yield]`, `[Await]` are fields of `C`.

The parser does not always know whether a slash starts a regular expression: a decision it took for an
earlier token may still be in force ("stale").  Three booleans of the nonterminals keep track of that:
`f`, the decision is not stale at the beginning; `g`, it is not stale at the end; `e`, the operators `/`
and `/=` may follow.  For instance `a / 2` and `x = 1 / 2` are in the fragment, a statement `1 / 2` is
not: the parser takes its slash for the beginning of a regular expression.
-/

namespace Jsparse.Spec

abbrev pt (l : Bool) (q : Punct) : Tok := (l, .punct q)
abbrev kw (l : Bool) (k : Bytes) : Tok := (l, .ident k)

/-- Names of variables, functions, parameters, classes and labels. -/
def PlainName (v : Bytes) : Prop :=
  v ∉ reservedWords ∧ v ∉ [b!"await", b!"yield"]

instance (v : Bytes) : Decidable (PlainName v) := inferInstanceAs (Decidable (_ ∧ _))

/-- With `lax`, also `await` in async functions, where the parser takes it as a name. -/
def Named (lax : Bool) (C : Ctx) (v : Bytes) : Prop :=
  PlainName v ∨ (lax = true ∧ v = b!"await" ∧ C.await = true)

instance (lax : Bool) (C : Ctx) (v : Bytes) : Decidable (Named lax C v) := inferInstanceAs (Decidable (_ ∨ _))

/-- A token that continues every left-hand side. -/
def Continues : Tok → Prop
  | (_, .punct .parenOpen) => True
  | (_, .punct .squareOpen) => True
  | (_, .punct .period) => True
  | (l, .punct .plusPlus) => l = false
  | (l, .punct .minusMinus) => l = false
  | (_, .template .noSubstitution _ _) => True
  | (_, .template .head _ _) => True
  | _ => False

instance : DecidablePred Continues := fun x => by
  unfold Continues
  split <;> infer_instance

/-- The left-hand side in front ends here. -/
def Ended (v : List Tok) : Prop := ∀ x v', v = x :: v' → ¬ Continues x

/-- Tokens that cannot continue an expression, unless it is a left-hand side. -/
def Begins : Token → Prop
  | .ident n => n ∉ [b!"in", b!"instanceof"]
  | .num _ => True
  | .str _ => True
  | .punct .curlyOpen => True
  | .punct .exclam => True
  | .punct .tilde => True
  | .punct .plusPlus => True
  | .punct .minusMinus => True
  | .punct .parenClose => True
  | .punct .squareClose => True
  | .punct .parenOpen => True
  | .punct .squareOpen => True
  | .template .noSubstitution _ _ => True
  | .template .head _ _ => True
  | _ => False

/-- A semicolon is inserted in front of this token. -/
def Inserts (x : Tok) : Prop :=
  x.2 = .punct .curlyClose ∨ x.2 = .eof ∨ (x.1 = true ∧ Begins x.2)

/-- An expression ends in front of this token. -/
def ExprEnds (x : Tok) : Prop :=
  x.2 = .punct .semicolon ∨ Inserts x ∨ Begins x.2

/-- `;`, or automatic semicolon insertion. -/
inductive Semi : List Tok → List Tok → Prop
  | token {l v} : Semi (pt l .semicolon :: v) v
  | insert {x v} : Inserts x → Semi (x :: v) (x :: v)

/-- The same where the next token cannot continue the construct. -/
inductive RawSemi : List Tok → List Tok → Prop
  | token {l v} : RawSemi (pt l .semicolon :: v) v
  | insert {x v} : InsertSemi x → RawSemi (x :: v) (x :: v)

/-- The same after `do … while ( … )`. -/
inductive SemiDo : List Tok → List Tok → Prop
  | token {l v} : SemiDo (pt l .semicolon :: v) v
  | insert {x v} : x.2 ≠ .punct .semicolon → SemiDo (x :: v) (x :: v)

/-- [lookahead ≠ k] -/
def NotNext (k : Bytes) (v : List Tok) : Prop := ∀ l v', v ≠ kw l k :: v'

/-- [lookahead ≠ RegularExpressionLiteral] -/
def NotRegex (v : List Tok) : Prop := ∀ l x f v', v ≠ (l, .regex x f) :: v'

/-- The next token is not a word. -/
def NoWord (v : List Tok) : Prop := ∀ l k v', v ≠ kw l k :: v'

/-- No name follows `async` on its line. -/
def LoneAsync (C : Ctx) (u : List Tok) : Prop :=
  ∀ l n v, u = kw l b!"async" :: kw false n :: v →
    n ∈ reservedWords ∨ n = b!"yield" ∨ (n = b!"await" ∧ C.await = false)

/-- Tokens that can follow `yield` without an operand. -/
def Closing (t : Token) : Prop :=
  t ∈ [Token.punct .comma, .punct .parenClose, .punct .squareClose, .punct .curlyClose, .punct .colon,
    .punct .semicolon, .eof]

/-- [no LineTerminator here] -/
def NoLine (v : List Tok) : Prop := ∀ x v', v = x :: v' → x.1 = false

/-- A token behind which no operand of `yield` begins: neither a word, nor `/` nor `/=`. -/
def Idle : Token → Prop
  | .punct q => q ∉ [Punct.parenOpen, .squareOpen, .curlyOpen, .plus, .minus, .tilde, .exclam, .plusPlus, .minusMinus,
      .slash, .slashEq]
  | .eof => True
  | _ => False

/-- `var`, `let`, `const` -/
inductive Kind where
  | var | let | const
  deriving DecidableEq

def Kind.word : Kind → Bytes
  | .var => b!"var"
  | .let => b!"let"
  | .const => b!"const"

inductive FNT where
  -- expressions
  | prim (f e g : Bool)
  /-- what may follow a primary expression; `c`: including calls; `e₀`, `g₀` are the `e`, `g` of that
  expression -/
  | tail (c e₀ g₀ e g : Bool)
  | lhs (c f e g : Bool)
  | update (f e g : Bool)
  | unary (f e g : Bool)
  | binary (f g : Bool)
  | cond (f g : Bool)
  | assign (f g : Bool)
  /-- a conditional, assignment or comma expression that ends with the block of an arrow function: any token may
  follow -/
  | condOpen (f : Bool)
  | assignOpen (f : Bool)
  | exprOpen (f : Bool)
  /-- what precedes an assignment operator or an arrow -/
  | assignee (f : Bool)
  /-- `, AssignmentExpression` any number of times -/
  | more (g₀ g : Bool)
  | expr (f : Bool)
  /-- what follows the first expression in parentheses: the rest of a list with rest elements -/
  | coverRest
  /-- arguments up to the closing parenthesis; `s`: the first may be a spread argument, or begin with a
  regular expression -/
  | args (s g : Bool)
  | elems
  | props
  | prop
  /-- what precedes the colon or the parameters of a property; `s`: including `static` -/
  | propHead (s : Bool)
  /-- a template behind its head -/
  | template
  | arrowParams
  | arrowParam
  | arrowBody (g : Bool)
  -- functions and classes
  | key
  /-- a method, getter or setter -/
  | method
  /-- `( parameters ) { body }` -/
  | function
  | params
  | classTail
  | elements
  -- patterns
  | pattern
  | target
  | bindings
  | binding
  | elisions
  | element
  | init
  -- statements
  | block
  | items
  | item
  | stmt
  /-- `b`: an initializer is required -/
  | declr (b : Bool)
  /-- `b`: for the first declarator, `b'`: for the others -/
  | declrs (b b' : Bool)
  /-- declarators, the last of which is a name, or ends with the block of an arrow function; `b`: initializers
  are required -/
  | openDeclrs (b : Bool)
  /-- the clauses of a switch, `first`: none precedes -/
  | clauses (first : Bool)
  /-- the three parts of a `for` after the first -/
  | forRest
  /-- `in` or `of` and the expression behind it -/
  | inOf
  -- modules
  | moduleItem
  | moduleItems
  | specifiers
  | program
  deriving DecidableEq

open FNT

/-- `lax`: with the constructs that the parser accepts although they are not JavaScript (only in
constructors with the premise `lax = true`).  The fragment of JavaScript is `FragX false`. -/
inductive FragX (lax : Bool) : Ctx → FNT → List Tok → List Tok → Prop
  -- PrimaryExpression
  | name {C f l n v} : Named lax C n → (lax = Bool.false → n = b!"async" → NoWord v) → NotNext b!"function" v →
      FragX lax C (prim f true f) (kw l n :: v) v
  | word {C f l k v} : k ∈ [b!"this", b!"null", b!"true", b!"false"] →
      FragX lax C (prim f false f) (kw l k :: v) v
  | num {C f l x v} : FragX lax C (prim f f true) ((l, .num x) :: v) v
  | str {C f l x v} : FragX lax C (prim f f true) ((l, .str x) :: v) v
  | regex {C f l x y v} : FragX lax C (prim f f true) ((l, .regex x y) :: v) v
  | array {C f l l' u v} : FragX lax C elems u (pt l' .squareClose :: v) →
      FragX lax C (prim f false true) (pt l .squareOpen :: u) v
  | object {C f l l' u v} : FragX lax C props u (pt l' .curlyClose :: v) →
      FragX lax C (prim f false true) (pt l .curlyOpen :: u) v
  | paren {C f g₀ g l l' u u₁ v} : FragX lax C (assign true g₀) u u₁ →
      FragX lax C (more g₀ g) u₁ (pt l' .parenClose :: v) → FragX lax C (prim f g true) (pt l .parenOpen :: u) v
  | parenEmpty {C f l l' v} : lax = Bool.true →
      FragX lax C (prim f false true) (pt l .parenOpen :: pt l' .parenClose :: v) v
  | parenCover {C f g l l' u u₁ v} : lax = Bool.true → FragX lax C (assign true g) u u₁ →
      FragX lax C coverRest u₁ (pt l' .parenClose :: v) → FragX lax C (prim f false true) (pt l .parenOpen :: u) v
  | parenRest {C f l l' l'' u v} : lax = Bool.true → FragX lax C target u (pt l' .parenClose :: v) →
      FragX lax C (prim f false true) (pt l .parenOpen :: pt l'' .ellipsis :: u) v
  | coverNil {C v} : FragX lax C coverRest v v
  | coverCons {C g l u u' v} : FragX lax C (assign true g) u u' → FragX lax C coverRest u' v →
      FragX lax C coverRest (pt l .comma :: u) v
  | coverTarget {C l l' u u' v} : FragX lax C target u u' → FragX lax C coverRest u' v →
      FragX lax C coverRest (pt l .comma :: pt l' .ellipsis :: u) v
  | classWord {C f l v} : lax = Bool.true → FragX lax C (prim f false f) (kw l b!"class" :: v) v
  | func {C f l u v} : FragX lax { C with await := false, yield := false } function u v →
      FragX lax C (prim f false true) (kw l b!"function" :: u) v
  | funcName {C f l l' n u v} : Named lax C n →
      FragX lax { C with await := false, yield := false } function u v →
      FragX lax C (prim f false true) (kw l b!"function" :: kw l' n :: u) v
  | gen {C f l l' u v} : FragX lax { C with await := false, yield := true } function u v →
      FragX lax C (prim f false true) (kw l b!"function" :: pt l' .star :: u) v
  | genName {C f l l' l'' n u v} : Named lax C n →
      FragX lax { C with await := false, yield := true } function u v →
      FragX lax C (prim f false true) (kw l b!"function" :: pt l' .star :: kw l'' n :: u) v
  | plainTemplate {C f l c x v} :
      FragX lax C (prim f f true) ((l, .template .noSubstitution c x) :: v) v
  | substTemplate {C f l c x u v} : FragX lax C template u v →
      FragX lax C (prim f false true) ((l, .template .head c x) :: u) v
  -- array elements
  | elemsNil {C v} : FragX lax C elems v v
  | elemsHole {C l u v} : FragX lax C elems u v → FragX lax C elems (pt l .comma :: u) v
  | elemsLast {C g u v} : NotRegex u → FragX lax C (assign true g) u v → FragX lax C elems u v
  | elemsCons {C g l u u' v} : NotRegex u → FragX lax C (assign true g) u (pt l .comma :: u') →
      FragX lax C elems u' v → FragX lax C elems u v
  | elemsSpreadLast {C g l u v} : NotRegex u → FragX lax C (assign true g) u v →
      FragX lax C elems (pt l .ellipsis :: u) v
  | elemsSpread {C g l l' u u' v} : NotRegex u → FragX lax C (assign true g) u (pt l' .comma :: u') →
      FragX lax C elems u' v → FragX lax C elems (pt l .ellipsis :: u) v
  -- properties
  | propsNil {C v} : FragX lax C props v v
  | propsLast {C u v} : FragX lax C prop u v → FragX lax C props u v
  | propsCons {C l u u' v} : FragX lax C prop u (pt l .comma :: u') → FragX lax C props u' v → FragX lax C props u v
  | propsHole {C l u v} : lax = Bool.true → FragX lax C props u v → FragX lax C props (pt l .comma :: u) v
  | spread {C g l u v} : FragX lax C (assign true g) u v → FragX lax C prop (pt l .ellipsis :: u) v
  | keyValue {C g l u u' v} : FragX lax C key u (pt l .colon :: u') → FragX lax C (assign true g) u' v →
      FragX lax C prop u v
  | shorthand {C l n v} : PlainName n → FragX lax C prop (kw l n :: v) v
  | headShort {C u v} : lax = Bool.true → FragX lax C (propHead true) u v → FragX lax C prop u v
  | headValue {C g l u u' v} : lax = Bool.true → FragX lax C (propHead true) u (pt l .colon :: u') →
      FragX lax C (assign true g) u' v → FragX lax C prop u v
  | headPlain {C u v} : FragX lax C (propHead false) u v → FragX lax C (propHead true) u v
  | headStatic {C l u v} : FragX lax C (propHead false) u v → FragX lax C (propHead true) (kw l b!"static" :: u) v
  | headKey {C u v} : FragX lax C key u v → FragX lax C (propHead false) u v
  | headStar {C l u v} : FragX lax C key u v → FragX lax C (propHead false) (pt l .star :: u) v
  | headKind {C l k u v} : k ∈ [b!"get", b!"set"] → FragX lax C key u v → FragX lax C (propHead false) (kw l k :: u) v
  | headKindStar {C l l' k u v} : k ∈ [b!"get", b!"set"] → FragX lax C key u v →
      FragX lax C (propHead false) (kw l k :: pt l' .star :: u) v
  | headAsync {C l u v} : lax = Bool.true → NoLine u → FragX lax C key u v →
      FragX lax C (propHead false) (kw l b!"async" :: u) v
  | propMethod {C u v} : FragX lax C method u v → FragX lax C prop u v
  | propStatic {C l u v} : lax = Bool.true → FragX lax C method u v → FragX lax C prop (kw l b!"static" :: u) v
  -- property names and methods
  | keyName {C l n v} : FragX lax C key (kw l n :: v) v
  | keyStr {C l x v} : FragX lax C key ((l, .str x) :: v) v
  | keyNum {C l x v} : FragX lax C key ((l, .num x) :: v) v
  | keyExpr {C g l l' u v} : FragX lax { C with in_ := true } (assign true g) u (pt l' .squareClose :: v) →
      FragX lax C key (pt l .squareOpen :: u) v
  | keyEmpty {C l l' v} : lax = Bool.true → FragX lax C key (pt l .squareOpen :: pt l' .squareClose :: v) v
  | plainMethod {C u u' v} : NotNext b!"async" u → FragX lax C key u u' →
      FragX lax { C with await := false, yield := false } function u' v → FragX lax C method u v
  | genMethod {C l u u' v} : FragX lax C key u u' →
      FragX lax { C with await := false, yield := true } function u' v →
      FragX lax C method (pt l .star :: u) v
  | asyncMethod {C l l' l'' u u' u'' v} : NoLine u → FragX lax C key u (pt l' .parenOpen :: u') →
      FragX lax { C with yield := false } params u' (pt l'' .parenClose :: u'') →
      FragX lax { C with await := true, yield := false } block u'' v →
      FragX lax C method (kw l b!"async" :: u) v
  -- a method with the name `async`, the body of which the parser reads as that of an async method
  | asyncNamed {C l l' l'' u u' v} :
      (lax = Bool.false → FragX lax { C with await := false, yield := false } function (pt l' .parenOpen :: u) v) →
      FragX lax { C with yield := false } params u (pt l'' .parenClose :: u') →
      FragX lax { C with await := true, yield := false } block u' v →
      FragX lax C method (kw l b!"async" :: pt l' .parenOpen :: u) v
  | getter {C l l' l'' u u' v} : FragX lax C key u (pt l' .parenOpen :: pt l'' .parenClose :: u') →
      FragX lax C block u' v → FragX lax C method (kw l b!"get" :: u) v
  | setter {C l l' l'' u u' u'' v} : FragX lax C key u (pt l' .parenOpen :: u') →
      FragX lax C target u' (pt l'' .parenClose :: u'') → FragX lax C block u'' v →
      FragX lax C method (kw l b!"set" :: u) v
  | starGetter {C l l₁ l' l'' u u' v} : lax = Bool.true →
      FragX lax C key u (pt l' .parenOpen :: pt l'' .parenClose :: u') →
      FragX lax C block u' v → FragX lax C method (kw l b!"get" :: pt l₁ .star :: u) v
  | starSetter {C l l₁ l' l'' u u' u'' v} : lax = Bool.true → FragX lax C key u (pt l' .parenOpen :: u') →
      FragX lax C target u' (pt l'' .parenClose :: u'') → FragX lax C block u'' v →
      FragX lax C method (kw l b!"set" :: pt l₁ .star :: u) v
  -- templates
  | templateLast {C l c x u v} : NotRegex u → FragX lax C (expr true) u ((l, .template .tail c x) :: v) →
      FragX lax C template u v
  | templateCons {C l c x u u' v} : NotRegex u →
      FragX lax C (expr true) u ((l, .template .middle c x) :: u') → FragX lax C template u' v → FragX lax C template u v
  -- MemberExpression, CallExpression
  | tailNil {C c e g v} : FragX lax C (tail c e g e g) v v
  | tailDot {C c e₀ g₀ e g l l' n u v} : FragX lax C (tail c true true e g) u v →
      FragX lax C (tail c e₀ g₀ e g) (pt l .period :: kw l' n :: u) v
  | tailIndex {C c e₀ g₀ e g l l' u u' v} : NotRegex u →
      FragX lax { C with in_ := true } (expr true) u (pt l' .squareClose :: u') →
      FragX lax C (tail c false true e g) u' v → FragX lax C (tail c e₀ g₀ e g) (pt l .squareOpen :: u) v
  | tailTemplate {C c e₀ g₀ e g l x y u v} : FragX lax C (tail c g₀ true e g) u v →
      FragX lax C (tail c e₀ g₀ e g) ((l, .template .noSubstitution x y) :: u) v
  | tailSubst {C c e₀ g₀ e g l x y u u' v} : FragX lax C template u u' → FragX lax C (tail c false true e g) u' v →
      FragX lax C (tail c e₀ g₀ e g) ((l, .template .head x y) :: u) v
  | tailCall {C e₀ g₀ e₁ e g l l' u u' v} :
      FragX lax { C with in_ := true } (args true e₁) u (pt l' .parenClose :: u') →
      FragX lax C (tail true e₁ true e g) u' v → FragX lax C (tail true e₀ g₀ e g) (pt l .parenOpen :: u) v
  | lhs {C c f e₀ g₀ e g u u' v} : FragX lax C (prim f e₀ g₀) u u' → FragX lax C (tail c e₀ g₀ e g) u' v →
      FragX lax C (lhs c f e g) u v
  | new {C c f e g l u v} : NotRegex u → FragX lax C (lhs false f e g) u v →
      FragX lax C (lhs c f e g) (kw l b!"new" :: u) v
  | newCall {C f e₀ g₀ e₁ e g l l' l'' u u' u'' v} : NotRegex u →
      FragX lax C (lhs false f e₀ g₀) u (pt l' .parenOpen :: u') →
      FragX lax { C with in_ := true } (args true e₁) u' (pt l'' .parenClose :: u'') →
      FragX lax C (tail true e₁ true e g) u'' v → FragX lax C (lhs true f e g) (kw l b!"new" :: u) v
  | super {C c f e g l u v} : (lax = Bool.false → u.length ≠ v.length) → FragX lax C (tail c false f e g) u v →
      FragX lax C (lhs c f e g) (kw l b!"super" :: u) v
  -- Arguments
  | argsNil {C s v} : FragX lax C (args s true) v v
  | argsLast {C s g u v} : (s = Bool.false → NotRegex u) → FragX lax C (assign true g) u v →
      FragX lax C (args s g) u v
  | argsCons {C s g₁ g l u u' v} : (s = Bool.false → NotRegex u) →
      FragX lax C (assign true g₁) u (pt l .comma :: u') → FragX lax C (args true g) u' v → FragX lax C (args s g) u v
  | argsSpreadLast {C g l u v} : FragX lax C (assign true g) u v →
      FragX lax C (args true g) (pt l .ellipsis :: u) v
  | argsSpread {C g₁ g l l' u u' v} : FragX lax C (assign true g₁) u (pt l' .comma :: u') →
      FragX lax C (args false g) u' v → FragX lax C (args true g) (pt l .ellipsis :: u) v
  -- UpdateExpression, UnaryExpression
  | plain {C f e g u v} : Ended v → FragX lax C (FNT.lhs true f e g) u v → FragX lax C (update f e g) u v
  | postfix {C f e g q u v} : q ∈ [Punct.plusPlus, .minusMinus] →
      FragX lax C (FNT.lhs true f e g) u (pt false q :: v) → FragX lax C (update f g true) u v
  | prefix {C f e g l q u v} : Ended v → q ∈ [Punct.plusPlus, .minusMinus] →
      FragX lax C (FNT.lhs true true e g) u v → FragX lax C (update f e g) (pt l q :: u) v
  | prefixUpdate {C f e g l q u v} : lax = Bool.true → q ∈ [Punct.plusPlus, .minusMinus] →
      FragX lax C (update true e g) u v → FragX lax C (update f e g) (pt l q :: u) v
  | updated {C f e g u v} : (lax = Bool.true → NotNext b!"await" u) → FragX lax C (update f e g) u v → FragX lax C (unary f e g) u v
  | unaryOp {C f e g l q u v} : q ∈ [Punct.plus, .minus, .tilde, .exclam] →
      FragX lax C (unary true e g) u v → FragX lax C (unary f e g) (pt l q :: u) v
  | unaryWord {C f e g l k u v} : k ∈ [b!"delete", b!"void", b!"typeof"] →
      FragX lax C (unary false e g) u v → FragX lax C (unary f e g) (kw l k :: u) v
  | await {C f e g l u v} : C.await = Bool.true → NotRegex u → FragX lax C (unary false e g) u v →
      FragX lax C (unary f e g) (kw l b!"await" :: u) v
  -- binary operators; precedence does not affect which token lists are expressions
  | operand {C f e g u v} : FragX lax C (unary f e g) u v → FragX lax C (binary f g) u v
  | operator {C f e g₀ g l q u u' v} : q ∈ binaryOperators → (q = .slash → e = Bool.true) →
      FragX lax C (unary f e g₀) u (pt l q :: u') → FragX lax C (binary true g) u' v → FragX lax C (binary f g) u v
  | instanceof {C f e g₀ g l u u' v} : FragX lax C (unary f e g₀) u (kw l b!"instanceof" :: u') →
      FragX lax C (binary true g) u' v → FragX lax C (binary f g) u v
  | isIn {C f e g₀ g l u u' v} : C.in_ = Bool.true → FragX lax C (unary f e g₀) u (kw l b!"in" :: u') →
      FragX lax C (binary true g) u' v → FragX lax C (binary f g) u v
  -- ConditionalExpression, AssignmentExpression, Expression
  | unconditional {C f g u v} : FragX lax C (binary f g) u v → FragX lax C (cond f g) u v
  | conditional {C f g₀ g₁ g l l' u u' u'' v} : FragX lax C (binary f g₀) u (pt l .question :: u') →
      FragX lax { C with in_ := true } (assign true g₁) u' (pt l' .colon :: u'') →
      FragX lax C (assign true g) u'' v → FragX lax C (cond f g) u v
  | value {C f g u v} : (lax = Bool.true → LoneAsync C u) → FragX lax C (cond f g) u v → FragX lax C (assign f g) u v
  | assignment {C f e g₀ g l q u u' v} : (lax = Bool.true → LoneAsync C u) → (lax = Bool.true → NotNext b!"await" u) → q ∈ assignmentOperators → (q = .slashEq → e = Bool.true) →
      FragX lax C (FNT.lhs true f e g₀) u (pt l q :: u') → FragX lax C (assign true g) u' v →
      FragX lax C (assign f g) u v
  | assignTo {C f g₀ g l q u u' v} : (lax = Bool.true → LoneAsync C u) → lax = Bool.true → q ∈ assignmentOperators → q ≠ .slashEq →
      FragX lax C (binary f g₀) u (pt l q :: u') → FragX lax C (assign true g) u' v → FragX lax C (assign f g) u v
  | conditionalOpen {C f g₀ g₁ l l' u u' u'' v} : lax = Bool.true →
      FragX lax C (binary f g₀) u (pt l .question :: u') →
      FragX lax { C with in_ := true } (assign true g₁) u' (pt l' .colon :: u'') →
      FragX lax C (assignOpen true) u'' v → FragX lax C (condOpen f) u v
  | valueOpen {C f x u v} : (lax = Bool.true → LoneAsync C u) → FragX lax C (condOpen f) u (x :: v) → x.2 ∉ assigners →
      FragX lax C (assignOpen f) u (x :: v)
  | closeOpen {C f u v} : FragX lax C (assignOpen f) u v → FragX lax C (assign f false) u v
  | assignee {C f g l q u v} : lax = Bool.true → q ∈ Punct.arrow :: assignmentOperators → q ≠ .slashEq →
      FragX lax C (binary f g) u (pt l q :: v) → FragX lax C (assignee f) u (pt l q :: v)
  | assigneeOpen {C f l q u v} : q ∈ Punct.arrow :: assignmentOperators → q ≠ .slashEq →
      FragX lax C (condOpen f) u (pt l q :: v) → FragX lax C (assignee f) u (pt l q :: v)
  | assignAny {C f g l q u u' v} : (lax = Bool.true → LoneAsync C u) → q ∈ assignmentOperators → FragX lax C (assignee f) u (pt l q :: u') →
      FragX lax C (assign true g) u' v → FragX lax C (assign f g) u v
  | assignAnyOpen {C f l q u u' v} : (lax = Bool.true → LoneAsync C u) → q ∈ assignmentOperators → FragX lax C (assignee f) u (pt l q :: u') →
      FragX lax C (assignOpen true) u' v → FragX lax C (assignOpen f) u v
  | arrowAny {C f g l x u u' v} : (lax = Bool.true → LoneAsync C u) → FragX lax C (assignee f) u (pt l .arrow :: x :: u') →
      x.2 ≠ Token.punct .curlyOpen → FragX lax C (assign true g) (x :: u') v → FragX lax C (assign f g) u v
  | arrowAnyOpen {C f l x u u' v} : (lax = Bool.true → LoneAsync C u) → FragX lax C (assignee f) u (pt l .arrow :: x :: u') →
      x.2 ≠ Token.punct .curlyOpen → FragX lax C (assignOpen true) (x :: u') v → FragX lax C (assignOpen f) u v
  | arrowBlock {C f l u u' v} : (lax = Bool.true → LoneAsync C u) → FragX lax C (assignee f) u (pt l .arrow :: u') → FragX lax C block u' v →
      FragX lax C (assignOpen f) u v
  | exprOpen {C f x u v} : FragX lax C (assignOpen f) u (x :: v) → x.2 ≠ Token.punct .comma →
      FragX lax C (exprOpen f) u (x :: v)
  | exprOpenMore {C f g l u u' v} : FragX lax C (assign f g) u (pt l .comma :: u') →
      FragX lax C (exprOpen true) u' v → FragX lax C (exprOpen f) u v
  | arrowName {C f g l n u v} : PlainName n → FragX lax C (arrowBody g) u v →
      FragX lax C (assign f g) (kw l n :: pt false .arrow :: u) v
  | arrow {C f g l l' u u' v} : FragX lax C arrowParams u (pt l' .parenClose :: pt false .arrow :: u') →
      FragX lax C (arrowBody g) u' v → FragX lax C (assign f g) (pt l .parenOpen :: u) v
  | asyncArrow {C f g l n u v} : Named lax C n → FragX lax C (arrowBody g) u v →
      FragX lax C (assign f g) (kw l b!"async" :: kw false n :: pt false .arrow :: u) v
  | asyncBlock {C f l n u v} : lax = Bool.true → Named lax C n → FragX lax C block u v →
      FragX lax C (assignOpen f) (kw l b!"async" :: kw false n :: pt false .arrow :: u) v
  | asyncOpen {C f l n x u v} : lax = Bool.true → Named lax C n → x.2 ≠ Token.punct .curlyOpen →
      FragX lax C (assignOpen true) (x :: u) v →
      FragX lax C (assignOpen f) (kw l b!"async" :: kw false n :: pt false .arrow :: x :: u) v
  -- the parser takes the parameters for the arguments of a call
  | asyncArrows {C f e g l l' l'' u u' v} :
      FragX lax C arrowParams u (pt l'' .parenClose :: pt false .arrow :: u') →
      FragX lax { C with in_ := true } (args true e) u (pt l'' .parenClose :: pt false .arrow :: u') →
      FragX lax C (arrowBody g) u' v → FragX lax C (assign f g) (kw l b!"async" :: pt l' .parenOpen :: u) v
  -- not followed by a comma: the operand would extend behind it
  | yield {C f g l u v} : C.yield = Bool.true → NoLine u → NotRegex u → (∀ l v', v ≠ pt l .comma :: v') →
      FragX lax C (assign false g) u v → FragX lax C (assign f false) (kw l b!"yield" :: u) v
  | yieldStar {C f g l u v} : C.yield = Bool.true → (∀ l v', v ≠ pt l .comma :: v') →
      FragX lax C (assign true g) u v → FragX lax C (assign f false) (kw l b!"yield" :: pt false .star :: u) v
  | yieldBare {C f l x v} : C.yield = Bool.true → x.1 = Bool.true ∨ Closing x.2 →
      FragX lax C (assign f false) (kw l b!"yield" :: x :: v) (x :: v)
  | moreNil {C g v} : FragX lax C (more g g) v v
  | moreCons {C g₀ g₁ g l u u' v} : FragX lax C (assign true g₁) u u' → FragX lax C (more g₁ g) u' v →
      FragX lax C (more g₀ g) (pt l .comma :: u) v
  | expr {C f g₀ g u u' v} : FragX lax C (assign f g₀) u u' → FragX lax C (more g₀ g) u' v →
      FragX lax C (expr f) u v
  | yieldMore {C f l u v} : C.yield = Bool.true → NoLine u → NotRegex u → FragX lax C (expr false) u v →
      FragX lax C (expr f) (kw l b!"yield" :: u) v
  | yieldStarMore {C f l u v} : C.yield = Bool.true → FragX lax C (expr true) u v →
      FragX lax C (expr f) (kw l b!"yield" :: pt false .star :: u) v
  | yieldAny {C f l u v} : lax = Bool.true → NoLine u → NotRegex u → (∀ l v', v ≠ pt l .comma :: v') →
      FragX lax C (expr false) u v → FragX lax C (assign f false) (kw l b!"yield" :: u) v
  | yieldAnyStar {C f l u v} : lax = Bool.true → (∀ l v', v ≠ pt l .comma :: v') →
      FragX lax C (expr true) u v → FragX lax C (assign f false) (kw l b!"yield" :: pt false .star :: u) v
  | yieldOpen {C f l u v} : NoLine u → NotRegex u → FragX lax C (exprOpen false) u v →
      FragX lax C (assignOpen f) (kw l b!"yield" :: u) v
  | yieldOpenStar {C f l u v} : FragX lax C (exprOpen true) u v →
      FragX lax C (assignOpen f) (kw l b!"yield" :: pt false .star :: u) v
  | yieldEmpty {C f l x v} : lax = Bool.true → x.1 = Bool.true ∨ Idle x.2 ∧ x.2 ≠ Token.punct .star →
      FragX lax C (assignOpen f) (kw l b!"yield" :: x :: v) (x :: v)
  | yieldEmptyStar {C f l x v} : lax = Bool.true → Idle x.2 →
      FragX lax C (assignOpen f) (kw l b!"yield" :: pt false .star :: x :: v) (x :: v)
  -- arrow functions
  | arrowNil {C v} : FragX lax C arrowParams v v
  | arrowRest {C l u v} : FragX lax C target u v → FragX lax C arrowParams (pt l .ellipsis :: u) v
  | arrowLast {C u v} : FragX lax C arrowParam u v → FragX lax C arrowParams u v
  | arrowCons {C l x u u' v} : FragX lax C arrowParam u (pt l .comma :: x :: u') →
      FragX lax C arrowParams (x :: u') v → x.2 ≠ Token.punct .parenClose → FragX lax C arrowParams u v
  | arrowParam {C l n v} : PlainName n → FragX lax C arrowParam (kw l n :: v) v
  | arrowDefault {C g l l' n u v} : PlainName n → FragX lax C (assign true g) u v →
      FragX lax C arrowParam (kw l n :: pt l' .eq :: u) v
  -- a pattern that is also an array or object literal
  | arrowPattern {C e g u v} : FragX lax C pattern u v → FragX lax C (prim true e g) u v → FragX lax C arrowParam u v
  | arrowPatternDefault {C e g₀ g l u u' v} : FragX lax C pattern u (pt l .eq :: u') →
      FragX lax C (prim true e g₀) u (pt l .eq :: u') → FragX lax C (assign true g) u' v → FragX lax C arrowParam u v
  | bodyBlock {C u v} : FragX lax C block u v → FragX lax C (arrowBody true) u v
  | bodyExpr {C g x u v} : x.2 ≠ Token.punct .curlyOpen → FragX lax C (assign true g) (x :: u) v →
      FragX lax C (arrowBody g) (x :: u) v
  -- functions
  | function {C l l' u u' v} : FragX lax C params u (pt l' .parenClose :: u') → FragX lax C block u' v →
      FragX lax C function (pt l .parenOpen :: u) v
  | paramsNil {C v} : FragX lax C params v v
  | paramsRest {C l u v} : FragX lax C target u v → FragX lax C params (pt l .ellipsis :: u) v
  | paramsLast {C u v} : FragX lax C target u v → FragX lax C params u v
  | paramsDefaultLast {C u u' v} : FragX lax C target u u' → FragX lax C init u' v → FragX lax C params u v
  | paramsCons {C l u u' v} : FragX lax C target u (pt l .comma :: u') → FragX lax C params u' v →
      FragX lax C params u v
  | paramsDefault {C l u u' u'' v} : FragX lax C target u u' → FragX lax C init u' (pt l .comma :: u'') →
      FragX lax C params u'' v → FragX lax C params u v
  -- classes
  | classBody {C l l' u v} : FragX lax C elements u (pt l' .curlyClose :: v) →
      FragX lax C classTail (pt l .curlyOpen :: u) v
  | extends {C e g l l' l'' u u' v} : FragX lax C (FNT.lhs true true e g) u (pt l' .curlyOpen :: u') →
      FragX lax C elements u' (pt l'' .curlyClose :: v) → FragX lax C classTail (kw l b!"extends" :: u) v
  | elementsNil {C v} : FragX lax C elements v v
  | elementsSemi {C l u v} : FragX lax C elements u v → FragX lax C elements (pt l .semicolon :: u) v
  | elementsCons {C u u' v} : FragX lax C method u u' → FragX lax C elements u' v → FragX lax C elements u v
  | elementsStatic {C l u u' v} : FragX lax C method u u' → FragX lax C elements u' v →
      FragX lax C elements (kw l b!"static" :: u) v
  -- patterns
  | objectPattern {C l l' u v} : FragX lax C bindings u (pt l' .curlyClose :: v) →
      FragX lax C pattern (pt l .curlyOpen :: u) v
  | arrayPattern {C l l' u v} : FragX lax C elisions u (pt l' .squareClose :: v) →
      FragX lax C pattern (pt l .squareOpen :: u) v
  | targetName {C l n v} : Named lax C n → FragX lax C target (kw l n :: v) v
  | targetPattern {C u v} : FragX lax C pattern u v → FragX lax C target u v
  | bindingsNil {C v} : FragX lax C bindings v v
  | bindingsLast {C u v} : FragX lax C binding u v → FragX lax C bindings u v
  | bindingsCons {C l u u' v} : FragX lax C binding u (pt l .comma :: u') → FragX lax C bindings u' v →
      FragX lax C bindings u v
  | bindName {C l n v} : Named lax C n → FragX lax C binding (kw l n :: v) v
  | bindDefault {C l n u v} : Named lax C n → FragX lax { C with in_ := true } init u v →
      FragX lax C binding (kw l n :: u) v
  | bindAny {C u v} : lax = Bool.true → FragX lax C key u v → FragX lax C binding u v
  | bindAnyDefault {C u u' v} : lax = Bool.true → FragX lax C key u u' →
      FragX lax { C with in_ := true } init u' v → FragX lax C binding u v
  | bindKey {C l u u' v} : FragX lax C key u (pt l .colon :: u') → FragX lax C element u' v → FragX lax C binding u v
  | elisionsNil {C v} : FragX lax C elisions v v
  | elisionsRest {C l u v} : FragX lax C target u v → FragX lax C elisions (pt l .ellipsis :: u) v
  | elisionsHole {C l u v} : FragX lax C elisions u v → FragX lax C elisions (pt l .comma :: u) v
  | elisionsLast {C u v} : FragX lax C element u v → FragX lax C elisions u v
  | elisionsCons {C l u u' v} : FragX lax C element u (pt l .comma :: u') → FragX lax C elisions u' v →
      FragX lax C elisions u v
  | element {C u v} : FragX lax C target u v → FragX lax C element u v
  | elementDefault {C u u' v} : FragX lax C target u u' → FragX lax { C with in_ := true } init u' v →
      FragX lax C element u v
  | init {C g l u v} : FragX lax C (assign true g) u v → FragX lax C init (pt l .eq :: u) v
  -- statements
  | block {C l l' u v} : FragX lax C items u (pt l' .curlyClose :: v) → FragX lax C block (pt l .curlyOpen :: u) v
  | itemsNil {C v} : FragX lax C items v v
  | itemsCons {C u u' v} : FragX lax C item u u' → FragX lax C items u' v → FragX lax C items u v
  | itemStmt {C u v} : FragX lax C stmt u v →
      (∀ x u', u = x :: u' → x.2 ∉ declarationWords) → FragX lax C item u v
  | funcDecl {C l l' n u v} : Named lax C n → FragX lax { C with await := false, yield := false } function u v →
      FragX lax C item (kw l b!"function" :: kw l' n :: u) v
  | genDecl {C l l' l'' n u v} : Named lax C n →
      FragX lax { C with await := false, yield := true } function u v →
      FragX lax C item (kw l b!"function" :: pt l' .star :: kw l'' n :: u) v
  | classDecl {C l l' n u v} : Named lax C n → FragX lax C classTail u v →
      FragX lax C item (kw l b!"class" :: kw l' n :: u) v
  | funcAnon {C l u v} : lax = Bool.true → C.default = Bool.true →
      FragX lax { C with await := false, yield := false } function u v → FragX lax C item (kw l b!"function" :: u) v
  | genAnon {C l l' u v} : lax = Bool.true → C.default = Bool.true →
      FragX lax { C with await := false, yield := true } function u v →
      FragX lax C item (kw l b!"function" :: pt l' .star :: u) v
  | classAnon {C l u v} : lax = Bool.true → C.default = Bool.true → FragX lax C classTail u v →
      FragX lax C item (kw l b!"class" :: u) v
  | letDecl {C l u u' v} : FragX lax C (declrs false false) u u' → Semi u' v →
      FragX lax C item (kw l b!"let" :: u) v
  | constDecl {C l u u' v} : FragX lax C (declrs true true) u u' → Semi u' v →
      FragX lax C item (kw l b!"const" :: u) v
  -- an initializer that ends before `in`
  | letIn {C l u v} : lax = Bool.true → C.in_ = Bool.false → FragX lax C (declrs false false) u (kw true b!"in" :: v) →
      FragX lax C item (kw l b!"let" :: u) (kw true b!"in" :: v)
  | constIn {C l u v} : lax = Bool.true → C.in_ = Bool.false → FragX lax C (declrs true true) u (kw true b!"in" :: v) →
      FragX lax C item (kw l b!"const" :: u) (kw true b!"in" :: v)
  | declrName {C l n v} : Named lax C n → FragX lax C (declr false) (kw l n :: v) v
  | declrInit {C b l n u v} : Named lax C n → FragX lax C init u v → FragX lax C (declr b) (kw l n :: u) v
  | declrPattern {C b u u' v} : FragX lax C pattern u u' → FragX lax C init u' v → FragX lax C (declr b) u v
  | declrsLast {C b b' u v} : FragX lax C (declr b) u v → FragX lax C (declrs b b') u v
  | declrsCons {C b b' l u u' v} : FragX lax C (declr b) u (pt l .comma :: u') → FragX lax C (declrs b' b') u' v →
      FragX lax C (declrs b b') u v
  | openLast {C l n v} : Named lax C n → FragX lax C (openDeclrs false) (kw l n :: v) v
  | openInit {C b l l' n u v} : Named lax C n → FragX lax C (assignOpen true) u v →
      FragX lax C (openDeclrs b) (kw l n :: pt l' .eq :: u) v
  | openPattern {C b l u u' v} : FragX lax C pattern u (pt l .eq :: u') → FragX lax C (assignOpen true) u' v →
      FragX lax C (openDeclrs b) u v
  | openCons {C b l u u' v} : FragX lax C (declr b) u (pt l .comma :: u') → FragX lax C (openDeclrs b) u' v →
      FragX lax C (openDeclrs b) u v
  -- a semicolon is inserted before a token of the next line that could continue an expression
  | letOpen {C l x u v} : FragX lax C (openDeclrs false) u (x :: v) → x.1 = Bool.true →
      x.2 ∉ [Token.punct .comma, .punct .eq, .punct .semicolon] → FragX lax C item (kw l b!"let" :: u) (x :: v)
  | constOpen {C l x u v} : FragX lax C (openDeclrs true) u (x :: v) → x.1 = Bool.true →
      x.2 ∉ [Token.punct .comma, .punct .eq, .punct .semicolon] → FragX lax C item (kw l b!"const" :: u) (x :: v)
  | blockStmt {C u v} : FragX lax C block u v → FragX lax C stmt u v
  | empty {C l v} : FragX lax C stmt (pt l .semicolon :: v) v
  | var {C l u u' v} : FragX lax { C with in_ := true } (declrs false false) u u' → Semi u' v →
      FragX lax C stmt (kw l b!"var" :: u) v
  | varOpen {C l x u v} : FragX lax { C with in_ := true } (openDeclrs false) u (x :: v) → x.1 = Bool.true →
      x.2 ∉ [Token.punct .comma, .punct .eq, .punct .semicolon] → FragX lax C stmt (kw l b!"var" :: u) (x :: v)
  | exprStmt {C x u u' v} : x.2 ≠ Token.punct .curlyOpen →
      (lax = Bool.false → x.2 ∉ [Token.ident b!"function", .ident b!"class"]) →
      NotRegex (x :: u) → FragX lax { C with in_ := true } (FNT.expr false) (x :: u) u' → Semi u' v →
      FragX lax C stmt (x :: u) v
  | exprStmtOpen {C x y u v} : x.2 ≠ Token.punct .curlyOpen → NotRegex (x :: u) →
      FragX lax { C with in_ := true } (FNT.exprOpen false) (x :: u) (y :: v) → y.1 = Bool.true →
      y.2 ≠ .punct .semicolon → y.2 ≠ .punct .colon → FragX lax C stmt (x :: u) (y :: v)
  | ifThen {C l l' l'' u u' v} : FragX lax { C with in_ := true } (FNT.expr true) u (pt l'' .parenClose :: u') →
      FragX lax C stmt u' v → NotNext b!"else" v →
      FragX lax C stmt (kw l b!"if" :: pt l' .parenOpen :: u) v
  | ifElse {C l l' l'' l₁ u u' u'' v} :
      FragX lax { C with in_ := true } (FNT.expr true) u (pt l'' .parenClose :: u') →
      FragX lax C stmt u' (kw l₁ b!"else" :: u'') → FragX lax C stmt u'' v →
      FragX lax C stmt (kw l b!"if" :: pt l' .parenOpen :: u) v
  | while {C l l' l'' u u' v} : FragX lax { C with in_ := true } (FNT.expr true) u (pt l'' .parenClose :: u') →
      FragX lax C stmt u' v → FragX lax C stmt (kw l b!"while" :: pt l' .parenOpen :: u) v
  | doWhile {C l l' l'' l₁ u u' u'' v} : FragX lax C stmt u (kw l' b!"while" :: pt l'' .parenOpen :: u') →
      FragX lax { C with in_ := true } (FNT.expr true) u' (pt l₁ .parenClose :: u'') → SemiDo u'' v →
      FragX lax C stmt (kw l b!"do" :: u) v
  | forPlain {C l l' l'' u u' v} : FragX lax C forRest u (pt l'' .parenClose :: u') → FragX lax C stmt u' v →
      FragX lax C stmt (kw l b!"for" :: pt l' .parenOpen :: u) v
  | forExpr {C l l' l'' u u' u'' v} : ¬ BeginsForDeclaration u →
      FragX lax { C with in_ := false } (FNT.expr true) u u' →
      FragX lax C forRest u' (pt l'' .parenClose :: u'') → FragX lax C stmt u'' v →
      FragX lax C stmt (kw l b!"for" :: pt l' .parenOpen :: u) v
  | forDecl {C l l' l'' l₁ k u u' u'' v} : (k = Kind.let → NotNext b!"of" u) →
      FragX lax { C with in_ := false } (declrs (k == Kind.const) (k != Kind.var)) u u' →
      FragX lax C forRest u' (pt l'' .parenClose :: u'') → FragX lax C stmt u'' v →
      FragX lax C stmt (kw l b!"for" :: pt l' .parenOpen :: kw l₁ (Kind.word k) :: u) v
  | forInExpr {C e g l l' l'' u u' u'' v} : (lax = Bool.true → LoneAsync C u) → (lax = Bool.true → NotNext b!"await" u) → ¬ BeginsForDeclaration u →
      FragX lax { C with in_ := false } (FNT.lhs true true e g) u u' →
      FragX lax C inOf u' (pt l'' .parenClose :: u'') → FragX lax C stmt u'' v →
      FragX lax C stmt (kw l b!"for" :: pt l' .parenOpen :: u) v
  | forInAny {C l l' l'' u u' u'' v} : lax = Bool.true → ¬ BeginsForDeclaration u →
      FragX lax { C with in_ := false } (FNT.expr true) u u' →
      FragX lax C inOf u' (pt l'' .parenClose :: u'') → FragX lax C stmt u'' v →
      FragX lax C stmt (kw l b!"for" :: pt l' .parenOpen :: u) v
  | forInNone {C g l l' l'' l₁ u u' v} : lax = Bool.true →
      FragX lax { C with in_ := true } (assign false g) u (pt l'' .parenClose :: u') → FragX lax C stmt u' v →
      FragX lax C stmt (kw l b!"for" :: pt l' .parenOpen :: kw l₁ b!"in" :: u) v
  | forInDecl {C l l' l'' l₁ k u u' u'' v} : (k = Kind.let → NotNext b!"of" u) → FragX lax C target u u' →
      FragX lax C inOf u' (pt l'' .parenClose :: u'') → FragX lax C stmt u'' v →
      FragX lax C stmt (kw l b!"for" :: pt l' .parenOpen :: kw l₁ (Kind.word k) :: u) v
  | forRest {C l l' v} : FragX lax C forRest (pt l .semicolon :: pt l' .semicolon :: v) v
  | forRestL {C l l' u v} : FragX lax C (FNT.expr true) u (pt l' .semicolon :: v) →
      FragX lax C forRest (pt l .semicolon :: u) v
  | forRestR {C l l' u v} : FragX lax C (FNT.expr true) u v →
      FragX lax C forRest (pt l .semicolon :: pt l' .semicolon :: u) v
  | forRestLR {C l l' u u' v} : FragX lax C (FNT.expr true) u (pt l' .semicolon :: u') →
      FragX lax C (FNT.expr true) u' v → FragX lax C forRest (pt l .semicolon :: u) v
  | inOf {C g l k u v} : k ∈ [b!"in", b!"of"] → FragX lax { C with in_ := true } (assign true g) u v →
      FragX lax C inOf (kw l k :: u) v
  | switch {C l l' l'' l₁ l₂ u u' v} :
      FragX lax { C with in_ := true } (FNT.expr true) u (pt l'' .parenClose :: pt l₁ .curlyOpen :: u') →
      FragX lax C (clauses true) u' (pt l₂ .curlyClose :: v) →
      FragX lax C stmt (kw l b!"switch" :: pt l' .parenOpen :: u) v
  | clausesNil {C b v} : FragX lax C (clauses b) v v
  | clausesCase {C b l l' u u' u'' v} : FragX lax { C with in_ := true } (FNT.expr false) u (pt l' .colon :: u') →
      FragX lax C items u' u'' → FragX lax C (clauses false) u'' v → FragX lax C (clauses b) (kw l b!"case" :: u) v
  | clausesDefault {C l l' u u' v} : FragX lax C items u u' → FragX lax C (clauses false) u' v →
      FragX lax C (clauses true) (kw l b!"default" :: pt l' .colon :: u) v
  | clausesLater {C l l' u u' u'' v} : FragX lax C stmt u u' → FragX lax C items u' u'' →
      FragX lax C (clauses false) u'' v →
      FragX lax C (clauses false) (kw l b!"default" :: pt l' .colon :: u) v
  | jump {C l k u v} : k ∈ [b!"break", b!"continue"] → Semi u v → FragX lax C stmt (kw l k :: u) v
  | jumpLine {C l k x v} : k ∈ [b!"break", b!"continue"] → x.1 = Bool.true → x.2 ≠ .punct .semicolon →
      FragX lax C stmt (kw l k :: x :: v) (x :: v)
  | jumpTo {C l k n u v} : k ∈ [b!"break", b!"continue"] → Named lax C n → Semi u v →
      FragX lax C stmt (kw l k :: kw false n :: u) v
  | jumpToLine {C l k n x v} : k ∈ [b!"break", b!"continue"] → Named lax C n → x.1 = Bool.true →
      x.2 ≠ .punct .semicolon → FragX lax C stmt (kw l k :: kw false n :: x :: v) (x :: v)
  | return {C l u v} : Semi u v → FragX lax C stmt (kw l b!"return" :: u) v
  | returnLine {C l x v} : x.1 = Bool.true → x.2 ≠ .punct .semicolon → FragX lax C stmt (kw l b!"return" :: x :: v) (x :: v)
  | returnExpr {C l u u' v} : NoLine u → NotRegex u →
      FragX lax { C with in_ := true } (FNT.expr false) u u' → Semi u' v →
      FragX lax C stmt (kw l b!"return" :: u) v
  | returnOpen {C l x u v} : NoLine u → NotRegex u →
      FragX lax { C with in_ := true } (FNT.exprOpen false) u (x :: v) → x.1 = Bool.true →
      x.2 ≠ .punct .semicolon → FragX lax C stmt (kw l b!"return" :: u) (x :: v)
  | with {C l l' l'' u u' v} : FragX lax { C with in_ := true } (FNT.expr true) u (pt l'' .parenClose :: u') →
      FragX lax C stmt u' v → FragX lax C stmt (kw l b!"with" :: pt l' .parenOpen :: u) v
  | label {C l l' n u v} : Named lax C n → FragX lax C stmt u v → FragX lax C stmt (kw l n :: pt l' .colon :: u) v
  | labelAny {C l l' n u v} : lax = Bool.true → Token.ident n ∉ statementWords → FragX lax C stmt u v →
      FragX lax C stmt (kw l n :: pt l' .colon :: u) v
  | throw {C l x u v} : NoLine u → NotRegex u →
      FragX lax { C with in_ := true } (FNT.expr false) u (x :: v) →
      x.2 = .punct .semicolon ∨ Inserts x → FragX lax C stmt (kw l b!"throw" :: u) (x :: v)
  | throwAny {C l x u v} : lax = Bool.true → NoLine u → NotRegex u →
      FragX lax { C with in_ := true } (FNT.expr false) u (x :: v) → ExprEnds x →
      FragX lax C stmt (kw l b!"throw" :: u) (x :: v)
  | throwOpen {C l u v} : lax = Bool.true → NoLine u → NotRegex u →
      FragX lax { C with in_ := true } (FNT.exprOpen false) u v → FragX lax C stmt (kw l b!"throw" :: u) v
  | throwLine {C l x v} : lax = Bool.true → x.1 = Bool.true → FragX lax C stmt (kw l b!"throw" :: x :: v) (x :: v)
  | tryCatch {C l l' l'' l₁ u u' u'' v} : FragX lax C block u (kw l' b!"catch" :: pt l'' .parenOpen :: u') →
      FragX lax C target u' (pt l₁ .parenClose :: u'') → FragX lax C block u'' v → NotNext b!"finally" v →
      FragX lax C stmt (kw l b!"try" :: u) v
  | tryFinally {C l l' u u' v} : FragX lax C block u (kw l' b!"finally" :: u') → FragX lax C block u' v →
      FragX lax C stmt (kw l b!"try" :: u) v
  | tryBoth {C l l' l'' l₁ l₂ u u' u'' u₁ v} :
      FragX lax C block u (kw l' b!"catch" :: pt l'' .parenOpen :: u') →
      FragX lax C target u' (pt l₁ .parenClose :: u'') → FragX lax C block u'' (kw l₂ b!"finally" :: u₁) →
      FragX lax C block u₁ v → FragX lax C stmt (kw l b!"try" :: u) v
  | tryOnly {C l u v} : lax = Bool.true → FragX lax C block u v → NotNext b!"catch" v → NotNext b!"finally" v →
      FragX lax C stmt (kw l b!"try" :: u) v
  | debugger {C l u v} : Semi u v → FragX lax C stmt (kw l b!"debugger" :: u) v
  | debuggerLine {C l x v} : x.1 = Bool.true → x.2 ≠ .punct .semicolon → FragX lax C stmt (kw l b!"debugger" :: x :: v) (x :: v)
  -- modules
  | specifiersNil {C v} : FragX lax C FNT.specifiers v v
  | specifiersLast {C l n v} : FragX lax C FNT.specifiers (kw l n :: v) v
  | specifiersAsLast {C l l' l'' n n' v} :
      FragX lax C FNT.specifiers (kw l n :: kw l' b!"as" :: kw l'' n' :: v) v
  | specifiersCons {C l l' n u v} : FragX lax C FNT.specifiers u v →
      FragX lax C FNT.specifiers (kw l n :: pt l' .comma :: u) v
  | specifiersAs {C l l' l'' l₁ n n' u v} : FragX lax C FNT.specifiers u v →
      FragX lax C FNT.specifiers (kw l n :: kw l' b!"as" :: kw l'' n' :: pt l₁ .comma :: u) v
  | importFile {C l l' x u v} : RawSemi u v →
      FragX lax C moduleItem (kw l b!"import" :: (l', .str x) :: u) v
  | importDefault {C l l' l'' l₁ n x u v} : Named lax C n → RawSemi u v →
      FragX lax C moduleItem (kw l b!"import" :: kw l' n :: kw l'' b!"from" :: (l₁, .str x) :: u) v
  | importStar {C l l' l'' l₁ l₂ l₃ n x u v} : Named lax C n → RawSemi u v →
      FragX lax C moduleItem (kw l b!"import" :: pt l' .star :: kw l'' b!"as" :: kw l₁ n ::
        kw l₂ b!"from" :: (l₃, .str x) :: u) v
  | importNames {C l l' l'' l₁ l₂ x u u' v} :
      FragX lax C FNT.specifiers u (pt l'' .curlyClose :: kw l₁ b!"from" :: (l₂, .str x) :: u') → RawSemi u' v →
      FragX lax C moduleItem (kw l b!"import" :: pt l' .curlyOpen :: u) v
  | importBoth {C l l' l'' l₁ l₂ l₃ l₄ n x u u' v} : Named lax C n →
      FragX lax C FNT.specifiers u (pt l₂ .curlyClose :: kw l₃ b!"from" :: (l₄, .str x) :: u') → RawSemi u' v →
      FragX lax C moduleItem (kw l b!"import" :: kw l' n :: pt l'' .comma :: pt l₁ .curlyOpen :: u) v
  | importBothStar {C l l' l'' l₁ l₂ l₃ l₄ l₅ n n' x u v} : Named lax C n → Named lax C n' → RawSemi u v →
      FragX lax C moduleItem (kw l b!"import" :: kw l' n :: pt l'' .comma :: pt l₁ .star :: kw l₂ b!"as" ::
        kw l₃ n' :: kw l₄ b!"from" :: (l₅, .str x) :: u) v
  | exportNames {C l l' l'' u u' v} : FragX lax C FNT.specifiers u (pt l'' .curlyClose :: u') → RawSemi u' v →
      NotNext b!"from" u' → FragX lax C moduleItem (kw l b!"export" :: pt l' .curlyOpen :: u) v
  | exportNamesFrom {C l l' l'' l₁ l₂ x u u' v} :
      FragX lax C FNT.specifiers u (pt l'' .curlyClose :: kw l₁ b!"from" :: (l₂, .str x) :: u') → RawSemi u' v →
      FragX lax C moduleItem (kw l b!"export" :: pt l' .curlyOpen :: u) v
  | exportStar {C l l' l'' l₁ x u v} : RawSemi u v →
      FragX lax C moduleItem (kw l b!"export" :: pt l' .star :: kw l'' b!"from" :: (l₁, .str x) :: u) v
  -- the declaration ends with a semicolon, and then another one is inserted
  | exportVar {C l l' u u' u'' v} : FragX lax { C with in_ := true } (declrs false false) u u' → Semi u' u'' →
      RawSemi u'' v → FragX lax C moduleItem (kw l b!"export" :: kw l' b!"var" :: u) v
  | exportVarOpen {C l l' x u v} : FragX lax { C with in_ := true } (openDeclrs false) u (x :: v) → x.1 = Bool.true →
      x.2 ∉ [Token.punct .comma, .punct .eq, .punct .semicolon] →
      FragX lax C moduleItem (kw l b!"export" :: kw l' b!"var" :: u) (x :: v)
  | exportLet {C l l' u u' u'' v} : FragX lax C (declrs false false) u u' → Semi u' u'' → RawSemi u'' v →
      FragX lax C moduleItem (kw l b!"export" :: kw l' b!"let" :: u) v
  | exportLetOpen {C l l' x u v} : FragX lax C (openDeclrs false) u (x :: v) → x.1 = Bool.true →
      x.2 ∉ [Token.punct .comma, .punct .eq, .punct .semicolon] →
      FragX lax C moduleItem (kw l b!"export" :: kw l' b!"let" :: u) (x :: v)
  | exportConst {C l l' u u' u'' v} : FragX lax C (declrs true true) u u' → Semi u' u'' → RawSemi u'' v →
      FragX lax C moduleItem (kw l b!"export" :: kw l' b!"const" :: u) v
  | exportConstOpen {C l l' x u v} : FragX lax C (openDeclrs true) u (x :: v) → x.1 = Bool.true →
      x.2 ∉ [Token.punct .comma, .punct .eq, .punct .semicolon] →
      FragX lax C moduleItem (kw l b!"export" :: kw l' b!"const" :: u) (x :: v)
  | exportLetIn {C l l' u v} : lax = Bool.true → C.in_ = Bool.false → FragX lax C (declrs false false) u (kw true b!"in" :: v) →
      FragX lax C moduleItem (kw l b!"export" :: kw l' b!"let" :: u) (kw true b!"in" :: v)
  | exportConstIn {C l l' u v} : lax = Bool.true → C.in_ = Bool.false → FragX lax C (declrs true true) u (kw true b!"in" :: v) →
      FragX lax C moduleItem (kw l b!"export" :: kw l' b!"const" :: u) (kw true b!"in" :: v)
  | exportFunc {C l l' l'' u v} : FragX lax { C with default := true, await := false, yield := false } function u v →
      FragX lax C moduleItem (kw l b!"export" :: kw l' b!"default" :: kw l'' b!"function" :: u) v
  | exportFuncName {C l l' l'' l₁ n u v} : Named lax C n →
      FragX lax { C with default := true, await := false, yield := false } function u v →
      FragX lax C moduleItem (kw l b!"export" :: kw l' b!"default" :: kw l'' b!"function" :: kw l₁ n :: u) v
  | exportGen {C l l' l'' l₁ u v} : FragX lax { C with default := true, await := false, yield := true } function u v →
      FragX lax C moduleItem (kw l b!"export" :: kw l' b!"default" :: kw l'' b!"function" :: pt l₁ .star :: u) v
  | exportGenName {C l l' l'' l₁ l₂ n u v} : Named lax C n →
      FragX lax { C with default := true, await := false, yield := true } function u v →
      FragX lax C moduleItem (kw l b!"export" :: kw l' b!"default" :: kw l'' b!"function" :: pt l₁ .star ::
        kw l₂ n :: u) v
  | exportAsync {C l l' l'' l₁ l₂ u u' v} :
      FragX lax { C with default := true, yield := false } params u (pt l₂ .parenClose :: u') →
      FragX lax { C with default := true, await := true, yield := false } block u' v →
      FragX lax C moduleItem (kw l b!"export" :: kw l' b!"default" :: kw l'' b!"async" :: kw false b!"function" ::
        pt l₁ .parenOpen :: u) v
  | exportAsyncName {C l l' l'' l₁ l₂ l₃ n u u' v} : Named lax C n →
      FragX lax { C with default := true, yield := false } params u (pt l₂ .parenClose :: u') →
      FragX lax { C with default := true, await := true, yield := false } block u' v →
      FragX lax C moduleItem (kw l b!"export" :: kw l' b!"default" :: kw l'' b!"async" :: kw false b!"function" ::
        kw l₃ n :: pt l₁ .parenOpen :: u) v
  | exportClass {C l l' l'' u v} : FragX lax { C with default := true } classTail u v →
      FragX lax C moduleItem (kw l b!"export" :: kw l' b!"default" :: kw l'' b!"class" :: u) v
  | exportClassName {C l l' l'' l₁ n u v} : Named lax C n → FragX lax { C with default := true } classTail u v →
      FragX lax C moduleItem (kw l b!"export" :: kw l' b!"default" :: kw l'' b!"class" :: kw l₁ n :: u) v
  | exportExpr {C l l' x u u' v} : x.2 ∉ [Token.ident b!"function", .ident b!"class"] →
      NotRegex (x :: u) → FragX lax { C with default := true, in_ := true } (FNT.expr true) (x :: u) u' → Semi u' v →
      FragX lax C moduleItem (kw l b!"export" :: kw l' b!"default" :: x :: u) v
  | exportExprOpen {C l l' x y u v} : x.2 ∉ [Token.ident b!"function", .ident b!"class"] → NotRegex (x :: u) →
      FragX lax { C with default := true, in_ := true } (FNT.exprOpen true) (x :: u) (y :: v) → y.1 = Bool.true →
      y.2 ≠ .punct .semicolon →
      FragX lax C moduleItem (kw l b!"export" :: kw l' b!"default" :: x :: u) (y :: v)
  | moduleItem {C u v} : FragX lax C item u v → FragX lax C moduleItem u v
  | moduleItemsNil {C v} : FragX lax C moduleItems v v
  | moduleItemsCons {C u u' v} : FragX lax C moduleItem u u' → FragX lax C moduleItems u' v →
      FragX lax C moduleItems u v
  | program {C l u} : FragX lax C moduleItems u [(l, .eof)] → FragX lax C program u []

/-- The fragment of JavaScript. -/
abbrev Frag : Ctx → FNT → List Tok → List Tok → Prop := FragX false

end Jsparse.Spec
