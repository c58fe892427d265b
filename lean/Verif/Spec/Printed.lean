import Verif.Spec.Core
import Verif.Spec.Printer
import Verif.Spec.Text
/-!
# Printed scripts as texts for the parser

The printer writes pieces, the parser reads tokens.  `Written ps u`: the tokens `u` are those of the
pieces `ps`.  `LegalStmt`: the trees whose text the parser is expected to accept.
-/

namespace Jsparse.Spec

open Jsparse.Ast

/-- The tokens that are written with the pieces `ps`, all on one line.  A string is written with three
pieces, an assignment operator like `+=` with two. -/
inductive Written : List Piece → List Tok → Prop
  | nil : Written [] []
  | kw {ps u} (k : Keyword) : Written ps u → Written (.kw k :: ps) ((false, .ident k.text) :: u)
  | ident {n ps u} : Lexeme (.ident n) n → Written ps u →
    Written (.ident n :: ps) ((false, .ident n) :: u)
  | num {v t ps u} : Lexeme (.num v) t → Written ps u → Written (.num t :: ps) ((false, .num v) :: u)
  | str {t ps u} : StrBody c!"'" t → Utf8 t → Written ps u →
    Written (.punct .sQuote :: .raw t :: .punct .sQuote :: ps) ((false, .str t) :: u)
  | punct {p ps u} (q : Jsparse.Punct) : spelling q = p.text → Written ps u →
    Written (.punct p :: ps) ((false, .punct q) :: u)
  | joined {p ps u} (q : Jsparse.Punct) : q ∈ assignmentOperators → spelling q = p.text ++ b!"=" →
    Written ps u →
    Written (.punct p :: .punct .eq :: ps) ((false, .punct q) :: u)

/-- The spellings of the punctuators, without `<!--`. -/
def punctuators : List Bytes :=
  [b!"{", b!"}", b!"(", b!")", b!"[", b!"]", b!";", b!",", b!"~", b!"?", b!":", b!".", b!"...", b!"<",
   b!"<=", b!"<<", b!"<<=", b!">", b!">=", b!">>", b!">>=", b!">>>", b!">>>=", b!"!", b!"!=", b!"!==",
   b!"=", b!"=>", b!"==", b!"===", b!"+", b!"+=", b!"++", b!"-", b!"-=", b!"--", b!"-->", b!"%",
   b!"%=", b!"*", b!"*=", b!"**", b!"**=", b!"/", b!"/=", b!"&", b!"&&", b!"&=", b!"|", b!"||", b!"|=",
   b!"^", b!"^="]

/-- These bytes directly behind the piece would change how it is read: a number runs together with a
name, a number or a dot, and with a sign if its last digit is `e`; a punctuator with a byte that makes
it a longer punctuator, and a dot with a dot or a digit. -/
def sticksTo : Piece → UInt8 → Bool
  | .num t, b => decide (IdentPart b) || b == c!"." ||
    ((t.getLast? == some c!"e" || t.getLast? == some c!"E") && (b == c!"+" || b == c!"-"))
  | .punct p, b => punctuators.contains (p.text ++ [b]) ||
    (p.text.getLast? == some c!"." && (b == c!"." || decide (Digit b)))
  | _, _ => false

/-- The piece `y` may not directly follow `x`.  (The piece `=` behind an operator is meant to.) -/
def sticks (x y : Piece) : Bool :=
  match y.text with
  | [] => false
  | b :: _ => y != .punct .eq && sticksTo x b

/-- No piece runs together with the next one. -/
def Clear : List Piece → Bool
  | x :: y :: ps => !sticks x y && Clear (y :: ps)
  | _ => true

/-- A number. -/
def isNum : Node → Bool
  | .num _ => true
  | _ => false

/-- An expression that does not end with a number, unless in parentheses. -/
def solid (e : Node) : Bool :=
  decide (Prec.leftHand.num ≤ (level e).num) && !isNum e

/-- A number that does not end with `e`. -/
def calmNum (t : Bytes) : Bool := t.getLast? != some c!"e" && t.getLast? != some c!"E"

/-- An expression that does not begin with a sign, `++` or `--`. -/
def headFree : Node → Bool
  | .«prefix» _ _ => false
  | .unary op _ => op != .positive && op != .negative
  | .member e _ | .call e _ | .postfix _ e | .bin _ e _ | .inOp e _ | .cond e _ _ | .assign e _ |
    .opAssign _ e _ | .seq e _ => headFree e
  | _ => true

/-- An expression that does not end with `--`. -/
def tailFree : Node → Bool
  | .postfix b _ => b
  | .«prefix» _ e | .unary _ e | .bin _ _ e | .inOp _ e | .cond _ _ e | .assign _ e | .opAssign _ _ e |
    .seq _ e => tailFree e
  | _ => true

/-- The operators that begin with `>`. -/
def greater : BinOp → Bool
  | .rightShift | .rightShiftSigned | .greaterThan | .greaterThanEqual => true
  | _ => false

mutual
/-- Trees whose pieces do not run together: without signs, `++` and `--` directly after a sign or after the
operators `+` and `-`, without `--` directly before an operator that begins with `>`, and without numbers
directly before a dot, `in` or `instanceof`. -/
def calm : Node → Bool
  | .none | .ident _ | .this | .null | .bool _ | .str _ | .dot _ | .debugger | .empty => true
  | .num t => calmNum t
  | .paren e | .arrayItem e | .computed e | .init e | .exprStmt e | .ret e | .retValue e => calm e
  | .member o a => calm o && calm a && (match a with | .dot _ => !isNum o | _ => true)
  | .call c a => calm c && calm a
  | .array l e | .args l e | .decl _ l e => calmAll l && calm e
  | .postfix _ e | .«prefix» _ e => calm e
  | .unary op e => (op != .positive && op != .negative || headFree e) && calm e
  | .bin op l r => (op != .instanceof || solid l) && (op != .add && op != .subtract || headFree r) &&
    (!greater op || tailFree l) && calm l && calm r
  | .inOp l r => solid l && calm l && calm r
  | .assign l r | .opAssign _ l r | .seq l r | .whileStmt l r | .withStmt l r | .doWhile l r |
    .ifStmt l r | .labelled l r | .tryFinally l r | .tryCatch l r | .patternItem l r |
    .catchClause l r => calm l && calm r
  | .cond t c a | .ifElse t c a | .tryCatchFinally t c a => calm t && calm c && calm a
  | .forIn _ e s | .forOf _ _ e s => calm e && calm s
  | .forStmt a b c s => calm a && calm b && calm c && calm s
  | .block l => calmAll l
  | .funcDecl _ _ a b => calm a && calm b
  | .«break» _ | .«continue» _ => true
  | _ => false

/-- The same for lists. -/
def calmAll : Nodes → Bool
  | .nil => true
  | .cons e l => calm e && calmAll l
end

/-- A space stands in front of a word or a number only. -/
def Spaced (ps : List Piece) : Prop :=
  ∀ xs ys, ps = xs ++ .space :: ys → ∃ w zs, ys = w :: zs ∧ isWordOrNum w = true

/-- A name that may be used for a variable or a label, other than `async` and `let`. -/
def LegalName (n : Bytes) : Prop :=
  Lexeme (.ident n) n ∧ BindingName {} n ∧ n ≠ b!"async" ∧ n ≠ b!"let"

/-- The expressions whose text should be accepted; `Legal false e` where the parser does not accept
the operator `in`.  Left out: the operators `/` and `/=`, `await`, the member name `yield`. -/
inductive Legal : Bool → Node → Prop
  | paren {i e} : Legal i e → Legal i (.paren e)
  | ident {i n} : LegalName n → Legal i (.ident n)
  | this {i} : Legal i .this
  | null {i} : Legal i .null
  | bool {i} b : Legal i (.bool b)
  | num {i t v} : Lexeme (.num v) t → Legal i (.num t)
  | str {i t} : StrBody c!"'" t → Utf8 t → Legal i (.str t)
  | array {i l} (els : List Node) : items l = els.map .arrayItem → (∀ e ∈ els, Legal i e) →
    Legal i (.array l .none)
  | arrayLast {i l e} (els : List Node) : items l = els.map .arrayItem → (∀ e ∈ els, Legal i e) →
    Legal i e → Legal i (.array l (.arrayItem e))
  | dot {i o n} : Legal i o → Lexeme (.ident n) n → n ≠ b!"yield" →
    Legal i (.member o (.dot (.ident n)))
  | computed {i o e} : Legal i o → Legal true e → Legal i (.member o (.computed e))
  | call {i c l} : Legal i c → (∀ a ∈ items l, Legal true a) → Legal i (.call c (.args l .none))
  | callLast {i c l e} : Legal i c → (∀ a ∈ items l, Legal true a) → Legal true e →
    Legal i (.call c (.args l e))
  | postfix {i e} b : Legal i e → Legal i (.postfix b e)
  | «prefix» {i e} b : Legal i e → (∀ op x, e ≠ .unary op x) → Legal i (.«prefix» b e)
  | unary {i op e} : op ≠ .await → Legal i e → Legal i (.unary op e)
  | bin {i op l r} : op ≠ .divide → Legal i l → Legal i r → Legal i (.bin op l r)
  | inOp {l r} : Legal true l → Legal true r → Legal true (.inOp l r)
  | cond {i t c a} : Legal i t → Legal true c → Legal i a → Legal i (.cond t c a)
  | assign {i l r} : Legal i l → Legal i r → Legal i (.assign l r)
  | opAssign {i op l r} : op ≠ .divide → Legal i l → Legal i r → Legal i (.opAssign op l r)
  | seq {i l r} : Legal i l → Legal i r → Legal i (.seq l r)

/-- The parser accepts the operator `in` in the initializers of `var` only. -/
def inAllowed : DeclKind → Bool
  | .var => true
  | _ => false

/-- The declarators; a constant needs an initializer. -/
inductive LegalDeclarator (kind : DeclKind) : Node → Prop
  | name {n} : LegalName n → kind ≠ .const → LegalDeclarator kind (.patternItem (.ident n) .none)
  | init {n e} : LegalName n → Legal (inAllowed kind) e →
    LegalDeclarator kind (.patternItem (.ident n) (.init e))

/-- The statements whose text should be accepted; `LegalStmt true s` if `s` is an item of a list of
statements, where `let`, `const` and `function` may stand. -/
inductive LegalStmt : Bool → Node → Prop
  | ifStmt {i t c} : Legal true t → LegalStmt false c → LegalStmt i (.ifStmt t c)
  | ifElse {i t c a} : Legal true t → LegalStmt false c → LegalStmt false a →
    LegalStmt i (.ifElse t c a)
  | block {i l} : (∀ s ∈ items l, LegalStmt true s) → LegalStmt i (.block l)
  | exprStmt {i e} : Legal true e → LegalStmt i (.exprStmt e)
  | decl {i kind l last} : (kind ≠ .var → i = true) → (∀ d ∈ items l, LegalDeclarator kind d) →
    LegalDeclarator kind last → LegalStmt i (.decl kind l last)
  | whileStmt {i t s} : Legal true t → LegalStmt false s → LegalStmt i (.whileStmt t s)
  | withStmt {i t s} : Legal true t → LegalStmt false s → LegalStmt i (.withStmt t s)
  | doWhile {i t s} : Legal true t → LegalStmt false s → LegalStmt i (.doWhile s t)
  | forStmt {i t u s} : t = .none ∨ Legal false t → u = .none ∨ Legal false u → LegalStmt false s →
    LegalStmt i (.forStmt .none t u s)
  | labelled {i n s} : LegalName n → LegalStmt false s → LegalStmt i (.labelled (.ident n) s)
  | tryFinally {i s s'} : LegalStmt false s → LegalStmt false s' → LegalStmt i (.tryFinally s s')
  | tryCatch {i n s s'} : LegalName n → LegalStmt false s → LegalStmt false s' →
    LegalStmt i (.tryCatch s (.catchClause (.paren (.ident n)) s'))
  | tryCatchFinally {i n s s' s''} : LegalName n → LegalStmt false s → LegalStmt false s' →
    LegalStmt false s'' → LegalStmt i (.tryCatchFinally s (.catchClause (.paren (.ident n)) s') s'')
  | forIn {i kind n e s} : LegalName n → n ≠ b!"of" → Legal true e → LegalStmt false s →
    LegalStmt i (.forIn (.forPattern kind (.ident n) .none) e s)
  | forOf {i kind n e s} : LegalName n → n ≠ b!"of" → Legal true e → LegalStmt false s →
    LegalStmt i (.forOf false (.forPattern kind (.ident n) .none) e s)
  | funcDecl {n l last s} : LegalName n → (∀ d ∈ items l, LegalDeclarator .«let» d) →
    last = .none ∨ LegalDeclarator .«let» last → LegalStmt false s →
    LegalStmt true (.funcDecl .normal (.ident n) (.args l last) s)
  | ret {i} : LegalStmt i (.ret .none)
  | retValue {i e} : Legal true e → LegalStmt i (.ret (.retValue e))
  | «break» {i} : LegalStmt i (.«break» .none)
  | breakTo {i n} : LegalName n → LegalStmt i (.«break» (.ident n))
  | «continue» {i} : LegalStmt i (.«continue» .none)
  | continueTo {i n} : LegalName n → LegalStmt i (.«continue» (.ident n))
  | debugger {i} : LegalStmt i .debugger
  | empty {i} : LegalStmt i .empty

end Jsparse.Spec
