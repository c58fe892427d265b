import Verif.Model.Printer
/-!
# What the printed text of a syntax tree should be

Stated for the pieces that were written, without the formatter.
-/

namespace Jsparse.Spec

open Jsparse.Ast

/-- The bracket that closes the bracket `p`. -/
def closing : Punct → Option Punct
  | .parenL => some .parenR
  | .squareL => some .squareR
  | .curlyL => some .curlyR
  | _ => none

/-- Reading `ps` with the closing brackets `st` pending, innermost first, every closing bracket is
the one that is due, and none is pending at the end. -/
def bracketsMatch : List Punct → List Piece → Bool
  | st, [] => st.isEmpty
  | st, .punct p :: rest =>
    match closing p with
    | some q => bracketsMatch (q :: st) rest
    | none =>
      if p = .parenR ∨ p = .squareR ∨ p = .curlyR then
        match st with
        | q :: st => p == q && bracketsMatch st rest
        | [] => false
      else bracketsMatch st rest
  | st, _ :: rest => bracketsMatch st rest

/-- Keywords and names. -/
def isWord : Piece → Bool
  | .kw _ | .ident _ => true
  | _ => false

/-- Keywords, names and numbers. -/
def isWordOrNum : Piece → Bool
  | .kw _ | .ident _ | .num _ => true
  | _ => false

/-- Nowhere does a word or a number directly follow a word. -/
def WordsApart (ps : List Piece) : Prop :=
  ∀ xs p q ys, ps = xs ++ p :: q :: ys → isWord p = true → isWordOrNum q = false

/-- The pieces without the spaces. -/
def strip (ps : List Piece) : List Piece := ps.filter (· ≠ .space)

/-- `function`, `class` or `async function` come first. -/
def beginsDeclaration : List Piece → Bool
  | .kw .«function» :: _ => true
  | .kw .«class» :: _ => true
  | .kw .«async» :: .kw .«function» :: _ => true
  | _ => false

/-- `{` comes first. -/
def beginsCurly : List Piece → Bool
  | .punct .curlyL :: _ => true
  | _ => false

/-- `let [` come first. -/
def beginsLetSquare : List Piece → Bool
  | .ident name :: .punct .squareL :: _ => name = b!"let"
  | _ => false

/-- `let` comes first. -/
def beginsLet : List Piece → Bool
  | .ident name :: _ => name = b!"let"
  | _ => false

/-- The beginnings that the grammar of ECMAScript forbids by a lookahead restriction. -/
def forbidden : Look → List Piece → Bool
  | .exportDefault, ps => beginsDeclaration ps
  | .expressionStatement, ps => beginsDeclaration ps || beginsCurly ps || beginsLetSquare ps
  | .forInit, ps => beginsLetSquare ps
  | .forOfInit, ps => beginsLet ps
  | .conciseBody, ps => beginsCurly ps

/-- The nodes that are expressions, by the node at the top and those that their text begins with. -/
def beginsAsExpr : Node → Bool
  | .ident _ | .this | .null | .bool _ | .num _ | .str _ | .regexp _ _ | .paren _ => true
  | .tagged tag (.template _ _) => beginsAsExpr tag
  | .template _ _ => true
  | .call callee (.args _ _) => beginsAsExpr callee
  | .optCall callee _ => beginsAsExpr callee
  | .newArgs _ _ | .newEmpty _ | .importCall _ | .superCall _ | .superMember _ => true
  | .member object (.dot _) => beginsAsExpr object
  | .member object (.computed _) => beginsAsExpr object
  | .member object (.privateDot _) => beginsAsExpr object
  | .optMember object _ => beginsAsExpr object
  | .postfix _ v => beginsAsExpr v
  | .«prefix» _ _ | .unary _ _ | .yield _ | .yieldStar _ | .bindMember _ => true
  | .bind l _ | .bin _ l _ | .inOp l _ | .cond l _ _ | .opAssign _ l _ | .seq l _ => beginsAsExpr l
  | .assign (.objectPattern _ _) _ | .assign (.arrayPattern _ _) _ => true
  | .assign l _ => beginsAsExpr l
  | .doExpr _ => true
  | .«meta» m => m = .newTarget ∨ m = .importMeta
  | .object _ _ | .array _ _ | .func _ _ _ _ => true
  | .item .classExpr .nil _ _ _ _ | .item .classExpr (.cons (.item .decorator _ _ _ _ _) _) _ _ _ _ =>
    true
  | .arrow _ (.args _ _) _ | .arrow _ (.ident _) _ => true
  | _ => false

/-! ## Reading expressions back -/

/-- The items of a list. -/
def items : Nodes → List Node
  | .nil => []
  | .cons n rest => n :: items rest

/-- The level of a binary operator in the grammar of ECMAScript. -/
def binLevel : BinOp → Prec
  | .add | .subtract => .additive
  | .leftShift | .rightShift | .rightShiftSigned => .shift
  | .divide | .multiply | .modulus => .multiplicative
  | .bitAnd => .bitwiseAnd
  | .bitOr => .bitwiseOr
  | .bitXor => .bitwiseXOr
  | .power => .exponential
  | .equal | .strictEqual | .notEqual | .strictNotEqual => .equality
  | .lessThan | .lessThanEqual | .greaterThan | .greaterThanEqual | .instanceof => .relational
  | .and => .logicalAnd
  | .or => .logicalOr

/-- The next level. -/
def tighter : Prec → Prec
  | .normal => .assignment | .assignment => .conditional | .conditional => .logicalOr
  | .logicalOr => .logicalAnd | .logicalAnd => .bitwiseOr | .bitwiseOr => .bitwiseXOr
  | .bitwiseXOr => .bitwiseAnd | .bitwiseAnd => .equality | .equality => .relational
  | .relational => .shift | .shift => .additive | .additive => .multiplicative
  | .multiplicative => .exponential | .exponential => .unary | .unary => .update
  | .update => .leftHand | .leftHand => .«new» | .«new» => .member | .member => .primary
  | .primary => .primary

/-- The token of a binary operator. -/
def binToken : BinOp → Piece
  | .add => .punct .plus | .subtract => .punct .minus | .leftShift => .punct .lAngleAngle
  | .rightShift => .punct .rAngleAngle | .rightShiftSigned => .punct .rAngleAngleAngle
  | .divide => .punct .slash | .multiply => .punct .star | .modulus => .punct .mod
  | .bitAnd => .punct .amp | .bitOr => .punct .bar | .bitXor => .punct .caret
  | .power => .punct .starStar | .equal => .punct .eqEq | .strictEqual => .punct .eqEqEq
  | .notEqual => .punct .neq | .strictNotEqual => .punct .neqEq | .lessThan => .punct .lAngle
  | .lessThanEqual => .punct .lAngleEq | .greaterThan => .punct .rAngle
  | .greaterThanEqual => .punct .rAngleEq | .instanceof => .kw .instanceof
  | .and => .punct .ampAmp | .or => .punct .barBar

/-- The token of a unary operator. -/
def unToken : UnOp → Piece
  | .delete => .kw .delete | .void => .kw .void | .typeof => .kw .typeof
  | .positive => .punct .plus | .negative => .punct .minus | .bitNegate => .punct .tilde
  | .negate => .punct .exclam | .await => .kw .await

/-- The tokens of an assignment operator. -/
def assignTokens : AssignOp → List Piece
  | .add => [.punct .plus, .punct .eq] | .subtract => [.punct .subtract, .punct .eq]
  | .leftShift => [.punct .lAngleAngle, .punct .eq]
  | .rightShift => [.punct .rAngleAngle, .punct .eq]
  | .rightShiftSigned => [.punct .rAngleAngleAngle, .punct .eq]
  | .divide => [.punct .slash, .punct .eq] | .multiply => [.punct .star, .punct .eq]
  | .modulus => [.punct .mod, .punct .eq] | .bitAnd => [.punct .amp, .punct .eq]
  | .bitOr => [.punct .bar, .punct .eq] | .bitXor => [.punct .caret, .punct .eq]
  | .power => [.punct .starStar, .punct .eq]

/-- The grammar of expressions of ECMAScript, for the expressions without functions, classes, object
literals, holes and `...` in array literals, templates, `new` and `yield`: `ReadsExpr p e ps` if the tokens `ps` are an expression
of the level `p` with the tree `e`. Parentheses around an expression do not show in the tree, or show
as a node. -/
inductive ReadsExpr : Prec → Node → List Piece → Prop where
  | weaken {p q e ps} : q.num ≤ p.num → ReadsExpr p e ps → ReadsExpr q e ps
  | parens {e ps} : ReadsExpr .normal e ps →
    ReadsExpr .primary e (.punct .parenL :: ps ++ [.punct .parenR])
  | paren {e ps} : ReadsExpr .normal e ps →
    ReadsExpr .primary (.paren e) (.punct .parenL :: ps ++ [.punct .parenR])
  | ident n : ReadsExpr .primary (.ident n) [.ident n]
  | this : ReadsExpr .primary .this [.kw .this]
  | null : ReadsExpr .primary .null [.kw .null]
  | true : ReadsExpr .primary (.bool true) [.kw .«true»]
  | false : ReadsExpr .primary (.bool false) [.kw .«false»]
  | num t : ReadsExpr .primary (.num t) [.num t]
  | str t : ReadsExpr .primary (.str t) [.punct .sQuote, .raw t, .punct .sQuote]
  /-- The elements, each with the comma behind it. -/
  | array {l} (els : List (Node × List Piece)) : items l = els.map (fun a => .arrayItem a.1) →
    (∀ a ∈ els, ReadsExpr .assignment a.1 a.2) →
    ReadsExpr .primary (.array l .none)
      (.punct .squareL :: els.flatMap (fun a => a.2 ++ [.punct .comma]) ++ [.punct .squareR])
  /-- A last element without a comma. -/
  | arrayLast {l e qs} (els : List (Node × List Piece)) : items l = els.map (fun a => .arrayItem a.1) →
    (∀ a ∈ els, ReadsExpr .assignment a.1 a.2) → ReadsExpr .assignment e qs →
    ReadsExpr .primary (.array l (.arrayItem e))
      (.punct .squareL :: els.flatMap (fun a => a.2 ++ [.punct .comma]) ++ qs ++ [.punct .squareR])
  | dot {o n ps} : ReadsExpr .leftHand o ps →
    ReadsExpr .leftHand (.member o (.dot (.ident n))) (ps ++ [.punct .period, .ident n])
  | computed {o e ps qs} : ReadsExpr .leftHand o ps → ReadsExpr .normal e qs →
    ReadsExpr .leftHand (.member o (.computed e)) (ps ++ .punct .squareL :: qs ++ [.punct .squareR])
  /-- The arguments, each with the comma behind it. -/
  | call {c l ps} (args : List (Node × List Piece)) : ReadsExpr .leftHand c ps →
    items l = args.map (·.1) → (∀ a ∈ args, ReadsExpr .assignment a.1 a.2) →
    ReadsExpr .leftHand (.call c (.args l .none))
      (ps ++ .punct .parenL :: args.flatMap (fun a => a.2 ++ [.punct .comma]) ++ [.punct .parenR])
  /-- A last argument without a comma. -/
  | callLast {c l e ps qs} (args : List (Node × List Piece)) : ReadsExpr .leftHand c ps →
    items l = args.map (·.1) → (∀ a ∈ args, ReadsExpr .assignment a.1 a.2) → ReadsExpr .assignment e qs →
    ReadsExpr .leftHand (.call c (.args l e))
      (ps ++ .punct .parenL :: args.flatMap (fun a => a.2 ++ [.punct .comma]) ++ qs ++
        [.punct .parenR])
  | increment {e ps} : ReadsExpr .leftHand e ps →
    ReadsExpr .update (.postfix true e) (ps ++ [.punct .plusPlus])
  | decrement {e ps} : ReadsExpr .leftHand e ps →
    ReadsExpr .update (.postfix false e) (ps ++ [.punct .minusMinus])
  | preIncrement {e ps} : ReadsExpr .unary e ps →
    ReadsExpr .update (.«prefix» true e) (.punct .plusPlus :: ps)
  | preDecrement {e ps} : ReadsExpr .unary e ps →
    ReadsExpr .update (.«prefix» false e) (.punct .minusMinus :: ps)
  | unary {op e ps} : ReadsExpr .unary e ps → ReadsExpr .unary (.unary op e) (unToken op :: ps)
  | power {l r ps qs} : ReadsExpr .update l ps → ReadsExpr .exponential r qs →
    ReadsExpr .exponential (.bin .power l r) (ps ++ .punct .starStar :: qs)
  | bin {op l r ps qs} : op ≠ .power → ReadsExpr (binLevel op) l ps →
    ReadsExpr (tighter (binLevel op)) r qs → ReadsExpr (binLevel op) (.bin op l r) (ps ++ binToken op :: qs)
  | inOp {l r ps qs} : ReadsExpr .relational l ps → ReadsExpr .shift r qs →
    ReadsExpr .relational (.inOp l r) (ps ++ .kw .«in» :: qs)
  | cond {t c a ps qs rs} : ReadsExpr .logicalOr t ps → ReadsExpr .assignment c qs →
    ReadsExpr .assignment a rs →
    ReadsExpr .conditional (.cond t c a) (ps ++ .punct .question :: qs ++ .punct .colon :: rs)
  | assign {l r ps qs} : ReadsExpr .leftHand l ps → ReadsExpr .assignment r qs →
    ReadsExpr .assignment (.assign l r) (ps ++ .punct .eq :: qs)
  | opAssign {op l r ps qs} : ReadsExpr .leftHand l ps → ReadsExpr .assignment r qs →
    ReadsExpr .assignment (.opAssign op l r) (ps ++ assignTokens op ++ qs)
  | seq {l r ps qs} : ReadsExpr .normal l ps → ReadsExpr .assignment r qs →
    ReadsExpr .normal (.seq l r) (ps ++ .punct .comma :: qs)

/-- The level of an expression without parentheses around it. -/
def level : Node → Prec
  | .member _ _ | .call _ _ => .leftHand
  | .postfix _ _ | .«prefix» _ _ => .update
  | .unary _ _ => .unary
  | .bin op _ _ => binLevel op
  | .inOp _ _ => .relational
  | .cond _ _ _ => .conditional
  | .assign _ _ | .opAssign _ _ _ => .assignment
  | .seq _ _ => .normal
  | _ => .primary

/-- The nodes that the printer puts in parentheses where needed. -/
def wraps : Node → Bool
  | .unary _ _ | .bin _ _ _ | .inOp _ _ | .cond _ _ _ | .seq _ _ => true
  | _ => false

/-- An expression that may be printed where the level `p` is required. -/
def fits (p : Prec) (e : Node) : Prop := wraps e = true ∨ p.num ≤ (level e).num

/-- The trees that are printed as they should: in the places where the printer puts no parentheses
(left operands, the last argument, increments and assignments everywhere) none are needed, and the
operators that are printed wrongly do not occur. -/
inductive Printable : Node → Prop where
  | paren {e} : Printable e → Printable (.paren e)
  | ident n : Printable (.ident n)
  | this : Printable .this
  | null : Printable .null
  | bool b : Printable (.bool b)
  | num t : Printable (.num t)
  | str t : Printable (.str t)
  | array {l} (els : List Node) : items l = els.map .arrayItem → (∀ e ∈ els, Printable e) →
    (∀ e ∈ els, fits .assignment e) → Printable (.array l .none)
  | arrayLast {l e} (els : List Node) : items l = els.map .arrayItem → (∀ e ∈ els, Printable e) →
    (∀ e ∈ els, fits .assignment e) → Printable e → fits .assignment e →
    Printable (.array l (.arrayItem e))
  | dot {o} n : Printable o → fits .leftHand o → Printable (.member o (.dot (.ident n)))
  | computed {o e} : Printable o → fits .leftHand o → Printable e →
    Printable (.member o (.computed e))
  | call {c l} : Printable c → fits .leftHand c → (∀ a ∈ items l, Printable a) →
    (∀ a ∈ items l, fits .assignment a) → Printable (.call c (.args l .none))
  | callLast {c l e} : Printable c → fits .leftHand c → (∀ a ∈ items l, Printable a) →
    (∀ a ∈ items l, fits .assignment a) → Printable e → Prec.assignment.num ≤ (level e).num →
    Printable (.call c (.args l e))
  | postfix {e} b : Printable e → fits .leftHand e → Printable (.postfix b e)
  | «prefix» {e} b : Printable e → fits .unary e → Printable (.«prefix» b e)
  | unary {op e} : op ≠ .negative → Printable e → fits .unary e → Printable (.unary op e)
  | bin {op l r} : op ≠ .power → Printable l → (binLevel op).num ≤ (level l).num → Printable r →
    fits (tighter (binLevel op)) r → Printable (.bin op l r)
  | inOp {l r} : Printable l → Prec.relational.num ≤ (level l).num → Printable r →
    fits .shift r → Printable (.inOp l r)
  | cond {t c a} : Printable t → fits .logicalOr t → Printable c → fits .assignment c →
    Printable a → fits .assignment a → Printable (.cond t c a)
  | assign {l r} : Printable l → fits .leftHand l → Printable r → fits .assignment r →
    Printable (.assign l r)
  | opAssign {op l r} : Printable l → fits .leftHand l → Printable r → fits .assignment r →
    Printable (.opAssign op l r)
  | seq {l r} : Printable l → Printable r → fits .assignment r → Printable (.seq l r)

mutual
/-- An expression without the nodes for parentheses. -/
def erase : Node → Node
  | .paren e => erase e
  | .member o a => .member (erase o) (erase a)
  | .computed e => .computed (erase e)
  | .call c a => .call (erase c) (erase a)
  | .args l e => .args (eraseItems l) (erase e)
  | .array l e => .array (eraseItems l) (erase e)
  | .arrayItem e => .arrayItem (erase e)
  | .postfix b e => .postfix b (erase e)
  | .«prefix» b e => .«prefix» b (erase e)
  | .unary op e => .unary op (erase e)
  | .bin op l r => .bin op (erase l) (erase r)
  | .inOp l r => .inOp (erase l) (erase r)
  | .cond t c a => .cond (erase t) (erase c) (erase a)
  | .assign l r => .assign (erase l) (erase r)
  | .opAssign op l r => .opAssign op (erase l) (erase r)
  | .seq l r => .seq (erase l) (erase r)
  | e => e

/-- The same for the items of a list. -/
def eraseItems : Nodes → Nodes
  | .nil => .nil
  | .cons e rest => .cons (erase e) (eraseItems rest)
end

/-! ## Reading statements back -/

/-- The first word of a declaration. -/
def declWord : DeclKind → Keyword
  | .var => .var | .«let» => .«let» | .const => .const

/-- The tokens of the declarator of a variable, without a pattern. -/
inductive ReadsDeclarator : Node → List Piece → Prop where
  | name n : ReadsDeclarator (.patternItem (.ident n) .none) [.ident n]
  | init {n e ps} : ReadsExpr .assignment e ps →
    ReadsDeclarator (.patternItem (.ident n) (.init e)) (.ident n :: .punct .eq :: ps)

/-- The tokens of an expression that may be missing. -/
inductive ReadsOptional : Node → List Piece → Prop where
  | none : ReadsOptional .none []
  | some {e ps} : ReadsExpr .normal e ps → ReadsOptional e ps

/-- The tokens of the last parameter of a function, which may be missing. -/
inductive ReadsLast : Node → List Piece → Prop where
  | none : ReadsLast .none []
  | some {d ps} : ReadsDeclarator d ps → ReadsLast d ps

/-- The grammar of statements of ECMAScript, for some statements. An `else` belongs to the last `if`
before it that has none: `ReadsStmt true s ps` if moreover no `else` after `ps` can belong to an `if`
in `ps`. Braces around an `if` do not show in the tree. -/
inductive ReadsStmt : Bool → Node → List Piece → Prop where
  | any {s ps} : ReadsStmt true s ps → ReadsStmt false s ps
  | braces {t c ps} : ReadsStmt false (.ifStmt t c) ps →
    ReadsStmt true (.ifStmt t c) (.punct .curlyL :: ps ++ [.punct .curlyR])
  | ifStmt {t c xs ps} : ReadsExpr .normal t xs → ReadsStmt false c ps →
    ReadsStmt false (.ifStmt t c)
      (.kw .«if» :: .punct .parenL :: xs ++ .punct .parenR :: ps)
  | ifElse {b t c a xs ps qs} : ReadsExpr .normal t xs → ReadsStmt true c ps → ReadsStmt b a qs →
    ReadsStmt b (.ifElse t c a)
      (.kw .«if» :: .punct .parenL :: xs ++ .punct .parenR :: ps ++ .kw .«else» :: qs)
  | block {l} (stmts : List (Node × List Piece)) : items l = stmts.map (·.1) →
    (∀ s ∈ stmts, ReadsStmt false s.1 s.2) →
    ReadsStmt true (.block l)
      (.punct .curlyL :: stmts.flatMap (·.2) ++ [.punct .curlyR])
  | exprStmt {e xs} : ReadsExpr .normal e xs → ReadsStmt true (.exprStmt e) (xs ++ [.punct .semicolon])
  | decl {kind l last ps} (decls : List (Node × List Piece)) : items l = decls.map (·.1) →
    (∀ d ∈ decls, ReadsDeclarator d.1 d.2) → ReadsDeclarator last ps →
    ReadsStmt true (.decl kind l last)
      (.kw (declWord kind) :: decls.flatMap (fun d => d.2 ++ [.punct .comma]) ++ ps ++
        [.punct .semicolon])
  | whileStmt {b t s xs ps} : ReadsExpr .normal t xs → ReadsStmt b s ps →
    ReadsStmt b (.whileStmt t s)
      (.kw .«while» :: .punct .parenL :: xs ++ .punct .parenR :: ps)
  | withStmt {b t s xs ps} : ReadsExpr .normal t xs → ReadsStmt b s ps →
    ReadsStmt b (.withStmt t s) (.kw .«with» :: .punct .parenL :: xs ++ .punct .parenR :: ps)
  | doWhile {t s xs ps} : ReadsExpr .normal t xs → ReadsStmt false s ps →
    ReadsStmt true (.doWhile s t)
      (.kw .«do» :: ps ++ .kw .«while» :: .punct .parenL :: xs ++
        [.punct .parenR, .punct .semicolon])
  | forStmt {b t u s ts us ps} : ReadsOptional t ts → ReadsOptional u us → ReadsStmt b s ps →
    ReadsStmt b (.forStmt .none t u s)
      (.kw .«for» :: .punct .parenL :: .punct .semicolon :: ts ++ .punct .semicolon :: us ++
        .punct .parenR :: ps)
  | labelled {b n s ps} : ReadsStmt b s ps →
    ReadsStmt b (.labelled (.ident n) s) (.ident n :: .punct .colon :: ps)
  | tryFinally {l l' ps qs} : ReadsStmt true (.block l) ps → ReadsStmt true (.block l') qs →
    ReadsStmt true (.tryFinally (.block l) (.block l'))
      (.kw .«try» :: ps ++ .kw .«finally» :: qs)
  | tryCatch {l n l' ps qs} : ReadsStmt true (.block l) ps → ReadsStmt true (.block l') qs →
    ReadsStmt true (.tryCatch (.block l) (.catchClause (.paren (.ident n)) (.block l')))
      (.kw .«try» :: ps ++ .kw .«catch» :: .punct .parenL :: .ident n :: .punct .parenR :: qs)
  | tryCatchFinally {l n l' l'' ps qs rs} : ReadsStmt true (.block l) ps →
    ReadsStmt true (.block l') qs → ReadsStmt true (.block l'') rs →
    ReadsStmt true (.tryCatchFinally (.block l) (.catchClause (.paren (.ident n)) (.block l'))
      (.block l''))
      (.kw .«try» :: ps ++ .kw .«catch» :: .punct .parenL :: .ident n :: .punct .parenR :: qs ++
        .kw .«finally» :: rs)
  | forIn {b kind n e s xs ps} : ReadsExpr .assignment e xs → ReadsStmt b s ps →
    ReadsStmt b (.forIn (.forPattern kind (.ident n) .none) e s)
      (.kw .«for» :: .punct .parenL :: .kw (declWord kind) :: .ident n :: .kw .«in» ::
        xs ++ .punct .parenR :: ps)
  | forOf {b kind n e s xs ps} : ReadsExpr .assignment e xs → ReadsStmt b s ps →
    ReadsStmt b (.forOf false (.forPattern kind (.ident n) .none) e s)
      (.kw .«for» :: .punct .parenL :: .kw (declWord kind) :: .ident n :: .kw .of ::
        xs ++ .punct .parenR :: ps)
  | funcDecl {n l last body ps qs} (params : List (Node × List Piece)) :
    items l = params.map (·.1) → (∀ d ∈ params, ReadsDeclarator d.1 d.2) → ReadsLast last ps →
    ReadsStmt true (.block body) qs →
    ReadsStmt true (.funcDecl .normal (.ident n) (.args l last) (.block body))
      (.kw .«function» :: .ident n :: .punct .parenL ::
        params.flatMap (fun d => d.2 ++ [.punct .comma]) ++ ps ++ .punct .parenR :: qs)
  | ret : ReadsStmt true (.ret .none) [.kw .«return», .punct .semicolon]
  | retValue {e xs} : ReadsExpr .normal e xs →
    ReadsStmt true (.ret (.retValue e)) (.kw .«return» :: xs ++ [.punct .semicolon])
  | «break» : ReadsStmt true (.«break» .none) [.kw .«break», .punct .semicolon]
  | breakTo n : ReadsStmt true (.«break» (.ident n)) [.kw .«break», .ident n, .punct .semicolon]
  | «continue» : ReadsStmt true (.«continue» .none) [.kw .«continue», .punct .semicolon]
  | continueTo n :
    ReadsStmt true (.«continue» (.ident n)) [.kw .«continue», .ident n, .punct .semicolon]
  | debugger : ReadsStmt true .debugger [.kw .debugger, .punct .semicolon]
  | empty : ReadsStmt true .empty [.punct .semicolon]

/-- A declarator that is printed as it should. -/
inductive PrintableDeclarator : Node → Prop where
  | name n : PrintableDeclarator (.patternItem (.ident n) .none)
  | init {n e} : Printable e → fits .assignment e →
    PrintableDeclarator (.patternItem (.ident n) (.init e))

/-- An expression that may be missing. -/
inductive PrintableOptional : Node → Prop where
  | none : PrintableOptional .none
  | some {e} : Printable e → PrintableOptional e

/-- The statements that are printed as they should. -/
inductive PrintableStmt : Node → Prop where
  | ifStmt {t c} : Printable t → PrintableStmt c → PrintableStmt (.ifStmt t c)
  | ifElse {t c a} : Printable t → PrintableStmt c → PrintableStmt a → PrintableStmt (.ifElse t c a)
  | block {l} : (∀ s ∈ items l, PrintableStmt s) → PrintableStmt (.block l)
  | exprStmt {e} : Printable e → PrintableStmt (.exprStmt e)
  | decl {kind l last} : (∀ d ∈ items l, PrintableDeclarator d) → PrintableDeclarator last →
    PrintableStmt (.decl kind l last)
  | whileStmt {t s} : Printable t → PrintableStmt s → PrintableStmt (.whileStmt t s)
  | withStmt {t s} : Printable t → PrintableStmt s → PrintableStmt (.withStmt t s)
  | doWhile {t s} : Printable t → PrintableStmt s → PrintableStmt (.doWhile s t)
  | forStmt {t u s} : PrintableOptional t → PrintableOptional u → PrintableStmt s →
    PrintableStmt (.forStmt .none t u s)
  | labelled {n s} : PrintableStmt s → PrintableStmt (.labelled (.ident n) s)
  | tryFinally {l l'} : PrintableStmt (.block l) → PrintableStmt (.block l') →
    PrintableStmt (.tryFinally (.block l) (.block l'))
  | tryCatch {l n l'} : PrintableStmt (.block l) → PrintableStmt (.block l') →
    PrintableStmt (.tryCatch (.block l) (.catchClause (.paren (.ident n)) (.block l')))
  | tryCatchFinally {l n l' l''} : PrintableStmt (.block l) → PrintableStmt (.block l') →
    PrintableStmt (.block l'') → PrintableStmt (.tryCatchFinally (.block l)
      (.catchClause (.paren (.ident n)) (.block l')) (.block l''))
  | forIn {kind n e s} : Printable e → Prec.assignment.num ≤ (level e).num →
    PrintableStmt s → PrintableStmt (.forIn (.forPattern kind (.ident n) .none) e s)
  | forOf {kind n e s} : Printable e → Prec.assignment.num ≤ (level e).num →
    PrintableStmt s → PrintableStmt (.forOf false (.forPattern kind (.ident n) .none) e s)
  | funcDecl {n l last body} : (∀ d ∈ items l, PrintableDeclarator d) →
    last = .none ∨ PrintableDeclarator last → PrintableStmt (.block body) →
    PrintableStmt (.funcDecl .normal (.ident n) (.args l last) (.block body))
  | ret : PrintableStmt (.ret .none)
  | retValue {e} : Printable e → PrintableStmt (.ret (.retValue e))
  | «break» : PrintableStmt (.«break» .none)
  | breakTo n : PrintableStmt (.«break» (.ident n))
  | «continue» : PrintableStmt (.«continue» .none)
  | continueTo n : PrintableStmt (.«continue» (.ident n))
  | debugger : PrintableStmt .debugger
  | empty : PrintableStmt .empty

/-- A block; the braces around a single `if` do not count. -/
def mkBlock : Nodes → Node
  | .cons (.ifStmt t c) .nil => .ifStmt t c
  | l => .block l

/-- A declarator without the nodes for parentheses. -/
def eraseDeclarator : Node → Node
  | .patternItem (.ident n) (.init e) => .patternItem (.ident n) (.init (erase e))
  | d => d

/-- The same for the items of a list. -/
def eraseDeclarators : Nodes → Nodes
  | .nil => .nil
  | .cons d rest => .cons (eraseDeclarator d) (eraseDeclarators rest)

mutual
/-- A statement without the nodes for parentheses, and without the blocks that have a single `if`
without `else` in them. -/
def eraseStmt : Node → Node
  | .ifStmt t c => .ifStmt (erase t) (eraseStmt c)
  | .ifElse t c a => .ifElse (erase t) (eraseStmt c) (eraseStmt a)
  | .block l => mkBlock (eraseStmts l)
  | .exprStmt e => .exprStmt (erase e)
  | .decl kind l d => .decl kind (eraseDeclarators l) (eraseDeclarator d)
  | .whileStmt t s => .whileStmt (erase t) (eraseStmt s)
  | .withStmt t s => .withStmt (erase t) (eraseStmt s)
  | .doWhile s t => .doWhile (eraseStmt s) (erase t)
  | .forStmt i t u s => .forStmt i (erase t) (erase u) (eraseStmt s)
  | .labelled l s => .labelled l (eraseStmt s)
  | .tryFinally s s' => .tryFinally (eraseStmt s) (eraseStmt s')
  | .tryCatch s (.catchClause p s') => .tryCatch (eraseStmt s) (.catchClause p (eraseStmt s'))
  | .tryCatchFinally s (.catchClause p s') s'' =>
    .tryCatchFinally (eraseStmt s) (.catchClause p (eraseStmt s')) (eraseStmt s'')
  | .forIn l e s => .forIn l (erase e) (eraseStmt s)
  | .forOf a l e s => .forOf a l (erase e) (eraseStmt s)
  | .funcDecl k n (.args l last) s =>
    .funcDecl k n (.args (eraseDeclarators l) (eraseDeclarator last)) (eraseStmt s)
  | .ret (.retValue e) => .ret (.retValue (erase e))
  | s => s

/-- The same for the statements of a list. -/
def eraseStmts : Nodes → Nodes
  | .nil => .nil
  | .cons s rest => .cons (eraseStmt s) (eraseStmts rest)
end

end Jsparse.Spec
