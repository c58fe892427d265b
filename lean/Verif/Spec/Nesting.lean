import Verif.Model.Tokens
/-!
# Nesting of brackets
-/

namespace Jsparse.Spec

/-- The kinds of brackets: `( )`, `[ ]`, `{ }` and `` `…${ }…` ``. -/
inductive Br where
  | paren | square | curly | template
  deriving DecidableEq

/-- What a token does to the nesting. -/
inductive Nest where
  | opens (b : Br)
  | closes (b : Br)
  /-- the part `}…${` of a template: closes a substitution and opens the next one -/
  | middle
  | plain
  deriving DecidableEq

def nestOf : Token → Nest
  | .punct .parenOpen => .opens .paren
  | .punct .parenClose => .closes .paren
  | .punct .squareOpen => .opens .square
  | .punct .squareClose => .closes .square
  | .punct .curlyOpen => .opens .curly
  | .punct .curlyClose => .closes .curly
  | .template .head _ _ => .opens .template
  | .template .middle _ _ => .middle
  | .template .tail _ _ => .closes .template
  | _ => .plain

/-- The brackets that are open after a token, innermost first; `none` if it does not fit. -/
def nestStep (open_ : List Br) (t : Token) : Option (List Br) :=
  match nestOf t with
  | .plain => some open_
  | .opens b => some (b :: open_)
  | .closes b =>
    match open_ with
    | b' :: rest => if b' = b then some rest else none
    | [] => none
  | .middle =>
    match open_ with
    | .template :: _ => some open_
    | _ => none

/-- The brackets that are open after some tokens. -/
def nest (open_ : List Br) : List Token → Option (List Br)
  | [] => some open_
  | t :: ts => (nestStep open_ t).bind fun o => nest o ts

/-- Brackets are properly nested. -/
def Balanced (ts : List Token) : Prop := nest [] ts = some []


end Jsparse.Spec
