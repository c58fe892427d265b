import Verif.Spec.Gaps
import Verif.Spec.Grammar
import Verif.Spec.Numbers
import Verif.Spec.Regex
import Verif.Spec.Strings
/-!
# Writing a list of tokens down

`Spells code u`: the text `code` is one of the ways to write the tokens `u`.
-/

namespace Jsparse.Spec

open Jsparse

/-- A piece of a template contains neither a backtick nor `${`. -/
def PieceBody (v : Bytes) : Prop := ¬ b!"`" <:+: v ∧ ¬ b!"${" <:+: v

/-- The ways to write a token.  Numbers: the value is left open; `0e5` and `0.` are left out (the tokenizer
cuts them short), and so are exponents of 2³¹ or more. -/
inductive Lexeme : Token → Bytes → Prop
  | punct {q} : q ≠ .lAngleExclamDashDash → Lexeme (.punct q) (spelling q)
  | name {b w} : IdentStart b → (∀ c ∈ w, IdentPart c) → Lexeme (.ident (b :: w)) (b :: w)
  | decimal {d : Decimal} {v} : d.WF → (∀ e, d.exp = some e → natVal 10 e.digits < 2 ^ 31) →
      ¬ (d.int = b!"0" ∧ d.frac = none ∧ d.exp ≠ none) →
      ¬ (d.int = b!"0" ∧ d.frac = some [] ∧ d.exp = none) → Lexeme (.num v) d.text
  | octal {x d ds v} : x = c!"o" ∨ x = c!"O" → (∀ b ∈ d :: ds, c!"0" ≤ b ∧ b ≤ c!"7") →
      Lexeme (.num v) (c!"0" :: x :: d :: ds)
  | binary {x d ds v} : x = c!"b" ∨ x = c!"B" → (∀ b ∈ d :: ds, c!"0" ≤ b ∧ b ≤ c!"1") →
      Lexeme (.num v) (c!"0" :: x :: d :: ds)
  | hex {x d ds v} : x = c!"x" ∨ x = c!"X" → (∀ b ∈ d :: ds, HexDigit b) →
      Lexeme (.num v) (c!"0" :: x :: d :: ds)
  | str {q v} : Quote q → StrBody q v → Lexeme (.str v) ([q] ++ v ++ [q])
  | regex {v fl} : RegexBody v → v ≠ [] → ¬ b!"*" <+: v → (∀ b ∈ fl, Lower b) →
      Lexeme (.regex v fl) (b!"/" ++ v ++ b!"/" ++ fl)
  | noSubstitution {v} : PieceBody v → Lexeme (.template .noSubstitution v v) (b!"`" ++ v ++ b!"`")
  | head {v} : PieceBody v → Lexeme (.template .head v v) (b!"`" ++ v ++ b!"${")
  | middle {v} : PieceBody v → Lexeme (.template .middle v v) (b!"}" ++ v ++ b!"${")
  | tail {v} : PieceBody v → Lexeme (.template .tail v v) (b!"}" ++ v ++ b!"`")

/-- The text `code` consists of the tokens `u`, with gaps before, between and behind them.  The flag of a
token says whether a line terminator occurs in the gap before it.  A gap may be empty if the tokens next
to it do not run together.  The text may end with a comment `// …` without line terminator. -/
inductive Spells : Bytes → List Tok → Prop
  | eof {g f} : Gap g f → Spells g [(f, .eof)]
  | comment {g f cs} : Gap g f → (∀ c ∈ cs, isTerminator c = false) →
      Spells (g ++ (b!"//" ++ encode cs)) [(f, .eof)]
  | cons {g f x w r u} : Gap g f → Lexeme x w → Apart x w r → Spells r u →
      Spells (g ++ (w ++ r)) ((f, x) :: u)

end Jsparse.Spec
