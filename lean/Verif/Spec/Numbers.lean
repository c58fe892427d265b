import Mathlib.Algebra.Field.Rat
import Verif.Spec.Lexical
/-!
# Numeric literals

The mathematical value of a literal, and two meanings for the computation recorded by the tokenizer:
exact rational arithmetic, and any arithmetic that is exact on integers up to 2⁵³.
-/

namespace Jsparse

/-- The value of a recorded computation in exact arithmetic. -/
def NumExpr.eval : NumExpr → ℚ
  | .lit n => n
  | .tenth => 1 / 10
  | .add a b => a.eval + b.eval
  | .mul a b => a.eval * b.eval
  | .div a b => a.eval / b.eval
  | .powi10 e => (10 : ℚ) ^ e

namespace Spec

/-- Value of a digit byte `0`–`9`. -/
def digitVal (d : UInt8) : Nat := d.toNat - 48

/-- Positional value of a string of digits. -/
def natVal (base : Nat) : Bytes → Nat
  | [] => 0
  | d :: ds => digitVal d * base ^ ds.length + natVal base ds

inductive Sign where
  | none | plus | minus
  deriving DecidableEq

def Sign.text : Sign → Bytes
  | .none => []
  | .plus => b!"+"
  | .minus => b!"-"

/-- An exponent part: the letter (`e` or `E`), the sign, the digits. -/
structure Exponent where
  marker : UInt8
  sign : Sign
  digits : Bytes

def Exponent.text (e : Exponent) : Bytes := e.marker :: (e.sign.text ++ e.digits)

def Exponent.value (e : Exponent) : Int :=
  match e.sign with
  | .minus => - (natVal 10 e.digits : Int)
  | _ => natVal 10 e.digits

structure Exponent.WF (e : Exponent) : Prop where
  marker : e.marker = c!"e" ∨ e.marker = c!"E"
  nonempty : e.digits ≠ []
  digits : ∀ d ∈ e.digits, Digit d

/-- A decimal literal: `int`, then a fraction (`some ""` for `5.`), then an exponent. -/
structure Decimal where
  int : Bytes
  frac : Option Bytes
  exp : Option Exponent

def Decimal.text (d : Decimal) : Bytes :=
  d.int ++ (d.frac.elim [] (c!"." :: ·)) ++ (d.exp.elim [] Exponent.text)

/-- The mathematical value of a decimal literal. -/
def Decimal.value (d : Decimal) : ℚ :=
  ((natVal 10 d.int : ℚ) + d.frac.elim 0 (fun f => (natVal 10 f : ℚ) / 10 ^ f.length)) *
    d.exp.elim 1 (fun e => (10 : ℚ) ^ e.value)

/-- The ECMAScript grammar of `DecimalLiteral`. -/
structure Decimal.WF (d : Decimal) : Prop where
  int : ∀ b ∈ d.int, Digit b
  frac : ∀ f, d.frac = some f → ∀ b ∈ f, Digit b
  exp : ∀ e, d.exp = some e → e.WF
  /-- no leading zeros -/
  noLeadingZero : ∀ r, d.int = c!"0" :: r → r = []
  /-- `.5` has digits after the dot -/
  leadingDot : d.int = [] → ∃ b f, d.frac = some (b :: f)

/-- The following text does not continue the literal. -/
structure Decimal.Ends (d : Decimal) (rest : Bytes) : Prop where
  digit : ∀ b r, rest = b :: r → ¬ Digit b
  exp : d.exp = none → ∀ b r, rest = b :: r → b ≠ c!"e" ∧ b ≠ c!"E"
  dot : d.exp = none → d.frac = none → ∀ r, rest ≠ c!"." :: r
  /-- after `0` a letter would make it a hexadecimal, octal or binary literal -/
  radix : d.int = b!"0" → d.exp = none → d.frac = none → ∀ b r, rest = b :: r → ¬ Letter b

/-- An arithmetic (such as `f64` with any rounding mode) in which small integers are exact: `R x n`
means that the value `x` represents the natural number `n`. -/
structure ExactSmall {F : Type} (ev : NumExpr → F) (R : F → Nat → Prop) : Prop where
  lit : ∀ n, n ≤ 2 ^ 53 → R (ev (.lit n)) n
  add : ∀ a b m n, R (ev a) m → R (ev b) n → m + n ≤ 2 ^ 53 → R (ev (.add a b)) (m + n)
  mul : ∀ a b m n, R (ev a) m → R (ev b) n → m * n ≤ 2 ^ 53 → R (ev (.mul a b)) (m * n)

end Spec

end Jsparse
