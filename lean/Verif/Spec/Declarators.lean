import Verif.Spec.Placement
/-!
# What a declaration looks like

Lists of declarators with initializers where JavaScript requires them, in terms of tokens: brackets
around patterns and in values are balanced.
-/

namespace Jsparse.Spec

/-- What is declared: a name, or a pattern in brackets. -/
def Target (p : List Tok) : Prop := (∃ b v, p = [(b, .ident v)]) ∨ Bracketed p

/-- A declarator with an initializer. -/
def Valued (w : List Tok) : Prop :=
  ∃ p b e, w = p ++ (b, .punct .eq) :: e ∧ Target p ∧ e ≠ [] ∧ Balanced (e.map (·.2))

/-- Declarators, separated by commas.  Names need an initializer only if `strict`; patterns always. -/
inductive Declarators (strict : Bool) : List Tok → Prop
  | valued {w} : Valued w → Declarators strict w
  | name {b v} : strict = false → Declarators strict [(b, .ident v)]
  | more {u b v} : Declarators strict u → Declarators strict v →
      Declarators strict (u ++ (b, .punct .comma) :: v)

/-- A declaration with this keyword: declarators, and perhaps a semicolon. -/
def Declared (kind : Bytes) (strict : Bool) (w : List Tok) : Prop :=
  ∃ b ds e, w = (b, .ident kind) :: (ds ++ e) ∧ Declarators strict ds ∧
    (e = [] ∨ ∃ b, e = [(b, .punct .semicolon)])

/-- What follows the keyword in the head of a `for`: declarators up to a semicolon, or one name or
pattern up to `in` or `of`. -/
def ForDeclared (strict : Bool) (r : List Tok) : Prop :=
  (∃ ds b e, r = ds ++ (b, .punct .semicolon) :: e ∧ Declarators strict ds) ∨
    ∃ p b v e, r = p ++ (b, .ident v) :: e ∧ (v = b!"in" ∨ v = b!"of") ∧ Target p

/-- A `for` statement `w`.  If its head `k r` begins with a declaration, the declaration is complete. -/
def ForFits (w : List Tok) : Prop :=
  ∃ f o k r c body, w = f :: o :: k :: (r ++ c :: body) ∧ f.2 = .ident b!"for" ∧
    o.2 = .punct .parenOpen ∧ c.2 = .punct .parenClose ∧ Balanced ((k :: r).map (·.2)) ∧
    (k.2 = .ident b!"const" → ForDeclared true r) ∧
    (k.2 = .ident b!"var" → ForDeclared false r) ∧
    (k.2 = .ident b!"let" → (∃ y s, r = y :: s ∧ BeginsBinding y.2) → ForDeclared false r)

end Jsparse.Spec
