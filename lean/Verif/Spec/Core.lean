import Verif.Spec.Grammar
import Verif.Spec.Nesting
/-!
# Texts on which the grammar is exact

`CoreText u`: the tokens `u` are of the kind to which C45 is restricted.
-/

namespace Jsparse.Spec

/-- Punctuators that are left out. -/
def leftOutPunctuators : List Punct := [.slash, .slashEq]

/-- Names, keywords, numbers, strings, pieces of templates, most of the punctuators, and the end of the text. -/
def Core : Tok → Prop
  | (_, .ident _) => True
  | (_, .punct q) => q ∉ leftOutPunctuators
  | (_, .num _) => True
  | (_, .str _) => True
  | (_, .eof) => True
  | (_, .template _ _ _) => True
  | _ => False

instance : (x : Tok) → Decidable (Core x)
  | (_, .ident _) => .isTrue trivial
  | (_, .punct _) => inferInstanceAs (Decidable (_ ∉ _))
  | (_, .num _) => .isTrue trivial
  | (_, .str _) => .isTrue trivial
  | (_, .eof) => .isTrue trivial
  | (_, .comment _ _) => .isFalse id
  | (_, .whitespace) => .isFalse id
  | (_, .lineTerminator) => .isFalse id
  | (_, .regex _ _) => .isFalse id
  | (_, .template _ _ _) => .isTrue trivial

/-- A template without substitutions, or a piece of a template. -/
def IsTemplate : Token → Prop
  | .template _ _ _ => True
  | _ => False

instance : (t : Token) → Decidable (IsTemplate t)
  | .template _ _ _ => .isTrue trivial
  | .ident _ | .punct _ | .num _ | .str _ | .eof | .comment _ _ | .whitespace | .lineTerminator | .regex _ _ =>
    .isFalse id

/-- A reserved word that begins no expression. -/
def Dead : Token → Prop
  | .ident n => n ∈ reservedWords ∧ n ∉ startWords
  | _ => False

instance : (t : Token) → Decidable (Dead t)
  | .ident _ => inferInstanceAs (Decidable (_ ∧ _))
  | .punct _ | .num _ | .str _ | .eof | .comment _ _ | .whitespace | .lineTerminator | .regex _ _ | .template _ _ _ =>
    .isFalse id

def DeadNext : List Tok → Prop
  | [] => False
  | x :: _ => Dead x.2

instance : (u : List Tok) → Decidable (DeadNext u)
  | [] => .isFalse id
  | x :: _ => inferInstanceAs (Decidable (Dead x.2))

/-- Behind `yield` on its line, and behind `yield *`, there is no reserved word that begins no expression. -/
def Yields (x y : Tok) (u : List Tok) : Prop :=
  x.2 = .ident b!"yield" → y.1 = false → ¬ Dead y.2 ∧ (y.2 = .punct .star → ¬ DeadNext u)

instance (x y : Tok) (u : List Tok) : Decidable (Yields x y u) := inferInstanceAs (Decidable (_ → _ → _))

def CoreText : List Tok → Prop
  | [] => True
  | [x] => Core x
  | x :: y :: u => Core x ∧ Yields x y u ∧ CoreText (y :: u)

instance : (u : List Tok) → Decidable (CoreText u)
  | [] => .isTrue trivial
  | [_] => inferInstanceAs (Decidable (Core _))
  | _ :: y :: u =>
    have : Decidable (CoreText (y :: u)) := instDecidableCoreText (y :: u)
    inferInstanceAs (Decidable (_ ∧ _ ∧ _))

/-- A closing brace is the beginning of a piece of a template if and only if the innermost bracket is a template. -/
def Cuts (open_ : List Br) : Token → Prop
  | .punct .curlyClose => open_.head? ≠ some .template
  | .template .middle _ _ => open_.head? = some .template
  | .template .tail _ _ => open_.head? = some .template
  | _ => True

instance (open_ : List Br) : (t : Token) → Decidable (Cuts open_ t) := fun t => by
  unfold Cuts
  split <;> infer_instance

/-- A text can be cut into tokens in several ways if it contains templates, since a piece of a template may begin with
a closing brace.  Here this is done as the nesting of the brackets demands, as far as they are nested. -/
def WellCut (open_ : List Br) : List Tok → Prop
  | [] => True
  | x :: u => Cuts open_ x.2 ∧ ∀ o ∈ nestStep open_ x.2, WellCut o u

instance (open_ : List Br) : (u : List Tok) → Decidable (WellCut open_ u)
  | [] => .isTrue trivial
  | x :: u =>
    have : ∀ o, Decidable (WellCut o u) := fun o => instDecidableWellCut o u
    inferInstanceAs (Decidable (_ ∧ ∀ o ∈ nestStep open_ x.2, WellCut o u))

end Jsparse.Spec
