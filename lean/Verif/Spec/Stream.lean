import Verif.Spec.Api
import Verif.Model.ParseFns
/-!
# The tokens the grammar sees

Independent description of what the parser makes of the sequence of tokens returned by `next_token`.
-/

namespace Jsparse.Spec

open Jsparse

/-- The tokens handed to the grammar: comments, line terminators and white space are dropped; the
next token is marked if one of the dropped tokens was a line terminator or a comment that spans
several lines.  `line` is the mark for the next token. -/
def deliver (line : Bool) : List (Token × TokenRange) → List Look
  | [] => []
  | (.whitespace, _) :: rest => deliver line rest
  | (.lineTerminator, _) :: rest => deliver true rest
  | (.comment _ _, r) :: rest => deliver (line || decide (r.start.line ≠ r.stop.line)) rest
  | (tok, r) :: rest => ⟨line, tok, r⟩ :: deliver false rest

/-- The tokenizer panics at some point when it is used on the text. -/
def LexPanic (checked : Bool) (code : Bytes) (p : Panic) : Prop :=
  ∃ toks t h, Calls (intoTokenizer checked code) toks t ∧ PanicsWith t h p

/-- The tokens that the grammar does not see. -/
def Insignificant : Token → Prop
  | .whitespace => True
  | .lineTerminator => True
  | .comment _ _ => True
  | _ => False

/-- A line terminator, or a comment that ends on a later line than it begins. -/
def BreaksLine (x : Token × TokenRange) : Prop :=
  x.1 = .lineTerminator ∨ ∃ f v, x.1 = .comment f v ∧ x.2.start.line ≠ x.2.stop.line

/-- A sequence of calls of `next_token`, all with the same hint. -/
inductive CallsWith (h : Hint) : Tokenizer → List (Token × TokenRange) → Tokenizer → Prop
  | nil (t) : CallsWith h t [] t
  | cons (t tok r t' toks t'') : t.nextToken h = .ok (tok, r, t') → CallsWith h t' toks t'' →
      CallsWith h t ((tok, r) :: toks) t''

end Jsparse.Spec
