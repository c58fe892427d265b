import Verif.Model.Tokenizer
import Verif.Spec.Lexical
/-!
# Vocabulary for statements about the tokenizer API

Only `Tokenizer.nextToken` and `intoTokenizer` of the model are mentioned here; these are the two
public entry points.
-/

namespace Jsparse.Spec

open Jsparse

/-- The text a tokenizer has not consumed yet. -/
def unread (t : Tokenizer) : Bytes := t.code.drop t.position.offset

/-- The states a user can have: the source is a Rust `&str` and the position is a character
boundary.  `valid_intoTokenizer` and `valid_nextToken` (Proofs/NextToken.lean) show that every state
obtained through the API is of this kind. -/
structure Valid (t : Tokenizer) : Prop where
  utf8 : Utf8 t.code
  boundary : isBoundary t.code t.position.offset = true

/-- `next_token` returns `tok` for the piece of text `w`, after skipping the text `skip`; the reported
range is that of `w` and the tokenizer then stands behind `w`. -/
def Reads (t : Tokenizer) (h : Hint) (tok : Token) (skip w : Bytes) : Prop :=
  ∃ r t', t.nextToken h = .ok (tok, r, t') ∧ unread t = skip ++ w ++ unread t' ∧
    t'.code = t.code ∧ t'.checked = t.checked ∧ t'.position = r.stop ∧
    r.start.offset = t.position.offset + skip.length ∧
    r.stop.offset = r.start.offset + w.length

/-- `next_token` panics. -/
def PanicsWith (t : Tokenizer) (h : Hint) (p : Panic) : Prop := t.nextToken h = .error p

/-- The text begins with a no-break space or a byte-order mark. -/
def StartsWide (s : Bytes) : Prop := noBreakSpace <+: s ∨ byteOrderMark <+: s

instance (s : Bytes) : Decidable (StartsWide s) := inferInstanceAs (Decidable (_ ∨ _))

/-- The text does not begin with a blank. -/
def NoBlankHead (s : Bytes) : Prop := ∀ b rest, s = b :: rest → ¬ Blank b

/-- The states reached by finite sequences of calls with arbitrary hints: `Calls t toks t'` says that
the calls starting in `t` returned the tokens and ranges `toks` and ended in `t'`. -/
inductive Calls : Tokenizer → List (Token × TokenRange) → Tokenizer → Prop
  | nil (t) : Calls t [] t
  | cons (t h tok r t' toks t'') : t.nextToken h = .ok (tok, r, t') → Calls t' toks t'' →
      Calls t ((tok, r) :: toks) t''

end Jsparse.Spec
