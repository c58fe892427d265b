import Verif.Model.Bytes
/-!
# Bodies of regular expression literals

The ECMAScript grammar of `RegularExpressionBody`, without the restrictions on line terminators and
on the first character (which the tokenizer does not check).
-/

namespace Jsparse.Spec

open Jsparse

/-- The inside of a character class `[…]`. -/
inductive ClassBody : Bytes → Prop
  | nil : ClassBody []
  | esc (b : UInt8) (c : Bytes) : ClassBody c → ClassBody (c!"\\" :: b :: c)
  | char (b : UInt8) (c : Bytes) : b ≠ c!"\\" → b ≠ c!"]" → ClassBody c → ClassBody (b :: c)

/-- The inside of `/…/`: no slash outside of an escape or a character class. -/
inductive RegexBody : Bytes → Prop
  | nil : RegexBody []
  | esc (b : UInt8) (v : Bytes) : RegexBody v → RegexBody (c!"\\" :: b :: v)
  | cls (c v : Bytes) : ClassBody c → RegexBody v → RegexBody (c!"[" :: (c ++ c!"]" :: v))
  | char (b : UInt8) (v : Bytes) : b ≠ c!"\\" → b ≠ c!"/" → b ≠ c!"[" → RegexBody v →
      RegexBody (b :: v)

end Jsparse.Spec
