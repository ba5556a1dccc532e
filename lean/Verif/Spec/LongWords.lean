import Verif.Spec.Tokens

/-! The words Search mode tries to avoid. -/

namespace Kagome.Spec

open Kagome

/-- More than two characters, all of them ideographs, or more than seven characters. -/
def LongWord (ideo : Nat → Bool) (s : Bytes) : Prop :=
  (2 < runeCount s ∧ ∀ r ∈ runes s, ideo r.1 = true) ∨ 7 < runeCount s

/-- 3000 for every ideograph beyond two in words of ideographs only, 1700 for every character beyond seven in others. -/
def surplus (ideo : Nat → Bool) (toks : List Token) : Int := ((inner toks).map (fun tok => penalty ideo (wordOfToken tok))).sum

end Kagome.Spec
