import Verif.Spec.Tokens

/-! Costs in another unit, or charged in another place. -/

namespace Kagome.Spec

open Kagome

/-- The entries of `l'` are those of `l`; costs are multiplied by `k`, and of an entry with the left id `x` and the right id `y`, `before x + after y` of the
cost has gone. -/
def Rescaled (l l' : List Morph) (k : Int) (before after : Int → Int) : Prop :=
  l'.length = l.length ∧ ∀ (i : Nat) m m', l[i]? = some m → l'[i]? = some m' →
    m'.left = m.left ∧ m'.right = m.right ∧ m'.weight.toInt = k * m.weight.toInt - before m.left.toInt - after m.right.toInt

/-- `t'` is `t` with other costs. The unit is another one (`k`), and parts of the costs of words are charged with the connections instead: `after y` with every
connection from the right id `y`, `before x` with every connection to the left id `x`. -/
structure Repriced (t t' : Tokenizer) (k : Int) (before after : Int → Int) : Prop where
  search : t'.dict.prefixSearch = t.dict.prefixSearch
  user : t'.userDict = t.userDict
  category : t'.dict.category = t.dict.category
  invoke : t'.dict.invokeList = t.dict.invokeList
  group : t'.dict.groupList = t.dict.groupList
  unkIndex : t'.dict.unk.index = t.dict.unk.index
  unkDup : t'.dict.unk.indexDup = t.dict.unk.indexDup
  known : Rescaled t.dict.morphs t'.dict.morphs k before after
  unknown : Rescaled t.dict.unk.morphs t'.dict.unk.morphs k before after
  connection : ∀ y x, (t'.dict.connection y x).map Int16.toInt = (t.dict.connection y x).map (fun c => k * c.toInt + after y + before x)

end Kagome.Spec
