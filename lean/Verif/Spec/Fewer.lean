import Verif.Spec.Renumber

/-! A tokenizer with fewer words, or dearer ones. -/

namespace Kagome.Spec

open Kagome

/-- As far as `inp` makes the tokenizers look, the dictionaries of `t'` are those of `t` without the entries that `keep` (system dictionary) and
`keepUser` (user dictionary) refuse; of the entries left some may cost more. No place of the text loses its last entry in such a way that words of
another kind come in there: words of the system dictionary where there was one of the user dictionary, unknown words where there were none. -/
structure Fewer (t t' : Tokenizer) (inp : Bytes) (keep keepUser : Nat → Bool) : Prop where
  known : ∀ s ∈ tails inp, t'.dict.prefixSearch s = (t.dict.prefixSearch s).filter (fun h => keep h.1)
  user : ∀ s ∈ tails inp, userEntries t'.userDict s = (userEntries t.userDict s).filter (fun h => keepUser h.1)
  morph : ∀ s ∈ tails inp, ∀ h ∈ t'.dict.prefixSearch s, ∀ m, t.dict.morphs[h.1]? = some m →
    ∃ m', t'.dict.morphs[h.1]? = some m' ∧ m'.left = m.left ∧ m'.right = m.right ∧ m.weight.toInt ≤ m'.weight.toInt
  connection : t'.dict.connection = t.dict.connection
  category : t'.dict.category = t.dict.category
  invoke : t'.dict.invokeList = t.dict.invokeList
  group : t'.dict.groupList = t.dict.groupList
  unk : t'.dict.unk = t.dict.unk
  omitted : t'.omitBosEos = t.omitBosEos
  user_left : ∀ s ∈ tails inp, userEntries t.userDict s ≠ [] → userEntries t'.userDict s ≠ []
  known_left : ∀ s ∈ tails inp, userEntries t.userDict s = [] → t.dict.prefixSearch s ≠ [] →
    t'.dict.prefixSearch s ≠ [] ∨ t.dict.invokeList[t.dict.category (firstChar s)]? = some true

/-- The words of a result are still there in `t'`, at the old cost. -/
def StillThere (t t' : Tokenizer) (keep keepUser : Nat → Bool) (toks : List Token) : Prop :=
  ∀ tok ∈ toks, ∀ i : Nat, tok.id = i →
    (tok.cls = .known → keep i = true ∧ t'.dict.morphs[i]? = t.dict.morphs[i]?) ∧ (tok.cls = .user → keepUser i = true)

/-- A token without the pointers to the dictionaries. -/
def bare (tok : Token) : Token := { tok with dict := none, udict := none }

end Kagome.Spec
