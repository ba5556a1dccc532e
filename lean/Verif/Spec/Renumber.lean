import Verif.Spec.Tokens

/-! When two sets of dictionaries have the same to say about a text. -/

namespace Kagome.Spec

open Kagome

/-- The texts that begin at a character of `inp` and go to its end. -/
def tails (inp : Bytes) : List Bytes := (rangeString inp).map (fun p => inp.drop p.1)

/-- The new number of an entry: `f` for the system dictionary, `g` for the user dictionary; other words keep theirs. -/
def newId (f g : Nat → Nat) : NodeClass → Int → Int
  | .known, .ofNat n => f n
  | .user, .ofNat n => g n
  | _, i => i

/-- The dictionaries of `t'` answer as those of `t` wherever `inp` makes the tokenizer look, with entries renumbered by `f` and `g`. Both may have
any other entries besides. -/
structure SameAnswers (t t' : Tokenizer) (inp : Bytes) (f g : Nat → Nat) : Prop where
  known : ∀ s ∈ tails inp, t'.dict.prefixSearch s = (t.dict.prefixSearch s).map (fun h => (f h.1, h.2))
  user : ∀ s ∈ tails inp, userEntries t'.userDict s = (userEntries t.userDict s).map (fun h => (g h.1, h.2))
  morph : ∀ s ∈ tails inp, ∀ h ∈ t.dict.prefixSearch s, t'.dict.morphs[f h.1]? = t.dict.morphs[h.1]?
  connection : t'.dict.connection = t.dict.connection
  category : t'.dict.category = t.dict.category
  invoke : t'.dict.invokeList = t.dict.invokeList
  group : t'.dict.groupList = t.dict.groupList
  unk : t'.dict.unk = t.dict.unk
  omitted : t'.omitBosEos = t.omitBosEos

/-- And the entries found have the same features. -/
structure SameEntries (t t' : Tokenizer) (inp : Bytes) (f g : Nat → Nat) : Prop where
  names : t'.dict.nameList = t.dict.nameList
  keys : t'.dict.contentsMeta = t.dict.contentsMeta
  hasContents : t'.dict.contents.isSome = t.dict.contents.isSome
  contents : ∀ s ∈ tails inp, ∀ h ∈ t.dict.prefixSearch s, (t'.dict.contents.getD [])[f h.1]? = (t.dict.contents.getD [])[h.1]?
  poss : ∀ s ∈ tails inp, ∀ h ∈ t.dict.prefixSearch s, t'.dict.poss[f h.1]? = t.dict.poss[h.1]?
  user : ∀ s ∈ tails inp, ∀ h ∈ userEntries t.userDict s, ∀ u u', t.userDict = some u → t'.userDict = some u' →
    u'.contents[g h.1]? = u.contents[h.1]?

/-- The token with the new number and the other dictionaries. -/
def renumberToken (f g : Nat → Nat) (t' : Tokenizer) (tok : Token) : Token :=
  { tok with id := newId f g tok.cls tok.id, dict := some t'.dict, udict := t'.userDict }

end Kagome.Spec
