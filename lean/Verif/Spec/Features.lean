import Verif.Spec.Tokens

/-! Which features a token should have, stated over the dictionary tables. -/

namespace Kagome.Spec

open Kagome

/-- The feature tables of a dictionary fit its morph tables (true of every dictionary built by `kagome-dict`): every morph has
a list of POS ids, every POS id has a name, the contents are either absent or there for every morph, and the POS features of
unknown words do not start before the first feature. -/
structure FeatureTables (d : Dict) : Prop where
  poss : d.morphs.length ≤ d.poss.length
  names : ∀ ids ∈ d.poss, ∀ i ∈ ids, i < d.nameList.length
  contents : ∀ cs, d.contents = some cs → d.morphs.length ≤ cs.length
  unk : d.unk.morphs.length ≤ d.unk.contents.length
  pos_start : ∀ v, d.unk.contentsMeta (str "_pos_start") = some v → 0 ≤ v.toInt

/-- The features of a token: for a known word the names of its POS ids followed by its contents (if the dictionary has any), for an
unknown word the contents of its entry, for a user word the POS, the segmentation and the reading of its entry, each joined with
slashes. Other tokens have none. -/
inductive HasFeatures (t : Token) : List Bytes → Prop
  | known (d : Dict) (n : Nat) (ids : List Nat) (names c : List Bytes) : t.cls = .known → t.dict = some d → t.id = n →
      d.poss[n]? = some ids → names.length = ids.length → (∀ (k i : Nat), ids[k]? = some i → names[k]? = d.nameList[i]? ∧ i < d.nameList.length) →
      (d.contents = none ∧ c = [] ∨ ∃ cs, d.contents = some cs ∧ cs[n]? = some c) → HasFeatures t (names ++ c)
  | unknown (d : Dict) (n : Nat) (c : List Bytes) : t.cls = .unknown → t.dict = some d → t.id = n →
      d.unk.contents[n]? = some c → HasFeatures t c
  | user (u : UserDict) (n : Nat) (c : UserContent) : t.cls = .user → t.udict = some u → t.id = n → u.contents[n]? = some c →
      HasFeatures t [c.pos, join (str "/") c.tokens, join (str "/") c.yomi]
  | dummy : t.cls = .dummy → HasFeatures t []

/-- A token whose id is in range of the tables of its source. -/
def InRange (t : Token) : Prop :=
  match t.cls with
  | .known => ∃ (d : Dict) (n : Nat), t.dict = some d ∧ t.id = n ∧ FeatureTables d ∧ n < d.morphs.length
  | .unknown => ∃ (d : Dict) (n : Nat), t.dict = some d ∧ t.id = n ∧ FeatureTables d ∧ n < d.unk.morphs.length
  | .user => ∃ (u : UserDict) (n : Nat), t.udict = some u ∧ t.id = n ∧ n < u.contents.length
  | .dummy => True

/-- What indexing a list by an arbitrary integer should give. -/
def at? (fs : List Bytes) (i : Int) : Bytes × Bool :=
  if h : 0 ≤ i ∧ i.toNat < fs.length then (fs[i.toNat]'h.2, true) else ([], false)

/-- The metadata map of the source of a token: none for user words and dummies. -/
def metaOf (t : Token) (key : Bytes) : Option Int8 :=
  match t.cls with
  | .known => t.dict.bind (fun d => d.contentsMeta key)
  | .unknown => t.dict.bind (fun d => d.unk.contentsMeta key)
  | _ => none

/-- The five named features. -/
inductive Named | inflectionalType | inflectionalForm | baseForm | reading | pronunciation
deriving DecidableEq, Repr

/-- Their keys in the metadata. -/
def Named.key : Named → Bytes
  | .inflectionalType => str "_inflectional_type"
  | .inflectionalForm => str "_inflectional_form"
  | .baseForm => str "_base"
  | .reading => str "_reading"
  | .pronunciation => str "_pronunciation"

end Kagome.Spec
