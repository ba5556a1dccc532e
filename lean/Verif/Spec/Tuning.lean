import Verif.Spec.Tokens

/-! Changed costs. -/

namespace Kagome.Spec

open Kagome

/-- The entries of `l'` are those of `l`, and those that `K` marks cost `δ` less. -/
def Lowered (l l' : List Morph) (K : Nat → Bool) (δ : Int) : Prop :=
  l'.length = l.length ∧ ∀ (i : Nat) m m', l[i]? = some m → l'[i]? = some m' →
    m'.left = m.left ∧ m'.right = m.right ∧ m'.weight.toInt = m.weight.toInt - (if K i = true then δ else 0)

/-- `t'` is `t` with other costs: the entries of the system dictionary marked by `K`, those for unknown words marked by `U` and the connections marked by `P`
cost `δ` less. -/
structure Retuned (t t' : Tokenizer) (K U : Nat → Bool) (P : Int → Int → Bool) (δ : Int) : Prop where
  search : t'.dict.prefixSearch = t.dict.prefixSearch
  user : t'.userDict = t.userDict
  category : t'.dict.category = t.dict.category
  invoke : t'.dict.invokeList = t.dict.invokeList
  group : t'.dict.groupList = t.dict.groupList
  unkIndex : t'.dict.unk.index = t.dict.unk.index
  unkDup : t'.dict.unk.indexDup = t.dict.unk.indexDup
  known : Lowered t.dict.morphs t'.dict.morphs K δ
  unknown : Lowered t.dict.unk.morphs t'.dict.unk.morphs U δ
  connection : ∀ x y, (t'.dict.connection x y).map Int16.toInt = (t.dict.connection x y).map (fun c => c.toInt - (if P x y = true then δ else 0))

/-- Nothing is marked. -/
def noEntry : Nat → Bool := fun _ => false
def noPair : Int → Int → Bool := fun _ _ => false

/-- Whether a word has a marked entry. -/
def marked (K U : Nat → Bool) (w : Word) : Bool :=
  match w.cls with
  | .known => K w.id.toNat
  | .unknown => U w.id.toNat
  | _ => false

/-- Whether the connection between two words is marked (next to a user word there is none). -/
def joined (d : Dict) (P : Int → Int → Bool) (a b : Word) : Bool :=
  a.cls ≠ .user && b.cls ≠ .user && P (morphOfWord d a).right.toInt (morphOfWord d b).left.toInt

/-- The number of marked connections in a sequence of words. -/
def joints (d : Dict) (P : Int → Int → Bool) : List Word → Nat
  | a :: b :: ws => (if joined d P a b = true then 1 else 0) + joints d P (b :: ws)
  | _ => 0

end Kagome.Spec
