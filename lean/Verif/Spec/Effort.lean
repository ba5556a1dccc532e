import Verif.Spec.Words

/-! Dictionaries with bounded answers. -/

namespace Kagome.Spec

open Kagome

/-- At no place the dictionaries offer more than `hits` words, and no character category has more than `entries` unknown-word entries. (Every
dictionary has such bounds: it has finitely many words.) -/
structure Answers (d : Dict) (u : Option UserDict) (hits entries : Nat) : Prop where
  known : ∀ s, (d.prefixSearch s).length ≤ hits
  user : ∀ s, (userEntries u s).length ≤ hits
  unknown : ∀ r, (d.unk.indexDup (d.category r) + 1).toNat ≤ entries

end Kagome.Spec
