import Verif.Spec.Choice

/-! Two texts that begin alike. -/

namespace Kagome.Spec

open Kagome

/-- Whether `s` or `s'` follows the text `p`, everywhere in `p` the dictionaries offer the same words that end within `p`, in the same order. -/
def SameWithin (d : Dict) (u : Option UserDict) (p s s' : Bytes) : Prop :=
  ∀ x y, p = x ++ y → y ≠ [] →
    (offers d u (y ++ s)).filter (fun w => decide (w.surface.length ≤ y.length)) =
      (offers d u (y ++ s')).filter (fun w => decide (w.surface.length ≤ y.length))

/-- The dictionaries look words up by the text they consist of: what comes after a word plays no role. -/
def ByPrefix (d : Dict) (u : Option UserDict) : Prop :=
  ∀ y s, (d.prefixSearch (y ++ s)).filter (fun h => decide (h.2 ≤ y.length)) = d.prefixSearch y ∧
    (userEntries u (y ++ s)).filter (fun h => decide (h.2 ≤ y.length)) = userEntries u y

/-- No word that the dictionaries offer within `p` reaches into `s`, which follows. -/
def NoneCross (d : Dict) (u : Option UserDict) (p s : Bytes) : Prop :=
  ∀ x y, p = x ++ y → y ≠ [] → ∀ w ∈ offers d u (y ++ s), w.surface.length ≤ y.length

end Kagome.Spec
