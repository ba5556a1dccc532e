import Verif.Spec.Words

/-! Which of several cheapest analyses is taken. -/

namespace Kagome.Spec

open Kagome

/-- The unknown words of one entry at the beginning of `s`, in the order in which they are tried: the longest word without its last character
(unless that is U+FFFD), the longest word. -/
def unknownOffers (d : Dict) (s : Bytes) (id : Int) : List Word :=
  (if 2 ≤ unknownLength d s ∧ ((runes s)[unknownLength d s - 1]?).map Prod.fst ≠ some 0xFFFD then
    [⟨.unknown, id, firstChars s (unknownLength d s - 1)⟩] else []) ++
  [⟨.unknown, id, firstChars s (unknownLength d s)⟩]

/-- The words that may stand at the beginning of `s` (the `Candidate`s), in the order of the dictionaries: those of the user dictionary if there
are any, otherwise those of the system dictionary and then the unknown words, entry by entry. -/
def offers (d : Dict) (u : Option UserDict) (s : Bytes) : List Word :=
  if userEntries u s ≠ [] then (userEntries u s).map (fun h => ⟨.user, h.1, s.take h.2⟩)
  else
    (d.prefixSearch s).map (fun h => ⟨.known, h.1, s.take h.2⟩) ++
    (if d.prefixSearch s = [] ∨ d.invokeList[d.category (firstChar s)]? = some true then
      (List.range (d.unk.indexDup (d.category (firstChar s)) + 1).toNat).flatMap
        (fun (x : Nat) => unknownOffers d s (d.unk.index (d.category (firstChar s)) + (x : Int)))
    else [])

/-- The text of a list of words. -/
def textOf (ws : List Word) : Bytes := (ws.map (·.surface)).flatten

/-- Read from the end of the text, the first difference between `ws` and `ws'` is in favour of `ws`: it has the longer word there, or an equally long
word that the dictionaries offer earlier. -/
def Preferred (d : Dict) (u : Option UserDict) (ws ws' : List Word) : Prop :=
  ∃ a w a' w' tail, ws = a ++ w :: tail ∧ ws' = a' ++ w' :: tail ∧
    (runeCount w'.surface < runeCount w.surface ∨
     (w'.surface = w.surface ∧
      (offers d u (w.surface ++ textOf tail)).idxOf w < (offers d u (w.surface ++ textOf tail)).idxOf w'))

/-- Every other analysis of the text costs more, or as much and `ws` is preferred. -/
def Chosen (d : Dict) (u : Option UserDict) (ideo : Nat → Bool) (m : LMode) (inp : Bytes) (ws : List Word) : Prop :=
  Analysis d u inp ws ∧ ∀ ws', Analysis d u inp ws' → ws' ≠ ws →
    cost d ideo m ws < cost d ideo m ws' ∨ (cost d ideo m ws = cost d ideo m ws' ∧ Preferred d u ws ws')

end Kagome.Spec
