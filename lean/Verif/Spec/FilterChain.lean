import Verif.Spec.Filter
import Verif.Model.Filter

/-! Several filters applied one after the other to the same slice of tokens, and what that is meant to leave. -/

namespace Kagome.Spec

open Kagome

/-- One call of a filter on a slice of tokens. -/
inductive FilterCall
  /-- `NewWordFilter(words).Drop(&tokens)` -/
  | wordDrop (words : List Bytes)
  /-- `NewWordFilter(words).Keep(&tokens)` -/
  | wordKeep (words : List Bytes)
  /-- `NewPOSFilter(patterns...).Drop(&tokens)` -/
  | posDrop (patterns : List (List Bytes))
  /-- `NewPOSFilter(patterns...).Keep(&tokens)` -/
  | posKeep (patterns : List (List Bytes))

/-- The caller's program: the calls in order, each on the slice the one before has left; `none` if one of them panics. -/
def runFilters : List FilterCall → List Token × Nat → Option (List Token × Nat)
  | [], s => some s
  | c :: cs, s =>
    let r := match c with
      | .wordDrop ws => Kagome.wordDrop (newWordFilter ws) (some s)
      | .wordKeep ws => Kagome.wordKeep (newWordFilter ws) (some s)
      | .posDrop ps => Kagome.posDrop (newFeaturesFilter ps) (some s)
      | .posKeep ps => Kagome.posKeep (newFeaturesFilter ps) (some s)
    match r with
    | some (some s') => runFilters cs s'
    | _ => none

/-- Whether a token with this surface and POS stays through a call: a matter of the token and the words or patterns alone. -/
def Stays (surface : Bytes) (pos : List Bytes) : FilterCall → Prop
  | .wordDrop ws => surface ∉ ws
  | .wordKeep ws => surface ∈ ws
  | .posDrop ps => ¬ Accepts ps pos
  | .posKeep ps => Accepts ps pos

end Kagome.Spec
