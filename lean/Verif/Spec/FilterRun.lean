import Verif.Model.FilterRun

/-!
# What it means that goroutines with filters do not disturb each other
-/

namespace Kagome.Spec

open Kagome

/-- The tokens in `n` cells from `a` on. -/
def tokensAt (m : Cells) (a n : Nat) : List Token := (List.range n).map (fun j => m (a + j))

/-- A goroutine that changes no token. -/
def OnlyLooks {σ : Type} (us : List (FilterUse σ)) : Prop := ∀ u ∈ us, ∃ visit, u = .look visit

/-- Slices may have cells in common only if both goroutines change no token. -/
def Separate {σ : Type} (js : List (FilterJob σ)) : Prop :=
  ∀ (k l : Nat) (c d : FilterJob σ), js[k]? = some c → js[l]? = some d → k ≠ l →
    (c.base + c.len ≤ d.base ∨ d.base + d.len ≤ c.base) ∨ (OnlyLooks c.uses ∧ OnlyLooks d.uses)

/-- What one goroutine alone gets, that calls `Drop` and `Keep` (C29) one after the other with the first `n` cells of an array, or goes
through their tokens. -/
def oneByOne {σ : Type} : List (FilterUse σ) → σ → List Token → Nat → Option (List Token × Nat × σ)
  | [], s, arr, n => some (arr, n, s)
  | .filter hit drop :: us, s, arr, n =>
    match applyFilter hit drop s (some (arr, n)) with
    | some (some (arr, n), s) => oneByOne us s arr n
    | _ => none
  | .look visit :: us, s, arr, n =>
    match (arr.take n).foldlM visit s with
    | some s => oneByOne us s arr n
    | none => none

/-- Match functions without a state, and without panics. -/
def plainUse (hit : Token → Bool) (drop : Bool) : FilterUse Unit := .filter (fun _ t => some (hit t, ())) drop

/-- A token stays if every `Keep` matches it and no `Drop` does. -/
def staysIn (us : List ((Token → Bool) × Bool)) (t : Token) : Bool := us.all (fun u => u.1 t != u.2)

end Kagome.Spec
