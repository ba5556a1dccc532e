import Verif.Props.Segmentation

/-! What `WellFormed` keeps out: dictionary keys that are empty or end inside a character. With them the guarantees on the analysis
(C01 and C02) are lost. -/

namespace Kagome

open Spec

/-- The toy dictionary with one more entry of weight -1000, whose key is empty: it is found before every の. -/
def emptyKey : Tokenizer :=
  ⟨{ Toy.dict with
      morphs := Toy.dict.morphs ++ [⟨1, 1, -1000⟩]
      prefixSearch := fun s => (if str "の" <+: s then [(8, 0)] else []) ++ Toy.dict.prefixSearch s }, none, false⟩

/-- The lattice of もの over that dictionary: the node of the empty key (column 1, index 1) has itself as the predecessor of least
cost, and the best path runs into it. -/
theorem emptyKey_lattice : ∃ cols cols', build emptyKey.dict none (str "もの") = some cols ∧ forward emptyKey.dict Toy.ideo .normal cols = some cols' ∧
    cols'.length = 4 ∧ (getNode cols' 3 0).map (·.prev) = some (some (2, 0)) ∧ (getNode cols' 2 0).map (·.prev) = some (some (1, 1)) ∧
    (getNode cols' 1 1).map (·.prev) = some (some (1, 1)) := by
  have h : ((build emptyKey.dict none (str "もの")).bind (fun cols => (forward emptyKey.dict Toy.ideo .normal cols).map (fun cols' =>
      (cols'.length, [(getNode cols' 3 0).map (·.prev), (getNode cols' 2 0).map (·.prev), (getNode cols' 1 1).map (·.prev)])))) =
      some (4, [some (some (2, 0)), some (some (1, 1)), some (some (1, 1))]) := by decide +kernel
  cases hb : build emptyKey.dict none (str "もの") with
  | none => rw [hb] at h; cases h
  | some cols =>
    rw [hb] at h
    cases hf : forward emptyKey.dict Toy.ideo .normal cols with
    | none => simp [hf] at h
    | some cols' =>
      simp only [Option.bind_some, hf, Option.map_some, Option.some.injEq, Prod.mk.injEq, List.cons.injEq, and_true] at h
      exact ⟨cols, cols', rfl, hf, h.1, h.2.1, h.2.2.1, h.2.2.2⟩

/-- A node that is its own predecessor is never left. -/
theorem walk_self {m : LMode} {cols : Cols} {i j : Nat} (h : (getNode cols i j).map (·.prev) = some (some (i, j))) (fuel : Nat) :
    walk m cols fuel (some (i, j)) = none := by
  obtain ⟨p, hp, e⟩ := Option.map_eq_some_iff.mp h
  induction fuel with
  | zero => rfl
  | succ n ih => rw [walk, hp]; simp only [e, ih]; rfl

/-- C01 needs its hypothesis that keys are not empty: with an empty key in the dictionary the walk of `Backward` from EOS on the
lattice of もの does not come to an end, however many steps it is given. -/
theorem C01_empty_key : ∃ cols cols', build emptyKey.dict none (str "もの") = some cols ∧
    forward emptyKey.dict Toy.ideo .normal cols = some cols' ∧ cols' ≠ [] ∧
    ∀ fuel, walk .normal cols' fuel (some (cols'.length - 1, 0)) = none := by
  obtain ⟨cols, cols', hb, hf, hl, h3, h2, h1⟩ := emptyKey_lattice
  refine ⟨cols, cols', hb, hf, by rintro rfl; simp at hl, ?_⟩
  rw [hl]
  intro fuel
  obtain ⟨p3, g3, e3⟩ := Option.map_eq_some_iff.mp h3
  obtain ⟨p2, g2, e2⟩ := Option.map_eq_some_iff.mp h2
  match fuel with
  | 0 => rfl
  | 1 => rw [walk, show 4 - 1 = 3 from rfl, g3]; simp only [e3]; rfl
  | n + 2 =>
    rw [walk, show 4 - 1 = 3 from rfl, g3]
    simp only [e3]
    rw [walk, g2]
    simp only [e2, walk_self h1 n]
    rfl

/-- The toy dictionary whose entry も is found under the first byte of もも and of も alone. -/
def brokenKey : Tokenizer :=
  ⟨{ Toy.dict with prefixSearch := fun s => if str "も" <+: s then [(3, 1)] else [] }, none, false⟩

/-- C02 needs its hypothesis that keys are whole characters: the tokens of もも are two broken bytes, four bytes of the text are in no
token. -/
theorem C02_broken_key : ∃ toks, analyze brokenKey Toy.ideo (str "もも") modeNormal = some toks ∧
    (inner toks).map (fun tok => tok.surface) = [[0xE3], [0xE3]] := by
  have h : ((analyze brokenKey Toy.ideo (str "もも") modeNormal).map (fun toks => (inner toks).map (fun tok => tok.surface))) =
      some [[0xE3], [0xE3]] := by decide +kernel
  cases ha : analyze brokenKey Toy.ideo (str "もも") modeNormal with
  | none => rw [ha] at h; cases h
  | some toks => rw [ha] at h; exact ⟨toks, rfl, by simpa using h⟩

end Kagome
