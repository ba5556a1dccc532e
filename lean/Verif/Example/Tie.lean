import Verif.Example.Toy

/-! A dictionary in which several analyses of a text cost the same. -/

namespace Kagome.Tie

open Kagome Spec

def keys : List String := ["a", "ab", "bc", "bc", "c"]

def dict : Dict := { Toy.dict with
  morphs := [⟨1, 1, 100⟩, ⟨1, 1, 100⟩, ⟨1, 1, 100⟩, ⟨1, 1, 100⟩, ⟨1, 1, 100⟩]
  poss := [[0], [0], [0], [0], [0]]
  contents := none
  connection := fun _ _ => some 0
  prefixSearch := Toy.searchFrom 0 keys }

theorem wellFormed : WellFormed dict none where
  known_hit := by
    intro s id l h
    obtain ⟨a, b, c, _, e⟩ := Toy.searchFrom_hit (by decide) h
    exact ⟨a, b, c, by simpa [keys, dict] using e⟩
  user_hit := by intro ud h; cases h
  group_flag := Toy.wellFormed.group_flag
  invoke_flag := Toy.wellFormed.invoke_flag
  unk_entry := Toy.wellFormed.unk_entry
  conn := by intros; rfl

def tok : Tokenizer := ⟨dict, none, false⟩

end Kagome.Tie
