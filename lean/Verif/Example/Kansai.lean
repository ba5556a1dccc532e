import Verif.Example.Toy

/-! A dictionary with a long word and its parts. -/

namespace Kagome.Kansai

open Kagome Spec

def keys : List String := ["関西", "国際", "空港", "関西国際空港"]

def dict : Dict := { Toy.dict with
  morphs := [⟨1, 1, 3000⟩, ⟨1, 1, 3000⟩, ⟨1, 1, 3000⟩, ⟨1, 1, 4000⟩]
  poss := [[0], [0], [0], [0]]
  contents := some [[str "関西"], [str "国際"], [str "空港"], [str "関西国際空港"]]
  prefixSearch := Toy.searchFrom 0 keys }

theorem wellFormed : WellFormed dict none where
  known_hit := by
    intro s id l h
    obtain ⟨a, b, c, _, e⟩ := Toy.searchFrom_hit (by decide) h
    exact ⟨a, b, c, by simpa [keys, dict] using e⟩
  user_hit := by intro ud h; cases h
  group_flag := Toy.wellFormed.group_flag
  invoke_flag := Toy.wellFormed.invoke_flag
  unk_entry := Toy.wellFormed.unk_entry
  conn := by
    have h : ∀ a ∈ Morph.zero :: dict.morphs ++ dict.unk.morphs, ∀ b ∈ Morph.zero :: dict.morphs ++ dict.unk.morphs,
        (dict.connection a.right.toInt b.left.toInt).isSome = true := by decide
    exact fun a b ha hb => h a ha b hb

def tok : Tokenizer := ⟨dict, none, false⟩

end Kagome.Kansai
