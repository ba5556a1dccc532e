import Verif.Spec.Tokens
import Verif.Proof.Utf8

/-! A small dictionary, used to show that the hypotheses of the theorems can be met and what the results look like. -/

namespace Kagome.Toy

open Kagome Spec

/-- All keys that the text starts with. -/
def searchFrom : Nat → List String → Bytes → List (Nat × Nat)
  | _, [], _ => []
  | i, k :: ks, s => (if str k <+: s then [(i, (str k).length)] else []) ++ searchFrom (i + 1) ks s

theorem searchFrom_hit {i : Nat} {ks : List String} {s : Bytes} {id l : Nat} (hk : ∀ k ∈ ks, str k ≠ [])
    (h : (id, l) ∈ searchFrom i ks s) : 1 ≤ l ∧ l ≤ s.length ∧ ValidUtf8 (s.take l) ∧ i ≤ id ∧ id < i + ks.length := by
  induction ks generalizing i with
  | nil => simp [searchFrom] at h
  | cons k ks ih =>
    simp only [searchFrom, List.mem_append] at h
    rcases h with h | h
    · split at h
      · rename_i hp
        simp only [List.mem_singleton, Prod.mk.injEq] at h
        obtain ⟨rfl, rfl⟩ := h
        have h1 := List.length_pos_iff.mpr (hk k (by simp))
        have h2 := hp.length_le
        refine ⟨by omega, h2, ⟨k.toList, ?_⟩, by omega, by simp⟩
        exact (List.prefix_iff_eq_take.mp hp).symm
      · simp at h
    · obtain ⟨a, b, c, d, e⟩ := ih (fun k hk' => hk k (by simp [hk'])) h
      exact ⟨a, b, c, by omega, by simp; omega⟩

def keys : List String := ["す", "すもも", "もも", "も", "の", "うち", "東", "京"]

/-- 0 default (grouping), 1 alphabet (grouping, always invoked), 2 hiragana, 3 kanji. -/
def category (r : Nat) : Nat :=
  if (0x41 ≤ r ∧ r ≤ 0x5A) ∨ (0x61 ≤ r ∧ r ≤ 0x7A) then 1
  else if 0x3041 ≤ r ∧ r ≤ 0x3096 then 2
  else if 0x4E00 ≤ r ∧ r ≤ 0x9FFF then 3
  else 0

/-- Costs between the connection classes 0 (boundary), 1 (noun), 2 (particle). -/
def connection (x y : Int) : Option Int16 :=
  if 0 ≤ x ∧ x ≤ 2 ∧ 0 ≤ y ∧ y ≤ 2 then
    some (if x = 1 ∧ y = 1 then 500 else if x = 2 ∧ y = 2 then 1500 else if x = 1 ∧ y = 2 then -200 else 0)
  else none

def unk : UnkDict where
  morphs := [⟨1, 1, 8000⟩, ⟨1, 1, 5000⟩, ⟨2, 2, 9000⟩, ⟨1, 1, 10000⟩, ⟨1, 1, 11000⟩]
  index := fun c => if c = 0 then 0 else if c = 1 then 1 else if c = 2 then 3 else if c = 3 then 4 else 0
  indexDup := fun c => if c = 1 then 1 else 0
  contentsMeta := fun k => if k = str "_pos_start" then some 0 else if k = str "_pos_hierarchy" then some 1 else none
  contents := [[str "記号"], [str "名詞"], [str "感動詞"], [str "助詞"], [str "名詞"]]

def dict : Dict where
  morphs := [⟨1, 1, 9000⟩, ⟨1, 1, 6000⟩, ⟨1, 1, 5000⟩, ⟨2, 2, 3000⟩, ⟨2, 2, 2500⟩, ⟨1, 1, 5500⟩, ⟨1, 1, 7000⟩, ⟨1, 1, 7000⟩]
  poss := [[0], [0], [0], [1, 2], [1, 3], [0], [0], [0]]
  nameList := [str "名詞", str "助詞", str "係助詞", str "連体化"]
  contentsMeta := fun k => if k = str "_base" then some 1 else none
  contents := some [[str "す"], [str "すもも"], [str "もも"], [str "も"], [str "の"], [str "うち"], [str "東"], [str "京"]]
  connection := connection
  prefixSearch := searchFrom 0 keys
  category := category
  invokeList := [false, true, false, false]
  groupList := [true, true, false, false]
  unk := unk

def user : UserDict where
  prefixSearch := searchFrom 0 ["東京"]
  contents := [⟨[str "東京"], [str "トウキョウ"], str "カスタム"⟩]

theorem category_lt (r : Nat) : category r < 4 := by
  unfold category; (repeat' split) <;> omega

theorem wellFormed : WellFormed dict (some user) where
  known_hit := by
    intro s id l h
    obtain ⟨a, b, c, _, e⟩ := searchFrom_hit (by decide) h
    exact ⟨a, b, c, by simpa [keys, dict] using e⟩
  user_hit := by
    intro ud hu s id l h
    simp only [Option.some.injEq] at hu
    subst hu
    obtain ⟨a, b, c, _, e⟩ := searchFrom_hit (by decide) h
    exact ⟨a, b, c, by simpa [user] using e⟩
  group_flag := category_lt
  invoke_flag := category_lt
  unk_entry := by
    intro r
    have h := category_lt r
    change 0 ≤ unk.index (category r) ∧ 0 ≤ unk.indexDup (category r) ∧ unk.index (category r) + unk.indexDup (category r) < 5
    generalize category r = c at h
    have hc : c = 0 ∨ c = 1 ∨ c = 2 ∨ c = 3 := by omega
    rcases hc with rfl | rfl | rfl | rfl <;> decide
  conn := by
    have h : ∀ a ∈ Morph.zero :: dict.morphs ++ dict.unk.morphs, ∀ b ∈ Morph.zero :: dict.morphs ++ dict.unk.morphs,
        (dict.connection a.right.toInt b.left.toInt).isSome = true := by decide
    exact fun a b ha hb => h a ha b hb

theorem wellFormed_none : WellFormed dict none where
  known_hit := wellFormed.known_hit
  user_hit := by intro ud h; cases h
  group_flag := wellFormed.group_flag
  invoke_flag := wellFormed.invoke_flag
  unk_entry := wellFormed.unk_entry
  conn := wellFormed.conn

theorem replacementOk (inp : Bytes) : ReplacementOk dict inp := Or.inl rfl

/-- Whether a character is an ideograph. -/
def ideo (r : Nat) : Bool := 0x4E00 ≤ r ∧ r ≤ 0x9FFF

def tok : Tokenizer := ⟨dict, none, false⟩
def tokUser : Tokenizer := ⟨dict, some user, false⟩

end Kagome.Toy
