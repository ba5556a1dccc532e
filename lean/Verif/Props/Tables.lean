import Verif.Spec.Tables
import Verif.Props.Segmentation

/-! C73: any list of words makes a working dictionary. -/

namespace Kagome

open Spec

theorem utf8_nil {w : List Char} (h : utf8 w = []) : w = [] := by
  cases w with
  | nil => rfl
  | cons c w =>
    simp only [utf8, List.flatMap_cons, List.append_eq_nil_iff] at h
    have := String.length_utf8EncodeChar c
    have hp := Char.utf8Size_pos c
    rw [h.1] at this
    simp at this
    omega

theorem startingWords_hit {s : Bytes} {id l : Nat} : ∀ (ws : List (List Char)) (i : Nat), (id, l) ∈ startingWords s i ws →
    ∃ w, i ≤ id ∧ ws[id - i]? = some w ∧ utf8 w <+: s ∧ l = (utf8 w).length := by
  intro ws
  induction ws with
  | nil => intro i h; cases h
  | cons w ws ih =>
    intro i h
    rw [startingWords, List.mem_append] at h
    rcases h with h | h
    · split at h
      · simp only [List.mem_singleton, Prod.mk.injEq] at h
        obtain ⟨rfl, rfl⟩ := h
        exact ⟨w, Nat.le_refl _, by simp, by assumption, rfl⟩
      · cases h
    · obtain ⟨w', h1, h2, h3, h4⟩ := ih (i + 1) h
      refine ⟨w', by omega, ?_, h3, h4⟩
      have : id - i = (id - (i + 1)) + 1 := by omega
      rw [this, List.getElem?_cons_succ, h2]

theorem startingWords_mem {s : Bytes} {w : List Char} (hp : utf8 w <+: s) : ∀ (ws : List (List Char)) (i k : Nat), ws[k]? = some w →
    (i + k, (utf8 w).length) ∈ startingWords s i ws := by
  intro ws
  induction ws with
  | nil => intro i k h; cases h
  | cons v ws ih =>
    intro i k h
    rw [startingWords, List.mem_append]
    cases k with
    | zero =>
      simp only [List.getElem?_cons_zero, Option.some.injEq] at h
      subst h
      left
      rw [if_pos hp]
      simp
    | succ k =>
      right
      have := ih (i + 1) k (by simpa using h)
      rw [show i + (k + 1) = i + 1 + k from by omega]
      exact this

theorem hit_ok {s : Bytes} {id l : Nat} {ws : List (List Char)} (hne : ∀ w ∈ ws, w ≠ []) (h : (id, l) ∈ startingWords s 0 ws) :
    1 ≤ l ∧ l ≤ s.length ∧ ValidUtf8 (s.take l) ∧ id < ws.length := by
  obtain ⟨w, _, h2, h3, rfl⟩ := startingWords_hit ws 0 h
  have hm := List.mem_of_getElem? h2
  have hne' : utf8 w ≠ [] := fun e => hne w hm (utf8_nil e)
  refine ⟨List.length_pos_iff.mpr hne', h3.length_le, ⟨w, (List.prefix_iff_eq_take.mp h3).symm⟩, ?_⟩
  have := (List.getElem?_eq_some_iff.mp h2).1
  simpa using this

theorem take_add_length {l : List CategoryEntry} {c : Nat} {e : CategoryEntry} (h : l[c]? = some e) :
    ((l.take c).flatMap (·.unknowns)).length + e.unknowns.length ≤ (l.flatMap (·.unknowns)).length := by
  obtain ⟨hc, rfl⟩ := List.getElem?_eq_some_iff.mp h
  have hs : l = l.take c ++ l[c] :: l.drop (c + 1) := by
    rw [← List.drop_eq_getElem_cons hc, List.take_append_drop]
  have : l.flatMap (·.unknowns) = (l.take c).flatMap (·.unknowns) ++ (l[c].unknowns ++ (l.drop (c + 1)).flatMap (·.unknowns)) := by
    conv => lhs; rw [hs]
    rw [List.flatMap_append, List.flatMap_cons]
  rw [this]
  simp only [List.length_append]
  omega

/-- C73: dictionaries made of lists that fit together meet the contract the theorems ask for. -/
theorem C73_well_formed {T : Tables} (h : T.Ok) (users : Option (List (List Char × UserContent))) (hu : ∀ l, users = some l → ∀ w ∈ l, w.1 ≠ []) :
    WellFormed T.dict (users.map userTables) where
  known_hit := by
    intro s id l hm
    have := hit_ok (ws := T.words.map (·.1)) (by
      intro w hw
      obtain ⟨x, hx, rfl⟩ := List.mem_map.mp hw
      exact (h.words x hx).1) hm
    simpa [Tables.dict] using this
  user_hit := by
    intro ud he s id l hm
    cases users with
    | none => cases he
    | some us =>
      cases he
      have := hit_ok (ws := us.map (·.1)) (by
        intro w hw
        obtain ⟨x, hx, rfl⟩ := List.mem_map.mp hw
        exact hu us rfl x hx) hm
      simpa [userTables] using this
  group_flag := fun r => by simpa [Tables.dict] using h.category r
  invoke_flag := fun r => by simpa [Tables.dict] using h.category r
  unk_entry := by
    intro r
    have hc := h.category r
    have he := List.getElem?_eq_getElem hc
    have hne := (h.unknowns _ (List.getElem_mem hc)).1
    have hpos := List.length_pos_iff.mpr hne
    have hle := take_add_length he
    simp only [Tables.dict, he]
    omega
  conn := by
    intro a b ha hb
    have hcls : ∀ m, m ∈ Morph.zero :: T.dict.morphs ++ T.dict.unk.morphs → T.Class m.left ∧ T.Class m.right := by
      intro m hm
      simp only [List.cons_append, List.mem_cons, List.mem_append] at hm
      rcases hm with rfl | hm | hm
      · have := List.length_pos_iff.mpr h.matrix.1
        have z : (0 : Int16).toInt = 0 := rfl
        exact ⟨⟨by simp [Morph.zero], by simp [Morph.zero]; omega⟩, ⟨by simp [Morph.zero], by simp [Morph.zero]; omega⟩⟩
      · obtain ⟨x, hx, rfl⟩ := List.mem_map.mp hm
        exact (h.words x hx).2
      · obtain ⟨e, he, hx⟩ := List.mem_flatMap.mp hm
        exact (h.unknowns e he).2 m hx
    have hr := (hcls a ha).2
    have hl := (hcls b hb).1
    simp only [Tables.dict]
    rw [if_pos ⟨hr.1, hl.1⟩]
    have h1 : a.right.toInt.toNat < T.matrix.length := by have := hr.2; have := hr.1; omega
    have hrow := h.matrix.2 _ (List.getElem_mem h1)
    have h2 : b.left.toInt.toNat < (T.matrix[a.right.toInt.toNat]).length := by have := hl.2; have := hl.1; omega
    rw [List.getElem?_eq_getElem h1, Option.bind_some, List.getElem?_eq_getElem h2]
    rfl

theorem analysis_empty {d : Dict} {u : Option UserDict} (wf : WellFormed d u) {s : Bytes} {ws : List Word} (h : Analysis d u s ws) (hs : s = []) : ws = [] := by
  cases h with
  | nil => rfl
  | cons w rest ws hc _ =>
    have h1 := (cand_ok wf hc).cnt
    have h2 : w.surface = [] := (List.append_eq_nil_iff.mp hs).1
    rw [h2] at h1
    exact absurd h1 (by decide)

/-- The entry whose number a prefix search gave. -/
theorem hit_word {α : Type} {s : Bytes} {id l : Nat} {ws : List (List Char × α)} (h : (id, l) ∈ startingWords s 0 (ws.map (·.1))) :
    ∃ w x, ws[id]? = some (w, x) ∧ s.take l = utf8 w := by
  obtain ⟨w, _, h2, h3, rfl⟩ := startingWords_hit _ 0 h
  rw [Nat.sub_zero, List.getElem?_map, Option.map_eq_some_iff] at h2
  obtain ⟨⟨w', x⟩, h4, rfl⟩ := h2
  exact ⟨w', x, h4, (List.prefix_iff_eq_take.mp h3).symm⟩

/-- C73: with any list of words every text is analysed, in every mode; the known tokens are words of the list, under the number they have there, the user tokens
those of the user's list; and (texts of up to 16000 characters, U+FFFD grouping or absent, not in Extended mode) together they are the text. -/
theorem C73_words {T : Tables} (h : T.Ok) (users : Option (List (List Char × UserContent))) (hu : ∀ l, users = some l → ∀ w ∈ l, w.1 ≠ [])
    (om : Bool) (ideo : Nat → Bool) (inp : Bytes) (mode : Int) :
    ∃ toks, analyze ⟨T.dict, users.map userTables, om⟩ ideo inp mode = some toks ∧
      (∀ tok ∈ toks, tok.cls = .known → ∃ w m, T.words[tok.id.toNat]? = some (w, m) ∧ tok.surface = utf8 w) ∧
      (∀ tok ∈ toks, tok.cls = .user → ∃ l w c, users = some l ∧ l[tok.id.toNat]? = some (w, c) ∧ tok.surface = utf8 w) ∧
      (runeCount inp ≤ 16000 → (T.dict.groupList[T.categoryOf 0xFFFD]? = some true ∨ (0xFFFD, 3) ∉ runes inp) → mode ≠ modeExtended →
        (inner toks).flatMap (fun tok => tok.surface) = inp) := by
  have wf := C73_well_formed h users hu
  obtain ⟨toks, ha⟩ := Option.isSome_iff_exists.mp (C01_total (t := ⟨T.dict, users.map userTables, om⟩) wf ideo inp mode).1
  have hbe : ∀ tok ∈ toks, tok.cls = .known ∨ tok.cls = .user → tok.id ≠ -1 := by
    intro tok ht hc hid
    obtain ⟨k, pos, rest, w, _, hw, hcase⟩ := analyze_weak wf ha ht (.inr (by rcases hc with e | e <;> rw [e] <;> decide))
    have hpos := (weak_ok wf hw).id
    rcases hcase with ⟨_, h2, _⟩ | ⟨_, _, _, h4, _⟩
    · omega
    · omega
  refine ⟨toks, ha, ?_, ?_, fun hn hr hm => C02_lossless (t := ⟨T.dict, users.map userTables, om⟩) ⟨wf, hr, fits_short _ hn⟩ hm ha⟩
  · intro tok ht hc
    have hs := (C08_source wf ha ht (hbe tok ht (.inl hc))).2.2.2
    rw [hc] at hs
    obtain ⟨id, l, h1, h2, h3⟩ := hs
    obtain ⟨w, m, h4, h5⟩ := hit_word (ws := T.words) h1
    exact ⟨w, m, by rw [h2]; exact h4, by rw [h3]; exact h5⟩
  · intro tok ht hc
    have hs := (C08_source wf ha ht (hbe tok ht (.inr hc))).2.2.2
    rw [hc] at hs
    obtain ⟨ud, id, l, h0, h1, h2, h3⟩ := hs
    cases users with
    | none => cases h0
    | some us =>
      cases h0
      obtain ⟨w, c, h4, h5⟩ := hit_word (ws := us) h1
      exact ⟨us, w, c, rfl, by rw [h2]; exact h4, by rw [h3]; exact h5⟩

/-- C73: a text that is a word of the user's list, none of whose other words it starts with, is one token of class USER with that text. -/
theorem C73_user_word {T : Tables} (h : T.Ok) {users : List (List Char × UserContent)} (hu : ∀ w ∈ users, w.1 ≠ []) (om : Bool) (ideo : Nat → Bool)
    (mode : Int) {w : List Char} {c : UserContent} (hw : (w, c) ∈ users) (honly : ∀ v ∈ users, utf8 v.1 <+: utf8 w → v.1 = w)
    (hn : runeCount (utf8 w) ≤ 16000) (hr : T.dict.groupList[T.categoryOf 0xFFFD]? = some true ∨ (0xFFFD, 3) ∉ runes (utf8 w)) :
    ∃ toks, analyze ⟨T.dict, some (userTables users), om⟩ ideo (utf8 w) mode = some toks ∧
      ∃ tok, inner toks = [tok] ∧ tok.cls = .user ∧ tok.surface = utf8 w ∧ ∃ c', users[tok.id.toNat]? = some (w, c') := by
  have wf := C73_well_formed h (some users) (fun l e => by cases e; exact hu)
  obtain ⟨toks, ha⟩ := Option.isSome_iff_exists.mp (C01_total (t := ⟨T.dict, some (userTables users), om⟩) wf ideo (utf8 w) mode).1
  refine ⟨toks, ha, ?_⟩
  obtain ⟨ws, hana, hm, _⟩ := C07_minimal_cost (t := ⟨T.dict, some (userTables users), om⟩) ⟨wf, hr, fits_short _ hn⟩ ha
  have hall : ∀ id l, (id, l) ∈ (userTables users).prefixSearch (utf8 w) → (utf8 w).take l = utf8 w ∧ ∃ c', users[id]? = some (w, c') := by
    intro id l hl
    obtain ⟨v, c', h1, h2⟩ := hit_word (ws := users) hl
    have hp : utf8 v <+: utf8 w := by rw [← h2]; exact List.take_prefix _ _
    have := honly _ (List.mem_of_getElem? h1) hp
    simp only at this
    subst this
    exact ⟨h2, c', h1⟩
  have hsome : userEntries (some (userTables users)) (utf8 w) ≠ [] := by
    obtain ⟨k, hk, e⟩ := List.mem_iff_getElem.mp hw
    have := startingWords_mem (s := utf8 w) (w := w) (List.prefix_refl _) (users.map (·.1)) 0 k (by
      rw [List.getElem?_map, List.getElem?_eq_getElem hk, e]; rfl)
    exact List.ne_nil_of_mem this
  have hne : utf8 w ≠ [] := fun e => hu _ hw (utf8_nil e)
  have hfirst : ∃ x, ws = [x] ∧ x.cls = .user ∧ x.surface = utf8 w ∧ ∃ c', users[x.id.toNat]? = some (w, c') := by
    generalize hs : utf8 w = s at *
    cases hana with
    | nil => exact absurd rfl hne
    | cons x rest ws' hc hrest =>
      generalize hsx : x.surface ++ rest = s at *
      have hx : x.cls = .user ∧ x.surface = s ∧ ∃ c', users[x.id.toNat]? = some (w, c') := by
        cases hc with
        | user id l hh => obtain ⟨h1, h2⟩ := hall id l hh; exact ⟨rfl, h1, h2⟩
        | known id l he _ => exact absurd he hsome
        | unknown y v he _ _ _ _ => exact absurd he hsome
      obtain ⟨h1, h2, h3⟩ := hx
      have hr0 : rest = [] := by
        rw [h2] at hsx
        exact List.append_right_eq_self.mp hsx
      have hws : ws' = [] := analysis_empty wf hrest hr0
      subst hws
      exact ⟨x, rfl, h1, h2, h3⟩
  obtain ⟨x, rfl, h1, h2, h3⟩ := hfirst
  have hsp : splitUnknown x = [x] := by unfold splitUnknown; rw [if_neg (by rw [h1]; decide)]
  have hm' : (inner toks).map wordOfToken = [x] := by
    rw [hm]
    split
    · simp [hsp]
    · rfl
  match hin : inner toks, hm' with
  | [tok], hm' =>
    simp only [List.map_cons, List.map_nil, List.cons.injEq, and_true] at hm'
    subst hm'
    exact ⟨tok, rfl, h1, h2, h3⟩

/-! ### Lists that fit together -/

namespace Toy

/-- Two words, two connection classes, and two categories: letters (grouping) and the rest. -/
def tables : Tables where
  words := [(['京'], ⟨1, 1, 3000⟩), (['東', '京'], ⟨1, 1, 4000⟩)]
  matrix := [[0, -100], [200, 300]]
  categories := [⟨false, true, [⟨0, 0, 9000⟩]⟩, ⟨true, true, [⟨1, 1, 5000⟩, ⟨0, 1, 6000⟩]⟩]
  categoryOf := fun r => if 0x61 ≤ r ∧ r ≤ 0x7A then 1 else 0

theorem tables_ok : tables.Ok where
  words := by
    have h : ∀ w ∈ tables.words, w.1 ≠ [] ∧ (0 ≤ w.2.left.toInt ∧ w.2.left.toInt < 2) ∧ (0 ≤ w.2.right.toInt ∧ w.2.right.toInt < 2) := by decide
    exact h
  matrix := by decide
  unknowns := by
    have h : ∀ e ∈ tables.categories, e.unknowns ≠ [] ∧ ∀ m ∈ e.unknowns, (0 ≤ m.left.toInt ∧ m.left.toInt < 2) ∧ (0 ≤ m.right.toInt ∧ m.right.toInt < 2) := by decide
    exact h
  category := by
    intro r
    simp only [tables]
    split <;> decide

end Toy

example : (analyze ⟨Toy.tables.dict, some (userTables [(['a', 'b'], ⟨[str "ab"], [str "エービー"], str "名"⟩)]), true⟩ Toy.ideo (str "東京ab京") modeNormal).map
    (List.map (fun tok => (tok.cls, tok.id, tok.surface))) = some [(.known, 1, str "東京"), (.user, 0, str "ab"), (.known, 0, str "京")] := by decide +kernel

end Kagome
