import Verif.Spec.Scale
import Verif.Props.Choice
import Verif.Props.Tuning
import Verif.Props.SearchMode
import Verif.Example.Kansai

/-! C75: the unit of the costs, and whether they are charged with the words or with the connections, does not matter. -/

namespace Kagome

open Spec

variable {t t' : Tokenizer} {ideo : Nat → Bool} {inp : Bytes} {mode : Int} {toks toks' : List Token} {k : Int} {before after : Int → Int}

theorem repriced_offers (h : Repriced t t' k before after) (s : Bytes) : offers t'.dict t'.userDict s = offers t.dict t.userDict s := by
  have hul : ∀ s, unknownLength t'.dict s = unknownLength t.dict s := by
    intro s; unfold unknownLength; rw [h.group, h.category]
  have huo : ∀ s id, unknownOffers t'.dict s id = unknownOffers t.dict s id := by
    intro s id; unfold unknownOffers; rw [hul]
  unfold offers
  simp only [huo, h.user, h.search, h.invoke, h.category, h.unkIndex, h.unkDup]

theorem repriced_analysis (h : Repriced t t' k before after) (wf : WellFormed t.dict t.userDict) (wf' : WellFormed t'.dict t'.userDict) {s : Bytes} {ws : List Word} :
    Analysis t'.dict t'.userDict s ws ↔ Analysis t.dict t.userDict s ws := by
  constructor
  · intro ha
    induction ha with
    | nil => exact .nil
    | cons w rest ws hc _ ih =>
      refine .cons w rest ws ?_ ih
      rw [← C58_offers (cand_ne wf' hc), ← repriced_offers h, C58_offers (cand_ne wf' hc)]
      exact hc
  · intro ha
    induction ha with
    | nil => exact .nil
    | cons w rest ws hc _ ih =>
      refine .cons w rest ws ?_ ih
      rw [← C58_offers (cand_ne wf hc), repriced_offers h, C58_offers (cand_ne wf hc)]
      exact hc

/-- What the new costs do to one word. -/
structure Reprice (d d' : Dict) (k : Int) (before after : Int → Int) (w : Word) : Prop where
  left : (morphOfWord d' w).left = (morphOfWord d w).left
  right : (morphOfWord d' w).right = (morphOfWord d w).right
  weight : (morphOfWord d' w).weight.toInt =
    k * (morphOfWord d w).weight.toInt - before (morphOfWord d w).left.toInt - after (morphOfWord d w).right.toInt

theorem rescaled_get {l l' : List Morph} (h : Rescaled l l' k before after) {i : Nat} (hi : i < l.length) :
    ∃ m m', l[i]? = some m ∧ l'[i]? = some m' ∧ m'.left = m.left ∧ m'.right = m.right ∧
      m'.weight.toInt = k * m.weight.toInt - before m.left.toInt - after m.right.toInt := by
  have hi' : i < l'.length := by rw [h.1]; exact hi
  have e := List.getElem?_eq_getElem hi
  have e' := List.getElem?_eq_getElem hi'
  obtain ⟨h1, h2, h3⟩ := h.2 i _ _ e e'
  exact ⟨_, _, e, e', h1, h2, h3⟩

theorem reprice_zero {d d' : Dict} (hb : before 0 = 0) (hf : after 0 = 0) {w : Word} (h : morphOfWord d w = Morph.zero) (h' : morphOfWord d' w = Morph.zero) :
    Reprice d d' k before after w := by
  refine ⟨by rw [h, h'], by rw [h, h'], ?_⟩
  rw [h, h', show Morph.zero.weight.toInt = 0 from rfl, show Morph.zero.left.toInt = 0 from rfl, show Morph.zero.right.toInt = 0 from rfl, hb, hf]
  simp

theorem reprice_candidate (h : Repriced t t' k before after) (wf : WellFormed t.dict t.userDict) (hb : before 0 = 0) (hf : after 0 = 0) {s : Bytes} {w : Word}
    (hc : Candidate t.dict t.userDict s w) : Reprice t.dict t'.dict k before after w := by
  cases hc with
  | user id l hh => exact reprice_zero hb hf rfl rfl
  | known id l hu hh =>
    have hlt := (wf.known_hit s id l hh).2.2.2
    obtain ⟨m, m', e, e', h1, h2, h3⟩ := rescaled_get h.known hlt
    have e1 : morphOfWord t.dict ⟨.known, id, s.take l⟩ = m := by
      show (t.dict.morphs[id]?).getD Morph.zero = _
      rw [e]; rfl
    have e2 : morphOfWord t'.dict ⟨.known, id, s.take l⟩ = m' := by
      show (t'.dict.morphs[id]?).getD Morph.zero = _
      rw [e']; rfl
    exact ⟨by rw [e1, e2, h1], by rw [e1, e2, h2], by rw [e1, e2]; exact h3⟩
  | unknown x w hu hs hi hx ht =>
    obtain ⟨a1, a2, a3⟩ := wf.unk_entry (firstChar s)
    obtain ⟨n, hn⟩ : ∃ n : Nat, t.dict.unk.index (t.dict.category (firstChar s)) + (x : Int) = n :=
      ⟨(t.dict.unk.index (t.dict.category (firstChar s)) + (x : Int)).toNat, by omega⟩
    have hlt : n < t.dict.unk.morphs.length := by omega
    obtain ⟨m, m', e, e', h1, h2, h3⟩ := rescaled_get h.unknown hlt
    rw [hn]
    have e1 : morphOfWord t.dict ⟨.unknown, n, w⟩ = m := by
      show (t.dict.unk.morphs[n]?).getD Morph.zero = _
      rw [e]; rfl
    have e2 : morphOfWord t'.dict ⟨.unknown, n, w⟩ = m' := by
      show (t'.dict.unk.morphs[n]?).getD Morph.zero = _
      rw [e']; rfl
    exact ⟨by rw [e1, e2, h1], by rw [e1, e2, h2], by rw [e1, e2]; exact h3⟩

/-- A connection next to no user word. -/
theorem connect_reprice (h : Repriced t t' k before after) {a b : Word} (ha : Reprice t.dict t'.dict k before after a)
    (hb : Reprice t.dict t'.dict k before after b)
    (hs : (t.dict.connection (morphOfWord t.dict a).right.toInt (morphOfWord t.dict b).left.toInt).isSome = true)
    (hu : (a.cls = .user ∨ b.cls = .user) → (∀ x, before x = 0) ∧ ∀ y, after y = 0) :
    connect t'.dict a b = k * connect t.dict a b + after (morphOfWord t.dict a).right.toInt + before (morphOfWord t.dict b).left.toInt := by
  unfold connect
  by_cases hab : a.cls = .user ∨ b.cls = .user
  · rw [if_pos hab, if_pos hab, (hu hab).1, (hu hab).2]
    simp
  · rw [if_neg hab, if_neg hab, ha.right, hb.left]
    have hc := h.connection (morphOfWord t.dict a).right.toInt (morphOfWord t.dict b).left.toInt
    obtain ⟨c, e⟩ := Option.isSome_iff_exists.mp hs
    rw [e] at hc ⊢
    simp only [Option.map_some, Option.map_eq_some_iff] at hc
    obtain ⟨c', e', h1⟩ := hc
    rw [e']
    exact h1

/-- Along a chain what is charged elsewhere cancels, but for its ends. -/
theorem chain_reprice (h : Repriced t t' k before after) (m : LMode) (hm : m = .normal ∨ k = 1) : ∀ l : List Word,
    (∀ w ∈ l, Reprice t.dict t'.dict k before after w) →
    (∀ a ∈ l, ∀ b ∈ l, (t.dict.connection (morphOfWord t.dict a).right.toInt (morphOfWord t.dict b).left.toInt).isSome = true) →
    (∀ a ∈ l, a.cls = .user → (∀ x, before x = 0) ∧ ∀ y, after y = 0) → ∀ z, l.getLast? = some z →
    ∀ a, l.head? = some a → chainCost t'.dict ideo m l =
      k * chainCost t.dict ideo m l + after (morphOfWord t.dict a).right.toInt - after (morphOfWord t.dict z).right.toInt := by
  intro l
  induction l with
  | nil => intro _ _ _ z hz; cases hz
  | cons a l ih =>
    intro h1 h2 h3 z hz a' ha'
    cases ha'
    cases l with
    | nil =>
      simp only [List.getLast?_singleton, Option.some.injEq] at hz
      subst hz
      simp only [chainCost]
      omega
    | cons b l =>
      have e := ih (fun w hw => h1 w (by simp [hw])) (fun a ha b hb => h2 a (by simp [ha]) b (by simp [hb])) (fun a ha => h3 a (by simp [ha])) z
        (by simpa [List.getLast?_cons_cons] using hz) b rfl
      have hb := h1 b (by simp)
      have hcon := connect_reprice h (h1 a (by simp)) hb (h2 a (by simp) b (by simp))
        (fun hab => hab.elim (h3 a (by simp)) (h3 b (by simp)))
      simp only [chainCost, stepCost, hcon, hb.weight, e]
      have hp : (if m = .normal then 0 else penalty ideo a) = k * (if m = .normal then 0 else penalty ideo a) := by
        rcases hm with hm | hm
        · simp [hm]
        · simp [hm]
      rw [Int.mul_add, Int.mul_add, Int.mul_add, ← hp]
      omega

theorem cost_reprice (h : Repriced t t' k before after) (wf : WellFormed t.dict t.userDict) (m : LMode) (hm : m = .normal ∨ k = 1)
    (hb : before 0 = 0) (hf : after 0 = 0) (hu : t.userDict ≠ none → (∀ x, before x = 0) ∧ ∀ y, after y = 0) {ws : List Word}
    (ha : Analysis t.dict t.userDict inp ws) : cost t'.dict ideo m ws = k * cost t.dict ideo m ws := by
  have hin : ∀ w ∈ boundary :: ws ++ [boundary], Reprice t.dict t'.dict k before after w ∧ morphOfWord t.dict w ∈ Morph.zero :: t.dict.morphs ++ t.dict.unk.morphs ∧
      (w.cls = .user → (∀ x, before x = 0) ∧ ∀ y, after y = 0) := by
    intro w hw
    have hbd : Reprice t.dict t'.dict k before after boundary ∧ morphOfWord t.dict boundary ∈ Morph.zero :: t.dict.morphs ++ t.dict.unk.morphs ∧
        (boundary.cls = .user → (∀ x, before x = 0) ∧ ∀ y, after y = 0) :=
      ⟨reprice_zero hb hf rfl rfl, List.mem_append_left _ (List.mem_cons_self ..), fun e => by cases e⟩
    simp only [List.cons_append, List.mem_cons, List.mem_append, List.not_mem_nil, or_false] at hw
    rcases hw with rfl | hw | rfl
    · exact hbd
    · obtain ⟨s', hc⟩ := analysis_words ha w hw
      refine ⟨reprice_candidate h wf hb hf hc, morphOfWord_mem _ w, fun e => ?_⟩
      cases hc with
      | user id l hh =>
        apply hu
        intro hn
        rw [hn] at hh
        cases hh
      | known => cases e
      | unknown => cases e
    · exact hbd
  have hz : (boundary :: ws ++ [boundary]).getLast? = some boundary := List.getLast?_append.trans rfl
  have := chain_reprice (ideo := ideo) h m hm (boundary :: ws ++ [boundary]) (fun w hw => (hin w hw).1)
    (fun a ha b hb => wf.conn _ _ (hin a ha).2.1 (hin b hb).2.1) (fun a ha => (hin a ha).2.2) boundary hz boundary rfl
  unfold cost
  rw [this]
  omega

theorem chosen_reprice (h : Repriced t t' k before after) (hk : 0 < k) (wf : WellFormed t.dict t.userDict) (wf' : WellFormed t'.dict t'.userDict) (m : LMode)
    (hm : m = .normal ∨ k = 1) (hb : before 0 = 0) (hf : after 0 = 0) (hu : t.userDict ≠ none → (∀ x, before x = 0) ∧ ∀ y, after y = 0)
    {ws : List Word} (hc : Chosen t.dict t.userDict ideo m inp ws) : Chosen t'.dict t'.userDict ideo m inp ws := by
  obtain ⟨ha, hbest⟩ := hc
  refine ⟨(repriced_analysis h wf wf').mpr ha, ?_⟩
  intro ws' ha' hne
  rw [repriced_analysis h wf wf'] at ha'
  rw [cost_reprice h wf m hm hb hf hu ha, cost_reprice h wf m hm hb hf hu ha']
  rcases hbest ws' ha' hne with hlt | ⟨he, hp⟩
  · exact .inl (Int.mul_lt_mul_of_pos_left hlt hk)
  · refine .inr ⟨by rw [he], ?_⟩
    obtain ⟨a, w, a', w', tail, h1, h2, h3⟩ := hp
    refine ⟨a, w, a', w', tail, h1, h2, ?_⟩
    rw [repriced_offers h]
    exact h3

theorem repriced_words (h : Repriced t t' k before after) (hk : 0 < k) (hm : mode = modeNormal ∨ k = 1)
    (hb : before 0 = 0) (hf : after 0 = 0) (hu : t.userDict ≠ none → (∀ x, before x = 0) ∧ ∀ y, after y = 0) (ht : Tame t inp) (ht' : Tame t' inp)
    (ha : analyze t ideo inp mode = some toks) (ha' : analyze t' ideo inp mode = some toks') :
    (inner toks').map wordOfToken = (inner toks).map wordOfToken := by
  obtain ⟨ws, hc, e⟩ := C58_chosen ht ha
  have hm' : latticeMode mode = .normal ∨ k = 1 := hm.imp (fun e => by rw [e]; rfl) id
  rw [C58_determined ht' ha' (chosen_reprice h hk ht.wf ht'.wf _ hm' hb hf hu hc), e]

/-- C75: if all costs are multiplied by the same number, the words in Normal mode stay the same, in every text. -/
theorem C75_unit (h : Repriced t t' k (fun _ => 0) (fun _ => 0)) (hk : 0 < k) (ht : Tame t inp) (ht' : Tame t' inp)
    (ha : analyze t ideo inp modeNormal = some toks) (ha' : analyze t' ideo inp modeNormal = some toks') :
    (inner toks').map wordOfToken = (inner toks).map wordOfToken :=
  repriced_words h hk (.inl rfl) rfl rfl (fun _ => ⟨fun _ => rfl, fun _ => rfl⟩) ht ht' ha ha'

/-- C75: without a user dictionary it does not matter in any mode which part of a cost is charged with the words and which with the connections. -/
theorem C75_place (h : Repriced t t' 1 before after) (hb : before 0 = 0) (hf : after 0 = 0) (hu : t.userDict = none) (ht : Tame t inp) (ht' : Tame t' inp)
    (ha : analyze t ideo inp mode = some toks) (ha' : analyze t' ideo inp mode = some toks') :
    (inner toks').map wordOfToken = (inner toks).map wordOfToken :=
  repriced_words h (by decide) (.inr rfl) hb hf (fun hn => absurd hu hn) ht ht' ha ha'

/-! ### The hypotheses can be met, and where the limits are -/

theorem rescaled_map {l : List Morph} {f : Morph → Morph} (h : ∀ m ∈ l, (f m).left = m.left ∧ (f m).right = m.right ∧
    (f m).weight.toInt = k * m.weight.toInt - before m.left.toInt - after m.right.toInt) : Rescaled l (l.map f) k before after := by
  refine ⟨by simp, fun i m m' hm hm' => ?_⟩
  rw [List.getElem?_map, hm] at hm'
  cases hm'
  exact h m (List.mem_of_getElem? hm)

namespace Toy

/-- A dictionary with other costs. -/
def reprice (k : Int) (before after : Int → Int) (d : Dict) : Dict :=
  { d with
    morphs := d.morphs.map (fun m => { m with weight := Int16.ofInt (k * m.weight.toInt - before m.left.toInt - after m.right.toInt) })
    unk := { d.unk with morphs := d.unk.morphs.map (fun m => { m with weight := Int16.ofInt (k * m.weight.toInt - before m.left.toInt - after m.right.toInt) }) }
    connection := fun y x => (d.connection y x).map (fun c => Int16.ofInt (k * c.toInt + after y + before x)) }

/-- 300 of the cost of a noun is charged with the connection to it, and 50 with the connection from it. -/
def beforeNoun (x : Int) : Int := if x = 1 then 300 else 0
def afterNoun (y : Int) : Int := if y = 1 then 50 else 0

theorem repriced_dict {k : Int} {before after : Int → Int} {d : Dict} (u : Option UserDict) (o : Bool)
    (h1 : ∀ m ∈ d.morphs ++ d.unk.morphs, (Int16.ofInt (k * m.weight.toInt - before m.left.toInt - after m.right.toInt)).toInt =
      k * m.weight.toInt - before m.left.toInt - after m.right.toInt)
    (h2 : ∀ y x c, d.connection y x = some c → (Int16.ofInt (k * c.toInt + after y + before x)).toInt = k * c.toInt + after y + before x) :
    Repriced ⟨d, u, o⟩ ⟨reprice k before after d, u, o⟩ k before after where
  search := rfl
  user := rfl
  category := rfl
  invoke := rfl
  group := rfl
  unkIndex := rfl
  unkDup := rfl
  known := rescaled_map fun m hm => ⟨rfl, rfl, h1 m (List.mem_append_left _ hm)⟩
  unknown := rescaled_map fun m hm => ⟨rfl, rfl, h1 m (List.mem_append_right _ hm)⟩
  connection := fun y x => by
    show ((d.connection y x).map _).map _ = _
    cases hc : d.connection y x with
    | none => rfl
    | some c => simp only [Option.map_some, h2 y x c hc]

/-- The connections of the toy dictionary. -/
theorem connection_cases {y x : Int} {c : Int16} (h : connection y x = some c) : (y = 0 ∨ y = 1 ∨ y = 2) ∧ (x = 0 ∨ x = 1 ∨ x = 2) := by
  unfold connection at h
  split at h
  · omega
  · cases h

theorem connection_all {P : Int → Int → Int16 → Prop} (h : ∀ y ∈ [(0 : Int), 1, 2], ∀ x ∈ [(0 : Int), 1, 2], ∀ c ∈ connection y x, P y x c) {y x : Int} {c : Int16}
    (hc : connection y x = some c) : P y x c := by
  obtain ⟨hy, hx⟩ := connection_cases hc
  refine h y ?_ x ?_ c hc
  · rcases hy with rfl | rfl | rfl <;> simp
  · rcases hx with rfl | rfl | rfl <;> simp

theorem wellFormed_reprice {k : Int} {before after : Int → Int} {d : Dict} {u : Option UserDict} (wf : WellFormed d u) : WellFormed (reprice k before after d) u where
  known_hit := fun s id l h => by
    obtain ⟨h1, h2, h3, h4⟩ := wf.known_hit s id l h
    exact ⟨h1, h2, h3, by simpa [reprice] using h4⟩
  user_hit := wf.user_hit
  group_flag := wf.group_flag
  invoke_flag := wf.invoke_flag
  unk_entry := fun r => by
    obtain ⟨h1, h2, h3⟩ := wf.unk_entry r
    exact ⟨h1, h2, by simpa [reprice] using h3⟩
  conn := fun a b ha hb => by
    have key : ∀ a, a ∈ Morph.zero :: (reprice k before after d).morphs ++ (reprice k before after d).unk.morphs →
        ∃ a0, a0 ∈ Morph.zero :: d.morphs ++ d.unk.morphs ∧ a0.left = a.left ∧ a0.right = a.right := by
      intro a ha
      simp only [reprice, List.cons_append, List.mem_cons, List.mem_append, List.mem_map] at ha
      rcases ha with rfl | ⟨m, hm, rfl⟩ | ⟨m, hm, rfl⟩
      · exact ⟨_, List.mem_append_left _ (List.mem_cons_self ..), rfl, rfl⟩
      · exact ⟨m, by simp [hm], rfl, rfl⟩
      · exact ⟨m, by simp [hm], rfl, rfl⟩
    obtain ⟨a0, ha0, -, ra⟩ := key a ha
    obtain ⟨b0, hb0, lb, -⟩ := key b hb
    have := wf.conn a0 b0 ha0 hb0
    rw [ra, lb] at this
    simpa [reprice] using this

end Toy

namespace Toy

/-- No part of the costs is moved. -/
def unmoved (_ : Int) : Int := 0

/-- A noun costs 4000 more, and every connection from it 4000 less. -/
def cheapAfter (y : Int) : Int := if y = 1 then -4000 else 0

theorem repriced_twice (u : Option UserDict) (o : Bool) : Repriced ⟨dict, u, o⟩ ⟨reprice 2 unmoved unmoved dict, u, o⟩ 2 unmoved unmoved :=
  repriced_dict (k := 2) (before := unmoved) (after := unmoved) (d := dict) u o (by decide)
    (fun _ _ _ h => connection_all (P := fun y x c => (Int16.ofInt (2 * c.toInt + unmoved y + unmoved x)).toInt = 2 * c.toInt + unmoved y + unmoved x) (by decide) h)

theorem repriced_kansai (u : Option UserDict) (o : Bool) : Repriced ⟨Kansai.dict, u, o⟩ ⟨reprice 2 unmoved unmoved Kansai.dict, u, o⟩ 2 unmoved unmoved :=
  repriced_dict (k := 2) (before := unmoved) (after := unmoved) (d := Kansai.dict) u o (by decide)
    (fun _ _ _ h => connection_all (P := fun y x c => (Int16.ofInt (2 * c.toInt + unmoved y + unmoved x)).toInt = 2 * c.toInt + unmoved y + unmoved x) (by decide) h)

theorem repriced_noun (u : Option UserDict) (o : Bool) : Repriced ⟨dict, u, o⟩ ⟨reprice 1 beforeNoun afterNoun dict, u, o⟩ 1 beforeNoun afterNoun :=
  repriced_dict (k := 1) (before := beforeNoun) (after := afterNoun) (d := dict) u o (by decide)
    (fun _ _ _ h => connection_all (P := fun y x c => (Int16.ofInt (1 * c.toInt + afterNoun y + beforeNoun x)).toInt = 1 * c.toInt + afterNoun y + beforeNoun x) (by decide) h)

theorem repriced_cheap (u : Option UserDict) (o : Bool) : Repriced ⟨dict, u, o⟩ ⟨reprice 1 unmoved cheapAfter dict, u, o⟩ 1 unmoved cheapAfter :=
  repriced_dict (k := 1) (before := unmoved) (after := cheapAfter) (d := dict) u o (by decide)
    (fun _ _ _ h => connection_all (P := fun y x c => (Int16.ofInt (1 * c.toInt + cheapAfter y + unmoved x)).toInt = 1 * c.toInt + cheapAfter y + unmoved x) (by decide) h)

end Toy

/-- Twice the costs: the hypotheses of `C75_unit`, with a user dictionary. -/
example : Repriced ⟨Toy.dict, some Toy.user, true⟩ ⟨Toy.reprice 2 Toy.unmoved Toy.unmoved Toy.dict, some Toy.user, true⟩ 2 (fun _ => 0) (fun _ => 0) ∧
    Tame ⟨Toy.dict, some Toy.user, true⟩ (str "すもも東京") ∧ Tame ⟨Toy.reprice 2 Toy.unmoved Toy.unmoved Toy.dict, some Toy.user, true⟩ (str "すもも東京") ∧
    (analyze ⟨Toy.reprice 2 Toy.unmoved Toy.unmoved Toy.dict, some Toy.user, true⟩ Toy.ideo (str "すもも東京") modeNormal).map (·.map (·.surface)) =
      some [str "すもも", str "東京"] := by
  refine ⟨Toy.repriced_twice _ _, ⟨Toy.wellFormed, Toy.replacementOk _, fits_short _ ?_⟩, ⟨Toy.wellFormed_reprice Toy.wellFormed, Or.inl rfl, fits_short _ ?_⟩, ?_⟩
  · decide +kernel
  · decide +kernel
  · decide +kernel

/-- Costs of nouns charged with their connections: the hypotheses of `C75_place`. -/
example : Repriced ⟨Toy.dict, none, true⟩ ⟨Toy.reprice 1 Toy.beforeNoun Toy.afterNoun Toy.dict, none, true⟩ 1 Toy.beforeNoun Toy.afterNoun ∧
    Toy.beforeNoun 0 = 0 ∧ Toy.afterNoun 0 = 0 ∧ Tame ⟨Toy.reprice 1 Toy.beforeNoun Toy.afterNoun Toy.dict, none, true⟩ (str "すももも") ∧
    (Toy.reprice 1 Toy.beforeNoun Toy.afterNoun Toy.dict).morphs ≠ Toy.dict.morphs ∧
    (analyze ⟨Toy.reprice 1 Toy.beforeNoun Toy.afterNoun Toy.dict, none, true⟩ Toy.ideo (str "すももも") modeSearch).map (·.map (·.surface)) =
      some [str "すもも", str "も"] := by
  refine ⟨Toy.repriced_noun _ _, rfl, rfl, ⟨Toy.wellFormed_reprice Toy.wellFormed_none, Or.inl rfl, fits_short _ ?_⟩, ?_, ?_⟩
  · decide +kernel
  · decide +kernel
  · decide +kernel

/-- C75: in Search mode the unit does matter: the surcharge for long words is a fixed number. With all costs doubled the README's example is one word again. -/
theorem C75_search_differs :
    Repriced ⟨Kansai.dict, none, true⟩ ⟨Toy.reprice 2 Toy.unmoved Toy.unmoved Kansai.dict, none, true⟩ 2 (fun _ => 0) (fun _ => 0) ∧
    Tame ⟨Kansai.dict, none, true⟩ (str "関西国際空港") ∧ Tame ⟨Toy.reprice 2 Toy.unmoved Toy.unmoved Kansai.dict, none, true⟩ (str "関西国際空港") ∧
    (analyze ⟨Kansai.dict, none, true⟩ Toy.ideo (str "関西国際空港") modeSearch).map (·.map (·.surface)) = some [str "関西", str "国際", str "空港"] ∧
    (analyze ⟨Toy.reprice 2 Toy.unmoved Toy.unmoved Kansai.dict, none, true⟩ Toy.ideo (str "関西国際空港") modeSearch).map (·.map (·.surface)) =
      some [str "関西国際空港"] := by
  refine ⟨Toy.repriced_kansai _ _, ⟨Kansai.wellFormed, Or.inl rfl, fits_short _ ?_⟩, ⟨Toy.wellFormed_reprice Kansai.wellFormed, Or.inl rfl, fits_short _ ?_⟩, ?_, ?_⟩
  · decide +kernel
  · decide +kernel
  · decide +kernel
  · decide +kernel

/-- C75: with a user dictionary the place does matter: next to a user word no connection is charged, so what was moved there is not charged. -/
theorem C75_user_differs :
    Repriced ⟨Toy.dict, some Toy.user, true⟩ ⟨Toy.reprice 1 Toy.unmoved Toy.cheapAfter Toy.dict, some Toy.user, true⟩ 1 Toy.unmoved Toy.cheapAfter ∧
    Toy.unmoved 0 = 0 ∧ Toy.cheapAfter 0 = 0 ∧
    Tame ⟨Toy.dict, some Toy.user, true⟩ (str "もも東京") ∧ Tame ⟨Toy.reprice 1 Toy.unmoved Toy.cheapAfter Toy.dict, some Toy.user, true⟩ (str "もも東京") ∧
    (analyze ⟨Toy.dict, some Toy.user, true⟩ Toy.ideo (str "もも東京") modeNormal).map (·.map (·.surface)) = some [str "もも", str "東京"] ∧
    (analyze ⟨Toy.reprice 1 Toy.unmoved Toy.cheapAfter Toy.dict, some Toy.user, true⟩ Toy.ideo (str "もも東京") modeNormal).map (·.map (·.surface)) =
      some [str "も", str "も", str "東京"] := by
  refine ⟨Toy.repriced_cheap _ _, rfl, rfl, ⟨Toy.wellFormed, Or.inl rfl, fits_short _ ?_⟩, ⟨Toy.wellFormed_reprice Toy.wellFormed, Or.inl rfl, fits_short _ ?_⟩, ?_, ?_⟩
  · decide +kernel
  · decide +kernel
  · decide +kernel
  · decide +kernel

end Kagome
