import Verif.Spec.Tuning
import Verif.Props.Choice
import Verif.Props.Fewer

/-! C72: what is made cheaper is chosen at least as often. -/

namespace Kagome

open Spec

variable {t t' : Tokenizer} {K U : Nat → Bool} {P : Int → Int → Bool} {δ : Int} {ideo : Nat → Bool} {inp : Bytes} {mode : Int} {toks toks' : List Token}

theorem retuned_candidate (h : Retuned t t' K U P δ) {s : Bytes} {w : Word} : Candidate t'.dict t'.userDict s w ↔ Candidate t.dict t.userDict s w := by
  have hul : ∀ s, unknownLength t'.dict s = unknownLength t.dict s := by
    intro s; unfold unknownLength; rw [h.group, h.category]
  have hut : ∀ s w, UnknownText t'.dict s w ↔ UnknownText t.dict s w := by
    intro s w; unfold UnknownText; rw [hul]
  constructor
  · intro hc
    cases hc with
    | user id l hh => rw [h.user] at hh; exact .user id l hh
    | known id l hu hh => rw [h.user] at hu; rw [h.search] at hh; exact .known id l hu hh
    | unknown x w hu hs hi hx ht =>
      rw [h.user] at hu; rw [h.search, h.invoke, h.category] at hi; rw [h.unkDup, h.category] at hx; rw [hut] at ht
      rw [h.unkIndex, h.category]
      exact .unknown x w hu hs hi hx ht
  · intro hc
    cases hc with
    | user id l hh => rw [← h.user] at hh; exact .user id l hh
    | known id l hu hh => rw [← h.user] at hu; rw [← h.search] at hh; exact .known id l hu hh
    | unknown x w hu hs hi hx ht =>
      rw [← h.user] at hu; rw [← h.search, ← h.invoke, ← h.category] at hi; rw [← h.unkDup, ← h.category] at hx; rw [← hut] at ht
      rw [← h.unkIndex, ← h.category]
      exact .unknown x w hu hs hi hx ht

theorem retuned_analysis (h : Retuned t t' K U P δ) {s : Bytes} {ws : List Word} : Analysis t'.dict t'.userDict s ws ↔ Analysis t.dict t.userDict s ws := by
  constructor
  · intro ha
    induction ha with
    | nil => exact .nil
    | cons w rest ws hc _ ih => exact .cons w rest ws ((retuned_candidate h).mp hc) ih
  · intro ha
    induction ha with
    | nil => exact .nil
    | cons w rest ws hc _ ih => exact .cons w rest ws ((retuned_candidate h).mpr hc) ih

/-- What the new costs do to one word. -/
structure Shift (d d' : Dict) (K U : Nat → Bool) (δ : Int) (w : Word) : Prop where
  left : (morphOfWord d' w).left = (morphOfWord d w).left
  right : (morphOfWord d' w).right = (morphOfWord d w).right
  weight : (morphOfWord d' w).weight.toInt = (morphOfWord d w).weight.toInt - (if marked K U w = true then δ else 0)

theorem lowered_get {l l' : List Morph} (h : Lowered l l' K δ) {i : Nat} (hi : i < l.length) :
    ∃ m m', l[i]? = some m ∧ l'[i]? = some m' ∧ m'.left = m.left ∧ m'.right = m.right ∧ m'.weight.toInt = m.weight.toInt - (if K i = true then δ else 0) := by
  have hi' : i < l'.length := by rw [h.1]; exact hi
  have e := List.getElem?_eq_getElem hi
  have e' := List.getElem?_eq_getElem hi'
  obtain ⟨h1, h2, h3⟩ := h.2 i _ _ e e'
  exact ⟨_, _, e, e', h1, h2, h3⟩

theorem shift_candidate (h : Retuned t t' K U P δ) (wf : WellFormed t.dict t.userDict) {s : Bytes} {w : Word} (hc : Candidate t.dict t.userDict s w) :
    Shift t.dict t'.dict K U δ w := by
  cases hc with
  | user id l hh => exact ⟨rfl, rfl, (Int.sub_zero _).symm⟩
  | known id l hu hh =>
    have hlt := (wf.known_hit s id l hh).2.2.2
    obtain ⟨m, m', e, e', h1, h2, h3⟩ := lowered_get h.known hlt
    have e1 : morphOfWord t.dict ⟨.known, id, s.take l⟩ = m := by
      show (t.dict.morphs[id]?).getD Morph.zero = _
      rw [e]; rfl
    have e2 : morphOfWord t'.dict ⟨.known, id, s.take l⟩ = m' := by
      show (t'.dict.morphs[id]?).getD Morph.zero = _
      rw [e']; rfl
    exact ⟨by rw [e1, e2, h1], by rw [e1, e2, h2], by rw [e1, e2]; exact h3⟩
  | unknown x w hu hs hi hx ht =>
    obtain ⟨a1, a2, a3⟩ := wf.unk_entry (firstChar s)
    obtain ⟨n, hn⟩ : ∃ n : Nat, t.dict.unk.index (t.dict.category (firstChar s)) + (x : Int) = n :=
      ⟨(t.dict.unk.index (t.dict.category (firstChar s)) + (x : Int)).toNat, by omega⟩
    have hlt : n < t.dict.unk.morphs.length := by omega
    obtain ⟨m, m', e, e', h1, h2, h3⟩ := lowered_get h.unknown hlt
    rw [hn]
    have e1 : morphOfWord t.dict ⟨.unknown, n, w⟩ = m := by
      show (t.dict.unk.morphs[n]?).getD Morph.zero = _
      rw [e]; rfl
    have e2 : morphOfWord t'.dict ⟨.unknown, n, w⟩ = m' := by
      show (t'.dict.unk.morphs[n]?).getD Morph.zero = _
      rw [e']; rfl
    exact ⟨by rw [e1, e2, h1], by rw [e1, e2, h2], by rw [e1, e2]; exact h3⟩

theorem shift_boundary (d d' : Dict) : Shift d d' K U δ boundary := ⟨rfl, rfl, (Int.sub_zero _).symm⟩

theorem analysis_words {d : Dict} {u : Option UserDict} {s : Bytes} {ws : List Word} (ha : Analysis d u s ws) :
    ∀ w ∈ ws, ∃ s', Candidate d u s' w := by
  induction ha with
  | nil => intro w hw; cases hw
  | cons w rest ws hc _ ih =>
    intro x hx
    rcases List.mem_cons.mp hx with rfl | hx
    · exact ⟨_, hc⟩
    · exact ih x hx

/-- The number of marks of a sequence: its words but for the first, and its connections. -/
def marks (d : Dict) (K U : Nat → Bool) (P : Int → Int → Bool) (l : List Word) : Nat := (l.drop 1).countP (marked K U) + joints d P l

theorem connect_shift (h : Retuned t t' K U P δ) {a b : Word} (ha : Shift t.dict t'.dict K U δ a) (hb : Shift t.dict t'.dict K U δ b)
    (hs : (t.dict.connection (morphOfWord t.dict a).right.toInt (morphOfWord t.dict b).left.toInt).isSome = true) :
    connect t'.dict a b = connect t.dict a b - (if joined t.dict P a b = true then δ else 0) := by
  unfold connect joined
  by_cases hu : a.cls = .user ∨ b.cls = .user
  · rw [if_pos hu, if_pos hu, if_neg (by rcases hu with e | e <;> simp [e])]
    rfl
  · rw [if_neg hu, if_neg hu, ha.right, hb.left]
    have hc := h.connection (morphOfWord t.dict a).right.toInt (morphOfWord t.dict b).left.toInt
    obtain ⟨c, e⟩ := Option.isSome_iff_exists.mp hs
    rw [e] at hc ⊢
    simp only [Option.map_some, Option.map_eq_some_iff] at hc
    obtain ⟨c', e', h1⟩ := hc
    rw [e']
    simp only [h1]
    have hu' : (a.cls ≠ .user) ∧ (b.cls ≠ .user) := ⟨fun e => hu (.inl e), fun e => hu (.inr e)⟩
    simp [hu'.1, hu'.2]

theorem chain_shift (h : Retuned t t' K U P δ) (m : LMode) : ∀ l : List Word, (∀ w ∈ l, Shift t.dict t'.dict K U δ w) →
    (∀ a ∈ l, ∀ b ∈ l, (t.dict.connection (morphOfWord t.dict a).right.toInt (morphOfWord t.dict b).left.toInt).isSome = true) →
    chainCost t'.dict ideo m l = chainCost t.dict ideo m l - δ * (marks t.dict K U P l : Nat) := by
  intro l
  induction l with
  | nil => intro _ _; simp [chainCost, marks, joints]
  | cons a l ih =>
    intro h1 h2
    cases l with
    | nil => simp [chainCost, marks, joints]
    | cons b l =>
      have e := ih (fun w hw => h1 w (by simp [hw])) (fun a ha b hb => h2 a (by simp [ha]) b (by simp [hb]))
      have ha := h1 a (by simp)
      have hb := h1 b (by simp)
      have hcon := connect_shift h ha hb (h2 a (by simp) b (by simp))
      simp only [chainCost, stepCost, hcon, hb.weight, e]
      have hm : marks t.dict K U P (a :: b :: l) = marks t.dict K U P (b :: l) + (if marked K U b = true then 1 else 0) +
          (if joined t.dict P a b = true then 1 else 0) := by
        simp only [marks, List.drop_succ_cons, List.drop_zero, List.countP_cons, joints]
        omega
      rw [hm]
      have hd : ∀ (x : Nat) (b1 b2 : Bool), δ * ((x + (if b1 = true then 1 else 0) + (if b2 = true then 1 else 0) : Nat) : Int) =
          δ * (x : Int) + (if b1 = true then δ else 0) + (if b2 = true then δ else 0) := by
        intro x b1 b2
        cases b1 <;> cases b2 <;> simp [Int.mul_add]
      rw [hd]
      omega

theorem marks_not_fewer (h : Retuned t t' K U P δ) (hδ : 0 < δ) (ht : Tame t inp) (ht' : Tame t' inp)
    (ha : analyze t ideo inp mode = some toks) (ha' : analyze t' ideo inp mode = some toks') :
    ∃ ws ws', (inner toks).map wordOfToken = (if mode = modeExtended then ws.flatMap splitUnknown else ws) ∧
      (inner toks').map wordOfToken = (if mode = modeExtended then ws'.flatMap splitUnknown else ws') ∧
      marks t.dict K U P (boundary :: ws ++ [boundary]) ≤ marks t.dict K U P (boundary :: ws' ++ [boundary]) := by
  obtain ⟨ws, a1, e1, m1⟩ := C07_minimal_cost ht ha
  obtain ⟨ws', a2, e2, m2⟩ := C07_minimal_cost ht' ha'
  refine ⟨ws, ws', e1, e2, ?_⟩
  have c1 := m1 ws' ((retuned_analysis h).mp a2)
  have c2 := m2 ws ((retuned_analysis h).mpr a1)
  have key : ∀ ws, Analysis t.dict t.userDict inp ws →
      cost t'.dict ideo (latticeMode mode) ws = cost t.dict ideo (latticeMode mode) ws - δ * (marks t.dict K U P (boundary :: ws ++ [boundary]) : Nat) := by
    intro ws hws
    have hw := analysis_words hws
    have hin : ∀ w ∈ boundary :: ws ++ [boundary], w = boundary ∨ w ∈ ws := by
      intro w hw
      simp only [List.cons_append, List.mem_cons, List.mem_append, List.not_mem_nil, or_false] at hw
      rcases hw with e | e | e
      · exact .inl e
      · exact .inr e
      · exact .inl e
    refine chain_shift h _ _ ?_ ?_
    · intro w hw'
      rcases hin w hw' with rfl | hw'
      · exact shift_boundary _ _
      · obtain ⟨s', hs'⟩ := hw w hw'
        exact shift_candidate h ht.wf hs'
    · have hm : ∀ w ∈ boundary :: ws ++ [boundary], morphOfWord t.dict w ∈ Morph.zero :: t.dict.morphs ++ t.dict.unk.morphs := by
        intro w hw'
        rcases hin w hw' with rfl | hw'
        · simp [morphOfWord, boundary]
        · unfold morphOfWord
          split
          · cases hg : t.dict.morphs[‹Nat›]? with
            | none => simp
            | some m => simp [List.mem_of_getElem? hg]
          · cases hg : t.dict.unk.morphs[‹Nat›]? with
            | none => simp
            | some m => simp [List.mem_of_getElem? hg]
          · simp
      exact fun a ha b hb => ht.wf.conn _ _ (hm a ha) (hm b hb)
  rw [key ws a1, key ws' ((retuned_analysis h).mp a2)] at c2
  have hle : δ * (marks t.dict K U P (boundary :: ws ++ [boundary]) : Nat) ≤ δ * (marks t.dict K U P (boundary :: ws' ++ [boundary]) : Nat) := by omega
  have := Int.le_of_mul_le_mul_left hle hδ
  omega

theorem joints_none (d : Dict) : ∀ l : List Word, joints d noPair l = 0 := by
  intro l
  induction l with
  | nil => rfl
  | cons a l ih =>
    cases l with
    | nil => rfl
    | cons b l => rw [joints, ih, if_neg (by simp [joined, noPair])]

theorem marks_words (d : Dict) (ws : List Word) : marks d K U noPair (boundary :: ws ++ [boundary]) = ws.countP (marked K U) := by
  unfold marks
  rw [joints_none, List.cons_append, List.drop_succ_cons, List.drop_zero, List.countP_append]
  rfl

theorem marks_pairs (d : Dict) (l : List Word) : marks d noEntry noEntry P l = joints d P l := by
  unfold marks
  rw [List.countP_eq_zero.mpr]
  · simp
  · intro w _
    unfold marked noEntry
    split <;> simp

theorem marked_split : ∀ ws : List Word, (ws.flatMap splitUnknown).countP (marked K noEntry) = ws.countP (marked K noEntry) := by
  intro ws
  induction ws with
  | nil => rfl
  | cons w ws ih =>
    rw [List.flatMap_cons, List.countP_append, ih, List.countP_cons]
    have : (splitUnknown w).countP (marked K noEntry) = if marked K noEntry w = true then 1 else 0 := by
      unfold splitUnknown
      split
      · rename_i hu
        rw [List.countP_eq_zero.mpr, if_neg (by simp [marked, hu, noEntry])]
        intro x hx
        obtain ⟨r, _, rfl⟩ := List.mem_map.mp hx
        simp [marked]
      · simp [List.countP_cons]
    omega

/-- C72: make some entries cheaper, all by the same amount: in every text they are chosen at least as often as before. (In Extended mode unknown words are
cut up, so there only entries of the system dictionary can be counted.) -/
theorem C72_words (h : Retuned t t' K U noPair δ) (hδ : 0 < δ) (hx : mode = modeExtended → U = noEntry) (ht : Tame t inp) (ht' : Tame t' inp)
    (ha : analyze t ideo inp mode = some toks) (ha' : analyze t' ideo inp mode = some toks') :
    (inner toks).countP (fun tok => marked K U (wordOfToken tok)) ≤ (inner toks').countP (fun tok => marked K U (wordOfToken tok)) := by
  obtain ⟨ws, ws', e1, e2, hle⟩ := marks_not_fewer h hδ ht ht' ha ha'
  rw [marks_words, marks_words] at hle
  have hc : ∀ l : List Token, l.countP (fun tok => marked K U (wordOfToken tok)) = (l.map wordOfToken).countP (marked K U) := by
    intro l; rw [List.countP_map]; rfl
  rw [hc, hc, e1, e2]
  by_cases hm : mode = modeExtended
  · rw [if_pos hm, if_pos hm, hx hm, marked_split, marked_split]
    rw [hx hm] at hle
    exact hle
  · rw [if_neg hm, if_neg hm]
    exact hle

/-- C72: make some connections cheaper, all by the same amount: in every text they are chosen at least as often as before. -/
theorem C72_connections (h : Retuned t t' noEntry noEntry P δ) (hδ : 0 < δ) (hx : mode ≠ modeExtended) (ht : Tame t inp) (ht' : Tame t' inp)
    (ha : analyze t ideo inp mode = some toks) (ha' : analyze t' ideo inp mode = some toks') :
    joints t.dict P (boundary :: (inner toks).map wordOfToken ++ [boundary]) ≤ joints t.dict P (boundary :: (inner toks').map wordOfToken ++ [boundary]) := by
  obtain ⟨ws, ws', e1, e2, hle⟩ := marks_not_fewer h hδ ht ht' ha ha'
  rw [marks_pairs, marks_pairs] at hle
  rw [if_neg hx] at e1 e2
  rw [e1, e2]
  exact hle

/-! ### The hypotheses can be met, and the numbers do change -/

namespace Toy

/-- The letters, with b at 1000 instead of 10000. -/
def lettersCheap : Dict := { letters true with morphs := [⟨0, 0, 100⟩, ⟨0, 0, 5000⟩, ⟨0, 0, 1000⟩] }

theorem wellFormed_cheap : WellFormed lettersCheap none where
  known_hit := fun s id l h => (wellFormed_letters true).known_hit s id l h
  user_hit := by intro ud h; cases h
  group_flag := fun _ => Nat.zero_lt_one
  invoke_flag := fun _ => Nat.zero_lt_one
  unk_entry := (wellFormed_letters true).unk_entry
  conn := by
    have h : ∀ a ∈ Morph.zero :: lettersCheap.morphs ++ lettersCheap.unk.morphs, ∀ b ∈ Morph.zero :: lettersCheap.morphs ++ lettersCheap.unk.morphs,
        (lettersCheap.connection a.right.toInt b.left.toInt).isSome = true := by decide
    exact fun a b ha hb => h a ha b hb

theorem retuned_cheap : Retuned ⟨letters true, none, true⟩ ⟨lettersCheap, none, true⟩ (fun i => i == 2) noEntry noPair 9000 where
  search := rfl
  user := rfl
  category := rfl
  invoke := rfl
  group := rfl
  unkIndex := rfl
  unkDup := rfl
  known := by
    refine ⟨rfl, fun i m m' h h' => ?_⟩
    match i with
    | 0 => cases h; cases h'; decide
    | 1 => cases h; cases h'; decide
    | 2 => cases h; cases h'; decide
    | i + 3 => cases h
  unknown := by
    refine ⟨rfl, fun i m m' h h' => ?_⟩
    rw [show (lettersCheap.unk = (letters true).unk) from rfl] at h'
    rw [h] at h'
    cases h'
    exact ⟨rfl, rfl, by simp [noEntry]⟩
  connection := fun x y => by simp [noPair]; rfl

end Toy

example : Tame ⟨Toy.letters true, none, true⟩ (str "abab") ∧ Tame ⟨Toy.lettersCheap, none, true⟩ (str "abab") ∧
    (analyze ⟨Toy.letters true, none, true⟩ Toy.ideo (str "abab") modeNormal).map (List.map (·.surface)) = some [str "ab", str "ab"] ∧
    (analyze ⟨Toy.lettersCheap, none, true⟩ Toy.ideo (str "abab") modeNormal).map (List.map (·.surface)) = some [str "a", str "b", str "a", str "b"] :=
  ⟨⟨Toy.wellFormed_letters true, .inr (by decide +kernel), fits_short _ (by decide +kernel)⟩,
   ⟨Toy.wellFormed_cheap, .inr (by decide +kernel), fits_short _ (by decide +kernel)⟩, by decide +kernel, by decide +kernel⟩

namespace Toy

/-- Words a and aa; aa costs 500, and with `cheap` 5000 less. -/
def twins (cheap : Bool) : Dict where
  morphs := [⟨1, 1, 0⟩, ⟨2, 2, if cheap then -4500 else 500⟩]
  poss := [[0], [0]]
  nameList := [str "x"]
  contentsMeta := fun _ => none
  contents := none
  connection := fun x y =>
    if 0 ≤ x ∧ x ≤ 2 ∧ 0 ≤ y ∧ y ≤ 2 then
      some (if x = 1 ∧ y = 1 then 1000 else if x = 2 ∧ y = 2 then 300 else if (x = 0 ∧ y = 2) ∨ (x = 2 ∧ y = 0) then 200 else 0)
    else none
  prefixSearch := searchFrom 0 ["a", "aa"]
  category := fun _ => 0
  invokeList := [false]
  groupList := [false]
  unk := { morphs := [⟨0, 0, 100⟩], index := fun _ => 0, indexDup := fun _ => 0, contentsMeta := fun _ => none, contents := [[str "y"]] }

theorem wellFormed_twins (cheap : Bool) : WellFormed (twins cheap) none where
  known_hit := by
    intro s id l h
    obtain ⟨a, b, c, _, e⟩ := searchFrom_hit (by decide) h
    exact ⟨a, b, c, by simpa [twins] using e⟩
  user_hit := by intro ud h; cases h
  group_flag := fun _ => Nat.zero_lt_one
  invoke_flag := fun _ => Nat.zero_lt_one
  unk_entry := fun _ => ⟨Int.le_refl _, Int.le_refl _, (by decide : (0 : Int) + 0 < 1)⟩
  conn := by
    have h : ∀ e : Bool, ∀ a ∈ Morph.zero :: (twins e).morphs ++ (twins e).unk.morphs, ∀ b ∈ Morph.zero :: (twins e).morphs ++ (twins e).unk.morphs,
        ((twins e).connection a.right.toInt b.left.toInt).isSome = true := by decide
    exact fun a b ha hb => h cheap a ha b hb

end Toy

/-- C72: this is about the number only. A word can disappear from the place where it was chosen because it has become cheaper: it is now chosen twice,
elsewhere. -/
theorem C72_moves :
    Retuned ⟨Toy.twins false, none, true⟩ ⟨Toy.twins true, none, true⟩ (fun i => i == 1) noEntry noPair 5000 ∧
    Tame ⟨Toy.twins false, none, true⟩ (str "aaaa") ∧ Tame ⟨Toy.twins true, none, true⟩ (str "aaaa") ∧
    (analyze ⟨Toy.twins false, none, true⟩ Toy.ideo (str "aaaa") modeNormal).map (List.map (fun tok => (tok.position, tok.surface))) =
      some [(0, str "a"), (1, str "aa"), (3, str "a")] ∧
    (analyze ⟨Toy.twins true, none, true⟩ Toy.ideo (str "aaaa") modeNormal).map (List.map (fun tok => (tok.position, tok.surface))) =
      some [(0, str "aa"), (2, str "aa")] := by
  refine ⟨⟨rfl, rfl, rfl, rfl, rfl, rfl, rfl, ⟨rfl, fun i m m' h h' => ?_⟩, ⟨rfl, fun i m m' h h' => ?_⟩, fun x y => by simp [noPair]; rfl⟩,
    ⟨Toy.wellFormed_twins false, .inr (by decide +kernel), fits_short _ (by decide +kernel)⟩,
    ⟨Toy.wellFormed_twins true, .inr (by decide +kernel), fits_short _ (by decide +kernel)⟩, by decide +kernel, by decide +kernel⟩
  · match i with
    | 0 => cases h; cases h'; decide
    | 1 => cases h; cases h'; decide
    | i + 2 => cases h
  · rw [show ((Toy.twins true).unk = (Toy.twins false).unk) from rfl] at h'
    rw [h] at h'
    cases h'
    exact ⟨rfl, rfl, by simp [noEntry]⟩

end Kagome
