import Verif.Props.Long

/-!
C46: the lower limit of the costs. A path cost below `-2^31` is not cut off but wraps around, so a cheaper path looks like the dearest.
-/

namespace Kagome.Light

open Kagome Spec

def connection (x y : Int) : Option Int16 :=
  if 0 ≤ x ∧ x ≤ 2 ∧ 0 ≤ y ∧ y ≤ 2 then some (if x = 1 ∧ y = 1 then -32768 else 0) else none

/-- A well-formed dictionary with two entries for "a", the first with the lowest costs there are. -/
def dict : Dict where
  morphs := [⟨1, 1, -32768⟩, ⟨2, 2, 0⟩]
  poss := []
  nameList := []
  contentsMeta := fun _ => none
  contents := none
  connection := connection
  prefixSearch := Toy.searchFrom 0 ["a", "a"]
  category := fun _ => 0
  invokeList := [false]
  groupList := [true]
  unk := { morphs := [⟨1, 1, 0⟩], index := fun _ => 0, indexDup := fun _ => 0, contentsMeta := fun _ => none, contents := [] }

theorem wellFormed : WellFormed dict none where
  known_hit := by
    intro s id l h
    obtain ⟨a, b, c, _, e⟩ := Toy.searchFrom_hit (by decide) h
    exact ⟨a, b, c, by simpa [dict] using e⟩
  user_hit := by intro ud h; cases h
  group_flag := by intro r; change 0 < 1; decide
  invoke_flag := by intro r; change 0 < 1; decide
  unk_entry := by intro r; change (0 : Int) ≤ 0 ∧ (0 : Int) ≤ 0 ∧ (0 : Int) + 0 < 1; decide
  conn := by
    have h : ∀ a ∈ Morph.zero :: dict.morphs ++ dict.unk.morphs, ∀ b ∈ Morph.zero :: dict.morphs ++ dict.unk.morphs,
        (dict.connection a.right.toInt b.left.toInt).isSome = true := by decide
    exact fun a b ha hb => h a ha b hb

def tok : Tokenizer := ⟨dict, none, false⟩

/-- `n` times "a". -/
def text (n : Nat) : Bytes := List.replicate n 0x61

/-- The cheap and the dear entry. -/
def w0 : Word := ⟨.known, 0, [0x61]⟩
def w1 : Word := ⟨.known, 1, [0x61]⟩

theorem runes_text (n : Nat) : runes (text n) = List.replicate n (0x61, 1) := by
  induction n with
  | zero => decide
  | succ n ih =>
    have e : text (n + 1) = 0x61 :: text n := rfl
    have hd : decodeRune (0x61 :: text n) = (0x61, 1) := by
      unfold decodeRune decodeValid; simp
    rw [e, runes_cons (by simp), hd, List.replicate_succ]
    simp [ih]

theorem count_text (n : Nat) : runeCount (text n) = n := by
  unfold runeCount; rw [runes_text]; simp

theorem at_text (n k : Nat) (hk : k ≤ n) : At (text n) k k ((text n).drop k) := by
  have hr := runes_text n
  have h1 : k ≤ (runes (text n)).length := by rw [hr]; simpa using hk
  have h2 := at_of_le h1
  have h3 : wsum ((runes (text n)).take k) = k := by
    rw [hr, List.take_replicate, Nat.min_eq_left hk]
    simp [wsum]
  rw [h3] at h2
  exact h2

theorem search_a (s : Bytes) : dict.prefixSearch (0x61 :: s) = [(0, 1), (1, 1)] := by
  have h1 : str "a" = [0x61] := by decide
  change Toy.searchFrom 0 ["a", "a"] _ = _
  simp [Toy.searchFrom, h1, List.cons_prefix_cons]

theorem drop_text {n k : Nat} (hk : k < n) : (text n).drop k = 0x61 :: text (n - k - 1) := by
  unfold text
  rw [List.drop_replicate, show n - k = (n - k - 1) + 1 from by omega, List.replicate_succ]
  rfl

theorem cand_a {s : Bytes} {w : Word} (hw : Candidate dict none (0x61 :: s) w) : w = w0 ∨ w = w1 := by
  cases hw with
  | user id l h => cases h
  | known id l _ h =>
    rw [search_a] at h
    simp only [List.mem_cons, Prod.mk.injEq, List.not_mem_nil, or_false] at h
    rcases h with ⟨rfl, rfl⟩ | ⟨rfl, rfl⟩
    · exact .inl rfl
    · exact .inr rfl
  | unknown x w _ _ h =>
    rw [search_a] at h
    rcases h with h | h
    · cases h
    · cases h

theorem cand_text {n k pos : Nat} {rest : Bytes} (hat : At (text n) k pos rest) {w : Word} (hw : Candidate dict none rest w) :
    k < n ∧ (w = w0 ∨ w = w1) := by
  have hle : k ≤ n := by have := hat.le; rw [runes_text] at this; simpa using this
  obtain ⟨_, rfl⟩ := at_unique hat (at_text n k hle)
  by_cases h1 : k < n
  · rw [drop_text h1] at hw
    exact ⟨h1, cand_a hw⟩
  · exfalso
    have hn : (text n).drop k = [] := by unfold text; rw [List.drop_replicate, show n - k = 0 by omega]; rfl
    rw [hn] at hw
    have hs : dict.prefixSearch [] = [] := by decide
    cases hw with
    | user id l h => cases h
    | known id l _ h => rw [hs] at h; cases h
    | unknown x w _ h => exact h rfl

theorem cand_w0 (s : Bytes) : Candidate dict none (0x61 :: s) w0 := Candidate.known 0 1 rfl (by rw [search_a]; simp)
theorem cand_w1 (s : Bytes) : Candidate dict none (0x61 :: s) w1 := Candidate.known 1 1 rfl (by rw [search_a]; simp)

theorem step_short (ideo : Nat → Bool) (m : LMode) {w w' : Word} (h : runeCount w.surface ≤ 2) :
    stepCost dict ideo m w w' = connect dict w w' + (morphOfWord dict w').weight.toInt := by
  unfold stepCost
  rw [Heavy.penalty_short ideo h]
  simp

section
variable (ideo : Nat → Bool) (m : LMode)
theorem step_b0 : stepCost dict ideo m boundary w0 = -32768 := by rw [step_short _ _ (by decide)]; decide
theorem step_b1 : stepCost dict ideo m boundary w1 = 0 := by rw [step_short _ _ (by decide)]; decide
theorem step_00 : stepCost dict ideo m w0 w0 = -65536 := by rw [step_short _ _ (by decide)]; decide
theorem step_01 : stepCost dict ideo m w0 w1 = 0 := by rw [step_short _ _ (by decide)]; decide
theorem step_10 : stepCost dict ideo m w1 w0 = -32768 := by rw [step_short _ _ (by decide)]; decide
theorem step_11 : stepCost dict ideo m w1 w1 = 0 := by rw [step_short _ _ (by decide)]; decide
theorem step_0b : stepCost dict ideo m w0 boundary = 0 := by rw [step_short _ _ (by decide)]; decide
theorem step_1b : stepCost dict ideo m w1 boundary = 0 := by rw [step_short _ _ (by decide)]; decide
end

theorem int32_wrap {x : Int} (h1 : -6442450944 ≤ x) (h2 : x < -2147483648) : int32 x = x + 4294967296 := by
  unfold int32
  omega

section
variable {ideo : Nat → Bool} {m : LMode} {n : Nat} {cols0 cols : Cols}

theorem rep (n : Nat) : ReplacementOk dict (text n) := Or.inl rfl

theorem word_of_skel {x : Node} {w : Word} {pos k : Nat} (hsk : skel x = mkNode dict w.cls w.id pos k w.surface) : wordOf x = w ∧ x.start = k := by
  have h1 := congrArg Node.cls hsk
  have h2 := congrArg Node.id hsk
  have h3 := congrArg Node.surface hsk
  have h4 := congrArg Node.start hsk
  refine ⟨?_, h4⟩
  unfold wordOf
  change x.cls = w.cls at h1
  change x.id = w.id at h2
  change x.surface = w.surface at h3
  rw [h1, h2, h3]

theorem node_text (h : Solved dict none ideo m (text n) cols0 cols) {i j : Nat} {x : Node} (hi : 1 ≤ i) (hi2 : i ≤ n)
    (hx : getNode cols i j = some x) : (wordOf x = w0 ∨ wordOf x = w1) ∧ x.start + 1 = i := by
  obtain ⟨k, pos, rest, w, hat, hw, hik, hsk⟩ := h.mid (rep n) hi (by rw [count_text]; exact hi2) hx
  obtain ⟨hwd, hst⟩ := word_of_skel hsk
  have h1 := (cand_text hat hw).2
  have h2 : runeCount w.surface = 1 := by rcases h1 with rfl | rfl <;> decide
  exact ⟨by rw [hwd]; exact h1, by omega⟩

theorem have_node (h : Solved dict none ideo m (text n) cols0 cols) (hl : Lat dict none (text n) cols0) {k : Nat} (hk : k < n) :
    (∃ j x, getNode cols (k + 1) j = some x ∧ wordOf x = w0) ∧ ∃ j x, getNode cols (k + 1) j = some x ∧ wordOf x = w1 := by
  have c0 := cand_w0 (text (n - k - 1))
  have c1 := cand_w1 (text (n - k - 1))
  rw [← drop_text hk] at c0 c1
  obtain ⟨j, x, hx, hsk⟩ := h.cand wellFormed hl (at_text n k (by omega)) c0
  obtain ⟨j', x', hx', hsk'⟩ := h.cand wellFormed hl (at_text n k (by omega)) c1
  exact ⟨⟨j, x, hx, (word_of_skel hsk).1⟩, j', x', hx', (word_of_skel hsk').1⟩

/-- What a node costs after another one. -/
theorem cost_after (h : Solved dict none ideo m (text n) cols0 cols) {i j i' j' : Nat} {x p : Node} (hx : getNode cols i j = some x) (hi : 1 ≤ i)
    (hp : getNode cols i' j' = some p) (hi' : 1 ≤ i') :
    candCost dict ideo m p x = int32 (min 2147483647 (p.cost + stepCost dict ideo m (wordOf p) (wordOf x))) := by
  rw [totalCost_eq wellFormed (h.table wellFormed hp) (h.table wellFormed hx)]
  rfl

/-- The first column. -/
theorem first_node (h : Solved dict none ideo m (text n) cols0 cols) (hn : 1 ≤ n) {j : Nat} {x : Node} (hx : getNode cols 1 j = some x) :
    x.prev = some (0, 0) ∧ x.cost = (if wordOf x = w0 then -32768 else 0) := by
  obtain ⟨hw, hs⟩ := node_text h (by omega) hn hx
  obtain ⟨-, heq⟩ := h.eqn wellFormed (by omega) hx
  have hs0 : x.start = 0 := by omega
  rw [hs0] at heq
  rcases heq with ⟨he, -⟩ | ⟨j', p, hp, hpr, hc, -⟩
  · rw [h.bos] at he; cases he
  · obtain ⟨rfl, rfl⟩ := h.bos_node hp
    refine ⟨hpr, ?_⟩
    rw [hc, totalCost_eq wellFormed (bos_table _) (h.table wellFormed hx), show wordOf bosNode = boundary from rfl, show bosNode.cost = 0 from rfl,
      show maximumCost = 2147483647 from rfl]
    rcases hw with e | e <;> rw [e]
    · rw [step_b0, if_pos rfl]; decide
    · rw [step_b1, if_neg (by decide)]; decide

/-- The other columns, and EOS. -/
theorem next_node (h : Solved dict none ideo m (text n) cols0 cols) (hl : Lat dict none (text n) cols0) {k j : Nat} {x : Node} {i : Nat} (hk : k < n) (hi : 1 ≤ i)
    (hx : getNode cols i j = some x) (hs : x.start = k + 1) : ∃ j' p, getNode cols (k + 1) j' = some p ∧ x.prev = some (k + 1, j') ∧
      x.cost = int32 (min 2147483647 (p.cost + stepCost dict ideo m (wordOf p) (wordOf x))) ∧
      ∀ j'' q, getNode cols (k + 1) j'' = some q → x.cost ≤ int32 (min 2147483647 (q.cost + stepCost dict ideo m (wordOf q) (wordOf x))) := by
  obtain ⟨-, heq⟩ := h.eqn wellFormed hi hx
  rw [hs] at heq
  rcases heq with ⟨he, -⟩ | ⟨j', p, hp, hpr, hc, hmin⟩
  · obtain ⟨⟨j0, x0, hx0, -⟩, -⟩ := have_node h hl hk
    unfold getNode at hx0; rw [he] at hx0; simp at hx0
  · refine ⟨j', p, hp, hpr, by rw [hc, cost_after h hx hi hp (by omega)], fun j'' q hq => ?_⟩
    rw [← cost_after h hx hi hq (by omega)]
    exact hmin _ _ hq

/-- As long as the costs are in range. -/
theorem cost_text (h : Solved dict none ideo m (text n) cols0 cols) (hl : Lat dict none (text n) cols0) (k : Nat) (hk : k < n) (hr : k < 32768) :
    ∀ j x, getNode cols (k + 1) j = some x →
      (wordOf x = w0 → x.cost = -32768 - 65536 * (k : Int)) ∧
      (wordOf x = w1 → x.cost = if k = 0 then 0 else 32768 - 65536 * (k : Int)) := by
  induction k with
  | zero =>
    intro j x hx
    obtain ⟨-, hc⟩ := first_node h (by omega) hx
    constructor
    · intro e; rw [hc, if_pos e]; decide
    · intro e; rw [hc, if_neg (by rw [e]; decide), if_pos rfl]
  | succ k ih =>
    have ih := ih (by omega) (by omega)
    intro j x hx
    obtain ⟨hw, hs⟩ := node_text h (by omega) (by omega) hx
    obtain ⟨j', p, hp, -, hc, hmin⟩ := next_node h hl (show k < n by omega) (by omega) hx (by omega)
    obtain ⟨⟨j0, q, hq, hqw⟩, -⟩ := have_node h hl (show k < n by omega)
    have hq0 := (ih _ _ hq).1 hqw
    have hle := hmin _ _ hq
    have hpw := (node_text h (by omega) (by omega) hp).1
    rw [hq0, hqw] at hle
    constructor
    · intro e
      rw [e, step_00] at hle
      rw [e] at hc
      rcases hpw with e' | e'
      · rw [(ih _ _ hp).1 e', e', step_00] at hc
        rw [hc, int32_id (by omega) (by omega)]
        omega
      · rw [(ih _ _ hp).2 e', e', step_10] at hc
        rw [hc, int32_id (by split <;> omega) (by split <;> omega), int32_id (by omega) (by omega)] at hle
        split at hle <;> omega
    · intro e
      rw [e, step_01] at hle
      rw [e] at hc
      rw [if_neg (by omega)]
      rcases hpw with e' | e'
      · rw [(ih _ _ hp).1 e', e', step_01] at hc
        rw [hc, int32_id (by omega) (by omega)]
        omega
      · rw [(ih _ _ hp).2 e', e', step_11] at hc
        rw [hc, int32_id (by split <;> omega) (by split <;> omega), int32_id (by omega) (by omega)] at hle
        split at hle <;> omega

/-- The path to a cheap word, as long as the costs are in range: cheap words. -/
theorem chain_cheap (h : Solved dict none ideo m (text n) cols0 cols) (hl : Lat dict none (text n) cols0) (k : Nat) (hk : k < n) (hr : k < 32768) :
    ∀ j x L, getNode cols (k + 1) j = some x → wordOf x = w0 → PrevChain cols (k + 1) j L → L.map wordOf = List.replicate (k + 1) w0 ++ [boundary] := by
  induction k with
  | zero =>
    intro j x L hx hw hL
    obtain ⟨hpr, -⟩ := first_node h (by omega) hx
    cases hL with
    | last hn' hp' => rw [hx] at hn'; cases hn'; rw [hpr] at hp'; cases hp'
    | step hn' hp' hL' =>
      rw [hx] at hn'; cases hn'; rw [hpr] at hp'; cases hp'
      cases hL' with
      | last hn2 hp2 =>
        obtain ⟨-, rfl⟩ := h.bos_node hn2
        rw [List.map_cons, hw]
        rfl
      | step hn2 hp2 _ =>
        obtain ⟨-, rfl⟩ := h.bos_node hn2
        cases hp2
  | succ k ih =>
    intro j x L hx hw hL
    obtain ⟨-, hs⟩ := node_text h (by omega) (by omega) hx
    obtain ⟨j', p, hp, hpr, hc, -⟩ := next_node h hl (show k < n by omega) (by omega) hx (by omega)
    have hxc := (cost_text h hl (k + 1) hk hr _ _ hx).1 hw
    have hpc := cost_text h hl k (by omega) (by omega) _ _ hp
    have hpw : wordOf p = w0 := by
      rcases (node_text h (by omega) (by omega) hp).1 with e | e
      · exact e
      · rw [hxc, hpc.2 e, e, hw, step_10, int32_id (by split <;> omega) (by split <;> omega)] at hc
        split at hc <;> omega
    cases hL with
    | last hn' hp' => rw [hx] at hn'; cases hn'; rw [hpr] at hp'; cases hp'
    | step hn' hp' hL' =>
      rw [hx] at hn'; cases hn'; rw [hpr] at hp'; cases hp'
      rw [List.map_cons, ih (by omega) (by omega) _ _ _ hp hpw hL', hw]
      rfl

/-- The best path through 32769 times "a". -/
theorem chain_text (h : Solved dict none ideo m (text n) cols0 cols) (hl : Lat dict none (text n) cols0) (hn : n = 32769) {L : List Node}
    (hL : PrevChain cols (n + 1) 0 L) : L.map wordOf = [boundary, w1] ++ List.replicate 32768 w0 ++ [boundary] := by
  obtain ⟨e, he, hske⟩ := h.eos
  rw [count_text] at he
  have hew : wordOf e = boundary := by
    have h1 := congrArg Node.cls hske
    have h2 := congrArg Node.id hske
    have h3 := congrArg Node.surface hske
    unfold wordOf
    change e.cls = .dummy at h1
    change e.id = -1 at h2
    change e.surface = [] at h3
    rw [h1, h2, h3]; rfl
  have hes : e.start = n := by
    have := congrArg Node.start hske
    rw [show (eosNode (text n)).start = runeCount (text n) from rfl, count_text] at this
    exact this
  have hcost := cost_text h hl 32767 (by omega) (by omega)
  obtain ⟨⟨ja, a, ha, haw⟩, -⟩ := have_node h hl (show 32767 < n by omega)
  have hac := (hcost _ _ ha).1 haw
  -- the last column: the cheap entry is reached from the dear one only
  have hdear : ∀ j x, getNode cols (32768 + 1) j = some x → wordOf x = w0 → -2147418112 ≤ x.cost := by
    intro j x hx hw
    obtain ⟨-, hs⟩ := node_text h (by omega) (by omega) hx
    obtain ⟨j', p, hp, -, hc, -⟩ := next_node h hl (show 32767 < n by omega) (by omega) hx (by omega)
    rcases (node_text h (by omega) (by omega) hp).1 with e' | e'
    · rw [(hcost _ _ hp).1 e', e', hw, step_00, int32_wrap (by omega) (by omega)] at hc
      omega
    · rw [(hcost _ _ hp).2 e', e', hw, step_10, if_neg (by omega), int32_id (by omega) (by omega)] at hc
      omega
  have hcheap : ∀ j x, getNode cols (32768 + 1) j = some x → wordOf x = w1 → x.cost = -2147450880 ∧
      ∃ j' p, getNode cols 32768 j' = some p ∧ x.prev = some (32768, j') ∧ wordOf p = w0 := by
    intro j x hx hw
    obtain ⟨-, hs⟩ := node_text h (by omega) (by omega) hx
    obtain ⟨j', p, hp, hpr, hc, hmin⟩ := next_node h hl (show 32767 < n by omega) (by omega) hx (by omega)
    have hle := hmin _ _ ha
    rw [hac, haw, hw, step_01, int32_id (by omega) (by omega)] at hle
    rcases (node_text h (by omega) (by omega) hp).1 with e' | e'
    · rw [(hcost _ _ hp).1 e', e', hw, step_01, int32_id (by omega) (by omega)] at hc
      exact ⟨by omega, j', p, hp, hpr, e'⟩
    · rw [(hcost _ _ hp).2 e', e', hw, step_11, if_neg (by omega), int32_id (by omega) (by omega)] at hc
      omega
  obtain ⟨-, ⟨jb, b, hb, hbw⟩⟩ := have_node h hl (show 32768 < n by omega)
  obtain ⟨j', p, hp, hpr, hc, hmin⟩ := next_node h hl (show 32768 < n by omega) (by omega) he (by omega)
  have hle := hmin _ _ hb
  rw [(hcheap _ _ hb hbw).1, hbw, hew, step_1b, int32_id (by omega) (by omega)] at hle
  have hmx : p.cost ≤ 2147483647 := by
    obtain ⟨-, hs⟩ := node_text h (by omega) (by omega) hp
    obtain ⟨_, _, _, _, hpc, _⟩ := next_node h hl (show 32767 < n by omega) (by omega) hp (by omega)
    rw [hpc]
    unfold int32
    omega
  have hpw : wordOf p = w1 := by
    rcases (node_text h (by omega) (by omega) hp).1 with e' | e'
    · have := hdear _ _ hp e'
      rw [e', hew, step_0b, int32_id (by omega) (by omega)] at hc
      omega
    · exact e'
  obtain ⟨-, j2, p2, hp2, hpr2, hpw2⟩ := hcheap _ _ hp hpw
  cases hL with
  | last hn' hp' => rw [he] at hn'; cases hn'; rw [hpr] at hp'; cases hp'
  | step hn' hp' hL' =>
    rw [he] at hn'; cases hn'; rw [hpr] at hp'; cases hp'
    cases hL' with
    | last hn' hp' => rw [hp] at hn'; cases hn'; rw [hpr2] at hp'; cases hp'
    | step hn' hp' hL' =>
      rw [hp] at hn'; cases hn'; rw [hpr2] at hp'; cases hp'
      rw [List.map_cons, List.map_cons, chain_cheap h hl 32767 (by omega) (by omega) _ _ _ hp2 hpw2 hL', hew, hpw]
      rfl

end

theorem tokenLoop_words (t : Tokenizer) (ns : List Node) : ∀ i k, (inner (tokenLoop t i k ns)).map wordOfToken = (ns.map wordOf).filter (fun w => w.id ≠ -1) := by
  induction ns with
  | nil => intro i k; rfl
  | cons x ns ih =>
    intro i k
    rw [tokenLoop, List.map_cons]
    by_cases hx : x.id = -1
    · rw [List.filter_cons_of_neg (by simp [wordOf, hx])]
      split
      · exact ih _ _
      · unfold inner
        rw [List.filter_cons_of_neg (by simp [mkToken, hx])]
        exact ih _ _
    · rw [List.filter_cons_of_pos (by simp [wordOf, hx]), if_neg (by rintro ⟨-, h⟩; exact hx h)]
      unfold inner
      rw [List.filter_cons_of_pos (by simp [mkToken, hx]), List.map_cons]
      congr 1
      · simp [wordOfToken, mkToken, wordOf, bosEosID, hx]
      · exact ih _ _

theorem analysis_cheap (n : Nat) : Analysis dict none (text n) (List.replicate n w0) := by
  induction n with
  | zero => exact .nil
  | succ n ih => exact .cons w0 (text n) _ (cand_w0 _) ih

theorem analysis_found (n : Nat) : Analysis dict none (text (n + 1)) (List.replicate n w0 ++ [w1]) := by
  induction n with
  | zero => exact .cons w1 [] _ (cand_w1 _) .nil
  | succ n ih => exact .cons w0 (text (n + 1)) _ (cand_w0 _) ih

theorem cost_cheap (ideo : Nat → Bool) (m : LMode) (n : Nat) : cost dict ideo m (List.replicate (n + 1) w0) = -32768 - 65536 * (n : Int) := by
  have key : ∀ n : Nat, chainCost dict ideo m (List.replicate (n + 1) w0 ++ [boundary]) = -65536 * (n : Int) := by
    intro n
    induction n with
    | zero =>
      change stepCost dict ideo m w0 boundary + 0 = _
      rw [step_0b]; rfl
    | succ n ih =>
      change stepCost dict ideo m w0 w0 + chainCost dict ideo m (List.replicate (n + 1) w0 ++ [boundary]) = _
      rw [ih, step_00]
      omega
  change stepCost dict ideo m boundary w0 + chainCost dict ideo m (List.replicate (n + 1) w0 ++ [boundary]) = _
  rw [key, step_b0]
  omega

theorem cost_found (ideo : Nat → Bool) (m : LMode) (n : Nat) : cost dict ideo m (List.replicate (n + 1) w0 ++ [w1]) = -32768 - 65536 * (n : Int) := by
  have key : ∀ n : Nat, chainCost dict ideo m (List.replicate (n + 1) w0 ++ [w1] ++ [boundary]) = -65536 * (n : Int) := by
    intro n
    induction n with
    | zero =>
      change stepCost dict ideo m w0 w1 + (stepCost dict ideo m w1 boundary + 0) = _
      rw [step_01, step_1b]; rfl
    | succ n ih =>
      change stepCost dict ideo m w0 w0 + chainCost dict ideo m (List.replicate (n + 1) w0 ++ [w1] ++ [boundary]) = _
      rw [ih, step_00]
      omega
  change stepCost dict ideo m boundary w0 + chainCost dict ideo m (List.replicate (n + 1) w0 ++ [w1] ++ [boundary]) = _
  rw [key, step_b0]
  omega

theorem wraps (ideo : Nat → Bool) (mode : Int) (k : Nat) (hk : k = 32767) :
    ∃ toks, analyze tok ideo (text (k + 2)) mode = some toks ∧ (inner toks).map wordOfToken = List.replicate (k + 1) w0 ++ [w1] := by
  obtain ⟨cols0, cols, L, hsol, hb, hf, hL, hs⟩ := solve_weak (t := tok) wellFormed ideo (text (k + 2)) (latticeMode mode)
  have hlat : Lat dict none (text (k + 2)) cols0 := by
    obtain ⟨c', hb', hl'⟩ := build_lat wellFormed (rep (k + 2))
    rw [show tok.dict = dict from rfl, show tok.userDict = none from rfl, hb'] at hb
    simp only [Option.some.injEq] at hb
    rw [← hb]; exact hl'
  rw [count_text] at hL
  have hw := chain_text hsol hlat (by omega) hL
  rw [show 32768 = k + 1 by omega] at hw
  have hcls : ∀ x ∈ L, emit (latticeMode mode) x = [x] := by
    intro x hx
    have : wordOf x ∈ [boundary, w1] ++ List.replicate (k + 1) w0 ++ [boundary] := hw ▸ List.mem_map_of_mem hx
    simp only [List.mem_append, List.mem_cons, List.not_mem_nil, or_false, List.mem_replicate] at this
    have hne : (wordOf x).cls ≠ .unknown := by
      rcases this with ((e | e) | ⟨-, e⟩) | e <;> rw [e] <;> decide
    unfold emit
    rw [if_pos (.inr hne)]
  have hem : L.flatMap (emit (latticeMode mode)) = L := by
    clear hs hL hw
    induction L with
    | nil => rfl
    | cons x L ih => rw [List.flatMap_cons, hcls x (by simp), ih fun y hy => hcls y (by simp [hy])]; rfl
  refine ⟨_, by unfold analyze; rw [hs, hem]; rfl, ?_⟩
  rw [tokenLoop_words, List.map_reverse, hw, List.reverse_append, List.reverse_append, List.reverse_replicate, List.filter_append, List.filter_append,
    List.filter_replicate, if_pos (by decide)]
  rfl

theorem wraps_costs (ideo : Nat → Bool) (m : LMode) (k : Nat) (hk : k = 32767) :
    cost dict ideo m (List.replicate (k + 2) w0) = cost dict ideo m (List.replicate (k + 1) w0 ++ [w1]) - 65536 ∧
    cost dict ideo m (List.replicate (k + 2) w0) < -2147483648 := by
  rw [cost_cheap ideo m (k + 1), cost_found ideo m k]
  omega

/-- C46: below `-2^31` costs wrap around: with a well-formed dictionary, two entries for "a" and 32769 times "a", in every mode, the words returned cover the text but
are not the cheapest, for the cost of the cheapest is `-32768 - 65536 * 32768 < -2^31`. -/
theorem C46_wraps (ideo : Nat → Bool) (mode : Int) :
    WellFormed tok.dict tok.userDict ∧ ReplacementOk tok.dict (text 32769) ∧
    ∃ toks best, analyze tok ideo (text 32769) mode = some toks ∧ (inner toks).map wordOfToken = List.replicate 32768 w0 ++ [w1] ∧
      Analysis tok.dict tok.userDict (text 32769) ((inner toks).map wordOfToken) ∧ Analysis tok.dict tok.userDict (text 32769) best ∧
      cost tok.dict ideo (latticeMode mode) best = cost tok.dict ideo (latticeMode mode) ((inner toks).map wordOfToken) - 65536 ∧
      cost tok.dict ideo (latticeMode mode) best < -2147483648 := by
  obtain ⟨toks, h1, h2⟩ := wraps ideo mode 32767 rfl
  obtain ⟨h3, h4⟩ := wraps_costs ideo (latticeMode mode) 32767 rfl
  have h5 := analysis_found (32767 + 1)
  have h6 := analysis_cheap (32767 + 2)
  rw [← h2] at h3 h5
  exact ⟨wellFormed, rep _, toks, _, h1, h2, h5, h6, h3, h4⟩

end Kagome.Light
