import Verif.Props.Segmentation

/-! C46: what is left of the guarantees when the costs reach the limit of 32 bits. -/

namespace Kagome

open Spec

theorem located_surfaces : ∀ (toks : List Token) (ps : List Bytes) (a b : Nat), Located (Stands false) a b toks ps →
    toks.flatMap (fun tok => tok.surface) = ps.flatten := by
  intro toks
  induction toks with
  | nil =>
    intro ps a b h
    cases ps with
    | nil => rfl
    | cons p ps => exact absurd h (by simp [Located])
  | cons x toks ih =>
    intro ps a b h
    cases ps with
    | nil => exact absurd h (by simp [Located])
    | cons p ps =>
      obtain ⟨_, _, _, ⟨_, _, _, hs, _⟩, h5⟩ := h
      simp only [Bool.false_eq_true, false_and, if_false] at hs
      simp only [List.flatMap_cons, List.flatten_cons, ih _ _ _ h5, hs]

/-- C46: for a text of any length the surfaces are the end of the text, and whatever is missing at its beginning is missing together with
BOS. -/
theorem C46_suffix {t : Tokenizer} (wf : WellFormed t.dict t.userDict) {ideo : Nat → Bool} {inp : Bytes} (hrep : ReplacementOk t.dict inp)
    (ho : t.omitBosEos = false) {mode : Int} (hm : mode ≠ modeExtended) {toks : List Token} (ha : analyze t ideo inp mode = some toks) :
    ∃ lost, lost ++ (inner toks).flatMap (fun tok => tok.surface) = inp ∧
      (lost = [] ↔ ∃ tok rest, toks = tok :: rest ∧ tok.id = -1 ∧ tok.surface = str "BOS") := by
  obtain ⟨linked, k, pos, rest, ws, ns, hat, hana, hl, hul, hns, h1, h2, _⟩ := analyze_main wf ideo hrep mode
  rw [show { t with omitBosEos := false } = t from by rw [← ho]] at h2
  rw [ha] at h2
  simp only [Option.some.injEq] at h2
  have hids : ∀ k', ∀ tok ∈ body t k' ns, tok.id ≠ -1 := by
    intro k' tok ht
    rw [hns] at ht
    obtain ⟨p, hp⟩ := located_rel (words_located t t.dict wf (latticeMode mode) hana pos k k').1 tok ht
    exact hp.2.1
  have hext : isExt (latticeMode mode) = false := by rw [latticeMode_ext, decide_eq_false hm]
  have hflat : ∀ k', (body t k' ns).flatMap (fun tok => tok.surface) = rest := by
    intro k'
    have hw := (words_located t t.dict wf (latticeMode mode) hana pos k k').1
    rw [← hns, hext] at hw
    rw [located_surfaces _ _ _ _ hw]
    exact (pieces_runes wf false hana).1
  have hin : (inner toks).flatMap (fun tok => tok.surface) = rest := by
    rw [h2]
    unfold inner
    rw [List.filter_append, List.filter_append]
    have := inner_body t (hids (if linked then 1 else 0))
    unfold inner at this
    rw [this]
    cases linked <;> simpa [boundaryToken, bosEosID] using hflat _
  refine ⟨inp.take pos, by rw [hin, ← hat.drop, List.take_append_drop], ?_⟩
  have hpos : inp.take pos = [] ↔ linked = true := by
    cases hlk : linked with
    | true =>
      obtain ⟨_, rfl, _⟩ := hl hlk
      simp
    | false =>
      have hk := (hul hlk).1
      have hle := hat.le
      have hpre := hat.pre
      simp only [Bool.false_eq_true, iff_false]
      intro h0
      have hlen : pos ≤ inp.length := by have := hat.len; omega
      have : pos = 0 := by
        have := congrArg List.length h0
        simp only [List.length_take, List.length_nil] at this
        omega
      subst this
      have hat0 : At inp 0 0 inp := by
        have := at_of_le (inp := inp) (k := 0) (by omega)
        simpa using this
      have e1 := at_count hat
      have e2 := at_count hat0
      have e3 : rest = inp := by rw [← hat.drop]; simp
      rw [e3] at e1
      omega
  rw [hpos]
  cases hlk : linked with
  | true =>
    rw [hlk] at h2
    simp only [true_iff]
    exact ⟨_, _, by rw [h2]; rfl, rfl, rfl⟩
  | false =>
    rw [hlk] at h2
    simp only [Bool.false_eq_true, if_false, List.nil_append, false_iff] at h2 ⊢
    rintro ⟨tok, r, h3, h4, h5⟩
    rw [h2] at h3
    cases hb : body t 0 ns with
    | nil =>
      rw [hb] at h3
      simp only [List.nil_append, List.cons.injEq] at h3
      rw [← h3.1] at h5
      exact absurd (show str "EOS" = str "BOS" from h5) (by decide)
    | cons x xs =>
      rw [hb] at h3
      simp only [List.cons_append, List.cons.injEq] at h3
      exact hids 0 tok (by rw [hb, h3.1]; simp) h4

/-! ### A dictionary and texts for which the beginning is lost -/

namespace Heavy

def connection (x y : Int) : Option Int16 :=
  if 0 ≤ x ∧ x ≤ 2 ∧ 0 ≤ y ∧ y ≤ 2 then some (if x = 1 ∧ y = 1 then 32767 else if x = 2 ∧ y = 0 then -1 else 0) else none

def keys : List String := ["a", "bc", "c"]

/-- A well-formed dictionary with three words and high costs. -/
def dict : Dict where
  morphs := [⟨1, 1, 32767⟩, ⟨1, 1, 32767⟩, ⟨2, 2, 0⟩]
  poss := []
  nameList := []
  contentsMeta := fun _ => none
  contents := none
  connection := connection
  prefixSearch := Toy.searchFrom 0 keys
  category := fun _ => 0
  invokeList := [false]
  groupList := [true]
  unk := { morphs := [⟨1, 1, 0⟩], index := fun _ => 0, indexDup := fun _ => 0, contentsMeta := fun _ => none, contents := [] }

theorem wellFormed : WellFormed dict none where
  known_hit := by
    intro s id l h
    obtain ⟨a, b, c, _, e⟩ := Toy.searchFrom_hit (by decide) h
    exact ⟨a, b, c, by simpa [keys, dict] using e⟩
  user_hit := by intro ud h; cases h
  group_flag := by intro r; change 0 < 1; decide
  invoke_flag := by intro r; change 0 < 1; decide
  unk_entry := by intro r; change (0 : Int) ≤ 0 ∧ (0 : Int) ≤ 0 ∧ (0 : Int) + 0 < 1; decide
  conn := by
    have h : ∀ a ∈ Morph.zero :: dict.morphs ++ dict.unk.morphs, ∀ b ∈ Morph.zero :: dict.morphs ++ dict.unk.morphs,
        (dict.connection a.right.toInt b.left.toInt).isSome = true := by decide
    exact fun a b ha hb => h a ha b hb

def tok : Tokenizer := ⟨dict, none, false⟩

/-- `n` times "a", then "bc". -/
def text (n : Nat) : Bytes := List.replicate n 0x61 ++ [0x62, 0x63]

def wa : Word := ⟨.known, 0, [0x61]⟩
def wbc : Word := ⟨.known, 1, [0x62, 0x63]⟩
def wc : Word := ⟨.known, 2, [0x63]⟩

theorem runes_text (n : Nat) : runes (text n) = List.replicate n (0x61, 1) ++ [(0x62, 1), (0x63, 1)] := by
  induction n with
  | zero => decide
  | succ n ih =>
    have e : text (n + 1) = 0x61 :: text n := rfl
    have hd : decodeRune (0x61 :: text n) = (0x61, 1) := by
      unfold decodeRune decodeValid; simp
    rw [e, runes_cons (by simp), hd, List.replicate_succ]
    simp [ih]

theorem count_text (n : Nat) : runeCount (text n) = n + 2 := by
  unfold runeCount; rw [runes_text]; simp

theorem at_text (n k : Nat) (hk : k ≤ n + 2) : At (text n) k k ((text n).drop k) := by
  have hr := runes_text n
  have h1 : k ≤ (runes (text n)).length := by rw [hr]; simp; omega
  have h2 := at_of_le h1
  have h3 : wsum ((runes (text n)).take k) = k := by
    have hall : ∀ l : List (Nat × Nat), (∀ r ∈ l, r.2 = 1) → wsum l = l.length := by
      intro l
      induction l with
      | nil => intro _; rfl
      | cons a l ih => intro h; simp only [wsum, List.map_cons, List.sum_cons, List.length_cons] at *; rw [ih (fun r hr => h r (by simp [hr])), h a (by simp)]; omega
    rw [hall, List.length_take]
    · omega
    · intro r hrm
      have := List.mem_of_mem_take hrm
      rw [hr] at this
      simp only [List.mem_append, List.mem_replicate, List.mem_cons, List.not_mem_nil, or_false] at this
      rcases this with ⟨_, rfl⟩ | rfl | rfl <;> rfl
  rw [h3] at h2
  exact h2

theorem search_a (s : Bytes) : dict.prefixSearch (0x61 :: s) = [(0, 1)] := by
  have h1 : str "a" = [0x61] := by decide
  have h2 : str "bc" = [0x62, 0x63] := by decide
  have h3 : str "c" = [0x63] := by decide
  change Toy.searchFrom 0 ["a", "bc", "c"] _ = _
  simp [Toy.searchFrom, h1, h2, h3, List.cons_prefix_cons]

theorem drop_text {n k : Nat} (hk : k < n) : (text n).drop k = 0x61 :: text (n - k - 1) := by
  unfold text
  rw [List.drop_append_of_le_length (by simp; omega), List.drop_replicate, show n - k = (n - k - 1) + 1 from by omega, List.replicate_succ]
  rfl

/-- The candidates at each place of the text. -/
theorem cand_text {n k pos : Nat} {rest : Bytes} (hat : At (text n) k pos rest) {w : Word} (hw : Candidate dict none rest w) :
    k < n ∧ w = wa ∨ k = n ∧ w = wbc ∨ k = n + 1 ∧ w = wc := by
  have hle : k ≤ n + 2 := by have := hat.le; rw [runes_text] at this; simpa using this
  obtain ⟨_, rfl⟩ := at_unique hat (at_text n k hle)
  have hinv : ∀ c, dict.invokeList[dict.category c]? ≠ some true := by intro c h; cases h
  by_cases h1 : k < n
  · left
    rw [drop_text h1] at hw
    refine ⟨h1, ?_⟩
    cases hw with
    | user id l h => cases h
    | known id l _ h =>
      rw [search_a] at h
      simp only [List.mem_singleton, Prod.mk.injEq] at h
      obtain ⟨rfl, rfl⟩ := h
      rfl
    | unknown x w _ _ h =>
      rw [search_a] at h
      rcases h with h | h
      · cases h
      · exact absurd h (hinv _)
  · have h2 : k = n ∨ k = n + 1 ∨ k = n + 2 := by omega
    have hd : ∀ j, (text n).drop (n + j) = [0x62, 0x63].drop j := by
      intro j
      unfold text
      rw [List.drop_append]
      simp
    rcases h2 with rfl | rfl | rfl
    · right; left
      have := hd 0
      simp only [Nat.add_zero, List.drop_zero] at this
      rw [this] at hw
      refine ⟨rfl, ?_⟩
      have hs : dict.prefixSearch [0x62, 0x63] = [(1, 2)] := by decide
      cases hw with
      | user id l h => cases h
      | known id l _ h =>
        rw [hs] at h
        simp only [List.mem_singleton, Prod.mk.injEq] at h
        obtain ⟨rfl, rfl⟩ := h
        rfl
      | unknown x w _ _ h =>
        rw [hs] at h
        rcases h with h | h
        · cases h
        · exact absurd h (hinv _)
    · right; right
      rw [hd 1] at hw
      refine ⟨rfl, ?_⟩
      have hs : dict.prefixSearch [0x63] = [(2, 1)] := by decide
      simp only [List.drop_succ_cons, List.drop_zero] at hw
      cases hw with
      | user id l h => cases h
      | known id l _ h =>
        rw [hs] at h
        simp only [List.mem_singleton, Prod.mk.injEq] at h
        obtain ⟨rfl, rfl⟩ := h
        rfl
      | unknown x w _ _ h =>
        rw [hs] at h
        rcases h with h | h
        · cases h
        · exact absurd h (hinv _)
    · rw [hd 2] at hw
      exfalso
      have hs : dict.prefixSearch [] = [] := by decide
      simp only [List.drop_succ_cons, List.drop_zero] at hw
      cases hw with
      | user id l h => cases h
      | known id l _ h => rw [hs] at h; cases h
      | unknown x w _ h => exact h rfl

theorem cand_wa {n k : Nat} (hk : k < n) : Candidate dict none ((text n).drop k) wa := by
  rw [drop_text hk]
  exact Candidate.known 0 1 rfl (by rw [search_a]; simp)

theorem drop_n (n : Nat) : (text n).drop n = [0x62, 0x63] := by unfold text; rw [List.drop_append]; simp
theorem drop_n1 (n : Nat) : (text n).drop (n + 1) = [0x63] := by unfold text; rw [List.drop_append]; simp

theorem cand_wbc (n : Nat) : Candidate dict none ((text n).drop n) wbc := by
  rw [drop_n]
  exact Candidate.known 1 2 rfl (by decide)

theorem cand_wc (n : Nat) : Candidate dict none ((text n).drop (n + 1)) wc := by
  rw [drop_n1]
  exact Candidate.known 2 1 rfl (by decide)

theorem penalty_short (ideo : Nat → Bool) {w : Word} (h : runeCount w.surface ≤ 2) : penalty ideo w = 0 := by
  unfold penalty
  rw [if_neg (by rintro ⟨h1, _⟩; omega), if_neg (by omega)]

theorem step_short (ideo : Nat → Bool) (m : LMode) {w w' : Word} (h : runeCount w.surface ≤ 2) :
    stepCost dict ideo m w w' = connect dict w w' + (morphOfWord dict w').weight.toInt := by
  unfold stepCost
  rw [penalty_short ideo h]
  simp

theorem step_bos_a (ideo : Nat → Bool) (m : LMode) : stepCost dict ideo m boundary wa = 32767 := by
  rw [step_short _ _ (by decide)]; decide
theorem step_a_a (ideo : Nat → Bool) (m : LMode) : stepCost dict ideo m wa wa = 65534 := by
  rw [step_short _ _ (by decide)]; decide
theorem step_a_bc (ideo : Nat → Bool) (m : LMode) : stepCost dict ideo m wa wbc = 65534 := by
  rw [step_short _ _ (by decide)]; decide
theorem step_bc_eos (ideo : Nat → Bool) (m : LMode) : stepCost dict ideo m wbc boundary = 0 := by
  rw [step_short _ _ (by decide)]; decide
theorem step_c_eos (ideo : Nat → Bool) (m : LMode) : stepCost dict ideo m wc boundary = -1 := by
  rw [step_short _ _ (by decide)]; decide

section
variable {ideo : Nat → Bool} {m : LMode} {n : Nat} {cols0 cols : Cols}

theorem rep (n : Nat) : ReplacementOk dict (text n) := Or.inl rfl

theorem node_text (h : Solved dict none ideo m (text n) cols0 cols) {i j : Nat} {x : Node} (hi : 1 ≤ i) (hi2 : i ≤ n + 2)
    (hx : getNode cols i j = some x) :
    i ≤ n ∧ wordOf x = wa ∧ x.start + 1 = i ∨ i = n + 2 ∧ wordOf x = wbc ∧ x.start = n ∨ i = n + 2 ∧ wordOf x = wc ∧ x.start = n + 1 := by
  obtain ⟨k, pos, rest, w, hat, hw, hik, hsk⟩ := h.mid (rep n) hi (by rw [count_text]; exact hi2) hx
  have hwd : wordOf x = w := by
    have h1 := congrArg Node.cls hsk
    have h2 := congrArg Node.id hsk
    have h3 := congrArg Node.surface hsk
    unfold wordOf
    change x.cls = w.cls at h1
    change x.id = w.id at h2
    change x.surface = w.surface at h3
    rw [h1, h2, h3]
  have hst : x.start = k := congrArg Node.start hsk
  rcases cand_text hat hw with ⟨h1, rfl⟩ | ⟨rfl, rfl⟩ | ⟨rfl, rfl⟩
  · have : runeCount wa.surface = 1 := by decide
    left; exact ⟨by omega, hwd, by omega⟩
  · have : runeCount wbc.surface = 2 := by decide
    right; left; exact ⟨by omega, hwd, hst⟩
  · have : runeCount wc.surface = 1 := by decide
    right; right; exact ⟨by omega, hwd, hst⟩

/-- The cost of the `k`-th "a". -/
theorem cost_a (h : Solved dict none ideo m (text n) cols0 cols) (hl : Lat dict none (text n) cols0) (k : Nat) (hk : k < n) :
    (∃ j x, getNode cols (k + 1) j = some x) ∧ ∀ j x, getNode cols (k + 1) j = some x → x.cost = min 2147483647 (32767 + 65534 * (k : Int)) := by
  have hmax : maximumCost = 2147483647 := rfl
  induction k with
  | zero =>
    constructor
    · obtain ⟨j, x, hx, _⟩ := h.cand wellFormed hl (at_text n 0 (by omega)) (cand_wa hk)
      exact ⟨j, x, hx⟩
    · intro j x hx
      rcases node_text h (by omega) (by omega) hx with ⟨_, hw, hs⟩ | ⟨h2, _⟩ | ⟨h2, _⟩
      · obtain ⟨_, heq⟩ := h.eqn wellFormed (by omega) hx
        have hs0 : x.start = 0 := by omega
        rw [hs0] at heq
        rcases heq with ⟨he, _⟩ | ⟨j', p, hp, _, hc, _⟩
        · rw [h.bos] at he; cases he
        · obtain ⟨_, rfl⟩ := h.bos_node hp
          rw [hc, totalCost_eq wellFormed (bos_table _) (h.table wellFormed hx), hw]
          rw [show wordOf bosNode = boundary from rfl, step_bos_a]
          rw [show bosNode.cost = 0 from rfl, hmax, int32_id (by omega) (by omega)]
          omega
      · omega
      · omega
  | succ k ih =>
    obtain ⟨⟨j0, x0, hx0⟩, ih2⟩ := ih (by omega)
    constructor
    · obtain ⟨j, x, hx, _⟩ := h.cand wellFormed hl (at_text n (k + 1) (by omega)) (cand_wa hk)
      exact ⟨j, x, hx⟩
    · intro j x hx
      rcases node_text h (by omega) (by omega) hx with ⟨_, hw, hs⟩ | ⟨h2, _⟩ | ⟨h2, _⟩
      · obtain ⟨_, heq⟩ := h.eqn wellFormed (by omega) hx
        have hs0 : x.start = k + 1 := by omega
        rw [hs0] at heq
        rcases heq with ⟨he, _⟩ | ⟨j', p, hp, _, hc, _⟩
        · unfold getNode at hx0; rw [he] at hx0; simp at hx0
        · have hpc := ih2 _ _ hp
          rcases node_text h (by omega) (by omega) hp with ⟨_, hw', _⟩ | ⟨h2, _⟩ | ⟨h2, _⟩
          · rw [hc, totalCost_eq wellFormed (h.table wellFormed hp) (h.table wellFormed hx), hw, hw', step_a_a, hpc, hmax]
            have hz : (0 : Int) ≤ 65534 * (k : Int) := by omega
            rw [show ((k + 1 : Nat) : Int) = (k : Int) + 1 from by omega, Int.mul_add]
            generalize 65534 * (k : Int) = z at hz
            rw [int32_id (by omega) (by omega)]
            omega
          · omega
          · omega
      · omega
      · omega

theorem col_empty (h : Solved dict none ideo m (text n) cols0 cols) : cols[n + 1]? = some [] := by
  have hlen := h.len
  rw [count_text] at hlen
  have hc : cols[n + 1]? = some cols[n + 1] := List.getElem?_eq_getElem (by omega)
  cases he : cols[n + 1] with
  | nil => rw [hc, he]
  | cons x xs =>
    have hx : getNode cols (n + 1) 0 = some x := by unfold getNode; rw [hc, he]; rfl
    rcases node_text h (by omega) (by omega) hx with ⟨h1, _⟩ | ⟨h1, _⟩ | ⟨h1, _⟩ <;> omega

/-- From 32769 times "a" on the best path is cut. -/
theorem chain_text (h : Solved dict none ideo m (text n) cols0 cols) (hl : Lat dict none (text n) cols0) (hn : 32769 ≤ n) {L : List Node}
    (hL : PrevChain cols (n + 3) 0 L) : ∃ e c, L = [e, c] ∧ skel e = eosNode (text n) ∧ wordOf c = wc ∧ c.prev = none := by
  have hmax : maximumCost = 2147483647 := rfl
  obtain ⟨e, he, hske⟩ := h.eos
  rw [count_text] at he
  have hew : wordOf e = boundary := by
    have h1 := congrArg Node.cls hske
    have h2 := congrArg Node.id hske
    have h3 := congrArg Node.surface hske
    unfold wordOf
    change e.cls = .dummy at h1
    change e.id = -1 at h2
    change e.surface = [] at h3
    rw [h1, h2, h3]; rfl
  have hes : e.start = n + 2 := by
    have := congrArg Node.start hske
    rw [show (eosNode (text n)).start = runeCount (text n) from rfl, count_text] at this
    exact this
  -- the two nodes in front of EOS
  obtain ⟨jc, xc, hxc, hskc⟩ := h.cand wellFormed hl (at_text n (n + 1) (by omega)) (cand_wc n)
  have hcnt : runeCount wc.surface = 1 := by decide
  rw [hcnt] at hxc
  have hcprev : ∀ j x, getNode cols (n + 2) j = some x → wordOf x = wc → x.prev = none ∧ x.cost = 2147483647 := by
    intro j x hx hw
    rcases node_text h (by omega) (by omega) hx with ⟨h1, _⟩ | ⟨_, hw', _⟩ | ⟨_, _, hs⟩
    · omega
    · rw [hw] at hw'; cases hw'
    · obtain ⟨_, heq⟩ := h.eqn wellFormed (by omega) hx
      rw [hs] at heq
      rcases heq with ⟨_, h1, h2⟩ | ⟨j', p, hp, _⟩
      · exact ⟨h1, h2⟩
      · unfold getNode at hp; rw [col_empty h] at hp; simp at hp
  have hbc : ∀ j x, getNode cols (n + 2) j = some x → wordOf x = wbc → x.cost = 2147483647 := by
    intro j x hx hw
    rcases node_text h (by omega) (by omega) hx with ⟨h1, _⟩ | ⟨_, _, hs⟩ | ⟨_, hw', _⟩
    · omega
    · obtain ⟨⟨j0, x0, hx0⟩, hcost⟩ := cost_a h hl (n - 1) (by omega)
      rw [show n - 1 + 1 = n from by omega] at hx0 hcost
      obtain ⟨_, heq⟩ := h.eqn wellFormed (by omega) hx
      rw [hs] at heq
      rcases heq with ⟨he', _⟩ | ⟨j', p, hp, _, hc, _⟩
      · unfold getNode at hx0; rw [he'] at hx0; simp at hx0
      · have hpc := hcost _ _ hp
        rcases node_text h (by omega) (by omega) hp with ⟨_, hw', _⟩ | ⟨h2, _⟩ | ⟨h2, _⟩
        · rw [hc, totalCost_eq wellFormed (h.table wellFormed hp) (h.table wellFormed hx), hw, hw', step_a_bc, hpc, hmax,
            int32_id (by omega) (by omega)]
          omega
        · omega
        · omega
    · rw [hw] at hw'; cases hw'
  have hxcw : wordOf xc = wc := by
    have h1 := congrArg Node.cls hskc
    have h2 := congrArg Node.id hskc
    have h3 := congrArg Node.surface hskc
    unfold wordOf
    change xc.cls = wc.cls at h1
    change xc.id = wc.id at h2
    change xc.surface = wc.surface at h3
    rw [h1, h2, h3]
  obtain ⟨_, heq⟩ := h.eqn wellFormed (by omega) he
  rw [hes] at heq
  rcases heq with ⟨he', _⟩ | ⟨j', p, hp, hprev, hc, hmin⟩
  · unfold getNode at hxc; rw [he'] at hxc; simp at hxc
  · have hle := hmin _ _ hxc
    rw [hc, totalCost_eq wellFormed (h.table wellFormed hp) (h.table wellFormed he),
      totalCost_eq wellFormed (h.table wellFormed hxc) (h.table wellFormed he), hxcw, hew, step_c_eos, (hcprev _ _ hxc hxcw).2, hmax] at hle
    have hpw : wordOf p = wc := by
      rcases node_text h (by omega) (by omega) hp with ⟨h1, _⟩ | ⟨_, hw', _⟩ | ⟨_, hw', _⟩
      · omega
      · rw [hw', step_bc_eos, hbc _ _ hp hw'] at hle
        exact absurd hle (by decide)
      · exact hw'
    have hpp := (hcprev _ _ hp hpw).1
    cases hL with
    | last hn' hp' =>
      rw [he] at hn'
      cases hn'
      rw [hprev] at hp'; cases hp'
    | step hn' hp' hL' =>
      rw [he] at hn'
      cases hn'
      rw [hprev] at hp'
      cases hp'
      cases hL' with
      | last hn2 hp2 =>
        rw [hp] at hn2
        cases hn2
        exact ⟨_, _, rfl, hske, hpw, hpp⟩
      | step hn2 hp2 _ =>
        rw [hp] at hn2
        cases hn2
        rw [hpp] at hp2; cases hp2

end

/-- C46: with a well-formed dictionary of three words and for every text of at least 32769 times "a" and then "bc", in every mode, the tokens
are only "c" and EOS: costs stay at 2147483647, where paths can no longer be told apart. -/
theorem C46_lost (n : Nat) (hn : 32769 ≤ n) (ideo : Nat → Bool) (mode : Int) :
    ∃ toks, analyze tok ideo (text n) mode = some toks ∧ toks.map (fun t => t.surface) = [str "c", str "EOS"] := by
  obtain ⟨cols0, cols, L, hsol, hb, hf, hL, hs⟩ := solve_weak (t := tok) wellFormed ideo (text n) (latticeMode mode)
  have hlat : Lat dict none (text n) cols0 := by
    obtain ⟨c', hb', hl'⟩ := build_lat wellFormed (rep n)
    rw [show tok.dict = dict from rfl, show tok.userDict = none from rfl, hb'] at hb
    simp only [Option.some.injEq] at hb
    rw [← hb]; exact hl'
  rw [count_text] at hL
  obtain ⟨e, c, rfl, he, hc, _⟩ := chain_text hsol hlat hn hL
  refine ⟨_, by unfold analyze; rw [hs]; rfl, ?_⟩
  have h1 : e.cls = .dummy := congrArg Node.cls he
  have h2 : e.id = -1 := congrArg Node.id he
  have h3 : c.cls = .known := congrArg Word.cls hc
  have h4 : c.id = 2 := congrArg Word.id hc
  have h5 : c.surface = [0x63] := congrArg Word.surface hc
  have e1 : emit (latticeMode mode) e = [e] := by unfold emit; simp [h1]
  have e2 : emit (latticeMode mode) c = [c] := by unfold emit; simp [h3]
  simp only [List.flatMap_cons, List.flatMap_nil, e1, e2]
  simp only [List.append_nil, List.cons_append, List.nil_append, List.reverse_cons, List.reverse_nil, tokenLoop]
  rw [if_neg (by simp [tok]), if_neg (by simp [tok])]
  simp only [List.map_cons, List.map_nil, mkToken, h2, h4, h5]
  simp [bosEosID]
  decide

end Heavy

/-- C46: so the conclusion of `C02_lossless` fails for texts that are too long, although the dictionary is well-formed. -/
theorem C46_fails (n : Nat) (hn : 32769 ≤ n) : ∃ (t : Tokenizer) (ideo : Nat → Bool) (inp : Bytes) (toks : List Token),
    WellFormed t.dict t.userDict ∧ ReplacementOk t.dict inp ∧ runeCount inp = n + 2 ∧ analyze t ideo inp modeNormal = some toks ∧
      (inner toks).flatMap (fun tok => tok.surface) ≠ inp := by
  obtain ⟨toks, h1, h2⟩ := Heavy.C46_lost n hn (fun _ => false) modeNormal
  refine ⟨Heavy.tok, _, _, toks, Heavy.wellFormed, Heavy.rep _, Heavy.count_text _, h1, ?_⟩
  intro h
  have hl := congrArg List.length h
  have hle : ∀ l : List Token, ((inner l).flatMap (fun tok => tok.surface)).length ≤ ((l.map (fun tok => tok.surface)).flatten).length := by
    intro l
    induction l with
    | nil => simp [inner]
    | cons x l ih =>
      unfold inner at *
      rw [List.filter_cons]
      split
      · simp only [List.flatMap_cons, List.map_cons, List.flatten_cons, List.length_append]; omega
      · simp only [List.map_cons, List.flatten_cons, List.length_append]; omega
  have h3 := hle toks
  rw [h2] at h3
  have h4 : (Heavy.text n).length = n + 2 := by unfold Heavy.text; rw [List.length_append, List.length_replicate]; rfl
  have h5 : [str "c", str "EOS"].flatten.length = 4 := by decide
  omega

/-- The hypotheses of `C46_suffix` are met, also by the texts above. -/
example (n : Nat) (hn : 32769 ≤ n) : ∃ toks, WellFormed Heavy.tok.dict Heavy.tok.userDict ∧ ReplacementOk Heavy.tok.dict (Heavy.text n) ∧
    Heavy.tok.omitBosEos = false ∧ analyze Heavy.tok Toy.ideo (Heavy.text n) modeSearch = some toks := by
  obtain ⟨toks, h, _⟩ := Heavy.C46_lost n hn Toy.ideo modeSearch
  exact ⟨toks, Heavy.wellFormed, Heavy.rep n, rfl, h⟩

/-- A short text of the same kind is not cut. -/
example : (analyze Heavy.tok Toy.ideo (Heavy.text 3) modeNormal).map (·.map (fun t => t.surface)) =
    some [str "BOS", str "a", str "a", str "a", str "bc", str "EOS"] := by decide +kernel

end Kagome
