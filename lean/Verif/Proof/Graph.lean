import Verif.Proof.Dot

/-! The graph of a solved lattice. -/

namespace Kagome

open Spec

/-! ### No panics -/

section
variable {d : Dict} {u : Option UserDict} {bests : List Ptr} {cols : Cols}

theorem edgesCol_some (i : Nat) (ns : List Node) (h : ∀ n ∈ ns, n.start < cols.length) : ∀ j, (edgesCol bests cols i j ns).isSome := by
  induction ns with
  | nil => intro j; rfl
  | cons n ns ih =>
    intro j
    unfold edgesCol
    have h2 := ih (fun x hx => h x (by simp [hx]))
    split
    · exact h2 _
    · rw [List.getElem?_eq_getElem (h n (by simp))]
      simp [h2]

theorem edgesCols_some (rest : List (List Node)) (h : ∀ c ∈ rest, ∀ n ∈ c, n.start < cols.length) :
    ∀ i, (edgesCols bests cols i rest).isSome := by
  induction rest with
  | nil => intro i; rfl
  | cons c rest ih =>
    intro i
    unfold edgesCols
    obtain ⟨es, he⟩ := Option.isSome_iff_exists.mp (edgesCol_some (bests := bests) i c (h c (by simp)) 0)
    rw [he]
    simp [ih (fun c' hc => h c' (by simp [hc]))]

theorem nodesCol_some (i : Nat) (ns : List Node) (h : ∀ n ∈ ns, (posFeature d u n).isSome) : ∀ j, (nodesCol d u bests i j ns).isSome := by
  induction ns with
  | nil => intro j; rfl
  | cons n ns ih =>
    intro j
    unfold nodesCol
    have h2 := ih (fun x hx => h x (by simp [hx]))
    split
    · exact h2 _
    · obtain ⟨p, hp⟩ := Option.isSome_iff_exists.mp (h n (by simp))
      rw [hp]
      dsimp only
      split
      · simp [h2]
      · split
        · simp [h2]
        · exact h2 _

theorem nodesCols_some (rest : List (List Node)) (h : ∀ c ∈ rest, ∀ n ∈ c, (posFeature d u n).isSome) :
    ∀ i, (nodesCols d u bests i rest).isSome := by
  induction rest with
  | nil => intro i; rfl
  | cons c rest ih =>
    intro i
    unfold nodesCols
    obtain ⟨es, he⟩ := Option.isSome_iff_exists.mp (nodesCol_some (bests := bests) i c (h c (by simp)) 0)
    rw [he]
    simp [ih (fun c' hc => h c' (by simp [hc]))]

theorem dotEdges_some (es : List (Ptr × Ptr))
    (h : ∀ e ∈ es, ∃ a b, getNode cols e.1.1 e.1.2 = some a ∧ getNode cols e.2.1 e.2.2 = some b ∧ (connCost d a b).isSome) :
    (dotEdges d bests cols es).isSome := by
  induction es with
  | nil => rfl
  | cons e es ih =>
    unfold dotEdges
    obtain ⟨a, b, ha, hb, hc⟩ := h e (by simp)
    obtain ⟨c, hc⟩ := Option.isSome_iff_exists.mp hc
    have : dotEdge d bests cols e = some ⟨e.1, e.2, c, bests.contains e.1 && bests.contains e.2⟩ := by
      unfold dotEdge
      rw [ha, hb]
      simp [hc]
    rw [this]
    simp [ih (fun e' he => h e' (by simp [he]))]

end

/-! ### What a node stands for -/

/-- What the node at `q` stands for. -/
def placeOf (cols : Cols) (q : Ptr) : Place :=
  match getNode cols q.1 q.2 with
  | none => .bos
  | some n => if n.cls = .dummy then (if q.1 = 0 then .bos else .eos) else .word n.start (wordOf n)

section
variable {d : Dict} {u : Option UserDict} {ideo : Nat → Bool} {m : LMode} {inp : Bytes} {cols0 cols : Cols}

/-- The three kinds of nodes. -/
inductive Kind (d : Dict) (u : Option UserDict) (inp : Bytes) (cols : Cols) (q : Ptr) (n : Node) : Prop
  | bos : q = (0, 0) → n = bosNode → placeOf cols q = .bos → Kind d u inp cols q n
  | eos : q = (runeCount inp + 1, 0) → skel n = eosNode inp → placeOf cols q = .eos → Kind d u inp cols q n
  | word (k pos : Nat) (rest : Bytes) (w : Word) : 1 ≤ q.1 → q.1 ≤ runeCount inp → At inp k pos rest → WeakCandidate d u rest w →
      q.1 = k + runeCount w.surface → skel n = mkNode d w.cls w.id pos k w.surface → placeOf cols q = .word k w →
      Kind d u inp cols q n

theorem Solved.kind (wf : WellFormed d u) (h : Solved d u ideo m inp cols0 cols) {q : Ptr} {n : Node}
    (hn : getNode cols q.1 q.2 = some n) : Kind d u inp cols q n := by
  obtain ⟨i, j⟩ := q
  simp only at hn
  by_cases h0 : i = 0
  · subst h0
    obtain ⟨rfl, rfl⟩ := h.bos_node hn
    exact Kind.bos rfl rfl (by unfold placeOf; simp only [hn]; rfl)
  · by_cases h1 : i ≤ runeCount inp
    · obtain ⟨k, pos, rest, w, hat, hw, hik, hsk⟩ := h.weak_mid (by omega) h1 hn
      refine Kind.word k pos rest w (by simp only []; omega) h1 hat hw hik hsk ?_
      have hc : n.cls = w.cls := by have := congrArg Node.cls hsk; exact this
      have hs : n.start = k := by have := congrArg Node.start hsk; exact this
      have hw' : wordOf n = w := by
        have e1 : n.id = w.id := by have := congrArg Node.id hsk; exact this
        have e2 : n.surface = w.surface := by have := congrArg Node.surface hsk; exact this
        simp [wordOf, hc, e1, e2]
      unfold placeOf
      simp only [hn]
      rw [if_neg (by rw [hc]; exact (weak_ok wf hw).cls), hs, hw']
    · have hlen := h.len
      obtain ⟨col, hc, hj⟩ := getNode_iff.mp hn
      have hlt := (List.getElem?_eq_some_iff.mp hc).1
      have hi : i = runeCount inp + 1 := by omega
      subst hi
      have := h.col (runeCount inp + 1) (by omega) _ h.lat.eos
      rw [hc] at this
      simp only [Option.some.injEq] at this
      subst this
      cases j with
      | succ j => simp at hj
      | zero =>
        simp only [List.map_cons, List.map_nil, List.getElem?_cons_zero, Option.some.injEq] at hj
        have hsk : skel n = eosNode inp := by rw [← hj, skel_solve1]; rfl
        refine Kind.eos rfl hsk ?_
        unfold placeOf
        simp only [hn]
        have hcls : n.cls = .dummy := by have := congrArg Node.cls hsk; exact this
        rw [if_pos hcls, if_neg (by omega)]

theorem Kind.start {q : Ptr} {n : Node} (k : Kind d u inp cols q n) : (placeOf cols q).start inp = n.start := by
  cases k with
  | bos _ h2 h3 => rw [h3, h2]; rfl
  | eos _ h2 h3 => rw [h3]; have := congrArg Node.start h2; exact this.symm
  | word k pos rest w _ _ _ _ _ h6 h7 => rw [h7]; have := congrArg Node.start h6; exact this.symm

theorem Kind.word_eq {q : Ptr} {n : Node} (k : Kind d u inp cols q n) : (placeOf cols q).asWord = wordOf n := by
  cases k with
  | bos _ h2 h3 => rw [h3, h2]; rfl
  | eos _ h2 h3 =>
    rw [h3]
    have e1 : n.id = -1 := by have := congrArg Node.id h2; exact this
    have e2 : n.surface = [] := by have := congrArg Node.surface h2; exact this
    have e3 : n.cls = .dummy := by have := congrArg Node.cls h2; exact this
    simp [wordOf, e1, e2, e3, Place.asWord, boundary]
  | word k pos rest w _ _ _ _ _ h6 h7 =>
    rw [h7]
    have e1 : n.id = w.id := by have := congrArg Node.id h6; exact this
    have e2 : n.surface = w.surface := by have := congrArg Node.surface h6; exact this
    have e3 : n.cls = w.cls := by have := congrArg Node.cls h6; exact this
    simp [wordOf, e1, e2, e3, Place.asWord]

theorem Kind.text (wf : WellFormed d u) {q : Ptr} {n : Node} (k : Kind d u inp cols q n) :
    dotSurface q.1 n = (placeOf cols q).text := by
  cases k with
  | bos h1 h2 h3 => rw [h3, h2, h1]; rfl
  | eos h1 h2 h3 =>
    rw [h3, h1]
    have e1 : n.id = -1 := by have := congrArg Node.id h2; exact this
    unfold dotSurface
    rw [if_pos (show n.id = bosEosID from e1), if_neg (by simp)]; rfl
  | word k pos rest w _ _ _ h4 _ h6 h7 =>
    rw [h7]
    have e1 : n.id = w.id := by have := congrArg Node.id h6; exact this
    have e2 : n.surface = w.surface := by have := congrArg Node.surface h6; exact this
    have := (weak_ok wf h4).id
    unfold dotSurface
    rw [if_neg (by rw [e1]; unfold bosEosID; omega), e2]; rfl

theorem Kind.stop {q : Ptr} {n : Node} (k : Kind d u inp cols q n) :
    (placeOf cols q).stop inp = n.start + runeCount n.surface := by
  cases k with
  | bos _ h2 h3 => rw [h3, h2]; rfl
  | eos _ h2 h3 =>
    rw [h3]
    have e1 : n.start = runeCount inp := by have := congrArg Node.start h2; exact this
    have e2 : n.surface = [] := by have := congrArg Node.surface h2; exact this
    rw [e1, e2]; simp [Place.stop, runeCount]
  | word k pos rest w _ _ _ _ _ h6 h7 =>
    rw [h7]
    have e1 : n.start = k := by have := congrArg Node.start h6; exact this
    have e2 : n.surface = w.surface := by have := congrArg Node.surface h6; exact this
    rw [e1, e2]; rfl

/-- The column of a node other than EOS is where it ends. -/
theorem Kind.col {q : Ptr} {n : Node} (k : Kind d u inp cols q n) (he : placeOf cols q ≠ .eos) :
    q.1 = (placeOf cols q).stop inp := by
  cases k with
  | bos h1 h2 h3 => rw [h3, h1]; rfl
  | eos _ h2 h3 => exact absurd h3 he
  | word k pos rest w _ _ _ _ h5 h6 h7 => rw [h7, h5]; rfl

theorem Kind.bos_iff {q : Ptr} {n : Node} (k : Kind d u inp cols q n) : placeOf cols q = .bos ↔ q.1 = 0 := by
  cases k with
  | bos h1 h2 h3 => rw [h3]; simp [h1]
  | eos h1 h2 h3 => rw [h3]; simp [h1]
  | word k pos rest w h1 _ _ _ h5 h6 h7 => simp [h7]; omega

/-! ### The part of speech -/

theorem posFeature_some (wf : WellFormed d u) (pt : PosTables d u) {q : Ptr} {n : Node} (k : Kind d u inp cols q n) :
    (posFeature d u n).isSome := by
  cases k with
  | bos h1 h2 h3 => subst h2; rfl
  | eos h1 h2 h3 =>
    have e3 : n.cls = .dummy := by have := congrArg Node.cls h2; exact this
    unfold posFeature; rw [e3]; rfl
  | word k pos rest w h1 h1' hat hw h5 h6 h7 =>
    have e1 : n.id = w.id := by have := congrArg Node.id h6; exact this
    have e3 : n.cls = w.cls := by have := congrArg Node.cls h6; exact this
    have hknown : ∀ id : Nat, id < d.morphs.length → n.cls = .known → n.id = id → (posFeature d u n).isSome := by
      intro id hid hc hi
      obtain ⟨ids, hids, hall⟩ := pt.known id hid
      have hn : ∀ ids : List Nat, (∀ id ∈ ids, id < d.nameList.length) → (posNames d ids).isSome := by
        intro ids
        induction ids with
        | nil => intro _; rfl
        | cons x ids ih =>
          intro h
          unfold posNames
          rw [List.getElem?_eq_getElem (h x (by simp))]
          simp [ih (fun y hy => h y (by simp [hy]))]
      unfold posFeature
      rw [hc, hi]
      simp only [goGet, hids, Option.isSome_map]
      exact hn ids hall
    have hunk : ∀ x : Nat, (x : Int) ≤ d.unk.indexDup (d.category (firstChar rest)) → n.cls = .unknown →
        n.id = d.unk.index (d.category (firstChar rest)) + x → (posFeature d u n).isSome := by
      intro x hx hc hi
      obtain ⟨w1, w2, w3⟩ := wf.unk_entry (firstChar rest)
      have hlen := pt.unknown
      obtain ⟨i, hi'⟩ : ∃ i : Nat, n.id = i := ⟨n.id.toNat, by omega⟩
      have hlt : i < d.unk.contents.length := by omega
      unfold posFeature
      rw [hc, hi']
      simp only [goGet, List.getElem?_eq_getElem hlt]
      split
      · rfl
      · rename_i hr
        have hs : 0 ≤ (unkPosRange d).1 := by
          unfold unkPosRange
          simp only
          split
          · rename_i v hv; exact pt.start v hv
          · omega
        have hfr : ∀ (f : List Bytes) (c : Nat) (i : Int), 0 ≤ i → i + c ≤ f.length → (featureRange f i c).isSome := by
          intro f c
          induction c with
          | zero => intro i _ _; rfl
          | succ c ih =>
            intro i h0 h1
            unfold featureRange
            obtain ⟨j, rfl⟩ : ∃ j : Nat, i = j := ⟨i.toNat, by omega⟩
            simp only [goGet]
            rw [List.getElem?_eq_getElem (by omega)]
            simp only [Option.isSome_map]
            exact ih _ (by omega) (by omega)
        rw [Option.isSome_map]
        apply hfr _ _ _ hs
        omega
    rcases hw with hw | ⟨hq, hu, hk, x, hx, rfl⟩
    · cases hw with
      | user id l hh =>
        cases u with
        | none => simp [userEntries] at hh
        | some ud =>
          have := (wf.user_hit ud rfl rest id l hh).2.2.2
          unfold posFeature
          rw [e3, e1]
          simp [goGet, List.getElem?_eq_getElem this]
      | known id l hu hh =>
        exact hknown id (wf.known_hit rest id l hh).2.2.2 e3 e1
      | unknown x w hu hr hk hx ht => exact hunk x hx e3 e1
    · exact hunk x hx e3 e1

theorem posFeature_token {n : Node} {pos : Bytes} (h : posFeature d u n = some pos) {tok : Token} (h1 : tok.cls = n.cls)
    (h2 : tok.id = n.id) (h3 : tok.dict = some d) (h4 : tok.udict = u) :
    ∃ p, tokenPOS tok = some p ∧ pos = (if tok.cls = .user then join (str "/") (p.getD []) else posLabel (p.getD [])) := by
  have hpt : ∀ l : List Bytes, posText (dropStars l) = posLabel l := by
    intro l
    simp only [posText, dropStars, posLabel, List.length_eq_zero_iff]
  unfold posFeature at h
  unfold tokenPOS
  rw [h1, h2, h3, h4]
  cases hc : n.cls with
  | known =>
    rw [hc] at h
    dsimp only at h ⊢
    cases hg : goGet d.poss n.id with
    | none => rw [hg] at h; cases h
    | some ids =>
      rw [hg] at h
      dsimp only at h ⊢
      rw [Option.map_eq_some_iff] at h
      obtain ⟨l, hl, rfl⟩ := h
      refine ⟨some l, by rw [hl]; rfl, ?_⟩
      rw [if_neg (by simp), hpt]; rfl
  | unknown =>
    rw [hc] at h
    dsimp only at h ⊢
    cases hg : goGet d.unk.contents n.id with
    | none => rw [hg] at h; cases h
    | some f =>
      rw [hg] at h
      dsimp only at h ⊢
      split at h
      · rename_i hr
        rw [if_pos hr]
        simp only [Option.some.injEq] at h
        subst h
        exact ⟨none, rfl, by rw [if_neg (by simp)]; rfl⟩
      · rename_i hr
        rw [if_neg hr]
        rw [Option.map_eq_some_iff] at h
        obtain ⟨l, hl, rfl⟩ := h
        refine ⟨some l, by rw [hl]; rfl, ?_⟩
        rw [if_neg (by simp), hpt]; rfl
  | user =>
    rw [hc] at h
    cases u with
    | none => cases h
    | some ud =>
      dsimp only at h ⊢
      rw [Option.map_eq_some_iff] at h
      obtain ⟨c, hcc, rfl⟩ := h
      refine ⟨some [c.pos], by rw [hcc]; rfl, ?_⟩
      rw [if_pos rfl]; rfl
  | dummy =>
    rw [hc] at h
    dsimp only at h ⊢
    simp only [Option.some.injEq] at h
    subst h
    exact ⟨none, rfl, by rw [if_neg (by simp)]; rfl⟩

/-! ### The graph shows the words -/

theorem shows_words (wf : WellFormed d u) (pt : PosTables d u) (h : Solved d u ideo m inp cols0 cols) (hl : Lat d u inp cols0)
    (hrep : ReplacementOk d inp) {bests : List Ptr} {es : List (Ptr × Ptr)} (hes : edgesCols bests cols 1 (cols.drop 1) = some es)
    {ns : List GNode} (hns : nodesCols d u bests 0 cols = some ns) {gs : List GEdge} (hgs : dotEdges d bests cols es = some gs) :
    ShowsWords d u inp ⟨ns, gs⟩ (placeOf cols) := by
  obtain ⟨n1, n2, n3⟩ := mem_nodes hns
  obtain ⟨g1, g2⟩ := dotEdges_spec hgs
  have hedge : ∀ a b, (∃ e ∈ gs, e.src = a ∧ e.dst = b) ↔ (a, b) ∈ es := by
    intro a b
    rw [← g1]
    simp [List.mem_map]
  refine ⟨n3, ?_, ?_, ?_, ?_, ?_, ?_, ?_, ?_, ?_, ?_⟩
  · intro g hg
    obtain ⟨n, pos, hs, hp, he⟩ := (n1 g).mp hg
    have hk := h.kind wf hs.1
    rw [he]
    simp only [stmtOf]
    refine ⟨hk.text wf, ?_⟩
    rw [hk.word_eq]
    exact (h.table wf hs.1).2.2.2
  · intro g hg tok h1 h2 h3 h4
    obtain ⟨n, pos, hs, hp, he⟩ := (n1 g).mp hg
    have hk := h.kind wf hs.1
    rw [hk.word_eq] at h1 h2
    have := posFeature_token hp h1 h2 h3 h4
    rw [he]
    exact this
  · intro g hg k w hw
    obtain ⟨n, pos, hs, hp, he⟩ := (n1 g).mp hg
    cases h.kind wf hs.1 with
    | bos _ _ h3 => rw [h3] at hw; cases hw
    | eos _ _ h3 => rw [h3] at hw; cases hw
    | word k' pos' rest w' a1 a2 a3 a4 a5 a6 a7 =>
      rw [a7] at hw
      simp only [Place.word.injEq] at hw
      obtain ⟨rfl, rfl⟩ := hw
      have hcnt := (weak_ok wf a4).cnt
      refine ⟨by omega, ?_⟩
      have hrest : rest = afterChars inp k' := by
        unfold afterChars; rw [firstChars_length, a3.pre, a3.drop]
      have hr : rest ≠ [] := at_rest_ne a3 (by omega)
      rw [← hrest]
      rcases a4 with a4 | ⟨hq, _⟩
      · exact a4
      · exact absurd hq (not_quirk hrep a3 hr)
  · obtain ⟨g, hg, hq⟩ := n2 (0, 0) bosNode ⟨h.get_bos, by intro hc; cases hc⟩
    refine ⟨g, hg, ?_⟩
    rw [hq]
    exact (h.kind wf (q := (0, 0)) h.get_bos).bos_iff.mpr rfl
  · obtain ⟨e, he, hsk⟩ := h.eos
    have hcls : e.cls = .dummy := by have := congrArg Node.cls hsk; exact this
    obtain ⟨g, hg, hq⟩ := n2 (runeCount inp + 1, 0) e ⟨he, by rw [hcls]; intro hc; cases hc⟩
    refine ⟨g, hg, ?_⟩
    rw [hq]
    unfold placeOf
    simp only [he]
    rw [if_pos hcls, if_neg (by omega)]
  · intro k w hk hw hcls
    have hat := at_of_le (inp := inp) (k := k) (by unfold runeCount at hk; omega)
    have hrest : afterChars inp k = inp.drop (wsum ((runes inp).take k)) := by
      unfold afterChars; rw [firstChars_length]
    rw [hrest] at hw
    obtain ⟨j, n, hn, hsk⟩ := h.cand wf hl hat hw
    have hc : n.cls = w.cls := by have := congrArg Node.cls hsk; exact this
    obtain ⟨g, hg, hq⟩ := n2 (k + runeCount w.surface, j) n ⟨hn, by rw [hc]; intro hx; exact absurd hx hcls⟩
    refine ⟨g, hg, ?_⟩
    rw [hq]
    have e1 : n.id = w.id := by have := congrArg Node.id hsk; exact this
    have e2 : n.surface = w.surface := by have := congrArg Node.surface hsk; exact this
    have e4 : n.start = k := by have := congrArg Node.start hsk; exact this
    unfold placeOf
    simp only [hn]
    rw [if_neg (by rw [hc]; exact (cand_ok wf hw).cls), e4]
    congr 1
    simp [wordOf, hc, e1, e2]
  · intro e he
    have hmem : (e.src, e.dst) ∈ es := by rw [← g1]; exact List.mem_map_of_mem (f := fun e : GEdge => (e.src, e.dst)) he
    obtain ⟨_, a, b, ha, hb, _⟩ := (mem_edges hes _).mp hmem
    exact ⟨n2 _ _ ha, n2 _ _ hb⟩
  · change (gs.map (fun g => (g.src, g.dst))).Nodup
    rw [g1]; exact edgesCols_nodup _ _ _ hes
  · intro a ha b hb
    rw [hedge, mem_edges hes]
    obtain ⟨na, pa, hsa, _, _⟩ := (n1 a).mp ha
    obtain ⟨nb, pb, hsb, _, _⟩ := (n1 b).mp hb
    have hka := h.kind wf hsa.1
    have hkb := h.kind wf hsb.1
    have hne : ∀ {q : Ptr} {n : Node}, Kind d u inp cols q n → (placeOf cols q = .eos ↔ q.1 = runeCount inp + 1) := by
      intro q n k
      cases k with
      | bos h1 h2 h3 => rw [h3]; simp [h1]
      | eos h1 h2 h3 => rw [h3]; simp [h1]
      | word k pos rest w h1 h1' _ _ h5 h6 h7 => simp [h7]; omega
    constructor
    · rintro ⟨h1, a', b', ha', hb', hab⟩
      have e1 : a' = na := by have := ha'.1; rw [hsa.1] at this; simpa using this.symm
      have e2 : b' = nb := by have := hb'.1; rw [hsb.1] at this; simpa using this.symm
      subst e1; subst e2
      simp only at hab h1
      have hstart : b'.start ≤ runeCount inp := by
        have := (h.eqn wf h1 hsb.1).1
        have hlen := h.len
        obtain ⟨col, hc, _⟩ := getNode_iff.mp hsb.1
        have := (List.getElem?_eq_some_iff.mp hc).1
        omega
      have hae : placeOf cols a.ptr ≠ .eos := by rw [Ne, hne hka]; omega
      refine ⟨?_, hae, ?_⟩
      · rw [← hka.col hae, hkb.start]; exact hab
      · rw [Ne, hkb.bos_iff]; omega
    · rintro ⟨h1, h2, h3⟩
      rw [Ne, hkb.bos_iff] at h3
      refine ⟨by simp only []; omega, na, nb, hsa, hsb, ?_⟩
      simp only
      rw [hka.col h2, h1, hkb.start]
  · intro e he
    obtain ⟨a, b, ha, hb, hc, _⟩ := g2 e he
    rw [connCost_eq wf (h.table wf ha) (h.table wf hb)] at hc
    simp only [Option.some.injEq] at hc
    rw [← hc, (h.kind wf (q := e.src) ha).word_eq, (h.kind wf (q := e.dst) hb).word_eq]

/-! ### The graph shows the analysis -/

/-- Following `prev`, with the pointers. -/
inductive PrevPath (cols : Cols) : Ptr → List (Ptr × Node) → Prop
  | last {q : Ptr} {n : Node} : getNode cols q.1 q.2 = some n → n.prev = none → PrevPath cols q [(q, n)]
  | step {q q' : Ptr} {n : Node} {P : List (Ptr × Node)} : getNode cols q.1 q.2 = some n → n.prev = some q' →
      PrevPath cols q' P → PrevPath cols q ((q, n) :: P)

theorem prevPath_of_chain {i j : Nat} {L : List Node} (hL : PrevChain cols i j L) : ∃ P, PrevPath cols (i, j) P ∧ P.map Prod.snd = L := by
  induction hL with
  | last hn hp => exact ⟨_, PrevPath.last (q := (_, _)) hn hp, rfl⟩
  | step hn hp _ ih =>
    obtain ⟨P, hP, rfl⟩ := ih
    exact ⟨_, PrevPath.step (q := (_, _)) hn hp hP, rfl⟩

theorem walkPtr_path {q : Ptr} {P : List (Ptr × Node)} (hP : PrevPath cols q P) :
    ∀ fuel, P.length ≤ fuel → walkPtr m cols fuel (some q) = some (P.flatMap (fun x => emitPtr m x.1 x.2)) := by
  induction hP with
  | @last q n hn hp =>
    intro fuel hf
    obtain ⟨f, rfl⟩ : ∃ f, fuel = f + 1 := ⟨fuel - 1, by simp at hf; omega⟩
    obtain ⟨i, j⟩ := q
    simp only [walkPtr]
    simp only at hn
    rw [hn]
    simp [hp, walkPtr]
  | @step q q' n P hn hp hP ih =>
    intro fuel hf
    obtain ⟨f, rfl⟩ : ∃ f, fuel = f + 1 := ⟨fuel - 1, by simp at hf; omega⟩
    obtain ⟨i, j⟩ := q
    simp only [walkPtr]
    simp only at hn
    rw [hn]
    simp only [hp, ih f (by simp at hf; omega)]
    simp

/-- A path goes to the left, its nodes are in the lattice, each points to the next, and before its end nothing ends. -/
theorem path_facts (wf : WellFormed d u) (h : Solved d u ideo m inp cols0 cols) {q : Ptr} {P : List (Ptr × Node)}
    (hP : PrevPath cols q P) :
    (∃ n P', P = (q, n) :: P') ∧ P.length ≤ q.1 + 1 ∧ (∀ x ∈ P, getNode cols x.1.1 x.1.2 = some x.2 ∧ x.1.1 ≤ q.1) ∧
    P.Pairwise (fun a b => b.1.1 < a.1.1) ∧
    (∀ a b, Consecutive P a b → 1 ≤ a.1.1 ∧ b.1.1 = a.2.start) ∧
    (∀ a, P.getLast? = some a → a.1.1 = 0 ∨ cols[a.2.start]? = some []) := by
  induction hP with
  | @last q n hn hp =>
    refine ⟨⟨n, [], rfl⟩, by simp, by simp [hn], by simp, ?_, ?_⟩
    · rintro a b ⟨x, y, hxy⟩
      have := congrArg List.length hxy
      simp at this; omega
    · intro a ha
      simp only [List.getLast?_singleton, Option.some.injEq] at ha
      subst ha
      by_cases hq : 1 ≤ q.1
      · right
        rcases (h.eqn wf hq hn).2 with ⟨h1, _⟩ | ⟨_, _, _, h1, _⟩
        · exact h1
        · rw [hp] at h1; cases h1
      · left; simp only []; omega
  | @step q q' n P hn hp hP ih =>
    obtain ⟨⟨n', P', rfl⟩, h2, h3, h4, h5, h6⟩ := ih
    have hq : 1 ≤ q.1 := by
      apply Decidable.byContradiction
      intro hcon
      obtain ⟨i, j⟩ := q
      simp only at hcon hn
      have : i = 0 := by omega
      subst this
      obtain ⟨rfl, rfl⟩ := h.bos_node hn
      simp [bosNode, newNode] at hp
    obtain ⟨hlt, heq⟩ := h.eqn wf hq hn
    have hq' : q'.1 = n.start := by
      rcases heq with ⟨_, hpr, _⟩ | ⟨_, _, _, hprev, _, _⟩
      · rw [hp] at hpr; cases hpr
      · rw [hp] at hprev
        simp only [Option.some.injEq] at hprev
        rw [hprev]
    refine ⟨⟨n, _, rfl⟩, by simp at h2 ⊢; omega, ?_, ?_, ?_, ?_⟩
    · intro x hx
      rcases List.mem_cons.mp hx with rfl | hx
      · exact ⟨hn, Nat.le_refl _⟩
      · exact ⟨(h3 x hx).1, by have := (h3 x hx).2; omega⟩
    · rw [List.pairwise_cons]
      refine ⟨?_, h4⟩
      intro x hx
      have := (h3 x hx).2
      simp only []; omega
    · rintro a b ⟨x, y, hxy⟩
      cases x with
      | nil =>
        simp only [List.nil_append, List.cons.injEq] at hxy
        obtain ⟨rfl, rfl, _⟩ := hxy
        exact ⟨hq, hq'⟩
      | cons z x =>
        simp only [List.cons_append, List.cons.injEq] at hxy
        exact h5 a b ⟨x, y, hxy.2⟩
    · intro a ha
      rw [List.getLast?_cons_cons] at ha
      exact h6 a ha

theorem consecutive_map {α β : Type} (f : α → β) {l : List α} {a b : β} (h : Consecutive (l.map f) a b) :
    ∃ a' b', Consecutive l a' b' ∧ f a' = a ∧ f b' = b := by
  obtain ⟨x, y, hxy⟩ := h
  obtain ⟨l1, l2, rfl, h1, h2⟩ := List.map_eq_append_iff.mp hxy
  obtain ⟨a', l3, rfl, h3, h4⟩ := List.map_eq_cons_iff.mp h2
  obtain ⟨b', l4, rfl, h5, h6⟩ := List.map_eq_cons_iff.mp h4
  exact ⟨a', b', ⟨l1, l4, rfl⟩, h3, h5⟩

theorem consecutive_reverse {α : Type} {l : List α} {a b : α} : Consecutive l.reverse a b ↔ Consecutive l b a := by
  constructor
  · rintro ⟨x, y, hxy⟩
    refine ⟨y.reverse, x.reverse, ?_⟩
    have := congrArg List.reverse hxy
    rw [List.reverse_reverse] at this
    rw [this]; simp
  · rintro ⟨x, y, rfl⟩
    exact ⟨y.reverse, x.reverse, by simp⟩

/-- Two nodes of a path such that one ends where the other starts follow each other. -/
theorem path_adjacent (wf : WellFormed d u) (h : Solved d u ideo m inp cols0 cols) {q : Ptr} {P : List (Ptr × Node)}
    (hP : PrevPath cols q P) {a b : Ptr × Node} (ha : a ∈ P) (hb : b ∈ P) (hb1 : 1 ≤ b.1.1) (hab : a.1.1 = b.2.start) :
    Consecutive P b a := by
  obtain ⟨_, _, h3, h4, h5, h6⟩ := path_facts wf h hP
  obtain ⟨x, y, hxy⟩ := List.append_of_mem hb
  cases y with
  | nil =>
    have hl : P.getLast? = some b := by rw [hxy]; simp
    rcases h6 b hl with h7 | h7
    · omega
    · have := (h3 a ha).1
      rw [getNode_iff] at this
      obtain ⟨c, hc, hj⟩ := this
      rw [hab, h7] at hc
      simp only [Option.some.injEq] at hc
      subst hc
      simp at hj
  | cons c y =>
    have hcons : Consecutive P b c := ⟨x, y, hxy⟩
    obtain ⟨_, hc⟩ := h5 b c hcons
    have hac : a = c := by
      have hcol : a.1.1 = c.1.1 := by omega
      have hcm : c ∈ P := by rw [hxy]; simp
      have huniq : ∀ l : List (Ptr × Node), l.Pairwise (fun a b => b.1.1 < a.1.1) → ∀ a ∈ l, ∀ c ∈ l, a.1.1 = c.1.1 → a = c := by
        intro l
        induction l with
        | nil => intro _ a ha; cases ha
        | cons z l ih =>
          intro hp a ha c hc hac
          rw [List.pairwise_cons] at hp
          rcases List.mem_cons.mp ha with ha | ha <;> rcases List.mem_cons.mp hc with hc | hc
          · rw [ha, hc]
          · have := hp.1 c hc; rw [ha] at hac; omega
          · have := hp.1 a ha; rw [hc] at hac; omega
          · exact ih hp.2 a ha c hc hac
      exact huniq P h4 a ha c hcm hcol
    rw [hac]; exact hcons

theorem shows_analysis (wf : WellFormed d u) (h : Solved d u ideo m inp cols0 cols) {P : List (Ptr × Node)}
    (hP : PrevPath cols (runeCount inp + 1, 0) P) (hnot1 : P.length ≠ 1) {t : Tokenizer} {es : List (Ptr × Ptr)}
    (hes : edgesCols (P.map Prod.fst) cols 1 (cols.drop 1) = some es)
    {ns : List GNode} (hns : nodesCols d u (P.map Prod.fst) 0 cols = some ns) {gs : List GEdge}
    (hgs : dotEdges d (P.map Prod.fst) cols es = some gs) :
    ShowsAnalysis (graphLoop t 0 (P.map Prod.snd).reverse) ⟨ns, gs⟩ (placeOf cols) inp (P.map Prod.fst).reverse := by
  obtain ⟨n1, n2, n3⟩ := mem_nodes hns
  obtain ⟨g1, g2⟩ := dotEdges_spec hgs
  obtain ⟨p1, p2, p3, p4, p5, p6⟩ := path_facts wf h hP
  have hmem : ∀ q, q ∈ P.map Prod.fst → ∃ n, (q, n) ∈ P ∧ getNode cols q.1 q.2 = some n := by
    intro q hq
    obtain ⟨x, hx, rfl⟩ := List.mem_map.mp hq
    exact ⟨x.2, hx, (p3 x hx).1⟩
  have hdecl : ∀ q, q ∈ P.map Prod.fst → ∃ n ∈ ns, n.ptr = q := by
    intro q hq
    obtain ⟨n, _, hn⟩ := hmem q hq
    exact n2 q n ⟨hn, fun _ => hq⟩
  have hlen : ∀ (i : Nat) (ns : List Node), (graphLoop t i ns).length = ns.length := by
    intro i ns
    induction ns generalizing i with
    | nil => rfl
    | cons n ns ih => simp [graphLoop, ih]
  have hget : ∀ (ns : List Node) (k i : Nat) tok, (graphLoop t k ns)[i]? = some tok →
      ∃ n, ns[i]? = some n ∧ tok = mkGraphToken t (k + i) n := by
    intro ns
    induction ns with
    | nil => intro k i tok hx; simp [graphLoop] at hx
    | cons n ns ih =>
      intro k i tok hx
      cases i with
      | zero =>
        simp only [graphLoop, List.getElem?_cons_zero, Option.some.injEq] at hx
        exact ⟨n, rfl, hx.symm⟩
      | succ i =>
        simp only [graphLoop, List.getElem?_cons_succ] at hx
        obtain ⟨n', h1, h2⟩ := ih _ _ _ hx
        exact ⟨n', by simpa using h1, by rw [h2]; congr 1; omega⟩
  refine ⟨?_, ?_, ?_, ?_, ?_, ?_⟩
  · simp [hlen]
  · intro i q tok hq htok
    obtain ⟨n, hn, rfl⟩ := hget _ _ _ _ htok
    rw [← List.map_reverse] at hq hn
    rw [List.getElem?_map, Option.map_eq_some_iff] at hq hn
    obtain ⟨x, hx, rfl⟩ := hq
    obtain ⟨x', hx', rfl⟩ := hn
    rw [hx] at hx'
    simp only [Option.some.injEq] at hx'
    subst hx'
    have hxP : x ∈ P := List.mem_reverse.mp (List.mem_of_getElem? hx)
    have hk := h.kind wf (p3 x hxP).1
    have hfirst : x.2.id = bosEosID → (i = 0 ↔ x.1.1 = 0) ∨ (x.1.1 ≠ 0 ∧ P.length = 1) := by
      intro hid
      cases hk with
      | word k pos rest w a1 a2 a3 a4 a5 a6 a7 =>
        have e1 : x.2.id = w.id := by have := congrArg Node.id a6; exact this
        have := (weak_ok wf a4).id
        rw [e1] at hid; unfold bosEosID at hid; omega
      | bos h1 h2 h3 =>
        left
        have : i = 0 := by
          apply Decidable.byContradiction
          intro hi
          obtain ⟨y, hy⟩ : ∃ y, P.reverse[0]? = some y := by
            have := (List.getElem?_eq_some_iff.mp hx).1
            exact ⟨_, List.getElem?_eq_getElem (by omega)⟩
          have hpr : P.reverse.Pairwise (fun a b => a.1.1 < b.1.1) := by
            rw [List.pairwise_reverse]; exact p4
          rw [List.pairwise_iff_getElem] at hpr
          obtain ⟨l1, e1⟩ := List.getElem?_eq_some_iff.mp hy
          obtain ⟨l2, e2⟩ := List.getElem?_eq_some_iff.mp hx
          have := hpr 0 i l1 l2 (by omega)
          rw [e2, h1] at this
          simp at this
        simp [this, h1]
      | eos h1 h2 h3 =>
        obtain ⟨n, P', hP'⟩ := p1
        by_cases hl : P.length = 1
        · right; exact ⟨by rw [h1]; simp, hl⟩
        · left
          have hi : i ≠ 0 := by
            intro hi
            subst hi
            have hpr : P.reverse.Pairwise (fun a b => a.1.1 < b.1.1) := by
              rw [List.pairwise_reverse]; exact p4
            rw [List.pairwise_iff_getElem] at hpr
            have hpos : 0 < P.length := List.length_pos_of_mem hxP
            obtain ⟨l2, e2⟩ := List.getElem?_eq_some_iff.mp hx
            have hlt := hpr 0 1 l2 (by simp; omega) (by omega)
            rw [e2, h1] at hlt
            have := (p3 _ (List.mem_reverse.mp (List.getElem_mem (l := P.reverse) (n := 1) (by simp; omega)))).2
            simp only at hlt this
            omega
          simp [hi, h1]
    refine ⟨?_, ?_, ?_, ?_, ?_⟩
    · rw [← hk.text wf]
      simp only [mkGraphToken, dotSurface, Nat.zero_add]
      split
      · rename_i hid
        rcases hfirst hid with hf | ⟨_, hf⟩
        · by_cases hi : i = 0
          · rw [if_pos hi, if_pos (hf.mp hi)]
          · rw [if_neg hi, if_neg (fun h => hi (hf.mpr h))]
        · exact absurd hf hnot1
      · rfl
    · rw [hk.start]; rfl
    · rw [hk.stop]; rfl
    · rw [hk.word_eq]; rfl
    · rw [hk.word_eq]; rfl
  · intro q hq
    exact hdecl q (List.mem_reverse.mp hq)
  · intro g hg
    obtain ⟨n, pos, _, _, he⟩ := (n1 g).mp hg
    rw [List.mem_reverse, he]
    simp [stmtOf]
  · intro e he
    obtain ⟨a, b, ha, hb, hc, hbold⟩ := g2 e he
    rw [consecutive_reverse, hbold, Bool.and_eq_true, List.contains_iff_mem, List.contains_iff_mem]
    have hmem' : (e.src, e.dst) ∈ es := by rw [← g1]; exact List.mem_map_of_mem (f := fun e : GEdge => (e.src, e.dst)) he
    obtain ⟨h1, a', b', ha', hb', hab⟩ := (mem_edges hes _).mp hmem'
    constructor
    · rintro ⟨hs, hd⟩
      obtain ⟨na, hna, hna'⟩ := hmem _ hs
      obtain ⟨nb, hnb, hnb'⟩ := hmem _ hd
      have e1 := hb'.1
      rw [hnb'] at e1
      simp only [Option.some.injEq] at e1
      subst e1
      obtain ⟨x, y, hxy⟩ := path_adjacent wf h hP hna hnb h1 hab
      exact ⟨x.map Prod.fst, y.map Prod.fst, by rw [hxy]; simp⟩
    · rintro ⟨x, y, hxy⟩
      rw [hxy]; simp
  · intro a b hab
    rw [consecutive_reverse] at hab
    obtain ⟨b', a', hcons, rfl, rfl⟩ := consecutive_map Prod.fst hab
    have hbm : b' ∈ P := by obtain ⟨x, y, rfl⟩ := hcons; simp
    have ham : a' ∈ P := by obtain ⟨x, y, rfl⟩ := hcons; simp
    obtain ⟨h1, h2⟩ := p5 _ _ hcons
    have : (a'.1, b'.1) ∈ es := by
      rw [mem_edges hes]
      exact ⟨h1, a'.2, b'.2, ⟨(p3 _ ham).1, fun _ => List.mem_map_of_mem ham⟩, ⟨(p3 _ hbm).1, fun _ => List.mem_map_of_mem hbm⟩, h2⟩
    rw [← g1] at this
    obtain ⟨e, he, heq⟩ := List.mem_map.mp this
    simp only [Prod.mk.injEq] at heq
    exact ⟨e, he, heq⟩

end

theorem emitPtr_plain {m : LMode} (hm : m ≠ .extended) (q : Ptr) (n : Node) : emitPtr m q n = [some q] := by
  unfold emitPtr; rw [if_pos (Or.inl hm)]

theorem outPtr_plain {m : LMode} (hm : m ≠ .extended) (P : List (Ptr × Node)) :
    (P.flatMap (fun x => emitPtr m x.1 x.2)).filterMap id = P.map Prod.fst := by
  induction P with
  | nil => rfl
  | cons x P ih =>
    rw [List.flatMap_cons, List.filterMap_append, ih, emitPtr_plain hm]
    rfl

theorem emit_plain {m : LMode} (hm : m ≠ .extended) (n : Node) : emit m n = [n] := by
  unfold emit; rw [if_pos (Or.inl hm)]

/-- The graph is written without a panic. -/
theorem exportGraph_some {t : Tokenizer} (wf : WellFormed t.dict t.userDict) (pt : PosTables t.dict t.userDict) (ideo : Nat → Bool) (inp : Bytes)
    (mode : Int) : (exportGraph t ideo inp mode).isSome := by
  obtain ⟨cols0, cols, L, hsol, hb, hf, hL, hs⟩ := solve_weak wf ideo inp (latticeMode mode)
  obtain ⟨P, hP, hPL⟩ := prevPath_of_chain hL
  have hlen := hsol.len
  obtain ⟨_, hPlen, _⟩ := path_facts wf hsol hP
  have hbp : backwardPtr (latticeMode mode) cols = some (P.flatMap (fun x => emitPtr (latticeMode mode) x.1 x.2)) := by
    unfold backwardPtr
    rw [if_neg (by omega), hlen]
    have : runeCount inp + 2 - 1 = runeCount inp + 1 := by omega
    rw [this]
    exact walkPtr_path hP _ (by simp only at hPlen; omega)
  have hcol : ∀ (i : Nat) c, cols[i]? = some c → ∀ n ∈ c, ∃ j, getNode cols i j = some n := by
    intro i c hc n hn
    obtain ⟨j, hj⟩ := List.mem_iff_getElem?.mp hn
    exact ⟨j, by rw [getNode_iff]; exact ⟨c, hc, hj⟩⟩
  generalize hbests : (P.flatMap (fun x => emitPtr (latticeMode mode) x.1 x.2)).filterMap id = bests
  obtain ⟨es, hes⟩ := Option.isSome_iff_exists.mp (edgesCols_some (bests := bests) (cols := cols) (cols.drop 1) (by
    intro c hc n hn
    obtain ⟨i, hi⟩ := List.mem_iff_getElem?.mp hc
    rw [List.getElem?_drop] at hi
    obtain ⟨j, hj⟩ := hcol _ _ hi n hn
    have h1 := (hsol.eqn wf (by omega) hj).1
    have h2 := (List.getElem?_eq_some_iff.mp hi).1
    omega) 1)
  obtain ⟨ns, hns⟩ := Option.isSome_iff_exists.mp (nodesCols_some (d := t.dict) (u := t.userDict) (bests := bests) cols (by
    intro c hc n hn
    obtain ⟨i, hi⟩ := List.mem_iff_getElem?.mp hc
    obtain ⟨j, hj⟩ := hcol _ _ hi n hn
    exact posFeature_some wf pt (hsol.kind wf (q := (i, j)) hj)) 0)
  obtain ⟨gs, hgs⟩ := Option.isSome_iff_exists.mp (dotEdges_some (d := t.dict) (bests := bests) (cols := cols) es (by
    intro e he
    obtain ⟨_, a, b, ha, hb, _⟩ := (mem_edges hes e).mp he
    exact ⟨a, b, ha.1, hb.1, by rw [connCost_eq wf (hsol.table wf ha.1) (hsol.table wf hb.1)]; rfl⟩))
  unfold exportGraph
  rw [hs]
  simp only [hbp, dotGraph, hbests, hes, hns, hgs, Option.map_some, Option.isSome_some]

theorem graph_main {t : Tokenizer} (wf : WellFormed t.dict t.userDict) (pt : PosTables t.dict t.userDict) (ideo : Nat → Bool) {inp : Bytes}
    (hrep : ReplacementOk t.dict inp) (mode : Int) :
    ∃ toks g place, analyzeGraph t ideo inp mode = some toks ∧ exportGraph t ideo inp mode = some g ∧
      ShowsWords t.dict t.userDict inp g place ∧
      (latticeMode mode ≠ .extended → ∃ path, ShowsAnalysis toks g place inp path) ∧
      (latticeMode mode = .extended → ∀ n ∈ g.nodes, (place n.ptr).asWord.cls ≠ .unknown) := by
  obtain ⟨cols0, cols, L, hsol, hb, hf, hL, hs⟩ := solve_weak wf ideo inp (latticeMode mode)
  have hlat : Lat t.dict t.userDict inp cols0 := by
    obtain ⟨c', hb', hl'⟩ := build_lat wf hrep
    rw [hb] at hb'
    simp only [Option.some.injEq] at hb'
    rw [hb']; exact hl'
  have hat0 : At inp 0 0 inp := by
    have := at_of_le (inp := inp) (k := 0) (by omega)
    simpa using this
  obtain ⟨ws0, hws0⟩ := analysis_exists wf inp
  have hLlen : L.length ≠ 1 := by
    rcases prevChain_eos wf hsol hL with ⟨e, rfl, hske, hemp⟩ | ⟨e, j', L', rfl, hske, hL'⟩
    · exfalso
      by_cases hne : ws0 = []
      · subst hne
        cases hws0
        have : runeCount [] = 0 := rfl
        rw [this, hsol.bos] at hemp
        simp at hemp
      · exact last_column wf hsol hlat hws0 hat0 hne hemp
    · cases hL' <;> simp
  obtain ⟨P, hP, hPL⟩ := prevPath_of_chain hL
  have hlen := hsol.len
  obtain ⟨_, hPlen, _⟩ := path_facts wf hsol hP
  have hbp : backwardPtr (latticeMode mode) cols = some (P.flatMap (fun x => emitPtr (latticeMode mode) x.1 x.2)) := by
    unfold backwardPtr
    rw [if_neg (by omega), hlen]
    have : runeCount inp + 2 - 1 = runeCount inp + 1 := by omega
    rw [this]
    exact walkPtr_path hP _ (by simp only at hPlen; omega)
  have hcol : ∀ (i : Nat) c, cols[i]? = some c → ∀ n ∈ c, ∃ j, getNode cols i j = some n := by
    intro i c hc n hn
    obtain ⟨j, hj⟩ := List.mem_iff_getElem?.mp hn
    exact ⟨j, by rw [getNode_iff]; exact ⟨c, hc, hj⟩⟩
  generalize hbests : (P.flatMap (fun x => emitPtr (latticeMode mode) x.1 x.2)).filterMap id = bests
  obtain ⟨es, hes⟩ := Option.isSome_iff_exists.mp (edgesCols_some (bests := bests) (cols := cols) (cols.drop 1) (by
    intro c hc n hn
    obtain ⟨i, hi⟩ := List.mem_iff_getElem?.mp hc
    rw [List.getElem?_drop] at hi
    obtain ⟨j, hj⟩ := hcol _ _ hi n hn
    have h1 := (hsol.eqn wf (by omega) hj).1
    have h2 := (List.getElem?_eq_some_iff.mp hi).1
    omega) 1)
  obtain ⟨ns, hns⟩ := Option.isSome_iff_exists.mp (nodesCols_some (d := t.dict) (u := t.userDict) (bests := bests) cols (by
    intro c hc n hn
    obtain ⟨i, hi⟩ := List.mem_iff_getElem?.mp hc
    obtain ⟨j, hj⟩ := hcol _ _ hi n hn
    exact posFeature_some wf pt (hsol.kind wf (q := (i, j)) hj)) 0)
  obtain ⟨gs, hgs⟩ := Option.isSome_iff_exists.mp (dotEdges_some (d := t.dict) (bests := bests) (cols := cols) es (by
    intro e he
    obtain ⟨_, a, b, ha, hb, _⟩ := (mem_edges hes e).mp he
    exact ⟨a, b, ha.1, hb.1, by rw [connCost_eq wf (hsol.table wf ha.1) (hsol.table wf hb.1)]; rfl⟩))
  refine ⟨_, ⟨ns, gs⟩, placeOf cols, by unfold analyzeGraph; rw [hs]; rfl, ?_, shows_words wf pt hsol hlat hrep hes hns hgs, ?_, ?_⟩
  · unfold exportGraph
    rw [hs]
    simp only [hbp, dotGraph, hbests, hes, hns, hgs, Option.map_some]
  · intro hm
    have e1 : (P.flatMap (fun x => emitPtr (latticeMode mode) x.1 x.2)).filterMap id = P.map Prod.fst := by
      exact outPtr_plain hm P
    have e2 : L.flatMap (emit (latticeMode mode)) = P.map Prod.snd := by
      rw [hPL]
      simp only [funext (emit_plain hm)]
      simp
    rw [hbests] at e1
    subst e1
    rw [e2]
    exact ⟨_, shows_analysis wf hsol hP (by have := congrArg List.length hPL; simp at this; omega) hes hns hgs⟩

  · intro hm n hn
    obtain ⟨n1, _, _⟩ := mem_nodes hns
    obtain ⟨x, pos, hx, _, he⟩ := (n1 n).mp hn
    rw [(hsol.kind wf hx.1).word_eq]
    intro hcls
    have hb := hx.2 hcls
    rw [← hbests, List.mem_filterMap] at hb
    obtain ⟨o, ho, heq⟩ := hb
    obtain ⟨y, hy, ho'⟩ := List.mem_flatMap.mp ho
    simp only [id_eq] at heq
    subst heq
    rw [hm] at ho'
    unfold emitPtr at ho'
    split at ho'
    · rename_i hor
      simp only [List.mem_singleton, Option.some.injEq] at ho'
      have := (path_facts wf hsol hP).2.2.1 y hy
      rw [← ho', hx.1] at this
      simp only [Option.some.injEq] at this
      rcases hor with hor | hor
      · exact hor rfl
      · rw [← this.1] at hor; exact hor hcls
    · simp at ho'

end Kagome
