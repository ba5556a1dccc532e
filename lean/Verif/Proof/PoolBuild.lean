import Verif.Proof.PoolRep

/-!
`Build` on shared memory computes what `build` of the sequential model computes.
-/

namespace Kagome

section
variable {d : Dict} {u : Option UserDict} {out : List Addr} {la : Addr}

/-- The program `p` does to the memory what `f` does to the columns. -/
def Sim (d : Dict) (u : Option UserDict) (out : List Addr) (la : Addr) (p : Prog Unit) (f : Cols → Option Cols) : Prop :=
  ∀ h addrs cols (Q : Option Unit → LHeap → Prop), Rep d u out la h addrs cols →
    (∀ h' addrs' cols', f cols = some cols' → Rep d u out la h' addrs' cols' → Q (some ()) h') →
    (f cols = none → ∀ h', Own h' la → Q none h') → wp p h Q

theorem Sim.pure : Sim d u out la (Pure.pure ()) some := fun h addrs cols Q hr ok _ => ok h addrs cols rfl hr

theorem Sim.seq {p q : Prog Unit} {f g : Cols → Option Cols} (hp : Sim d u out la p f) (hq : Sim d u out la q g) :
    Sim d u out la (p >>= fun _ => q) (fun cols => (f cols).bind g) := by
  intro h addrs cols Q hr ok bad
  refine wp_bind (hp h addrs cols _ hr ?_ ?_)
  · intro h' addrs' cols' hf hr'
    refine hq h' addrs' cols' _ hr' ?_ ?_
    · intro h'' addrs'' cols'' hg hr''
      exact ok h'' addrs'' cols'' (by show (f cols).bind g = _; rw [hf]; exact hg) hr''
    · intro hg h'' ho
      exact bad (by show (f cols).bind g = _; rw [hf]; exact hg) h'' ho
  · intro hf h' ho
    exact bad (by show (f cols).bind g = _; rw [hf]; rfl) h' ho

theorem Sim.must {α : Type} {o : Option α} {p : α → Prog Unit} {f : α → Cols → Option Cols}
    (hp : ∀ a, o = some a → Sim d u out la (p a) (f a)) : Sim d u out la (Prog.must o >>= p) (fun cols => o.bind (fun a => f a cols)) := by
  intro h addrs cols Q hr ok bad
  cases o with
  | none => exact wp_must_none rfl (bad rfl h hr.own)
  | some a => exact wp_must_some rfl (hp a rfl h addrs cols Q hr ok bad)

/-- Reading a field of the lattice that does not change. -/
theorem Sim.read {p : LatObj → Prog Unit} {f : Cols → Option Cols}
    (hp : ∀ l, l.dic = some d → l.udic = u → Sim d u out la (p l) f) : Sim d u out la (readLatP la >>= p) f := by
  intro h addrs cols Q hr ok bad
  obtain ⟨lv, h1, h2, h3, -⟩ := hr.lat
  exact wp_readLat h1 (hp lv h2 h3 h addrs cols Q hr ok bad)

theorem Sim.congr {p : Prog Unit} {f g : Cols → Option Cols} (hp : Sim d u out la p f) (h : ∀ cols, f cols = g cols) :
    Sim d u out la p g := by
  rw [← show f = g from funext h]; exact hp

theorem ptr_append (addrs : List (List Addr)) (p i j : Nat) (as : List Addr) (a : Addr) (hp : addrs[p]? = some as) :
    ptr (addrs.set p (as ++ [a])) i j = if i = p ∧ j = as.length then some a else ptr addrs i j := by
  have hl := (List.getElem?_eq_some_iff.mp hp).1
  unfold ptr
  rw [List.getElem?_set]
  by_cases he : p = i
  · subst he
    rw [if_pos rfl, if_pos hl, hp]
    simp only [Option.bind_some, true_and]
    by_cases hj : j = as.length
    · subst hj; simp
    · rw [if_neg hj]
      by_cases hlt : j < as.length
      · rw [List.getElem?_append_left hlt]
      · rw [List.getElem?_eq_none (by simp; omega), List.getElem?_eq_none (by omega)]
  · rw [if_neg he, if_neg (fun hh => he hh.1.symm)]

theorem getNode_append (cols : Cols) (p i j : Nat) (col : List Node) (n : Node) (hp : cols[p]? = some col) :
    getNode (cols.modify p (· ++ [n])) i j = if i = p ∧ j = col.length then some n else getNode cols i j := by
  unfold getNode
  rw [List.getElem?_modify]
  by_cases he : p = i
  · subst he
    rw [hp]
    simp only [if_true, Option.map_eq_map, Option.map_some, Option.bind_some, true_and]
    by_cases hj : j = col.length
    · subst hj; simp
    · rw [if_neg hj]
      by_cases hlt : j < col.length
      · rw [List.getElem?_append_left hlt]
      · rw [List.getElem?_eq_none (by simp; omega), List.getElem?_eq_none (by omega)]
  · rw [if_neg (fun hh => he hh.1.symm)]
    simp [he]

theorem RepNode.mono {addrs addrs' : List (List Addr)} {n : Node} {pn : PNode} (hn : RepNode addrs n pn)
    (hm : ∀ i j a, ptr addrs i j = some a → ptr addrs' i j = some a) : RepNode addrs' n pn := by
  refine ⟨hn.val, ?_, hn.linked⟩
  have h1 := hn.link
  have h2 := hn.linked
  cases hp : n.prev with
  | none => rw [h1, hp]; rfl
  | some q =>
    rw [hp] at h1 h2
    replace h1 : pn.prev = ptr addrs q.1 q.2 := h1
    have h3 := h2 rfl
    rw [Option.isSome_iff_exists] at h3
    obtain ⟨a, ha⟩ := h3
    rw [ha] at h1
    show pn.prev = ptr addrs' q.1 q.2
    rw [ha, hm _ _ _ h1.symm]

theorem sim_addNode (pos : Nat) (id : Int) (position start : Nat) (cls : NodeClass) (surface : Bytes) :
    Sim d u out la (addNodeP la pos id position start cls surface)
      (fun cols => addNode d cols pos id position start cls surface) := by
  intro h addrs cols Q hr ok bad
  obtain ⟨lv, h1, h2, h3, h4, h5, h6⟩ := hr.lat
  unfold addNodeP
  refine wp_readLat h1 ?_
  rw [h2]
  show wp (Prog.must (morphOf d cls id) >>= _) h Q
  unfold addNode at ok bad
  cases hm : morphOf d cls id with
  | none => rw [hm] at bad; exact wp_must_none rfl (bad rfl h hr.own)
  | some m =>
    rw [hm] at ok bad
    dsimp only at ok bad
    refine wp_must_some rfl (wp_getNode (fun a v ha => ?_))
    iterate 8 refine wp_rewriteNode ?_
    let pn : PNode := ⟨id, position, start, cls, 0, m.left.toInt, m.right.toInt, m.weight.toInt, surface, none⟩
    show wp _ (h.setN a (some (true, pn))) Q
    refine wp_readLat h1 ?_
    have hfresh : ∀ i j b, ptr addrs i j = some b → b ≠ a := by
      intro i j b hb he
      subst he
      obtain ⟨_, pn', _, hx, _⟩ := hr.at' hb
      rw [ha] at hx; cases hx
    cases hc : addrs[pos + runeCount surface]? with
    | none =>
      rw [hr.length] at bad
      rw [List.getElem?_eq_none_iff] at hc
      rw [if_neg (by omega)] at bad
      refine wp_must_none (h5.get_none (List.getElem?_eq_none_iff.mpr hc)) (bad rfl _ ?_)
      refine ⟨_, _, _, addrs, ⟨lv, h1, h2, h3, h4, h5, h6⟩, hr.inj, ?_⟩
      intro i j b hb
      obtain ⟨_, pn', _, hx, _⟩ := hr.at' hb
      exact ⟨pn', by simp only [LHeap.setN]; rw [upd_other _ _ (hfresh i j b hb)]; exact hx⟩
    | some as =>
      obtain ⟨s, h7, h8⟩ := h5.get hc
      obtain ⟨col, h9, h10⟩ := hr.col hc
      have hlt := (List.getElem?_eq_some_iff.mp hc).1
      rw [hr.length, if_pos hlt] at ok
      refine wp_must_some h7 (wp_choose (fun e => ?_))
      refine ⟨lv, h1, ?_⟩
      refine ok _ (addrs.set (pos + runeCount surface) (as ++ [a])) _ rfl ?_
      have hmono : ∀ i j b, ptr addrs i j = some b → ptr (addrs.set (pos + runeCount surface) (as ++ [a])) i j = some b := by
        intro i j b hb
        rw [ptr_append _ _ _ _ _ _ hc, if_neg]
        · exact hb
        · rintro ⟨rfl, rfl⟩
          unfold ptr at hb
          rw [hc] at hb
          simp at hb
      constructor
      · refine ⟨{ lv with list := lv.list.set (pos + runeCount surface) (s.append (some a) e none) }, by simp [LHeap.setL, LHeap.setN], h2, h3, h4, ?_, ?_⟩
        · exact h5.set hlt (by rw [List.map_append]; exact h8.append _ _)
        · intro x v hx
          simp only [LHeap.setL, LHeap.setN] at hx
          by_cases he : x = la
          · exact he
          · rw [upd_other _ _ he] at hx; exact h6 x v hx
      · intro i j i' j' b hb hb'
        rw [ptr_append _ _ _ _ _ _ hc] at hb hb'
        split at hb <;> split at hb'
        · rename_i x y; exact ⟨x.1.trans y.1.symm, x.2.trans y.2.symm⟩
        · obtain rfl := Option.some.inj hb; exact absurd rfl (hfresh _ _ _ hb')
        · obtain rfl := Option.some.inj hb'; exact absurd rfl (hfresh _ _ _ hb)
        · exact hr.inj _ _ _ _ _ hb hb'
      · apply List.ext_getElem?
        intro k
        simp only [List.getElem?_map, List.getElem?_modify, List.getElem?_set]
        by_cases hk : pos + runeCount surface = k
        · subst hk
          rw [h9]
          simp [hlt, h10]
        · have := hr.collen k
          rw [if_neg hk, ← this]
          cases cols[k]? with
          | none => rfl
          | some c => simp [hk]
      · intro i j b n hb hn
        rw [ptr_append _ _ _ _ _ _ hc] at hb
        rw [getNode_append _ _ _ _ _ _ h9, h10] at hn
        split at hb
        · rename_i hij
          rw [if_pos hij] at hn
          obtain rfl := Option.some.inj hb
          obtain rfl := Option.some.inj hn
          exact ⟨pn, by simp [LHeap.setL, LHeap.setN], rfl, rfl, fun hx => by cases hx⟩
        · rename_i hij
          rw [if_neg hij] at hn
          obtain ⟨pn', hx, hy⟩ := hr.node i j b n hb hn
          exact ⟨pn', by simp only [LHeap.setL, LHeap.setN]; rw [upd_other _ _ (hfresh i j b hb)]; exact hx, hy.mono hmono⟩
      · intro b pn' hb
        simp only [LHeap.setL, LHeap.setN] at hb
        by_cases he : b = a
        · subst he
          exact ⟨pos + runeCount surface, as.length, by rw [ptr_append _ _ _ _ _ _ hc, if_pos ⟨rfl, rfl⟩]⟩
        · rw [upd_other _ _ he] at hb
          obtain ⟨i, j, hij⟩ := hr.only b pn' hb
          exact ⟨i, j, hmono i j b hij⟩

theorem sim_addHits (inp : Bytes) (runePos pos : Nat) (cls : NodeClass) (hits : List (Nat × Nat)) :
    Sim d u out la (addHitsP la inp runePos pos cls hits) (fun cols => addHits d inp runePos pos cls hits cols) := by
  induction hits with
  | nil => exact Sim.pure
  | cons x hits ih =>
    obtain ⟨id, l⟩ := x
    refine (Sim.must (fun s _ => (sim_addNode runePos id pos runePos cls s).seq ih)).congr ?_
    intro cols
    rw [addHits.eq_def]
    dsimp only
    cases slice inp pos (pos + l) with
    | none => rfl
    | some s =>
      dsimp only [Option.bind]
      cases addNode d cols runePos id pos runePos cls s <;> rfl

theorem sim_addUnks (inp : Bytes) (runePos pos prev endPos : Nat) (ids : List Int) :
    Sim d u out la (addUnksP la inp runePos pos prev endPos ids) (fun cols => addUnks d inp runePos pos prev endPos ids cols) := by
  induction ids with
  | nil => exact Sim.pure
  | cons id ids ih =>
    have hadd := fun s => sim_addNode (d := d) (u := u) (out := out) (la := la) runePos id pos runePos .unknown s
    have hlast := Sim.must (o := slice inp pos endPos) (fun s _ => (hadd s).seq ih)
    unfold addUnksP
    by_cases hp : pos < prev
    · simp only [if_pos hp]
      refine Sim.congr (Sim.must (o := slice inp pos prev) (fun s _ => (hadd s).seq hlast)) ?_
      intro cols
      rw [addUnks.eq_def]
      simp only [if_pos hp]
      cases slice inp pos prev with
      | none => rfl
      | some s =>
        simp only [Option.bind_some]
        cases addNode d cols runePos id pos runePos .unknown s with
        | none => rfl
        | some cols =>
          simp only [Option.bind_some]
          cases slice inp pos endPos with
          | none => rfl
          | some s' =>
            simp only [Option.bind_some]
            cases addNode d cols runePos id pos runePos .unknown s' <;> rfl
    · simp only [if_neg hp]
      refine Sim.congr hlast ?_
      intro cols
      rw [addUnks.eq_def]
      simp only [if_neg hp]
      cases slice inp pos endPos with
      | none => rfl
      | some s' =>
        simp only [Option.bind_some]
        cases addNode d cols runePos id pos runePos .unknown s' <;> rfl

theorem sim_addUnknown (inp : Bytes) (runePos pos ch : Nat) :
    Sim d u out la (addUnknownP la inp runePos pos ch) (fun cols => addUnknown d inp runePos pos ch cols) := by
  refine Sim.read (fun l hd _ => ?_)
  refine (Sim.must (o := l.dic) (f := fun d cols => addUnknown d inp runePos pos ch cols) (fun d' he => ?_)).congr (fun cols => by rw [hd]; rfl)
  obtain rfl : d' = d := by rw [hd] at he; exact (Option.some.inj he).symm
  refine (Sim.must (fun e _ => Sim.must (fun w _ => sim_addUnks _ _ _ _ _ _))).congr ?_
  intro cols
  unfold addUnknown
  cases unkEnd d' inp pos ch with
  | none => rfl
  | some e =>
    simp only [Option.bind_some]
    cases slice inp pos e <;> rfl

theorem sim_buildAt (inp : Bytes) (runePos pos ch : Nat) :
    Sim d u out la (buildAtP la inp runePos pos ch) (fun cols => buildAt d u inp runePos pos ch cols) := by
  refine Sim.read (fun l _ hu => ?_)
  rw [hu]
  have hrest : Sim d u out la (if userHits u (inp.drop pos) ≠ [] then pure () else
      readLatP la >>= fun l => Prog.must l.dic >>= fun d =>
        addHitsP la inp runePos pos .known (d.prefixSearch (inp.drop pos)) >>= fun _ =>
          if d.prefixSearch (inp.drop pos) = [] then addUnknownP la inp runePos pos ch
          else Prog.must d.invokeList[d.category ch]? >>= fun invoke => if invoke = true then addUnknownP la inp runePos pos ch else pure ())
      (fun cols => if userHits u (inp.drop pos) ≠ [] then some cols
        else
          (addHits d inp runePos pos .known (d.prefixSearch (inp.drop pos)) cols).bind (fun cols =>
            if d.prefixSearch (inp.drop pos) = [] then addUnknown d inp runePos pos ch cols
            else d.invokeList[d.category ch]?.bind (fun b => if b = true then addUnknown d inp runePos pos ch cols else some cols))) := by
    by_cases hh : userHits u (inp.drop pos) ≠ []
    · simp only [if_pos hh]; exact Sim.pure
    · simp only [if_neg hh]
      refine Sim.read (fun l hd _ => ?_)
      rw [hd]
      refine (sim_addHits inp runePos pos .known _).seq ?_
      by_cases hk : d.prefixSearch (inp.drop pos) = []
      · simp only [if_pos hk]; exact sim_addUnknown _ _ _ _
      · simp only [if_neg hk]
        refine Sim.must (fun b _ => ?_)
        cases b
        · exact Sim.pure
        · exact sim_addUnknown _ _ _ _
  refine ((sim_addHits inp runePos pos .user _).seq hrest).congr ?_
  intro cols
  unfold buildAt
  dsimp only
  cases addHits d inp runePos pos .user (userHits u (inp.drop pos)) cols with
  | none => rfl
  | some cols =>
    simp only [Option.bind_some]
    split
    · rfl
    · cases addHits d inp runePos pos .known (d.prefixSearch (inp.drop pos)) cols with
      | none => rfl
      | some cols =>
        simp only [Option.bind_some]
        split
        · rfl
        · cases d.invokeList[d.category ch]? with
          | none => rfl
          | some b => cases b <;> rfl

theorem sim_buildLoop (inp : Bytes) (l : List (Nat × Nat)) (runePos : Nat) :
    Sim d u out la (buildLoopP la inp runePos l) (fun cols => buildLoop d u inp runePos l cols) := by
  induction l generalizing runePos with
  | nil => exact Sim.pure
  | cons x l ih =>
    obtain ⟨pos, ch⟩ := x
    refine ((sim_buildAt inp runePos pos ch).seq (ih _)).congr ?_
    intro cols
    rw [buildLoop.eq_def]
    dsimp only
    cases buildAt d u inp runePos pos ch cols <;> rfl

/-- `Build` on a clean lattice. -/
theorem wp_build {h : LHeap} {lv : LatObj} {Q : Option Unit → LHeap → Prop} (inp : Bytes) (hl : h.l la = some lv) (hc : Blank lv)
    (hd : lv.dic = some d) (hu : lv.udic = u) (hlats : ∀ x v, h.l x = some v → x = la) (hno : ∀ a pn, h.n a ≠ some (true, pn))
    (ok : ∀ h' addrs' cols', build d u inp = some cols' → Rep d u [] la h' addrs' cols' → Q (some ()) h')
    (bad : build d u inp = none → ∀ h', Own h' la → Q none h') : wp (buildP la inp) h Q := by
  have hsim : Sim d u [] la (addNodeP la 0 bosEosID 0 0 .dummy [] >>= fun _ =>
      Prog.must (slice inp (runeCount inp) (runeCount inp)) >>= fun e =>
      addNodeP la (runeCount inp + 1) bosEosID inp.length (runeCount inp) .dummy e >>= fun _ =>
      buildLoopP la inp 0 (rangeString inp)) (fun cols => (addNode d cols 0 bosEosID 0 0 .dummy []).bind (fun cols =>
        (slice inp (runeCount inp) (runeCount inp)).bind (fun e =>
          (addNode d cols (runeCount inp + 1) bosEosID inp.length (runeCount inp) .dummy e).bind (fun cols =>
            buildLoop d u inp 0 (rangeString inp) cols)))) :=
    (sim_addNode 0 bosEosID 0 0 .dummy []).seq (Sim.must (fun e _ =>
      (sim_addNode (runeCount inp + 1) bosEosID inp.length (runeCount inp) .dummy e).seq (sim_buildLoop inp (rangeString inp) 0)))
  have heq : build d u inp = (addNode d (List.replicate (runeCount inp + 2) []) 0 bosEosID 0 0 .dummy []).bind (fun cols =>
        (slice inp (runeCount inp) (runeCount inp)).bind (fun e =>
          (addNode d cols (runeCount inp + 1) bosEosID inp.length (runeCount inp) .dummy e).bind (fun cols =>
            buildLoop d u inp 0 (rangeString inp) cols))) := by
    unfold build
    dsimp only
    cases addNode d (List.replicate (runeCount inp + 2) []) 0 bosEosID 0 0 .dummy [] with
    | none => rfl
    | some cols =>
      simp only [Option.bind_some]
      cases slice inp (runeCount inp) (runeCount inp) with
      | none => rfl
      | some e =>
        simp only [Option.bind_some]
        cases addNode d cols (runeCount inp + 1) bosEosID inp.length (runeCount inp) .dummy e <;> rfl
  have hfin : ∀ (g : LHeap) (lv' : LatObj), g.n = h.n → (∀ x, x ≠ la → g.l x = h.l x) → g.l la = some lv' → lv'.dic = some d → lv'.udic = u →
      lv'.output.len = 0 → lv'.list.len = runeCount inp + 2 → runeCount inp + 2 ≤ lv'.list.arr.length →
      (∀ s ∈ lv'.list.arr, s.len = 0) → (∀ p ∈ lv'.output.arr, p = none) → (∀ s ∈ lv'.list.arr, ∀ p ∈ s.arr, p = none) → wp (addNodeP la 0 bosEosID 0 0 .dummy [] >>= fun _ =>
      Prog.must (slice inp (runeCount inp) (runeCount inp)) >>= fun e =>
      addNodeP la (runeCount inp + 1) bosEosID inp.length (runeCount inp) .dummy e >>= fun _ =>
      buildLoopP la inp 0 (rangeString inp)) g Q := by
    intro g lv' hg1 hg2 hg3 e1 e2 e3 e4 e5 e6 e7 e8
    refine hsim g (List.replicate (runeCount inp + 2) []) (List.replicate (runeCount inp + 2) []) Q ?_ ?_ ?_
    · have hptr : ∀ i j, ptr (List.replicate (runeCount inp + 2) []) i j = none := by
        intro i j
        unfold ptr
        rw [List.getElem?_replicate]
        split <;> rfl
      constructor
      · refine ⟨lv', hg3, e1, e2, SliceIs.of_len_zero e3 e7, ?_, ?_⟩
        · constructor
          · simp [e4]
          · simpa using e5
          · intro i as hi
            rw [List.getElem?_replicate] at hi
            split at hi
            · rename_i hlt
              obtain rfl := Option.some.inj hi
              refine ⟨lv'.list.arr[i]'(by omega), List.getElem?_eq_getElem (by omega), ?_⟩
              exact SliceIs.of_len_zero (e6 _ (List.getElem_mem _)) (e8 _ (List.getElem_mem _))
            · cases hi
          · intro i s _ hs
            exact SliceIs.of_len_zero (e6 _ (List.mem_of_getElem? hs)) (e8 _ (List.mem_of_getElem? hs))
        · intro x v hx
          by_cases he : x = la
          · exact he
          · rw [hg2 x he] at hx; exact hlats x v hx
      · intro i j i' j' a ha; rw [hptr] at ha; cases ha
      · simp
      · intro i j a n ha; rw [hptr] at ha; cases ha
      · intro a pn ha; rw [hg1] at ha; exact absurd ha (hno a pn)
    · intro h' addrs' cols' hf hr
      exact ok h' addrs' cols' (heq.trans hf) hr
    · intro hf h' ho
      exact bad (heq.trans hf) h' ho
  unfold buildP
  refine wp_writeLat hl ?_
  refine wp_readLat (v := { lv with input := inp }) (by simp [LHeap.setL]) ?_
  dsimp only
  split
  · rename_i hcap
    refine wp_bind ?_
    refine ⟨{ lv with input := inp }, by simp [LHeap.setL], ?_⟩
    show wp _ _ _
    rw [LHeap.setL_setL]
    refine wp_readLat (v := { lv with input := inp, list := .make (runeCount inp + 2) .nil }) (by simp [LHeap.setL]) ?_
    refine wp_must_some (a := ⟨List.replicate (runeCount inp + 2) .nil, runeCount inp + 2⟩) (by simp [Slice.reslice, Slice.make]) ?_
    refine wp_rewriteLat ?_
    refine hfin _ _ rfl (fun x hx => upd_other _ _ hx) (upd_same _ _ _) hd hu hc.out rfl (by simp) ?_ hc.noOut ?_
    · intro s hs
      rw [List.eq_of_mem_replicate hs]; rfl
    · intro s hs p hp
      rw [List.eq_of_mem_replicate hs] at hp
      cases hp
  · rename_i hcap
    refine wp_readLat (v := { lv with input := inp }) (by simp [LHeap.setL]) ?_
    refine wp_must_some (a := ⟨lv.list.arr, runeCount inp + 2⟩) (by simp only [Slice.reslice]; rw [if_pos (by omega)]) ?_
    refine wp_rewriteLat ?_
    exact hfin _ _ rfl (fun x hx => upd_other _ _ hx) (upd_same _ _ _) hd hu hc.out rfl (by show _ ≤ lv.list.arr.length; omega) hc.cols hc.noOut hc.noCols

end

end Kagome
