import Verif.Spec.Renumber
import Verif.Model.Token
import Verif.Proof.Build

/-! Renumbering the entries of the dictionaries goes through the whole analysis. -/

namespace Kagome

open Spec

section
variable {t t' : Tokenizer} {inp : Bytes} {f g : Nat → Nat}

/-- The node with the new number. -/
def reNode (f g : Nat → Nat) (n : Node) : Node := { n with id := newId f g n.cls n.id }

/-- All nodes with the new number. -/
def reCols (f g : Nat → Nat) (cols : Cols) : Cols := cols.map (List.map (reNode f g))

@[simp] theorem reCols_length (cols : Cols) : (reCols f g cols).length = cols.length := by simp [reCols]

theorem reCols_modify (cols : Cols) (p : Nat) (n : Node) :
    reCols f g (cols.modify p (· ++ [n])) = (reCols f g cols).modify p (· ++ [reNode f g n]) := by
  unfold reCols
  apply List.ext_getElem?
  intro i
  simp only [List.getElem?_map, List.getElem?_modify]
  split <;> (cases cols[i]? <;> simp)

theorem reCols_set (cols : Cols) (i j : Nat) (n : Node) : reCols f g (setNode cols i j n) = setNode (reCols f g cols) i j (reNode f g n) := by
  unfold reCols setNode
  apply List.ext_getElem?
  intro k
  simp only [List.getElem?_map, List.getElem?_modify]
  split <;> (cases cols[k]? <;> simp [List.map_set])

theorem reCols_get (cols : Cols) (i j : Nat) : getNode (reCols f g cols) i j = (getNode cols i j).map (reNode f g) := by
  unfold getNode reCols
  simp only [List.getElem?_map]
  cases cols[i]? <;> simp

theorem addNode_re {d d' : Dict} {cols : Cols} {pos : Nat} {id : Int} {position start : Nat} {cls : NodeClass} {s : Bytes}
    (h : morphOf d' cls (newId f g cls id) = morphOf d cls id) :
    addNode d' (reCols f g cols) pos (newId f g cls id) position start cls s = (addNode d cols pos id position start cls s).map (reCols f g) := by
  unfold addNode
  rw [h]
  cases morphOf d cls id with
  | none => rfl
  | some m =>
    simp only [reCols_length]
    split
    · rw [Option.map_some, reCols_modify]
      rfl
    · rfl

theorem morphOf_sameUnk {d d' : Dict} (h : d'.unk = d.unk) (id : Int) : morphOf d' .unknown id = morphOf d .unknown id := by
  unfold morphOf
  rw [h]

theorem addHits_re {d d' : Dict} {inp : Bytes} {k pos : Nat} {cls : NodeClass} {φ : Nat → Nat} (hits : List (Nat × Nat))
    (hφ : ∀ n : Nat, newId f g cls n = φ n) (h : ∀ x ∈ hits, morphOf d' cls (φ x.1) = morphOf d cls x.1) (cols : Cols) :
    addHits d' inp k pos cls (hits.map (fun x => (φ x.1, x.2))) (reCols f g cols) = (addHits d inp k pos cls hits cols).map (reCols f g) := by
  induction hits generalizing cols with
  | nil => rfl
  | cons x hits ih =>
    obtain ⟨id, l⟩ := x
    simp only [List.map_cons, addHits]
    cases slice inp pos (pos + l) with
    | none => rfl
    | some s =>
      simp only
      have h1 := h (id, l) (by simp)
      simp only at h1
      have := addNode_re (f := f) (g := g) (d := d) (d' := d') (cols := cols) (pos := k) (id := id) (position := pos) (start := k) (cls := cls) (s := s)
        (by rw [hφ]; exact h1)
      rw [hφ] at this
      rw [this]
      cases addNode d cols k id pos k cls s with
      | none => rfl
      | some c => exact ih (fun x hx => h x (by simp [hx])) c

theorem addUnks_re {d d' : Dict} (h : d'.unk = d.unk) {inp : Bytes} {k pos prev stop : Nat} (ids : List Int) (cols : Cols) :
    addUnks d' inp k pos prev stop ids (reCols f g cols) = (addUnks d inp k pos prev stop ids cols).map (reCols f g) := by
  induction ids generalizing cols with
  | nil => rfl
  | cons id ids ih =>
    have hadd : ∀ (c : Cols) (s : Bytes), addNode d' (reCols f g c) k id pos k .unknown s = (addNode d c k id pos k .unknown s).map (reCols f g) :=
      fun c s => addNode_re (f := f) (g := g) (id := id) (cls := .unknown) (morphOf_sameUnk h id)
    have hrest : ∀ c : Cols,
        (match some (reCols f g c), slice inp pos stop with
          | some cols, some s =>
            match addNode d' cols k id pos k .unknown s with
            | none => none
            | some cols => addUnks d' inp k pos prev stop ids cols
          | _, _ => none) =
        (match some c, slice inp pos stop with
          | some cols, some s =>
            match addNode d cols k id pos k .unknown s with
            | none => none
            | some cols => addUnks d inp k pos prev stop ids cols
          | _, _ => none).map (reCols f g) := by
      intro c
      cases slice inp pos stop with
      | none => rfl
      | some s =>
        simp only [hadd]
        cases addNode d c k id pos k .unknown s with
        | none => rfl
        | some c' => exact ih c'
    simp only [addUnks]
    by_cases hp : pos < prev
    · simp only [if_pos hp]
      cases slice inp pos prev with
      | none => rfl
      | some s =>
        simp only [hadd]
        cases addNode d cols k id pos k .unknown s with
        | none => rfl
        | some c => exact hrest c
    · simp only [if_neg hp]
      exact hrest cols

theorem unkEnd_re {d d' : Dict} (hc : d'.category = d.category) (hg : d'.groupList = d.groupList) (inp : Bytes) (pos ch : Nat) :
    unkEnd d' inp pos ch = unkEnd d inp pos ch := by
  have h : ∀ c rs e n, groupLoop d' c rs e n = groupLoop d c rs e n := by
    intro c rs
    induction rs with
    | nil => intro e n; rfl
    | cons r rs ih => intro e n; simp only [groupLoop, hc, ih]
  unfold unkEnd
  simp only [hc, hg, h]

theorem addUnknown_re (h : SameAnswers t t' inp f g) (k pos ch : Nat) (cols : Cols) :
    addUnknown t'.dict inp k pos ch (reCols f g cols) = (addUnknown t.dict inp k pos ch cols).map (reCols f g) := by
  unfold addUnknown
  rw [unkEnd_re h.category h.group]
  have : unkIds t'.dict (t'.dict.category ch) = unkIds t.dict (t.dict.category ch) := by
    unfold unkIds
    rw [h.unk, h.category]
  rw [this]
  cases unkEnd t.dict inp pos ch with
  | none => rfl
  | some e =>
    simp only
    cases slice inp pos e with
    | none => rfl
    | some w => exact addUnks_re h.unk _ _

theorem userHits_entries (u : Option UserDict) (s : Bytes) : userHits u s = userEntries u s := by
  cases u <;> rfl

theorem goGet_nat {α : Type} (l : List α) (n : Nat) : goGet l (n : Int) = l[n]? := by
  unfold goGet
  simp

theorem buildAt_re (h : SameAnswers t t' inp f g) {pos : Nat} (hp : inp.drop pos ∈ tails inp) (k ch : Nat) (cols : Cols) :
    buildAt t'.dict t'.userDict inp k pos ch (reCols f g cols) = (buildAt t.dict t.userDict inp k pos ch cols).map (reCols f g) := by
  unfold buildAt
  simp only [userHits_entries, h.user _ hp, h.known _ hp, h.category, h.invoke]
  rw [addHits_re (f := f) (g := g) (d := t.dict) _ (fun n => rfl) (fun x _ => rfl)]
  cases addHits t.dict inp k pos .user (userEntries t.userDict (inp.drop pos)) cols with
  | none => rfl
  | some c =>
    simp only [Option.map_some, ne_eq, List.map_eq_nil_iff]
    split
    · rfl
    · rw [addHits_re (f := f) (g := g) (d := t.dict) _ (fun n => rfl)
        (fun x hx => by
          unfold morphOf
          rw [goGet_nat, goGet_nat]
          exact h.morph _ hp x hx)]
      cases addHits t.dict inp k pos .known (t.dict.prefixSearch (inp.drop pos)) c with
      | none => rfl
      | some c =>
        simp only [Option.map_some]
        split
        · exact addUnknown_re h _ _ _ _
        · cases t.dict.invokeList[t.dict.category ch]? with
          | none => rfl
          | some b =>
            cases b
            · rfl
            · exact addUnknown_re h _ _ _ _

theorem buildLoop_re (h : SameAnswers t t' inp f g) (l : List (Nat × Nat)) (hl : ∀ p ∈ l, p ∈ rangeString inp) (k : Nat) (cols : Cols) :
    buildLoop t'.dict t'.userDict inp k l (reCols f g cols) = (buildLoop t.dict t.userDict inp k l cols).map (reCols f g) := by
  induction l generalizing k cols with
  | nil => rfl
  | cons p l ih =>
    obtain ⟨pos, ch⟩ := p
    simp only [buildLoop]
    have hp : inp.drop pos ∈ tails inp := by
      unfold tails
      rw [List.mem_map]
      exact ⟨(pos, ch), hl _ (by simp), rfl⟩
    rw [buildAt_re h hp]
    cases buildAt t.dict t.userDict inp k pos ch cols with
    | none => rfl
    | some c => exact ih (fun p hp => hl p (by simp [hp])) _ _

theorem build_re (h : SameAnswers t t' inp f g) : build t'.dict t'.userDict inp = (build t.dict t.userDict inp).map (reCols f g) := by
  have hadd : ∀ (c : Cols) (pos position start : Nat) (s : Bytes),
      addNode t'.dict (reCols f g c) pos bosEosID position start .dummy s = (addNode t.dict c pos bosEosID position start .dummy s).map (reCols f g) :=
    fun c pos position start s => addNode_re (f := f) (g := g) (id := bosEosID) (cls := .dummy) rfl
  have h0 : List.replicate (runeCount inp + 2) [] = reCols f g (List.replicate (runeCount inp + 2) []) := by
    unfold reCols
    rw [List.map_replicate]
    rfl
  unfold build
  simp only
  conv => lhs; rw [h0]
  rw [hadd]
  cases addNode t.dict (List.replicate (runeCount inp + 2) []) 0 bosEosID 0 0 .dummy [] with
  | none => rfl
  | some c =>
    simp only [Option.map_some]
    cases slice inp (runeCount inp) (runeCount inp) with
    | none => rfl
    | some e =>
      simp only [hadd]
      cases addNode t.dict c (runeCount inp + 1) bosEosID inp.length (runeCount inp) .dummy e with
      | none => rfl
      | some c => exact buildLoop_re h _ (fun _ hp => hp) _ _

theorem relax_re {d d' : Dict} (hc : d'.connection = d.connection) (ideo : Nat → Bool) (m : LMode) (i idx : Nat) (js : List Nat) (cols : Cols) :
    relax d' ideo m i idx js (reCols f g cols) = (relax d ideo m i idx js cols).map (reCols f g) := by
  induction js generalizing cols with
  | nil => rfl
  | cons j js ih =>
    simp only [relax, reCols_get]
    cases getNode cols i idx with
    | none => rfl
    | some target =>
      simp only [Option.map_some]
      have hst : (reNode f g target).start = target.start := rfl
      rw [hst]
      cases getNode cols target.start j with
      | none => rfl
      | some n =>
        simp only [Option.map_some]
        have hcc : connCost d' (reNode f g n) (reNode f g target) = connCost d n target := by
          unfold connCost
          rw [hc]
          rfl
        rw [hcc]
        cases connCost d n target with
        | none => rfl
        | some c =>
          have ht : totalCost ideo m c (reNode f g n) (reNode f g target) = totalCost ideo m c n target := rfl
          have hco : (reNode f g target).cost = target.cost := rfl
          simp only [ht, hco]
          split
          · rw [← ih, reCols_set]
            rfl
          · exact ih cols

theorem forwardNode_re {d d' : Dict} (hc : d'.connection = d.connection) (ideo : Nat → Bool) (m : LMode) (i idx : Nat) (cols : Cols) :
    forwardNode d' ideo m i idx (reCols f g cols) = (forwardNode d ideo m i idx cols).map (reCols f g) := by
  unfold forwardNode
  rw [reCols_get]
  cases getNode cols i idx with
  | none => rfl
  | some target =>
    simp only [Option.map_some]
    have hst : (reNode f g target).start = target.start := rfl
    have hcol : (reCols f g cols)[target.start]? = cols[target.start]?.map (List.map (reNode f g)) := by
      unfold reCols
      rw [List.getElem?_map]
    rw [hst, hcol]
    cases cols[target.start]? with
    | none => rfl
    | some c =>
      simp only [Option.map_some, List.length_map]
      split
      · rw [Option.map_some, reCols_set]
        rfl
      · exact relax_re hc ..

theorem forward_re {d d' : Dict} (hc : d'.connection = d.connection) (ideo : Nat → Bool) (m : LMode) (cols : Cols) :
    forward d' ideo m (reCols f g cols) = (forward d ideo m cols).map (reCols f g) := by
  have h1 : ∀ i js cols, forwardCol d' ideo m i js (reCols f g cols) = (forwardCol d ideo m i js cols).map (reCols f g) := by
    intro i js
    induction js with
    | nil => intro cols; rfl
    | cons j js ih =>
      intro cols
      simp only [forwardCol]
      rw [forwardNode_re hc]
      cases forwardNode d ideo m i j cols with
      | none => rfl
      | some c => exact ih c
  have h2 : ∀ is cols, forwardLoop d' ideo m is (reCols f g cols) = (forwardLoop d ideo m is cols).map (reCols f g) := by
    intro is
    induction is with
    | nil => intro cols; rfl
    | cons i is ih =>
      intro cols
      simp only [forwardLoop]
      have hcol : (reCols f g cols)[i]? = cols[i]?.map (List.map (reNode f g)) := by
        unfold reCols
        rw [List.getElem?_map]
      rw [hcol]
      cases cols[i]? with
      | none => rfl
      | some c =>
        simp only [Option.map_some, List.length_map, h1]
        cases forwardCol d ideo m i (List.range c.length) cols with
        | none => rfl
        | some c => exact ih c
  unfold forward
  rw [reCols_length]
  exact h2 _ _

theorem emit_re (m : LMode) (p : Node) : emit m (reNode f g p) = (emit m p).map (reNode f g) := by
  unfold emit
  have hc : (reNode f g p).cls = p.cls := rfl
  rw [hc]
  split
  · rfl
  · rename_i hx
    have hu : p.cls = .unknown := by
      apply Classical.byContradiction
      intro h
      exact hx (Or.inr h)
    have hid : reNode f g p = p := by
      have : newId f g p.cls p.id = p.id := by rw [hu]; rfl
      unfold reNode
      rw [this]
    have hex : ∀ i l, (explode p i l).map (reNode f g) = explode p i l := by
      intro i l
      induction l generalizing i with
      | nil => rfl
      | cons x l ih => simp only [explode, List.map_cons, ih]; rfl
    rw [hid, List.map_reverse, hex]

theorem backward_re (m : LMode) (cols : Cols) : backward m (reCols f g cols) = (backward m cols).map (List.map (reNode f g)) := by
  have hw : ∀ fuel q, walk m (reCols f g cols) fuel q = (walk m cols fuel q).map (List.map (reNode f g)) := by
    intro fuel
    induction fuel with
    | zero => intro q; cases q <;> rfl
    | succ fuel ih =>
      intro q
      cases q with
      | none => rfl
      | some q =>
        obtain ⟨i, j⟩ := q
        simp only [walk, reCols_get]
        cases getNode cols i j with
        | none => rfl
        | some p =>
          simp only [Option.map_some]
          have : (reNode f g p).prev = p.prev := rfl
          rw [this, ih, emit_re]
          cases walk m cols fuel p.prev with
          | none => rfl
          | some l => simp
  unfold backward
  rw [reCols_length]
  split
  · rfl
  · exact hw _ _

theorem newId_boundary (f g : Nat → Nat) (c : NodeClass) (i : Int) : newId f g c i = bosEosID ↔ i = bosEosID := by
  unfold newId bosEosID
  split
  · simp
  · simp
  · rfl

theorem tokenLoop_re (h : SameAnswers t t' inp f g) (ns : List Node) (i k : Nat) :
    tokenLoop t' i k (ns.map (reNode f g)) = (tokenLoop t i k ns).map (renumberToken f g t') := by
  induction ns generalizing i k with
  | nil => rfl
  | cons n ns ih =>
    have hb : ((reNode f g n).id = bosEosID) = (n.id = bosEosID) := propext (newId_boundary f g n.cls n.id)
    simp only [List.map_cons, tokenLoop, h.omitted, hb]
    split
    · exact ih _ _
    · rw [List.map_cons, ih]
      congr 1
      unfold mkToken renumberToken
      simp only [hb]
      rfl

theorem solve_re (h : SameAnswers t t' inp f g) (ideo : Nat → Bool) (m : LMode) :
    solve t' ideo inp m = (solve t ideo inp m).map (fun r => (reCols f g r.1, r.2.map (reNode f g))) := by
  unfold solve
  rw [build_re h]
  cases build t.dict t.userDict inp with
  | none => rfl
  | some c =>
    simp only [Option.map_some, forward_re h.connection]
    cases forward t.dict ideo m c with
    | none => rfl
    | some c =>
      simp only [Option.map_some, backward_re]
      cases backward m c <;> rfl

end

end Kagome
