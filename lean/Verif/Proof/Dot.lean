import Verif.Spec.Graph
import Verif.Proof.Result
import Verif.Proof.Optimal

/-! What `Dot` collects, for any lattice. -/

namespace Kagome

open Spec

variable {d : Dict} {u : Option UserDict} {bests : List Ptr} {cols : Cols}

/-- The node at `q` is shown. -/
def Shown (bests : List Ptr) (cols : Cols) (q : Ptr) (n : Node) : Prop :=
  getNode cols q.1 q.2 = some n ∧ (n.cls = .unknown → q ∈ bests)

theorem hidden_iff (q : Ptr) (n : Node) : hidden bests q n = true ↔ n.cls = .unknown ∧ q ∉ bests := by
  simp [hidden]

theorem hidden_false (q : Ptr) (n : Node) : hidden bests q n = false ↔ (n.cls = .unknown → q ∈ bests) := by
  rw [← Bool.not_eq_true, hidden_iff]
  constructor
  · intro h hc
    exact Classical.byContradiction (fun hq => h ⟨hc, hq⟩)
  · rintro h ⟨hc, hq⟩
    exact hq (h hc)

/-! ### Edges -/

theorem mem_edgesFrom (dst : Ptr) (start : Nat) (ns : List Node) : ∀ (j : Nat) (e : Ptr × Ptr),
    e ∈ edgesFrom bests dst start j ns ↔
      e.2 = dst ∧ ∃ k n, ns[k]? = some n ∧ e.1 = (start, j + k) ∧ (n.cls = .unknown → (start, j + k) ∈ bests) := by
  induction ns with
  | nil => intro j e; simp [edgesFrom]
  | cons n ns ih =>
    intro j e
    have step : (∃ k n', (n :: ns)[k]? = some n' ∧ e.1 = (start, j + k) ∧ (n'.cls = .unknown → (start, j + k) ∈ bests)) ↔
        ((e.1 = (start, j) ∧ (n.cls = .unknown → (start, j) ∈ bests)) ∨
          ∃ k n', ns[k]? = some n' ∧ e.1 = (start, j + 1 + k) ∧ (n'.cls = .unknown → (start, j + 1 + k) ∈ bests)) := by
      constructor
      · rintro ⟨k, n', hk, h1, h2⟩
        cases k with
        | zero =>
          simp only [List.getElem?_cons_zero, Option.some.injEq] at hk
          subst hk
          exact Or.inl ⟨h1, h2⟩
        | succ k =>
          refine Or.inr ⟨k, n', by simpa using hk, ?_, ?_⟩
          · rw [h1]; congr 1; omega
          · rw [show j + 1 + k = j + (k + 1) by omega]; exact h2
      · rintro (⟨h1, h2⟩ | ⟨k, n', hk, h1, h2⟩)
        · exact ⟨0, n, rfl, h1, h2⟩
        · refine ⟨k + 1, n', by simpa using hk, ?_, ?_⟩
          · rw [h1]; congr 1; omega
          · rw [show j + (k + 1) = j + 1 + k by omega]; exact h2
    unfold edgesFrom
    rw [step]
    cases hh : hidden bests (start, j) n with
    | true =>
      rw [if_pos rfl, ih]
      rw [hidden_iff] at hh
      constructor
      · rintro ⟨h1, h2⟩; exact ⟨h1, Or.inr h2⟩
      · rintro ⟨h1, ⟨_, h2⟩ | h2⟩
        · exact absurd (h2 hh.1) hh.2
        · exact ⟨h1, h2⟩
    | false =>
      rw [if_neg (by simp), List.mem_cons, ih]
      rw [hidden_false] at hh
      constructor
      · rintro (h | ⟨h1, h2⟩)
        · subst h; exact ⟨rfl, Or.inl ⟨rfl, hh⟩⟩
        · exact ⟨h1, Or.inr h2⟩
      · rintro ⟨h1, ⟨h2, _⟩ | h2⟩
        · exact Or.inl (by rw [← h1, ← h2])
        · exact Or.inr ⟨h1, h2⟩

theorem mem_edgesCol (i : Nat) (ns : List Node) : ∀ (j : Nat) (es : List (Ptr × Ptr)),
    edgesCol bests cols i j ns = some es → ∀ e, e ∈ es ↔
      ∃ k n prevs, ns[k]? = some n ∧ e.2 = (i, j + k) ∧ (n.cls = .unknown → (i, j + k) ∈ bests) ∧ cols[n.start]? = some prevs ∧
        e ∈ edgesFrom bests (i, j + k) n.start 0 prevs := by
  induction ns with
  | nil => intro j es h e; simp only [edgesCol, Option.some.injEq] at h; subst h; simp
  | cons n ns ih =>
    intro j es h e
    have step : (∃ k n' prevs, (n :: ns)[k]? = some n' ∧ e.2 = (i, j + k) ∧ (n'.cls = .unknown → (i, j + k) ∈ bests) ∧
          cols[n'.start]? = some prevs ∧ e ∈ edgesFrom bests (i, j + k) n'.start 0 prevs) ↔
        ((∃ prevs, e.2 = (i, j) ∧ (n.cls = .unknown → (i, j) ∈ bests) ∧ cols[n.start]? = some prevs ∧
            e ∈ edgesFrom bests (i, j) n.start 0 prevs) ∨
          ∃ k n' prevs, ns[k]? = some n' ∧ e.2 = (i, j + 1 + k) ∧ (n'.cls = .unknown → (i, j + 1 + k) ∈ bests) ∧
            cols[n'.start]? = some prevs ∧ e ∈ edgesFrom bests (i, j + 1 + k) n'.start 0 prevs) := by
      constructor
      · rintro ⟨k, n', prevs, hk, h1⟩
        cases k with
        | zero =>
          simp only [List.getElem?_cons_zero, Option.some.injEq] at hk
          subst hk
          exact Or.inl ⟨prevs, h1⟩
        | succ k =>
          refine Or.inr ⟨k, n', prevs, by simpa using hk, ?_⟩
          rw [show j + 1 + k = j + (k + 1) by omega]; exact h1
      · rintro (⟨prevs, h1⟩ | ⟨k, n', prevs, hk, h1⟩)
        · exact ⟨0, n, prevs, rfl, h1⟩
        · refine ⟨k + 1, n', prevs, by simpa using hk, ?_⟩
          rw [show j + (k + 1) = j + 1 + k by omega]; exact h1
    rw [step]
    unfold edgesCol at h
    cases hh : hidden bests (i, j) n with
    | true =>
      rw [hh, if_pos rfl] at h
      rw [ih _ _ h]
      rw [hidden_iff] at hh
      constructor
      · intro h2; exact Or.inr h2
      · rintro (⟨_, _, h2, _⟩ | h2)
        · exact absurd (h2 hh.1) hh.2
        · exact h2
    | false =>
      rw [hh, if_neg (by simp)] at h
      rw [hidden_false] at hh
      cases hp : cols[n.start]? with
      | none => rw [hp] at h; cases h
      | some prevs =>
        rw [hp] at h
        simp only [Option.map_eq_some_iff] at h
        obtain ⟨es', he, rfl⟩ := h
        rw [List.mem_append, ih _ _ he]
        constructor
        · rintro (h2 | h2)
          · exact Or.inl ⟨prevs, ((mem_edgesFrom _ _ _ _ _).mp h2).1, hh, rfl, h2⟩
          · exact Or.inr h2
        · rintro (⟨prevs', _, _, h3, h4⟩ | h2)
          · simp only [Option.some.injEq] at h3
            subst h3; exact Or.inl h4
          · exact Or.inr h2

theorem mem_edgesCols (rest : List (List Node)) : ∀ (i : Nat) (es : List (Ptr × Ptr)),
    edgesCols bests cols i rest = some es → ∀ e, e ∈ es ↔
      ∃ k col es', rest[k]? = some col ∧ edgesCol bests cols (i + k) 0 col = some es' ∧ e ∈ es' := by
  induction rest with
  | nil => intro i es h e; simp only [edgesCols, Option.some.injEq] at h; subst h; simp
  | cons col rest ih =>
    intro i es h e
    unfold edgesCols at h
    cases hc : edgesCol bests cols i 0 col with
    | none => rw [hc] at h; cases h
    | some es1 =>
      rw [hc] at h
      simp only [Option.map_eq_some_iff] at h
      obtain ⟨es2, h2, rfl⟩ := h
      rw [List.mem_append, ih _ _ h2]
      constructor
      · rintro (h | ⟨k, col', es', h3, h4, h5⟩)
        · exact ⟨0, col, es1, rfl, hc, h⟩
        · exact ⟨k + 1, col', es', by simpa using h3, by rw [show i + (k + 1) = i + 1 + k by omega]; exact h4, h5⟩
      · rintro ⟨k, col', es', h3, h4, h5⟩
        cases k with
        | zero =>
          simp only [List.getElem?_cons_zero, Option.some.injEq] at h3
          subst h3
          rw [Nat.add_zero, hc] at h4
          simp only [Option.some.injEq] at h4
          subst h4; exact Or.inl h5
        | succ k =>
          exact Or.inr ⟨k, col', es', by simpa using h3, by rw [show i + 1 + k = i + (k + 1) by omega]; exact h4, h5⟩

theorem getNode_iff {i j : Nat} {n : Node} : getNode cols i j = some n ↔ ∃ col, cols[i]? = some col ∧ col[j]? = some n := by
  unfold getNode
  cases cols[i]? with
  | none => simp
  | some c => simp

/-- The edges: from every shown node of the column where a shown node starts. -/
theorem mem_edges {es : List (Ptr × Ptr)} (h : edgesCols bests cols 1 (cols.drop 1) = some es) (e : Ptr × Ptr) :
    e ∈ es ↔ 1 ≤ e.2.1 ∧ ∃ a b, Shown bests cols e.1 a ∧ Shown bests cols e.2 b ∧ e.1.1 = b.start := by
  rw [mem_edgesCols _ _ _ h]
  obtain ⟨⟨i1, j1⟩, ⟨i2, j2⟩⟩ := e
  constructor
  · rintro ⟨k, col, es', hk, hc, he⟩
    obtain ⟨j, b, prevs, hj, h1, h2, h3, h4⟩ := (mem_edgesCol _ _ _ _ hc _).mp he
    obtain ⟨_, j', a, h5, h6, h7⟩ := (mem_edgesFrom _ _ _ _ _).mp h4
    simp only [Prod.mk.injEq, Nat.zero_add] at h1 h6 h2 h7
    obtain ⟨rfl, rfl⟩ := h1
    obtain ⟨rfl, rfl⟩ := h6
    rw [List.getElem?_drop] at hk
    exact ⟨by simp only []; omega, a, b, ⟨getNode_iff.mpr ⟨prevs, h3, h5⟩, h7⟩,
      ⟨getNode_iff.mpr ⟨col, hk, hj⟩, h2⟩, rfl⟩
  · rintro ⟨h1, a, b, ⟨ha, hsa⟩, ⟨hb, hsb⟩, hab⟩
    simp only at h1 ha hsa hb hsb hab
    subst hab
    obtain ⟨col, hc, hj⟩ := getNode_iff.mp hb
    obtain ⟨prevs, hp, hj'⟩ := getNode_iff.mp ha
    have hk : (cols.drop 1)[i2 - 1]? = some col := by
      rw [List.getElem?_drop, show 1 + (i2 - 1) = i2 by omega]; exact hc
    have hall : ∀ (rest : List (List Node)) (i : Nat) es, edgesCols bests cols i rest = some es → ∀ k col, rest[k]? = some col →
        ∃ es', edgesCol bests cols (i + k) 0 col = some es' := by
      intro rest
      induction rest with
      | nil => intro i es _ k col hk; simp at hk
      | cons c rest ih =>
        intro i es h k col hk
        unfold edgesCols at h
        cases hc : edgesCol bests cols i 0 c with
        | none => rw [hc] at h; cases h
        | some es1 =>
          rw [hc] at h
          simp only [Option.map_eq_some_iff] at h
          obtain ⟨es2, h2, _⟩ := h
          cases k with
          | zero =>
            simp only [List.getElem?_cons_zero, Option.some.injEq] at hk
            subst hk; exact ⟨es1, hc⟩
          | succ k =>
            obtain ⟨es', he⟩ := ih _ _ h2 k col (by simpa using hk)
            exact ⟨es', by rw [show i + (k + 1) = i + 1 + k by omega]; exact he⟩
    obtain ⟨es', he⟩ := hall _ _ _ h _ _ hk
    refine ⟨i2 - 1, col, es', hk, he, ?_⟩
    rw [mem_edgesCol _ _ _ _ he]
    refine ⟨j2, b, prevs, hj, ?_, ?_, hp, ?_⟩
    · simp; omega
    · rw [show 1 + (i2 - 1) = i2 by omega, Nat.zero_add]; exact hsb
    · rw [mem_edgesFrom]
      refine ⟨?_, j1, a, hj', by simp, by rw [Nat.zero_add]; exact hsa⟩
      simp; omega

/-! ### Each edge once -/

theorem edgesFrom_nodup (dst : Ptr) (start : Nat) (ns : List Node) : ∀ j, (edgesFrom bests dst start j ns).Nodup := by
  induction ns with
  | nil => intro j; simp [edgesFrom]
  | cons n ns ih =>
    intro j
    unfold edgesFrom
    split
    · exact ih _
    · rw [List.nodup_cons]
      refine ⟨?_, ih _⟩
      rw [mem_edgesFrom]
      rintro ⟨_, k, n', _, h, _⟩
      simp at h; omega

theorem edgesCol_nodup (i : Nat) (ns : List Node) : ∀ (j : Nat) es, edgesCol bests cols i j ns = some es → es.Nodup := by
  induction ns with
  | nil => intro j es h; simp only [edgesCol, Option.some.injEq] at h; subst h; simp
  | cons n ns ih =>
    intro j es h
    unfold edgesCol at h
    split at h
    · exact ih _ _ h
    · split at h
      · cases h
      · simp only [Option.map_eq_some_iff] at h
        obtain ⟨es', he, rfl⟩ := h
        rw [List.nodup_append]
        refine ⟨edgesFrom_nodup _ _ _ _, ih _ _ he, ?_⟩
        rintro a ha b hb rfl
        obtain ⟨h1, _⟩ := (mem_edgesFrom _ _ _ _ _).mp ha
        obtain ⟨k, n', _, _, h2, _⟩ := (mem_edgesCol _ _ _ _ he _).mp hb
        rw [h1] at h2
        simp at h2; omega

theorem edgesCols_nodup (rest : List (List Node)) : ∀ (i : Nat) es, edgesCols bests cols i rest = some es → es.Nodup := by
  induction rest with
  | nil => intro j es h; simp only [edgesCols, Option.some.injEq] at h; subst h; simp
  | cons c rest ih =>
    intro i es h
    unfold edgesCols at h
    cases hc : edgesCol bests cols i 0 c with
    | none => rw [hc] at h; cases h
    | some es1 =>
      rw [hc] at h
      simp only [Option.map_eq_some_iff] at h
      obtain ⟨es2, h2, rfl⟩ := h
      rw [List.nodup_append]
      refine ⟨edgesCol_nodup _ _ _ _ hc, ih _ _ h2, ?_⟩
      rintro a ha b hb rfl
      obtain ⟨_, _, _, _, h3, _⟩ := (mem_edgesCol _ _ _ _ hc _).mp ha
      obtain ⟨k, col', es', _, h4, h5⟩ := (mem_edgesCols _ _ _ h2 _).mp hb
      obtain ⟨_, _, _, _, h6, _⟩ := (mem_edgesCol _ _ _ _ h4 _).mp h5
      rw [h3] at h6
      simp at h6; omega

/-! ### Edge statements -/

theorem dotEdges_spec {es : List (Ptr × Ptr)} : ∀ {gs : List GEdge}, dotEdges d bests cols es = some gs →
    gs.map (fun g => (g.src, g.dst)) = es ∧ ∀ g ∈ gs, ∃ a b, getNode cols g.src.1 g.src.2 = some a ∧ getNode cols g.dst.1 g.dst.2 = some b ∧
      connCost d a b = some g.label ∧ g.bold = (bests.contains g.src && bests.contains g.dst) := by
  induction es with
  | nil => intro gs h; simp only [dotEdges, Option.some.injEq] at h; subst h; simp
  | cons e es ih =>
    intro gs h
    unfold dotEdges at h
    cases he : dotEdge d bests cols e with
    | none => rw [he] at h; cases h
    | some g =>
      rw [he] at h
      simp only [Option.map_eq_some_iff] at h
      obtain ⟨gs', hg, rfl⟩ := h
      obtain ⟨h1, h2⟩ := ih hg
      unfold dotEdge at he
      cases ha : getNode cols e.1.1 e.1.2 with
      | none => rw [ha] at he; cases he
      | some a =>
        cases hb : getNode cols e.2.1 e.2.2 with
        | none => rw [ha, hb] at he; cases he
        | some b =>
          rw [ha, hb] at he
          simp only [Option.map_eq_some_iff] at he
          obtain ⟨c, hc, rfl⟩ := he
          refine ⟨by simp [h1], ?_⟩
          intro g hg'
          rcases List.mem_cons.mp hg' with rfl | hg'
          · exact ⟨a, b, ha, hb, hc, rfl⟩
          · exact h2 g hg'

/-! ### Node statements -/

/-- The statement for a node. -/
def stmtOf (bests : List Ptr) (q : Ptr) (n : Node) (pos : Bytes) : GNode :=
  ⟨q, dotSurface q.1 n, pos, n.weight, bests.contains q⟩

theorem mem_nodesCol (i : Nat) (ns : List Node) : ∀ (j : Nat) (gs : List GNode),
    nodesCol d u bests i j ns = some gs → (∀ g, g ∈ gs ↔
      ∃ k n pos, ns[k]? = some n ∧ (n.cls = .unknown → (i, j + k) ∈ bests) ∧ posFeature d u n = some pos ∧
        g = stmtOf bests (i, j + k) n pos) ∧
      (∀ k n, ns[k]? = some n → (n.cls = .unknown → (i, j + k) ∈ bests) → (posFeature d u n).isSome) ∧
      gs.Pairwise (fun a b => a.ptr.1 = i ∧ b.ptr.1 = i ∧ a.ptr.2 < b.ptr.2) := by
  induction ns with
  | nil => intro j gs h; simp only [nodesCol, Option.some.injEq] at h; subst h; simp
  | cons n ns ih =>
    intro j gs h
    unfold nodesCol at h
    cases hh : hidden bests (i, j) n with
    | true =>
      rw [hh, if_pos rfl] at h
      rw [hidden_iff] at hh
      obtain ⟨h1, h2, h3⟩ := ih _ _ h
      refine ⟨?_, ?_, h3⟩
      · intro g
        rw [h1]
        constructor
        · rintro ⟨k, n', pos, hk, hx⟩
          refine ⟨k + 1, n', pos, by simpa using hk, ?_⟩
          rw [show j + (k + 1) = j + 1 + k by omega]; exact hx
        · rintro ⟨k, n', pos, hk, hx⟩
          cases k with
          | zero =>
            simp only [List.getElem?_cons_zero, Option.some.injEq] at hk
            subst hk
            exact absurd (hx.1 hh.1) hh.2
          | succ k =>
            refine ⟨k, n', pos, by simpa using hk, ?_⟩
            rw [show j + 1 + k = j + (k + 1) by omega]; exact hx
      · intro k n' hk hx
        cases k with
        | zero =>
          simp only [List.getElem?_cons_zero, Option.some.injEq] at hk
          subst hk
          exact absurd (hx hh.1) hh.2
        | succ k =>
          refine h2 k n' (by simpa using hk) ?_
          rw [show j + 1 + k = j + (k + 1) by omega]; exact hx
    | false =>
      rw [hh, if_neg (by simp)] at h
      rw [hidden_false] at hh
      cases hp : posFeature d u n with
      | none => rw [hp] at h; cases h
      | some pos0 =>
        rw [hp] at h
        dsimp only at h
        have key : ∃ gs', nodesCol d u bests i (j + 1) ns = some gs' ∧ gs = stmtOf bests (i, j) n pos0 :: gs' := by
          simp only [stmtOf]
          by_cases hb : bests.contains (i, j) = true
          · simp only [hb, if_true, Option.map_eq_some_iff] at h
            obtain ⟨gs', h1, rfl⟩ := h
            exact ⟨gs', h1, by rw [hb]⟩
          · have hcls : n.cls ≠ .unknown := fun hc => hb (by simpa using hh hc)
            rw [if_neg hb, if_pos hcls, Option.map_eq_some_iff] at h
            obtain ⟨gs', h1, rfl⟩ := h
            refine ⟨gs', h1, ?_⟩
            rw [Bool.not_eq_true] at hb
            rw [hb]
        obtain ⟨gs', hg, rfl⟩ := key
        obtain ⟨h1, h2, h3⟩ := ih _ _ hg
        refine ⟨?_, ?_, ?_⟩
        · intro g
          rw [List.mem_cons, h1]
          constructor
          · rintro (rfl | ⟨k, n', pos, hk, hx⟩)
            · exact ⟨0, n, pos0, rfl, hh, hp, rfl⟩
            · refine ⟨k + 1, n', pos, by simpa using hk, ?_⟩
              rw [show j + (k + 1) = j + 1 + k by omega]; exact hx
          · rintro ⟨k, n', pos, hk, hx1, hx2, hx3⟩
            cases k with
            | zero =>
              simp only [List.getElem?_cons_zero, Option.some.injEq] at hk
              subst hk
              rw [hp] at hx2
              simp only [Option.some.injEq] at hx2
              subst hx2
              exact Or.inl hx3
            | succ k =>
              refine Or.inr ⟨k, n', pos, by simpa using hk, ?_⟩
              rw [show j + 1 + k = j + (k + 1) by omega]; exact ⟨hx1, hx2, hx3⟩
        · intro k n' hk hx
          cases k with
          | zero =>
            simp only [List.getElem?_cons_zero, Option.some.injEq] at hk
            subst hk
            rw [hp]; rfl
          | succ k =>
            refine h2 k n' (by simpa using hk) ?_
            rw [show j + 1 + k = j + (k + 1) by omega]; exact hx
        · rw [List.pairwise_cons]
          refine ⟨?_, h3⟩
          intro g hg'
          obtain ⟨k, n', pos, _, _, _, rfl⟩ := (h1 g).mp hg'
          simp only [stmtOf, true_and]; omega

theorem mem_nodesCols (rest : List (List Node)) : ∀ (i : Nat) (gs : List GNode),
    nodesCols d u bests i rest = some gs → (∀ g, g ∈ gs ↔
      ∃ k j n pos, getNode rest k j = some n ∧ (n.cls = .unknown → (i + k, j) ∈ bests) ∧ posFeature d u n = some pos ∧
        g = stmtOf bests (i + k, j) n pos) ∧
      (∀ k j n, getNode rest k j = some n → (n.cls = .unknown → (i + k, j) ∈ bests) → (posFeature d u n).isSome) ∧
      (gs.map (fun g => g.ptr)).Nodup := by
  induction rest with
  | nil =>
    intro j gs h; simp only [nodesCols, Option.some.injEq] at h; subst h
    simp [getNode]
  | cons c rest ih =>
    intro i gs h
    unfold nodesCols at h
    cases hc : nodesCol d u bests i 0 c with
    | none => rw [hc] at h; cases h
    | some gs1 =>
      rw [hc] at h
      simp only [Option.map_eq_some_iff] at h
      obtain ⟨gs2, h2, rfl⟩ := h
      obtain ⟨a1, a2, a3⟩ := mem_nodesCol _ _ _ _ hc
      obtain ⟨b1, b2, b3⟩ := ih _ _ h2
      simp only [Nat.zero_add] at a1 a2
      have g0 : ∀ j, getNode (c :: rest) 0 j = c[j]? := fun j => rfl
      have gs : ∀ k j, getNode (c :: rest) (k + 1) j = getNode rest k j := fun k j => by simp [getNode]
      refine ⟨?_, ?_, ?_⟩
      · intro g
        rw [List.mem_append, a1, b1]
        constructor
        · rintro (⟨k, n, pos, h3, h4⟩ | ⟨k, j, n, pos, h3, h4⟩)
          · exact ⟨0, k, n, pos, by rw [g0]; exact h3, h4⟩
          · exact ⟨k + 1, j, n, pos, by rw [gs]; exact h3, by rw [show i + (k + 1) = i + 1 + k by omega]; exact h4⟩
        · rintro ⟨k, j, n, pos, h3, h4⟩
          cases k with
          | zero => exact Or.inl ⟨j, n, pos, by rw [← g0]; exact h3, h4⟩
          | succ k => exact Or.inr ⟨k, j, n, pos, by rw [← gs]; exact h3, by rw [show i + 1 + k = i + (k + 1) by omega]; exact h4⟩
      · intro k j n h3 h4
        cases k with
        | zero => exact a2 j n (by rw [← g0]; exact h3) h4
        | succ k => exact b2 k j n (by rw [← gs]; exact h3) (by rw [show i + 1 + k = i + (k + 1) by omega]; exact h4)
      · rw [List.map_append, List.nodup_append]
        refine ⟨?_, b3, ?_⟩
        · rw [List.Nodup, List.pairwise_map]
          refine a3.imp ?_
          rintro a b ⟨_, _, h⟩ heq
          rw [heq] at h; omega
        · intro a ha b hb heq
          subst heq
          obtain ⟨g1, hg1, rfl⟩ := List.mem_map.mp ha
          obtain ⟨g2, hg2, he⟩ := List.mem_map.mp hb
          obtain ⟨_, _, _, _, _, _, rfl⟩ := (a1 g1).mp hg1
          obtain ⟨_, _, _, _, _, _, _, rfl⟩ := (b1 g2).mp hg2
          simp [stmtOf] at he
          omega

/-- The node statements: one for every shown node. -/
theorem mem_nodes {gs : List GNode} (h : nodesCols d u bests 0 cols = some gs) :
    (∀ g, g ∈ gs ↔ ∃ n pos, Shown bests cols g.ptr n ∧ posFeature d u n = some pos ∧ g = stmtOf bests g.ptr n pos) ∧
    (∀ q n, Shown bests cols q n → ∃ g ∈ gs, g.ptr = q) ∧ (gs.map (fun g => g.ptr)).Nodup := by
  obtain ⟨h1, h2, h3⟩ := mem_nodesCols _ _ _ h
  simp only [Nat.zero_add] at h1 h2
  refine ⟨?_, ?_, h3⟩
  · intro g
    rw [h1]
    constructor
    · rintro ⟨k, j, n, pos, h4, h5, h6, rfl⟩
      exact ⟨n, pos, ⟨h4, h5⟩, h6, rfl⟩
    · rintro ⟨n, pos, ⟨h4, h5⟩, h6, h7⟩
      exact ⟨g.ptr.1, g.ptr.2, n, pos, h4, h5, h6, h7⟩
  · rintro ⟨i, j⟩ n ⟨h4, h5⟩
    obtain ⟨pos, hp⟩ := Option.isSome_iff_exists.mp (h2 i j n h4 h5)
    exact ⟨_, (h1 _).mpr ⟨i, j, n, pos, h4, h5, hp, rfl⟩, rfl⟩

end Kagome
