import Verif.Proof.Slices
import Verif.Props.Connection

/-!
C83: the lists that the library hands out belong to the caller.
-/

namespace Kagome

open Spec

/-- The memory and the lists without memory agree: nothing of the first arrays has changed, and every slice that the caller has is in an array of its own
after these. -/
structure Owned (h0 : Arrays) (m : Held) (g : Lists) : Prop where
  keep : h0 <+: m.arrays
  told : m.told = g.told
  length : m.slices.length = g.lists.length
  fresh : ∀ (i : Nat) o l, m.slices[i]? = some o → g.lists[i]? = some l → FreshO h0.length m.arrays o l
  apart : ∀ (i j : Nat) s s', m.slices[i]? = some (some s) → m.slices[j]? = some (some s') → s.arr = s'.arr → i = j

theorem Owned.seen {h0 : Arrays} {m : Held} {g : Lists} (ho : Owned h0 m g) : Spec.seen m = g := by
  cases g with | mk lists told =>
  unfold Spec.seen
  rw [ho.told]
  congr 1
  apply List.ext_getElem?
  intro i
  rw [List.getElem?_map]
  by_cases hi : i < m.slices.length
  · have h2 : i < lists.length := by have := ho.length; simp only at this; omega
    rw [List.getElem?_eq_getElem hi, List.getElem?_eq_getElem h2, Option.map_some]
    exact congrArg some (ho.fresh i _ _ (List.getElem?_eq_getElem hi) (List.getElem?_eq_getElem h2)).read
  · have h2 := ho.length
    simp only at h2
    rw [List.getElem?_eq_none (by omega), List.getElem?_eq_none (by omega)]
    rfl

/-- Arrays that come after all others. -/
theorem Owned.grow {h0 h h' : Arrays} {ss : List (Option StrSlice)} {td : List Told} {g : Lists} (ho : Owned h0 ⟨h, ss, td⟩ g) (hb : h <+: h') :
    Owned h0 ⟨h', ss, td⟩ g :=
  ⟨ho.keep.trans hb, ho.told, ho.length, fun i o l h1 h2 => (ho.fresh i o l h1 h2).keep hb, ho.apart⟩

theorem Owned.tell {h0 h : Arrays} {ss : List (Option StrSlice)} {td : List Told} {ls : List (Option (List Bytes))} {td' : List Told}
    (ho : Owned h0 ⟨h, ss, td⟩ ⟨ls, td'⟩) (x : Told) : Owned h0 ⟨h, ss, td ++ [x]⟩ ⟨ls, td' ++ [x]⟩ :=
  ⟨ho.keep, by have := ho.told; simp only at this ⊢; rw [this], ho.length, ho.fresh, ho.apart⟩

theorem getElem?_snoc {α : Type} {l : List α} {x y : α} {i : Nat} (h : (l ++ [x])[i]? = some y) : l[i]? = some y ∧ i < l.length ∨ i = l.length ∧ x = y := by
  rw [List.getElem?_append] at h
  by_cases hi : i < l.length
  · rw [if_pos hi] at h; exact .inl ⟨h, hi⟩
  · rw [if_neg hi] at h
    by_cases he : i = l.length
    · subst he; simp at h; exact .inr ⟨rfl, h⟩
    · rw [List.getElem?_eq_none (by simp; omega)] at h; cases h

theorem Owned.push {h0 h : Arrays} {ss : List (Option StrSlice)} {td : List Told} {ls : List (Option (List Bytes))} {td' : List Told}
    (ho : Owned h0 ⟨h, ss, td⟩ ⟨ls, td'⟩) {o : Option StrSlice} {l : Option (List Bytes)} (hf : FreshO h0.length h o l)
    (hne : ∀ s s', o = some s → some s' ∈ ss → s'.arr ≠ s.arr) : Owned h0 ⟨h, ss ++ [o], td⟩ ⟨ls ++ [l], td'⟩ where
  keep := ho.keep
  told := ho.told
  length := by have := ho.length; simp only [List.length_append, List.length_singleton] at this ⊢; omega
  fresh := by
    intro i o' l' h1 h2
    have hl := ho.length
    simp only at hl h1 h2 ⊢
    rcases getElem?_snoc h1 with ⟨h1, hi⟩ | ⟨hi, rfl⟩ <;> rcases getElem?_snoc h2 with ⟨h2, hj⟩ | ⟨hj, rfl⟩
    · exact ho.fresh i o' l' h1 h2
    · omega
    · omega
    · exact hf
  apart := by
    intro i j s s' h1 h2 he
    simp only at h1 h2
    rcases getElem?_snoc h1 with ⟨h1, hi⟩ | ⟨hi, rfl⟩ <;> rcases getElem?_snoc h2 with ⟨h2, hj⟩ | ⟨hj, h2⟩
    · exact ho.apart i j s s' h1 h2 he
    · exact absurd he (hne s' s h2 (List.mem_of_getElem? h1))
    · exact absurd he.symm (hne s s' rfl (List.mem_of_getElem? h2))
    · omega

theorem Owned.below {h0 h : Arrays} {ss : List (Option StrSlice)} {td : List Told} {g : Lists} (ho : Owned h0 ⟨h, ss, td⟩ g) {s : StrSlice}
    (hs : some s ∈ ss) : s.arr < h.length := by
  obtain ⟨i, hi, he⟩ := List.mem_iff_getElem.mp hs
  have hl : i < g.lists.length := by have := ho.length; simp only at this; omega
  rcases ho.fresh i _ _ (List.getElem?_eq_getElem hi) (List.getElem?_eq_getElem hl) with ⟨h1, _⟩ | ⟨s', v, h1, _, h3⟩
  · rw [he] at h1; cases h1
  · rw [he] at h1; cases h1; exact h3.lt

/-- A call that hands out one list. -/
theorem Owned.got {h0 h h' : Arrays} {ss : List (Option StrSlice)} {td : List Told} {ls : List (Option (List Bytes))} {td' : List Told}
    (ho : Owned h0 ⟨h, ss, td⟩ ⟨ls, td'⟩) (hb : h <+: h') {o : Option StrSlice} {l : Option (List Bytes)} (hf : FreshO h.length h' o l) :
    Owned h0 ⟨h', ss ++ [o], td⟩ ⟨ls ++ [l], td'⟩ := by
  refine (ho.grow hb).push (hf.lower ho.keep.length_le) fun s s' he hs => ?_
  have := ho.below hs
  rcases hf with ⟨h1, _⟩ | ⟨r, v, h1, _, h3⟩
  · rw [h1] at he; cases he
  · rw [h1] at he; cases he; have := h3.1; omega

/-- A call that hands out two lists. -/
theorem Owned.gotTwo {h0 h h' : Arrays} {ss : List (Option StrSlice)} {td : List Told} {ls : List (Option (List Bytes))} {td' : List Told}
    (ho : Owned h0 ⟨h, ss, td⟩ ⟨ls, td'⟩) (hb : h <+: h') {a b : StrSlice} {x y : List Bytes} (hf : FreshPair h.length h' a b x y) :
    Owned h0 ⟨h', ss ++ [some a, some b], td⟩ ⟨ls ++ [some x, some y], td'⟩ := by
  have e1 : ss ++ [some a, some b] = (ss ++ [some a]) ++ [some b] := by simp
  have e2 : ls ++ [some x, some y] = (ls ++ [some x]) ++ [some y] := by simp
  rw [e1, e2]
  refine (ho.got hb (.inr ⟨a, x, rfl, rfl, hf.1⟩)).push (.inr ⟨b, y, rfl, rfl, hf.2.1.lower ho.keep.length_le⟩) fun s s' he hs => ?_
  cases he
  rcases List.mem_append.mp hs with hs | hs
  · have := ho.below hs
    have := hf.2.1.1
    omega
  · simp at hs; subst hs; exact hf.2.2

theorem FreshStrs.other {lo : Nat} {h h' : Arrays} {s : StrSlice} {l : List Bytes} (he : h'[s.arr]? = h[s.arr]?) (hs : FreshStrs lo h s l) : FreshStrs lo h' s l := by
  obtain ⟨h0, a, h1, h2, h3, h4⟩ := hs
  refine ⟨h0, a, he ▸ h1, h2, h3, ?_⟩
  rw [← h4]; unfold StrSlice.read; rw [he]

/-- Something done to one list only. -/
theorem Owned.change {h0 h h' : Arrays} {ss : List (Option StrSlice)} {td : List Told} {ls : List (Option (List Bytes))} {td' : List Told}
    (ho : Owned h0 ⟨h, ss, td⟩ ⟨ls, td'⟩) (hb : h0 <+: h') {j : Nat} (hj : j < ss.length) {s' : StrSlice} {l' : List Bytes} (hf : FreshStrs h0.length h' s' l')
    (hr : ∀ i s, i ≠ j → ss[i]? = some (some s) → s.arr ≠ s'.arr ∧ h'[s.arr]? = h[s.arr]?) :
    Owned h0 ⟨h', ss.set j (some s'), td⟩ ⟨ls.set j (some l'), td'⟩ where
  keep := hb
  told := ho.told
  length := by have := ho.length; simpa using this
  fresh := by
    intro i o l h1 h2
    simp only [List.getElem?_set] at h1 h2
    by_cases he : j = i
    · subst he
      have hl := ho.length
      simp only at hl
      rw [if_pos rfl, if_pos hj] at h1
      rw [if_pos rfl, if_pos (by omega)] at h2
      cases h1; cases h2
      exact .inr ⟨s', l', rfl, rfl, hf⟩
    · rw [if_neg he] at h1 h2
      rcases ho.fresh i o l h1 h2 with h3 | ⟨s, v, rfl, rfl, h3⟩
      · exact .inl h3
      · exact .inr ⟨s, v, rfl, rfl, h3.other (hr i s (Ne.symm he) h1).2⟩
  apart := by
    intro i k s s'' h1 h2 he
    simp only [List.getElem?_set] at h1 h2
    by_cases hi : j = i <;> by_cases hk : j = k
    · omega
    · subst hi
      rw [if_pos rfl, if_pos hj] at h1
      rw [if_neg hk] at h2
      cases h1
      exact absurd he.symm (hr k s'' (Ne.symm hk) h2).1
    · subst hk
      rw [if_pos rfl, if_pos hj] at h2
      rw [if_neg hi] at h1
      cases h2
      exact absurd he (hr i s (Ne.symm hi) h1).1
    · rw [if_neg hi] at h1; rw [if_neg hk] at h2
      exact ho.apart i k s s'' h1 h2 he

/-- Both panic, or both go on and agree. -/
def AgreeHeld (h0 : Arrays) : Option Held → Option Lists → Prop
  | none, none => True
  | some m, some g => Owned h0 m g
  | _, _ => False

theorem Does.agree {h0 base h : Arrays} {α β : Type} {p : SliceM α} {o : Option β} {R : Arrays → α → β → Prop} (hd : Does base h p o R)
    {F : α × Arrays → Held} {G : β → Lists} (hr : ∀ h' a b, base <+: h' → R h' a b → Owned h0 (F (a, h')) (G b)) : AgreeHeld h0 ((p h).map F) (o.map G) := by
  unfold Does at hd
  cases h1 : p h with
  | none => rw [h1] at hd; cases o with | none => trivial | some b => exact hd.elim
  | some r => rw [h1] at hd; cases o with | none => exact hd.elim | some b => exact hr _ _ _ hd.1 hd.2

theorem use_step (grow : Nat → Nat) {t : Tokenizer} (ideo : Nat → Bool) {D : DictsMem} {h0 : Arrays} (hm : InMemory h0 t D) {m : Held} {g : Lists}
    (ho : Owned h0 m g) {u : Use} (hu : UsesTokensOf t u) : AgreeHeld h0 (u.step grow t ideo D m) (g.step t ideo u) := by
  cases m with | mk h ss td =>
  cases g with | mk ls td' =>
  have hm' := hm.keep ho.keep
  cases u with
  | features tok => exact (does_features grow hm' hu.1 hu.2).agree fun h' a b hb hf => ho.got hb hf
  | pos tok => exact (does_pos grow hm' hu.1 hu.2).agree fun h' a b hb hf => ho.got hb hf
  | featureAt tok i =>
    refine (does_featureAt hm' List.prefix_rfl hu.1 hu.2 i).agree fun h' a b hb ⟨e1, e2⟩ => ?_
    subst e1 e2
    exact ho.tell _
  | extra tok =>
    have := does_extra hm' hu.2
    have hA := this.agree (h0 := h0) (F := fun r => ⟨r.2, ss ++ (match r.1 with | none => [] | some (a, b) => [some a, some b]), td⟩)
      (G := fun x => ⟨ls ++ (match x with | none => [] | some (a, b) => [some a, some b]), td'⟩) (fun h' a b hb hf => by
        rcases hf with ⟨rfl, rfl⟩ | ⟨a, b, x, y, rfl, rfl, hf⟩
        · simpa using ho.grow hb
        · exact ho.gotTwo hb hf)
    show AgreeHeld h0 _ (if tok.cls = .user then _ else _)
    unfold Use.step
    by_cases hc : tok.cls = .user
    · rw [if_pos hc] at hA ⊢
      rw [Option.map_map] at hA
      exact hA
    · rw [if_neg hc] at hA ⊢
      rw [Option.map_some, List.append_nil] at hA
      exact hA
  | data tok =>
    refine (does_tokenData grow hm' hu.1 hu.2).agree fun h' o x hb ⟨l, n, h1, h2, h3, h4⟩ => ?_
    simp only [h1, h2, h4]
    exact (ho.gotTwo hb h3).tell _
  | wakati inp => exact (does_wakati grow t ideo inp h).agree fun h' a b hb hf => ho.got hb (.inr ⟨a, b, rfl, rfl, hf⟩)
  | yield f toks =>
    have := (does_yield grow f hm' toks hu List.prefix_rfl (.inl ⟨rfl, rfl⟩))
    have e : (yieldWords f toks).map (([] : List Bytes) ++ ·) = yieldWords f toks := by cases yieldWords f toks <;> simp
    rw [e] at this
    refine this.agree fun h' o l hb hf => ?_
    rcases hf with ⟨rfl, rfl⟩ | ⟨s, rfl, hl, hs⟩
    · exact ho.got hb (.inl ⟨rfl, rfl⟩)
    · simp only [if_neg hl]
      exact ho.got hb (.inr ⟨s, l, rfl, rfl, hs⟩)
  | write j i v =>
    have hlen := ho.length
    simp only at hlen
    unfold Use.step Lists.step
    by_cases hj : j < ss.length
    case neg => simp only [List.getElem?_eq_none (show ss.length ≤ j by omega), List.getElem?_eq_none (show ls.length ≤ j by omega)]; trivial
    have e1 := List.getElem?_eq_getElem hj
    have e2 := List.getElem?_eq_getElem (show j < ls.length by omega)
    have hf := ho.fresh j _ _ e1 e2
    generalize ss[j] = o at e1 hf
    generalize ls[j] = l at e2 hf
    rcases hf with ⟨rfl, rfl⟩ | ⟨s, l, rfl, rfl, hs⟩
    · simp only [e1, e2]; trivial
    simp only [e1, e2]
    have hsl := hs.length
    unfold StrSlice.set
    by_cases hi : i < s.len
    case neg => rw [if_neg hi, if_neg (by omega)]; trivial
    rw [if_pos hi, if_pos (by omega)]
    have hss : ss = ss.set j (some s) := by
      apply List.ext_getElem?
      intro k
      rw [List.getElem?_set]
      by_cases hk : j = k
      · subst hk; rw [if_pos rfl, if_pos hj, e1]
      · rw [if_neg hk]
    show Owned h0 ⟨_, ss, td⟩ _
    rw [hss]
    refine ho.change (prefix_modify ho.keep hs.1 _) hj (fresh_set hs hi v) fun k r hk hr => ?_
    have hne : r.arr ≠ s.arr := fun he => hk (ho.apart k j r s hr e1 he)
    exact ⟨hne, modify_other (Ne.symm hne) _⟩
  | append j v =>
    have hlen := ho.length
    simp only at hlen
    unfold Use.step Lists.step
    by_cases hj : j < ss.length
    case neg => simp only [List.getElem?_eq_none (show ss.length ≤ j by omega), List.getElem?_eq_none (show ls.length ≤ j by omega)]; trivial
    have e1 := List.getElem?_eq_getElem hj
    have e2 := List.getElem?_eq_getElem (show j < ls.length by omega)
    have hf := ho.fresh j _ _ e1 e2
    generalize ss[j] = o at e1 hf
    generalize ls[j] = l at e2 hf
    simp only [e1, e2]
    have hd := does_append (s := o.getD ⟨0, 0, 0, 0⟩) (l := l.getD []) ho.keep (by
      rcases hf with ⟨rfl, rfl⟩ | ⟨s, l, rfl, rfl, hs⟩
      · exact .inr ⟨rfl, rfl⟩
      · exact .inl hs) grow v
    have hd' : Does h0 h (appendNil grow o v) (some (l.getD [] ++ [v])) (fun h' o' l' => ∃ s', o' = some s' ∧ FreshStrs h0.length h' s' l' ∧
        (s'.arr = (o.getD ⟨0, 0, 0, 0⟩).arr ∧ (o.getD ⟨0, 0, 0, 0⟩).len < (o.getD ⟨0, 0, 0, 0⟩).cap ∨ h.length ≤ s'.arr) ∧
          ∀ r : StrSlice, r.arr < h.length → r.arr ≠ s'.arr → h'[r.arr]? = h[r.arr]?) := by
      unfold appendNil
      refine Does.congr (o' := (some (l.getD [] ++ [v])).bind (fun l => some l)) rfl (hd.bind fun h' s' l' _ hb' hs' => Does.pure hb' ⟨s', rfl, hs'⟩)
    refine hd'.agree (G := fun l => ⟨ls.set j (some l), td'⟩) fun h' o' l' hb' ⟨s', he', hs', harr, hoth⟩ => ?_
    subst he'
    refine ho.change hb' hj hs' fun k r hk hr => ?_
    have hlt := ho.below (List.mem_of_getElem? hr)
    have hne : r.arr ≠ s'.arr := by
      rcases harr with ⟨ha, hc⟩ | ha
      · rcases hf with ⟨rfl, rfl⟩ | ⟨s, l, rfl, rfl, hs⟩
        · simp at hc
        · intro he
          exact hk (ho.apart k j r s hr e1 (he.trans ha))
      · omega
    exact ⟨hne, hoth r hlt hne⟩
  | part j a b =>
    have hlen := ho.length
    simp only at hlen
    unfold Use.step Lists.step
    by_cases hj : j < ss.length
    case neg => simp only [List.getElem?_eq_none (show ss.length ≤ j by omega), List.getElem?_eq_none (show ls.length ≤ j by omega)]; trivial
    have e1 := List.getElem?_eq_getElem hj
    have e2 := List.getElem?_eq_getElem (show j < ls.length by omega)
    have hf := ho.fresh j _ _ e1 e2
    generalize ss[j] = o at e1 hf
    generalize ls[j] = l at e2 hf
    rcases hf with ⟨rfl, rfl⟩ | ⟨s, l, rfl, rfl, hs⟩
    · simp only [e1, e2]; trivial
    simp only [e1, e2]
    have hsl := hs.length
    unfold StrSlice.cut
    by_cases hi : a ≤ b ∧ b ≤ s.len
    case neg => rw [if_neg hi, if_neg (by omega)]; trivial
    rw [if_pos hi, if_pos (by omega)]
    refine ho.change ho.keep hj ?_ fun k r hk hr => ⟨fun he => hk (ho.apart k j r s hr e1 he), rfl⟩
    obtain ⟨g0, ar, g1, g2, g3, g4⟩ := hs
    refine ⟨g0, ar, g1, by simp only; omega, by simp only; omega, ?_⟩
    rw [← g4]
    unfold StrSlice.read
    simp only [g1, Option.getD_some]
    apply List.ext_getElem?
    intro k
    simp only [List.getElem?_take, List.getElem?_drop]
    by_cases hk : k < b - a
    · rw [if_pos hk, if_pos (by omega), if_pos (by omega), Nat.add_assoc]
    · rw [if_neg hk, if_neg (by omega)]

theorem use_run (grow : Nat → Nat) {t : Tokenizer} (ideo : Nat → Bool) {D : DictsMem} {h0 : Arrays} (hm : InMemory h0 t D) :
    ∀ (us : List Use) {m : Held} {g : Lists}, Owned h0 m g → (∀ u ∈ us, UsesTokensOf t u) → AgreeHeld h0 (Use.run grow t ideo D us m) (Lists.run t ideo us g) := by
  intro us
  induction us with
  | nil => intro m g ho _; exact ho
  | cons u us ih =>
    intro m g ho hu
    have := use_step grow ideo hm ho (hu u (List.mem_cons_self ..))
    unfold Use.run Lists.run
    cases h1 : u.step grow t ideo D m with
    | none => rw [h1] at this; cases h2 : g.step t ideo u with | none => trivial | some g' => rw [h2] at this; exact this.elim
    | some m' =>
      rw [h1] at this
      cases h2 : g.step t ideo u with
      | none => rw [h2] at this; exact this.elim
      | some g' => rw [h2] at this; exact ih this fun u h => hu u (List.mem_cons_of_mem _ h)

/-- **C83.** A program calls `Features`, `FeatureAt`, `UserExtra`, `POS`, `NewTokenData`, `Wakati` and `Yield` on tokens of a tokenizer in any order, and
overwrites, extends and cuts the lists it got as it likes. What it then sees in its lists, the texts that it was told and whether it has panicked are what they
would be if each list were a value with no memory in common with anything. -/
theorem C83_values (grow : Nat → Nat) (t : Tokenizer) (ideo : Nat → Bool) (D : DictsMem) (h0 : Arrays) (hm : InMemory h0 t D)
    (us : List Use) (hu : ∀ u ∈ us, UsesTokensOf t u) :
    (Use.run grow t ideo D us ⟨h0, [], []⟩).map seen = Lists.run t ideo us ⟨[], []⟩ := by
  have h := use_run grow ideo hm us (m := ⟨h0, [], []⟩) (g := ⟨[], []⟩)
    ⟨List.prefix_rfl, rfl, rfl, fun i o l h1 => by simp at h1, fun i j s s' h1 => by simp at h1⟩ hu
  cases h1 : Use.run grow t ideo D us ⟨h0, [], []⟩ with
  | none => rw [h1] at h; cases h2 : Lists.run t ideo us ⟨[], []⟩ with | none => rfl | some g => rw [h2] at h; exact h.elim
  | some m =>
    rw [h1] at h
    cases h2 : Lists.run t ideo us ⟨[], []⟩ with
    | none => rw [h2] at h; exact h.elim
    | some g => rw [h2] at h; exact congrArg some h.seen

/-- **C83.** Whatever such a program does with its lists, the arrays of the dictionaries have not changed afterwards. -/
theorem C83_dictionary (grow : Nat → Nat) (t : Tokenizer) (ideo : Nat → Bool) (D : DictsMem) (h0 : Arrays) (hm : InMemory h0 t D)
    (us : List Use) (hu : ∀ u ∈ us, UsesTokensOf t u) (m : Held) (hr : Use.run grow t ideo D us ⟨h0, [], []⟩ = some m) :
    m.arrays.take h0.length = h0 ∧ InMemory m.arrays t D := by
  have h := use_run grow ideo hm us (m := ⟨h0, [], []⟩) (g := ⟨[], []⟩)
    ⟨List.prefix_rfl, rfl, rfl, fun i o l h1 => by simp at h1, fun i j s s' h1 => by simp at h1⟩ hu
  rw [hr] at h
  cases h2 : Lists.run t ideo us ⟨[], []⟩ with
  | none => rw [h2] at h; exact h.elim
  | some g =>
    rw [h2] at h
    have hk : h0 <+: m.arrays := h.keep
    exact ⟨(List.prefix_iff_eq_take.mp hk).symm, hm.keep hk⟩

/-! ### Every dictionary can be in memory -/

/-- Slices for lists that lie in consecutive arrays from number `k` on. -/
def laid (k : Nat) (ls : List (List Bytes)) : List StrSlice := ls.mapIdx (fun i l => ⟨k + i, 0, l.length, l.length⟩)

theorem laid_table {h a b : Arrays} {ls : List (List Bytes)} (he : h = a ++ ls ++ b) : HasTable h (laid a.length ls) ls := by
  subst he
  refine ⟨by simp [laid], fun i s l h1 h2 => ?_⟩
  simp only [laid, List.getElem?_mapIdx, h2, Option.map_some, Option.some.injEq] at h1
  subst h1
  have hi := (List.getElem?_eq_some_iff.mp h2).1
  have hg : (a ++ ls ++ b)[a.length + i]? = some l := by
    rw [List.append_assoc, List.getElem?_append_right (by omega), Nat.add_sub_cancel_left, List.getElem?_append_left hi, h2]
  refine ⟨l, hg, by simp, ?_⟩
  simp only [StrSlice.read, hg]
  simp

/-- All lists of the dictionaries of a tokenizer, each in an array of its own. -/
def heapOf (t : Tokenizer) : Arrays :=
  [t.dict.nameList] ++ t.dict.contents.getD [] ++ t.dict.unk.contents ++ ((t.userDict.map (·.contents)).getD []).map (·.tokens) ++
    ((t.userDict.map (·.contents)).getD []).map (·.yomi)

/-- And where they are. -/
def memOf (t : Tokenizer) : DictsMem where
  dict :=
    { poss := t.dict.poss, nameList := ⟨0, 0, t.dict.nameList.length, t.dict.nameList.length⟩, contentsMeta := t.dict.contentsMeta,
      contents := t.dict.contents.map (laid 1), unkMeta := t.dict.unk.contentsMeta,
      unkContents := laid (1 + (t.dict.contents.getD []).length) t.dict.unk.contents }
  user := t.userDict.map (fun u =>
    let k := 1 + (t.dict.contents.getD []).length + t.dict.unk.contents.length
    u.contents.mapIdx (fun i c => ⟨⟨k + i, 0, c.tokens.length, c.tokens.length⟩, ⟨k + u.contents.length + i, 0, c.yomi.length, c.yomi.length⟩, c.pos⟩))

theorem inMemory_of (t : Tokenizer) : InMemory (heapOf t) t (memOf t) where
  poss := rfl
  nameList := by
    refine ⟨t.dict.nameList, by simp [heapOf, memOf], by simp [memOf], ?_⟩
    simp [StrSlice.read, heapOf, memOf]
  contentsMeta := rfl
  noContents := by simp [memOf]
  contents := by
    intro ss ls h1 h2
    simp only [memOf, h2, Option.map_some, Option.some.injEq] at h1
    subst h1
    refine laid_table (a := [t.dict.nameList]) (b := t.dict.unk.contents ++ ((t.userDict.map (·.contents)).getD []).map (·.tokens) ++
      ((t.userDict.map (·.contents)).getD []).map (·.yomi)) ?_
    simp [heapOf, h2]
  unkMeta := rfl
  unkContents := by
    have := laid_table (h := heapOf t) (a := [t.dict.nameList] ++ t.dict.contents.getD []) (ls := t.dict.unk.contents)
      (b := ((t.userDict.map (·.contents)).getD []).map (·.tokens) ++ ((t.userDict.map (·.contents)).getD []).map (·.yomi)) (by simp [heapOf])
    rw [List.length_append, List.length_singleton] at this
    exact this
  noUser := by simp [memOf]
  user := by
    intro us u h1 h2
    simp only [memOf, h2, Option.map_some, Option.some.injEq] at h1
    subst h1
    refine ⟨by simp, fun i e c h3 h4 => ?_⟩
    simp only [List.getElem?_mapIdx, h4, Option.map_some, Option.some.injEq] at h3
    subst h3
    have ha := laid_table (h := heapOf t) (a := [t.dict.nameList] ++ t.dict.contents.getD [] ++ t.dict.unk.contents) (ls := u.contents.map (·.tokens))
      (b := u.contents.map (·.yomi)) (by simp [heapOf, h2])
    have hb := laid_table (h := heapOf t) (a := [t.dict.nameList] ++ t.dict.contents.getD [] ++ t.dict.unk.contents ++ u.contents.map (·.tokens))
      (ls := u.contents.map (·.yomi)) (b := []) (by simp [heapOf, h2])
    refine ⟨ha.2 i _ _ ?_ (by simp [h4]), hb.2 i _ _ ?_ (by simp [h4]), rfl⟩
    · simp [laid, h4]; omega
    · simp [laid, h4]; omega

/-- **C83.** The tokens that `Analyze` returns (with it `Tokenize`), and those of `AnalyzeGraph`, are such tokens. -/
theorem C83_tokens (t : Tokenizer) (ideo : Nat → Bool) (inp : Bytes) (mode : Int) (toks : List Token)
    (h : analyze t ideo inp mode = some toks ∨ analyzeGraph t ideo inp mode = some toks) :
    ∀ tok ∈ toks, tok.dict = some t.dict ∧ tok.udict = t.userDict := by
  intro tok ht
  rcases h with h | h
  · unfold analyze at h
    rw [Option.map_eq_some_iff] at h
    obtain ⟨r, _, rfl⟩ := h
    obtain ⟨_, _, _, _, _, _, _, _, h1, h2⟩ := tokenLoop_mem ht
    exact ⟨h1, h2⟩
  · unfold analyzeGraph at h
    rw [Option.map_eq_some_iff] at h
    obtain ⟨r, _, rfl⟩ := h
    have hg : ∀ (ns : List Node) (i : Nat), tok ∈ graphLoop t i ns → tok.dict = some t.dict ∧ tok.udict = t.userDict := by
      intro ns
      induction ns with
      | nil => intro i h; simp [graphLoop] at h
      | cons n ns ih =>
        intro i h
        simp only [graphLoop, List.mem_cons] at h
        rcases h with rfl | h
        · exact ⟨rfl, rfl⟩
        · exact ih _ h
    exact hg _ _ ht

namespace Toy

def knownTok : Token := { index := 0, id := 1, cls := .known, position := 0, start := 0, stop := 3, surface := str "すもも", dict := some dict, udict := some user }
def unknownTok : Token := { index := 0, id := 1, cls := .unknown, position := 0, start := 0, stop := 3, surface := str "ABC", dict := some dict, udict := some user }
def userTok : Token := { index := 0, id := 0, cls := .user, position := 0, start := 0, stop := 2, surface := str "東京", dict := some dict, udict := some user }

/-- A caller who writes over everything they get, and asks again. -/
def scribble : List Use :=
  [.features knownTok, .write 0 0 (str "x"), .append 0 (str "y"), .features knownTok, .features unknownTok, .write 2 0 (str "z"), .pos unknownTok,
   .write 3 0 (str "w"), .extra userTok, .write 4 0 (str "v"), .append 5 (str "u"), .features unknownTok, .extra userTok, .featureAt knownTok 1,
   .wakati (str "すもも"), .part 0 1 2, .append 0 (str "t"), .data userTok]

theorem scribble_tokens : ∀ u ∈ scribble, UsesTokensOf tokUser u := by
  intro u hu
  simp only [scribble, List.mem_cons, List.not_mem_nil, or_false] at hu
  rcases hu with rfl | rfl | rfl | rfl | rfl | rfl | rfl | rfl | rfl | rfl | rfl | rfl | rfl | rfl | rfl | rfl | rfl | rfl <;>
    first | exact ⟨rfl, rfl⟩ | trivial

theorem scribble_sees : (Lists.run tokUser ideo scribble ⟨[], []⟩).map (·.lists) = some
    [some [str "すもも", str "t"], some [str "名詞", str "すもも"], some [str "z"], some [str "w"], some [str "v"], some [str "トウキョウ", str "u"],
     some [str "名詞"], some [str "東京"], some [str "トウキョウ"], some [str "すもも"], some [str "カスタム"],
     some [str "カスタム", str "東京", str "トウキョウ"]] := by decide +kernel

/-- The hypotheses are met; in memory the caller sees what they see without. -/
example : (Use.run (fun n => 2 * n) tokUser ideo (memOf tokUser) scribble ⟨heapOf tokUser, [], []⟩).map (fun m => (seen m).lists) = some
    [some [str "すもも", str "t"], some [str "名詞", str "すもも"], some [str "z"], some [str "w"], some [str "v"], some [str "トウキョウ", str "u"],
     some [str "名詞"], some [str "東京"], some [str "トウキョウ"], some [str "すもも"], some [str "カスタム"],
     some [str "カスタム", str "東京", str "トウキョウ"]] := by
  have h := C83_values (fun n => 2 * n) tokUser ideo (memOf tokUser) (heapOf tokUser) (inMemory_of tokUser) scribble scribble_tokens
  rw [← scribble_sees, ← h, Option.map_map]
  rfl

/-- A slice in the memory of the dictionary itself (the wrong way to hand out a list): writing to it is seen by later calls. -/
example : ∃ (D : DictsMem) (h0 : Arrays) (m : Held), InMemory h0 tokUser D ∧
    Use.run (fun n => 2 * n) tokUser ideo D [.write 0 0 (str "z"), .features unknownTok] ⟨h0, [D.dict.unkContents[1]?], []⟩ = some m ∧
    seen m = ⟨[some [str "z"], some [str "z"]], []⟩ := by
  refine ⟨memOf tokUser, heapOf tokUser, _, inMemory_of tokUser, rfl, ?_⟩
  decide +kernel

end Toy

end Kagome
