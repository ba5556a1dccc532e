import Verif.Spec.Handed

/-!
What the accessors do to the arrays in memory: they only make new ones.
-/

namespace Kagome

open Spec

/-- A program on arrays and the value it stands for: they fail together, the arrays of `base` stay, and the results are related. -/
def Does {α β : Type} (base h : Arrays) (p : SliceM α) (o : Option β) (R : Arrays → α → β → Prop) : Prop :=
  match p h, o with
  | none, none => True
  | some (a, h'), some b => base <+: h' ∧ R h' a b
  | _, _ => False

namespace Does

variable {α β γ δ : Type} {base h : Arrays}

theorem bind {p : SliceM α} {o : Option β} {R : Arrays → α → β → Prop} {f : α → SliceM γ} {g : β → Option δ} {R' : Arrays → γ → δ → Prop}
    (hp : Does base h p o R) (hf : ∀ h' a b, o = some b → base <+: h' → R h' a b → Does base h' (f a) (g b) R') : Does base h (p >>= f) (o.bind g) R' := by
  unfold Does at hp ⊢
  have e : (p >>= f) h = (p h).bind (fun r => f r.1 r.2) := by
    show (StateT.bind p f) h = _
    unfold StateT.bind
    cases p h <;> rfl
  rw [e]
  cases h1 : p h with
  | none =>
    cases o with
    | none => trivial
    | some b => rw [h1] at hp; exact hp.elim
  | some r =>
    cases o with
    | none => rw [h1] at hp; exact hp.elim
    | some b =>
      rw [h1] at hp
      exact hf r.2 r.1 b rfl hp.1 hp.2

theorem pure {R : Arrays → α → β → Prop} {a : α} {b : β} (hb : base <+: h) (hr : R h a b) : Does base h (Pure.pure a : SliceM α) (some b) R := ⟨hb, hr⟩

theorem map {p : SliceM α} {o : Option β} {R : Arrays → α → β → Prop} {g : β → δ} {R' : Arrays → α → δ → Prop}
    (hp : Does base h p o R) (hr : ∀ h' a b, base <+: h' → R h' a b → R' h' a (g b)) : Does base h p (o.map g) R' := by
  unfold Does at hp ⊢
  cases h1 : p h with
  | none => rw [h1] at hp; cases o with | none => trivial | some b => exact hp.elim
  | some r => rw [h1] at hp; cases o with | none => exact hp.elim | some b => exact ⟨hp.1, hr _ _ _ hp.1 hp.2⟩

theorem mono {base' : Arrays} {p : SliceM α} {o : Option β} {R R' : Arrays → α → β → Prop} (hb : base <+: base') (hp : Does base' h p o R)
    (hr : ∀ h' a b, base' <+: h' → R h' a b → R' h' a b) : Does base h p o R' := by
  unfold Does at hp ⊢
  cases h1 : p h with
  | none => rw [h1] at hp; cases o with | none => trivial | some b => exact hp.elim
  | some r => rw [h1] at hp; cases o with | none => exact hp.elim | some b => exact ⟨hb.trans hp.1, hr _ _ _ hp.1 hp.2⟩

theorem orPanic {R : Arrays → α → β → Prop} {x : Option α} {o : Option β} (hb : base <+: h) (hn : x = none ↔ o = none)
    (hr : ∀ a b, x = some a → o = some b → R h a b) : Does base h (Kagome.orPanic x) o R := by
  unfold Does Kagome.orPanic
  cases x with
  | none => rw [hn.mp rfl]; trivial
  | some a =>
    cases o with
    | none => exact absurd (hn.mpr rfl) (by simp)
    | some b => exact ⟨hb, hr a b rfl rfl⟩

end Does

/-! ### Reading -/

theorem prefix_get {base h : Arrays} (hb : base <+: h) {i : Nat} {a : List Bytes} (hi : base[i]? = some a) : h[i]? = some a := by
  obtain ⟨r, rfl⟩ := hb
  rw [List.getElem?_append_left (List.getElem?_eq_some_iff.mp hi).1]; exact hi

theorem Spec.HasStrings.keep {base h : Arrays} (hb : base <+: h) {s : StrSlice} {l : List Bytes} (hs : HasStrings base s l) : HasStrings h s l := by
  obtain ⟨a, h1, h2, h3⟩ := hs
  refine ⟨a, prefix_get hb h1, h2, ?_⟩
  rw [← h3]
  simp only [StrSlice.read, h1, prefix_get hb h1]

theorem Spec.HasStrings.length {h : Arrays} {s : StrSlice} {l : List Bytes} (hs : HasStrings h s l) : s.len = l.length := by
  obtain ⟨a, h1, h2, h3⟩ := hs
  rw [← h3]
  simp only [StrSlice.read, h1, Option.getD_some, List.length_take, List.length_drop]
  omega

theorem Spec.HasTable.get {h : Arrays} {ss : List StrSlice} {ls : List (List Bytes)} (ht : HasTable h ss ls) (i : Int) :
    (goGet ss i = none ↔ goGet ls i = none) ∧ ∀ s l, goGet ss i = some s → goGet ls i = some l → HasStrings h s l := by
  cases i with
  | ofNat n =>
    refine ⟨?_, fun s l h1 h2 => ht.2 n s l h1 h2⟩
    show ss[n]? = none ↔ ls[n]? = none
    rw [List.getElem?_eq_none_iff, List.getElem?_eq_none_iff, ht.1]
  | negSucc n => exact ⟨⟨fun _ => rfl, fun _ => rfl⟩, fun s l h1 => by cases h1⟩

theorem does_get {base h : Arrays} (hb : base <+: h) {s : StrSlice} {l : List Bytes} (hs : HasStrings base s l) (i : Int) :
    Does base h (s.get i) (goGet l i) (fun h' v w => h' = h ∧ v = w) := by
  obtain ⟨a, _, _, h3⟩ := hs.keep hb
  unfold Does StrSlice.get
  rw [h3]
  cases goGet l i with
  | none => trivial
  | some v => exact ⟨hb, rfl, rfl⟩

theorem does_all {base h : Arrays} (hb : base <+: h) {s : StrSlice} {l : List Bytes} (hs : HasStrings base s l) :
    Does base h s.all (some l) (fun h' v w => h' = h ∧ v = w) := by
  obtain ⟨a, _, _, h3⟩ := hs.keep hb
  exact ⟨hb, rfl, h3⟩

/-! ### Writing -/

/-- A slice with the given strings in an array that is not one of the first `lo`, all of whose room is in the array. -/
def FreshStrs (lo : Nat) (h : Arrays) (s : StrSlice) (l : List Bytes) : Prop :=
  lo ≤ s.arr ∧ ∃ a, h[s.arr]? = some a ∧ s.off + s.cap ≤ a.length ∧ s.len ≤ s.cap ∧ s.read h = l

theorem FreshStrs.length {lo : Nat} {h : Arrays} {s : StrSlice} {l : List Bytes} (hs : FreshStrs lo h s l) : s.len = l.length := by
  obtain ⟨_, a, h1, h2, h3, h4⟩ := hs
  exact HasStrings.length ⟨a, h1, by omega, h4⟩

theorem FreshStrs.keep {lo : Nat} {base h : Arrays} (hb : base <+: h) {s : StrSlice} {l : List Bytes} (hs : FreshStrs lo base s l) : FreshStrs lo h s l := by
  obtain ⟨h0, a, h1, h2, h3, h4⟩ := hs
  refine ⟨h0, a, prefix_get hb h1, h2, h3, ?_⟩
  rw [← h4]
  simp only [StrSlice.read, h1, prefix_get hb h1]

theorem FreshStrs.lower {lo lo' : Nat} {h : Arrays} {s : StrSlice} {l : List Bytes} (hl : lo' ≤ lo) (hs : FreshStrs lo h s l) : FreshStrs lo' h s l :=
  ⟨Nat.le_trans hl hs.1, hs.2⟩

theorem FreshStrs.lt {lo : Nat} {h : Arrays} {s : StrSlice} {l : List Bytes} (hs : FreshStrs lo h s l) : s.arr < h.length := by
  obtain ⟨_, a, h1, _⟩ := hs
  exact (List.getElem?_eq_some_iff.mp h1).1

theorem modify_same {h : Arrays} {i : Nat} {a : List Bytes} (h1 : h[i]? = some a) (f : List Bytes → List Bytes) : (h.modify i f)[i]? = some (f a) := by
  rw [List.getElem?_modify, h1]; simp

theorem modify_other {h : Arrays} {i k : Nat} (hi : i ≠ k) (f : List Bytes → List Bytes) : (h.modify i f)[k]? = h[k]? := by
  rw [List.getElem?_modify]; simp [hi]

theorem prefix_modify {base h : Arrays} (hb : base <+: h) {i : Nat} (hi : base.length ≤ i) (f : List Bytes → List Bytes) : base <+: h.modify i f := by
  obtain ⟨r, rfl⟩ := hb
  refine ⟨r.modify (i - base.length) f, ?_⟩
  apply List.ext_getElem?
  intro k
  by_cases hk : k < base.length
  · rw [List.getElem?_append_left hk, modify_other (by omega), List.getElem?_append_left hk]
  · rw [List.getElem?_append_right (by omega)]
    by_cases he : i = k
    · subst he
      rw [List.getElem?_modify, List.getElem?_modify, List.getElem?_append_right (by omega)]
      simp
    · rw [modify_other he, modify_other (by omega), List.getElem?_append_right (by omega)]

theorem read_modify_other {h : Arrays} {s : StrSlice} {i : Nat} (hi : s.arr ≠ i) (f : List Bytes → List Bytes) : s.read (h.modify i f) = s.read h := by
  unfold StrSlice.read
  rw [modify_other (Ne.symm hi)]

theorem read_set {h : Arrays} {s : StrSlice} {a : List Bytes} (h1 : h[s.arr]? = some a) (h2 : s.off + s.len ≤ a.length) {i : Nat} (hi : i < s.len)
    (v : Bytes) : s.read (h.modify s.arr (fun a => a.set (s.off + i) v)) = (s.read h).set i v := by
  unfold StrSlice.read
  rw [modify_same h1, h1]
  simp only [Option.getD_some]
  apply List.ext_getElem?
  intro k
  simp only [List.getElem?_take, List.getElem?_drop, List.getElem?_set, List.length_take, List.length_drop]
  by_cases hk : k < s.len
  · rw [if_pos hk]
    by_cases he : i = k
    · subst he
      rw [if_pos rfl, if_pos (by omega), if_pos rfl, if_pos (by omega)]
    · rw [if_neg (by omega), if_neg he, if_pos hk]
  · rw [if_neg hk, if_neg (by omega), if_neg hk]

theorem fresh_set {lo : Nat} {h : Arrays} {s : StrSlice} {l : List Bytes} (hs : FreshStrs lo h s l) {i : Nat} (hi : i < s.len) (v : Bytes) :
    FreshStrs lo (h.modify s.arr (fun a => a.set (s.off + i) v)) s (l.set i v) := by
  obtain ⟨h0, a, h1, h2, h3, h4⟩ := hs
  refine ⟨h0, a.set (s.off + i) v, modify_same h1 _, by rw [List.length_set]; exact h2, h3, ?_⟩
  rw [read_set h1 (by omega) hi, h4]

theorem does_set {base h : Arrays} (hb : base <+: h) {s : StrSlice} {l : List Bytes} (hs : FreshStrs base.length h s l) (i : Nat) (v : Bytes) :
    Does base h (s.set i v) (if i < l.length then some (l.set i v) else none) (fun h' _ l' => FreshStrs base.length h' s l' ∧ ∀ s' : StrSlice, s'.arr ≠ s.arr → s'.read h' = s'.read h) := by
  unfold Does StrSlice.set
  have hl := hs.length
  by_cases hi : i < s.len
  · rw [if_pos hi, if_pos (by omega)]
    exact ⟨prefix_modify hb hs.1 _, fresh_set hs hi v, fun s' hne => read_modify_other hne _⟩
  · rw [if_neg hi, if_neg (by omega)]; trivial

theorem does_append {base h : Arrays} (hb : base <+: h) {s : StrSlice} {l : List Bytes} (hs : FreshStrs base.length h s l ∨ s = ⟨0, 0, 0, 0⟩ ∧ l = [])
    (grow : Nat → Nat) (v : Bytes) :
    Does base h (appendStr grow s v) (some (l ++ [v])) (fun h' s' l' => FreshStrs base.length h' s' l' ∧
      (s'.arr = s.arr ∧ s.len < s.cap ∨ h.length ≤ s'.arr) ∧ ∀ r : StrSlice, r.arr < h.length → r.arr ≠ s'.arr → h'[r.arr]? = h[r.arr]?) := by
  unfold Does appendStr
  by_cases hc : s.len < s.cap
  · rw [if_pos hc]
    replace hs : FreshStrs base.length h s l := hs.resolve_right (fun he => by rw [he.1] at hc; simp at hc)
    have hl := hs.length
    obtain ⟨h0, a, h1, h2, h3, h4⟩ := hs
    have hr := List.getElem?_eq_some_iff.mp h1
    refine ⟨prefix_modify hb h0 _, ⟨h0, a.set (s.off + s.len) v, ?_, ?_, hc, ?_⟩, .inl ⟨rfl, hc⟩, ?_⟩
    · exact modify_same h1 _
    · rw [List.length_set]; exact h2
    · rw [← h4]
      unfold StrSlice.read
      simp only []
      rw [modify_same h1, h1]
      simp only [Option.getD_some]
      apply List.ext_getElem?
      intro k
      rw [List.getElem?_take, List.getElem?_drop, List.getElem?_set, List.getElem?_append, List.getElem?_take, List.getElem?_drop, List.length_take,
        List.length_drop]
      by_cases hk : k < s.len
      · rw [if_pos (by omega), if_neg (by omega), if_pos (by omega), if_pos hk]
      · by_cases he : k = s.len
        · subst he
          rw [if_pos (by omega), if_pos rfl, if_pos (by omega), if_neg (by omega)]
          have : s.len - min s.len (a.length - s.off) = 0 := by omega
          rw [this]; rfl
        · rw [if_neg (by omega), if_neg (by omega)]
          rw [List.getElem?_eq_none]
          simp; omega
    · intro r _ hne
      exact modify_other (Ne.symm hne) _
  · rw [if_neg hc]
    have hlo : s.len = l.length ∧ s.read h = l := by
      rcases hs with hs | ⟨rfl, rfl⟩
      · exact ⟨hs.length, hs.2.choose_spec.2.2.2⟩
      · exact ⟨rfl, by simp [StrSlice.read]⟩
    have hbl : base.length ≤ h.length := hb.length_le
    refine ⟨hb.trans (List.prefix_append _ _), ⟨hbl, s.read h ++ v :: List.replicate (max (s.len + 1) (grow s.len) - (s.len + 1)) [], ?_, ?_, ?_, ?_⟩, .inr (Nat.le_refl _), ?_⟩
    · show (h ++ [_])[h.length]? = _
      simp
    · simp only [List.length_append, List.length_cons, List.length_replicate, hlo.2]
      omega
    · show s.len + 1 ≤ max (s.len + 1) (grow s.len)
      omega
    · unfold StrSlice.read
      simp only [List.getElem?_append_right (Nat.le_refl _), Nat.sub_self, List.getElem?_cons_zero, Option.getD_some, List.drop_zero]
      show List.take (s.len + 1) (s.read h ++ v :: _) = _
      rw [hlo.2, hlo.1]
      rw [List.take_append, List.take_of_length_le (by omega)]
      simp
    · intro r hr _
      show (h ++ [_])[r.arr]? = _
      rw [List.getElem?_append_left hr]

theorem does_make {base h : Arrays} (hb : base <+: h) (len cap : Nat) (hc : len ≤ cap) :
    Does base h (makeStrs len cap) (some (List.replicate len ([] : Bytes))) (fun h' s l => FreshStrs base.length h' s l ∧ s.len = len ∧ s.cap = cap) := by
  unfold Does makeStrs
  refine ⟨hb.trans (List.prefix_append _ _), ⟨hb.length_le, List.replicate cap [], by simp, by simp, hc, ?_⟩, rfl, rfl⟩
  simp [StrSlice.read, Nat.min_eq_left hc]

theorem does_literal {base h : Arrays} (hb : base <+: h) (vs : List Bytes) :
    Does base h (literalStrs vs) (some vs) (fun h' s l => FreshStrs base.length h' s l) := by
  unfold Does literalStrs
  refine ⟨hb.trans (List.prefix_append _ _), hb.length_le, vs, by simp, by simp, Nat.le_refl _, ?_⟩
  simp [StrSlice.read]

/-! ### The loops -/

theorem does_posNames {base : Arrays} (grow : Nat → Nat) {D : DictMem} {d : Dict} (hn : HasStrings base D.nameList d.nameList) :
    ∀ (ids : List Nat) {h : Arrays} {s : StrSlice} {l : List Bytes}, base <+: h → FreshStrs base.length h s l →
      Does base h (posNamesS grow D s ids) ((posNames d ids).map (l ++ ·)) (fun h' s l => FreshStrs base.length h' s l) := by
  intro ids
  induction ids with
  | nil => intro h s l hb hs; exact Does.pure hb (by simpa using hs)
  | cons id ids ih =>
    intro h s l hb hs
    have e : (posNames d (id :: ids)).map (l ++ ·) = (goGet d.nameList id).bind (fun n => (some (l ++ [n])).bind (fun l => (posNames d ids).map (l ++ ·))) := by
      show (posNames d (id :: ids)).map (l ++ ·) = (d.nameList[id]?).bind _
      simp only [posNames]
      cases d.nameList[id]? with
      | none => rfl
      | some n =>
        simp only [Option.bind_some, Option.map_map]
        cases posNames d ids <;> simp
    rw [e]
    unfold posNamesS
    refine (does_get hb hn id).bind fun h' v w _ hb' ⟨e1, e2⟩ => ?_
    subst e1 e2
    refine (does_append hb' (.inl hs) grow v).bind fun h' s' l' _ hb' hs' => ih hb' hs'.1

theorem does_range {base : Arrays} (grow : Nat → Nat) {feature : StrSlice} {fs : List Bytes} (hf : HasStrings base feature fs) :
    ∀ (n : Nat) (i : Int) {h : Arrays} {s : StrSlice} {l : List Bytes}, base <+: h → FreshStrs base.length h s l →
      Does base h (rangeS grow feature s i n) ((featureRange fs i n).map (l ++ ·)) (fun h' s l => FreshStrs base.length h' s l) := by
  intro n
  induction n with
  | zero => intro i h s l hb hs; exact Does.pure hb (by simpa using hs)
  | succ n ih =>
    intro i h s l hb hs
    have e : (featureRange fs i (n + 1)).map (l ++ ·) = (goGet fs i).bind (fun v => (some (l ++ [v])).bind (fun l => (featureRange fs (i + 1) n).map (l ++ ·))) := by
      simp only [featureRange]
      cases goGet fs i with
      | none => rfl
      | some n =>
        simp only [Option.bind_some, Option.map_map]
        cases featureRange fs (i + 1) _ <;> simp
    rw [e]
    unfold rangeS
    refine (does_get hb hf i).bind fun h' v w _ hb' ⟨e1, e2⟩ => ?_
    subst e1 e2
    refine (does_append hb' (.inl hs) grow v).bind fun h' s' l' _ hb' hs' => ih _ hb' hs'.1

theorem does_appends {base : Arrays} (grow : Nat → Nat) : ∀ (vs : List Bytes) {h : Arrays} {s : StrSlice} {l : List Bytes}, base <+: h →
    FreshStrs base.length h s l → Does base h (appendStrs grow s vs) (some (l ++ vs)) (fun h' s l => FreshStrs base.length h' s l) := by
  intro vs
  induction vs with
  | nil => intro h s l hb hs; exact Does.pure hb (by simpa using hs)
  | cons v vs ih =>
    intro h s l hb hs
    have e : some (l ++ v :: vs) = (some (l ++ [v])).bind (fun l => some (l ++ vs)) := by simp
    rw [e]
    unfold appendStrs
    exact (does_append hb (.inl hs) grow v).bind fun h' s' l' _ hb' hs' => ih hb' hs'.1

theorem does_copy {base : Arrays} {src : StrSlice} {vs : List Bytes} (hv : HasStrings base src vs) :
    ∀ (n i : Nat) {h : Arrays} {s : StrSlice} {l : List Bytes}, base <+: h → FreshStrs base.length h s l → l.length = vs.length → i + n = vs.length →
      l.take i = vs.take i → Does base h (copyStrs s src i n) (some vs) (fun h' _ l => FreshStrs base.length h' s l) := by
  intro n
  induction n with
  | zero =>
    intro i h s l hb hs hl hi ht
    have : l = vs := by
      rw [← List.take_of_length_le (l := l) (i := i) (by omega), ht, List.take_of_length_le (by omega)]
    subst this
    exact Does.pure hb hs
  | succ n ih =>
    intro i h s l hb hs hl hi ht
    have hlt : i < vs.length := by omega
    have e : some vs = (goGet vs i).bind (fun v => (if i < l.length then some (l.set i v) else none).bind (fun _ => some vs)) := by
      show _ = (vs[i]?).bind _
      rw [List.getElem?_eq_getElem hlt, Option.bind_some, if_pos (by omega)]; rfl
    rw [e]
    unfold copyStrs
    refine (does_get hb hv i).bind fun h' v w hw hb' ⟨e1, e2⟩ => ?_
    subst e1 e2
    refine (does_set hb' hs i v).bind fun h' u l' he hb' hs' => ?_
    rw [if_pos (by omega)] at he
    obtain rfl := Option.some.inj he
    refine ih (i + 1) hb' hs'.1 (by simpa using hl) (by omega) ?_
    have hw' : vs[i]? = some v := hw
    rw [List.take_add_one, List.take_add_one, List.take_set_of_le (Nat.le_refl _), ht, hw', List.getElem?_set_self (by omega)]

/-! ### The accessors -/

theorem Does.congr {base h : Arrays} {α β : Type} {p : SliceM α} {o o' : Option β} {R : Arrays → α → β → Prop} (e : o = o') (hd : Does base h p o' R) :
    Does base h p o R := e ▸ hd

/-- As `FreshStrs`, for slices that may be nil. -/
def FreshO (lo : Nat) (h : Arrays) (o : Option StrSlice) (l : Option (List Bytes)) : Prop :=
  (o = none ∧ l = none) ∨ ∃ s v, o = some s ∧ l = some v ∧ FreshStrs lo h s v

theorem FreshO.keep {lo : Nat} {base h : Arrays} (hb : base <+: h) {s : Option StrSlice} {l : Option (List Bytes)} (hs : FreshO lo base s l) : FreshO lo h s l := by
  rcases hs with hs | ⟨s, v, rfl, rfl, hs⟩
  · exact .inl hs
  · exact .inr ⟨s, v, rfl, rfl, hs.keep hb⟩

theorem FreshO.lower {lo lo' : Nat} {h : Arrays} {s : Option StrSlice} {l : Option (List Bytes)} (hl : lo' ≤ lo) (hs : FreshO lo h s l) : FreshO lo' h s l := by
  rcases hs with hs | ⟨s, v, rfl, rfl, hs⟩
  · exact .inl hs
  · exact .inr ⟨s, v, rfl, rfl, hs.lower hl⟩

theorem FreshO.read {lo : Nat} {h : Arrays} {s : Option StrSlice} {l : Option (List Bytes)} (hs : FreshO lo h s l) : s.map (·.read h) = l := by
  rcases hs with ⟨rfl, rfl⟩ | ⟨s, v, rfl, rfl, hs⟩
  · rfl
  · rw [Option.map_some, hs.2.choose_spec.2.2.2]

theorem Spec.HasTable.keep {base h : Arrays} (hb : base <+: h) {ss : List StrSlice} {ls : List (List Bytes)} (ht : HasTable base ss ls) : HasTable h ss ls :=
  ⟨ht.1, fun i s l h1 h2 => (ht.2 i s l h1 h2).keep hb⟩

theorem Spec.InMemory.keep {base h : Arrays} (hb : base <+: h) {t : Tokenizer} {D : DictsMem} (hm : InMemory base t D) : InMemory h t D where
  poss := hm.poss
  nameList := hm.nameList.keep hb
  contentsMeta := hm.contentsMeta
  noContents := hm.noContents
  contents := fun ss ls h1 h2 => (hm.contents ss ls h1 h2).keep hb
  unkMeta := hm.unkMeta
  unkContents := hm.unkContents.keep hb
  noUser := hm.noUser
  user := fun us u h1 h2 => ⟨(hm.user us u h1 h2).1, fun i e c h3 h4 =>
    ⟨((hm.user us u h1 h2).2 i e c h3 h4).1.keep hb, ((hm.user us u h1 h2).2 i e c h3 h4).2.1.keep hb, ((hm.user us u h1 h2).2 i e c h3 h4).2.2⟩⟩

variable {base h : Arrays} {t : Tokenizer} {D : DictsMem} {tok : Token}

theorem does_table (hb : base <+: h) {ss : List StrSlice} {ls : List (List Bytes)} (ht : HasTable base ss ls) (i : Int) :
    Does base h (Kagome.orPanic (goGet ss i)) (goGet ls i) (fun h' s l => h' = h ∧ HasStrings base s l) :=
  Does.orPanic hb (ht.get i).1 (fun s l h1 h2 => ⟨rfl, (ht.get i).2 s l h1 h2⟩)

theorem does_entry (hm : InMemory base t D) (hb : base <+: h) {us : List UserEntryMem} {u : UserDict} (h1 : D.user = some us) (h2 : t.userDict = some u)
    (i : Int) : Does base h (Kagome.orPanic (goGet us i)) (goGet u.contents i)
      (fun h' e c => h' = h ∧ HasStrings base e.tokens c.tokens ∧ HasStrings base e.yomi c.yomi ∧ e.pos = c.pos) := by
  obtain ⟨h3, h4⟩ := hm.user us u h1 h2
  cases i with
  | ofNat n =>
    refine Does.orPanic hb ?_ fun e c g1 g2 => ⟨rfl, h4 n e c g1 g2⟩
    show us[n]? = none ↔ u.contents[n]? = none
    rw [List.getElem?_eq_none_iff, List.getElem?_eq_none_iff, h3]
  | negSucc n => exact Does.orPanic hb ⟨fun _ => rfl, fun _ => rfl⟩ (fun e c g1 => by cases g1)

theorem does_user (hm : InMemory base t D) (hb : base <+: h) :
    Does base h (Kagome.orPanic D.user) t.userDict (fun h' us u => h' = h ∧ D.user = some us ∧ t.userDict = some u) :=
  Does.orPanic hb hm.noUser fun us u h1 h2 => ⟨rfl, h1, h2⟩

theorem does_features (grow : Nat → Nat) (hm : InMemory h t D) (hd : tok.dict = some t.dict) (hu : tok.udict = t.userDict) :
    Does h h (featuresS grow D tok) (features tok) (fun h' o l => FreshO h.length h' o l) := by
  have hb : h <+: h := List.prefix_rfl
  unfold featuresS features
  cases tok.cls with
  | dummy => exact Does.pure hb (.inl ⟨rfl, rfl⟩)
  | known =>
    simp only [hd]
    refine Does.congr (o' := (match t.dict.contents with | none => some none | some cs => (goGet cs tok.id).map some).bind (fun c =>
          (goGet t.dict.poss tok.id).bind (fun ids => (some ([] : List Bytes)).bind (fun _ => (((posNames t.dict ids).map ([] ++ ·)).bind
            (fun ns => match c with | none => some (some ns) | some c => (some c).bind (fun vs => (some (ns ++ vs)).bind (fun l => some (some l))))))))) ?_ ?_
    · cases t.dict.contents with
      | none =>
        simp only [Option.bind_some]
        cases goGet t.dict.poss tok.id with
        | none => rfl
        | some ids => simp only [Option.bind_some]; cases posNames t.dict ids <;> simp
      | some cs =>
        simp only []
        cases goGet cs tok.id with
        | none => rfl
        | some c =>
          simp only [Option.map_some, Option.bind_some]
          cases goGet t.dict.poss tok.id with
          | none => rfl
          | some ids => simp only [Option.bind_some]; cases posNames t.dict ids <;> simp
    have hcc : ∀ h1 c c', h <+: h1 → ((c = none ∧ c' = none) ∨ ∃ s v, c = some s ∧ c' = some v ∧ HasStrings h s v) →
        Does h h1 (do
          let ids ← Kagome.orPanic (goGet D.dict.poss tok.id)
          let s ← makeStrs 0 (ids.length + match c with | none => 0 | some (c : StrSlice) => c.len)
          let s ← posNamesS grow D.dict s ids
          match c with
          | none => Pure.pure (some s)
          | some c => do
            let vs ← c.all
            let s ← appendStrs grow s vs
            Pure.pure (some s))
        ((goGet t.dict.poss tok.id).bind (fun ids => (some ([] : List Bytes)).bind (fun _ => (((posNames t.dict ids).map ([] ++ ·)).bind
            (fun ns => match c' with | none => some (some ns) | some c => (some c).bind (fun vs => (some (ns ++ vs)).bind (fun l => some (some l))))))))
        (fun h' o l => FreshO h.length h' o l) := by
      intro h1 c c' hb hcc
      refine Does.bind (R := fun h' a b => h' = h1 ∧ a = b) (Does.orPanic hb (by rw [hm.poss]) ?_) fun h2 ids ids' _ hb2 ⟨e2, e3⟩ => ?_
      · intro a b g1 g2
        rw [hm.poss, g2] at g1
        exact ⟨rfl, (Option.some.inj g1).symm⟩
      subst e2 e3
      refine (does_make hb2 0 _ (Nat.zero_le _)).bind fun h3 s l hl hb3 hs => ?_
      obtain rfl : ([] : List Bytes) = l := Option.some.inj hl
      refine (does_posNames grow hm.nameList ids hb3 hs.1).bind fun h4 s4 ns _ hb4 hs4 => ?_
      rcases hcc with ⟨rfl, rfl⟩ | ⟨c, v, rfl, rfl, hc⟩
      · exact Does.pure hb4 (.inr ⟨s4, ns, rfl, rfl, hs4⟩)
      · refine (does_all hb4 hc).bind fun h5 vs vs' _ hb5 ⟨e5, e6⟩ => ?_
        subst e5 e6
        refine (does_appends grow vs hb5 hs4).bind fun h6 s l _ hb6 hs => ?_
        exact Does.pure hb6 (.inr ⟨s, l, rfl, rfl, hs⟩)
    cases h1 : D.dict.contents with
    | none => rw [hm.noContents.mp h1]; exact hcc h none none hb (.inl ⟨rfl, rfl⟩)
    | some ss =>
      cases h2 : t.dict.contents with
      | none => rw [hm.noContents.mpr h2] at h1; cases h1
      | some ls =>
        refine Does.congr (o' := (goGet ls tok.id).bind fun c => _) ?_ ((does_table hb (hm.contents ss ls h1 h2) tok.id).bind fun h' s l _ hb' ⟨e1, hs⟩ =>
          hcc h' (some s) (some l) hb' (.inr ⟨s, l, rfl, rfl, hs⟩))
        simp only []
        cases goGet ls tok.id <;> rfl
  | unknown =>
    simp only [hd]
    have e : (goGet t.dict.unk.contents tok.id).map some = (goGet t.dict.unk.contents tok.id).bind (fun c =>
        (some (List.replicate c.length ([] : Bytes))).bind (fun _ => (some c).bind (fun c => some (some c)))) := by
      cases goGet t.dict.unk.contents tok.id <;> rfl
    rw [e]
    refine (does_table hb hm.unkContents tok.id).bind fun h1 s c _ hb1 ⟨e1, hs⟩ => ?_
    subst e1
    rw [← hs.length]
    refine (does_make hb1 s.len s.len (Nat.le_refl _)).bind fun h2 r l hl hb2 hr => ?_
    obtain rfl := Option.some.inj hl
    refine (does_copy hs s.len 0 hb2 hr.1 (by simp [hs.length]) (by simp [hs.length]) rfl).bind fun h3 _ l _ hb3 hr => ?_
    exact Does.pure hb3 (.inr ⟨r, l, rfl, rfl, hr⟩)
  | user =>
    simp only [hu]
    refine Does.congr (o' := t.userDict.bind (fun u => (goGet u.contents tok.id).bind (fun c => (some c.tokens).bind (fun a => (some c.yomi).bind (fun b =>
          (some [c.pos, join (str "/") a, join (str "/") b]).bind (fun l => some (some l))))))) ?_ ?_
    · cases t.userDict with
      | none => rfl
      | some u => simp only [Option.bind_some]; cases goGet u.contents tok.id <;> rfl
    refine (does_user hm hb).bind fun h1 us u _ hb1 ⟨e1, h2, h3⟩ => ?_
    subst e1
    refine (does_entry hm hb1 h2 h3 tok.id).bind fun h4 e c _ hb4 ⟨e1, h5, h6, h7⟩ => ?_
    subst e1
    refine (does_all hb4 h5).bind fun h8 a a' _ hb8 ⟨e1, e2⟩ => ?_
    subst e1 e2
    refine (does_all hb8 h6).bind fun h9 b b' _ hb9 ⟨e1, e2⟩ => ?_
    subst e1 e2
    rw [h7]
    refine (does_literal hb9 _).bind fun h10 s l _ hb10 hs => ?_
    exact Does.pure hb10 (.inr ⟨s, l, rfl, rfl, hs⟩)

theorem does_ids (hm : InMemory base t D) (hb : base <+: h) (i : Int) :
    Does base h (Kagome.orPanic (goGet D.dict.poss i)) (goGet t.dict.poss i) (fun h' a b => h' = h ∧ a = b) := by
  refine Does.orPanic hb (by rw [hm.poss]) fun a b g1 g2 => ?_
  rw [hm.poss, g2] at g1
  exact ⟨rfl, (Option.some.inj g1).symm⟩

theorem posRangeS_eq (hm : InMemory base t D) : posRangeS D.dict = unkPosRange t.dict := by
  unfold posRangeS unkPosRange
  rw [hm.unkMeta]
  rfl

theorem does_pos (grow : Nat → Nat) (hm : InMemory h t D) (hd : tok.dict = some t.dict) (hu : tok.udict = t.userDict) :
    Does h h (posS grow D tok) (tokenPOS tok) (fun h' o l => FreshO h.length h' o l) := by
  have hb : h <+: h := List.prefix_rfl
  unfold posS tokenPOS
  cases tok.cls with
  | dummy => exact Does.pure hb (.inl ⟨rfl, rfl⟩)
  | known =>
    simp only [hd]
    refine Does.congr (o' := (goGet t.dict.poss tok.id).bind (fun ids => (some ([] : List Bytes)).bind (fun _ =>
      ((posNames t.dict ids).map ([] ++ ·)).bind (fun ns => some (some ns))))) ?_ ?_
    · cases goGet t.dict.poss tok.id with
      | none => rfl
      | some ids => simp only [Option.bind_some]; cases posNames t.dict ids <;> simp
    refine (does_ids hm hb tok.id).bind fun h2 ids ids' _ hb2 ⟨e2, e3⟩ => ?_
    subst e2 e3
    refine (does_make hb2 0 _ (Nat.zero_le _)).bind fun h3 s l hl hb3 hs => ?_
    obtain rfl : ([] : List Bytes) = l := Option.some.inj hl
    refine (does_posNames grow hm.nameList ids hb3 hs.1).bind fun h4 s ns _ hb4 hs => ?_
    exact Does.pure hb4 (.inr ⟨s, ns, rfl, rfl, hs⟩)
  | unknown =>
    simp only [hd, posRangeS_eq hm]
    generalize (unkPosRange t.dict).1 = start
    generalize (unkPosRange t.dict).2 = stop
    refine Does.congr (o' := (goGet t.dict.unk.contents tok.id).bind (fun feature => if start ≥ stop ∨ stop > feature.length then some none
      else (some ([] : List Bytes)).bind (fun _ => ((featureRange feature start (stop - start).toNat).map ([] ++ ·)).bind (fun l => some (some l))))) ?_ ?_
    · cases goGet t.dict.unk.contents tok.id with
      | none => rfl
      | some f =>
        simp only [Option.bind_some]
        split
        · rfl
        · cases featureRange f start (stop - start).toNat <;> simp
    refine (does_table hb hm.unkContents tok.id).bind fun h1 s c _ hb1 ⟨e1, hs⟩ => ?_
    subst e1
    rw [hs.length]
    split
    · exact Does.pure hb1 (.inl ⟨rfl, rfl⟩)
    · refine (does_make hb1 0 _ (Nat.zero_le _)).bind fun h2 r l hl hb2 hr => ?_
      obtain rfl : ([] : List Bytes) = l := Option.some.inj hl
      refine (does_range grow hs _ start hb2 hr.1).bind fun h4 s ns _ hb4 hs => ?_
      exact Does.pure hb4 (.inr ⟨s, ns, rfl, rfl, hs⟩)
  | user =>
    simp only [hu]
    refine Does.congr (o' := t.userDict.bind (fun u => (goGet u.contents tok.id).bind (fun c => (some [c.pos]).bind (fun l => some (some l))))) ?_ ?_
    · cases t.userDict with
      | none => rfl
      | some u => simp only [Option.bind_some]; cases goGet u.contents tok.id <;> rfl
    refine (does_user hm hb).bind fun h1 us u _ hb1 ⟨e1, h2, h3⟩ => ?_
    subst e1
    refine (does_entry hm hb1 h2 h3 tok.id).bind fun h4 e c _ hb4 ⟨e1, h5, h6, h7⟩ => ?_
    subst e1
    rw [h7]
    refine (does_literal hb4 _).bind fun h10 s l _ hb10 hs => ?_
    exact Does.pure hb10 (.inr ⟨s, l, rfl, rfl, hs⟩)

/-- Two slices with the given strings that share nothing. -/
def FreshPair (lo : Nat) (h : Arrays) (a b : StrSlice) (x y : List Bytes) : Prop := FreshStrs lo h a x ∧ FreshStrs lo h b y ∧ a.arr ≠ b.arr

theorem does_extra (hm : InMemory h t D) (hu : tok.udict = t.userDict) :
    Does h h (extraS D tok) (if tok.cls = .user then ((tok.udict).bind (fun u => goGet u.contents tok.id)).map (fun c => some (c.tokens, c.yomi)) else some none)
      (fun h' o l => (o = none ∧ l = none) ∨ ∃ a b x y, o = some (a, b) ∧ l = some (x, y) ∧ FreshPair h.length h' a b x y) := by
  have hb : h <+: h := List.prefix_rfl
  unfold extraS
  by_cases hc : tok.cls = .user
  case neg =>
    rw [if_pos hc, if_neg hc]
    exact Does.pure hb (.inl ⟨rfl, rfl⟩)
  rw [if_neg (by simp [hc]), if_pos hc, hu]
  refine Does.congr (o' := t.userDict.bind (fun u => (goGet u.contents tok.id).bind (fun c =>
    (some (List.replicate c.tokens.length ([] : Bytes))).bind (fun _ => (some c.tokens).bind (fun a =>
      (some (List.replicate c.yomi.length ([] : Bytes))).bind (fun _ => (some c.yomi).bind (fun b => some (some (a, b))))))))) ?_ ?_
  · cases t.userDict with
    | none => rfl
    | some u => simp only [Option.bind_some]; cases goGet u.contents tok.id <;> rfl
  refine (does_user hm hb).bind fun h1 us u _ hb1 ⟨e1, h2, h3⟩ => ?_
  subst e1
  refine (does_entry hm hb1 h2 h3 tok.id).bind fun h4 e c _ hb4 ⟨e1, h5, h6, h7⟩ => ?_
  subst e1
  rw [h5.length, h6.length]
  refine (does_make hb4 _ _ (Nat.le_refl _)).bind fun h2 r l hl hb2 hr => ?_
  obtain rfl := Option.some.inj hl
  refine (does_copy h5 _ 0 hb2 hr.1 (by simp) (by simp) rfl).bind fun h3 _ l hl hb3 hr => ?_
  have hb' : h3 <+: h3 := List.prefix_rfl
  refine Does.mono (base' := h3) (R := fun h' o l' => ∃ b y, o = some (r, b) ∧ l' = some (l, y) ∧ FreshStrs h3.length h' b y) hb3 ?_ ?_
  · refine (does_make hb' _ _ (Nat.le_refl _)).bind fun h2 r l hl hb2 hr => ?_
    obtain rfl := Option.some.inj hl
    refine (does_copy (h6.keep hb3) _ 0 hb2 hr.1 (by simp) (by simp) rfl).bind fun h5 _ l hl hb5 hr => ?_
    exact Does.pure hb5 ⟨r, l, rfl, rfl, hr⟩
  · rintro h' o l' hb' ⟨b, y, rfl, rfl, hs⟩
    exact .inr ⟨r, b, l, y, rfl, rfl, hr.keep hb', hs.lower hb3.length_le, by have := hs.1; have := hr.lt; omega⟩

theorem does_cell (hb : base <+: h) {ss : List StrSlice} {ls : List (List Bytes)} (ht : HasTable base ss ls) (id i : Int) :
    Does base h (cellS ss id i) (if (ls.length : Int) ≤ id then some noFeature else match goGet ls id with
      | none => none
      | some c => if i ≥ c.length then some noFeature else (goGet c i).map (fun n => (n, true))) (fun h' v w => h' = h ∧ v = w) := by
  unfold cellS
  rw [ht.1]
  split
  · exact Does.pure hb ⟨rfl, rfl⟩
  · refine Does.congr (o' := (goGet ls id).bind (fun c => if i ≥ c.length then some noFeature else (goGet c i).bind (fun n => some (n, true)))) ?_ ?_
    · cases goGet ls id with
      | none => rfl
      | some c => simp only [Option.bind_some]; cases goGet c i <;> rfl
    refine (does_table hb ht id).bind fun h1 s c _ hb1 ⟨e1, hs⟩ => ?_
    subst e1
    rw [hs.length]
    split
    · exact Does.pure hb1 ⟨rfl, rfl⟩
    · refine (does_get hb1 hs i).bind fun h2 v w _ hb2 ⟨e1, e2⟩ => ?_
      subst e1 e2
      exact Does.pure hb2 ⟨rfl, rfl⟩

theorem does_featureAt (hm : InMemory base t D) (hb : base <+: h) (hd : tok.dict = some t.dict) (hu : tok.udict = t.userDict) (i : Int) :
    Does base h (featureAtS D tok i) (featureAt tok i) (fun h' v w => h' = h ∧ v = w) := by
  unfold featureAtS featureAt
  split
  · exact Does.pure hb ⟨rfl, rfl⟩
  cases tok.cls with
  | dummy => exact Does.pure hb ⟨rfl, rfl⟩
  | known =>
    simp only [hd]
    refine Does.congr (o' := (goGet t.dict.poss tok.id).bind (fun pos => if i < pos.length then (goGet pos i).bind (fun id =>
        if id > t.dict.nameList.length then some noFeature else (goGet t.dict.nameList id).bind (fun n => some (n, true)))
      else if ((t.dict.contents.getD []).length : Int) ≤ tok.id then some noFeature else match goGet (t.dict.contents.getD []) tok.id with
      | none => none
      | some c => if i - pos.length ≥ c.length then some noFeature else (goGet c (i - pos.length)).map (fun n => (n, true)))) ?_ ?_
    · cases goGet t.dict.poss tok.id with
      | none => rfl
      | some pos =>
        simp only [Option.bind_some]
        split
        · cases goGet pos i with
          | none => rfl
          | some id =>
            simp only [Option.bind_some]
            split
            · rfl
            · show _ = (t.dict.nameList[id]?).bind _
              cases t.dict.nameList[id]? <;> rfl
        · rfl
    refine (does_ids hm hb tok.id).bind fun h2 pos pos' _ hb2 ⟨e2, e3⟩ => ?_
    subst e2 e3
    split
    · refine Does.bind (R := fun h' a b => h' = h2 ∧ a = b) (Does.orPanic hb2 Iff.rfl ?_) fun h2 id id' _ hb2 ⟨e2, e3⟩ => ?_
      · intro a b g1 g2
        rw [g1] at g2
        exact ⟨rfl, Option.some.inj g2⟩
      subst e2 e3
      rw [hm.nameList.length]
      split
      · exact Does.pure hb2 ⟨rfl, rfl⟩
      · refine (does_get hb2 hm.nameList id).bind fun h3 v w _ hb3 ⟨e1, e2⟩ => ?_
        subst e1 e2
        exact Does.pure hb3 ⟨rfl, rfl⟩
    · refine does_cell hb2 ?_ tok.id _
      cases h1 : D.dict.contents with
      | none => rw [hm.noContents.mp h1]; exact ⟨rfl, fun i s l h => by simp at h⟩
      | some ss =>
        cases h2 : t.dict.contents with
        | none => rw [hm.noContents.mpr h2] at h1; cases h1
        | some ls => exact hm.contents ss ls h1 h2
  | unknown =>
    simp only [hd]
    exact does_cell hb hm.unkContents tok.id i
  | user =>
    simp only [hu]
    refine Does.congr (o' := t.userDict.bind (fun u => if (u.contents.length : Int) ≤ tok.id then some noFeature
      else if i = 0 then (goGet u.contents tok.id).bind (fun c => some (c.pos, true))
      else if i = 1 then (goGet u.contents tok.id).bind (fun c => (some c.tokens).bind (fun vs => some (join (str "/") vs, true)))
      else if i = 2 then (goGet u.contents tok.id).bind (fun c => (some c.yomi).bind (fun vs => some (join (str "/") vs, true)))
      else some noFeature)) ?_ ?_
    · cases t.userDict with
      | none => rfl
      | some u =>
        simp only [Option.bind_some]
        cases goGet u.contents tok.id <;> rfl
    refine (does_user hm hb).bind fun h1 us u _ hb1 ⟨e1, h2, h3⟩ => ?_
    subst e1
    rw [(hm.user us u h2 h3).1]
    split
    · exact Does.pure hb1 ⟨rfl, rfl⟩
    split
    · refine (does_entry hm hb1 h2 h3 tok.id).bind fun h4 e c _ hb4 ⟨e1, h5, h6, h7⟩ => ?_
      subst e1
      rw [h7]
      exact Does.pure hb4 ⟨rfl, rfl⟩
    split
    · refine (does_entry hm hb1 h2 h3 tok.id).bind fun h4 e c _ hb4 ⟨e1, h5, h6, h7⟩ => ?_
      subst e1
      refine (does_all hb4 h5).bind fun h8 a a' _ hb8 ⟨e1, e2⟩ => ?_
      subst e1 e2
      exact Does.pure hb8 ⟨rfl, rfl⟩
    split
    · refine (does_entry hm hb1 h2 h3 tok.id).bind fun h4 e c _ hb4 ⟨e1, h5, h6, h7⟩ => ?_
      subst e1
      refine (does_all hb4 h6).bind fun h8 a a' _ hb8 ⟨e1, e2⟩ => ?_
      subst e1 e2
      exact Does.pure hb8 ⟨rfl, rfl⟩
    · exact Does.pure hb1 ⟨rfl, rfl⟩

theorem does_pickup (hm : InMemory base t D) (hb : base <+: h) (hd : tok.dict = some t.dict) (hu : tok.udict = t.userDict) (key : MetaKey) :
    Does base h (pickupS D tok key) (pickup tok key) (fun h' v w => h' = h ∧ v = w) := by
  unfold pickupS pickup
  cases tok.cls with
  | dummy => exact Does.pure hb ⟨rfl, rfl⟩
  | user => exact Does.pure hb ⟨rfl, rfl⟩
  | known =>
    simp only [hd, hm.contentsMeta]
    cases t.dict.contentsMeta key.name with
    | none => exact Does.pure hb ⟨rfl, rfl⟩
    | some i => exact does_featureAt hm hb hd hu _
  | unknown =>
    simp only [hd, hm.unkMeta]
    cases t.dict.unk.contentsMeta key.name with
    | none => exact Does.pure hb ⟨rfl, rfl⟩
    | some i => exact does_featureAt hm hb hd hu _

theorem does_orEmpty (hb : base <+: h) {lo : Nat} (hl : lo ≤ h.length) {o : Option StrSlice} {l : Option (List Bytes)} (ho : FreshO lo h o l) :
    Does base h (orEmpty o) (some (l.getD [])) (fun h' s v => h <+: h' ∧ FreshStrs lo h' s v ∧ (o = some s ∨ h.length ≤ s.arr)) := by
  refine Does.mono (base' := h) (R := fun h' s v => FreshStrs lo h' s v ∧ (o = some s ∨ h.length ≤ s.arr)) hb ?_ (fun _ _ _ hb h => ⟨hb, h⟩)
  rcases ho with ⟨rfl, rfl⟩ | ⟨s, v, rfl, rfl, hs⟩
  · exact Does.mono (base' := h) List.prefix_rfl (does_literal List.prefix_rfl []) (fun h' s v _ hs => ⟨hs.lower hl, .inr hs.1⟩)
  · exact Does.pure List.prefix_rfl ⟨hs, .inl rfl⟩

theorem does_tokenData (grow : Nat → Nat) (hm : InMemory h t D) (hd : tok.dict = some t.dict) (hu : tok.udict = t.userDict) :
    Does h h (tokenDataS grow D tok) (newTokenData tok) (fun h' o x => ∃ l m, x.pos = some l ∧ x.features = some m ∧
      FreshPair h.length h' o.1 o.2.1 l m ∧ o.2.2 = (x.baseForm, x.reading, x.pronunciation)) := by
  unfold tokenDataS
  refine Does.congr (o' := (tokenPOS tok).bind (fun pos => (features tok).bind (fun fs => (some (pos.getD [])).bind (fun pos => (some (fs.getD [])).bind (fun fs =>
    (pickup tok .base).bind (fun b => (pickup tok .reading).bind (fun r => (pickup tok .pronunciation).bind (fun p =>
      some ({ id := tok.id, start := tok.start, stop := tok.stop, surface := tok.surface, cls := className tok.cls, pos := some pos,
              features := some fs, baseForm := b.1, reading := r.1, pronunciation := p.1 } : TokenData))))))))) ?_ ?_
  · unfold newTokenData baseForm reading pronunciation
    cases tokenPOS tok with
    | none => rfl
    | some p =>
      cases features tok with
      | none => rfl
      | some f =>
        cases pickup tok .base with
        | none => rfl
        | some b =>
          cases pickup tok .reading with
          | none => rfl
          | some r =>
            cases pickup tok .pronunciation with
            | none => rfl
            | some q => cases p <;> cases f <;> rfl
  refine (does_pos grow hm hd hu).bind fun h1 pos pos' _ hb1 hp => ?_
  refine Does.mono (base' := h1) (R := fun h' o x => ∃ l m, x.pos = some l ∧ x.features = some m ∧
      FreshPair h.length h' o.1 o.2.1 l m ∧ o.2.2 = (x.baseForm, x.reading, x.pronunciation)) hb1 ?_ (fun _ _ _ _ h => h)
  refine (does_features grow (hm.keep hb1) hd hu).bind fun h2 fs fs' _ hb2 hf => ?_
  have hl1 := hb1.length_le
  have hl2 := hb2.length_le
  refine (does_orEmpty (lo := h.length) hb2 (by omega) (hp.keep hb2)).bind fun h3 a x _ hb3 ⟨hk3, ha, ha'⟩ => ?_
  refine (does_orEmpty (lo := h1.length) hb3 hb3.length_le (hf.keep hk3)).bind fun h4 b y _ hb4 ⟨hk4, hb', hb''⟩ => ?_
  have hl3 := hk3.length_le
  have hne : a.arr ≠ b.arr := by
    have hlt := ha.lt
    have hb1 := hb'.1
    rcases ha' with rfl | ha' <;> rcases hb'' with rfl | hb''
    · rcases hp with ⟨h, _⟩ | ⟨s, v, e, _, hs⟩
      · cases h
      · cases e; have := hs.lt; omega
    · omega
    · rcases hf with ⟨h, _⟩ | ⟨s, v, e, _, hs⟩
      · cases h
      · cases e; have := hs.lt; omega
    · omega
  have hm4 := (hm.keep hb1).keep hb4
  refine (does_pickup (hm.keep hb1) hb4 hd hu .base).bind fun h5 v w _ hb5 ⟨e1, e2⟩ => ?_
  subst e1 e2
  refine (does_pickup (hm.keep hb1) hb5 hd hu .reading).bind fun h6 v' w _ hb6 ⟨e1, e2⟩ => ?_
  subst e1 e2
  refine (does_pickup (hm.keep hb1) hb6 hd hu .pronunciation).bind fun h7 v'' w _ hb7 ⟨e1, e2⟩ => ?_
  subst e1 e2
  exact Does.pure hb7 ⟨x, y, rfl, rfl, ⟨ha.keep hk4, hb'.lower hl1, hne⟩, rfl⟩

theorem does_wakatiLoop (grow : Nat → Nat) : ∀ (ts : List Token) {h : Arrays} {s : StrSlice} {l : List Bytes}, base <+: h →
    FreshStrs base.length h s l → Does base h (wakatiLoopS grow s ts) (some (l ++ wakatiLoop ts)) (fun h' s l => FreshStrs base.length h' s l) := by
  intro ts
  induction ts with
  | nil => intro h s l hb hs; exact Does.pure hb (by simpa [wakatiLoop] using hs)
  | cons v ts ih =>
    intro h s l hb hs
    unfold wakatiLoopS wakatiLoop
    split
    · have e : some (l ++ v.surface :: wakatiLoop ts) = (some (l ++ [v.surface])).bind (fun l => some (l ++ wakatiLoop ts)) := by simp
      rw [e]
      exact (does_append hb (.inl hs) grow v.surface).bind fun h' s' l' _ hb' hs' => ih hb' hs'.1
    · exact ih hb hs

theorem does_wakati (grow : Nat → Nat) (t : Tokenizer) (ideo : Nat → Bool) (inp : Bytes) (h : Arrays) :
    Does h h (wakatiS grow t ideo inp) (wakati t ideo inp) (fun h' s l => FreshStrs h.length h' s l) := by
  unfold wakatiS wakati
  refine Does.congr (o' := (analyze t ideo inp modeNormal).bind (fun ts => (some ([] : List Bytes)).bind (fun _ => some ([] ++ wakatiLoop ts)))) ?_ ?_
  · cases analyze t ideo inp modeNormal <;> rfl
  refine Does.bind (R := fun h' a b => h' = h ∧ a = b) (Does.orPanic List.prefix_rfl Iff.rfl ?_) fun h2 ts ts' _ hb2 ⟨e2, e3⟩ => ?_
  · intro a b g1 g2
    rw [g1] at g2
    exact ⟨rfl, Option.some.inj g2⟩
  subst e2 e3
  refine (does_make hb2 0 _ (Nat.zero_le _)).bind fun h3 s l hl hb3 hs => ?_
  obtain rfl : ([] : List Bytes) = l := Option.some.inj hl
  exact does_wakatiLoop grow ts hb3 hs.1

/-- As `FreshStrs`, for a slice that is nil as long as it is empty. -/
def FreshY (lo : Nat) (h : Arrays) (o : Option StrSlice) (l : List Bytes) : Prop := (o = none ∧ l = []) ∨ ∃ s, o = some s ∧ l ≠ [] ∧ FreshStrs lo h s l

theorem FreshY.keep {lo : Nat} {base h : Arrays} (hb : base <+: h) {s : Option StrSlice} {l : List Bytes} (hs : FreshY lo base s l) : FreshY lo h s l := by
  rcases hs with hs | ⟨s, rfl, hl, hs⟩
  · exact .inl hs
  · exact .inr ⟨s, rfl, hl, hs.keep hb⟩

theorem does_appendNil (grow : Nat → Nat) (hb : base <+: h) {o : Option StrSlice} {l : List Bytes} (ho : FreshY base.length h o l) (v : Bytes) :
    Does base h (appendNil grow o v) (some (l ++ [v])) (fun h' o l => FreshY base.length h' o l) := by
  unfold appendNil
  refine Does.congr (o' := (some (l ++ [v])).bind (fun l => some l)) rfl ?_
  refine (does_append hb (l := l) ?_ grow v).bind fun h' s' l' hl' hb' hs' => ?_
  · rcases ho with ⟨rfl, rfl⟩ | ⟨s, rfl, _, hs⟩
    · exact .inr ⟨rfl, rfl⟩
    · exact .inl hs
  · obtain rfl := Option.some.inj hl'
    exact Does.pure hb' (.inr ⟨s', rfl, by simp, hs'.1⟩)

theorem does_posMatch (hb : base <+: h) (f : FNode) {lo : Nat} {o : Option StrSlice} {l : Option (List Bytes)} (ho : FreshO lo h o l) :
    Does base h (posMatchS f o) (some (posMatch f l)) (fun h' v w => h' = h ∧ v = w) := by
  refine ⟨hb, rfl, ?_⟩
  rw [ho.read]

theorem does_yield (grow : Nat → Nat) (f : JaFilter) (hm : InMemory base t D) : ∀ (toks : List Token) {h : Arrays} {ret : Option StrSlice} {l : List Bytes},
    (∀ tok ∈ toks, tok.dict = some t.dict ∧ tok.udict = t.userDict) → base <+: h → FreshY base.length h ret l →
      Does base h (yieldS grow D f ret toks) ((yieldWords f toks).map (l ++ ·)) (fun h' o l => FreshY base.length h' o l) := by
  intro toks
  induction toks with
  | nil => intro h ret l _ hb hs; exact Does.pure hb (by simpa using hs)
  | cons v vs ih =>
    intro h ret l ht hb hs
    obtain ⟨hd, hu⟩ := ht v (List.mem_cons_self ..)
    replace ih := @fun h ret l => @ih h ret l (fun tok h => ht tok (List.mem_cons_of_mem _ h))
    unfold yieldS yieldWords
    refine Does.congr (o' := (tokenPOS v).bind (fun p => (some (posMatch f.stopTags p)).bind (fun stop =>
      if stop then (yieldWords f vs).map (l ++ ·) else if wordMatch f.stopWords v.surface then (yieldWords f vs).map (l ++ ·)
      else (tokenPOS v).bind (fun p => (some (posMatch f.baseForm p)).bind (fun b =>
        if b then (pickup v .base).bind (fun b => if b.2 then (some (l ++ [b.1])).bind (fun l => (yieldWords f vs).map (l ++ ·))
          else (yieldWords f vs).map (l ++ ·))
        else (some (l ++ [v.surface])).bind (fun l => (yieldWords f vs).map (l ++ ·))))))) ?_ ?_
    · have hy : ∀ b : Bytes, ((yieldWords f vs).map (b :: ·)).map (l ++ ·) = (some (l ++ [b])).bind (fun l => (yieldWords f vs).map (l ++ ·)) := by
        intro b
        cases yieldWords f vs <;> simp
      cases tokenPOS v with
      | none => rfl
      | some p =>
        simp only [Option.bind_some]
        split
        · rfl
        split
        · rfl
        split
        · unfold baseForm
          cases pickup v .base with
          | none => rfl
          | some b =>
            simp only [Option.bind_some]
            split
            · exact hy _
            · rfl
        · exact hy _
    refine Does.bind (R := fun h' o l => h <+: h' ∧ FreshO h.length h' o l) (Does.mono hb (does_pos grow (hm.keep hb) hd hu) (fun _ _ _ h1 h2 => ⟨h1, h2⟩))
      fun h1 p p' _ hb1 ⟨hk1, hp⟩ => ?_
    refine (does_posMatch hb1 f.stopTags hp).bind fun h2 stop stop' _ hb2 ⟨e1, e2⟩ => ?_
    subst e1 e2
    replace hs := hs.keep hk1
    split
    · exact ih _ _ _ hb2 hs
    split
    · exact ih _ _ _ hb2 hs
    refine Does.bind (R := fun h' o l => h2 <+: h' ∧ FreshO h2.length h' o l) (Does.mono hb2 (does_pos grow (hm.keep hb2) hd hu) (fun _ _ _ h1 h2 => ⟨h1, h2⟩))
      fun h3 p p' _ hb3 ⟨hk3, hp⟩ => ?_
    refine (does_posMatch hb3 f.baseForm hp).bind fun h4 b b' _ hb4 ⟨e1, e2⟩ => ?_
    subst e1 e2
    replace hs := hs.keep hk3
    split
    · refine (does_pickup hm hb4 hd hu .base).bind fun h5 b b' _ hb5 ⟨e1, e2⟩ => ?_
      subst e1 e2
      split
      · exact (does_appendNil grow hb5 hs _).bind fun h6 o l _ hb6 ho => ih _ _ _ hb6 ho
      · exact ih _ _ _ hb5 hs
    · exact (does_appendNil grow hb4 hs _).bind fun h6 o l _ hb6 ho => ih _ _ _ hb6 ho

end Kagome
