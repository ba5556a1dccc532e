import Verif.Model.Machine

/-!
Which programs keep to the objects they own, and what they compute: a weakest precondition over the part of the memory a program owns.
-/

namespace Kagome

/-- The objects a program owns. The flag of a node says whether it comes from the pool. -/
structure LHeap where
  n : Addr → Option (Bool × PNode)
  l : Addr → Option LatObj

@[simp] theorem upd_same {α : Type} (f : Addr → α) (a : Addr) (v : α) : upd f a v a = v := by simp [upd]
theorem upd_other {α : Type} (f : Addr → α) {a x : Addr} (v : α) (h : x ≠ a) : upd f a v x = f x := by simp [upd, h]

def LHeap.setN (h : LHeap) (a : Addr) (v : Option (Bool × PNode)) : LHeap := ⟨upd h.n a v, h.l⟩
def LHeap.setL (h : LHeap) (a : Addr) (v : Option LatObj) : LHeap := ⟨h.n, upd h.l a v⟩

/-- Slices with no elements, and no pointers in the arrays behind them. -/
structure Blank (l : LatObj) : Prop where
  out : l.output.len = 0
  cols : ∀ s ∈ l.list.arr, s.len = 0
  noOut : ∀ p ∈ l.output.arr, p = none
  noCols : ∀ s ∈ l.list.arr, ∀ p ∈ s.arr, p = none

/-- What is true of every lattice in the pool. -/
structure Clean (l : LatObj) : Prop extends Blank l where
  text : l.input = []
  user : l.udic = none

/-- `wp p h Q`: run on the objects `h`, whatever the pools hand out, `p` touches only what it owns and ends with `Q`; `none` is a panic. -/
def wp {α : Type} : Prog α → LHeap → (Option α → LHeap → Prop) → Prop
  | .ret a, h, Q => Q (some a) h
  | .panic, h, Q => Q none h
  | .getNode k, h, Q => ∀ a v, h.n a = none → wp (k a) (h.setN a (some (true, v))) Q
  | .putNode a k, h, Q => (∃ v, h.n a = some (true, v)) ∧ wp k (h.setN a none) Q
  | .newNode v k, h, Q => ∀ a, h.n a = none → wp (k a) (h.setN a (some (false, v))) Q
  | .readNode a k, h, Q => ∃ b v, h.n a = some (b, v) ∧ wp (k v) h Q
  | .writeNode a f k, h, Q => ∃ b v, h.n a = some (b, v) ∧ wp k (h.setN a (some (b, f v))) Q
  | .getLat k, h, Q => ∀ a v, h.l a = none → Clean v → wp (k a) (h.setL a (some v)) Q
  | .putLat a k, h, Q => (∃ v, h.l a = some v ∧ Clean v) ∧ wp k (h.setL a none) Q
  | .readLat a k, h, Q => ∃ v, h.l a = some v ∧ wp (k v) h Q
  | .writeLat a f k, h, Q => ∃ v, h.l a = some v ∧ wp k (h.setL a (some (f v))) Q
  | .choose k, h, Q => ∀ n, wp (k n) h Q

theorem wp_mono {α : Type} {p : Prog α} {h : LHeap} {Q Q' : Option α → LHeap → Prop} (hp : wp p h Q) (hq : ∀ r h, Q r h → Q' r h) :
    wp p h Q' := by
  induction p generalizing h with
  | ret a => exact hq _ _ hp
  | panic => exact hq _ _ hp
  | getNode k ih => exact fun a v ha => ih a (hp a v ha)
  | putNode a k ih => exact ⟨hp.1, ih hp.2⟩
  | newNode v k ih => exact fun a ha => ih a (hp a ha)
  | readNode a k ih => obtain ⟨b, v, h1, h2⟩ := hp; exact ⟨b, v, h1, ih v h2⟩
  | writeNode a f k ih => obtain ⟨b, v, h1, h2⟩ := hp; exact ⟨b, v, h1, ih h2⟩
  | getLat k ih => exact fun a v ha hc => ih a (hp a v ha hc)
  | putLat a k ih => exact ⟨hp.1, ih hp.2⟩
  | readLat a k ih => obtain ⟨v, h1, h2⟩ := hp; exact ⟨v, h1, ih v h2⟩
  | writeLat a f k ih => obtain ⟨v, h1, h2⟩ := hp; exact ⟨v, h1, ih h2⟩
  | choose k ih => exact fun n => ih n (hp n)

/-- The condition after the first part of `p >>= f`. -/
def andThen {α β : Type} (f : α → Prog β) (Q : Option β → LHeap → Prop) : Option α → LHeap → Prop
  | some a, h => wp (f a) h Q
  | none, h => Q none h

theorem wp_bind' {α β : Type} {p : Prog α} {f : α → Prog β} {h : LHeap} {Q : Option β → LHeap → Prop}
    (hp : wp p h (andThen f Q)) : wp (p.bind f) h Q := by
  induction p generalizing h with
  | ret a => exact hp
  | panic => exact hp
  | getNode k ih => exact fun a v ha => ih a (hp a v ha)
  | putNode a k ih => exact ⟨hp.1, ih hp.2⟩
  | newNode v k ih => exact fun a ha => ih a (hp a ha)
  | readNode a k ih => obtain ⟨b, v, h1, h2⟩ := hp; exact ⟨b, v, h1, ih v h2⟩
  | writeNode a f k ih => obtain ⟨b, v, h1, h2⟩ := hp; exact ⟨b, v, h1, ih h2⟩
  | getLat k ih => exact fun a v ha hc => ih a (hp a v ha hc)
  | putLat a k ih => exact ⟨hp.1, ih hp.2⟩
  | readLat a k ih => obtain ⟨v, h1, h2⟩ := hp; exact ⟨v, h1, ih v h2⟩
  | writeLat a f k ih => obtain ⟨v, h1, h2⟩ := hp; exact ⟨v, h1, ih h2⟩
  | choose k ih => exact fun n => ih n (hp n)

theorem wp_bind {α β : Type} {p : Prog α} {f : α → Prog β} {h : LHeap} {Q : Option β → LHeap → Prop}
    (hp : wp p h (andThen f Q)) : wp (p >>= f) h Q := wp_bind' hp

theorem wp_pure {α : Type} {a : α} {h : LHeap} {Q : Option α → LHeap → Prop} (hq : Q (some a) h) : wp (pure a) h Q := hq

/-- The condition before a deferred program. -/
def beforeFin {α : Type} (fin : Prog Unit) (Q : Option α → LHeap → Prop) : Option α → LHeap → Prop :=
  fun r h => wp fin h (fun x h' => match x with | some _ => Q r h' | none => Q none h')

theorem wp_deferred {α : Type} {p : Prog α} {fin : Prog Unit} {h : LHeap} {Q : Option α → LHeap → Prop}
    (hp : wp p h (beforeFin fin Q)) : wp (p.deferred fin) h Q := by
  induction p generalizing h with
  | ret a =>
    refine wp_bind' (wp_mono hp ?_)
    intro r h' hr
    cases r with
    | none => exact hr
    | some x => exact hr
  | panic =>
    refine wp_bind' (wp_mono hp ?_)
    intro r h' hr
    cases r with
    | none => exact hr
    | some x => exact hr
  | getNode k ih => exact fun a v ha => ih a (hp a v ha)
  | putNode a k ih => exact ⟨hp.1, ih hp.2⟩
  | newNode v k ih => exact fun a ha => ih a (hp a ha)
  | readNode a k ih => obtain ⟨b, v, h1, h2⟩ := hp; exact ⟨b, v, h1, ih v h2⟩
  | writeNode a f k ih => obtain ⟨b, v, h1, h2⟩ := hp; exact ⟨b, v, h1, ih h2⟩
  | getLat k ih => exact fun a v ha hc => ih a (hp a v ha hc)
  | putLat a k ih => exact ⟨hp.1, ih hp.2⟩
  | readLat a k ih => obtain ⟨v, h1, h2⟩ := hp; exact ⟨v, h1, ih v h2⟩
  | writeLat a f k ih => obtain ⟨v, h1, h2⟩ := hp; exact ⟨v, h1, ih h2⟩
  | choose k ih => exact fun n => ih n (hp n)

theorem wp_recovered {α : Type} {p : Prog α} {h : LHeap} {Q : Option (Option α) → LHeap → Prop}
    (hp : wp p h (fun r h' => Q (some r) h')) : wp p.recovered h Q := by
  induction p generalizing h with
  | ret a => exact hp
  | panic => exact hp
  | getNode k ih => exact fun a v ha => ih a (hp a v ha)
  | putNode a k ih => exact ⟨hp.1, ih hp.2⟩
  | newNode v k ih => exact fun a ha => ih a (hp a ha)
  | readNode a k ih => obtain ⟨b, v, h1, h2⟩ := hp; exact ⟨b, v, h1, ih v h2⟩
  | writeNode a f k ih => obtain ⟨b, v, h1, h2⟩ := hp; exact ⟨b, v, h1, ih h2⟩
  | getLat k ih => exact fun a v ha hc => ih a (hp a v ha hc)
  | putLat a k ih => exact ⟨hp.1, ih hp.2⟩
  | readLat a k ih => obtain ⟨v, h1, h2⟩ := hp; exact ⟨v, h1, ih v h2⟩
  | writeLat a f k ih => obtain ⟨v, h1, h2⟩ := hp; exact ⟨v, h1, ih h2⟩
  | choose k ih => exact fun n => ih n (hp n)

/-- More nodes, which nobody uses. -/
def LHeap.with (h : LHeap) (g : Addr → Option (Bool × PNode)) : LHeap := ⟨fun a => (h.n a).or (g a), h.l⟩

theorem with_setN (h : LHeap) {g : Addr → Option (Bool × PNode)} {a : Addr} (v : Option (Bool × PNode)) (ha : g a = none) :
    (h.setN a v).with g = (h.with g).setN a v := by
  unfold LHeap.setN LHeap.with
  congr 1
  funext x
  by_cases he : x = a
  · subst he; simp only [upd_same, ha]; cases v <;> rfl
  · simp only [upd_other _ _ he]

/-- What a program does not own does not matter to it. -/
theorem wp_frame {α : Type} {p : Prog α} {g : Addr → Option (Bool × PNode)} : ∀ {h : LHeap} {Q : Option α → LHeap → Prop}, wp p h Q →
    (∀ a x, h.n a = some x → g a = none) →
    wp p (h.with g) (fun r h' => ∃ h0, h' = h0.with g ∧ (∀ a x, h0.n a = some x → g a = none) ∧ Q r h0) := by
  have keep : ∀ {h : LHeap} {a : Addr} {v : Option (Bool × PNode)}, (∀ a x, h.n a = some x → g a = none) → g a = none →
      ∀ b x, (h.setN a v).n b = some x → g b = none := by
    intro h a v hd ha b x hb
    by_cases he : b = a
    · rw [he]; exact ha
    · simp only [LHeap.setN] at hb; rw [upd_other _ _ he] at hb; exact hd b x hb
  induction p with
  | ret a => exact fun hp hd => ⟨_, rfl, hd, hp⟩
  | panic => exact fun hp hd => ⟨_, rfl, hd, hp⟩
  | getNode k ih =>
    intro h Q hp hd a v ha
    obtain ⟨h1, h2⟩ : h.n a = none ∧ g a = none := by simpa [LHeap.with] using ha
    rw [← with_setN h _ h2]
    exact ih a (hp a v h1) (keep hd h2)
  | putNode a k ih =>
    rintro h Q ⟨⟨v, h1⟩, h2⟩ hd
    have hg := hd a _ h1
    refine ⟨⟨v, by simp [LHeap.with, h1]⟩, ?_⟩
    rw [← with_setN h _ hg]
    exact ih h2 (keep hd hg)
  | newNode v k ih =>
    intro h Q hp hd a ha
    obtain ⟨h1, h2⟩ : h.n a = none ∧ g a = none := by simpa [LHeap.with] using ha
    rw [← with_setN h _ h2]
    exact ih a (hp a h1) (keep hd h2)
  | readNode a k ih =>
    rintro h Q ⟨b, v, h1, h2⟩ hd
    exact ⟨b, v, by simp [LHeap.with, h1], ih v h2 hd⟩
  | writeNode a f k ih =>
    rintro h Q ⟨b, v, h1, h2⟩ hd
    have hg := hd a _ h1
    refine ⟨b, v, by simp [LHeap.with, h1], ?_⟩
    rw [← with_setN h _ hg]
    exact ih h2 (keep hd hg)
  | getLat k ih => exact fun hp hd a v ha hc => ih a (hp a v ha hc) hd
  | putLat a k ih => exact fun hp hd => ⟨hp.1, ih hp.2 hd⟩
  | readLat a k ih => rintro h Q ⟨v, h1, h2⟩ hd; exact ⟨v, h1, ih v h2 hd⟩
  | writeLat a f k ih => rintro h Q ⟨v, h1, h2⟩ hd; exact ⟨v, h1, ih h2 hd⟩
  | choose k ih => exact fun hp hd n => ih n (hp n) hd

/-- Two parts of the memory. -/
def LHeap.join (h g : LHeap) : LHeap := ⟨fun a => (h.n a).or (g.n a), fun a => (h.l a).or (g.l a)⟩

/-- Nothing is in both. -/
structure Apart (h g : LHeap) : Prop where
  n : ∀ a x, h.n a = some x → g.n a = none
  l : ∀ a x, h.l a = some x → g.l a = none

theorem join_setN (h : LHeap) {g : LHeap} {a : Addr} (v : Option (Bool × PNode)) (ha : g.n a = none) : (h.setN a v).join g = (h.join g).setN a v := by
  unfold LHeap.setN LHeap.join
  congr 1
  funext x
  by_cases he : x = a
  · subst he; simp only [upd_same, ha]; cases v <;> rfl
  · simp only [upd_other _ _ he]

theorem join_setL (h : LHeap) {g : LHeap} {a : Addr} (v : Option LatObj) (ha : g.l a = none) : (h.setL a v).join g = (h.join g).setL a v := by
  unfold LHeap.setL LHeap.join
  congr 1
  funext x
  by_cases he : x = a
  · subst he; simp only [upd_same, ha]; cases v <;> rfl
  · simp only [upd_other _ _ he]

theorem Apart.setN {h g : LHeap} {a : Addr} {v : Option (Bool × PNode)} (hd : Apart h g) (ha : g.n a = none) : Apart (h.setN a v) g := by
  refine ⟨fun b x hb => ?_, hd.l⟩
  by_cases he : b = a
  · rw [he]; exact ha
  · simp only [LHeap.setN] at hb; rw [upd_other _ _ he] at hb; exact hd.n b x hb

theorem Apart.setL {h g : LHeap} {a : Addr} {v : Option LatObj} (hd : Apart h g) (ha : g.l a = none) : Apart (h.setL a v) g := by
  refine ⟨hd.n, fun b x hb => ?_⟩
  by_cases he : b = a
  · rw [he]; exact ha
  · simp only [LHeap.setL] at hb; rw [upd_other _ _ he] at hb; exact hd.l b x hb

/-- What a program does not own, lattices included, does not matter to it. -/
theorem wp_join {α : Type} {p : Prog α} {g : LHeap} : ∀ {h : LHeap} {Q : Option α → LHeap → Prop}, wp p h Q → Apart h g →
    wp p (h.join g) (fun r h' => ∃ h0, h' = h0.join g ∧ Apart h0 g ∧ Q r h0) := by
  induction p with
  | ret a => exact fun hp hd => ⟨_, rfl, hd, hp⟩
  | panic => exact fun hp hd => ⟨_, rfl, hd, hp⟩
  | getNode k ih =>
    intro h Q hp hd a v ha
    obtain ⟨h1, h2⟩ : h.n a = none ∧ g.n a = none := by simpa [LHeap.join] using ha
    rw [← join_setN h _ h2]
    exact ih a (hp a v h1) (hd.setN h2)
  | putNode a k ih =>
    rintro h Q ⟨⟨v, h1⟩, h2⟩ hd
    have hg := hd.n a _ h1
    refine ⟨⟨v, by simp [LHeap.join, h1]⟩, ?_⟩
    rw [← join_setN h _ hg]
    exact ih h2 (hd.setN hg)
  | newNode v k ih =>
    intro h Q hp hd a ha
    obtain ⟨h1, h2⟩ : h.n a = none ∧ g.n a = none := by simpa [LHeap.join] using ha
    rw [← join_setN h _ h2]
    exact ih a (hp a h1) (hd.setN h2)
  | readNode a k ih =>
    rintro h Q ⟨b, v, h1, h2⟩ hd
    exact ⟨b, v, by simp [LHeap.join, h1], ih v h2 hd⟩
  | writeNode a f k ih =>
    rintro h Q ⟨b, v, h1, h2⟩ hd
    have hg := hd.n a _ h1
    refine ⟨b, v, by simp [LHeap.join, h1], ?_⟩
    rw [← join_setN h _ hg]
    exact ih h2 (hd.setN hg)
  | getLat k ih =>
    intro h Q hp hd a v ha hc
    obtain ⟨h1, h2⟩ : h.l a = none ∧ g.l a = none := by simpa [LHeap.join] using ha
    rw [← join_setL h _ h2]
    exact ih a (hp a v h1 hc) (hd.setL h2)
  | putLat a k ih =>
    rintro h Q ⟨⟨v, h1, hc⟩, h2⟩ hd
    have hg := hd.l a _ h1
    refine ⟨⟨v, by simp [LHeap.join, h1], hc⟩, ?_⟩
    rw [← join_setL h _ hg]
    exact ih h2 (hd.setL hg)
  | readLat a k ih =>
    rintro h Q ⟨v, h1, h2⟩ hd
    exact ⟨v, by simp [LHeap.join, h1], ih v h2 hd⟩
  | writeLat a f k ih =>
    rintro h Q ⟨v, h1, h2⟩ hd
    have hg := hd.l a _ h1
    refine ⟨v, by simp [LHeap.join, h1], ?_⟩
    rw [← join_setL h _ hg]
    exact ih h2 (hd.setL hg)
  | choose k ih => exact fun hp hd n => ih n (hp n) hd

/-- Other programs run before the steps of `p`. What they leave behind is `g`, apart from what `p` owns. -/
theorem wp_visited {α β : Type} {v : Nat → List β → Prog (List β)} {P : Nat → List β → (Addr → Option (Bool × PNode)) → Prop}
    (hv : ∀ i acc g, P i acc g → wp (v i acc) ⟨fun _ => none, fun _ => none⟩ (fun r h' => ∃ b, r = some b ∧ (∀ x, h'.l x = none) ∧
      ((∀ a x, h'.n a = some x → g a = none) → P (i + 1) (acc ++ b) (fun a => (h'.n a).or (g a))))) (p : Prog α) :
    ∀ (h : LHeap) (Q : Option α → LHeap → Prop) (i : Nat) (acc : List β) (g : Addr → Option (Bool × PNode)), wp p h Q → P i acc g →
      (∀ a x, h.n a = some x → g a = none) →
      wp (p.visited v i acc) (h.with g) (fun r h' => ∃ o i' acc' h0 g', r = some (o, acc') ∧ P i' acc' g' ∧ h' = h0.with g' ∧ Q o h0) := by
  -- a visit, then the rest
  have visit : ∀ (h : LHeap) (i : Nat) (acc : List β) (g : Addr → Option (Bool × PNode)) (f : List β → Prog (Option α × List β))
      (R : Option (Option α × List β) → LHeap → Prop), P i acc g → (∀ a x, h.n a = some x → g a = none) →
      (∀ b g', P (i + 1) (acc ++ b) g' → (∀ a x, h.n a = some x → g' a = none) → wp (f b) (h.with g') R) →
      wp ((v i acc).bind f) (h.with g) R := by
    intro h i acc g f R hP hd hf
    have e : h.with g = LHeap.join ⟨fun _ => none, fun _ => none⟩ (h.with g) := by
      unfold LHeap.join; rfl
    rw [e]
    refine wp_bind' (wp_mono (wp_join (hv i acc g hP) ⟨fun a x hx => (by cases hx), fun a x hx => (by cases hx)⟩) ?_)
    rintro r h' ⟨h0, rfl, ha, b, rfl, hl, hP'⟩
    have hn : ∀ a x, h0.n a = some x → h.n a = none ∧ g a = none := by
      intro a x hx
      have := ha.n a x hx
      simpa [LHeap.with] using this
    have hh : h0.join (h.with g) = h.with (fun a => (h0.n a).or (g a)) := by
      unfold LHeap.join LHeap.with
      congr 1
      · funext a
        show (h0.n a).or ((h.n a).or (g a)) = (h.n a).or ((h0.n a).or (g a))
        cases hx : h0.n a with
        | none => rfl
        | some x => rw [(hn a x hx).1]; rfl
      · funext a; rw [hl a]; rfl
    show wp (f b) _ R
    rw [hh]
    refine hf b _ (hP' fun a x hx => (hn a x hx).2) (fun a x hx => ?_)
    cases h1 : h0.n a with
    | none => simpa using hd a x hx
    | some y => rw [(hn a y h1).1] at hx; cases hx
  have keep : ∀ {h : LHeap} {g : Addr → Option (Bool × PNode)} {a : Addr} {v : Option (Bool × PNode)}, (∀ a x, h.n a = some x → g a = none) →
      g a = none → ∀ b x, (h.setN a v).n b = some x → g b = none := by
    intro h g a v hd ha b x hb
    by_cases he : b = a
    · rw [he]; exact ha
    · simp only [LHeap.setN] at hb; rw [upd_other _ _ he] at hb; exact hd b x hb
  induction p with
  | ret a => exact fun h Q i acc g hp hP hd => ⟨_, i, acc, h, g, rfl, hP, rfl, hp⟩
  | panic => exact fun h Q i acc g hp hP hd => ⟨_, i, acc, h, g, rfl, hP, rfl, hp⟩
  | getNode k ih =>
    refine fun h Q i acc g hp hP hd => visit h i acc g _ _ hP hd fun b g' hP' hd' a v ha => ?_
    obtain ⟨h1, h2⟩ : h.n a = none ∧ g' a = none := by simpa [LHeap.with] using ha
    rw [← with_setN h _ h2]
    exact ih a _ _ _ _ _ (hp a v h1) hP' (keep hd' h2)
  | putNode a k ih =>
    refine fun h Q i acc g hp hP hd => visit h i acc g _ _ hP hd fun b g' hP' hd' => ?_
    obtain ⟨⟨v, h1⟩, h2⟩ := hp
    have hg := hd' a _ h1
    refine ⟨⟨v, by simp [LHeap.with, h1]⟩, ?_⟩
    rw [← with_setN h _ hg]
    exact ih _ _ _ _ _ h2 hP' (keep hd' hg)
  | newNode v k ih =>
    refine fun h Q i acc g hp hP hd => visit h i acc g _ _ hP hd fun b g' hP' hd' a ha => ?_
    obtain ⟨h1, h2⟩ : h.n a = none ∧ g' a = none := by simpa [LHeap.with] using ha
    rw [← with_setN h _ h2]
    exact ih a _ _ _ _ _ (hp a h1) hP' (keep hd' h2)
  | readNode a k ih =>
    refine fun h Q i acc g hp hP hd => visit h i acc g _ _ hP hd fun b g' hP' hd' => ?_
    obtain ⟨c, v, h1, h2⟩ := hp
    exact ⟨c, v, by simp [LHeap.with, h1], ih v _ _ _ _ _ h2 hP' hd'⟩
  | writeNode a f k ih =>
    refine fun h Q i acc g hp hP hd => visit h i acc g _ _ hP hd fun b g' hP' hd' => ?_
    obtain ⟨c, v, h1, h2⟩ := hp
    have hg := hd' a _ h1
    refine ⟨c, v, by simp [LHeap.with, h1], ?_⟩
    rw [← with_setN h _ hg]
    exact ih _ _ _ _ _ h2 hP' (keep hd' hg)
  | getLat k ih =>
    exact fun h Q i acc g hp hP hd => visit h i acc g _ _ hP hd fun b g' hP' hd' a v ha hc => ih a (h.setL a (some v)) _ _ _ _ (hp a v ha hc) hP' hd'
  | putLat a k ih =>
    exact fun h Q i acc g hp hP hd => visit h i acc g _ _ hP hd fun b g' hP' hd' => ⟨hp.1, ih (h.setL a none) _ _ _ _ hp.2 hP' hd'⟩
  | readLat a k ih =>
    refine fun h Q i acc g hp hP hd => visit h i acc g _ _ hP hd fun b g' hP' hd' => ?_
    obtain ⟨v, h1, h2⟩ := hp
    exact ⟨v, h1, ih v _ _ _ _ _ h2 hP' hd'⟩
  | writeLat a f k ih =>
    refine fun h Q i acc g hp hP hd => visit h i acc g _ _ hP hd fun b g' hP' hd' => ?_
    obtain ⟨v, h1, h2⟩ := hp
    exact ⟨v, h1, ih (h.setL a (some (f v))) _ _ _ _ h2 hP' hd'⟩
  | choose k ih => exact fun h Q i acc g hp hP hd => visit h i acc g _ _ hP hd fun b g' hP' hd' n => ih n _ _ _ _ _ (hp n) hP' hd'

/-- The program changes nothing. -/
inductive ReadsOnly {α : Type} : Prog α → Prop
  | ret (a) : ReadsOnly (.ret a)
  | panic : ReadsOnly .panic
  | readNode {a k} (h : ∀ v, ReadsOnly (k v)) : ReadsOnly (.readNode a k)
  | readLat {a k} (h : ∀ v, ReadsOnly (k v)) : ReadsOnly (.readLat a k)

theorem ReadsOnly.bind {α β : Type} {p : Prog α} {f : α → Prog β} (hp : ReadsOnly p) (hf : ∀ a, ReadsOnly (f a)) : ReadsOnly (p >>= f) := by
  show ReadsOnly (p.bind f)
  induction hp with
  | ret a => exact hf a
  | panic => exact .panic
  | readNode _ ih => exact .readNode ih
  | readLat _ ih => exact .readLat ih

theorem ReadsOnly.must {α : Type} (o : Option α) : ReadsOnly (Prog.must o) := by
  cases o
  · exact .panic
  · exact .ret _

theorem ReadsOnly.lat (la : Addr) : ReadsOnly (readLatP la) := .readLat fun v => .ret v
theorem ReadsOnly.node (a : Addr) : ReadsOnly (readNodeP a) := .readNode fun v => .ret v

/-- A program that changes nothing may stop at any step. -/
theorem wp_cut {α : Type} {h : LHeap} {Q : Option α → LHeap → Prop} : ∀ (n : Nat) {p : Prog α}, ReadsOnly p → wp p h Q →
    wp (p.cut n) h (fun r h' => Q r h' ∨ r = none ∧ h' = h) := by
  intro n
  induction n with
  | zero => intro p _ _; cases p <;> exact .inr ⟨rfl, rfl⟩
  | succ n ih =>
    intro p hr hp
    cases hr with
    | ret a => exact .inl hp
    | panic => exact .inl hp
    | readNode hk => obtain ⟨b, v, h1, h2⟩ := hp; exact ⟨b, v, h1, ih (hk v) h2⟩
    | readLat hk => obtain ⟨v, h1, h2⟩ := hp; exact ⟨v, h1, ih (hk v) h2⟩

/-! Rules for a step followed by the rest. -/

section
variable {β : Type} {h : LHeap} {Q : Option β → LHeap → Prop}

theorem wp_readLat {la : Addr} {v : LatObj} {f : LatObj → Prog β} (hl : h.l la = some v) (hk : wp (f v) h Q) :
    wp (readLatP la >>= f) h Q := wp_bind ⟨v, hl, hk⟩

theorem wp_writeLat {la : Addr} {v : LatObj} {g : LatObj → LatObj} {f : Unit → Prog β} (hl : h.l la = some v)
    (hk : wp (f ()) (h.setL la (some (g v))) Q) : wp (writeLatP la g >>= f) h Q := wp_bind ⟨v, hl, hk⟩

theorem wp_readNode {a : Addr} {b : Bool} {v : PNode} {f : PNode → Prog β} (hn : h.n a = some (b, v)) (hk : wp (f v) h Q) :
    wp (readNodeP a >>= f) h Q := wp_bind ⟨b, v, hn, hk⟩

theorem wp_writeNode {a : Addr} {b : Bool} {v : PNode} {g : PNode → PNode} {f : Unit → Prog β} (hn : h.n a = some (b, v))
    (hk : wp (f ()) (h.setN a (some (b, g v))) Q) : wp (writeNodeP a g >>= f) h Q := wp_bind ⟨b, v, hn, hk⟩

theorem LHeap.setN_setN (h : LHeap) (a : Addr) (v w : Option (Bool × PNode)) : (h.setN a v).setN a w = h.setN a w := by
  simp only [LHeap.setN]
  congr 1
  funext z; simp only [upd]; split <;> rfl

theorem LHeap.setL_setL (h : LHeap) (a : Addr) (v w : Option LatObj) : (h.setL a v).setL a w = h.setL a w := by
  simp only [LHeap.setL]
  congr 1
  funext z; simp only [upd]; split <;> rfl

/-- Writing again to a node just written. -/
theorem wp_rewriteNode {a : Addr} {b : Bool} {v : PNode} {g : PNode → PNode} {f : Unit → Prog β}
    (hk : wp (f ()) (h.setN a (some (b, g v))) Q) : wp (writeNodeP a g >>= f) (h.setN a (some (b, v))) Q := by
  refine wp_writeNode (b := b) (v := v) (by simp [LHeap.setN]) ?_
  rw [LHeap.setN_setN]; exact hk

theorem wp_rewriteLat {a : Addr} {v : LatObj} {g : LatObj → LatObj} {f : Unit → Prog β}
    (hk : wp (f ()) (h.setL a (some (g v))) Q) : wp (writeLatP a g >>= f) (h.setL a (some v)) Q := by
  refine wp_writeLat (v := v) (by simp [LHeap.setL]) ?_
  rw [LHeap.setL_setL]; exact hk

theorem wp_must_some {α : Type} {o : Option α} {a : α} {f : α → Prog β} (ho : o = some a) (hk : wp (f a) h Q) :
    wp (Prog.must o >>= f) h Q := by subst ho; exact hk

theorem wp_must_none {α : Type} {o : Option α} {f : α → Prog β} (ho : o = none) (hk : Q none h) :
    wp (Prog.must o >>= f) h Q := by subst ho; exact hk

theorem wp_choose {f : Nat → Prog β} (hk : ∀ n, wp (f n) h Q) : wp (chooseP >>= f) h Q := wp_bind (fun n => hk n)

theorem wp_getNode {f : Addr → Prog β} (hk : ∀ a v, h.n a = none → wp (f a) (h.setN a (some (true, v))) Q) :
    wp (getNodeP >>= f) h Q := wp_bind (fun a v ha => hk a v ha)

theorem wp_newNode {v : PNode} {f : Addr → Prog β} (hk : ∀ a, h.n a = none → wp (f a) (h.setN a (some (false, v))) Q) :
    wp (newNodeP v >>= f) h Q := wp_bind (fun a ha => hk a ha)

theorem wp_putNode {a : Addr} {v : PNode} {f : Unit → Prog β} (hn : h.n a = some (true, v)) (hk : wp (f ()) (h.setN a none) Q) :
    wp (putNodeP a >>= f) h Q := wp_bind ⟨⟨v, hn⟩, hk⟩

theorem wp_getLat {f : Addr → Prog β} (hk : ∀ a v, h.l a = none → Clean v → wp (f a) (h.setL a (some v)) Q) :
    wp (getLatP >>= f) h Q := wp_bind (fun a v ha hc => hk a v ha hc)

end

end Kagome
