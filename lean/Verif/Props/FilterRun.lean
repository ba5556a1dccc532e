import Verif.Spec.FilterRun
import Verif.Props.Filter

/-!
# C90: filters used in several goroutines
-/

namespace Kagome

open Spec

theorem tokensAt_length (m : Cells) (a n : Nat) : (tokensAt m a n).length = n := by simp [tokensAt]

theorem tokensAt_congr {m m' : Cells} {a n : Nat} (h : ∀ j, j < n → m (a + j) = m' (a + j)) : tokensAt m a n = tokensAt m' a n := by
  refine List.map_congr_left fun j hj => h j (List.mem_range.mp hj)

theorem tokensAt_get {m : Cells} {a n j : Nat} (h : j < n) : (tokensAt m a n)[j]? = some (m (a + j)) := by
  simp [tokensAt, h]

theorem tokensAt_set (m : Cells) (a n j : Nat) (v : Token) :
    tokensAt (fun x => if x = a + j then v else m x) a n = (tokensAt m a n).set j v := by
  refine List.ext_getElem? fun k => ?_
  rw [List.getElem?_set]
  by_cases hk : k < n
  · rw [tokensAt_get hk]
    by_cases e : j = k
    · subst e
      simp [tokensAt_length, hk]
    · rw [if_neg e, tokensAt_get hk, if_neg (by omega)]
  · rw [List.getElem?_eq_none (by rw [tokensAt_length]; omega)]
    split
    · rw [if_neg (by rw [tokensAt_length]; omega)]
    · rw [List.getElem?_eq_none (by rw [tokensAt_length]; omega)]

section

variable {σ : Type}

/-- What a goroutine that nobody disturbs still does. -/
def resume (arr : List Token) : FilterAt σ → Option (List Token × Nat × σ)
  | .read [] len _ _ s => some (arr, len, s)
  | .read (.filter hit drop :: us) len i tail s =>
    (applyLoop hit drop (len - i) i tail s arr).bind (fun r => oneByOne us r.2.2 r.1 r.2.1)
  | .read (.look visit :: us) len i _ s => (((arr.take len).drop i).foldlM visit s).bind (fun s => oneByOne us s arr len)
  | .write hit drop us len i tail v s =>
    (applyLoop hit drop (len - (i + 1)) (i + 1) (tail + 1) s (arr.set tail v)).bind (fun r => oneByOne us r.2.2 r.1 r.2.1)
  | .done n s => some (arr, n, s)
  | .panicked => none

/-- The places are in the slice, of length `L` at the beginning. -/
def Within (L : Nat) : FilterAt σ → Prop
  | .read _ len i tail _ => len ≤ L ∧ i ≤ len ∧ tail ≤ i
  | .write _ _ _ len i tail _ _ => len ≤ L ∧ i < len ∧ tail < i
  | .done n _ => n ≤ L
  | .panicked => True

theorem oneByOne_filter (hit : σ → Token → Option (Bool × σ)) (drop : Bool) (us : List (FilterUse σ)) (s : σ) (arr : List Token) (n : Nat) :
    oneByOne (.filter hit drop :: us) s arr n = (applyLoop hit drop n 0 0 s arr).bind (fun r => oneByOne us r.2.2 r.1 r.2.1) := by
  simp only [oneByOne, applyFilter]
  cases applyLoop hit drop n 0 0 s arr with
  | none => rfl
  | some r => rfl

theorem oneByOne_look (visit : σ → Token → Option σ) (us : List (FilterUse σ)) (s : σ) (arr : List Token) (n : Nat) :
    oneByOne (.look visit :: us) s arr n = ((arr.take n).foldlM visit s).bind (fun s => oneByOne us s arr n) := by
  simp only [oneByOne]
  cases (arr.take n).foldlM visit s with
  | none => rfl
  | some r => rfl

theorem resume_read (arr : List Token) (us : List (FilterUse σ)) (len : Nat) (s : σ) :
    resume arr (.read us len 0 0 s) = oneByOne us s arr len := by
  match us with
  | [] => rfl
  | .filter hit drop :: us => rw [oneByOne_filter]; rfl
  | .look visit :: us => rw [oneByOne_look]; rfl

theorem move_within {L base : Nat} {m : Cells} {p : FilterAt σ} (h : Within L p) : Within L (filterMove base m p).1 := by
  match p with
  | .read [] len i tail s => exact h.1
  | .read (.filter hit drop :: us) len i tail s =>
    obtain ⟨h1, h2, h3⟩ := h
    unfold filterMove
    dsimp only
    split
    · split
      · trivial
      · split
        · exact ⟨h1, by omega, by omega⟩
        · split
          · exact ⟨h1, by omega, by omega⟩
          · exact ⟨h1, by omega, by omega⟩
    · exact ⟨by omega, by omega, by omega⟩
  | .read (.look visit :: us) len i tail s =>
    obtain ⟨h1, h2, h3⟩ := h
    unfold filterMove
    dsimp only
    split
    · split
      · trivial
      · exact ⟨h1, by omega, by omega⟩
    · exact ⟨by omega, by omega, by omega⟩
  | .write hit drop us len i tail v s =>
    obtain ⟨h1, h2, h3⟩ := h
    exact ⟨h1, by omega, by omega⟩
  | .done n s => exact h
  | .panicked => trivial

theorem move_resume {L base : Nat} {m : Cells} {p : FilterAt σ} (h : Within L p) :
    resume (tokensAt (filterMove base m p).2 base L) (filterMove base m p).1 = resume (tokensAt m base L) p := by
  match p with
  | .read [] len i tail s => rfl
  | .read (.filter hit drop :: us) len i tail s =>
    obtain ⟨h1, h2, h3⟩ := h
    unfold filterMove
    dsimp only
    by_cases hi : i < len
    · rw [if_pos hi]
      have hl : len - i = (len - (i + 1)) + 1 := by omega
      conv => rhs; unfold resume; dsimp only; rw [hl]; unfold applyLoop
      rw [tokensAt_get (show i < L by omega)]
      dsimp only
      cases hh : hit s (m (base + i)) with
      | none => rfl
      | some r =>
        obtain ⟨b, s'⟩ := r
        dsimp only
        by_cases hb : b = drop
        · rw [if_pos hb, if_pos hb]; rfl
        · rw [if_neg hb, if_neg hb]
          by_cases ht : i ≠ tail
          · rw [if_pos ht, if_pos ht]; rfl
          · rw [if_neg ht, if_neg ht]; rfl
    · rw [if_neg hi]
      have hl : len - i = 0 := by omega
      dsimp only
      rw [resume_read]
      conv => rhs; unfold resume; dsimp only; rw [hl]; unfold applyLoop
      rfl
  | .read (.look visit :: us) len i tail s =>
    obtain ⟨h1, h2, h3⟩ := h
    unfold filterMove
    dsimp only
    by_cases hi : i < len
    · rw [if_pos hi]
      have hl : i < ((tokensAt m base L).take len).length := by rw [List.length_take, tokensAt_length]; omega
      have hg : ((tokensAt m base L).take len)[i] = m (base + i) := by
        have h' := tokensAt_get (m := m) (a := base) (show i < L by omega)
        have h'' := List.getElem?_eq_getElem hl
        rw [List.getElem?_take, if_pos hi, h'] at h''
        exact (Option.some.inj h'').symm
      conv => rhs; unfold resume; dsimp only; rw [List.drop_eq_getElem_cons hl, hg, List.foldlM_cons]
      cases hh : visit s (m (base + i)) with
      | none => rfl
      | some s' => rfl
    · rw [if_neg hi]
      dsimp only
      rw [resume_read]
      conv => rhs; unfold resume; dsimp only; rw [List.drop_eq_nil_of_le (by rw [List.length_take]; omega)]
      rfl
  | .write hit drop us len i tail v s =>
    unfold filterMove
    dsimp only
    rw [tokensAt_set]
    rfl
  | .done n s => rfl
  | .panicked => rfl

/-- A step writes only to cells of the slice. -/
theorem move_writes {L base : Nat} {m : Cells} {p : FilterAt σ} (h : Within L p) (a : Nat) (ha : a < base ∨ base + L ≤ a) :
    (filterMove base m p).2 a = m a := by
  match p with
  | .read [] len i tail s => rfl
  | .read (.filter hit drop :: us) len i tail s =>
    unfold filterMove
    dsimp only
    split
    · split
      · rfl
      · split
        · rfl
        · split <;> rfl
    · rfl
  | .read (.look visit :: us) len i tail s =>
    unfold filterMove
    dsimp only
    split
    · split <;> rfl
    · rfl
  | .write hit drop us len i tail v s =>
    obtain ⟨h1, h2, h3⟩ := h
    simp only [filterMove]
    rw [if_neg (by omega)]
  | .done n s => rfl
  | .panicked => rfl

/-- Where a goroutine that changes no token can be. -/
def Looking : FilterAt σ → Prop
  | .read us _ _ _ _ => OnlyLooks us
  | .write .. => False
  | .done .. => True
  | .panicked => True

theorem move_looks {base : Nat} {m : Cells} {p : FilterAt σ} (h : Looking p) :
    Looking (filterMove base m p).1 ∧ (filterMove base m p).2 = m := by
  match p with
  | .read [] len i tail s => exact ⟨trivial, rfl⟩
  | .read (.filter hit drop :: us) len i tail s =>
    obtain ⟨v, hv⟩ := h _ (List.mem_cons_self)
    cases hv
  | .read (.look visit :: us) len i tail s =>
    unfold filterMove
    dsimp only
    split
    · split
      · exact ⟨trivial, rfl⟩
      · exact ⟨h, rfl⟩
    · exact ⟨fun u hu => h u (List.mem_cons_of_mem _ hu), rfl⟩
  | .done n s => exact ⟨trivial, rfl⟩
  | .panicked => exact ⟨trivial, rfl⟩

/-- What holds at any time. -/
structure AllSound (js : List (FilterJob σ)) (m0 : Cells) (s : FilterState σ) : Prop where
  within : ∀ (k : Nat) (c : FilterJob σ), js[k]? = some c → Within c.len (s.at_ k)
  each : ∀ (k : Nat) (c : FilterJob σ), js[k]? = some c →
    resume (tokensAt s.cells c.base c.len) (s.at_ k) = oneByOne c.uses c.init (tokensAt m0 c.base c.len) c.len
  looking : ∀ (k : Nat) (c : FilterJob σ), js[k]? = some c → OnlyLooks c.uses → Looking (s.at_ k)
  outside : ∀ a, (∀ c ∈ js, a < c.base ∨ c.base + c.len ≤ a) → s.cells a = m0 a

theorem filterStep_sound {js : List (FilterJob σ)} (hsep : Separate js) {m0 : Cells} {s : FilterState σ} (h : AllSound js m0 s) (k : Nat) :
    AllSound js m0 (filterStep js s k) := by
  unfold filterStep
  cases hk : js[k]? with
  | none => exact h
  | some c =>
    have hc := h.within k c hk
    refine ⟨fun l d hl => ?_, fun l d hl => ?_, fun l d hl ho => ?_, fun a ha => ?_⟩
    · by_cases e : l = k
      · subst e
        rw [hk] at hl
        cases hl
        simp only [if_true]
        exact move_within hc
      · simp only [e, if_false]
        exact h.within l d hl
    · by_cases e : l = k
      · subst e
        rw [hk] at hl
        cases hl
        simp only [if_true]
        exact (move_resume hc).trans (h.each l c hk)
      · simp only [e, if_false]
        rw [← h.each l d hl]
        congr 1
        refine tokensAt_congr fun j hj => ?_
        rcases hsep k l c d hk hl (Ne.symm e) with (g | g) | g
        · exact move_writes hc _ (.inr (by omega))
        · exact move_writes hc _ (.inl (by omega))
        · rw [(move_looks (h.looking k c hk g.1)).2]
    · by_cases e : l = k
      · subst e
        rw [hk] at hl
        cases hl
        simp only [if_true]
        exact (move_looks (h.looking l c hk ho)).1
      · simp only [e, if_false]
        exact h.looking l d hl ho
    · exact (move_writes hc a (ha c (List.mem_of_getElem? hk))).trans (h.outside a ha)

theorem filterRun_sound {js : List (FilterJob σ)} (hsep : Separate js) {m0 : Cells} (sched : List Nat) :
    ∀ {s : FilterState σ}, AllSound js m0 s → AllSound js m0 (filterRun js s sched) := by
  induction sched with
  | nil => exact id
  | cons k sched ih => exact fun h => ih (filterStep_sound hsep h k)

theorem filterStart_sound (js : List (FilterJob σ)) (m0 : Cells) : AllSound js m0 (filterStart js m0) := by
  refine ⟨fun k c hk => ?_, fun k c hk => ?_, fun k c hk ho => ?_, fun _ _ => rfl⟩
  · simp only [filterStart, hk]
    exact ⟨Nat.le_refl _, Nat.zero_le _, Nat.le_refl _⟩
  · simp only [filterStart, hk]
    exact resume_read _ _ _ _
  · simp only [filterStart, hk]
    exact ho

/-- C90: goroutines that call `Drop` and `Keep` at the same time on slices without a common cell. In whatever order they run, a
goroutine that is done has made of its slice what it makes of it alone: the same tokens in the same cells, the same length, the same
state of its match functions. One that panics panics alone. The cells outside the slices are as they were. -/
theorem C90_alone (js : List (FilterJob σ)) (hsep : Separate js) (m0 : Cells) (sched : List Nat) :
    (∀ (k : Nat) (c : FilterJob σ), js[k]? = some c →
      (∀ n s, (filterRun js (filterStart js m0) sched).at_ k = .done n s → n ≤ c.len ∧
        oneByOne c.uses c.init (tokensAt m0 c.base c.len) c.len =
          some (tokensAt (filterRun js (filterStart js m0) sched).cells c.base c.len, n, s)) ∧
      ((filterRun js (filterStart js m0) sched).at_ k = .panicked →
        oneByOne c.uses c.init (tokensAt m0 c.base c.len) c.len = none)) ∧
    ∀ a, (∀ c ∈ js, a < c.base ∨ c.base + c.len ≤ a) → (filterRun js (filterStart js m0) sched).cells a = m0 a := by
  have h := filterRun_sound hsep sched (filterStart_sound js m0)
  refine ⟨fun k c hk => ⟨fun n s hn => ?_, fun hn => ?_⟩, h.outside⟩
  · have h1 := h.within k c hk
    have h2 := h.each k c hk
    rw [hn] at h1 h2
    exact ⟨h1, h2.symm⟩
  · have h2 := h.each k c hk
    rw [hn] at h2
    exact h2.symm

/-- C90: if two goroutines are about to access the same cell, both only read it: there is no data race. -/
theorem C90_no_race (js : List (FilterJob σ)) (hsep : Separate js) (m0 : Cells) (sched : List Nat) (k l : Nat) (c d : FilterJob σ)
    (hk : js[k]? = some c) (hl : js[l]? = some d) (hkl : k ≠ l) (x y : Nat × Bool)
    (hx : filterAccess c.base ((filterRun js (filterStart js m0) sched).at_ k) = some x)
    (hy : filterAccess d.base ((filterRun js (filterStart js m0) sched).at_ l) = some y) :
    x.1 = y.1 → x.2 = false ∧ y.2 = false := by
  have h := filterRun_sound hsep sched (filterStart_sound js m0)
  have key : ∀ (L base : Nat) (p : FilterAt σ) (x : Nat × Bool), Within L p → filterAccess base p = some x →
      base ≤ x.1 ∧ x.1 < base + L := by
    intro L base p x hs hx
    match p with
    | .read [] len i tail s => cases hx
    | .read (_ :: us) len i tail s =>
      obtain ⟨h1, h2, h3⟩ := hs
      unfold filterAccess at hx
      dsimp only at hx
      split at hx
      · cases hx; exact ⟨by dsimp only; omega, by dsimp only; omega⟩
      · cases hx
    | .write hit drop us len i tail v s =>
      obtain ⟨h1, h2, h3⟩ := hs
      cases hx
      exact ⟨by dsimp only; omega, by dsimp only; omega⟩
    | .done n s => cases hx
    | .panicked => cases hx
  have h1 := key _ _ _ x (h.within k c hk) hx
  have h2 := key _ _ _ y (h.within l d hl) hy
  have look : ∀ (base : Nat) (p : FilterAt σ) (x : Nat × Bool), Looking p → filterAccess base p = some x → x.2 = false := by
    intro base p x hs hx
    match p with
    | .read [] len i tail s => cases hx
    | .read (_ :: us) len i tail s =>
      unfold filterAccess at hx
      dsimp only at hx
      split at hx
      · cases hx; rfl
      · cases hx
    | .done n s => cases hx
    | .panicked => cases hx
  intro he
  rcases hsep k l c d hk hl hkl with (g | g) | g
  · omega
  · omega
  · exact ⟨look _ _ x (h.looking k c hk g.1) hx, look _ _ y (h.looking l d hl g.2) hy⟩

/-- How many steps a goroutine needs at most. -/
def stepsLeft : FilterAt σ → Nat
  | .read [] _ _ _ _ => 1
  | .read (_ :: us) len i _ _ => 2 * (len - i) + 1 + us.length * (2 * len + 1) + 1
  | .write _ _ us len i _ _ _ => 2 * (len - i) + us.length * (2 * len + 1) + 1
  | .done _ _ => 0
  | .panicked => 0

theorem stepsLeft_read (us : List (FilterUse σ)) (len : Nat) (s : σ) : stepsLeft (.read us len 0 0 s) = us.length * (2 * len + 1) + 1 := by
  cases us with
  | nil => simp [stepsLeft]
  | cons u us => simp only [stepsLeft, List.length_cons, Nat.succ_mul]; omega

theorem move_left {L base : Nat} {m : Cells} {p : FilterAt σ} (h : Within L p) : stepsLeft (filterMove base m p).1 ≤ stepsLeft p - 1 := by
  match p with
  | .read [] len i tail s => exact Nat.le_refl _
  | .read (.filter hit drop :: us) len i tail s =>
    obtain ⟨h1, h2, h3⟩ := h
    unfold filterMove
    dsimp only
    split
    · split
      · exact Nat.zero_le _
      · split
        · simp only [stepsLeft]; omega
        · split <;> simp only [stepsLeft] <;> omega
    · rw [stepsLeft_read]
      have : us.length * (2 * tail + 1) ≤ us.length * (2 * len + 1) := Nat.mul_le_mul_left _ (by omega)
      simp only [stepsLeft]; omega
  | .read (.look visit :: us) len i tail s =>
    obtain ⟨h1, h2, h3⟩ := h
    unfold filterMove
    dsimp only
    split
    · split
      · exact Nat.zero_le _
      · simp only [stepsLeft]; omega
    · rw [stepsLeft_read]
      simp only [stepsLeft]; omega
  | .write hit drop us len i tail v s =>
    obtain ⟨h1, h2, h3⟩ := h
    simp only [filterMove, stepsLeft]; omega
  | .done n s => exact Nat.zero_le _
  | .panicked => exact Nat.zero_le _

/-- C90: every goroutine ends, whatever the others do: for each call it needs at most two steps for each token of its slice and one more. -/
theorem C90_finishes (js : List (FilterJob σ)) (hsep : Separate js) (m0 : Cells) (sched : List Nat) (k : Nat) (c : FilterJob σ)
    (hk : js[k]? = some c) (hn : c.uses.length * (2 * c.len + 1) + 1 ≤ sched.count k) :
    (∃ n s, (filterRun js (filterStart js m0) sched).at_ k = .done n s) ∨ (filterRun js (filterStart js m0) sched).at_ k = .panicked := by
  suffices H : ∀ (sched : List Nat) (s : FilterState σ), AllSound js m0 s → stepsLeft (s.at_ k) ≤ sched.count k →
      stepsLeft ((filterRun js s sched).at_ k) = 0 by
    have h0 := H sched (filterStart js m0) (filterStart_sound js m0) (by
      simp only [filterStart, hk]
      rw [stepsLeft_read]
      exact hn)
    generalize (filterRun js (filterStart js m0) sched).at_ k = p at h0 ⊢
    match p with
    | .read [] _ _ _ _ => simp [stepsLeft] at h0
    | .read (_ :: _) _ _ _ _ => simp [stepsLeft] at h0
    | .write _ _ _ _ _ _ _ _ => simp [stepsLeft] at h0
    | .done n s => exact .inl ⟨n, s, rfl⟩
    | .panicked => exact .inr rfl
  intro sched
  induction sched with
  | nil => intro s hs h; exact Nat.le_zero.mp h
  | cons l sched ih =>
    intro s hs h
    refine ih _ (filterStep_sound hsep hs l) ?_
    unfold filterStep
    by_cases e : l = k
    · subst e
      rw [hk]
      simp only [if_true]
      have := move_left (base := c.base) (m := s.cells) (hs.within l c hk)
      rw [List.count_cons_self] at h
      omega
    · rw [List.count_cons_of_ne (by simpa using e)] at h
      cases js[l]? with
      | none => exact h
      | some d =>
        simp only [Ne.symm e, if_false]
        exact h

end

/-- Filters without a state leave the tokens that all of them let through. -/
theorem oneByOne_plain (us : List ((Token → Bool) × Bool)) : ∀ (arr : List Token) (len : Nat), len ≤ arr.length →
    ∃ arr' n, oneByOne (us.map (fun u => plainUse u.1 u.2)) () arr len = some (arr', n, ()) ∧ n ≤ len ∧ arr'.length = arr.length ∧
      arr'.take n = (arr.take len).filter (staysIn us) := by
  induction us with
  | nil =>
    intro arr len hl
    refine ⟨arr, len, rfl, Nat.le_refl _, rfl, ?_⟩
    exact (List.filter_eq_self.mpr (fun _ _ => rfl)).symm
  | cons u us ih =>
    intro arr len hl
    have key : ∃ a n, applyFilter (pureMatch u.1) u.2 () (some (arr, len)) = some (some (a, n), ()) ∧ Left u.1 (!u.2) arr len a n := by
      obtain ⟨x, y⟩ := C29_pure u.1 hl
      cases u.2 with
      | true => exact x
      | false => exact y
    obtain ⟨a, n, e, l1, l2, l3, l4, l5⟩ := key
    obtain ⟨arr', n', e', k1, k2, k3⟩ := ih a n (by omega)
    refine ⟨arr', n', ?_, by omega, by omega, ?_⟩
    · rw [List.map_cons]
      unfold plainUse oneByOne
      rw [show applyFilter (fun _ t => some (u.1 t, ())) u.2 () (some (arr, len)) = some (some (a, n), ()) from e]
      exact e'
    · rw [k3, l1, List.filter_filter]
      refine List.filter_congr fun t _ => ?_
      simp only [staysIn, List.all_cons]
      rw [Bool.and_comm]
      congr 1
      cases u.1 t <;> cases u.2 <;> rfl

/-- C90 in terms of the tokens: with match functions that have no state, what is left in the slice are the tokens of it that every `Keep`
matches and no `Drop`, in order. -/
theorem C90_results (js : List (FilterJob Unit)) (hsep : Separate js) (m0 : Cells) (sched : List Nat) (k : Nat) (c : FilterJob Unit)
    (hk : js[k]? = some c) (us : List ((Token → Bool) × Bool)) (hu : c.uses = us.map (fun u => plainUse u.1 u.2))
    (hn : c.uses.length * (2 * c.len + 1) + 1 ≤ sched.count k) :
    ∃ n, (filterRun js (filterStart js m0) sched).at_ k = .done n () ∧ n ≤ c.len ∧
      tokensAt (filterRun js (filterStart js m0) sched).cells c.base n = (tokensAt m0 c.base c.len).filter (staysIn us) := by
  obtain ⟨arr', n', e, h1, h2, h3⟩ := oneByOne_plain us (tokensAt m0 c.base c.len) c.len (by rw [tokensAt_length]; exact Nat.le_refl _)
  have ha := (C90_alone js hsep m0 sched).1 k c hk
  rw [hu, e] at ha
  rcases C90_finishes js hsep m0 sched k c hk hn with ⟨n, s, hd⟩ | hp
  · obtain ⟨g1, g2⟩ := ha.1 n s hd
    cases g2
    refine ⟨n', hd, g1, ?_⟩
    rw [List.take_of_length_le (l := tokensAt m0 c.base c.len) (by rw [tokensAt_length]; exact Nat.le_refl _)] at h3
    rw [← h3]
    simp only [tokensAt, ← List.map_take, List.take_range, Nat.min_eq_left g1]
  · exact absurd (ha.2 hp) (by simp)

section

variable {σ : Type}

theorem posLoop_use (f : FNode) (drop : Bool) (n : Nat) (s : σ) : ∀ (i tail : Nat) (arr : List Token),
    applyLoop (fun s t => (tokenPOS t).map (fun p => (posMatch f p, s))) drop n i tail s arr =
      (posLoop f drop n i tail arr).map (fun r => (r.1, r.2, s)) := by
  induction n with
  | zero => intro i tail arr; rfl
  | succ n ih =>
    intro i tail arr
    simp only [posLoop, applyLoop]
    cases arr[i]? with
    | none => rfl
    | some v =>
      dsimp only
      cases tokenPOS v with
      | none => rfl
      | some p =>
        simp only [Option.map_some]
        split
        · exact ih _ _ _
        · exact ih _ _ _

theorem wordLoop_use (f : WordFilter) (drop : Bool) (n : Nat) (s : σ) : ∀ (i tail : Nat) (arr : List Token),
    applyLoop (fun s t => some (wordMatch f t.surface, s)) drop n i tail s arr =
      (wordLoop f drop n i tail arr).map (fun r => (r.1, r.2, s)) := by
  induction n with
  | zero => intro i tail arr; rfl
  | succ n ih =>
    intro i tail arr
    simp only [wordLoop, applyLoop]
    cases arr[i]? with
    | none => rfl
    | some v =>
      dsimp only
      split
      · exact ih _ _ _
      · exact ih _ _ _

theorem oneByOne_word {f : WordFilter} {drop : Bool} {arr arr' : List Token} {l n : Nat} {s s' : σ}
    (h : oneByOne [wordUse f drop] s arr l = some (arr', n, s')) : wordApply f drop (some (arr, l)) = some (some (arr', n)) ∧ s' = s := by
  rw [wordUse, oneByOne_filter, wordLoop_use] at h
  unfold wordApply
  cases hx : wordLoop f drop l 0 0 arr with
  | none => rw [hx] at h; cases h
  | some r =>
    rw [hx] at h
    simp only [Option.map_some, Option.bind_some, oneByOne, Option.some.injEq, Prod.mk.injEq] at h
    exact ⟨by simp [hx, ← h.1, ← h.2.1], h.2.2.symm⟩

theorem oneByOne_pos {f : FNode} {drop : Bool} {us : List (FilterUse σ)} {arr arr' : List Token} {l n : Nat} {s s' : σ}
    (h : oneByOne (posUse f drop :: us) s arr l = some (arr', n, s')) :
    ∃ a k, posApply f drop (some (arr, l)) = some (some (a, k)) ∧ oneByOne us s a k = some (arr', n, s') := by
  rw [posUse, oneByOne_filter, posLoop_use] at h
  unfold posApply
  cases hx : posLoop f drop l 0 0 arr with
  | none => rw [hx] at h; cases h
  | some r =>
    rw [hx] at h
    exact ⟨r.1, r.2, by simp [hx], h⟩

/-- C90 for the filters of the library, which goroutines may share: a goroutine that calls `Drop` or `Keep` of a word filter, of a
part-of-speech filter or `Drop` of the Japanese filter gets what the call alone gives. -/
theorem C90_filters (js : List (FilterJob σ)) (hsep : Separate js) (m0 : Cells) (sched : List Nat) (k : Nat) (c : FilterJob σ) (n : Nat) (s : σ)
    (hk : js[k]? = some c) (hn : (filterRun js (filterStart js m0) sched).at_ k = .done n s) :
    (∀ (f : WordFilter) (drop : Bool), c.uses = [wordUse f drop] → wordApply f drop (some (tokensAt m0 c.base c.len, c.len)) =
        some (some (tokensAt (filterRun js (filterStart js m0) sched).cells c.base c.len, n))) ∧
    (∀ (f : FNode) (drop : Bool), c.uses = [posUse f drop] → posApply f drop (some (tokensAt m0 c.base c.len, c.len)) =
        some (some (tokensAt (filterRun js (filterStart js m0) sched).cells c.base c.len, n))) ∧
    (∀ f : JaFilter, c.uses = jaUses f → jaDrop f (some (tokensAt m0 c.base c.len, c.len)) =
        some (some (tokensAt (filterRun js (filterStart js m0) sched).cells c.base c.len, n))) := by
  have h := (((C90_alone js hsep m0 sched).1 k c hk).1 n s hn).2
  refine ⟨fun f drop hu => ?_, fun f drop hu => ?_, fun f hu => ?_⟩
  · rw [hu] at h
    exact (oneByOne_word h).1
  · rw [hu] at h
    obtain ⟨a, l, h1, h2⟩ := oneByOne_pos h
    cases h2
    exact h1
  · rw [hu, jaUses] at h
    obtain ⟨a, l, h1, h2⟩ := oneByOne_pos h
    unfold jaDrop posDrop wordDrop
    rw [h1]
    exact (oneByOne_word h2).1

end

theorem yieldWords_cons (f : JaFilter) (ret : List Bytes) (t : Token) (ts : List Token) :
    (yieldWords f (t :: ts)).map (ret ++ ·) = (yieldVisit f ret t).bind (fun ret => (yieldWords f ts).map (ret ++ ·)) := by
  unfold yieldVisit
  rw [yieldWords]
  cases tokenPOS t with
  | none => rfl
  | some p =>
    dsimp only
    by_cases h1 : posMatch f.stopTags p = true
    · rw [if_pos h1, if_pos h1]; rfl
    · by_cases h2 : wordMatch f.stopWords t.surface = true
      · rw [if_neg h1, if_pos h2, if_neg h1, if_pos h2]; rfl
      · by_cases h3 : posMatch f.baseForm p = true
        · rw [if_neg h1, if_neg h2, if_pos h3, if_neg h1, if_neg h2, if_pos h3]
          cases baseForm t with
          | none => rfl
          | some r =>
            obtain ⟨b, ok⟩ := r
            cases ok with
            | false => rfl
            | true => cases yieldWords f ts <;> simp
        · rw [if_neg h1, if_neg h2, if_neg h3, if_neg h1, if_neg h2, if_neg h3]
          cases yieldWords f ts <;> simp

theorem yield_visits (f : JaFilter) : ∀ (ts : List Token) (ret : List Bytes),
    ts.foldlM (yieldVisit f) ret = (yieldWords f ts).map (ret ++ ·) := by
  intro ts
  induction ts with
  | nil => intro ret; simp [yieldWords]
  | cons t ts ih =>
    intro ret
    rw [List.foldlM_cons, yieldWords_cons]
    cases yieldVisit f ret t with
    | none => rfl
    | some ret' => exact ih ret'

/-- C90 for `Yield` of the Japanese filter: goroutines may call it at the same time with the same tokens. Each gets the words that the call
alone gives, and the tokens are as they were. -/
theorem C90_yield (js : List (FilterJob (List Bytes))) (hsep : Separate js) (m0 : Cells) (sched : List Nat) (k : Nat)
    (c : FilterJob (List Bytes)) (f : JaFilter) (hk : js[k]? = some c) (hu : c.uses = [yieldUse f]) (hi : c.init = []) :
    (∀ n words, (filterRun js (filterStart js m0) sched).at_ k = .done n words →
      yieldWords f (tokensAt m0 c.base c.len) = some words ∧ n = c.len ∧
      tokensAt (filterRun js (filterStart js m0) sched).cells c.base c.len = tokensAt m0 c.base c.len) ∧
    ((filterRun js (filterStart js m0) sched).at_ k = .panicked → yieldWords f (tokensAt m0 c.base c.len) = none) := by
  obtain ⟨h1, h2⟩ := (C90_alone js hsep m0 sched).1 k c hk
  have hy := yield_visits f (tokensAt m0 c.base c.len) []
  have ht : (tokensAt m0 c.base c.len).take c.len = tokensAt m0 c.base c.len :=
    List.take_of_length_le (by rw [tokensAt_length]; exact Nat.le_refl _)
  have ho : oneByOne c.uses c.init (tokensAt m0 c.base c.len) c.len =
      (yieldWords f (tokensAt m0 c.base c.len)).map (fun w => (tokensAt m0 c.base c.len, c.len, w)) := by
    rw [hu, hi, yieldUse, oneByOne_look, ht, hy]
    cases yieldWords f (tokensAt m0 c.base c.len) <;> rfl
  rw [ho] at h1 h2
  refine ⟨fun n words hn => ?_, fun hp => ?_⟩
  · have := (h1 n words hn).2
    cases hw : yieldWords f (tokensAt m0 c.base c.len) with
    | none => rw [hw] at this; cases this
    | some w =>
      rw [hw] at this
      simp only [Option.map_some, Option.some.injEq, Prod.mk.injEq] at this
      exact ⟨by rw [this.2.2], this.2.1.symm, this.1.symm⟩
  · exact Option.map_eq_none_iff.mp (h2 hp)

/-- The tokens `の`, `もも`, `も`, `うち` over and over. -/
def Toy.cells : Cells := fun a => Toy.slice.getD (a % 4) (Toy.token .known 4)

/-- Two goroutines drop `の` and `も` of slices of their own, a third keeps particles and drops `の` of them. -/
def Toy.filterJobs : List (FilterJob Unit) :=
  [⟨[wordUse (newWordFilter [str "の"]) true], (), 0, 3⟩, ⟨[wordUse (newWordFilter [str "も"]) true], (), 4, 3⟩,
   ⟨[posUse (newFeaturesFilter [[str "助詞"]]) false, wordUse (newWordFilter [str "の"]) true], (), 8, 4⟩]

def Toy.turns : List Nat := (List.replicate 20 [0, 1, 2, 2, 1, 0]).flatten

def Toy.words (s : FilterState Unit) (a n : Nat) : List Bytes := (tokensAt s.cells a n).map (·.surface)

def Toy.doneWith (s : FilterState Unit) (k n : Nat) : Bool := match s.at_ k with | .done m _ => m == n | _ => false

example : Separate Toy.filterJobs := by
  intro k l c d hk hl hkl
  have key : ∀ (k : Nat) (c : FilterJob Unit), Toy.filterJobs[k]? = some c →
      (k = 0 ∧ c.base = 0 ∧ c.len = 3) ∨ (k = 1 ∧ c.base = 4 ∧ c.len = 3) ∨ (k = 2 ∧ c.base = 8 ∧ c.len = 4) := by
    intro k c hk
    match k with
    | 0 => exact .inl ⟨rfl, by cases hk; rfl, by cases hk; rfl⟩
    | 1 => exact .inr (.inl ⟨rfl, by cases hk; rfl, by cases hk; rfl⟩)
    | 2 => exact .inr (.inr ⟨rfl, by cases hk; rfl, by cases hk; rfl⟩)
    | n + 3 => exact absurd hk (by simp [Toy.filterJobs])
  have h1 := key k c hk
  have h2 := key l d hl
  omega

example : (let s := filterRun Toy.filterJobs (filterStart Toy.filterJobs Toy.cells) Toy.turns
    (Toy.doneWith s 0 2 && Toy.doneWith s 1 2 && Toy.doneWith s 2 1) = true ∧ Toy.words s 0 4 = [str "もも", str "も", str "も", str "うち"] ∧
    Toy.words s 4 4 = [str "の", str "もも", str "も", str "うち"] ∧ Toy.words s 8 5 = [str "も", str "も", str "も", str "うち", str "の"]) ∧
    1 * (2 * 3 + 1) + 1 ≤ Toy.turns.count 0 ∧ 2 * (2 * 4 + 1) + 1 ≤ Toy.turns.count 2 := by decide +kernel

/-- The first goroutine meets the premises of `C90_results`. -/
example : ∃ c, Toy.filterJobs[0]? = some c ∧
    c.uses = [((fun t : Token => wordMatch (newWordFilter [str "の"]) t.surface), true)].map (fun u => plainUse u.1 u.2) ∧
    c.uses.length * (2 * c.len + 1) + 1 ≤ Toy.turns.count 0 := ⟨_, rfl, rfl, by decide⟩

/-- Two goroutines take the words of the same tokens, a third drops particles of others. -/
def Toy.readers : List (FilterJob (List Bytes)) :=
  let f : JaFilter := ⟨newFeaturesFilter [[str "助詞"]], newFeaturesFilter [], newWordFilter [str "うち"]⟩
  [⟨[yieldUse f], [], 0, 4⟩, ⟨[yieldUse f], [], 1, 3⟩, ⟨[posUse (newFeaturesFilter [[str "助詞"]]) true], [], 4, 4⟩]

example : Separate Toy.readers := by
  intro k l c d hk hl hkl
  have key : ∀ (k : Nat) (c : FilterJob (List Bytes)), Toy.readers[k]? = some c →
      (k ≤ 1 ∧ c.base + c.len = 4 ∧ OnlyLooks c.uses) ∨ (k = 2 ∧ c.base = 4) := by
    intro k c hk
    match k with
    | 0 => exact .inl ⟨by decide, by cases hk; rfl, by cases hk; intro u hu; exact ⟨_, List.mem_singleton.mp hu⟩⟩
    | 1 => exact .inl ⟨by decide, by cases hk; rfl, by cases hk; intro u hu; exact ⟨_, List.mem_singleton.mp hu⟩⟩
    | 2 => exact .inr ⟨rfl, by cases hk; rfl⟩
    | n + 3 => exact absurd hk (by simp [Toy.readers])
  rcases key k c hk with ⟨a1, a2, a3⟩ | ⟨a1, a2⟩ <;> rcases key l d hl with ⟨b1, b2, b3⟩ | ⟨b1, b2⟩
  · exact .inr ⟨a3, b3⟩
  · exact .inl (by omega)
  · exact .inl (by omega)
  · omega

example : let s := filterRun Toy.readers (filterStart Toy.readers Toy.cells) Toy.turns
    (match s.at_ 0, s.at_ 1, s.at_ 2 with
      | .done 4 a, .done 3 b, .done 2 _ => some (a, b)
      | _, _, _ => none) = some ([str "連体化", str "もも", str "係助詞"], [str "もも", str "係助詞"]) ∧
    (tokensAt s.cells 0 8).map (·.surface) = [str "の", str "もも", str "も", str "うち", str "もも", str "うち", str "も", str "うち"] := by
  decide +kernel

/-- C90: the slices have to be separate. Two goroutines drop words from the same slice, one `の` and the other `も`; what is left in the slice
of the second depends on who is first. -/
theorem Toy.C90_overlap : ∃ js : List (FilterJob Unit), ¬ Separate js ∧ ∃ one two : List Nat,
    (let s := filterRun js (filterStart js Toy.cells) one
     (Toy.doneWith s 0 2 && Toy.doneWith s 1 1) = true ∧ Toy.words s 0 1 = [str "もも"]) ∧
    (let s := filterRun js (filterStart js Toy.cells) two
     (Toy.doneWith s 1 2 && Toy.doneWith s 0 2) = true ∧ Toy.words s 0 2 = [str "もも", str "も"]) := by
  refine ⟨[⟨[wordUse (newWordFilter [str "の"]) true], (), 0, 3⟩, ⟨[wordUse (newWordFilter [str "も"]) true], (), 0, 3⟩], ?_,
    List.replicate 8 0 ++ List.replicate 8 1, List.replicate 8 1 ++ List.replicate 8 0, ?_, ?_⟩
  · intro h
    rcases h 0 1 _ _ rfl rfl (by decide) with g | ⟨g, _⟩
    · simp at g
    · obtain ⟨v, hv⟩ := g _ (List.mem_singleton.mpr rfl)
      cases hv
  · decide +kernel
  · decide +kernel

end Kagome
