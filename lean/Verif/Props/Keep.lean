import Verif.Props.Pool
import Verif.Spec.Keep

/-!
Property C84: what the library keeps in memory between calls.

The full claim, that it keeps nothing of a call that has returned (`¬ KeepsText`, `¬ KeepsUserDict`, `¬ KeepsDict` when no goroutine is in a call), is false: `Free`
empties the lattice but not its nodes, and leaves the system dictionary. What is proved: nothing is kept but by nodes in the pool, and no user dictionary.
-/

namespace Kagome

open Spec

variable {ρ : Type} {ideo : Nat → Bool} {s : Sys ρ}

/-- C84: no node can be reached from the lattices in the pool, in any state of any schedule. -/
theorem C84_no_nodes (hr : Reachable ideo s) (a : Addr) : ¬ FromLattices s.mem a := by
  obtain ⟨H, hI⟩ := hr.inv
  intro h
  induction h with
  | prev _ _ ih => exact ih
  | held hla hp =>
    have hc := hI.lclean _ hla
    rcases hp with hp | ⟨col, hcol, hp⟩
    · cases hc.noOut _ hp
    · cases hc.noCols _ hcol _ hp

/-- C84: no user dictionary is kept. -/
theorem C84_user_dict (hr : Reachable ideo s) : ¬ KeepsUserDict s.mem := by
  obtain ⟨H, hI⟩ := hr.inv
  rintro ⟨la, hla, h⟩
  exact h (hI.lclean la hla).user

/-- C84 (partial): a text is kept only as the surface of a node that can be reached from the nodes in the pool. Missing: that nothing is kept
(`C84_text_kept`). -/
theorem C84_only_nodes_partial (hr : Reachable ideo s) {b : Bytes} (h : KeepsText s.mem b) :
    ∃ a, FromNodes s.mem a ∧ (s.mem.nodes a).surface = b := by
  obtain ⟨H, hI⟩ := hr.inv
  obtain ⟨hne, ⟨la, hla, hb⟩ | ⟨a, ha | ha, hb⟩⟩ := h
  · exact absurd ((hI.lclean la hla).text.symm.trans hb).symm hne
  · exact absurd ha (C84_no_nodes hr a)
  · exact ⟨a, ha, hb⟩

/-- C84 (partial): when the pool of nodes is empty, as after the garbage collector has run, no text is kept. -/
theorem C84_collected_partial (hr : Reachable ideo s) (he : s.mem.nodePool = []) (b : Bytes) : ¬ KeepsText s.mem b := by
  intro h
  obtain ⟨a, ha, hb⟩ := C84_only_nodes_partial hr h
  clear h hb
  induction ha with
  | pooled h => rw [he] at h; cases h
  | prev _ _ ih => exact ih

/-- C84: the garbage collector can always bring that about. -/
theorem collect_nodes (hr : Reachable ideo s) : Reachable ideo ⟨{ s.mem with nodePool := [] }, s.threads⟩ := by
  suffices h : ∀ (l : List Addr) (s : Sys ρ), s.mem.nodePool = l → Reachable ideo s → Reachable ideo ⟨{ s.mem with nodePool := [] }, s.threads⟩ from h _ s rfl hr
  intro l
  induction l with
  | nil =>
    intro s hl hr
    obtain ⟨⟨n, la, un, ul, np, lp⟩, th⟩ := s
    obtain rfl : np = [] := hl
    exact hr
  | cons a l ih =>
    intro s hl hr
    exact ih ⟨{ s.mem with nodePool := s.mem.nodePool.erase a }, s.threads⟩ (by simp [hl]) (.step hr (.dropNode a))

namespace Toy

/-- Both goroutines of `two` have ended. -/
def ended : Sys (List Reply) := two.follow (List.replicate 400 [0, 1]).flatten

theorem ended_reachable : Reachable Toy.ideo ended := follow_reachable _ _ two_reachable

/-- C84 fails: when all goroutines have ended the library still keeps the texts of both, and the dictionaries. -/
theorem C84_text_kept : (∀ th ∈ ended.threads, th.nodes = [] ∧ th.lats = [] ∧ th.surfaces ≠ none) ∧
    KeepsText ended.mem (str "も") ∧ KeepsText ended.mem (str "京") ∧ KeepsDict ended.mem := by
  refine ⟨?_, ?_, ?_, ?_⟩
  · have h : ended.threads.all (fun th => th.nodes.isEmpty && th.lats.isEmpty && th.surfaces.isSome) = true := by decide +kernel
    intro th hth
    have := List.all_eq_true.mp h th hth
    simp only [Bool.and_eq_true, List.isEmpty_iff] at this
    exact ⟨this.1.1, this.1.2, fun hn => by rw [hn] at this; cases this.2⟩
  · have h : ended.mem.nodePool.any (fun a => (ended.mem.nodes a).surface == str "も") = true := by decide +kernel
    obtain ⟨a, ha, hb⟩ := List.any_eq_true.mp h
    exact ⟨by decide, .inr ⟨a, .inr (.pooled ha), by simpa using hb⟩⟩
  · have h : ended.mem.nodePool.any (fun a => (ended.mem.nodes a).surface == str "京") = true := by decide +kernel
    obtain ⟨a, ha, hb⟩ := List.any_eq_true.mp h
    exact ⟨by decide, .inr ⟨a, .inr (.pooled ha), by simpa using hb⟩⟩
  · have h : ended.mem.latPool.any (fun a => (ended.mem.lats a).dic.isSome) = true := by decide +kernel
    obtain ⟨a, ha, hb⟩ := List.any_eq_true.mp h
    exact ⟨a, ha, fun hn => by rw [hn] at hb; cases hb⟩

/-- Lattices do get into the pool, and their arrays have room for pointers. The second goroutine of `two` uses a user dictionary. -/
example : Reachable Toy.ideo ended ∧ ended.mem.latPool.length = 2 ∧
    ended.mem.latPool.all (fun a => decide (((ended.mem.lats a).list.arr.map (fun c => c.arr.length)).sum = 3 ∧ (ended.mem.lats a).output.arr.length = 3)) = true ∧
    tokUser.userDict.isSome = true :=
  ⟨ended_reachable, by decide +kernel, by decide +kernel, rfl⟩

end Toy

end Kagome
