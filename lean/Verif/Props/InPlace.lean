import Verif.Spec.InPlace
import Verif.Props.Splitter

/-!
# C39: splitting a text in its own memory
-/

namespace Kagome

open Spec

theorem part_left {x y : Bytes} {p : Nat × Nat} (h : p.2 ≤ x.length) : part (x ++ y) p = part x p := by
  unfold part
  rw [List.take_append_of_le_length h]

theorem part_right (x y : Bytes) (p : Nat × Nat) : part (x ++ y) (x.length + p.1, x.length + p.2) = part y p := by
  unfold part
  dsimp only
  rw [List.take_length_add_append, List.drop_length_add_append]

theorem splitInPlace_drain (s : Splitter) (fuel : Nat) : ∀ data : Bytes, data.length < fuel →
    ∃ arr spans left, splitInPlace s fuel data = some (arr, spans) ∧ arr.length = data.length ∧
      drain s.scanSentences true fuel data = some (spans.map (part arr), left) ∧
      (∀ p ∈ spans, p.1 ≤ p.2 ∧ p.2 ≤ data.length) ∧ spans.Pairwise (fun p q => p.2 ≤ q.1) := by
  induction fuel with
  | zero => intro data h; omega
  | succ fuel ih =>
    intro data h
    obtain ⟨res, hres, hlen, hadv, htok, hsome⟩ := C35_contract s data true
    by_cases hd : data = []
    · subst hd
      have hl : res.data = [] := List.length_eq_zero_iff.mp hlen
      have hn : res.token = none := by
        cases ht : res.token with
        | none => rfl
        | some p =>
          have h1 := (htok p.1 p.2 ht).1
          simp at hadv
          omega
      refine ⟨[], [], [], by simp [splitInPlace], rfl, ?_, by simp, List.Pairwise.nil⟩
      unfold drain
      simp [hres, hl, hn]
      simpa using hadv
    · cases ht : res.token with
      | none => exact absurd ht (hsome rfl hd)
      | some p =>
        obtain ⟨a, b⟩ := p
        obtain ⟨h1, h2, h3⟩ := htok a b ht
        obtain ⟨arr, spans, left, g1, g2, g3, g4, g5⟩ := ih (res.data.drop res.advance) (by rw [List.length_drop]; omega)
        have hx : (res.data.take res.advance).length = res.advance := by rw [List.length_take]; omega
        refine ⟨res.data.take res.advance ++ arr, (a, b) :: spans.map (fun p => (res.advance + p.1, res.advance + p.2)), left, ?_, ?_, ?_, ?_, ?_⟩
        · rw [splitInPlace, if_neg hd, hres]
          dsimp only
          rw [ht]
          dsimp only
          rw [g1]
          rfl
        · rw [List.length_append, hx, g2, List.length_drop]; omega
        · unfold drain
          rw [if_neg (by simp), hres]
          simp only [Option.bind_eq_bind, Option.bind_some]
          rw [if_pos (by omega), ht]
          dsimp only
          rw [g3]
          simp only [Option.bind_some, List.map_cons, List.map_map]
          congr 2
          congr 1
          · rw [part_left (by rw [hx]; exact h3)]
            unfold part
            dsimp only
            rw [List.take_take, Nat.min_eq_left h3]
          · refine List.map_congr_left fun p _ => ?_
            have := part_right (res.data.take res.advance) arr p
            rw [hx] at this
            exact this.symm
        · intro p hp
          rcases List.mem_cons.mp hp with rfl | hp
          · exact ⟨h2, by dsimp only; omega⟩
          · obtain ⟨q, hq, rfl⟩ := List.mem_map.mp hp
            have := g4 q hq
            rw [List.length_drop] at this
            exact ⟨by dsimp only; omega, by dsimp only; omega⟩
        · refine List.pairwise_cons.mpr ⟨fun q hq => ?_, ?_⟩
          · obtain ⟨q', _, rfl⟩ := List.mem_map.mp hq
            dsimp only
            omega
          · refine List.pairwise_map.mpr (g5.imp fun {p q} hpq => ?_)
            dsimp only
            omega

/-- C39: a text can be split in its own memory. When all calls have been made, the tokens, which are parts of the array of the text, hold the
sentences of the text as it was (white space alone gives empty tokens): no call has changed a token that an earlier one gave. They lie in the
array one behind the other. -/
theorem C39_in_place (s : Splitter) (data : Bytes) :
    ∃ arr spans, splitInPlace s (data.length + 1) data = some (arr, spans) ∧ arr.length = data.length ∧
      nonEmpty (spans.map (part arr)) = sentences s data ∧
      (∀ p ∈ spans, p.1 ≤ p.2 ∧ p.2 ≤ data.length) ∧ spans.Pairwise (fun p q => p.2 ≤ q.1) := by
  obtain ⟨arr, spans, left, h1, h2, h3, h4, h5⟩ := splitInPlace_drain s (data.length + 1) data (by omega)
  exact ⟨arr, spans, h1, h2, drain_eof_sentences h3, h4, h5⟩

/-- The characters have been moved within the array. -/
example : splitInPlace defaultSplitter 12 (str "a b? c d.\n") = some (str "ab?? cd..\n", [(0, 3), (5, 8)]) := by decide +kernel

end Kagome
