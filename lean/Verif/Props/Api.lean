import Verif.Spec.Api
import Verif.Props.Json

/-! What a client reads in an answer of the API. -/

namespace Kagome

open Spec

theorem repaired_rune {s : Bytes} {r : Nat × Nat} (h : r ∈ runes s) : repaired (encodeRune r.1) = encodeRune r.1 := by
  induction s using runes_induction with
  | nil => simp at h
  | cons s hs ih =>
    rw [runes_cons hs, List.mem_cons] at h
    rcases h with rfl | h
    · obtain ⟨w, hw⟩ := runes_encodeRune hs
      simp [repaired, hw]
    · exact ih h

/-- In every mode the repaired surfaces joined are the repaired text. -/
theorem repaired_surfaces {t : Tokenizer} {inp : Bytes} (h : Tame t inp) {ideo : Nat → Bool} {mode : Int} {toks : List Token}
    (ha : analyze t ideo inp mode = some toks) : (inner toks).flatMap (fun tok => repaired tok.surface) = repaired inp := by
  obtain ⟨ws, ps, hana, -, -, hwords, -, -, -⟩ := analyze_inner h ideo ha
  have hmap : (inner toks).flatMap (fun tok => repaired tok.surface) = ((inner toks).map wordOfToken).flatMap (fun w => repaired w.surface) := by
    rw [List.flatMap_map]; rfl
  rw [hmap, hwords]
  clear hmap hwords ha
  obtain ⟨wf, -, -⟩ := h
  induction hana with
  | nil => rfl
  | cons w rest ws hw hws ih =>
    have hok := cand_ok wf hw
    have hr := hok.rns
    simp only [List.drop_left] at hr
    rw [repaired_append hr, List.flatMap_cons, List.flatMap_append, ih]
    congr 1
    unfold shown splitUnknown
    split
    · split
      · rw [List.flatMap_map]
        show (runes w.surface).flatMap (fun r => repaired (encodeRune r.1)) = (runes w.surface).flatMap (fun r => encodeRune r.1)
        rw [List.flatMap_def, List.flatMap_def, List.map_congr_left (fun r hr => repaired_rune hr)]
      · simp
    · simp

theorem newTokenData_surface {t : Token} {d : TokenData} (h : newTokenData t = some d) : d.surface = t.surface := by
  unfold newTokenData at h
  split at h
  · cases h; rfl
  · cases h

theorem get_skip {k k' : Bytes} (v : Json) (l : List (Bytes × Json)) (h : k' ≠ k) : (Json.obj ((k', v) :: l)).get? k = (Json.obj l).get? k := by
  simp [Json.get?, h]

theorem get_here (k : Bytes) (v : Json) (l : List (Bytes × Json)) : (Json.obj ((k, v) :: l)).get? k = some v := by
  simp [Json.get?]

theorem surfaces_of_data {toks : List Token} {ds : List TokenData} (h : toks.map newTokenData = ds.map some) :
    surfacesOf (answer (ds.map dataJson)) = toks.flatMap (fun t => repaired t.surface) := by
  have e : surfacesOf (answer (ds.map dataJson)) = ds.flatMap (fun d => repaired d.surface) := by
    have h1 : (answer (ds.map dataJson)).get? (str "tokens") = some (.arr (ds.map dataJson)) := by
      unfold answer
      rw [get_skip _ _ (by decide), get_here]
    unfold surfacesOf
    simp only [h1]
    rw [List.flatMap_map, List.flatMap_def, List.flatMap_def]
    refine congrArg _ (List.map_congr_left (fun d _ => ?_))
    have h2 : (dataJson d).get? (str "surface") = some (textJson d.surface) := by
      unfold dataJson
      rw [get_skip _ _ (by decide), get_skip _ _ (by decide), get_skip _ _ (by decide), get_here]
    simp only [h2, Option.getD_some]
    rfl
  rw [e]
  clear e
  induction toks generalizing ds with
  | nil => cases ds with
    | nil => rfl
    | cons => simp at h
  | cons t toks ih => cases ds with
    | nil => simp at h
    | cons d ds =>
      simp only [List.map_cons, List.cons.injEq] at h
      rw [List.flatMap_cons, List.flatMap_cons, ih h.2, newTokenData_surface h.1]

end Kagome
