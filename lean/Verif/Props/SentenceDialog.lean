import Verif.Props.Feeds
import Verif.Props.Commands

/-!
# C47: `kagome sentence` on input that comes one remark at a time
-/

namespace Kagome

open Spec

/-- C47: if every read of the input ends like a sentence, `kagome sentence` succeeds, and the lines it prints that are not empty are
the sentences of the first read, then those of the second, and so on. -/
theorem C47_each_read (w : World) {args : List Bytes} {file : Bytes} {src : Source} (hl : SentenceLine args file)
    (hi : SentenceInput w file src) (hf : src.failure = none) (ts : List Bytes) (hr : src.reads = ts.map (⟨·, false⟩))
    (hv : ∀ t ∈ ts, ValidUtf8 t) (hne : ∀ t ∈ ts, t ≠ []) (he : ∀ t ∈ ts, EndsSentence defaultSplitter (pieces t) ∨ EndsClosed defaultSplitter (pieces t)) :
    ∃ r, Sen.run w args = some r ∧ r.err = none ∧ nonEmpty (rawLines r.out) = ts.flatMap (sentences defaultSplitter) := by
  obtain ⟨sents, ending, r, hs, hrun, hlines, _, _, _, _, herr, _⟩ := C47_lines w hl hi
  obtain ⟨out, h1, h2⟩ := C38_each_read defaultSplitter (by decide) ts hv hne fun t ht => (he t ht).imp_right fun h => ⟨rfl, h⟩
  rw [hr, h1] at hs
  cases hs
  exact ⟨r, hrun, herr.mpr ⟨rfl, hf⟩, by rw [hlines]; exact h2⟩

def Toy.remarks : Source := ⟨[str "a b?\n", str ")c。d！) "].map (⟨·, false⟩), none⟩

/-- The hypotheses hold of an input of two reads, the second of which begins with a bracket. -/
example : let w := { Toy.world with openFile := fun p => if p = str "f" then .ok Toy.remarks else .error (str "no such file") }
    SentenceLine [str "-file", str "f"] (str "f") ∧ SentenceInput w (str "f") Toy.remarks ∧ Toy.remarks.failure = none ∧
    (∀ t ∈ [str "a b?\n", str ")c。d！) "], ValidUtf8 t) ∧ (∀ t ∈ [str "a b?\n", str ")c。d！) "], t ≠ []) ∧
    (∀ t ∈ [str "a b?\n", str ")c。d！) "], EndsSentence defaultSplitter (pieces t) ∨ EndsClosed defaultSplitter (pieces t)) ∧
    (Sen.run w [str "-file", str "f"]).map (fun r => (r.out, r.err)) = some (str "ab?\n)c。\nd！)\n", none) := by
  refine ⟨by rw [← sen_parse_iff]; rfl, .file (by decide) rfl, rfl, ?_, by decide +kernel, ?_, by decide +kernel⟩
  · intro t ht
    simp only [List.mem_cons, List.not_mem_nil, or_false] at ht
    rcases ht with rfl | rfl
    · exact ⟨"a b?\n".toList, by decide +kernel⟩
    · exact ⟨")c。d！) ".toList, by decide +kernel⟩
  · intro t ht
    simp only [List.mem_cons, List.not_mem_nil, or_false] at ht
    rcases ht with rfl | rfl
    · left
      intro c hc
      rw [show ((pieces (str "a b?\n")).filter (fun c => !blank defaultSplitter c)).getLast? = some (0x3F, [0x3F]) by decide +kernel] at hc
      cases hc; decide
    · exact .inr ⟨pieces (str ")c。d"), (0xFF01, [0xEF, 0xBC, 0x81]), pieces (str ")"), pieces (str " "), by decide +kernel, by decide +kernel,
        by decide +kernel, by decide +kernel⟩

end Kagome
