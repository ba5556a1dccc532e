import Verif.Props.Resplit
import Verif.Props.Commands

/-!
# C78: `kagome sentence` on its own output
-/

namespace Kagome

open Spec

/-- C78: the output of `kagome sentence`, given to `kagome sentence`: the same non-empty lines, if every line but the last has an end of its
own and none but the first could be the closing of the line before it. The first run may read its text in any chunks of whole characters; the second
one reads without cutting at harmful places (see C38). -/
theorem C78_command_partial (w1 w2 : World) {args1 args2 : List Bytes} {file1 file2 : Bytes} {src1 src2 : Source} {r1 : Ran}
    (hl1 : SentenceLine args1 file1) (hi1 : SentenceInput w1 file1 src1) (hv1 : ∀ rd ∈ src1.reads, ValidUtf8 rd.bytes)
    (hr1 : Sen.run w1 args1 = some r1) (hc : SelfContained defaultSplitter (nonEmpty (rawLines r1.out)))
    (hl2 : SentenceLine args2 file2) (hi2 : SentenceInput w2 file2 src2) (hd : delivered src2.reads = r1.out)
    (hv2 : ∀ rd ∈ src2.reads, ValidUtf8 rd.bytes) (hc2 : CutsSafely defaultSplitter src2.reads) :
    ∃ r2, Sen.run w2 args2 = some r2 ∧ (r2.err = none → nonEmpty (rawLines r2.out) = nonEmpty (rawLines r1.out)) := by
  obtain ⟨sents, ending, r, hs, hr, hlines, -⟩ := C47_lines w1 hl1 hi1
  rw [hr1] at hr
  cases hr
  obtain ⟨r2, h1, h2⟩ := C47_sentences w2 hl2 hi2 hv2 hc2
  refine ⟨r2, h1, fun he => ?_⟩
  rw [h2 he, hd]
  have hout : r1.out = sents.flatMap (· ++ str "\n") := by
    rw [sentence_run w1 hl1 hi1, hs] at hr1; cases hr1; rfl
  rw [hlines] at hc ⊢
  rw [hout]
  have hwhole := scan_whole (s := defaultSplitter) src1.reads hv1 0 [] sents ending hs
  have hwhite := feed_white
  revert hwhite
  generalize str "\n" = lf
  intro hwhite
  have hn : (sents.map (fun x => (x, lf))).map (·.1) = sents := by
    rw [List.map_map]
    have : ((fun p : Bytes × Bytes => p.1) ∘ fun x => (x, lf)) = id := rfl
    rw [this, List.map_id]
  have := C78_reflow_partial defaultSplitter rfl (by unfold NoWhiteDelim; decide) (sents.map (fun x => (x, lf))) (by
    intro p hp
    obtain ⟨x, hx, rfl⟩ := List.mem_map.mp hp
    exact hwhole x hx) (by
    intro p hp
    obtain ⟨x, hx, rfl⟩ := List.mem_map.mp hp
    exact hwhite) (by rw [hn]; exact hc)
  rw [hn, putTogether, List.flatMap_map] at this
  exact this

/-- C78: the condition on the lines holds if the text has no line feed, the reader does not cut it at harmful places and there is no error. -/
theorem C78_command_no_feed (w : World) {args : List Bytes} {file : Bytes} {src : Source} (hl : SentenceLine args file)
    (hi : SentenceInput w file src) (hv : ∀ rd ∈ src.reads, ValidUtf8 rd.bytes) (hc : CutsSafely defaultSplitter src.reads)
    (hf : (0x0A : UInt8) ∉ delivered src.reads) :
    ∃ r, Sen.run w args = some r ∧ (r.err = none → SelfContained defaultSplitter (nonEmpty (rawLines r.out))) := by
  obtain ⟨r, h1, h2⟩ := C47_sentences w hl hi hv hc
  refine ⟨r, h1, fun he => ?_⟩
  rw [h2 he]
  obtain ⟨cs, hcs⟩ := delivered_chars hv
  rw [hcs]
  refine C78_contained defaultSplitter (by unfold NoWhiteDelim; decide) cs (.inr fun hm => hf ?_)
  rw [hcs]
  exact List.mem_flatMap.mpr ⟨'\n', hm, by decide⟩

/-- A first run over a text without line feed and a second one over its output; and a text with paragraphs, for which the condition, and
with it the conclusion, fails. -/
example : let on := fun t : Bytes => { Toy.world with stdin := ⟨[⟨t, true⟩], none⟩ }
    SentenceLine [] [] ∧ SentenceInput (on (str "a b? c")) [] ⟨[⟨str "a b? c", true⟩], none⟩ ∧
    CutsSafely defaultSplitter [⟨str "a b? c", true⟩] ∧ (0x0A : UInt8) ∉ delivered [⟨str "a b? c", true⟩] ∧
    (Sen.run (on (str "a b? c")) []).map (fun r => (r.out, r.err)) = some (str "ab?\nc\n", none) ∧
    (Sen.run (on (str "ab?\nc\n")) []).map (fun r => (r.out, r.err)) = some (str "ab?\nc\n", none) ∧
    (Sen.run (on (str "a\n\nb")) []).map (fun r => (r.out, r.err)) = some (str "a\nb\n", none) ∧
    (Sen.run (on (str "a\nb\n")) []).map (fun r => (r.out, r.err)) = some (str "ab\n", none) := by
  refine ⟨by rw [← sen_parse_iff]; rfl, .stdin rfl, ?_, by decide +kernel, by decide +kernel, by decide +kernel, by decide +kernel,
    by decide +kernel⟩
  intro before after h _
  rcases before with _ | ⟨a, _ | ⟨b, before⟩⟩
  · exact .inl rfl
  · simp only [List.cons_append, List.nil_append, List.cons.injEq] at h
    obtain ⟨-, rfl⟩ := h
    exact .inr (.inl rfl)
  · exact absurd (congrArg List.length h) (by simp)

end Kagome
