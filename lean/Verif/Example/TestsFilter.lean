import Verif.Example.Mini

/-! The tests of the repository run on the model: see `Verif/Example/Mini.lean`. -/

namespace Kagome

open Mini

/-! ### filter/feature_test.go -/

/-- filter/feature_test.go:7-21 `TestFilter_New`. -/
example : filterText (newFeaturesFilter ([["hello", "world"], ["hello", "goodbye"], ["hello", "goodbye"]].map (·.map str))) =
    str "hello\n  world\n  goodbye\n" := by decide +kernel

/-- filter/feature_test.go:23-30 `TestFilter_NewEmpty`. -/
example : filterText (newFeaturesFilter []) = [] := by decide +kernel

/-- filter/feature_test.go:32-51 `TestFilter_Add`. -/
example : filterText (newFeaturesFilter ([["hello", "world"], ["hello", "goodbye"], ["hello", "goodbye"], ["one", "two", "three"], ["one", "two"],
    ["one", "two", "piyo"]].map (·.map str))) = str "hello\n  world\n  goodbye\none\n  two\n" := by decide +kernel

/-- The filter of filter/feature_test.go:54-61. -/
def Mini.passFilter : FNode := newFeaturesFilter ([["hello", "world"], ["hello", "goodbye"], ["aloha"], ["one", "two", "three"],
  ["one", "two", "three", "four"]].map (·.map str) ++ [[anyFeature, str "foo", anyFeature, str "baa"]])

/-- filter/feature_test.go:53-89 `TestFeaturesFilter_Pass`. -/
example : ∀ f ∈ [["hello", "world"], ["hello", "goodbye"], ["aloha"], ["aloha", "aloha"], ["one", "two", "three"], ["one", "two", "three", "four"],
    ["one", "two", "three", "four", "five"], ["piyo", "foo", "hoge", "baa"], ["zzz", "foo", "zzz", "baa"]],
    FNode.matchFeatures passFilter (f.map str) = true := by decide +kernel
example : ∀ f ∈ [["hello"], ["world"], ["one", "world"], ["one"], ["one", "two"], ["foo", "zzz", "zzz", "baa"]],
    FNode.matchFeatures passFilter (f.map str) = false := by decide +kernel

/-! ### filter/pos_test.go, filter/word_test.go, filter/filter_test.go -/

/-- The surfaces left in a slice. -/
def Mini.left (r : Option (Option (List Token × Nat))) : Option (List Bytes) := r.bind (·.map (fun l => (l.1.take l.2).map (·.surface)))

/-- A slice with its length. -/
def Mini.all (ts : List Token) : Option (List Token × Nat) := some (ts, ts.length)

def Mini.posFilter : FNode := newFeaturesFilter ([["名詞", "一般"], ["動詞", "自立"], ["形容詞"]].map (·.map str))

/-- filter/pos_test.go:43-91 `TestPOSFilter_Match`. -/
example : (sentence.filter (fun t => (tokenPOS t).elim false (posMatch posFilter))).map (·.surface) =
    ["赤い", "蝋燭", "人魚", "人魚", "南", "海", "棲ん", "あり"].map str := by decide +kernel
example : (sentence.filter (fun t => (tokenPOS t).elim false (posMatch (newFeaturesFilter [])))).map (·.surface) = [] := by decide +kernel
/-- filter/pos_test.go:93-145 `TestPOSFilter_Keep`. -/
example : left (posKeep posFilter (all sentence)) = some (["赤い", "蝋燭", "人魚", "人魚", "南", "海", "棲ん", "あり"].map str) := by decide +kernel
example : left (posKeep (newFeaturesFilter []) (all sentence)) = some [] := by decide +kernel
example : left (posKeep (newFeaturesFilter [[]]) none) = none ∧ (posKeep (newFeaturesFilter [[]]) none).isSome = true := by decide +kernel
/-- filter/pos_test.go:147-201 `TestPOSFilter_Drop`. -/
example : left (posDrop posFilter (all sentence)) = some (["BOS", "と", "。", "は", "、", "の", "方", "の", "に", "ばかり", "で", "いる", "の", "で", "は",
    "ませ", "ん", "EOS"].map str) := by decide +kernel
example : left (posDrop (newFeaturesFilter []) (all sentence)) = some (sentence.map (·.surface)) := by decide +kernel
/-- filter/pos_test.go:203-225 `ExamplePOSFilter`. -/
example : left (posKeep (newFeaturesFilter [[str "名詞", anyFeature, str "人名"], [str "形容詞"]])
    (all (tokens [("赤い", 0), ("蝋燭", 0), ("と", 0), ("人魚", 0), ("。", 0), ("小川", 0), ("未明", 0)]))) =
    some (["赤い", "小川", "未明"].map str) := by decide +kernel

/-- filter/word_test.go:13-59 `TestWordFilter_Match`, 61-111 `TestWordFilter_Keep`, 113-165 `TestWordFilter_Drop`. -/
example : (sentence.filter (fun t => wordMatch (newWordFilter (["人魚", "南", "の"].map str)) t.surface)).map (·.surface) =
    ["人魚", "人魚", "南", "の", "の", "の"].map str := by decide +kernel
example : left (wordKeep (newWordFilter (["人魚", "南", "の"].map str)) (all sentence)) = some (["人魚", "人魚", "南", "の", "の", "の"].map str) := by
  decide +kernel
example : left (wordDrop (newWordFilter (["人魚", "南", "の"].map str)) (all sentence)) =
    some (["BOS", "赤い", "蝋燭", "と", "。", "は", "、", "方", "海", "に", "ばかり", "棲ん", "で", "いる", "で", "は", "あり", "ませ", "ん", "EOS"].map str) := by
  decide +kernel

/-- filter/filter_test.go:12-69 `TestKeep`, 71-130 `TestDrop`: a function as the filter. -/
example : let m := fun (_ : Unit) (t : Token) => some ((["人魚", "南", "の"].map str).any (· = t.surface), ())
    ((keepTokens () (all sentence) m).bind (fun r => left (some r.1)),
     (dropTokens () (all sentence) m).bind (fun r => left (some r.1))) =
    (some (["人魚", "人魚", "南", "の", "の", "の"].map str),
     some (["BOS", "赤い", "蝋燭", "と", "。", "は", "、", "方", "海", "に", "ばかり", "棲ん", "で", "いる", "で", "は", "あり", "ませ", "ん", "EOS"].map str)) := by
  decide +kernel

end Kagome
