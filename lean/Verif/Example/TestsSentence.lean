import Verif.Example.Mini

/-! The tests of the repository run on the model: see `Verif/Example/Mini.lean`. -/

namespace Kagome

open Mini

/-! ### filter/sentence_splitter_test.go -/

/-- filter/sentence_splitter_test.go:13-63 `Test_DefaultSplitter`. -/
example : scan defaultSplitter "" = gives [] := by decide +kernel
example : scan defaultSplitter "あああ" = gives ["あああ"] := by decide +kernel
example : scan defaultSplitter "。。．" = gives ["。。．"] := by decide +kernel
example : scan defaultSplitter "こんにちはは「さようなら」。🍣が好き" = gives ["こんにちはは「さようなら」。", "🍣が好き"] := by decide +kernel
example : scan defaultSplitter "こんにちは。さようなら。おはよう．おやすみ．" = gives ["こんにちは。", "さようなら。", "おはよう．", "おやすみ．"] := by
  decide +kernel
example : scan defaultSplitter "　 こ んに  ち　は。　 ．」　 さ\x0bよ\rう\tな\nら\n" = gives ["こんにちは。．」", "さようなら"] := by decide +kernel
example : scan defaultSplitter "\n\nこんにちは\n\nさようなら。\n\n" = gives ["こんにちは", "さようなら。"] := by decide +kernel
example : scan defaultSplitter "  こんにちは。。」さようなら。』ごきげんよう" = gives ["こんにちは。。」", "さようなら。』", "ごきげんよう"] := by decide +kernel

/-- The splitters of filter/sentence_splitter_test.go:92-98, 152-158, 214-220. -/
def Mini.spaces (skip double : Bool) : Splitter :=
  { delim := [' ', '　'].map (·.val.toNat), follower := defaultSplitter.follower, skipWhiteSpace := skip, doubleLineFeedSplit := double, maxRuneLen := 256 }

/-- filter/sentence_splitter_test.go:65-110 `Test_DelimWhiteSpace`. -/
example : scan (spaces true true) "" = gives [] := by decide +kernel
example : scan (spaces true true) "あああ" = gives ["あああ"] := by decide +kernel
example : scan (spaces true true) "   " = gives [] := by decide +kernel
example : scan (spaces true true) "こんにちはは「さようなら」　🍣が好き" = gives ["こんにちはは「さようなら」", "🍣が好き"] := by decide +kernel
example : scan (spaces true true) "こんにちは さようなら　おはよう おやすみ   " = gives ["こんにちは", "さようなら", "おはよう", "おやすみ"] := by decide +kernel

/-- filter/sentence_splitter_test.go:112-168 `Test_DisableSkipWhiteSpace`. -/
example : scan (spaces false true) "" = gives [] := by decide +kernel
example : scan (spaces false true) "あああ" = gives ["あああ"] := by decide +kernel
example : scan (spaces false true) "   " = gives ["   "] := by decide +kernel
example : scan (spaces false true) " x x x " = gives [" ", "x ", "x ", "x "] := by decide +kernel
example : scan (spaces false true) "こんにちはは「さようなら 」　🍣が好き" = gives ["こんにちはは「さようなら 」　", "🍣が好き"] := by decide +kernel
example : scan (spaces false true) "こんにちは \t\tさようなら　おはよう おやすみ   " =
    gives ["こんにちは ", "\t\tさようなら　", "おはよう ", "おやすみ   "] := by decide +kernel
example : scan (spaces false true) "すももも\t\n\n \tももも\n\nもものうち\n\n" = gives ["すももも\t\n\n", " ", "\tももも\n\n", "もものうち\n\n"] := by
  decide +kernel

/-- filter/sentence_splitter_test.go:170-226 `Test_DisableSkipWhiteSpaceAndDoubleLineFeedSplit`. -/
example : scan (spaces false false) "" = gives [] := by decide +kernel
example : scan (spaces false false) "あああ" = gives ["あああ"] := by decide +kernel
example : scan (spaces false false) "   " = gives ["   "] := by decide +kernel
example : scan (spaces false false) " x x x " = gives [" ", "x ", "x ", "x "] := by decide +kernel
example : scan (spaces false false) "こんにちはは「さようなら 」　🍣が好き" = gives ["こんにちはは「さようなら 」　", "🍣が好き"] := by decide +kernel
example : scan (spaces false false) "こんにちは \t\tさようなら　おはよう おやすみ   " =
    gives ["こんにちは ", "\t\tさようなら　", "おはよう ", "おやすみ   "] := by decide +kernel
example : scan (spaces false false) "すももも\t\n\n \tももも\n\nもものうち\n\n" = gives ["すももも\t\n\n ", "\tももも\n\nもものうち\n\n"] := by
  decide +kernel

/-- filter/sentence_splitter_test.go:228-251 `Test_ScanSentences`: no token, no advance. -/
example : scanSentences [] true = some ⟨[], 0, none⟩ ∧ scanSentences [] false = some ⟨[], 0, none⟩ := by decide +kernel

/-- filter/sentence_splitter_test.go:253-276 `ExampleScanSentences`. -/
example : scan defaultSplitter ("　人魚は、南の方の海にばかり棲んでいるのではあ
                         りません。北の海にも棲んでいたのであります。
                         　北方の海うみの色は、青うございました。ある
                         とき、岩の上に、女の人魚があがって、あたりの景
                         色をながめながら休んでいました。

                         小川未明作 赤い蝋燭と人魚より") =
    gives ["人魚は、南の方の海にばかり棲んでいるのではありません。", "北の海にも棲んでいたのであります。", "北方の海うみの色は、青うございました。",
      "あるとき、岩の上に、女の人魚があがって、あたりの景色をながめながら休んでいました。", "小川未明作赤い蝋燭と人魚より"] := by decide +kernel

end Kagome
