import Verif.Example.Mini

/-! The tests of the repository run on the model: see `Verif/Example/Mini.lean`. -/

namespace Kagome

open Mini

/-! ### filter/ja/filter_test.go -/

/-- filter/ja/filter_test.go:13-59 `TestFilter`, with the lists that are in /repo. -/
example : ∃ f, newJaFilter stopTagsAsset stopWordsAsset [] = .ok f ∧
    yieldWords f (tokens [("人魚", 0), ("は", 0), ("、", 0), ("南", 0), ("の", 0), ("方", 0), ("の", 0), ("海", 0), ("に", 0), ("ばかり", 0), ("棲ん", 0), ("で", 0),
      ("いる", 0), ("の", 1), ("で", 1), ("は", 0), ("あり", 0), ("ませ", 0), ("ん", 0), ("。", 0)]) = some (["人魚", "南", "方", "海", "棲む"].map str) := by
  refine ⟨{ baseForm := newFeaturesFilter [[str "動詞"], [str "形容詞"], [str "形容動詞"]],
            stopTags := newFeaturesFilter (Spec.stopTags.map Spec.fourLevels), stopWords := newWordFilter (Spec.stopWords.map str) }, ?_, ?_⟩
  · simp only [newJaFilter, defaultJaFilter, defaultStopTags, defaultStopWords, load_tags, load_words, tags_entries, words_entries,
      applyJaOptions]
  · decide +kernel

/-! ### cmd/tokenize/cmd_test.go, cmd/lattice/cmd_test.go, cmd/sentence/cmd_test.go, cmd/server/cmd_test.go -/

/-- The files the tests name. -/
def Mini.world (stdin : String) : World where
  ideo := ideo
  shortEscapes := true
  ipa := dict
  ipaShrink := { dict with contents := none }
  uni := dict
  uniShrink := { dict with contents := none }
  loadDict := fun p => if p = str "../../testdata/ipa.dict" then .ok dict else .error (str "no such file")
  loadShrink := fun p => if p = str "../../testdata/ipa.dict" then .ok { dict with contents := none } else .error (str "no such file")
  loadUser := fun p => if p = str "../../testdata/userdict.txt" then .ok user else .error (str "no such file")
  openFile := fun p => if p = str "../../testdata/nekodearu.txt" then .ok ⟨[⟨str "吾輩は猫である。名前はまだ無い。", false⟩], none⟩ else .error (str "no such file")
  stdin := ⟨[⟨str stdin, false⟩], none⟩
  createError := fun _ => none
  addr := fun p => itoa p.1 ++ str "_" ++ itoa p.2
  listen := fun a => if a = str ":0" then none else some (str "listen error")
  version := []
  buildInfo := none
  isPrint := fun r => 0x20 ≤ r ∧ r ≠ 0x7F

def Mini.ipa : Tok.Opts := ⟨[], str "../../testdata/ipa.dict", [], [], false, [], false, false⟩

/-- cmd/tokenize/cmd_test.go:15-61 `TestCommand_NormalOutput`. -/
example : (Tok.command (world "ねこです") ipa).map (·.out) =
    some (str "ねこ\t名詞,一般,*,*,*,*,ねこ,ネコ,ネコ\nです\t助動詞,*,*,*,特殊・デス,基本形,です,デス,デス\nEOS\n") := by decide +kernel

/-- cmd/tokenize/cmd_test.go:63-120 `TestCommand_JSONOutput`; the numbers of the words are 54873 and 47492 in the test. -/
example : (Tok.command (world "ねこです") { ipa with json := true }).map (·.out) = some (str "[\n" ++
    str ("{\"id\":0,\"start\":0,\"end\":2,\"surface\":\"ねこ\",\"class\":\"KNOWN\",\"pos\":[\"名詞\",\"一般\",\"*\",\"*\"],\"base_form\":\"ねこ\"," ++
      "\"reading\":\"ネコ\",\"pronunciation\":\"ネコ\",\"features\":[\"名詞\",\"一般\",\"*\",\"*\",\"*\",\"*\",\"ねこ\",\"ネコ\",\"ネコ\"]},\n") ++
    str ("{\"id\":1,\"start\":2,\"end\":4,\"surface\":\"です\",\"class\":\"KNOWN\",\"pos\":[\"助動詞\",\"*\",\"*\",\"*\"],\"base_form\":\"です\"," ++
      "\"reading\":\"デス\",\"pronunciation\":\"デス\",\"features\":[\"助動詞\",\"*\",\"*\",\"*\",\"特殊・デス\",\"基本形\",\"です\",\"デス\",\"デス\"]}\n") ++
    str "]\n") := by decide +kernel

/-- cmd/tokenize/cmd_test.go:122-185 `TestCommand_JSONOutput_issue249`: one array for a line (the last two of the three lines here). -/
example : (Tok.command (world "私は鰻\n猫\n") { ipa with json := true }).map (·.out) = some (str "[\n" ++
    str ("{\"id\":10,\"start\":0,\"end\":1,\"surface\":\"私\",\"class\":\"KNOWN\",\"pos\":[\"名詞\",\"代名詞\",\"一般\",\"*\"],\"base_form\":\"私\"," ++
      "\"reading\":\"ワタシ\",\"pronunciation\":\"ワタシ\",\"features\":[\"名詞\",\"代名詞\",\"一般\",\"*\",\"*\",\"*\",\"私\",\"ワタシ\",\"ワタシ\"]},\n") ++
    str ("{\"id\":2,\"start\":1,\"end\":2,\"surface\":\"は\",\"class\":\"KNOWN\",\"pos\":[\"助詞\",\"係助詞\",\"*\",\"*\"],\"base_form\":\"は\"," ++
      "\"reading\":\"ハ\",\"pronunciation\":\"ワ\",\"features\":[\"助詞\",\"係助詞\",\"*\",\"*\",\"*\",\"*\",\"は\",\"ハ\",\"ワ\"]},\n") ++
    str ("{\"id\":11,\"start\":2,\"end\":3,\"surface\":\"鰻\",\"class\":\"KNOWN\",\"pos\":[\"名詞\",\"一般\",\"*\",\"*\"],\"base_form\":\"鰻\"," ++
      "\"reading\":\"ウナギ\",\"pronunciation\":\"ウナギ\",\"features\":[\"名詞\",\"一般\",\"*\",\"*\",\"*\",\"*\",\"鰻\",\"ウナギ\",\"ウナギ\"]}\n") ++
    str "]\n[\n" ++
    str ("{\"id\":12,\"start\":0,\"end\":1,\"surface\":\"猫\",\"class\":\"KNOWN\",\"pos\":[\"名詞\",\"一般\",\"*\",\"*\"],\"base_form\":\"猫\"," ++
      "\"reading\":\"ネコ\",\"pronunciation\":\"ネコ\",\"features\":[\"名詞\",\"一般\",\"*\",\"*\",\"*\",\"*\",\"猫\",\"ネコ\",\"ネコ\"]}\n") ++
    str "]\n") := by decide +kernel

/-- cmd/tokenize/cmd_test.go:187-235 `TestOptionCheck`. -/
example : ([[], ["-mode", "zzz"], ["-sysdict", "ko"], ["opt"],
    ["-file", "<file>", "-dict", "<dict>", "-udict", "<udict>", "-sysdict", "uni", "-simple", "-mode", "search", "-split", "-json"]].map
    (fun args => Tok.optionCheck (args.map str))) = [true, false, false, false, true] := by decide +kernel
/-- cmd/tokenize/cmd_test.go:237-281 `TestRun`: whether there is an error. -/
example : ([["-help"], ["piyo"], [], ["-udict", "../../testdata/userdict.txt", "-file", "../../testdata/nekodearu.txt", "-split"]].map
    (fun args => (Tok.run (world "") (args.map str)).map (·.err.isSome))) = [some true, some true, some false, some false] := by decide +kernel

/-- cmd/lattice/cmd_test.go:12-63 `TestOptionCheck`. -/
example : ([[], ["ねこです。ねこはいます。"], ["-flag", "piyo"], ["-dict", "piyo"], ["-mode", "piyo"],
    ["-udict", "../../testdata/userdict.txt", "-dict", "ipa", "-mode", "search", "-output", "/dev/null", "-v", "私は鰻"]].map
    (fun args => Lat.optionCheck (args.map str))) = [false, true, false, false, false, true] := by decide +kernel
/-- cmd/lattice/cmd_test.go:65-109 `TestRun`. -/
example : ([[], ["-piyo", "foo"], ["-udict", "../../testdata/userdict.txt", "-dict", "ipa", "-mode", "search", "-output", "/dev/null", "-v", "ねこです。"]].map
    (fun args => (Lat.run (world "") (args.map str)).map (·.err.isSome))) = [some true, some true, some false] := by decide +kernel
/-- cmd/lattice/cmd_test.go:124-180 `Test_command`: what comes on stderr, and how the graph begins. -/
example : (Lat.command (world "") ⟨str "../../testdata/userdict.txt", str "uni", str "extended", [], true, str "関西国際空港"⟩).map
    (fun r => (stderrText (fun _ => true) [] r.notes, (str "graph lattice {").isPrefixOf r.out, r.err)) =
    some (str "関西国際空港\tテスト名詞,関西/国際/空港,カンサイ/コクサイ/クウコウ\nEOS\n", true, none) := by decide +kernel
example : (Lat.command (world "") ⟨[], [], [], [], false, []⟩).map (·.err.isSome) = some true := by decide +kernel

/-- cmd/sentence/cmd_test.go:11-40 `TestOptionCheck`. -/
example : ([[], ["ねこです。ねこはいます。"], ["-flag", "piyo"]].map (fun args => Sen.optionCheck (args.map str))) = [true, false, false] := by decide +kernel
/-- cmd/sentence/cmd_test.go:42-81 `TestRun`. -/
example : ([[], ["-piyo", "foo"], ["-file", "../../testdata/nekodearu.txt"]].map
    (fun args => (Sen.run (world "") (args.map str)).map (·.err.isSome))) = [some false, some true, some false] := by decide +kernel
/-- cmd/sentence/cmd_test.go:96-134 `Test_command`. -/
example : (Sen.command (world "") (str "../../testdata/nekodearu.txt")).map (fun r => (r.out, r.err)) =
    some (str "吾輩は猫である。\n名前はまだ無い。\n", none) := by decide +kernel
example : (Sen.command (world "") []).map (·.err) = some none := by decide +kernel

/-- cmd/server/cmd_test.go:12-50 `TestOptionCheck`. -/
example : ([[], ["piyo"], ["-dict", "piyo"], ["-userdict", "../../testdata/userdict.txt", "-http", ":8888", "-dict", "ipa"]].map
    (fun args => Srv.optionCheck (args.map str))) = [true, false, false, true] := by decide +kernel
/-- cmd/server/cmd_test.go:52-97 `TestRun`. -/
example : ([["-help"], ["piyo"], [""], ["-userdict", "../../testdata/userdict.txt", "-http", ":0", "-dict", "ipa"]].map
    (fun args => (Srv.run (world "") (args.map str)).map (·.err.isSome))) = [some true, some true, some true, some false] := by decide +kernel

/-- cmd/lattice/cmd_test.go:111-122 `TestUsage`, cmd/sentence/cmd_test.go:83-94 `TestUsage`, cmd/server/cmd_test.go:99-110 `TestUsage`. -/
example : ([CmdName.lattice, .sentence, .server].map (fun c => stderrText (fun _ => true) [] [.usage c])) =
    ["lattice [-udict userdict_file] [-dict (ipa|uni)] [-mode (normal|search|extended)] [-output output_file] [-v] sentence\n",
     "sentence [-file filename]\n", "server [-http=:6060] [-userdict userdic_file] [-dict (ipa|uni)]\n"].map str := by decide +kernel

/-! ### cmd/server/api_test.go, cmd/server/demo_test.go -/

/-- cmd/server/api_test.go:35-121 `TestTokenizerAPI`: the empty input. -/
example : (serveApi tok ideo true (str "{\"sentence\":\"\",\"mode\":\"\"}")).map (fun r => (r.status, r.body)) =
    some (200, str "{\"status\":true,\"tokens\":[]}") := by decide +kernel
/-- cmd/server/api_test.go:35-121 `TestTokenizerAPI`: the three modes; the last four of
the six tokens, each written as in the test but for the number of the word. -/
example : ∀ m ∈ ["Normal", "Search", "Extended"],
    (serveApi tok ideo true (str "{\"sentence\":\"ねこですねこはいます\",\"mode\":\"" ++ str m ++ str "\"}")).map (·.status) = some 200 := by decide +kernel
example : (analyze tok ideo (str "ねこですねこはいます") modeNormal).map
    (fun ts => ((ts.filter (·.id ≠ -1)).drop 2).map (fun t => (newTokenData t).map (jsonTokenData true))) =
    some [
      some (str ("{\"id\":0,\"start\":4,\"end\":6,\"surface\":\"ねこ\",\"class\":\"KNOWN\",\"pos\":[\"名詞\",\"一般\",\"*\",\"*\"]," ++
        "\"base_form\":\"ねこ\",\"reading\":\"ネコ\",\"pronunciation\":\"ネコ\"," ++
        "\"features\":[\"名詞\",\"一般\",\"*\",\"*\",\"*\",\"*\",\"ねこ\",\"ネコ\",\"ネコ\"]}")),
      some (str ("{\"id\":2,\"start\":6,\"end\":7,\"surface\":\"は\",\"class\":\"KNOWN\",\"pos\":[\"助詞\",\"係助詞\",\"*\",\"*\"]," ++
        "\"base_form\":\"は\",\"reading\":\"ハ\",\"pronunciation\":\"ワ\"," ++
        "\"features\":[\"助詞\",\"係助詞\",\"*\",\"*\",\"*\",\"*\",\"は\",\"ハ\",\"ワ\"]}")),
      some (str ("{\"id\":3,\"start\":7,\"end\":8,\"surface\":\"い\",\"class\":\"KNOWN\",\"pos\":[\"動詞\",\"自立\",\"*\",\"*\"]," ++
        "\"base_form\":\"いる\",\"reading\":\"イ\",\"pronunciation\":\"イ\"," ++
        "\"features\":[\"動詞\",\"自立\",\"*\",\"*\",\"一段\",\"連用形\",\"いる\",\"イ\",\"イ\"]}")),
      some (str ("{\"id\":4,\"start\":8,\"end\":10,\"surface\":\"ます\",\"class\":\"KNOWN\",\"pos\":[\"助動詞\",\"*\",\"*\",\"*\"]," ++
        "\"base_form\":\"ます\",\"reading\":\"マス\",\"pronunciation\":\"マス\"," ++
        "\"features\":[\"助動詞\",\"*\",\"*\",\"*\",\"特殊・マス\",\"基本形\",\"ます\",\"マス\",\"マス\"]}"))] := by decide +kernel

/-- cmd/server/demo_test.go:127-196 `Test_newRecord`. -/
example : newRecord ⟨0, 0, .dummy, 0, 0, 0, str "piyo", none, none⟩ = some ⟨str "piyo", str "*", str "*", str "*", str "*"⟩ := by decide +kernel
example : (tokenize tok ideo (str "ねこ")).map (·.map newRecord) = some [some ⟨str "BOS", str "*", str "*", str "*", str "*"⟩,
    some ⟨str "ねこ", str "名詞,一般,*,*", str "ねこ", str "ネコ", str "ネコ"⟩, some ⟨str "EOS", str "*", str "*", str "*", str "*"⟩] := by decide +kernel
/-- cmd/server/demo_test.go:198-239 `Test_toRecords`, 88-125 `TestTokenizeDemoHandler_analyzeGraph`. -/
example : toRecords [] = some [] ∧ (tokenize tok ideo (str "ねこです")).bind toRecords =
    some [⟨str "ねこ", str "名詞,一般,*,*", str "ねこ", str "ネコ", str "ネコ"⟩, ⟨str "です", str "助動詞,*,*,*", str "です", str "デス", str "デス"⟩] := by
  decide +kernel

end Kagome
