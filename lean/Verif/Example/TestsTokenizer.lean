import Verif.Example.Mini

/-! The tests of the repository run on the model: see `Verif/Example/Mini.lean`. -/

namespace Kagome

open Mini

/-! ### tokenizer/token_test.go -/

/-- tokenizer/token_test.go:15-31 `Test_TokenClassString`, tokenizer/lattice/node_test.go:7-23 `Test_NodeClassString`. -/
example : [NodeClass.dummy, .known, .unknown, .user].map className = ["DUMMY", "KNOWN", "UNKNOWN", "USER"].map str := by decide +kernel

/-- The token of tokenizer/token_test.go:38-44 and its likes. -/
def Mini.tokenOf (cls : NodeClass) : Token := ⟨0, 0, cls, 0, 0, 1, [], some dict, some user⟩

/-- tokenizer/token_test.go:33-52 `Test_FeaturesKnown`, 54-91 `Test_FeatureAtKnown` (the first word is another one here). -/
example : features (tokenOf .known) = some (some (["名詞", "一般", "*", "*", "*", "*", "ねこ", "ネコ", "ネコ"].map str)) := by decide +kernel
example : (List.range 9).map (fun (i : Nat) => featureAt (tokenOf .known) i) =
    (["名詞", "一般", "*", "*", "*", "*", "ねこ", "ネコ", "ネコ"].map (fun f => some (str f, true))) := by decide +kernel
example : featureAt (tokenOf .known) (-1) = some ([], false) ∧ featureAt (tokenOf .known) 9 = some ([], false) := by decide +kernel
/-- tokenizer/token_test.go:93-127 `Test_FeaturesUnknown`, 129-155 `Test_FeatureAtUnknown`. -/
example : features (tokenOf .unknown) = some (some (["名詞", "固有名詞", "地域", "一般", "*", "*", "*"].map str)) := by decide +kernel
example : (List.range 7).map (fun (i : Nat) => featureAt (tokenOf .unknown) i) =
    (["名詞", "固有名詞", "地域", "一般", "*", "*", "*"].map (fun f => some (str f, true))) := by decide +kernel
example : featureAt (tokenOf .unknown) (-1) = some ([], false) ∧ featureAt (tokenOf .unknown) 7 = some ([], false) := by decide +kernel
/-- tokenizer/token_test.go:157-181 `Test_FeaturesUser`, 183-214 `Test_FeatureAtUsers`. -/
example : features (tokenOf .user) = some (some (["カスタム名詞", "日本/経済/新聞", "ニホン/ケイザイ/シンブン"].map str)) := by decide +kernel
example : (List.range 3).map (fun (i : Nat) => featureAt (tokenOf .user) i) =
    (["カスタム名詞", "日本/経済/新聞", "ニホン/ケイザイ/シンブン"].map (fun f => some (str f, true))) := by decide +kernel
/-- tokenizer/token_test.go:216-239 `Test_FeaturesDummy`. -/
example : features (tokenOf .dummy) = some none := by decide +kernel
/-- tokenizer/token_test.go:241-263 `Test_FeaturesAndPosKnown`, 265-290 `Test_FeaturesAndPosUnknown`, 292-319 `Test_FeaturesAndPosUser`, 321-347 `Test_FeaturesAndPosUserDict`. -/
example : [NodeClass.known, .unknown, .user, .dummy].map (fun c => tokenPOS (tokenOf c)) =
    [some (some (["名詞", "一般", "*", "*"].map str)), some (some (["名詞", "固有名詞", "地域", "一般"].map str)), some (some [str "カスタム名詞"]), some none] := by
  decide +kernel
/-- tokenizer/token_test.go:349-376 `Test_FeaturesUserExtra`; the heap is the two lists of the entry. -/
example : ((userExtra [⟨0, 1⟩] (tokenOf .user) [["日本", "経済", "新聞"].map str, ["ニホン", "ケイザイ", "シンブン"].map str]).bind (fun r =>
    r.2.bind (fun x => (r.1[x.tokens]?).bind (fun a => (r.1[x.readings]?).map (a, ·))))) =
    some (["日本", "経済", "新聞"].map str, ["ニホン", "ケイザイ", "シンブン"].map str) := by decide +kernel
/-- tokenizer/token_test.go:378-391 `Test_TokenString`. -/
example : tokenString (fun r => 0x20 ≤ r ∧ r ≠ 0x7F) ⟨0, 123, .dummy, 0, 0, 1, str "テスト", none, none⟩ = str "0:\"テスト\" (0: 0, 1) DUMMY [123]" := by
  decide +kernel
/-- What a function says of the `i`-th token. -/
def Mini.ofToken {α : Type} (text : String) (i : Nat) (f : Token → Option α) : Option α := (tokenize tok ideo (str text)).bind (fun ts => ts[i]?.bind f)

/-- tokenizer/token_test.go:393-417 `Test_InflectionalType`, 419-456 `Test_InflectionalForm`, 458-482 `Test_BaseForm`. -/
example : (tokenize tok ideo (str "寿司を食べたい")).map List.length = some 6 := by decide +kernel
example : ([inflectionalType, inflectionalForm, baseForm].map (ofToken "寿司を食べたい" 0)) = [some ([], false), some ([], false), some ([], false)] := by decide +kernel
example : ([inflectionalType, inflectionalForm, baseForm].map (ofToken "寿司を食べたい" 3)) =
    [some (str "一段", true), some (str "連用形", true), some (str "食べる", true)] := by decide +kernel
example : (tokenize tok ideo (str "トトロ")).map List.length = some 3 ∧ ofToken "トトロ" 1 inflectionalForm = some ([], false) := by decide +kernel
/-- tokenizer/token_test.go:484-508 `Test_Reading`, 510-534 `Test_Pronunciation`, 536-575 `Test_POS`. -/
example : (tokenize tok ideo (str "公園に行く")).map List.length = some 5 ∧ ([reading, pronunciation].map (ofToken "公園に行く" 0)) = [some ([], false), some ([], false)] ∧
    ([reading, pronunciation].map (ofToken "公園に行く" 1)) = [some (str "コウエン", true), some (str "コーエン", true)] := by decide +kernel
example : ofToken "公園に行く" 0 tokenPOS = some none ∧ ofToken "公園に行く" 3 tokenPOS = some (some (["動詞", "自立", "*", "*"].map str)) := by decide +kernel
example : ofToken "トトロ" 0 tokenPOS = some none ∧ ofToken "トトロ" 1 tokenPOS = some (some (["名詞", "固有名詞", "組織", "*"].map str)) := by decide +kernel
/-- tokenizer/token_test.go:577-645 `TestNewTokenData`. -/
example : (tokenize tok ideo (str "トトロ")).bind (fun ts => ts[0]?.bind newTokenData) =
    some ⟨-1, 0, 0, str "BOS", str "DUMMY", some [], [], [], [], some []⟩ := by decide +kernel
example : (tokenize tok ideo (str "トトロ")).bind (fun ts => (ts[1]?.bind newTokenData).map (fun d => (d.surface, d.pos, d.features, d.cls))) =
    some (str "トトロ", some (["名詞", "固有名詞", "組織", "*"].map str), some (["名詞", "固有名詞", "組織", "*", "*", "*", "*"].map str), str "UNKNOWN") := by
  decide +kernel
example : (tokenize tok ideo (str "行か")).bind (fun ts => ts[1]?.bind newTokenData) =
    some ⟨33, 0, 2, str "行か", str "KNOWN", some (["動詞", "自立", "*", "*"].map str), str "行く", str "イカ", str "イカ",
      some (["動詞", "自立", "*", "*", "五段・カ行促音便", "未然形", "行く", "イカ", "イカ"].map str)⟩ := by decide +kernel
/-- tokenizer/token_test.go:647-688 `TestEqual`. -/
example : (["ねこ", "いぬ"].map (fun s => tokenEqual ⟨111, 1, .known, 456, 3, 4, str s, none, none⟩ ⟨1234, 1, .known, 5, 56, 58, str "ねこ", none, none⟩)) =
    [true, false] := by decide +kernel
/-- tokenizer/token_test.go:690-773 `Test_EqualFeatures`, 775-861 `Test_EqualPOS`. -/
example : let ts := tokens [("BOS", 0), ("公園", 0), ("猫", 0), ("行く", 0), ("EOS", 0)]
    ([(0, 0), (1, 2), (3, 3), (0, 4), (0, 3), (1, 3)].map (fun (i, j) => (ts[i]?).bind (fun a => (ts[j]?).bind (fun b =>
      (tokenEqualFeatures a b).bind (fun x => (tokenEqualPOS a b).map (x, ·)))))) =
    [some (true, true), some (false, true), some (true, true), some (true, true), some (false, false), some (false, false)] := by decide +kernel

/-! ### tokenizer/tokenizer_test.go and tokenizer/tokenizer_option_test.go -/

/-- What the tests of the tokenizer compare (tokenizer/tokenizer_test.go:44-52), and whether the class is the one expected. -/
structure Mini.Cell where
  index : Nat
  id : Int
  surface : Bytes
  start : Nat
  stop : Nat
  position : Nat
  cls : NodeClass
deriving DecidableEq

def Mini.cells (r : Option (List Token)) : Option (List Mini.Cell) :=
  r.map (·.map (fun t => ⟨t.index, t.id, t.surface, t.start, t.stop, t.position, t.cls⟩))

def Mini.errorOf {α : Type} : Except String α → Option String
  | .error e => some e
  | .ok _ => none

/-- tokenizer/tokenizer_test.go:78-84 `Test_Tokenizer_New`, tokenizer/tokenizer_option_test.go:14-23 `TestTokenizer_Analyze_Nop`, 25-62 `Test_AnalyzeWithUserDict`. -/
example : errorOf (newTokenizer none []) = some "empty dictionary" ∧ errorOf (newTokenizer (some dict) [optNop]) = none ∧
    errorOf (newTokenizer (some dict) [optUserDict none]) = some "empty user dictionary" := by decide +kernel
/-- tokenizer/tokenizer_test.go:86-101 `Test_TokenizeModeString`. -/
example : [modeNormal, modeSearch, modeExtended, 999].map modeString = ["normal", "search", "extend", "unknown tokenize mode (999)"].map str := by
  decide +kernel
/-- tokenizer/tokenizer_test.go:103-121 `Test_AnalyzeEmptyInput`, 197-215 `Test_AnalyzeWithSearchModeEmptyInput`, 263-282 `Test_AnalyzeWithExtendedModeEmpty`. -/
example : ∀ m ∈ [modeNormal, modeSearch, modeExtended], cells (analyze tok ideo [] m) =
    some [⟨0, -1, str "BOS", 0, 0, 0, .dummy⟩, ⟨1, -1, str "EOS", 0, 0, 0, .dummy⟩] := by decide +kernel
/-- tokenizer/tokenizer_test.go:123-143 `Test_Analyze`. -/
example : cells (analyze tok ideo (str "関西国際空港") modeNormal) =
    some [⟨0, -1, str "BOS", 0, 0, 0, .dummy⟩, ⟨1, 40, str "関西国際空港", 0, 6, 0, .known⟩, ⟨2, -1, str "EOS", 6, 6, 18, .dummy⟩] := by decide +kernel
/-- tokenizer/tokenizer_test.go:217-239 `Test_AnalyzeWithSearchMode`, 284-306 `Test_AnalyzeWithExtendedMode`. -/
example : ∀ m ∈ [modeSearch, modeExtended], cells (analyze tok ideo (str "関西国際空港") m) =
    some [⟨0, -1, str "BOS", 0, 0, 0, .dummy⟩, ⟨1, 37, str "関西", 0, 2, 0, .known⟩, ⟨2, 38, str "国際", 2, 4, 6, .known⟩,
      ⟨3, 39, str "空港", 4, 6, 12, .known⟩, ⟨4, -1, str "EOS", 6, 6, 18, .dummy⟩] := by decide +kernel
/-- tokenizer/tokenizer_test.go:145-164 `Test_AnalyzeUnknown`, 241-261 `Test_AnalyzeWithSearchModeUnknown`. -/
example : ∀ m ∈ [modeNormal, modeSearch], cells (analyze tok ideo (str "ポポピ") m) =
    some [⟨0, -1, str "BOS", 0, 0, 0, .dummy⟩, ⟨1, 1, str "ポポピ", 0, 3, 0, .unknown⟩, ⟨2, -1, str "EOS", 3, 3, 9, .dummy⟩] := by decide +kernel
/-- tokenizer/tokenizer_test.go:308-330 `Test_AnalyzeWithExtendedModeUnknown`. -/
example : cells (analyze tok ideo (str "ポポピ") modeExtended) =
    some [⟨0, -1, str "BOS", 0, 0, 0, .dummy⟩, ⟨1, 1, str "ポ", 0, 1, 0, .dummy⟩, ⟨2, 1, str "ポ", 1, 2, 3, .dummy⟩, ⟨3, 1, str "ピ", 2, 3, 6, .dummy⟩,
      ⟨4, -1, str "EOS", 3, 3, 9, .dummy⟩] := by decide +kernel
/-- tokenizer/tokenizer_test.go:376-400 `Test_Wakati`. -/
example : wakati tok ideo (str "すもももももももものうち") = some (["すもも", "も", "もも", "も", "もも", "の", "うち"].map str) := by decide +kernel
/-- tokenizer/tokenizer_option_test.go:25-62 `Test_AnalyzeWithUserDict`, 64-102 `Test_AnalyzeWithSearchModeWithUserDict`, 104-142 `Test_AnalyzeWithExtendedModeWithUserDict`. -/
example : ∀ m ∈ [modeNormal, modeSearch, modeExtended], cells (analyze ⟨dict, some user, false⟩ ideo (str "関西国際空港") m) =
    some [⟨0, -1, str "BOS", 0, 0, 0, .dummy⟩, ⟨1, 2, str "関西国際空港", 0, 6, 0, .user⟩, ⟨2, -1, str "EOS", 6, 6, 18, .dummy⟩] := by decide +kernel
/-- tokenizer/tokenizer_option_test.go:144-165 `TestTokenizer_Analyze_OmitBOSEOS`. -/
example : cells (analyze ⟨dict, none, true⟩ ideo (str "関西国際空港") modeNormal) = some [⟨0, 40, str "関西国際空港", 0, 6, 0, .known⟩] := by decide +kernel

/-! ### tokenizer/lattice/lattice_test.go -/

/-- tokenizer/lattice/lattice_test.go:12-42 `Test_LatticeBuildEmptyInput`. -/
example : ((newLattice dict none).build []).map (fun l => (l.input, l.store.take l.len, l.output)) =
    some ([], [[⟨-1, 0, 0, .dummy, 0, 0, 0, 0, [], none⟩], [⟨-1, 0, 0, .dummy, 0, 0, 0, 0, [], none⟩]], []) := by decide +kernel
/-- tokenizer/lattice/lattice_test.go:44-88 `Test_LatticeBuild`. -/
example : ((newLattice dict none).build (str "も")).map (fun l => (l.input, l.store.take l.len, l.output)) =
    some (str "も", [[⟨-1, 0, 0, .dummy, 0, 0, 0, 0, [], none⟩], [⟨6, 0, 0, .known, 0, 2, 2, 2500, str "も", none⟩],
      [⟨-1, 3, 1, .dummy, 0, 0, 0, 0, [], none⟩]], []) := by decide +kernel
/-- tokenizer/lattice/lattice_test.go:90-122 `Test_LatticeBuildWithUserDict`. -/
example : ((newLattice dict (some user)).build (str "朝青龍")).map (fun l => (l.store[3]?).bind (fun c => (c[0]?).map (·.cls))) = some (some .user) := by
  decide +kernel
/-- tokenizer/lattice/lattice_test.go:207-228 `Test_LatticeBuildInvalidInput`. -/
example : ((newLattice dict none).build [0x96, 0x7b, 0x93, 0xfa]).map (fun l => (l.input, l.len, (l.store.take l.len).head?, (l.store.take l.len).getLast?)) =
    some ([0x96, 0x7b, 0x93, 0xfa], 6, some [⟨-1, 0, 0, .dummy, 0, 0, 0, 0, [], none⟩], some [⟨-1, 4, 4, .dummy, 0, 0, 0, 0, [], none⟩]) := by decide +kernel
/-- tokenizer/lattice/lattice_test.go:230-248 `Test_KanjiOnly`. -/
example : ["ひらがな", "カタカナ", "漢字", "かな漢字交じり", "123", "#$%", ""].map (fun s => kanjiOnly ideo (str s)) =
    [false, false, true, false, false, false, false] := by decide +kernel
/-- tokenizer/lattice/lattice_test.go:250-268 `Test_LatticeString`. -/
example : (newLattice dict none).string (fun _ => []) = [] := by decide +kernel
example : (((newLattice dict none).build (str "も")).map (fun l => (l.string (fun _ => [])).isEmpty)) = some false := by decide +kernel
/-- tokenizer/lattice/lattice_test.go:270-282 `Test_LatticeDot`: an empty lattice. -/
example : dotText (π := Ptr) (fun _ => []) ⟨[], []⟩ = str ("graph lattice {\ndpi=48;\n" ++
    "graph [style=filled, splines=true, overlap=false, fontsize=30, rankdir=LR]\nedge [fontname=Helvetica, fontcolor=red, color=\"#606060\"]\n" ++
    "node [shape=box, style=filled, fillcolor=\"#e8e8f0\", fontname=Helvetica]\n}\n") := by decide +kernel

end Kagome
