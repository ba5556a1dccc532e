import Verif.Example.Toy
import Verif.Model.Cmd
import Verif.Model.Request
import Verif.Model.Text
import Verif.Model.LatticeText
import Verif.Model.Usage
import Verif.Model.Page
import Verif.Props.Stop

/-!
# The tests of the repository, run on the model

Evidence that the model is the code: the inputs and the expected results are copied from the `_test.go` files named at each example.
The dictionary files the tests load are not in the repository. Where a test needs one, `Mini.dict` has the words and the features that the tests
themselves name, with costs that choose the readings the tests expect; numbers of words (`ID`) differ, as they depend on the whole file.
These are tests of the model on literals. No property rests on them.
-/

namespace Kagome.Mini

open Kagome

/-- A word, its part of speech and its other features. -/
def lexicon : List (String × List String × List String) := [
  ("ねこ", ["名詞", "一般", "*", "*"], ["*", "*", "ねこ", "ネコ", "ネコ"]),
  ("です", ["助動詞", "*", "*", "*"], ["特殊・デス", "基本形", "です", "デス", "デス"]),
  ("は", ["助詞", "係助詞", "*", "*"], ["*", "*", "は", "ハ", "ワ"]),
  ("い", ["動詞", "自立", "*", "*"], ["一段", "連用形", "いる", "イ", "イ"]),
  ("ます", ["助動詞", "*", "*", "*"], ["特殊・マス", "基本形", "ます", "マス", "マス"]),
  ("すもも", ["名詞", "一般", "*", "*"], ["*", "*", "すもも", "スモモ", "スモモ"]),
  ("も", ["助詞", "係助詞", "*", "*"], ["*", "*", "も", "モ", "モ"]),
  ("もも", ["名詞", "一般", "*", "*"], ["*", "*", "もも", "モモ", "モモ"]),
  ("の", ["助詞", "連体化", "*", "*"], ["*", "*", "の", "ノ", "ノ"]),
  ("うち", ["名詞", "非自立", "副詞可能", "*"], ["*", "*", "うち", "ウチ", "ウチ"]),
  ("私", ["名詞", "代名詞", "一般", "*"], ["*", "*", "私", "ワタシ", "ワタシ"]),
  ("鰻", ["名詞", "一般", "*", "*"], ["*", "*", "鰻", "ウナギ", "ウナギ"]),
  ("猫", ["名詞", "一般", "*", "*"], ["*", "*", "猫", "ネコ", "ネコ"]),
  ("赤い", ["形容詞", "自立", "*", "*"], ["形容詞・アウオ段", "基本形", "赤い", "アカイ", "アカイ"]),
  ("蝋燭", ["名詞", "一般", "*", "*"], ["*", "*", "蝋燭", "ロウソク", "ローソク"]),
  ("と", ["助詞", "並立助詞", "*", "*"], ["*", "*", "と", "ト", "ト"]),
  ("人魚", ["名詞", "一般", "*", "*"], ["*", "*", "人魚", "ニンギョ", "ニンギョ"]),
  ("。", ["記号", "句点", "*", "*"], ["*", "*", "。", "。", "。"]),
  ("、", ["記号", "読点", "*", "*"], ["*", "*", "、", "、", "、"]),
  ("南", ["名詞", "一般", "*", "*"], ["*", "*", "南", "ミナミ", "ミナミ"]),
  ("方", ["名詞", "非自立", "一般", "*"], ["*", "*", "方", "ホウ", "ホー"]),
  ("海", ["名詞", "一般", "*", "*"], ["*", "*", "海", "ウミ", "ウミ"]),
  ("に", ["助詞", "格助詞", "一般", "*"], ["*", "*", "に", "ニ", "ニ"]),
  ("ばかり", ["助詞", "副助詞", "*", "*"], ["*", "*", "ばかり", "バカリ", "バカリ"]),
  ("棲ん", ["動詞", "自立", "*", "*"], ["五段・マ行", "連用タ接続", "棲む", "スン", "スン"]),
  ("で", ["助詞", "接続助詞", "*", "*"], ["*", "*", "で", "デ", "デ"]),
  ("いる", ["動詞", "非自立", "*", "*"], ["一段", "基本形", "いる", "イル", "イル"]),
  ("の", ["名詞", "非自立", "一般", "*"], ["*", "*", "の", "ノ", "ノ"]),
  ("で", ["助動詞", "*", "*", "*"], ["特殊・ダ", "連用形", "だ", "デ", "デ"]),
  ("あり", ["動詞", "自立", "*", "*"], ["五段・ラ行", "連用形", "ある", "アリ", "アリ"]),
  ("ませ", ["助動詞", "*", "*", "*"], ["特殊・マス", "未然形", "ます", "マセ", "マセ"]),
  ("ん", ["助動詞", "*", "*", "*"], ["不変化型", "基本形", "ん", "ン", "ン"]),
  ("公園", ["名詞", "一般", "*", "*"], ["*", "*", "公園", "コウエン", "コーエン"]),
  ("行か", ["動詞", "自立", "*", "*"], ["五段・カ行促音便", "未然形", "行く", "イカ", "イカ"]),
  ("食べ", ["動詞", "自立", "*", "*"], ["一段", "連用形", "食べる", "タベ", "タベ"]),
  ("小川", ["名詞", "固有名詞", "人名", "姓"], ["*", "*", "小川", "オガワ", "オガワ"]),
  ("未明", ["名詞", "固有名詞", "人名", "名"], ["*", "*", "未明", "ミメイ", "ミメイ"]),
  ("関西", ["名詞", "固有名詞", "地域", "一般"], ["*", "*", "関西", "カンサイ", "カンサイ"]),
  ("国際", ["名詞", "一般", "*", "*"], ["*", "*", "国際", "コクサイ", "コクサイ"]),
  ("空港", ["名詞", "一般", "*", "*"], ["*", "*", "空港", "クウコウ", "クーコー"]),
  ("関西国際空港", ["名詞", "固有名詞", "組織", "*"], ["*", "*", "関西国際空港", "カンサイコクサイクウコウ", "カンサイコクサイクーコー"]),
  ("行く", ["動詞", "自立", "*", "*"], ["五段・カ行促音便", "基本形", "行く", "イク", "イク"]),
  ("吾輩", ["名詞", "代名詞", "一般", "*"], ["*", "*", "吾輩", "ワガハイ", "ワガハイ"]),
  ("寿司", ["名詞", "一般", "*", "*"], ["*", "*", "寿司", "スシ", "スシ"]),
  ("を", ["助詞", "格助詞", "一般", "*"], ["*", "*", "を", "ヲ", "ヲ"]),
  ("たい", ["助動詞", "*", "*", "*"], ["特殊・タイ", "基本形", "たい", "タイ", "タイ"])]

def names : List String := (lexicon.flatMap (fun e => e.2.1)).eraseDups

/-- 0 default, 2 hiragana, 3 kanji, 4 katakana. -/
def category (r : Nat) : Nat :=
  if 0x3041 ≤ r ∧ r ≤ 0x3096 then 2
  else if 0x4E00 ≤ r ∧ r ≤ 0x9FFF then 3
  else if 0x30A1 ≤ r ∧ r ≤ 0x30FC then 4
  else 0

def dict : Dict where
  morphs := lexicon.map (fun e => if e.2.1.head? = some "名詞" then ⟨1, 1, 3000⟩ else ⟨2, 2, 2500⟩)
  poss := lexicon.map (fun e => e.2.1.map (fun p => names.findIdx (· = p)))
  nameList := names.map str
  contentsMeta := fun k =>
    if k = str "_inflectional_type" then some 4 else if k = str "_inflectional_form" then some 5 else if k = str "_base" then some 6
    else if k = str "_reading" then some 7 else if k = str "_pronunciation" then some 8 else none
  contents := some (lexicon.map (fun e => e.2.2.map str))
  connection := fun x y => some (if x = 1 ∧ y = 1 then 2000 else 0)
  prefixSearch := Toy.searchFrom 0 (lexicon.map (·.1))
  category := category
  invokeList := [true, false, false, false, true]
  groupList := [true, false, false, false, true]
  unk := { morphs := [⟨1, 1, 20000⟩, ⟨1, 1, 15000⟩]
           index := fun c => if c = 4 then 1 else 0
           indexDup := fun _ => 0
           contentsMeta := fun k => if k = str "_pos_start" then some 0 else if k = str "_pos_hierarchy" then some 4 else if k = str "_base" then some 6 else none
           contents := [["名詞", "固有名詞", "地域", "一般", "*", "*", "*"], ["名詞", "固有名詞", "組織", "*", "*", "*", "*"]].map (·.map str) }

/-- testdata/userdict.txt, in the order of the words (`dict.NewUserDict` sorts them). -/
def user : UserDict where
  prefixSearch := Toy.searchFrom 0 ["日本経済新聞", "朝青龍", "関西国際空港"]
  contents := [⟨["日本", "経済", "新聞"].map str, ["ニホン", "ケイザイ", "シンブン"].map str, str "カスタム名詞"⟩,
    ⟨["朝青龍"].map str, ["アサショウリュウ"].map str, str "カスタム人名"⟩,
    ⟨["関西", "国際", "空港"].map str, ["カンサイ", "コクサイ", "クウコウ"].map str, str "テスト名詞"⟩]

def tok : Tokenizer := ⟨dict, none, false⟩

/-- `unicode.Ideographic`, as far as the tests need it. -/
def ideo (r : Nat) : Bool := 0x4E00 ≤ r ∧ r ≤ 0x9FFF



/-- The tokens of a list of words, as the tokenizer makes them, without positions. The second component chooses among the words with the same
surface. -/
def tokens (ws : List (String × Nat)) : List Token :=
  ws.map (fun w =>
    if w.1 = "BOS" ∨ w.1 = "EOS" then ⟨0, -1, .dummy, 0, 0, 0, str w.1, some dict, none⟩
    else ⟨0, (((lexicon.zipIdx).filter (fun e => e.1.1 = w.1)).map (fun e => (e.2 : Int))).getD w.2 0, .known, 0, 0, 0, str w.1, some dict, none⟩)

/-- The text of the tests of filter, with the readings of filter/pos_test.go:14-38. -/
def sentence : List Token := tokens [("BOS", 0), ("赤い", 0), ("蝋燭", 0), ("と", 0), ("人魚", 0), ("。", 0), ("人魚", 0), ("は", 0), ("、", 0), ("南", 0),
  ("の", 0), ("方", 0), ("の", 0), ("海", 0), ("に", 0), ("ばかり", 0), ("棲ん", 0), ("で", 0), ("いる", 0), ("の", 1), ("で", 1), ("は", 0), ("あり", 0),
  ("ませ", 0), ("ん", 0), ("EOS", 0)]

/-- The sentences of a text, read at once. -/
def scan (s : Splitter) (text : String) : Option (List Bytes × ScanEnd) := scanAll s.scanSentences [⟨str text, false⟩]

def gives (ws : List String) : Option (List Bytes × ScanEnd) := some (ws.map str, .done)

end Kagome.Mini
