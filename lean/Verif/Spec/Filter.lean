import Verif.Go.Str

/-! What the filters of `/repo/filter` are meant to do. -/

namespace Kagome.Spec

open Kagome

/-- The feature that stands for every feature (`filter.Any`). -/
def any : Bytes := [0]

/-- A pattern matches the beginning of a feature vector, position by position. -/
def PatternPrefix (p fs : List Bytes) : Prop :=
  p.length ≤ fs.length ∧ ∀ (i : Nat) a, p[i]? = some a → a = any ∨ fs[i]? = some a

/-- A set of patterns matches a feature vector. Empty patterns match nothing. -/
def Matches (pats : List (List Bytes)) (fs : List Bytes) : Prop := ∃ p ∈ pats, p ≠ [] ∧ PatternPrefix p fs

/-- No two patterns agree up to a place where exactly one of them has `any`. -/
def NoClash (pats : List (List Bytes)) : Prop :=
  ∀ p ∈ pats, ∀ q ∈ pats, ∀ common a b p' q', p = common ++ a :: p' → q = common ++ b :: q' → a ≠ b → a ≠ any ∧ b ≠ any

/-! What a filter does when patterns clash. Patterns are sorted by their first feature: a feature that some pattern begins with, before any pattern begins
with `any`, has patterns of its own; all other patterns count as beginning with `any`. -/

/-- The first features of the patterns in front of the first one that begins with `any`. -/
def ownFeatures (pats : List (List Bytes)) : List Bytes :=
  ((pats.filterMap List.head?).takeWhile (fun v => decide (v ≠ any)))

/-- The rests of the patterns that are looked at after the feature `v`. -/
def restsAfter (pats : List (List Bytes)) (v : Bytes) : List (List Bytes) :=
  pats.filterMap (fun p =>
    match p with
    | [] => none
    | h :: rest => if (if v ∈ ownFeatures pats then h = v else h ∉ ownFeatures pats) then some rest else none)

/-- The patterns accept a feature vector: one of them is used up on the way. -/
def Accepts : List (List Bytes) → List Bytes → Prop
  | _, [] => False
  | pats, v :: fs => [] ∈ restsAfter pats v ∨ Accepts (restsAfter pats v) fs

/-! ### Configuration files -/

/-- A line without the carriage return at its end. -/
def withoutCR (line : Bytes) : Bytes :=
  match line.reverse with
  | 0x0D :: r => r.reverse
  | _ => line

/-- What a line contributes: its text before the first `#`, unless that is empty. -/
def entry (line : Bytes) : Option Bytes :=
  let text := (withoutCR line).takeWhile (· ≠ 0x23)
  if text = [] then none else some text

/-- The stop tags listed in `stop_tags.txt`, cut at the dashes. -/
def stopTags : List (List String) := [
    ["接続詞"], ["助詞"], ["助詞", "格助詞"], ["助詞", "格助詞", "一般"], ["助詞", "格助詞", "引用"], ["助詞", "格助詞", "連語"],
    ["助詞", "接続助詞"], ["助詞", "係助詞"], ["助詞", "副助詞"], ["助詞", "間投助詞"], ["助詞", "並立助詞"], ["助詞", "終助詞"],
    ["助詞", "副助詞／並立助詞／終助詞"], ["助詞", "連体化"], ["助詞", "副詞化"], ["助詞", "特殊"], ["助動詞"], ["記号"], ["記号", "一般"],
    ["記号", "読点"], ["記号", "句点"], ["記号", "空白"], ["記号", "括弧開"], ["記号", "括弧閉"], ["その他", "間投"], ["フィラー"], ["非言語音"]]

/-- A tag as the four POS levels of a token: missing levels are `*`. -/
def fourLevels (tag : List String) : List Bytes := ((tag.map str) ++ [str "*", str "*", str "*", str "*"]).take 4

/-- The stop words listed in `stop_words.txt`. -/
def stopWords : List String := [
    "の", "に", "は", "を", "た", "が", "で", "て", "と", "し", "れ", "さ", "ある", "いる",
    "も", "する", "から", "な", "こと", "として", "い", "や", "れる", "など", "なっ", "ない", "この", "ため",
    "その", "あっ", "よう", "また", "もの", "という", "あり", "まで", "られ", "なる", "へ", "か", "だ", "これ",
    "によって", "により", "おり", "より", "による", "ず", "なり", "られる", "において", "ば", "なかっ", "なく", "しかし", "について",
    "せ", "だっ", "その後", "できる", "それ", "う", "ので", "なお", "のみ", "でき", "き", "つ", "における", "および",
    "いう", "さらに", "でも", "ら", "たり", "その他", "に関する", "たち", "ます", "ん", "なら", "に対して", "特に", "せる",
    "及び", "これら", "とき", "では", "にて", "ほか", "ながら", "うち", "そして", "とともに", "ただし", "かつて", "それぞれ", "または",
    "お", "ほど", "ものの", "に対する", "ほとんど", "と共に", "といった", "です", "とも", "ところ", "ここ"]

end Kagome.Spec
