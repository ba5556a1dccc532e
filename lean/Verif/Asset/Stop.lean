import Verif.Go.Utf8

/-! The embedded files `/repo/filter/ja/asset/stop_tags.txt` and `stop_words.txt`, line by line (every line ends in a line feed), as
bytes. The comments show the lines. -/

namespace Kagome

/-- `/repo/filter/ja/asset/stop_tags.txt`, lines 1 to 30. -/
def stopTagsLines1 : List (List Nat) := [
  [35], -- #
  [35,32,84,104,105,115,32,102,105,108,101,32,100,101,102,105,110,101,115,32,97,32,74,97,112,97,110,101,115,101,32,115,116,111,112,116,97,103,32,115,101,116,32,102,111,114,32,74,97,112,97,110,101,115,101,80,97,114,116,79,102,83,112,101,101,99,104,83,116,111,112,70,105,108,116,101,114,46], -- # This file defines a Japanese stoptag set for JapanesePartOfSpeechStopFilter.
  [35], -- #
  [35,32,65,110,121,32,116,111,107,101,110,32,119,105,116,104,32,97,32,112,97,114,116,45,111,102,45,115,112,101,101,99,104,32,116,97,103,32,116,104,97,116,32,101,120,97,99,116,108,121,32,109,97,116,99,104,101,115,32,116,104,111,115,101,32,100,101,102,105,110,101,100,32,105,110,32,116,104,105,115], -- # Any token with a part-of-speech tag that exactly matches those defined in this
  [35,32,102,105,108,101,32,97,114,101,32,114,101,109,111,118,101,100,32,102,114,111,109,32,116,104,101,32,116,111,107,101,110,32,115,116,114,101,97,109,46], -- # file are removed from the token stream.
  [35], -- #
  [35,32,83,101,116,32,121,111,117,114,32,111,119,110,32,115,116,111,112,116,97,103,115,32,98,121,32,117,110,99,111,109,109,101,110,116,105,110,103,32,116,104,101,32,108,105,110,101,115,32,98,101,108,111,119,46,32,32,78,111,116,101,32,116,104,97,116,32,99,111,109,109,101,110,116,115,32,97,114,101], -- # Set your own stoptags by uncommenting the lines below.  Note that comments are
  [35,32,110,111,116,32,97,108,108,111,119,101,100,32,111,110,32,116,104,101,32,115,97,109,101,32,108,105,110,101,32,97,115,32,97,32,115,116,111,112,116,97,103,46,32,32,83,101,101,32,76,85,67,69,78,69,45,51,55,52,53,32,102,111,114,32,102,114,101,113,117,101,110,99,121,32,108,105,115,116,115,44], -- # not allowed on the same line as a stoptag.  See LUCENE-3745 for frequency lists,
  [35,32,101,116,99,46,32,116,104,97,116,32,99,97,110,32,98,101,32,117,115,101,102,117,108,32,102,111,114,32,98,117,105,108,100,105,110,103,32,121,111,117,32,111,119,110,32,115,116,111,112,116,97,103,32,115,101,116,46], -- # etc. that can be useful for building you own stoptag set.
  [35], -- #
  [35,32,84,104,101,32,101,110,116,105,114,101,32,112,111,115,115,105,98,108,101,32,116,97,103,115,101,116,32,105,115,32,112,114,111,118,105,100,101,100,32,98,101,108,111,119,32,102,111,114,32,99,111,110,118,101,110,105,101,110,99,101,46], -- # The entire possible tagset is provided below for convenience.
  [35], -- #
  [35,35,35,35,35], -- #####
  [35,32,32,110,111,117,110,58,32,117,110,99,108,97,115,115,105,102,105,101,100,32,110,111,117,110,115], -- #  noun: unclassified nouns
  [35,229,144,141,232,169,158], -- #名詞
  [35], -- #
  [35,32,32,110,111,117,110,45,99,111,109,109,111,110,58,32,67,111,109,109,111,110,32,110,111,117,110,115,32,111,114,32,110,111,117,110,115,32,119,104,101,114,101,32,116,104,101,32,115,117,98,45,99,108,97,115,115,105,102,105,99,97,116,105,111,110,32,105,115,32,117,110,100,101,102,105,110,101,100], -- #  noun-common: Common nouns or nouns where the sub-classification is undefined
  [35,229,144,141,232,169,158,45,228,184,128,232,136,172], -- #名詞-一般
  [35], -- #
  [35,32,32,110,111,117,110,45,112,114,111,112,101,114,58,32,80,114,111,112,101,114,32,110,111,117,110,115,32,119,104,101,114,101,32,116,104,101,32,115,117,98,45,99,108,97,115,115,105,102,105,99,97,116,105,111,110,32,105,115,32,117,110,100,101,102,105,110,101,100], -- #  noun-proper: Proper nouns where the sub-classification is undefined
  [35,229,144,141,232,169,158,45,229,155,186,230,156,137,229,144,141,232,169,158], -- #名詞-固有名詞
  [35], -- #
  [35,32,32,110,111,117,110,45,112,114,111,112,101,114,45,109,105,115,99,58,32,109,105,115,99,101,108,108,97,110,101,111,117,115,32,112,114,111,112,101,114,32,110,111,117,110,115], -- #  noun-proper-misc: miscellaneous proper nouns
  [35,229,144,141,232,169,158,45,229,155,186,230,156,137,229,144,141,232,169,158,45,228,184,128,232,136,172], -- #名詞-固有名詞-一般
  [35], -- #
  [35,32,32,110,111,117,110,45,112,114,111,112,101,114,45,112,101,114,115,111,110,58,32,80,101,114,115,111,110,97,108,32,110,97,109,101,115,32,119,104,101,114,101,32,116,104,101,32,115,117,98,45,99,108,97,115,115,105,102,105,99,97,116,105,111,110,32,105,115,32,117,110,100,101,102,105,110,101,100], -- #  noun-proper-person: Personal names where the sub-classification is undefined
  [35,229,144,141,232,169,158,45,229,155,186,230,156,137,229,144,141,232,169,158,45,228,186,186,229,144,141], -- #名詞-固有名詞-人名
  [35], -- #
  [35,32,32,110,111,117,110,45,112,114,111,112,101,114,45,112,101,114,115,111,110,45,109,105,115,99,58,32,110,97,109,101,115,32,116,104,97,116,32,99,97,110,110,111,116,32,98,101,32,100,105,118,105,100,101,100,32,105,110,116,111,32,115,117,114,110,97,109,101,32,97,110,100], -- #  noun-proper-person-misc: names that cannot be divided into surname and
  [35,32,32,103,105,118,101,110,32,110,97,109,101,59,32,102,111,114,101,105,103,110,32,110,97,109,101,115,59,32,110,97,109,101,115,32,119,104,101,114,101,32,116,104,101,32,115,117,114,110,97,109,101,32,111,114,32,103,105,118,101,110,32,110,97,109,101,32,105,115,32,117,110,107,110,111,119,110,46]] -- #  given name; foreign names; names where the surname or given name is unknown.

/-- `/repo/filter/ja/asset/stop_tags.txt`, lines 31 to 60. -/
def stopTagsLines2 : List (List Nat) := [
  [35,32,32,101,46,103,46,32,227,129,138,229,184,130,227,129,174,230,150,185], -- #  e.g. お市の方
  [35,229,144,141,232,169,158,45,229,155,186,230,156,137,229,144,141,232,169,158,45,228,186,186,229,144,141,45,228,184,128,232,136,172], -- #名詞-固有名詞-人名-一般
  [35], -- #
  [35,32,32,110,111,117,110,45,112,114,111,112,101,114,45,112,101,114,115,111,110,45,115,117,114,110,97,109,101,58,32,77,97,105,110,108,121,32,74,97,112,97,110,101,115,101,32,115,117,114,110,97,109,101,115,46], -- #  noun-proper-person-surname: Mainly Japanese surnames.
  [35,32,32,101,46,103,46,32,229,177,177,231,148,176], -- #  e.g. 山田
  [35,229,144,141,232,169,158,45,229,155,186,230,156,137,229,144,141,232,169,158,45,228,186,186,229,144,141,45,229,167,147], -- #名詞-固有名詞-人名-姓
  [35], -- #
  [35,32,32,110,111,117,110,45,112,114,111,112,101,114,45,112,101,114,115,111,110,45,103,105,118,101,110,95,110,97,109,101,58,32,77,97,105,110,108,121,32,74,97,112,97,110,101,115,101,32,103,105,118,101,110,32,110,97,109,101,115,46], -- #  noun-proper-person-given_name: Mainly Japanese given names.
  [35,32,32,101,46,103,46,32,229,164,170,233,131,142], -- #  e.g. 太郎
  [35,229,144,141,232,169,158,45,229,155,186,230,156,137,229,144,141,232,169,158,45,228,186,186,229,144,141,45,229,144,141], -- #名詞-固有名詞-人名-名
  [35], -- #
  [35,32,32,110,111,117,110,45,112,114,111,112,101,114,45,111,114,103,97,110,105,122,97,116,105,111,110,58,32,78,97,109,101,115,32,114,101,112,114,101,115,101,110,116,105,110,103,32,111,114,103,97,110,105,122,97,116,105,111,110,115,46], -- #  noun-proper-organization: Names representing organizations.
  [35,32,32,101,46,103,46,32,233,128,154,231,148,163,231,156,129,44,32,78,72,75], -- #  e.g. 通産省, NHK
  [35,229,144,141,232,169,158,45,229,155,186,230,156,137,229,144,141,232,169,158,45,231,181,132,231,185,148], -- #名詞-固有名詞-組織
  [35], -- #
  [35,32,32,110,111,117,110,45,112,114,111,112,101,114,45,112,108,97,99,101,58,32,80,108,97,99,101,32,110,97,109,101,115,32,119,104,101,114,101,32,116,104,101,32,115,117,98,45,99,108,97,115,115,105,102,105,99,97,116,105,111,110,32,105,115,32,117,110,100,101,102,105,110,101,100], -- #  noun-proper-place: Place names where the sub-classification is undefined
  [35,229,144,141,232,169,158,45,229,155,186,230,156,137,229,144,141,232,169,158,45,229,156,176,229,159,159], -- #名詞-固有名詞-地域
  [35], -- #
  [35,32,32,110,111,117,110,45,112,114,111,112,101,114,45,112,108,97,99,101,45,109,105,115,99,58,32,80,108,97,99,101,32,110,97,109,101,115,32,101,120,99,108,117,100,105,110,103,32,99,111,117,110,116,114,105,101,115,46], -- #  noun-proper-place-misc: Place names excluding countries.
  [35,32,32,101,46,103,46,32,227,130,162,227,130,184,227,130,162,44,32,227,131,144,227,131,171,227,130,187,227,131,173,227,131,138,44,32,228,186,172,233,131,189], -- #  e.g. アジア, バルセロナ, 京都
  [35,229,144,141,232,169,158,45,229,155,186,230,156,137,229,144,141,232,169,158,45,229,156,176,229,159,159,45,228,184,128,232,136,172], -- #名詞-固有名詞-地域-一般
  [35], -- #
  [35,32,32,110,111,117,110,45,112,114,111,112,101,114,45,112,108,97,99,101,45,99,111,117,110,116,114,121,58,32,67,111,117,110,116,114,121,32,110,97,109,101,115,46], -- #  noun-proper-place-country: Country names.
  [35,32,32,101,46,103,46,32,230,151,165,230,156,172,44,32,227,130,170,227,131,188,227,130,185,227,131,136,227,131,169,227,131,170,227,130,162], -- #  e.g. 日本, オーストラリア
  [35,229,144,141,232,169,158,45,229,155,186,230,156,137,229,144,141,232,169,158,45,229,156,176,229,159,159,45,229,155,189], -- #名詞-固有名詞-地域-国
  [35], -- #
  [35,32,32,110,111,117,110,45,112,114,111,110,111,117,110,58,32,80,114,111,110,111,117,110,115,32,119,104,101,114,101,32,116,104,101,32,115,117,98,45,99,108,97,115,115,105,102,105,99,97,116,105,111,110,32,105,115,32,117,110,100,101,102,105,110,101,100], -- #  noun-pronoun: Pronouns where the sub-classification is undefined
  [35,229,144,141,232,169,158,45,228,187,163,229,144,141,232,169,158], -- #名詞-代名詞
  [35], -- #
  [35,32,32,110,111,117,110,45,112,114,111,110,111,117,110,45,109,105,115,99,58,32,109,105,115,99,101,108,108,97,110,101,111,117,115,32,112,114,111,110,111,117,110,115,58]] -- #  noun-pronoun-misc: miscellaneous pronouns:

/-- `/repo/filter/ja/asset/stop_tags.txt`, lines 61 to 90. -/
def stopTagsLines3 : List (List Nat) := [
  [35,32,32,101,46,103,46,32,227,129,157,227,130,140,44,32,227,129,147,227,129,147,44,32,227,129,130,227,129,132,227,129,164,44,32,227,129,130,227,129,170,227,129,159,44,32,227,129,130,227,129,161,227,129,147,227,129,161,44,32,227,129,132,227,129,143,227,129,164,44,32,227,129,169,227,129,147,227,129,139,44,32,227,129,170,227,129,171,44,32,227,129,191,227,129,170,227,129,149,227,130,147,44,32,227,129,191,227,130,147,227,129,170,44,32,227,130,143,227,129,159,227,129,143,227,129,151,44,32,227,130,143,227,130,140,227,130,143,227,130,140], -- #  e.g. それ, ここ, あいつ, あなた, あちこち, いくつ, どこか, なに, みなさん, みんな, わたくし, われわれ
  [35,229,144,141,232,169,158,45,228,187,163,229,144,141,232,169,158,45,228,184,128,232,136,172], -- #名詞-代名詞-一般
  [35], -- #
  [35,32,32,110,111,117,110,45,112,114,111,110,111,117,110,45,99,111,110,116,114,97,99,116,105,111,110,58,32,83,112,111,107,101,110,32,108,97,110,103,117,97,103,101,32,99,111,110,116,114,97,99,116,105,111,110,32,109,97,100,101,32,98,121,32,99,111,109,98,105,110,105,110,103,32,97], -- #  noun-pronoun-contraction: Spoken language contraction made by combining a
  [35,32,32,112,114,111,110,111,117,110,32,97,110,100,32,116,104,101,32,112,97,114,116,105,99,108,101,32,39,119,97,39,46], -- #  pronoun and the particle 'wa'.
  [35,32,32,101,46,103,46,32,227,129,130,227,130,138,227,130,131,44,32,227,129,147,227,130,138,227,130,131,44,32,227,129,147,227,130,138,227,130,131,227,129,130,44,32,227,129,157,227,130,138,227,130,131,44,32,227,129,157,227,130,138,227,130,131,227,129,130], -- #  e.g. ありゃ, こりゃ, こりゃあ, そりゃ, そりゃあ
  [35,229,144,141,232,169,158,45,228,187,163,229,144,141,232,169,158,45,231,184,174,231,180,132], -- #名詞-代名詞-縮約
  [35], -- #
  [35,32,32,110,111,117,110,45,97,100,118,101,114,98,105,97,108,58,32,84,101,109,112,111,114,97,108,32,110,111,117,110,115,32,115,117,99,104,32,97,115,32,110,97,109,101,115,32,111,102,32,100,97,121,115,32,111,114,32,109,111,110,116,104,115,32,116,104,97,116,32,98,101,104,97,118,101], -- #  noun-adverbial: Temporal nouns such as names of days or months that behave
  [35,32,32,108,105,107,101,32,97,100,118,101,114,98,115,46,32,78,111,117,110,115,32,116,104,97,116,32,114,101,112,114,101,115,101,110,116,32,97,109,111,117,110,116,32,111,114,32,114,97,116,105,111,115,32,97,110,100,32,99,97,110,32,98,101,32,117,115,101,100,32,97,100,118,101,114,98,105,97,108,108,121,44], -- #  like adverbs. Nouns that represent amount or ratios and can be used adverbially,
  [35,32,32,101,46,103,46,32,233,135,145,230,155,156,44,32,228,184,128,230,156,136,44,32,229,141,136,229,190,140,44,32,229,176,145,233,135,143], -- #  e.g. 金曜, 一月, 午後, 少量
  [35,229,144,141,232,169,158,45,229,137,175,232,169,158,229,143,175,232,131,189], -- #名詞-副詞可能
  [35], -- #
  [35,32,32,110,111,117,110,45,118,101,114,98,97,108,58,32,78,111,117,110,115,32,116,104,97,116,32,116,97,107,101,32,97,114,103,117,109,101,110,116,115,32,119,105,116,104,32,99,97,115,101,32,97,110,100,32,99,97,110,32,97,112,112,101,97,114,32,102,111,108,108,111,119,101,100,32,98,121], -- #  noun-verbal: Nouns that take arguments with case and can appear followed by
  [35,32,32,39,115,117,114,117,39,32,97,110,100,32,114,101,108,97,116,101,100,32,118,101,114,98,115,32,40,227,129,153,227,130,139,44,32,227,129,167,227,129,141,227,130,139,44,32,227,129,170,227,129,149,227,130,139,44,32,227,129,143,227,129,160,227,129,149,227,130,139,41], -- #  'suru' and related verbs (する, できる, なさる, くださる)
  [35,32,32,101,46,103,46,32,227,130,164,227,131,179,227,131,151,227,131,131,227,131,136,44,32,230,132,155,231,157,128,44,32,230,130,170,229,140,150,44,32,230,130,170,230,136,166,232,139,166,233,151,152,44,32,228,184,128,229,174,137,229,191,131,44,32,228,184,139,229,143,150,227,130,138], -- #  e.g. インプット, 愛着, 悪化, 悪戦苦闘, 一安心, 下取り
  [35,229,144,141,232,169,158,45,227,130,181,229,164,137,230,142,165,231,182,154], -- #名詞-サ変接続
  [35], -- #
  [35,32,32,110,111,117,110,45,97,100,106,101,99,116,105,118,101,45,98,97,115,101,58,32,84,104,101,32,98,97,115,101,32,102,111,114,109,32,111,102,32,97,100,106,101,99,116,105,118,101,115,44,32,119,111,114,100,115,32,116,104,97,116,32,97,112,112,101,97,114,32,98,101,102,111,114,101,32,227,129,170,32,40,34,110,97,34,41], -- #  noun-adjective-base: The base form of adjectives, words that appear before な ("na")
  [35,32,32,101,46,103,46,32,229,129,165,229,186,183,44,32,229,174,137,230,152,147,44,32,233,167,132,231,155,174,44,32,227,129,160,227,130,129], -- #  e.g. 健康, 安易, 駄目, だめ
  [35,229,144,141,232,169,158,45,229,189,162,229,174,185,229,139,149,232,169,158,232,170,158,229,185,185], -- #名詞-形容動詞語幹
  [35], -- #
  [35,32,32,110,111,117,110,45,110,117,109,101,114,105,99,58,32,65,114,97,98,105,99,32,110,117,109,98,101,114,115,44,32,67,104,105,110,101,115,101,32,110,117,109,101,114,97,108,115,44,32,97,110,100,32,99,111,117,110,116,101,114,115,32,108,105,107,101,32,228,189,149,32,40,229,155,158,41,44,32,230,149,176,46], -- #  noun-numeric: Arabic numbers, Chinese numerals, and counters like 何 (回), 数.
  [35,32,32,101,46,103,46,32,48,44,32,49,44,32,50,44,32,228,189,149,44,32,230,149,176,44,32,229,185,190], -- #  e.g. 0, 1, 2, 何, 数, 幾
  [35,229,144,141,232,169,158,45,230,149,176], -- #名詞-数
  [35], -- #
  [35,32,32,110,111,117,110,45,97,102,102,105,120,58,32,110,111,117,110,32,97,102,102,105,120,101,115,32,119,104,101,114,101,32,116,104,101,32,115,117,98,45,99,108,97,115,115,105,102,105,99,97,116,105,111,110,32,105,115,32,117,110,100,101,102,105,110,101,100], -- #  noun-affix: noun affixes where the sub-classification is undefined
  [35,229,144,141,232,169,158,45,233,157,158,232,135,170,231,171,139], -- #名詞-非自立
  [35], -- #
  [35,32,32,110,111,117,110,45,97,102,102,105,120,45,109,105,115,99,58,32,79,102,32,97,100,110,111,109,105,110,97,108,105,122,101,114,115,44,32,116,104,101,32,99,97,115,101,45,109,97,114,107,101,114,32,227,129,174,32,40,34,110,111,34,41,44,32,97,110,100,32,119,111,114,100,115,32,116,104,97,116]] -- #  noun-affix-misc: Of adnominalizers, the case-marker の ("no"), and words that

/-- `/repo/filter/ja/asset/stop_tags.txt`, lines 91 to 120. -/
def stopTagsLines4 : List (List Nat) := [
  [35,32,32,97,116,116,97,99,104,32,116,111,32,116,104,101,32,98,97,115,101,32,102,111,114,109,32,111,102,32,105,110,102,108,101,99,116,105,111,110,97,108,32,119,111,114,100,115,44,32,119,111,114,100,115,32,116,104,97,116,32,99,97,110,110,111,116,32,98,101,32,99,108,97,115,115,105,102,105,101,100], -- #  attach to the base form of inflectional words, words that cannot be classified
  [35,32,32,105,110,116,111,32,97,110,121,32,111,102,32,116,104,101,32,111,116,104,101,114,32,99,97,116,101,103,111,114,105,101,115,32,98,101,108,111,119,46,32,84,104,105,115,32,99,97,116,101,103,111,114,121,32,105,110,99,108,117,100,101,115,32,105,110,100,101,102,105,110,105,116,101,32,110,111,117,110,115,46], -- #  into any of the other categories below. This category includes indefinite nouns.
  [35,32,32,101,46,103,46,32,227,129,130,227,129,139,227,129,164,227,129,141,44,32,230,154,129,44,32,227,129,139,227,129,132,44,32,231,148,178,230,150,144,44,32,230,176,151,44,32,227,129,141,227,130,137,227,129,132,44,32,229,171,140,227,129,132,44,32,227,129,143,227,129,155,44,32,231,153,150,44,32,227,129,147,227,129,168,44,32,228,186,139,44,32,227,129,148,227,129,168,44,32,230,175,142,44,32,227,129,151,227,129,160,227,129,132,44,32,230,172,161,231,172,172,44], -- #  e.g. あかつき, 暁, かい, 甲斐, 気, きらい, 嫌い, くせ, 癖, こと, 事, ごと, 毎, しだい, 次第,
  [35,32,32,32,32,32,32,32,233,160,134,44,32,227,129,155,227,129,132,44,32,230,137,128,231,130,186,44,32,227,129,164,227,129,132,227,129,167,44,32,229,186,143,227,129,167,44,32,227,129,164,227,130,130,227,130,138,44,32,231,169,141,227,130,130,227,130,138,44,32,231,130,185,44,32,227,129,169,227,129,147,227,130,141,44,32,227,129,174,44,32,227,129,175,227,129,154,44,32,231,173,136,44,32,227,129,175,227,129,154,227,129,191,44,32,229,188,190,227,129,191,44], -- #       順, せい, 所為, ついで, 序で, つもり, 積もり, 点, どころ, の, はず, 筈, はずみ, 弾み,
  [35,32,32,32,32,32,32,32,230,139,141,229,173,144,44,32,227,129,181,227,129,134,44,32,227,129,181,227,130,138,44,32,230,140,175,227,130,138,44,32,227,129,187,227,129,134,44,32,230,150,185,44,32,230,151,168,44,32,227,130,130,227,129,174,44,32,231,137,169,44,32,232,128,133,44,32,227,130,134,227,129,136,44,32,230,149,133,44,32,227,130,134,227,129,136,227,130,147,44,32,230,137,128,228,187,165,44,32,227,130,143,227,129,145,44,32,232,168,179,44], -- #       拍子, ふう, ふり, 振り, ほう, 方, 旨, もの, 物, 者, ゆえ, 故, ゆえん, 所以, わけ, 訳,
  [35,32,32,32,32,32,32,32,227,130,143,227,130,138,44,32,229,137,178,227,130,138,44,32,229,137,178,44,32,227,130,147,45,229,143,163,232,170,158,47,44,32,227,130,130,227,130,147,45,229,143,163,232,170,158,47], -- #       わり, 割り, 割, ん-口語/, もん-口語/
  [35,229,144,141,232,169,158,45,233,157,158,232,135,170,231,171,139,45,228,184,128,232,136,172], -- #名詞-非自立-一般
  [35], -- #
  [35,32,32,110,111,117,110,45,97,102,102,105,120,45,97,100,118,101,114,98,105,97,108,58,32,110,111,117,110,32,97,102,102,105,120,101,115,32,116,104,97,116,32,116,104,97,116,32,99,97,110,32,98,101,104,97,118,101,32,97,115,32,97,100,118,101,114,98,115,46], -- #  noun-affix-adverbial: noun affixes that that can behave as adverbs.
  [35,32,32,101,46,103,46,32,227,129,130,227,129,132,227,129,160,44,32,233,150,147,44,32,227,129,130,227,129,146,227,129,143,44,32,230,140,153,227,129,146,229,143,165,44,32,227,129,130,227,129,168,44,32,229,190,140,44,32,228,189,153,227,130,138,44,32,228,187,165,229,164,150,44,32,228,187,165,233,153,141,44,32,228,187,165,229,190,140,44,32,228,187,165,228,184,138,44,32,228,187,165,229,137,141,44,32,228,184,128,230,150,185,44,32,227,129,134,227,129,136,44], -- #  e.g. あいだ, 間, あげく, 挙げ句, あと, 後, 余り, 以外, 以降, 以後, 以上, 以前, 一方, うえ,
  [35,32,32,32,32,32,32,32,228,184,138,44,32,227,129,134,227,129,161,44,32,229,134,133,44,32,227,129,138,227,130,138,44,32,230,138,152,227,130,138,44,32,227,129,139,227,129,142,227,130,138,44,32,233,153,144,227,130,138,44,32,227,129,141,227,130,138,44,32,227,129,163,227,129,141,227,130,138,44,32,231,181,144,230,158,156,44,32,227,129,147,227,130,141,44,32,233,160,131,44,32,227,129,149,227,129,132,44,32,233,154,155,44,32,230,156,128,228,184,173,44,32,227,129,149,227,129,170,227,129,139,44], -- #       上, うち, 内, おり, 折り, かぎり, 限り, きり, っきり, 結果, ころ, 頃, さい, 際, 最中, さなか,
  [35,32,32,32,32,32,32,32,230,156,128,228,184,173,44,32,227,129,152,227,129,159,227,129,132,44,32,232,135,170,228,189,147,44,32,227,129,159,227,129,179,44,32,229,186,166,44,32,227,129,159,227,130,129,44,32,231,130,186,44,32,227,129,164,227,129,169,44,32,233,131,189,229,186,166,44,32,227,129,168,227,129,138,227,130,138,44,32,233,128,154,227,130,138,44,32,227,129,168,227,129,141,44,32,230,153,130,44,32,227,129,168,227,129,147,227,130,141,44,32,230,137,128,44], -- #       最中, じたい, 自体, たび, 度, ため, 為, つど, 都度, とおり, 通り, とき, 時, ところ, 所,
  [35,32,32,32,32,32,32,32,227,129,168,227,129,159,227,130,147,44,32,233,128,148,231,171,175,44,32,227,129,170,227,129,139,44,32,228,184,173,44,32,227,129,174,227,129,161,44,32,229,190,140,44,32,227,129,176,227,129,130,227,129,132,44,32,229,160,180,229,144,136,44,32,230,151,165,44,32,227,129,182,227,130,147,44,32,229,136,134,44,32,227,129,187,227,129,139,44,32,228,187,150,44,32,227,129,190,227,129,136,44,32,229,137,141,44,32,227,129,190,227,129,190,44], -- #       とたん, 途端, なか, 中, のち, 後, ばあい, 場合, 日, ぶん, 分, ほか, 他, まえ, 前, まま,
  [35,32,32,32,32,32,32,32,229,132,152,44,32,228,190,173,44,32,227,129,191,227,129,142,227,130,138,44,32,231,159,162,229,133,136], -- #       儘, 侭, みぎり, 矢先
  [35,229,144,141,232,169,158,45,233,157,158,232,135,170,231,171,139,45,229,137,175,232,169,158,229,143,175,232,131,189], -- #名詞-非自立-副詞可能
  [35], -- #
  [35,32,32,110,111,117,110,45,97,102,102,105,120,45,97,117,120,58,32,110,111,117,110,32,97,102,102,105,120,101,115,32,116,114,101,97,116,101,100,32,97,115,32,229,138,169,229,139,149,232,169,158,32,40,34,97,117,120,105,108,105,97,114,121,32,118,101,114,98,34,41,32,105,110,32,115,99,104,111,111,108,32,103,114,97,109,109,97,114,115], -- #  noun-affix-aux: noun affixes treated as 助動詞 ("auxiliary verb") in school grammars
  [35,32,32,119,105,116,104,32,116,104,101,32,115,116,101,109,32,227,130,136,227,129,134,40,227,129,160,41,32,40,34,121,111,117,40,100,97,41,34,41,46], -- #  with the stem よう(だ) ("you(da)").
  [35,32,32,101,46,103,46,32,32,227,130,136,227,129,134,44,32,227,130,132,227,129,134,44,32,230,167,152,32,40,227,130,136,227,129,134,41], -- #  e.g.  よう, やう, 様 (よう)
  [35,229,144,141,232,169,158,45,233,157,158,232,135,170,231,171,139,45,229,138,169,229,139,149,232,169,158,232,170,158,229,185,185], -- #名詞-非自立-助動詞語幹
  [35], -- #
  [35,32,32,110,111,117,110,45,97,102,102,105,120,45,97,100,106,101,99,116,105,118,101,45,98,97,115,101,58,32,110,111,117,110,32,97,102,102,105,120,101,115,32,116,104,97,116,32,99,97,110,32,99,111,110,110,101,99,116,32,116,111,32,116,104,101,32,105,110,100,101,99,108,105,110,97,98,108,101], -- #  noun-affix-adjective-base: noun affixes that can connect to the indeclinable
  [35,32,32,99,111,110,110,101,99,116,105,111,110,32,102,111,114,109,32,227,129,170,32,40,97,117,120,32,34,100,97,34,41,46], -- #  connection form な (aux "da").
  [35,32,32,101,46,103,46,32,227,129,191,227,129,159,227,129,132,44,32,227,129,181,227,129,134], -- #  e.g. みたい, ふう
  [35,229,144,141,232,169,158,45,233,157,158,232,135,170,231,171,139,45,229,189,162,229,174,185,229,139,149,232,169,158,232,170,158,229,185,185], -- #名詞-非自立-形容動詞語幹
  [35], -- #
  [35,32,32,110,111,117,110,45,115,112,101,99,105,97,108,58,32,115,112,101,99,105,97,108,32,110,111,117,110,115,32,119,104,101,114,101,32,116,104,101,32,115,117,98,45,99,108,97,115,115,105,102,105,99,97,116,105,111,110,32,105,115,32,117,110,100,101,102,105,110,101,100,46], -- #  noun-special: special nouns where the sub-classification is undefined.
  [35,229,144,141,232,169,158,45,231,137,185,230,174,138], -- #名詞-特殊
  [35], -- #
  [35,32,32,110,111,117,110,45,115,112,101,99,105,97,108,45,97,117,120,58,32,84,104,101,32,227,129,157,227,129,134,227,129,160,32,40,34,115,111,117,100,97,34,41,32,115,116,101,109,32,102,111,114,109,32,116,104,97,116,32,105,115,32,117,115,101,100,32,102,111,114,32,114,101,112,111,114,116,105,110,103,32,110,101,119,115,44,32,105,115]] -- #  noun-special-aux: The そうだ ("souda") stem form that is used for reporting news, is

/-- `/repo/filter/ja/asset/stop_tags.txt`, lines 121 to 150. -/
def stopTagsLines5 : List (List Nat) := [
  [35,32,32,116,114,101,97,116,101,100,32,97,115,32,229,138,169,229,139,149,232,169,158,32,40,34,97,117,120,105,108,105,97,114,121,32,118,101,114,98,34,41,32,105,110,32,115,99,104,111,111,108,32,103,114,97,109,109,97,114,115,44,32,97,110,100,32,97,116,116,97,99,104,32,116,111,32,116,104,101,32,98,97,115,101], -- #  treated as 助動詞 ("auxiliary verb") in school grammars, and attach to the base
  [35,32,32,102,111,114,109,32,111,102,32,105,110,102,108,101,99,116,105,111,110,97,108,32,119,111,114,100,115,46], -- #  form of inflectional words.
  [35,32,32,101,46,103,46,32,227,129,157,227,129,134], -- #  e.g. そう
  [35,229,144,141,232,169,158,45,231,137,185,230,174,138,45,229,138,169,229,139,149,232,169,158,232,170,158,229,185,185], -- #名詞-特殊-助動詞語幹
  [35], -- #
  [35,32,32,110,111,117,110,45,115,117,102,102,105,120,58,32,110,111,117,110,32,115,117,102,102,105,120,101,115,32,119,104,101,114,101,32,116,104,101,32,115,117,98,45,99,108,97,115,115,105,102,105,99,97,116,105,111,110,32,105,115,32,117,110,100,101,102,105,110,101,100,46], -- #  noun-suffix: noun suffixes where the sub-classification is undefined.
  [35,229,144,141,232,169,158,45,230,142,165,229,176,190], -- #名詞-接尾
  [35], -- #
  [35,32,32,110,111,117,110,45,115,117,102,102,105,120,45,109,105,115,99,58,32,79,102,32,116,104,101,32,110,111,117,110,115,32,111,114,32,115,116,101,109,32,102,111,114,109,115,32,111,102,32,111,116,104,101,114,32,112,97,114,116,115,32,111,102,32,115,112,101,101,99,104,32,116,104,97,116,32,99,111,110,110,101,99,116], -- #  noun-suffix-misc: Of the nouns or stem forms of other parts of speech that connect
  [35,32,32,116,111,32,227,130,172,227,131,171,32,111,114,32,227,130,191,227,130,164,32,97,110,100,32,99,97,110,32,99,111,109,98,105,110,101,32,105,110,116,111,32,99,111,109,112,111,117,110,100,32,110,111,117,110,115,44,32,119,111,114,100,115,32,116,104,97,116,32,99,97,110,110,111,116,32,98,101,32,99,108,97,115,115,105,102,105,101,100,32,105,110,116,111], -- #  to ガル or タイ and can combine into compound nouns, words that cannot be classified into
  [35,32,32,97,110,121,32,111,102,32,116,104,101,32,111,116,104,101,114,32,99,97,116,101,103,111,114,105,101,115,32,98,101,108,111,119,46,32,73,110,32,103,101,110,101,114,97,108,44,32,116,104,105,115,32,99,97,116,101,103,111,114,121,32,105,115,32,109,111,114,101,32,105,110,99,108,117,115,105,118,101,32,116,104,97,110], -- #  any of the other categories below. In general, this category is more inclusive than
  [35,32,32,230,142,165,229,176,190,232,170,158,32,40,34,115,117,102,102,105,120,34,41,32,97,110,100,32,105,115,32,117,115,117,97,108,108,121,32,116,104,101,32,108,97,115,116,32,101,108,101,109,101,110,116,32,105,110,32,97,32,99,111,109,112,111,117,110,100,32,110,111,117,110,46], -- #  接尾語 ("suffix") and is usually the last element in a compound noun.
  [35,32,32,101,46,103,46,32,227,129,138,227,129,141,44,32,227,129,139,227,129,159,44,32,230,150,185,44,32,231,148,178,230,150,144,32,40,227,129,140,227,129,132,41,44,32,227,129,140,227,129,139,227,130,138,44,32,227,129,142,227,129,191,44,32,230,176,151,229,145,179,44,32,227,129,144,227,130,139,227,129,191,44,32,40,239,189,158,227,129,151,227,129,159,41,32,227,129,149,44,32,230,172,161,231,172,172,44,32,230,184,136,32,40,227,129,154,41,32,227,129,191,44], -- #  e.g. おき, かた, 方, 甲斐 (がい), がかり, ぎみ, 気味, ぐるみ, (～した) さ, 次第, 済 (ず) み,
  [35,32,32,32,32,32,32,32,227,130,136,227,129,134,44,32,40,227,129,167,227,129,141,41,227,129,163,227,129,147,44,32,230,132,159,44,32,232,166,179,44,32,230,128,167,44,32,229,173,166,44,32,233,161,158,44,32,233,157,162,44,32,231,148,168], -- #       よう, (でき)っこ, 感, 観, 性, 学, 類, 面, 用
  [35,229,144,141,232,169,158,45,230,142,165,229,176,190,45,228,184,128,232,136,172], -- #名詞-接尾-一般
  [35], -- #
  [35,32,32,110,111,117,110,45,115,117,102,102,105,120,45,112,101,114,115,111,110,58,32,83,117,102,102,105,120,101,115,32,116,104,97,116,32,102,111,114,109,32,110,111,117,110,115,32,97,110,100,32,97,116,116,97,99,104,32,116,111,32,112,101,114,115,111,110,32,110,97,109,101,115,32,109,111,114,101,32,111,102,116,101,110], -- #  noun-suffix-person: Suffixes that form nouns and attach to person names more often
  [35,32,32,116,104,97,110,32,111,116,104,101,114,32,110,111,117,110,115,46], -- #  than other nouns.
  [35,32,32,101,46,103,46,32,229,144,155,44,32,230,167,152,44,32,232,145,151], -- #  e.g. 君, 様, 著
  [35,229,144,141,232,169,158,45,230,142,165,229,176,190,45,228,186,186,229,144,141], -- #名詞-接尾-人名
  [35], -- #
  [35,32,32,110,111,117,110,45,115,117,102,102,105,120,45,112,108,97,99,101,58,32,83,117,102,102,105,120,101,115,32,116,104,97,116,32,102,111,114,109,32,110,111,117,110,115,32,97,110,100,32,97,116,116,97,99,104,32,116,111,32,112,108,97,99,101,32,110,97,109,101,115,32,109,111,114,101,32,111,102,116,101,110], -- #  noun-suffix-place: Suffixes that form nouns and attach to place names more often
  [35,32,32,116,104,97,110,32,111,116,104,101,114,32,110,111,117,110,115,46], -- #  than other nouns.
  [35,32,32,101,46,103,46,32,231,148,186,44,32,229,184,130,44,32,231,156,140], -- #  e.g. 町, 市, 県
  [35,229,144,141,232,169,158,45,230,142,165,229,176,190,45,229,156,176,229,159,159], -- #名詞-接尾-地域
  [35], -- #
  [35,32,32,110,111,117,110,45,115,117,102,102,105,120,45,118,101,114,98,97,108,58,32,79,102,32,116,104,101,32,115,117,102,102,105,120,101,115,32,116,104,97,116,32,97,116,116,97,99,104,32,116,111,32,110,111,117,110,115,32,97,110,100,32,102,111,114,109,32,110,111,117,110,115,44,32,116,104,111,115,101,32,116,104,97,116], -- #  noun-suffix-verbal: Of the suffixes that attach to nouns and form nouns, those that
  [35,32,32,99,97,110,32,97,112,112,101,97,114,32,98,101,102,111,114,101,32,227,130,185,227,131,171,32,40,34,115,117,114,117,34,41,46], -- #  can appear before スル ("suru").
  [35,32,32,101,46,103,46,32,229,140,150,44,32,232,166,150,44,32,229,136,134,227,129,145,44,32,229,133,165,227,130,138,44,32,232,144,189,227,129,161,44,32,232,178,183,227,129,132], -- #  e.g. 化, 視, 分け, 入り, 落ち, 買い
  [35,229,144,141,232,169,158,45,230,142,165,229,176,190,45,227,130,181,229,164,137,230,142,165,231,182,154]] -- #名詞-接尾-サ変接続

/-- `/repo/filter/ja/asset/stop_tags.txt`, lines 151 to 180. -/
def stopTagsLines6 : List (List Nat) := [
  [35], -- #
  [35,32,32,110,111,117,110,45,115,117,102,102,105,120,45,97,117,120,58,32,84,104,101,32,115,116,101,109,32,102,111,114,109,32,111,102,32,227,129,157,227,129,134,227,129,160,32,40,230,167,152,230,133,139,41,32,116,104,97,116,32,105,115,32,117,115,101,100,32,116,111,32,105,110,100,105,99,97,116,101,32,99,111,110,100,105,116,105,111,110,115,44], -- #  noun-suffix-aux: The stem form of そうだ (様態) that is used to indicate conditions,
  [35,32,32,105,115,32,116,114,101,97,116,101,100,32,97,115,32,229,138,169,229,139,149,232,169,158,32,40,34,97,117,120,105,108,105,97,114,121,32,118,101,114,98,34,41,32,105,110,32,115,99,104,111,111,108,32,103,114,97,109,109,97,114,115,44,32,97,110,100,32,97,116,116,97,99,104,32,116,111,32,116,104,101], -- #  is treated as 助動詞 ("auxiliary verb") in school grammars, and attach to the
  [35,32,32,99,111,110,106,117,110,99,116,105,118,101,32,102,111,114,109,32,111,102,32,105,110,102,108,101,99,116,105,111,110,97,108,32,119,111,114,100,115,46], -- #  conjunctive form of inflectional words.
  [35,32,32,101,46,103,46,32,227,129,157,227,129,134], -- #  e.g. そう
  [35,229,144,141,232,169,158,45,230,142,165,229,176,190,45,229,138,169,229,139,149,232,169,158,232,170,158,229,185,185], -- #名詞-接尾-助動詞語幹
  [35], -- #
  [35,32,32,110,111,117,110,45,115,117,102,102,105,120,45,97,100,106,101,99,116,105,118,101,45,98,97,115,101,58,32,83,117,102,102,105,120,101,115,32,116,104,97,116,32,97,116,116,97,99,104,32,116,111,32,111,116,104,101,114,32,110,111,117,110,115,32,111,114,32,116,104,101,32,99,111,110,106,117,110,99,116,105,118,101], -- #  noun-suffix-adjective-base: Suffixes that attach to other nouns or the conjunctive
  [35,32,32,102,111,114,109,32,111,102,32,105,110,102,108,101,99,116,105,111,110,97,108,32,119,111,114,100,115,32,97,110,100,32,97,112,112,101,97,114,32,98,101,102,111,114,101,32,116,104,101,32,99,111,112,117,108,97,32,227,129,160,32,40,34,100,97,34,41,46], -- #  form of inflectional words and appear before the copula だ ("da").
  [35,32,32,101,46,103,46,32,231,154,132,44,32,227,129,146,44,32,227,129,140,227,129,161], -- #  e.g. 的, げ, がち
  [35,229,144,141,232,169,158,45,230,142,165,229,176,190,45,229,189,162,229,174,185,229,139,149,232,169,158,232,170,158,229,185,185], -- #名詞-接尾-形容動詞語幹
  [35], -- #
  [35,32,32,110,111,117,110,45,115,117,102,102,105,120,45,97,100,118,101,114,98,105,97,108,58,32,83,117,102,102,105,120,101,115,32,116,104,97,116,32,97,116,116,97,99,104,32,116,111,32,111,116,104,101,114,32,110,111,117,110,115,32,97,110,100,32,99,97,110,32,98,101,104,97,118,101,32,97,115,32,97,100,118,101,114,98,115,46], -- #  noun-suffix-adverbial: Suffixes that attach to other nouns and can behave as adverbs.
  [35,32,32,101,46,103,46,32,229,190,140,32,40,227,129,148,41,44,32,228,187,165,229,190,140,44,32,228,187,165,233,153,141,44,32,228,187,165,229,137,141,44,32,229,137,141,229,190,140,44,32,228,184,173,44,32,230,156,171,44,32,228,184,138,44,32,230,153,130,32,40,227,129,152,41], -- #  e.g. 後 (ご), 以後, 以降, 以前, 前後, 中, 末, 上, 時 (じ)
  [35,229,144,141,232,169,158,45,230,142,165,229,176,190,45,229,137,175,232,169,158,229,143,175,232,131,189], -- #名詞-接尾-副詞可能
  [35], -- #
  [35,32,32,110,111,117,110,45,115,117,102,102,105,120,45,99,108,97,115,115,105,102,105,101,114,58,32,83,117,102,102,105,120,101,115,32,116,104,97,116,32,97,116,116,97,99,104,32,116,111,32,110,117,109,98,101,114,115,32,97,110,100,32,102,111,114,109,32,110,111,117,110,115,46,32,84,104,105,115,32,99,97,116,101,103,111,114,121], -- #  noun-suffix-classifier: Suffixes that attach to numbers and form nouns. This category
  [35,32,32,105,115,32,109,111,114,101,32,105,110,99,108,117,115,105,118,101,32,116,104,97,110,32,229,138,169,230,149,176,232,169,158,32,40,34,99,108,97,115,115,105,102,105,101,114,34,41,32,97,110,100,32,105,110,99,108,117,100,101,115,32,99,111,109,109,111,110,32,110,111,117,110,115,32,116,104,97,116,32,97,116,116,97,99,104], -- #  is more inclusive than 助数詞 ("classifier") and includes common nouns that attach
  [35,32,32,116,111,32,110,117,109,98,101,114,115,46], -- #  to numbers.
  [35,32,32,101,46,103,46,32,229,128,139,44,32,227,129,164,44,32,230,156,172,44,32,229,134,138,44,32,227,131,145,227,131,188,227,130,187,227,131,179,227,131,136,44,32,99,109,44,32,107,103,44,32,227,130,171,230,156,136,44,32,227,129,139,229,155,189,44,32,229,140,186,231,148,187,44,32,230,153,130,233,150,147,44,32,230,153,130,229,141,138], -- #  e.g. 個, つ, 本, 冊, パーセント, cm, kg, カ月, か国, 区画, 時間, 時半
  [35,229,144,141,232,169,158,45,230,142,165,229,176,190,45,229,138,169,230,149,176,232,169,158], -- #名詞-接尾-助数詞
  [35], -- #
  [35,32,32,110,111,117,110,45,115,117,102,102,105,120,45,115,112,101,99,105,97,108,58,32,83,112,101,99,105,97,108,32,115,117,102,102,105,120,101,115,32,116,104,97,116,32,109,97,105,110,108,121,32,97,116,116,97,99,104,32,116,111,32,105,110,102,108,101,99,116,105,110,103,32,119,111,114,100,115,46], -- #  noun-suffix-special: Special suffixes that mainly attach to inflecting words.
  [35,32,32,101,46,103,46,32,40,230,165,189,227,129,151,41,32,227,129,149,44,32,40,232,128,131,227,129,136,41,32,230,150,185], -- #  e.g. (楽し) さ, (考え) 方
  [35,229,144,141,232,169,158,45,230,142,165,229,176,190,45,231,137,185,230,174,138], -- #名詞-接尾-特殊
  [35], -- #
  [35,32,32,110,111,117,110,45,115,117,102,102,105,120,45,99,111,110,106,117,110,99,116,105,118,101,58,32,78,111,117,110,115,32,116,104,97,116,32,98,101,104,97,118,101,32,108,105,107,101,32,99,111,110,106,117,110,99,116,105,111,110,115,32,97,110,100,32,106,111,105,110,32,116,119,111,32,119,111,114,100,115], -- #  noun-suffix-conjunctive: Nouns that behave like conjunctions and join two words
  [35,32,32,116,111,103,101,116,104,101,114,46], -- #  together.
  [35,32,32,101,46,103,46,32,40,230,151,165,230,156,172,41,32,229,175,190,32,40,227,130,162,227,131,161,227,131,170,227,130,171,41,44,32,229,175,190,32,40,227,130,162,227,131,161,227,131,170,227,130,171,41,44,32,40,51,41,32,229,175,190,32,40,53,41,44,32,40,229,165,179,229,132,170,41,32,229,133,188,32,40,228,184,187,229,169,166,41], -- #  e.g. (日本) 対 (アメリカ), 対 (アメリカ), (3) 対 (5), (女優) 兼 (主婦)
  [35,229,144,141,232,169,158,45,230,142,165,231,182,154,232,169,158,231,154,132]] -- #名詞-接続詞的

/-- `/repo/filter/ja/asset/stop_tags.txt`, lines 181 to 210. -/
def stopTagsLines7 : List (List Nat) := [
  [35], -- #
  [35,32,32,110,111,117,110,45,118,101,114,98,97,108,95,97,117,120,58,32,78,111,117,110,115,32,116,104,97,116,32,97,116,116,97,99,104,32,116,111,32,116,104,101,32,99,111,110,106,117,110,99,116,105,118,101,32,112,97,114,116,105,99,108,101,32,227,129,166,32,40,34,116,101,34,41,32,97,110,100,32,97,114,101], -- #  noun-verbal_aux: Nouns that attach to the conjunctive particle て ("te") and are
  [35,32,32,115,101,109,97,110,116,105,99,97,108,108,121,32,118,101,114,98,45,108,105,107,101,46], -- #  semantically verb-like.
  [35,32,32,101,46,103,46,32,227,129,148,227,130,137,227,130,147,44,32,227,129,148,232,166,167,44,32,229,190,161,232,166,167,44,32,233,160,130,230,136,180], -- #  e.g. ごらん, ご覧, 御覧, 頂戴
  [35,229,144,141,232,169,158,45,229,139,149,232,169,158,233,157,158,232,135,170,231,171,139,231,154,132], -- #名詞-動詞非自立的
  [35], -- #
  [35,32,32,110,111,117,110,45,113,117,111,116,97,116,105,111,110,58,32,116,101,120,116,32,116,104,97,116,32,99,97,110,110,111,116,32,98,101,32,115,101,103,109,101,110,116,101,100,32,105,110,116,111,32,119,111,114,100,115,44,32,112,114,111,118,101,114,98,115,44,32,67,104,105,110,101,115,101,32,112,111,101,116,114,121,44], -- #  noun-quotation: text that cannot be segmented into words, proverbs, Chinese poetry,
  [35,32,32,100,105,97,108,101,99,116,115,44,32,69,110,103,108,105,115,104,44,32,101,116,99,46,32,67,117,114,114,101,110,116,108,121,44,32,116,104,101,32,111,110,108,121,32,101,110,116,114,121,32,102,111,114,32,229,144,141,232,169,158,32,229,188,149,231,148,168,230,150,135,229,173,151,229,136,151,32,40,34,110,111,117,110,32,113,117,111,116,97,116,105,111,110,34,41], -- #  dialects, English, etc. Currently, the only entry for 名詞 引用文字列 ("noun quotation")
  [35,32,32,105,115,32,227,129,132,227,130,143,227,129,143,32,40,34,105,119,97,107,117,34,41,46], -- #  is いわく ("iwaku").
  [35,229,144,141,232,169,158,45,229,188,149,231,148,168,230,150,135,229,173,151,229,136,151], -- #名詞-引用文字列
  [35], -- #
  [35,32,32,110,111,117,110,45,110,97,105,95,97,100,106,101,99,116,105,118,101,58,32,87,111,114,100,115,32,116,104,97,116,32,97,112,112,101,97,114,32,98,101,102,111,114,101,32,116,104,101,32,97,117,120,105,108,105,97,114,121,32,118,101,114,98,32,227,129,170,227,129,132,32,40,34,110,97,105,34,41,32,97,110,100], -- #  noun-nai_adjective: Words that appear before the auxiliary verb ない ("nai") and
  [35,32,32,98,101,104,97,118,101,32,108,105,107,101,32,97,110,32,97,100,106,101,99,116,105,118,101,46], -- #  behave like an adjective.
  [35,32,32,101,46,103,46,32,231,148,179,227,129,151,232,168,179,44,32,228,187,149,230,150,185,44,32,227,129,168,227,130,147,227,129,167,227,130,130,44,32,233,129,149,227,129,132], -- #  e.g. 申し訳, 仕方, とんでも, 違い
  [35,229,144,141,232,169,158,45,227,131,138,227,130,164,229,189,162,229,174,185,232,169,158,232,170,158,229,185,185], -- #名詞-ナイ形容詞語幹
  [35], -- #
  [35,35,35,35,35], -- #####
  [35,32,32,112,114,101,102,105,120,58,32,117,110,99,108,97,115,115,105,102,105,101,100,32,112,114,101,102,105,120,101,115], -- #  prefix: unclassified prefixes
  [35,230,142,165,233,160,173,232,169,158], -- #接頭詞
  [35], -- #
  [35,32,32,112,114,101,102,105,120,45,110,111,109,105,110,97,108,58,32,80,114,101,102,105,120,101,115,32,116,104,97,116,32,97,116,116,97,99,104,32,116,111,32,110,111,117,110,115,32,40,105,110,99,108,117,100,105,110,103,32,97,100,106,101,99,116,105,118,101,32,115,116,101,109,32,102,111,114,109,115,41], -- #  prefix-nominal: Prefixes that attach to nouns (including adjective stem forms)
  [35,32,32,101,120,99,108,117,100,105,110,103,32,110,117,109,101,114,105,99,97,108,32,101,120,112,114,101,115,115,105,111,110,115,46], -- #  excluding numerical expressions.
  [35,32,32,101,46,103,46,32,227,129,138,32,40,230,176,180,41,44,32,230,159,144,32,40,230,176,143,41,44,32,229,144,140,32,40,231,164,190,41,44,32,230,149,133,32,40,239,189,158,230,176,143,41,44,32,233,171,152,32,40,229,147,129,232,179,170,41,44,32,227,129,138,32,40,232,166,139,228,186,139,41,44,32,227,129,148,32,40,231,171,139,230,180,190,41], -- #  e.g. お (水), 某 (氏), 同 (社), 故 (～氏), 高 (品質), お (見事), ご (立派)
  [35,230,142,165,233,160,173,232,169,158,45,229,144,141,232,169,158,230,142,165,231,182,154], -- #接頭詞-名詞接続
  [35], -- #
  [35,32,32,112,114,101,102,105,120,45,118,101,114,98,97,108,58,32,80,114,101,102,105,120,101,115,32,116,104,97,116,32,97,116,116,97,99,104,32,116,111,32,116,104,101,32,105,109,112,101,114,97,116,105,118,101,32,102,111,114,109,32,111,102,32,97,32,118,101,114,98,32,111,114,32,97,32,118,101,114,98], -- #  prefix-verbal: Prefixes that attach to the imperative form of a verb or a verb
  [35,32,32,105,110,32,99,111,110,106,117,110,99,116,105,118,101,32,102,111,114,109,32,102,111,108,108,111,119,101,100,32,98,121,32,227,129,170,227,130,139,47,227,129,170,227,129,149,227,130,139,47,227,129,143,227,129,160,227,129,149,227,130,139,46], -- #  in conjunctive form followed by なる/なさる/くださる.
  [35,32,32,101,46,103,46,32,227,129,138,32,40,232,170,173,227,129,191,227,129,170,227,129,149,227,129,132,41,44,32,227,129,138,32,40,229,186,167,227,130,138,41], -- #  e.g. お (読みなさい), お (座り)
  [35,230,142,165,233,160,173,232,169,158,45,229,139,149,232,169,158,230,142,165,231,182,154], -- #接頭詞-動詞接続
  [35]] -- #

/-- `/repo/filter/ja/asset/stop_tags.txt`, lines 211 to 240. -/
def stopTagsLines8 : List (List Nat) := [
  [35,32,32,112,114,101,102,105,120,45,97,100,106,101,99,116,105,118,97,108,58,32,80,114,101,102,105,120,101,115,32,116,104,97,116,32,97,116,116,97,99,104,32,116,111,32,97,100,106,101,99,116,105,118,101,115,46], -- #  prefix-adjectival: Prefixes that attach to adjectives.
  [35,32,32,101,46,103,46,32,227,129,138,32,40,229,175,146,227,129,132,227,129,167,227,129,153,227,129,173,227,129,136,41,44,32,227,131,144,227,130,171,32,40,227,129,167,227,129,139,227,129,132,41], -- #  e.g. お (寒いですねえ), バカ (でかい)
  [35,230,142,165,233,160,173,232,169,158,45,229,189,162,229,174,185,232,169,158,230,142,165,231,182,154], -- #接頭詞-形容詞接続
  [35], -- #
  [35,32,32,112,114,101,102,105,120,45,110,117,109,101,114,105,99,97,108,58,32,80,114,101,102,105,120,101,115,32,116,104,97,116,32,97,116,116,97,99,104,32,116,111,32,110,117,109,101,114,105,99,97,108,32,101,120,112,114,101,115,115,105,111,110,115,46], -- #  prefix-numerical: Prefixes that attach to numerical expressions.
  [35,32,32,101,46,103,46,32,231,180,132,44,32,227,129,138,227,130,136,227,129,157,44,32,230,175,142,230,153,130], -- #  e.g. 約, およそ, 毎時
  [35,230,142,165,233,160,173,232,169,158,45,230,149,176,230,142,165,231,182,154], -- #接頭詞-数接続
  [35], -- #
  [35,35,35,35,35], -- #####
  [35,32,32,118,101,114,98,58,32,117,110,99,108,97,115,115,105,102,105,101,100,32,118,101,114,98,115], -- #  verb: unclassified verbs
  [35,229,139,149,232,169,158], -- #動詞
  [35], -- #
  [35,32,32,118,101,114,98,45,109,97,105,110,58], -- #  verb-main:
  [35,229,139,149,232,169,158,45,232,135,170,231,171,139], -- #動詞-自立
  [35], -- #
  [35,32,32,118,101,114,98,45,97,117,120,105,108,105,97,114,121,58], -- #  verb-auxiliary:
  [35,229,139,149,232,169,158,45,233,157,158,232,135,170,231,171,139], -- #動詞-非自立
  [35], -- #
  [35,32,32,118,101,114,98,45,115,117,102,102,105,120,58], -- #  verb-suffix:
  [35,229,139,149,232,169,158,45,230,142,165,229,176,190], -- #動詞-接尾
  [35], -- #
  [35,35,35,35,35], -- #####
  [35,32,32,97,100,106,101,99,116,105,118,101,58,32,117,110,99,108,97,115,115,105,102,105,101,100,32,97,100,106,101,99,116,105,118,101,115], -- #  adjective: unclassified adjectives
  [35,229,189,162,229,174,185,232,169,158], -- #形容詞
  [35], -- #
  [35,32,32,97,100,106,101,99,116,105,118,101,45,109,97,105,110,58], -- #  adjective-main:
  [35,229,189,162,229,174,185,232,169,158,45,232,135,170,231,171,139], -- #形容詞-自立
  [35], -- #
  [35,32,32,97,100,106,101,99,116,105,118,101,45,97,117,120,105,108,105,97,114,121,58], -- #  adjective-auxiliary:
  [35,229,189,162,229,174,185,232,169,158,45,233,157,158,232,135,170,231,171,139]] -- #形容詞-非自立

/-- `/repo/filter/ja/asset/stop_tags.txt`, lines 241 to 270. -/
def stopTagsLines9 : List (List Nat) := [
  [35], -- #
  [35,32,32,97,100,106,101,99,116,105,118,101,45,115,117,102,102,105,120,58], -- #  adjective-suffix:
  [35,229,189,162,229,174,185,232,169,158,45,230,142,165,229,176,190], -- #形容詞-接尾
  [35], -- #
  [35,35,35,35,35], -- #####
  [35,32,32,97,100,118,101,114,98,58,32,117,110,99,108,97,115,115,105,102,105,101,100,32,97,100,118,101,114,98,115], -- #  adverb: unclassified adverbs
  [35,229,137,175,232,169,158], -- #副詞
  [35], -- #
  [35,32,32,97,100,118,101,114,98,45,109,105,115,99,58,32,87,111,114,100,115,32,116,104,97,116,32,99,97,110,32,98,101,32,115,101,103,109,101,110,116,101,100,32,105,110,116,111,32,111,110,101,32,117,110,105,116,32,97,110,100,32,119,104,101,114,101,32,97,100,110,111,109,105,110,97,108], -- #  adverb-misc: Words that can be segmented into one unit and where adnominal
  [35,32,32,109,111,100,105,102,105,99,97,116,105,111,110,32,105,115,32,110,111,116,32,112,111,115,115,105,98,108,101,46], -- #  modification is not possible.
  [35,32,32,101,46,103,46,32,227,129,130,227,129,132,227,129,139,227,130,143,227,130,137,227,129,154,44,32,229,164,154,229,136,134], -- #  e.g. あいかわらず, 多分
  [35,229,137,175,232,169,158,45,228,184,128,232,136,172], -- #副詞-一般
  [35], -- #
  [35,32,32,97,100,118,101,114,98,45,112,97,114,116,105,99,108,101,95,99,111,110,106,117,110,99,116,105,111,110,58,32,65,100,118,101,114,98,115,32,116,104,97,116,32,99,97,110,32,98,101,32,102,111,108,108,111,119,101,100,32,98,121,32,227,129,174,44,32,227,129,175,44,32,227,129,171,44], -- #  adverb-particle_conjunction: Adverbs that can be followed by の, は, に,
  [35,32,32,227,129,170,44,32,227,129,153,227,130,139,44,32,227,129,160,44,32,101,116,99,46], -- #  な, する, だ, etc.
  [35,32,32,101,46,103,46,32,227,129,147,227,130,147,227,129,170,227,129,171,44,32,227,129,157,227,130,147,227,129,170,227,129,171,44,32,227,129,130,227,130,147,227,129,170,227,129,171,44,32,227,129,170,227,129,171,227,129,139,44,32,227,129,170,227,130,147,227,129,167,227,130,130], -- #  e.g. こんなに, そんなに, あんなに, なにか, なんでも
  [35,229,137,175,232,169,158,45,229,138,169,232,169,158,233,161,158,230,142,165,231,182,154], -- #副詞-助詞類接続
  [35], -- #
  [35,35,35,35,35], -- #####
  [35,32,32,97,100,110,111,109,105,110,97,108,58,32,87,111,114,100,115,32,116,104,97,116,32,111,110,108,121,32,104,97,118,101,32,110,111,117,110,45,109,111,100,105,102,121,105,110,103,32,102,111,114,109,115,46], -- #  adnominal: Words that only have noun-modifying forms.
  [35,32,32,101,46,103,46,32,227,129,147,227,129,174,44,32,227,129,157,227,129,174,44,32,227,129,130,227,129,174,44,32,227,129,169,227,129,174,44,32,227,129,132,227,130,143,227,130,134,227,130,139,44,32,227,129,170,227,130,147,227,130,137,227,129,139,227,129,174,44,32,228,189,149,227,130,137,227,129,139,227,129,174,44,32,227,129,132,227,130,141,227,130,147,227,129,170,44,32,227,129,147,227,129,134,227,129,132,227,129,134,44,32,227,129,157,227,129,134,227,129,132,227,129,134,44,32,227,129,130,227,129,130,227,129,132,227,129,134,44], -- #  e.g. この, その, あの, どの, いわゆる, なんらかの, 何らかの, いろんな, こういう, そういう, ああいう,
  [35,32,32,32,32,32,32,32,227,129,169,227,129,134,227,129,132,227,129,134,44,32,227,129,147,227,130,147,227,129,170,44,32,227,129,157,227,130,147,227,129,170,44,32,227,129,130,227,130,147,227,129,170,44,32,227,129,169,227,130,147,227,129,170,44,32,229,164,167,227,129,141,227,129,170,44,32,229,176,143,227,129,149,227,129,170,44,32,227,129,138,227,129,139,227,129,151,227,129,170,44,32,227,129,187,227,130,147,227,129,174,44,32,227,129,159,227,129,132,227,129,151,227,129,159,44], -- #       どういう, こんな, そんな, あんな, どんな, 大きな, 小さな, おかしな, ほんの, たいした,
  [35,32,32,32,32,32,32,32,227,128,140,40,44,32,227,130,130,41,32,227,129,149,227,130,139,32,40,227,129,147,227,129,168,227,129,170,227,129,140,227,130,137,41,227,128,141,44,32,229,190,174,227,128,133,227,129,159,227,130,139,44,32,229,160,130,227,128,133,227,129,159,227,130,139,44,32,229,141,152,227,129,170,227,130,139,44,32,227,129,132,227,129,139,227,129,170,227,130,139,44,32,230,136,145,227,129,140,227,128,141,227,128,140,229,144,140,227,129,152,44,32,228,186,161,227,129,141], -- #       「(, も) さる (ことながら)」, 微々たる, 堂々たる, 単なる, いかなる, 我が」「同じ, 亡き
  [35,233,128,163,228,189,147,232,169,158], -- #連体詞
  [35], -- #
  [35,35,35,35,35], -- #####
  [35,32,32,99,111,110,106,117,110,99,116,105,111,110,58,32,67,111,110,106,117,110,99,116,105,111,110,115,32,116,104,97,116,32,99,97,110,32,111,99,99,117,114,32,105,110,100,101,112,101,110,100,101,110,116,108,121,46], -- #  conjunction: Conjunctions that can occur independently.
  [35,32,32,101,46,103,46,32,227,129,140,44,32,227,129,145,227,130,140,227,129,169,227,130,130,44,32,227,129,157,227,129,151,227,129,166,44,32,227,129,152,227,130,131,227,129,130,44,32,227,129,157,227,130,140,227,129,169,227,129,147,227,130,141,227,129,139], -- #  e.g. が, けれども, そして, じゃあ, それどころか
  [230,142,165,231,182,154,232,169,158], -- 接続詞
  [35]] -- #

/-- `/repo/filter/ja/asset/stop_tags.txt`, lines 271 to 300. -/
def stopTagsLines10 : List (List Nat) := [
  [35,35,35,35,35], -- #####
  [35,32,32,112,97,114,116,105,99,108,101,58,32,117,110,99,108,97,115,115,105,102,105,101,100,32,112,97,114,116,105,99,108,101,115,46], -- #  particle: unclassified particles.
  [229,138,169,232,169,158], -- 助詞
  [35], -- #
  [35,32,32,112,97,114,116,105,99,108,101,45,99,97,115,101,58,32,99,97,115,101,32,112,97,114,116,105,99,108,101,115,32,119,104,101,114,101,32,116,104,101,32,115,117,98,99,108,97,115,115,105,102,105,99,97,116,105,111,110,32,105,115,32,117,110,100,101,102,105,110,101,100,46], -- #  particle-case: case particles where the subclassification is undefined.
  [229,138,169,232,169,158,45,230,160,188,229,138,169,232,169,158], -- 助詞-格助詞
  [35], -- #
  [35,32,32,112,97,114,116,105,99,108,101,45,99,97,115,101,45,109,105,115,99,58,32,67,97,115,101,32,112,97,114,116,105,99,108,101,115,46], -- #  particle-case-misc: Case particles.
  [35,32,32,101,46,103,46,32,227,129,139,227,130,137,44,32,227,129,140,44,32,227,129,167,44,32,227,129,168,44,32,227,129,171,44,32,227,129,184,44,32,227,130,136,227,130,138,44,32,227,130,146,44,32,227,129,174,44,32,227,129,171,227,129,166], -- #  e.g. から, が, で, と, に, へ, より, を, の, にて
  [229,138,169,232,169,158,45,230,160,188,229,138,169,232,169,158,45,228,184,128,232,136,172], -- 助詞-格助詞-一般
  [35], -- #
  [35,32,32,112,97,114,116,105,99,108,101,45,99,97,115,101,45,113,117,111,116,101,58,32,116,104,101,32,34,116,111,34,32,116,104,97,116,32,97,112,112,101,97,114,115,32,97,102,116,101,114,32,110,111,117,110,115,44,32,97,32,112,101,114,115,111,110,226,128,153,115,32,115,112,101,101,99,104,44], -- #  particle-case-quote: the "to" that appears after nouns, a person’s speech,
  [35,32,32,113,117,111,116,97,116,105,111,110,32,109,97,114,107,115,44,32,101,120,112,114,101,115,115,105,111,110,115,32,111,102,32,100,101,99,105,115,105,111,110,115,32,102,114,111,109,32,97,32,109,101,101,116,105,110,103,44,32,114,101,97,115,111,110,115,44,32,106,117,100,103,101,109,101,110,116,115,44], -- #  quotation marks, expressions of decisions from a meeting, reasons, judgements,
  [35,32,32,99,111,110,106,101,99,116,117,114,101,115,44,32,101,116,99,46], -- #  conjectures, etc.
  [35,32,32,101,46,103,46,32,40,32,227,129,160,41,32,227,129,168,32,40,232,191,176,227,129,185,227,129,159,46,41,44,32,40,32,227,129,167,227,129,130,227,130,139,41,32,227,129,168,32,40,227,129,151,227,129,166,229,159,183,232,161,140,231,140,182,228,186,136,46,46,46,41], -- #  e.g. ( だ) と (述べた.), ( である) と (して執行猶予...)
  [229,138,169,232,169,158,45,230,160,188,229,138,169,232,169,158,45,229,188,149,231,148,168], -- 助詞-格助詞-引用
  [35], -- #
  [35,32,32,112,97,114,116,105,99,108,101,45,99,97,115,101,45,99,111,109,112,111,117,110,100,58,32,67,111,109,112,111,117,110,100,115,32,111,102,32,112,97,114,116,105,99,108,101,115,32,97,110,100,32,118,101,114,98,115,32,116,104,97,116,32,109,97,105,110,108,121,32,98,101,104,97,118,101], -- #  particle-case-compound: Compounds of particles and verbs that mainly behave
  [35,32,32,108,105,107,101,32,99,97,115,101,32,112,97,114,116,105,99,108,101,115,46], -- #  like case particles.
  [35,32,32,101,46,103,46,32,227,129,168,227,129,132,227,129,134,44,32,227,129,168,227,129,132,227,129,163,227,129,159,44,32,227,129,168,227,129,139,227,129,132,227,129,134,44,32,227,129,168,227,129,151,227,129,166,44,32,227,129,168,227,129,168,227,130,130,227,129,171,44,32,227,129,168,229,133,177,227,129,171,44,32,227,129,167,227,130,130,227,129,163,227,129,166,44,32,227,129,171,227,129,130,227,129,159,227,129,163,227,129,166,44,32,227,129,171,229,189,147,227,129,159,227,129,163,227,129,166,44,32,227,129,171,229,189,147,227,129,163,227,129,166,44], -- #  e.g. という, といった, とかいう, として, とともに, と共に, でもって, にあたって, に当たって, に当って,
  [35,32,32,32,32,32,32,32,227,129,171,227,129,130,227,129,159,227,130,138,44,32,227,129,171,229,189,147,227,129,159,227,130,138,44,32,227,129,171,229,189,147,227,130,138,44,32,227,129,171,229,189,147,227,129,159,227,130,139,44,32,227,129,171,227,129,130,227,129,159,227,130,139,44,32,227,129,171,227,129,138,227,129,132,227,129,166,44,32,227,129,171,230,150,188,227,129,132,227,129,166,44,227,129,171,230,150,188,227,129,166,44,32,227,129,171,227,129,138,227,129,145,227,130,139,44,32,227,129,171,230,150,188,227,129,145,227,130,139,44], -- #       にあたり, に当たり, に当り, に当たる, にあたる, において, に於いて,に於て, における, に於ける,
  [35,32,32,32,32,32,32,32,227,129,171,227,129,139,227,129,145,44,32,227,129,171,227,129,139,227,129,145,227,129,166,44,32,227,129,171,227,129,139,227,130,147,227,129,151,44,32,227,129,171,233,150,162,227,129,151,44,32,227,129,171,227,129,139,227,130,147,227,129,151,227,129,166,44,32,227,129,171,233,150,162,227,129,151,227,129,166,44,32,227,129,171,227,129,139,227,130,147,227,129,153,227,130,139,44,32,227,129,171,233,150,162,227,129,153,227,130,139,44,32,227,129,171,233,154,155,227,129,151,44], -- #       にかけ, にかけて, にかんし, に関し, にかんして, に関して, にかんする, に関する, に際し,
  [35,32,32,32,32,32,32,32,227,129,171,233,154,155,227,129,151,227,129,166,44,32,227,129,171,227,129,151,227,129,159,227,129,140,227,129,132,44,32,227,129,171,229,190,147,227,129,132,44,32,227,129,171,229,190,147,227,129,134,44,32,227,129,171,227,129,151,227,129,159,227,129,140,227,129,163,227,129,166,44,32,227,129,171,229,190,147,227,129,163,227,129,166,44,32,227,129,171,227,129,159,227,129,132,227,129,151,44,32,227,129,171,229,175,190,227,129,151,44,32,227,129,171,227,129,159,227,129,132,227,129,151,227,129,166,44], -- #       に際して, にしたがい, に従い, に従う, にしたがって, に従って, にたいし, に対し, にたいして,
  [35,32,32,32,32,32,32,32,227,129,171,229,175,190,227,129,151,227,129,166,44,32,227,129,171,227,129,159,227,129,132,227,129,153,227,130,139,44,32,227,129,171,229,175,190,227,129,153,227,130,139,44,32,227,129,171,227,129,164,227,129,132,227,129,166,44,32,227,129,171,227,129,164,227,129,141,44,32,227,129,171,227,129,164,227,129,145,44,32,227,129,171,227,129,164,227,129,145,227,129,166,44,32,227,129,171,227,129,164,227,130,140,44,32,227,129,171,227,129,164,227,130,140,227,129,166,44,32,227,129,171,227,129,168,227,129,163,227,129,166,44], -- #       に対して, にたいする, に対する, について, につき, につけ, につけて, につれ, につれて, にとって,
  [35,32,32,32,32,32,32,32,227,129,171,227,129,168,227,130,138,44,32,227,129,171,227,129,190,227,129,164,227,130,143,227,130,139,44,32,227,129,171,227,130,136,227,129,163,227,129,166,44,32,227,129,171,228,190,157,227,129,163,227,129,166,44,32,227,129,171,229,155,160,227,129,163,227,129,166,44,32,227,129,171,227,130,136,227,130,138,44,32,227,129,171,228,190,157,227,130,138,44,32,227,129,171,229,155,160,227,130,138,44,32,227,129,171,227,130,136,227,130,139,44,32,227,129,171,228,190,157,227,130,139,44,32,227,129,171,229,155,160,227,130,139,44], -- #       にとり, にまつわる, によって, に依って, に因って, により, に依り, に因り, による, に依る, に因る,
  [35,32,32,32,32,32,32,32,227,129,171,227,130,143,227,129,159,227,129,163,227,129,166,44,32,227,129,171,227,130,143,227,129,159,227,130,139,44,32,227,130,146,227,130,130,227,129,163,227,129,166,44,32,227,130,146,228,187,165,227,129,163,227,129,166,44,32,227,130,146,233,128,154,227,129,152,44,32,227,130,146,233,128,154,227,129,152,227,129,166,44,32,227,130,146,233,128,154,227,129,151,227,129,166,44,32,227,130,146,227,130,129,227,129,144,227,129,163,227,129,166,44,32,227,130,146,227,130,129,227,129,144,227,130,138,44,32,227,130,146,227,130,129,227,129,144,227,130,139,44], -- #       にわたって, にわたる, をもって, を以って, を通じ, を通じて, を通して, をめぐって, をめぐり, をめぐる,
  [35,32,32,32,32,32,32,32,227,129,163,227,129,166,45,229,143,163,232,170,158,47,44,32,227,129,161,227,130,133,227,129,134,45,233,150,162,232,165,191,229,188,129,227,128,140,227,129,168,227,129,132,227,129,134,227,128,141,47,44,32,40,228,189,149,41,32,227,129,166,227,129,132,227,129,134,32,40,228,186,186,41,45,229,143,163,232,170,158,47,44,32,227,129,163,227,129,166,227,129,132,227,129,134,45,229,143,163,232,170,158,47,44,32,227,129,168,227,129,132,227,129,181,44,32,227,129,168,227,129,139,227,129,132,227,129,181], -- #       って-口語/, ちゅう-関西弁「という」/, (何) ていう (人)-口語/, っていう-口語/, といふ, とかいふ
  [229,138,169,232,169,158,45,230,160,188,229,138,169,232,169,158,45,233,128,163,232,170,158], -- 助詞-格助詞-連語
  [35], -- #
  [35,32,32,112,97,114,116,105,99,108,101,45,99,111,110,106,117,110,99,116,105,118,101,58]] -- #  particle-conjunctive:

/-- `/repo/filter/ja/asset/stop_tags.txt`, lines 301 to 330. -/
def stopTagsLines11 : List (List Nat) := [
  [35,32,32,101,46,103,46,32,227,129,139,227,130,137,44,32,227,129,139,227,130,137,227,129,171,227,129,175,44,32,227,129,140,44,32,227,129,145,227,130,140,227,129,169,44,32,227,129,145,227,130,140,227,129,169,227,130,130,44,32,227,129,145,227,129,169,44,32,227,129,151,44,32,227,129,164,227,129,164,44,32,227,129,166,44,32,227,129,167,44,32,227,129,168,44,32,227,129,168,227,129,147,227,130,141,227,129,140,44,32,227,129,169,227,129,147,227,130,141,227,129,139,44,32,227,129,168,227,130,130,44,32,227,129,169,227,130,130,44], -- #  e.g. から, からには, が, けれど, けれども, けど, し, つつ, て, で, と, ところが, どころか, とも, ども,
  [35,32,32,32,32,32,32,32,227,129,170,227,129,140,227,130,137,44,32,227,129,170,227,130,138,44,32,227,129,174,227,129,167,44,32,227,129,174,227,129,171,44,32,227,129,176,44,32,227,130,130,227,129,174,227,129,174,44,32,227,130,132,32,40,32,227,129,151,227,129,159,41,44,32,227,130,132,227,129,132,227,129,170,227,130,132,44,32,40,227,129,147,227,130,141,227,130,147,41,32,227,129,152,227,130,131,40,227,129,132,227,129,145,227,129,170,227,129,132,41,45,229,143,163,232,170,158,47,44], -- #       ながら, なり, ので, のに, ば, ものの, や ( した), やいなや, (ころん) じゃ(いけない)-口語/,
  [35,32,32,32,32,32,32,32,40,232,161,140,227,129,163,41,32,227,129,161,227,130,131,40,227,129,132,227,129,145,227,129,170,227,129,132,41,45,229,143,163,232,170,158,47,44,32,40,232,168,128,227,129,163,41,32,227,129,159,227,129,163,227,129,166,32,40,227,129,151,227,129,139,227,129,159,227,129,140,227,129,170,227,129,132,41,45,229,143,163,232,170,158,47,44,32,40,227,129,157,227,130,140,227,129,140,227,129,170,227,129,143,41,227,129,163,227,129,159,227,129,163,227,129,166,32,40,229,185,179,230,176,151,41,45,229,143,163,232,170,158,47], -- #       (行っ) ちゃ(いけない)-口語/, (言っ) たって (しかたがない)-口語/, (それがなく)ったって (平気)-口語/
  [229,138,169,232,169,158,45,230,142,165,231,182,154,229,138,169,232,169,158], -- 助詞-接続助詞
  [35], -- #
  [35,32,32,112,97,114,116,105,99,108,101,45,100,101,112,101,110,100,101,110,99,121,58], -- #  particle-dependency:
  [35,32,32,101,46,103,46,32,227,129,147,227,129,157,44,32,227,129,149,227,129,136,44,32,227,129,151,227,129,139,44,32,227,129,153,227,130,137,44,32,227,129,175,44,32,227,130,130,44,32,227,129,158], -- #  e.g. こそ, さえ, しか, すら, は, も, ぞ
  [229,138,169,232,169,158,45,228,191,130,229,138,169,232,169,158], -- 助詞-係助詞
  [35], -- #
  [35,32,32,112,97,114,116,105,99,108,101,45,97,100,118,101,114,98,105,97,108,58], -- #  particle-adverbial:
  [35,32,32,101,46,103,46,32,227,129,140,227,129,166,227,130,137,44,32,227,129,139,227,130,130,44,32,227,129,143,227,130,137,227,129,132,44,32,228,189,141,44,32,227,129,144,227,130,137,227,129,132,44,32,227,129,151,227,130,130,44,32,40,229,173,166,230,160,161,41,32,227,129,152,227,130,131,40,227,129,147,227,130,140,227,129,140,230,181,129,232,161,140,227,129,163,227,129,166,227,129,132,227,130,139,41,45,229,143,163,232,170,158,47,44], -- #  e.g. がてら, かも, くらい, 位, ぐらい, しも, (学校) じゃ(これが流行っている)-口語/,
  [35,32,32,32,32,32,32,32,40,227,129,157,227,130,140,41,227,129,152,227,130,131,227,129,130,32,40,227,130,136,227,129,143,227,129,170,227,129,132,41,45,229,143,163,232,170,158,47,44,32,227,129,154,227,129,164,44,32,40,231,167,129,41,32,227,129,170,227,129,158,44,32,227,129,170,227,129,169,44,32,40,231,167,129,41,32,227,129,170,227,130,138,32,40,227,129,171,41,44,32,40,229,133,136,231,148,159,41,32,227,129,170,227,130,147,227,129,139,32,40,229,164,167,229,171,140,227,129,132,41,45,229,143,163,232,170,158,47,44], -- #       (それ)じゃあ (よくない)-口語/, ずつ, (私) なぞ, など, (私) なり (に), (先生) なんか (大嫌い)-口語/,
  [35,32,32,32,32,32,32,32,40,231,167,129,41,32,227,129,170,227,130,147,227,129,158,44,32,40,229,133,136,231,148,159,41,32,227,129,170,227,130,147,227,129,166,32,40,229,164,167,229,171,140,227,129,132,41,45,229,143,163,232,170,158,47,44,32,227,129,174,227,129,191,44,32,227,129,160,227,129,145,44,32,40,231,167,129,41,32,227,129,160,227,129,163,227,129,166,45,229,143,163,232,170,158,47,44,32,227,129,160,227,129,171,44], -- #       (私) なんぞ, (先生) なんて (大嫌い)-口語/, のみ, だけ, (私) だって-口語/, だに,
  [35,32,32,32,32,32,32,32,40,229,189,188,41,227,129,163,227,129,159,227,130,137,45,229,143,163,232,170,158,47,44,32,40,227,129,138,232,140,182,41,32,227,129,167,227,130,130,32,40,227,129,132,227,129,139,227,129,140,41,44,32,231,173,137,32,40,227,129,168,227,129,134,41,44,32,40,228,187,138,229,190,140,41,32,227,129,168,227,130,130,44,32,227,129,176,227,129,139,227,130,138,44,32,227,129,176,227,129,163,227,129,139,45,229,143,163,232,170,158,47,44,32,227,129,176,227,129,163,227,129,139,227,130,138,45,229,143,163,232,170,158,47,44], -- #       (彼)ったら-口語/, (お茶) でも (いかが), 等 (とう), (今後) とも, ばかり, ばっか-口語/, ばっかり-口語/,
  [35,32,32,32,32,32,32,32,227,129,187,227,129,169,44,32,231,168,139,44,32,227,129,190,227,129,167,44,32,232,191,132,44,32,40,232,170,176,41,32,227,130,130,32,40,227,129,140,41,40,91,229,138,169,232,169,158,45,230,160,188,229,138,169,232,169,158,93,32,227,129,138,227,130,136,227,129,179,32,91,229,138,169,232,169,158,45,228,191,130,229,138,169,232,169,158,93,32,227,129,174,229,137,141,227,129,171,228,189,141,231,189,174,227,129,153,227,130,139,227,128,140,227,130,130,227,128,141,41], -- #       ほど, 程, まで, 迄, (誰) も (が)([助詞-格助詞] および [助詞-係助詞] の前に位置する「も」)
  [229,138,169,232,169,158,45,229,137,175,229,138,169,232,169,158], -- 助詞-副助詞
  [35], -- #
  [35,32,32,112,97,114,116,105,99,108,101,45,105,110,116,101,114,106,101,99,116,105,118,101,58,32,112,97,114,116,105,99,108,101,115,32,119,105,116,104,32,105,110,116,101,114,106,101,99,116,105,118,101,32,103,114,97,109,109,97,116,105,99,97,108,32,114,111,108,101,115,46], -- #  particle-interjective: particles with interjective grammatical roles.
  [35,32,32,101,46,103,46,32,40,230,157,190,229,179,182,41,32,227,130,132], -- #  e.g. (松島) や
  [229,138,169,232,169,158,45,233,150,147,230,138,149,229,138,169,232,169,158], -- 助詞-間投助詞
  [35], -- #
  [35,32,32,112,97,114,116,105,99,108,101,45,99,111,111,114,100,105,110,97,116,101,58], -- #  particle-coordinate:
  [35,32,32,101,46,103,46,32,227,129,168,44,32,227,129,159,227,130,138,44,32,227,129,160,227,129,174,44,32,227,129,160,227,130,138,44,32,227,129,168,227,129,139,44,32,227,129,170,227,130,138,44,32,227,130,132,44,32,227,130,132,227,130,137], -- #  e.g. と, たり, だの, だり, とか, なり, や, やら
  [229,138,169,232,169,158,45,228,184,166,231,171,139,229,138,169,232,169,158], -- 助詞-並立助詞
  [35], -- #
  [35,32,32,112,97,114,116,105,99,108,101,45,102,105,110,97,108,58], -- #  particle-final:
  [35,32,32,101,46,103,46,32,227,129,139,227,129,132,44,32,227,129,139,227,129,151,227,130,137,44,32,227,129,149,44,32,227,129,156,44,32,40,227,129,160,41,227,129,163,227,129,145,45,229,143,163,232,170,158,47,44,32,40,227,129,168,227,129,190,227,129,163,227,129,166,227,130,139,41,32,227,129,167,45,230,150,185,232,168,128,47,44,32,227,129,170,44,32,227,131,138,44,32,227,129,170,227,129,130,45,229,143,163,232,170,158,47,44,32,227,129,158,44,32,227,129,173,44,32,227,131,141,44], -- #  e.g. かい, かしら, さ, ぜ, (だ)っけ-口語/, (とまってる) で-方言/, な, ナ, なあ-口語/, ぞ, ね, ネ,
  [35,32,32,32,32,32,32,32,227,129,173,227,129,135,45,229,143,163,232,170,158,47,44,32,227,129,173,227,129,136,45,229,143,163,232,170,158,47,44,32,227,129,173,227,130,147,45,230,150,185,232,168,128,47,44,32,227,129,174,44,32,227,129,174,227,129,134,45,229,143,163,232,170,158,47,44,32,227,130,132,44,32,227,130,136,44,32,227,131,168,44,32,227,130,136,227,129,137,45,229,143,163,232,170,158,47,44,32,227,130,143,44,32,227,130,143,227,129,132,45,229,143,163,232,170,158,47], -- #       ねぇ-口語/, ねえ-口語/, ねん-方言/, の, のう-口語/, や, よ, ヨ, よぉ-口語/, わ, わい-口語/
  [229,138,169,232,169,158,45,231,181,130,229,138,169,232,169,158], -- 助詞-終助詞
  [35]] -- #

/-- `/repo/filter/ja/asset/stop_tags.txt`, lines 331 to 360. -/
def stopTagsLines12 : List (List Nat) := [
  [35,32,32,112,97,114,116,105,99,108,101,45,97,100,118,101,114,98,105,97,108,47,99,111,110,106,117,110,99,116,105,118,101,47,102,105,110,97,108,58,32,84,104,101,32,112,97,114,116,105,99,108,101,32,34,107,97,34,32,119,104,101,110,32,117,110,107,110,111,119,110,32,119,104,101,116,104,101,114,32,105,116,32,105,115], -- #  particle-adverbial/conjunctive/final: The particle "ka" when unknown whether it is
  [35,32,32,97,100,118,101,114,98,105,97,108,44,32,99,111,110,106,117,110,99,116,105,118,101,44,32,111,114,32,115,101,110,116,101,110,99,101,32,102,105,110,97,108,46,32,70,111,114,32,101,120,97,109,112,108,101,58], -- #  adverbial, conjunctive, or sentence final. For example:
  [35,32,32,32,32,32,32,32,40,97,41,32,227,128,140,65,32,227,129,139,32,66,32,227,129,139,227,128,141,46,32,69,120,58,227,128,140,40,229,155,189,229,134,133,227,129,167,233,129,139,231,148,168,227,129,153,227,130,139,41,32,227,129,139,44,40,230,181,183,229,164,150,227,129,167,233,129,139,231,148,168,227,129,153,227,130,139,41,32,227,129,139,32,40,46,41,227,128,141], -- #       (a) 「A か B か」. Ex:「(国内で運用する) か,(海外で運用する) か (.)」
  [35,32,32,32,32,32,32,32,40,98,41,32,73,110,115,105,100,101,32,97,110,32,97,100,118,101,114,98,32,112,104,114,97,115,101,46,32,69,120,58,227,128,140,40,229,185,184,227,129,132,227,129,168,227,129,132,227,129,134,41,32,227,129,139,32,40,44,32,230,173,187,232,128,133,227,129,175,227,129,132,227,129,170,227,129,139,227,129,163,227,129,159,46,41,227,128,141], -- #       (b) Inside an adverb phrase. Ex:「(幸いという) か (, 死者はいなかった.)」
  [35,32,32,32,32,32,32,32,32,32,32,32,227,128,140,40,231,165,136,227,130,138,227,129,140,229,177,138,227,129,132,227,129,159,227,129,155,227,129,132,41,32,227,129,139,32,40,44,32,232,169,166,233,168,147,227,129,171,229,144,136,230,160,188,227,129,151,227,129,159,46,41,227,128,141], -- #           「(祈りが届いたせい) か (, 試験に合格した.)」
  [35,32,32,32,32,32,32,32,40,99,41,32,227,128,140,227,129,139,227,129,174,227,130,136,227,129,134,227,129,171,227,128,141,46,32,69,120,58,227,128,140,40,228,189,149,227,130,130,227,129,170,227,129,139,227,129,163,227,129,159,41,32,227,129,139,32,40,227,129,174,227,130,136,227,129,134,227,129,171,230,140,175,227,130,139,232,136,158,227,129,163,227,129,159,46,41,227,128,141], -- #       (c) 「かのように」. Ex:「(何もなかった) か (のように振る舞った.)」
  [35,32,32,101,46,103,46,32,227,129,139], -- #  e.g. か
  [229,138,169,232,169,158,45,229,137,175,229,138,169,232,169,158,239,188,143,228,184,166,231,171,139,229,138,169,232,169,158,239,188,143,231,181,130,229,138,169,232,169,158], -- 助詞-副助詞／並立助詞／終助詞
  [35], -- #
  [35,32,32,112,97,114,116,105,99,108,101,45,97,100,110,111,109,105,110,97,108,105,122,101,114,58,32,84,104,101,32,34,110,111,34,32,116,104,97,116,32,97,116,116,97,99,104,101,115,32,116,111,32,110,111,117,110,115,32,97,110,100,32,109,111,100,105,102,105,101,115], -- #  particle-adnominalizer: The "no" that attaches to nouns and modifies
  [35,32,32,110,111,110,45,105,110,102,108,101,99,116,105,111,110,97,108,32,119,111,114,100,115,46], -- #  non-inflectional words.
  [229,138,169,232,169,158,45,233,128,163,228,189,147,229,140,150], -- 助詞-連体化
  [35], -- #
  [35,32,32,112,97,114,116,105,99,108,101,45,97,100,110,111,109,105,110,97,108,105,122,101,114,58,32,84,104,101,32,34,110,105,34,32,97,110,100,32,34,116,111,34,32,116,104,97,116,32,97,112,112,101,97,114,32,102,111,108,108,111,119,105,110,103,32,110,111,117,110,115,32,97,110,100,32,97,100,118,101,114,98,115], -- #  particle-adnominalizer: The "ni" and "to" that appear following nouns and adverbs
  [35,32,32,116,104,97,116,32,97,114,101,32,103,105,111,110,103,111,44,32,103,105,115,101,105,103,111,44,32,111,114,32,103,105,116,97,105,103,111,46], -- #  that are giongo, giseigo, or gitaigo.
  [35,32,32,101,46,103,46,32,227,129,171,44,32,227,129,168], -- #  e.g. に, と
  [229,138,169,232,169,158,45,229,137,175,232,169,158,229,140,150], -- 助詞-副詞化
  [35], -- #
  [35,32,32,112,97,114,116,105,99,108,101,45,115,112,101,99,105,97,108,58,32,65,32,112,97,114,116,105,99,108,101,32,116,104,97,116,32,100,111,101,115,32,110,111,116,32,102,105,116,32,105,110,116,111,32,111,110,101,32,111,102,32,116,104,101,32,97,98,111,118,101,32,99,108,97,115,115,105,102,105,99,97,116,105,111,110,115,46], -- #  particle-special: A particle that does not fit into one of the above classifications.
  [35,32,32,84,104,105,115,32,105,110,99,108,117,100,101,115,32,112,97,114,116,105,99,108,101,115,32,116,104,97,116,32,97,114,101,32,117,115,101,100,32,105,110,32,84,97,110,107,97,44,32,72,97,105,107,117,44,32,97,110,100,32,111,116,104,101,114,32,112,111,101,116,114,121,46], -- #  This includes particles that are used in Tanka, Haiku, and other poetry.
  [35,32,32,101,46,103,46,32,227,129,139,227,129,170,44,32,227,129,145,227,130,128,44,32,40,32,227,129,151,227,129,159,227,129,160,227,130,141,227,129,134,41,32,227,129,171,44,32,40,227,129,130,227,130,147,227,129,159,41,32,227,129,171,227,130,131,40,227,130,143,227,129,139,227,130,137,227,130,147,41,44,32,40,228,191,186,41,32,227,130,147,32,40,229,174,182,41], -- #  e.g. かな, けむ, ( しただろう) に, (あんた) にゃ(わからん), (俺) ん (家)
  [229,138,169,232,169,158,45,231,137,185,230,174,138], -- 助詞-特殊
  [35], -- #
  [35,35,35,35,35], -- #####
  [35,32,32,97,117,120,105,108,105,97,114,121,45,118,101,114,98,58], -- #  auxiliary-verb:
  [229,138,169,229,139,149,232,169,158], -- 助動詞
  [35], -- #
  [35,35,35,35,35], -- #####
  [35,32,32,105,110,116,101,114,106,101,99,116,105,111,110,58,32,71,114,101,101,116,105,110,103,115,32,97,110,100,32,111,116,104,101,114,32,101,120,99,108,97,109,97,116,105,111,110,115,46], -- #  interjection: Greetings and other exclamations.
  [35,32,32,101,46,103,46,32,227,129,138,227,129,175,227,130,136,227,129,134,44,32,227,129,138,227,129,175,227,130,136,227,129,134,227,129,148,227,129,150,227,129,132,227,129,190,227,129,153,44,32,227,129,147,227,130,147,227,129,171,227,129,161,227,129,175,44,32,227,129,147,227,130,147,227,129,176,227,130,147,227,129,175,44,32,227,129,130,227,130,138,227,129,140,227,129,168,227,129,134,44,32,227,129,169,227,129,134,227,130,130,227,129,130,227,130,138,227,129,140,227,129,168,227,129,134,44,32,227,129,130,227,130,138,227,129,140,227,129,168,227,129,134,227,129,148,227,129,150,227,129,132,227,129,190,227,129,153,44]] -- #  e.g. おはよう, おはようございます, こんにちは, こんばんは, ありがとう, どうもありがとう, ありがとうございます,

/-- `/repo/filter/ja/asset/stop_tags.txt`, lines 361 to 390. -/
def stopTagsLines13 : List (List Nat) := [
  [35,32,32,32,32,32,32,32,227,129,132,227,129,159,227,129,160,227,129,141,227,129,190,227,129,153,44,32,227,129,148,227,129,161,227,129,157,227,129,134,227,129,149,227,129,190,44,32,227,129,149,227,130,136,227,129,170,227,130,137,44,32,227,129,149,227,130,136,227,129,134,227,129,170,227,130,137,44,32,227,129,175,227,129,132,44,32,227,129,132,227,129,132,227,129,136,44,32,227,129,148,227,130,129,227,130,147,44,32,227,129,148,227,130,129,227,130,147,227,129,170,227,129,149,227,129,132], -- #       いただきます, ごちそうさま, さよなら, さようなら, はい, いいえ, ごめん, ごめんなさい
  [35,230,132,159,229,139,149,232,169,158], -- #感動詞
  [35], -- #
  [35,35,35,35,35], -- #####
  [35,32,32,115,121,109,98,111,108,58,32,117,110,99,108,97,115,115,105,102,105,101,100,32,83,121,109,98,111,108,115,46], -- #  symbol: unclassified Symbols.
  [232,168,152,229,143,183], -- 記号
  [35], -- #
  [35,32,32,115,121,109,98,111,108,45,109,105,115,99,58,32,65,32,103,101,110,101,114,97,108,32,115,121,109,98,111,108,32,110,111,116,32,105,110,32,111,110,101,32,111,102,32,116,104,101,32,99,97,116,101,103,111,114,105,101,115,32,98,101,108,111,119,46], -- #  symbol-misc: A general symbol not in one of the categories below.
  [35,32,32,101,46,103,46,32,91,226,151,139,226,151,142,64,36,227,128,146,226,134,146,43,93], -- #  e.g. [○◎@$〒→+]
  [232,168,152,229,143,183,45,228,184,128,232,136,172], -- 記号-一般
  [35], -- #
  [35,32,32,115,121,109,98,111,108,45,99,111,109,109,97,58,32,67,111,109,109,97,115], -- #  symbol-comma: Commas
  [35,32,32,101,46,103,46,32,91,44,227,128,129,93], -- #  e.g. [,、]
  [232,168,152,229,143,183,45,232,170,173,231,130,185], -- 記号-読点
  [35], -- #
  [35,32,32,115,121,109,98,111,108,45,112,101,114,105,111,100,58,32,80,101,114,105,111,100,115,32,97,110,100,32,102,117,108,108,32,115,116,111,112,115,46], -- #  symbol-period: Periods and full stops.
  [35,32,32,101,46,103,46,32,91,46,239,188,142,227,128,130,93], -- #  e.g. [.．。]
  [232,168,152,229,143,183,45,229,143,165,231,130,185], -- 記号-句点
  [35], -- #
  [35,32,32,115,121,109,98,111,108,45,115,112,97,99,101,58,32,70,117,108,108,45,119,105,100,116,104,32,119,104,105,116,101,115,112,97,99,101,46], -- #  symbol-space: Full-width whitespace.
  [232,168,152,229,143,183,45,231,169,186,231,153,189], -- 記号-空白
  [35], -- #
  [35,32,32,115,121,109,98,111,108,45,111,112,101,110,95,98,114,97,99,107,101,116,58], -- #  symbol-open_bracket:
  [35,32,32,101,46,103,46,32,91,40,123,226,128,152,226,128,156,227,128,142,227,128,144,93], -- #  e.g. [({‘“『【]
  [232,168,152,229,143,183,45,230,139,172,229,188,167,233,150,139], -- 記号-括弧開
  [35], -- #
  [35,32,32,115,121,109,98,111,108,45,99,108,111,115,101,95,98,114,97,99,107,101,116,58], -- #  symbol-close_bracket:
  [35,32,32,101,46,103,46,32,91,41,125,226,128,153,226,128,157,227,128,143,227,128,141,227,128,145,93], -- #  e.g. [)}’”』」】]
  [232,168,152,229,143,183,45,230,139,172,229,188,167,233,150,137], -- 記号-括弧閉
  [35]] -- #

/-- `/repo/filter/ja/asset/stop_tags.txt`, lines 391 to 420. -/
def stopTagsLines14 : List (List Nat) := [
  [35,32,32,115,121,109,98,111,108,45,97,108,112,104,97,98,101,116,105,99,58], -- #  symbol-alphabetic:
  [35,232,168,152,229,143,183,45,227,130,162,227,131,171,227,131,149,227,130,161,227,131,153,227,131,131,227,131,136], -- #記号-アルファベット
  [35], -- #
  [35,35,35,35,35], -- #####
  [35,32,32,111,116,104,101,114,58,32,117,110,99,108,97,115,115,105,102,105,101,100,32,111,116,104,101,114], -- #  other: unclassified other
  [35,227,129,157,227,129,174,228,187,150], -- #その他
  [35], -- #
  [35,32,32,111,116,104,101,114,45,105,110,116,101,114,106,101,99,116,105,111,110,58,32,87,111,114,100,115,32,116,104,97,116,32,97,114,101,32,104,97,114,100,32,116,111,32,99,108,97,115,115,105,102,121,32,97,115,32,110,111,117,110,45,115,117,102,102,105,120,101,115,32,111,114], -- #  other-interjection: Words that are hard to classify as noun-suffixes or
  [35,32,32,115,101,110,116,101,110,99,101,45,102,105,110,97,108,32,112,97,114,116,105,99,108,101,115,46], -- #  sentence-final particles.
  [35,32,32,101,46,103,46,32,40,227,129,160,41,227,130,161], -- #  e.g. (だ)ァ
  [227,129,157,227,129,174,228,187,150,45,233,150,147,230,138,149], -- その他-間投
  [35], -- #
  [35,35,35,35,35], -- #####
  [35,32,32,102,105,108,108,101,114,58,32,65,105,122,117,99,104,105,32,116,104,97,116,32,111,99,99,117,114,115,32,100,117,114,105,110,103,32,97,32,99,111,110,118,101,114,115,97,116,105,111,110,32,111,114,32,115,111,117,110,100,115,32,105,110,115,101,114,116,101,100,32,97,115,32,102,105,108,108,101,114,46], -- #  filler: Aizuchi that occurs during a conversation or sounds inserted as filler.
  [35,32,32,101,46,103,46,32,227,129,130,227,129,174,44,32,227,129,134,227,130,147,227,129,168,44,32,227,129,136,227,129,168], -- #  e.g. あの, うんと, えと
  [227,131,149,227,130,163,227,131,169,227,131,188], -- フィラー
  [35], -- #
  [35,35,35,35,35], -- #####
  [35,32,32,110,111,110,45,118,101,114,98,97,108,58,32,110,111,110,45,118,101,114,98,97,108,32,115,111,117,110,100,46], -- #  non-verbal: non-verbal sound.
  [233,157,158,232,168,128,232,170,158,233,159,179], -- 非言語音
  [35], -- #
  [35,35,35,35,35], -- #####
  [35,32,32,102,114,97,103,109,101,110,116,58], -- #  fragment:
  [35,232,170,158,230,150,173,231,137,135], -- #語断片
  [35], -- #
  [35,35,35,35,35], -- #####
  [35,32,32,117,110,107,110,111,119,110,58,32,117,110,107,110,111,119,110,32,112,97,114,116,32,111,102,32,115,112,101,101,99,104,46], -- #  unknown: unknown part of speech.
  [35,230,156,170,231,159,165,232,170,158], -- #未知語
  [35], -- #
  [35,35,35,35,35,32,69,110,100,32,111,102,32,102,105,108,101]] -- ##### End of file

/-- `/repo/filter/ja/asset/stop_tags.txt`. -/
def stopTagsLines : List Bytes :=
  (stopTagsLines1 ++ stopTagsLines2 ++ stopTagsLines3 ++ stopTagsLines4 ++ stopTagsLines5 ++ stopTagsLines6 ++ stopTagsLines7 ++ stopTagsLines8 ++ stopTagsLines9 ++ stopTagsLines10 ++ stopTagsLines11 ++ stopTagsLines12 ++ stopTagsLines13 ++ stopTagsLines14).map (List.map UInt8.ofNat)

/-- `/repo/filter/ja/asset/stop_words.txt`, lines 1 to 30. -/
def stopWordsLines1 : List (List Nat) := [
  [35], -- #
  [35,32,84,104,105,115,32,102,105,108,101,32,100,101,102,105,110,101,115,32,97,32,115,116,111,112,119,111,114,100,32,115,101,116,32,102,111,114,32,74,97,112,97,110,101,115,101,46], -- # This file defines a stopword set for Japanese.
  [35], -- #
  [35,32,84,104,105,115,32,115,101,116,32,105,115,32,109,97,100,101,32,117,112,32,111,102,32,104,97,110,100,45,112,105,99,107,101,100,32,102,114,101,113,117,101,110,116,32,116,101,114,109,115,32,102,114,111,109,32,115,101,103,109,101,110,116,101,100,32,74,97,112,97,110,101,115,101,32,87,105,107,105,112,101,100,105,97,46], -- # This set is made up of hand-picked frequent terms from segmented Japanese Wikipedia.
  [35,32,80,117,110,99,116,117,97,116,105,111,110,32,99,104,97,114,97,99,116,101,114,115,32,97,110,100,32,102,114,101,113,117,101,110,116,32,107,97,110,106,105,32,104,97,118,101,32,109,111,115,116,108,121,32,98,101,101,110,32,108,101,102,116,32,111,117,116,46,32,32,83,101,101,32,76,85,67,69,78,69,45,51,55,52,53], -- # Punctuation characters and frequent kanji have mostly been left out.  See LUCENE-3745
  [35,32,102,111,114,32,102,114,101,113,117,101,110,99,121,32,108,105,115,116,115,44,32,101,116,99,46,32,116,104,97,116,32,99,97,110,32,98,101,32,117,115,101,102,117,108,32,102,111,114,32,109,97,107,105,110,103,32,121,111,117,114,32,111,119,110,32,115,101,116,32,40,105,102,32,100,101,115,105,114,101,100,41], -- # for frequency lists, etc. that can be useful for making your own set (if desired)
  [35], -- #
  [35,32,78,111,116,101,32,116,104,97,116,32,116,104,101,114,101,32,105,115,32,97,110,32,111,118,101,114,108,97,112,32,98,101,116,119,101,101,110,32,116,104,101,115,101,32,115,116,111,112,119,111,114,100,115,32,97,110,100,32,116,104,101,32,116,101,114,109,115,32,115,116,111,112,112,101,100,32,119,104,101,110,32,117,115,101,100], -- # Note that there is an overlap between these stopwords and the terms stopped when used
  [35,32,105,110,32,99,111,109,98,105,110,97,116,105,111,110,32,119,105,116,104,32,116,104,101,32,74,97,112,97,110,101,115,101,80,97,114,116,79,102,83,112,101,101,99,104,83,116,111,112,70,105,108,116,101,114,46,32,32,87,104,101,110,32,101,100,105,116,105,110,103,32,116,104,105,115,32,102,105,108,101,44,32,110,111,116,101], -- # in combination with the JapanesePartOfSpeechStopFilter.  When editing this file, note
  [35,32,116,104,97,116,32,99,111,109,109,101,110,116,115,32,97,114,101,32,110,111,116,32,97,108,108,111,119,101,100,32,111,110,32,116,104,101,32,115,97,109,101,32,108,105,110,101,32,97,115,32,115,116,111,112,119,111,114,100,115,46], -- # that comments are not allowed on the same line as stopwords.
  [35], -- #
  [35,32,65,108,115,111,32,110,111,116,101,32,116,104,97,116,32,115,116,111,112,112,105,110,103,32,105,115,32,100,111,110,101,32,105,110,32,97,32,99,97,115,101,45,105,110,115,101,110,115,105,116,105,118,101,32,109,97,110,110,101,114,46,32,32,67,104,97,110,103,101,32,121,111,117,114,32,83,116,111,112,70,105,108,116,101,114], -- # Also note that stopping is done in a case-insensitive manner.  Change your StopFilter
  [35,32,99,111,110,102,105,103,117,114,97,116,105,111,110,32,105,102,32,121,111,117,32,110,101,101,100,32,99,97,115,101,45,115,101,110,115,105,116,105,118,101,32,115,116,111,112,112,105,110,103,46,32,32,76,97,115,116,108,121,44,32,110,111,116,101,32,116,104,97,116,32,115,116,111,112,112,105,110,103,32,105,115,32,100,111,110,101], -- # configuration if you need case-sensitive stopping.  Lastly, note that stopping is done
  [35,32,117,115,105,110,103,32,116,104,101,32,115,97,109,101,32,99,104,97,114,97,99,116,101,114,32,119,105,100,116,104,32,97,115,32,116,104,101,32,101,110,116,114,105,101,115,32,105,110,32,116,104,105,115,32,102,105,108,101,46,32,32,83,105,110,99,101,32,116,104,105,115,32,83,116,111,112,70,105,108,116,101,114,32,105,115], -- # using the same character width as the entries in this file.  Since this StopFilter is
  [35,32,110,111,114,109,97,108,108,121,32,100,111,110,101,32,97,102,116,101,114,32,97,32,67,74,75,87,105,100,116,104,70,105,108,116,101,114,32,105,110,32,121,111,117,114,32,99,104,97,105,110,44,32,121,111,117,32,119,111,117,108,100,32,117,115,117,97,108,108,121,32,119,97,110,116,32,121,111,117,114,32,114,111,109,97,106,105], -- # normally done after a CJKWidthFilter in your chain, you would usually want your romaji
  [35,32,101,110,116,114,105,101,115,32,116,111,32,98,101,32,105,110,32,104,97,108,102,45,119,105,100,116,104,32,97,110,100,32,121,111,117,114,32,107,97,110,97,32,101,110,116,114,105,101,115,32,116,111,32,98,101,32,105,110,32,102,117,108,108,45,119,105,100,116,104,46], -- # entries to be in half-width and your kana entries to be in full-width.
  [35], -- #
  [227,129,174], -- の
  [227,129,171], -- に
  [227,129,175], -- は
  [227,130,146], -- を
  [227,129,159], -- た
  [227,129,140], -- が
  [227,129,167], -- で
  [227,129,166], -- て
  [227,129,168], -- と
  [227,129,151], -- し
  [227,130,140], -- れ
  [227,129,149], -- さ
  [227,129,130,227,130,139]] -- ある

/-- `/repo/filter/ja/asset/stop_words.txt`, lines 31 to 60. -/
def stopWordsLines2 : List (List Nat) := [
  [227,129,132,227,130,139], -- いる
  [227,130,130], -- も
  [227,129,153,227,130,139], -- する
  [227,129,139,227,130,137], -- から
  [227,129,170], -- な
  [227,129,147,227,129,168], -- こと
  [227,129,168,227,129,151,227,129,166], -- として
  [227,129,132], -- い
  [227,130,132], -- や
  [227,130,140,227,130,139], -- れる
  [227,129,170,227,129,169], -- など
  [227,129,170,227,129,163], -- なっ
  [227,129,170,227,129,132], -- ない
  [227,129,147,227,129,174], -- この
  [227,129,159,227,130,129], -- ため
  [227,129,157,227,129,174], -- その
  [227,129,130,227,129,163], -- あっ
  [227,130,136,227,129,134], -- よう
  [227,129,190,227,129,159], -- また
  [227,130,130,227,129,174], -- もの
  [227,129,168,227,129,132,227,129,134], -- という
  [227,129,130,227,130,138], -- あり
  [227,129,190,227,129,167], -- まで
  [227,130,137,227,130,140], -- られ
  [227,129,170,227,130,139], -- なる
  [227,129,184], -- へ
  [227,129,139], -- か
  [227,129,160], -- だ
  [227,129,147,227,130,140], -- これ
  [227,129,171,227,130,136,227,129,163,227,129,166]] -- によって

/-- `/repo/filter/ja/asset/stop_words.txt`, lines 61 to 90. -/
def stopWordsLines3 : List (List Nat) := [
  [227,129,171,227,130,136,227,130,138], -- により
  [227,129,138,227,130,138], -- おり
  [227,130,136,227,130,138], -- より
  [227,129,171,227,130,136,227,130,139], -- による
  [227,129,154], -- ず
  [227,129,170,227,130,138], -- なり
  [227,130,137,227,130,140,227,130,139], -- られる
  [227,129,171,227,129,138,227,129,132,227,129,166], -- において
  [227,129,176], -- ば
  [227,129,170,227,129,139,227,129,163], -- なかっ
  [227,129,170,227,129,143], -- なく
  [227,129,151,227,129,139,227,129,151], -- しかし
  [227,129,171,227,129,164,227,129,132,227,129,166], -- について
  [227,129,155], -- せ
  [227,129,160,227,129,163], -- だっ
  [227,129,157,227,129,174,229,190,140], -- その後
  [227,129,167,227,129,141,227,130,139], -- できる
  [227,129,157,227,130,140], -- それ
  [227,129,134], -- う
  [227,129,174,227,129,167], -- ので
  [227,129,170,227,129,138], -- なお
  [227,129,174,227,129,191], -- のみ
  [227,129,167,227,129,141], -- でき
  [227,129,141], -- き
  [227,129,164], -- つ
  [227,129,171,227,129,138,227,129,145,227,130,139], -- における
  [227,129,138,227,130,136,227,129,179], -- および
  [227,129,132,227,129,134], -- いう
  [227,129,149,227,130,137,227,129,171], -- さらに
  [227,129,167,227,130,130]] -- でも

/-- `/repo/filter/ja/asset/stop_words.txt`, lines 91 to 120. -/
def stopWordsLines4 : List (List Nat) := [
  [227,130,137], -- ら
  [227,129,159,227,130,138], -- たり
  [227,129,157,227,129,174,228,187,150], -- その他
  [227,129,171,233,150,162,227,129,153,227,130,139], -- に関する
  [227,129,159,227,129,161], -- たち
  [227,129,190,227,129,153], -- ます
  [227,130,147], -- ん
  [227,129,170,227,130,137], -- なら
  [227,129,171,229,175,190,227,129,151,227,129,166], -- に対して
  [231,137,185,227,129,171], -- 特に
  [227,129,155,227,130,139], -- せる
  [229,143,138,227,129,179], -- 及び
  [227,129,147,227,130,140,227,130,137], -- これら
  [227,129,168,227,129,141], -- とき
  [227,129,167,227,129,175], -- では
  [227,129,171,227,129,166], -- にて
  [227,129,187,227,129,139], -- ほか
  [227,129,170,227,129,140,227,130,137], -- ながら
  [227,129,134,227,129,161], -- うち
  [227,129,157,227,129,151,227,129,166], -- そして
  [227,129,168,227,129,168,227,130,130,227,129,171], -- とともに
  [227,129,159,227,129,160,227,129,151], -- ただし
  [227,129,139,227,129,164,227,129,166], -- かつて
  [227,129,157,227,130,140,227,129,158,227,130,140], -- それぞれ
  [227,129,190,227,129,159,227,129,175], -- または
  [227,129,138], -- お
  [227,129,187,227,129,169], -- ほど
  [227,130,130,227,129,174,227,129,174], -- ものの
  [227,129,171,229,175,190,227,129,153,227,130,139], -- に対する
  [227,129,187,227,129,168,227,130,147,227,129,169]] -- ほとんど

/-- `/repo/filter/ja/asset/stop_words.txt`, lines 121 to 127. -/
def stopWordsLines5 : List (List Nat) := [
  [227,129,168,229,133,177,227,129,171], -- と共に
  [227,129,168,227,129,132,227,129,163,227,129,159], -- といった
  [227,129,167,227,129,153], -- です
  [227,129,168,227,130,130], -- とも
  [227,129,168,227,129,147,227,130,141], -- ところ
  [227,129,147,227,129,147], -- ここ
  [35,35,35,35,35,32,69,110,100,32,111,102,32,102,105,108,101]] -- ##### End of file

/-- `/repo/filter/ja/asset/stop_words.txt`. -/
def stopWordsLines : List Bytes :=
  (stopWordsLines1 ++ stopWordsLines2 ++ stopWordsLines3 ++ stopWordsLines4 ++ stopWordsLines5).map (List.map UInt8.ofNat)

end Kagome
