import Verif.Example.Mini
import Verif.Model.Examples
import Verif.Props.Output

/-! What the README files say the programs print, run on the model: see `Verif/Example/Mini.lean`. -/

namespace Kagome

open Mini

/-- README.md:132-160: `kagome -h`. -/
example : (main (Toy.world) [str "kagome", str "-h"]).map (fun e => (stderrText (fun _ => true) (str "kagome") e.notes, e.exit)) = some (
    str "Japanese Morphological Analyzer -- github.com/ikawaha/kagome/v2\nusage: kagome <command>\nThe commands are:\n   [tokenize] - command line tokenize (*default)\n" ++
    str "   server - run tokenize server\n   lattice - lattice viewer\n   sentence - tiny sentence splitter\n   version - show version\n\n" ++
    str "tokenize [-file input_file] [-dict dic_file] [-userdict user_dic_file] [-sysdict (ipa|uni)] [-simple false] [-mode (normal|search|extended)] [-split] [-json]\n" ++
    str "  -dict string\n    \tdict\n  -file string\n    \tinput file\n  -json\n    \toutputs in JSON format\n" ++
    str "  -mode string\n    \ttokenize mode (normal|search|extended) (default \"normal\")\n  -simple\n    \tdisplay abbreviated dictionary contents\n" ++
    str "  -split\n    \tuse tiny sentence splitter\n  -sysdict string\n    \tsystem dict type (ipa|uni) (default \"ipa\")\n  -udict string\n    \tuser dict\n", 1) := by
  decide +kernel
/-- README.md:162-176: `kagome` with a line typed. -/
example : (main { Toy.world with ipa := dict, ideo := ideo, stdin := ⟨[⟨str "すもももももももものうち\n", false⟩], none⟩ } [str "kagome"]).map (fun e => (e.out, e.exit)) =
    some (str "すもも\t名詞,一般,*,*,*,*,すもも,スモモ,スモモ\nも\t助詞,係助詞,*,*,*,*,も,モ,モ\nもも\t名詞,一般,*,*,*,*,もも,モモ,モモ\nも\t助詞,係助詞,*,*,*,*,も,モ,モ\n" ++
      str "もも\t名詞,一般,*,*,*,*,もも,モモ,モモ\nの\t助詞,連体化,*,*,*,*,の,ノ,ノ\nうち\t名詞,非自立,副詞可能,*,*,*,うち,ウチ,ウチ\nEOS\n", 0) := by decide +kernel

/-- README.md:36-43: the modes, for the first text. -/
example : ([modeNormal, modeSearch, modeExtended].map (fun m => (analyze { tok with omitBosEos := true } ideo (str "関西国際空港") m).map (·.map (·.surface)))) =
    [some [str "関西国際空港"], some [str "関西", str "国際", str "空港"], some [str "関西", str "国際", str "空港"]] := by decide +kernel

/-- _examples/tokenize/README.md:17-27 and README.md:85-96. -/
example : tokenizeProgram (some dict) ideo (str "すもももももももものうち") =
    some (str "---tokenize---\nすもも\t名詞,一般,*,*,*,*,すもも,スモモ,スモモ\nも\t助詞,係助詞,*,*,*,*,も,モ,モ\nもも\t名詞,一般,*,*,*,*,もも,モモ,モモ\nも\t助詞,係助詞,*,*,*,*,も,モ,モ\n" ++
      str "もも\t名詞,一般,*,*,*,*,もも,モモ,モモ\nの\t助詞,連体化,*,*,*,*,の,ノ,ノ\nうち\t名詞,非自立,副詞可能,*,*,*,うち,ウチ,ウチ\n") := by decide +kernel

/-- _examples/wakati/main.go:11-20; its README.md has the same line of words. -/
example : wakatiProgram (some dict) ideo (str "すもももももももものうち") = some (str "---wakati---\nすもも/も/もも/も/もも/の/うち\n") := by decide +kernel

/-- _examples/db_search/main.go:107-117: what the program says it prints, for the words of the lines that are in `Mini.dict` (the word 北方 is not). -/
example : searchProgram (some dict) ideo (["人魚は、南の方の海にばかり棲んでいるのではありません。", "北の海にも棲んでいたのであります。", "北方の海の色は、青うございました。",
      "ある時、岩の上に、女の人魚があがって、", "あたりの景色を眺めながら休んでいました。", "小川未明 『赤い蝋燭と人魚』"].map str) (["人魚", "人"].map str) =
    some (str "Searching for: 人魚\n  Found content: 人魚は、南の方の海にばかり棲んでいるのではありません。 at line: 1\n" ++
      str "  Found content: ある時、岩の上に、女の人魚があがって、 at line: 4\n  Found content: 小川未明 『赤い蝋燭と人魚』 at line: 6\n" ++
      str "Searching for: 人\n  No results found\n", false) := by decide +kernel

end Kagome
