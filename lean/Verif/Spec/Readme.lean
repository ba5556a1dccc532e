import Verif.Go.Str

/-! What README.md shows. -/

namespace Kagome.Spec

open Kagome

/-- README.md, lines 134-159: what `kagome -h` shows. -/
def readmeHelp : Bytes :=
    str "Japanese Morphological Analyzer -- github.com/ikawaha/kagome/v2\n" ++
    str "usage: kagome <command>\n" ++
    str "The commands are:\n" ++
    str "   [tokenize] - command line tokenize (*default)\n" ++
    str "   server - run tokenize server\n" ++
    str "   lattice - lattice viewer\n" ++
    str "   sentence - tiny sentence splitter\n" ++
    str "   version - show version\n" ++
    str "\n" ++
    str "tokenize [-file input_file] [-dict dic_file] [-userdict user_dic_file] [-sysdict (ipa|uni)] [-simple false] [-mode (normal|search|extended)] [-split] [-json]\n" ++
    str "  -dict string\n" ++
    str "    \tdict\n" ++
    str "  -file string\n" ++
    str "    \tinput file\n" ++
    str "  -json\n" ++
    str "    \toutputs in JSON format\n" ++
    str "  -mode string\n" ++
    str "    \ttokenize mode (normal|search|extended) (default \"normal\")\n" ++
    str "  -simple\n" ++
    str "    \tdisplay abbreviated dictionary contents\n" ++
    str "  -split\n" ++
    str "    \tuse tiny sentence splitter\n" ++
    str "  -sysdict string\n" ++
    str "    \tsystem dict type (ipa|uni) (default \"ipa\")\n" ++
    str "  -udict string\n" ++
    str "    \tuser dict\n"

end Kagome.Spec
