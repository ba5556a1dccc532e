import Verif.Spec.CommandLine
import Verif.Spec.Commands

/-!
What can keep a command with a legal command line from starting (C69), and the message that says so. What is needed is looked for in a fixed order:
the dictionary, the user dictionary, then the file or the address; the first thing that is not there is named.
-/

namespace Kagome.Spec

open Kagome

/-- Why `tokenize` cannot start. -/
inductive TokenizeFails (w : World) (o : Tok.Opts) : Bytes → Prop
  /-- no dictionary is named -/
  | unnamed : o.dict = [] → o.sysdict = [] → TokenizeFails w o (str "unknown dict type, ")
  /-- the dictionary file cannot be loaded -/
  | dict {e} : o.dict ≠ [] → o.simple = false → w.loadDict o.dict = .error e → TokenizeFails w o e
  | shrunkDict {e} : o.dict ≠ [] → o.simple = true → w.loadShrink o.dict = .error e → TokenizeFails w o e
  /-- the user dictionary cannot be loaded -/
  | user {d e} : ChosenDict w o d → o.udict ≠ [] → w.loadUser o.udict = .error e → TokenizeFails w o e
  /-- the file to be analysed cannot be opened -/
  | input {t e} : ChosenTokenizer w o t → o.file ≠ [] → w.openFile o.file = .error e → TokenizeFails w o e

/-- Why a tokenizer cannot be made from the name of a dictionary and a user dictionary file. -/
inductive NamedFails (w : World) (name udict : Bytes) : Bytes → Prop
  | unnamed : name = [] → NamedFails w name udict (str "unknown name type, ")
  | user {d e} : NamedDict w name d → udict ≠ [] → w.loadUser udict = .error e → NamedFails w name udict e

/-- Why `lattice` cannot start. -/
inductive LatticeFails (w : World) (o : Lat.Opts) : Bytes → Prop
  | tokenizer {e} : NamedFails w o.dict o.udict e → LatticeFails w o e
  /-- the output file cannot be opened -/
  | output {t e} : NamedTokenizer w o.dict o.udict t → o.output ≠ [] → w.createError o.output = some e → LatticeFails w o e

/-- Why `server` cannot start. -/
inductive ServerFails (w : World) (o : Srv.Opts) : Bytes → Prop
  | tokenizer {e} : NamedFails w o.dict o.udict e → ServerFails w o e
  /-- the address cannot be used -/
  | listen {t e} : NamedTokenizer w o.dict o.udict t → w.listen o.http = some e → ServerFails w o (str "server error, " ++ e)

/-- Why `sentence` cannot start. -/
def SentenceFails (w : World) (file e : Bytes) : Prop := file ≠ [] ∧ w.openFile file = .error e

/-- A process that has done nothing but name a reason: nothing on stdout, no file touched, no request served, one line on stderr, exit status 1. -/
def OnlyReason (e : Bytes) : Exit := ⟨[], [.line e], [], none, 1⟩

end Kagome.Spec
