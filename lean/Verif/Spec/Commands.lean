import Verif.Spec.CommandLine

/-! Specification: what `sentence` and `lattice` work with. -/

namespace Kagome.Spec

open Kagome

/-- The input `sentence` reads. -/
inductive SentenceInput (w : World) (file : Bytes) : Source → Prop
  | stdin : file = [] → SentenceInput w file w.stdin
  | file {src} : file ≠ [] → w.openFile file = .ok src → SentenceInput w file src

/-- The dictionary a name stands for in `lattice` and `server`. -/
inductive NamedDict (w : World) (name : Bytes) : Dict → Prop
  | ipa : name = str "ipa" → NamedDict w name w.ipa
  | uni : name = str "uni" → NamedDict w name w.uni

/-- The tokenizer made from a dictionary name and a user dictionary file (no user dictionary if the name of the file is empty). -/
inductive NamedTokenizer (w : World) (name udict : Bytes) : Tokenizer → Prop
  | plain {d} : NamedDict w name d → udict = [] → NamedTokenizer w name udict ⟨d, none, false⟩
  | user {d u} : NamedDict w name d → udict ≠ [] → w.loadUser udict = .ok u → NamedTokenizer w name udict ⟨d, some u, false⟩

/-- The text of the lines written to stderr. -/
def noteText (notes : List Note) : Option Bytes :=
  match notes with
  | [] => some []
  | .line l :: ns => (noteText ns).map (fun s => l ++ str "\n" ++ s)
  | _ :: _ => none

end Kagome.Spec
