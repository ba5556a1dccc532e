import Verif.Model.Form
import Verif.Model.Examples

/-!
The page of the browser example, `/repo/_examples/wasm/kagome.html` (the same file is `/repo/docs/index.html`): from the text in the field to the table. Texts
go from JavaScript to Go and back with `wasm_exec.js` of the Go distribution, which uses `TextEncoder` (`unitsUtf8`,
for `args[0].String()` at _examples/wasm/main.go:27) and `TextDecoder`.
-/

namespace Kagome

/-- The object of _examples/wasm/main.go:30-39 in JavaScript. `toJs` is what `TextDecoder` makes of the bytes of a string (here again in UTF-8). -/
def recordJs (toJs : Bytes → Bytes) (r : WasmRecord) : WasmRecord :=
  { r with wordType := toJs r.wordType, surfaceForm := toJs r.surfaceForm, pos := toJs r.pos, baseForm := toJs r.baseForm, reading := toJs r.reading,
           pronunciation := toJs r.pronunciation }

/-- _examples/wasm/kagome.html:126-133: the text that the script appends to the table for an object. The stars of line 125 are not used. -/
def wasmRow (r : WasmRecord) : Bytes :=
  str "<tr><td>" ++ (r.surfaceForm ++ (str "</td><td>" ++ (r.pos ++ (str "</td><td>" ++ (r.baseForm ++ (str "</td><td>" ++ (r.reading ++
    (str "</td><td>" ++ (r.pronunciation ++ str "</td></tr>")))))))))

/-- The page: whether `kagome_tokenize` is there (_examples/wasm/main.go:46), and the rows of the table. -/
structure BrowserPage where
  ready : Bool
  rows : List Bytes
deriving DecidableEq, Repr

/-- The page when it is opened. _examples/wasm/kagome.html:45-55, 112. -/
def browserStart : BrowserPage := ⟨false, []⟩

/-- What can happen: the program has been loaded and has registered its function (_examples/wasm/kagome.html:51, main.go:44-47, 51); the text of the field is
changed (kagome.html:98). -/
inductive BrowserEvent where
  | loaded
  | input (text : List Nat)

/-- The page after an event. _examples/wasm/kagome.html:119-135 `tokenize`. Without `kagome_tokenize` line 121 throws before the table is emptied; `$.each` on
`null` throws afterwards. `unitsUtf8` is for `args[0].String()`, main.go:27. The call into Go returns before the script goes on. -/
def browserStep (d : Option Dict) (ideo : Nat → Bool) (toJs : Bytes → Bytes) (p : BrowserPage) : BrowserEvent → Option BrowserPage
  | .loaded => some { p with ready := true }
  | .input text =>
    if p.ready then
      match wasmTokenize d ideo [unitsUtf8 text] with
      | none => none
      | some none => some { p with rows := [] }
      | some (some recs) => some { p with rows := recs.map (fun r => wasmRow (recordJs toJs r)) }
    else some p

/-- The page after some events. _examples/wasm/kagome.html:119-135. -/
def browserRun (d : Option Dict) (ideo : Nat → Bool) (toJs : Bytes → Bytes) : BrowserPage → List BrowserEvent → Option BrowserPage
  | p, [] => some p
  | p, e :: es => (browserStep d ideo toJs p e).bind (fun q => browserRun d ideo toJs q es)

end Kagome
