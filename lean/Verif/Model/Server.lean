import Verif.Model.Cmd

/-!
`/repo/cmd/server/api.go` and `/repo/cmd/server/demo.go`.

`json.NewDecoder(r.Body).Decode` is a parameter (`decode`), templates and Graphviz too. A panic is `none` (`net/http` would recover it and
drop the connection).
-/

namespace Kagome

/-- api.go:16-19 `TokenizerRequestBody`. -/
structure ApiRequest where
  input : Bytes
  mode : Bytes

/-- What a handler answers. `w` of cmd/server/api.go:28 and cmd/server/demo.go:113. -/
structure Response where
  status : Nat
  contentType : Bytes
  body : Bytes
deriving DecidableEq, Repr

/-- `http.Error`: it sets the content type and adds a newline. Used at cmd/server/api.go:32, 59 and cmd/server/demo.go:125, 156. -/
def httpError (text : Bytes) (status : Nat) : Response := ⟨status, str "text/plain; charset=utf-8", text ++ str "\n"⟩

/-- api.go:32 and 59: the body of an error. -/
def apiError (err : Bytes) : Bytes := str "{\"status\":false,\"error\":\"" ++ err ++ str "\"}"

/-- api.go:39-45. -/
def apiMode (mode : Bytes) : Int :=
  if mode = str "Search" then modeSearch
  else if mode = str "Extended" then modeExtended
  else modeNormal

/-- api.go:47-53: the loop over the tokens; the slice starts as nil. -/
def apiTokens (acc : Option (List TokenData)) : List Token → Option (Option (List TokenData))
  | [] => some acc
  | v :: ts =>
    if v.id = bosEosID then apiTokens acc ts
    else
      match newTokenData v with
      | none => none
      | some d => apiTokens (some (acc.getD [] ++ [d])) ts

/-- api.go:22-25 `TokenizerResponseBody`, as `json.Marshal` writes it. -/
def apiBody (short : Bool) (tokens : Option (List TokenData)) : Bytes :=
  str "{\"status\":true,\"tokens\":" ++ jsonTokens short tokens ++ str "}"

/-- api.go:28-64 `ServeHTTP` of the handler of `/tokenize`; `json.Marshal` gives no error here. -/
def serveTokenize (t : Tokenizer) (ideo : Nat → Bool) (short : Bool) (decode : Bytes → Except Bytes ApiRequest) (body : Bytes) :
    Option Response :=
  match decode body with
  | .error e => some (httpError (apiError e) 400)
  | .ok req =>
    if req.input = [] then some ⟨200, str "application/json", str "{\"status\":true,\"tokens\":[]}"⟩
    else
      match analyze t ideo req.input (apiMode req.mode) with
      | none => none
      | some toks => (apiTokens none toks).map (fun l => ⟨200, str "application/json", apiBody short l⟩)

/-! ### The demo page -/

/-- demo.go:40-46 `record`. -/
structure Record where
  surface : Bytes
  pos : Bytes
  baseForm : Bytes
  reading : Bytes
  pronunciation : Bytes
deriving DecidableEq, Repr

/-- demo.go:48-69 `newRecord`. -/
def newRecord (t : Token) : Option Record :=
  match tokenPOS t, baseForm t, reading t, pronunciation t with
  | some pos, some b, some r, some p =>
    some { surface := t.surface,
           pos := if join (str ",") (pos.getD []) ≠ [] then join (str ",") (pos.getD []) else str "*",
           baseForm := if b.2 then b.1 else str "*",
           reading := if r.2 then r.1 else str "*",
           pronunciation := if p.2 then p.1 else str "*" }
  | _, _, _, _ => none

/-- demo.go:71-80 `toRecords`. -/
def toRecords : List Token → Option (List Record)
  | [] => some []
  | t :: ts =>
    if t.id = bosEosID then toRecords ts
    else
      match newRecord t with
      | none => none
      | some r => (toRecords ts).map (r :: ·)

/-- Graphviz: whether `dot` is found, and what a run on a text gives: the picture, or the error (true: for lack of time). cmd/server/demo.go:83,
89-101. -/
structure Graphviz where
  installed : Bool
  run : Bytes → Except (Bytes × Bool) Bytes


/-- `strings.Index(s, p)` for a non-empty `p`: the number of bytes in front of the first `p`. Used at cmd/server/demo.go:105. -/
def indexOf (p : Bytes) : Bytes → Option Nat
  | [] => none
  | b :: s => if p.isPrefixOf (b :: s) then some 0 else (indexOf p s).map (· + 1)

/-- demo.go:105-107: what is in front of `<svg` is dropped. -/
def cropSvg (svg : Bytes) : Bytes :=
  match indexOf (str "<svg") svg with
  | some pos => if pos > 0 then svg.drop pos else svg
  | none => svg

/-- What the page shows (the data given to the template). cmd/server/demo.go:118-124, 143-155. -/
inductive DemoPage where
  | form (sentence mode : Bytes)
  | graph (sentence : Bytes) (records : List Record) (cmdErr svg mode : Bytes)
deriving DecidableEq, Repr

/-- demo.go:82-110 `analyzeGraph`: the records and the picture, or the error and whether it is `DeadlineExceeded`. A process that cannot
be started, a pipe that cannot be closed and a process that fails are all errors of `run`. The text written to Graphviz is that of
`exportGraph`. The goroutines and the pipe between them are in `Verif/Model/Pipe.lean`. -/
def demoGraph (t : Tokenizer) (ideo : Nat → Bool) (viz : Graphviz) (addr : Ptr → Bytes) (sen : Bytes) (mode : Int) :
    Option (Except (Bytes × Bool) (List Record × Bytes)) :=
  if viz.installed = false then some (.error (str "circo/graphviz is not installed in your $PATH", false))
  else
    match analyzeGraph t ideo sen mode, exportGraph t ideo sen mode with
    | some toks, some g =>
      match viz.run (dotText addr g) with
      | .error (e, deadline) => some (.error (str "process done with error, " ++ e, deadline))
      | .ok svg => (toRecords toks).map (fun rs => .ok (rs, cropSvg svg))
    | _, _ => none

/-- demo.go:130-134: Extended uses search mode. -/
def demoMode (mode : Bytes) : Int := if mode = str "Search" ∨ mode = str "Extended" then modeSearch else modeNormal

/-- demo.go:113-158 `ServeHTTP` of the demo page. -/
def serveDemo (t : Tokenizer) (ideo : Nat → Bool) (viz : Graphviz) (addr : Ptr → Bytes) (sen mode lattice : Bytes) :
    Option DemoPage :=
  if lattice = [] then some (.form sen mode)
  else
    (demoGraph t ideo viz addr sen (demoMode mode)).map (fun r =>
      match r with
      | .error (e, deadline) =>
        .graph sen [] (if deadline then str "Error: graphviz time out" else str "Error: " ++ e) [] mode
      | .ok (rs, svg) => .graph sen rs [] svg mode)

end Kagome
