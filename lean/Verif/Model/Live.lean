import Verif.Model.Page
import Verif.Model.Request
import Verif.Spec.Api

/-!
The script of the demo page, `/repo/cmd/server/asset/demo.html`, from the text in the field to the table: what it posts to `/tokenize`, and what it does with the
answer. `JSON.stringify` is written from ECMA-262 (QuoteJSONString). `JSON.parse` is the reader of `Spec/Json.lean`: it is used on answers of the server
only, which are JSON by C43 and C66.
-/

namespace Kagome

/-- Four hexadecimal digits in lower case (UnicodeEscape of ECMA-262). Used at cmd/server/asset/demo.html:143. -/
def hex4 (u : Nat) : Bytes := str "\\u" ++ hex2 (u / 256) ++ hex2 u

/-- What `JSON.stringify` writes for a code unit that is not part of a pair of surrogates, in UTF-8 (QuoteJSONString of ECMA-262). Used at
cmd/server/asset/demo.html:143. -/
def unitJson (u : Nat) : Bytes :=
  if u = 0x08 then str "\\b"
  else if u = 0x09 then str "\\t"
  else if u = 0x0A then str "\\n"
  else if u = 0x0C then str "\\f"
  else if u = 0x0D then str "\\r"
  else if u = 0x22 then str "\\\""
  else if u = 0x5C then str "\\\\"
  else if u < 0x20 ∨ isSurrogate u = true then hex4 u
  else encodeRune u

/-- `JSON.stringify` of a string, given as its UTF-16 code units, without the quotation marks. Used at cmd/server/asset/demo.html:143. -/
def unitsJson : List Nat → Bytes
  | [] => []
  | [u] => unitJson u
  | u :: v :: us =>
    match utf16Decode u (some v) with
    | some r => encodeRune r ++ unitsJson us
    | none => unitJson u ++ unitsJson (v :: us)

/-- cmd/server/asset/demo.html:140-143: the body of the request for a text and the value of the checked button. Without one the value is `undefined`, which
`JSON.stringify` leaves out. -/
def liveBody (text : List Nat) (mode : Option (List Nat)) : Bytes :=
  str "{\"sentence\":\"" ++ unitsJson text ++ str "\"" ++
    (match mode with | none => [] | some m => str ",\"mode\":\"" ++ unitsJson m ++ str "\"") ++ str "}"

/-- A string of the answer. cmd/server/asset/demo.html:123-132. Simplified: the script would also show a value that is not a string. -/
def liveText (v : Spec.Json) (name : Bytes) : Option Bytes :=
  match v.get? name with
  | some (.str s) => some s
  | _ => none

/-- The parts of speech of a token of the answer; `null` for none. cmd/server/asset/demo.html:123. Simplified as `liveText`. -/
def livePos (v : Spec.Json) : Option (Option (List Bytes)) :=
  match v.get? (str "pos") with
  | some .null => some none
  | some (.arr l) => (l.mapM (fun x : Spec.Json => match x with | .str s => some s | _ => none)).map some
  | _ => none

/-- cmd/server/asset/demo.html:123-134: the row of a token of the answer. Simplified: none where a value is not of the type of cmd/server/api.go:24. -/
def liveRowOf (v : Spec.Json) : Option Bytes :=
  match liveText v (str "surface"), livePos v, liveText v (str "base_form"), liveText v (str "reading"), liveText v (str "pronunciation") with
  | some s, some p, some b, some r, some n => some (liveRow ⟨0, 0, 0, s, [], p, b, r, n, none⟩)
  | _, _, _, _, _ => none

/-- cmd/server/asset/demo.html:117-137: the rows of the table when the answer has come, if they were `old` before. jQuery calls `cb` if the status is 200 and the
body is JSON. -/
def liveTable (old : List Bytes) (r : Response) : Option (List Bytes) :=
  if r.status = 200 then
    match Spec.readJson r.body with
    | some v =>
      match v.get? (str "tokens") with
      | some (.arr l) => l.mapM liveRowOf
      | _ => some old
    | none => some old
  else some old

/-- cmd/server/asset/demo.html:139-144: the rows when something was typed and the answer has come. -/
def liveType (t : Tokenizer) (ideo : Nat → Bool) (short : Bool) (old : List Bytes) (text : List Nat) (mode : Option (List Nat)) : Option (List Bytes) :=
  (serveApi t ideo short (liveBody text mode)).bind (liveTable old)

/-- The page in a browser: the rows of the table and the requests whose answers have not come. cmd/server/asset/demo.html:111, 143. -/
structure LivePage where
  rows : List Bytes
  waiting : List (List Nat × Option (List Nat))
deriving DecidableEq, Repr

/-- What can happen: something is typed (cmd/server/asset/demo.html:92, 139-144); the answer to the request with that number among those that wait comes, and
`cb` gets it (117); it does not come; another button was chosen and the answer to its request, a page of the demo handler, comes (146-151). The network may
change the order of the answers. -/
inductive LiveEvent where
  | input (text : List Nat) (mode : Option (List Nat))
  | answer (i : Nat)
  | lost (i : Nat)
  | button (page : DemoPage)

/-- The page after an event. cmd/server/asset/demo.html:117-151. -/
def liveStep (t : Tokenizer) (ideo : Nat → Bool) (short : Bool) (p : LivePage) : LiveEvent → Option LivePage
  | .input text mode => some { p with waiting := p.waiting ++ [(text, mode)] }
  | .answer i =>
    match p.waiting[i]? with
    | none => some p
    | some r => (liveType t ideo short p.rows r.1 r.2).map (fun rows => ⟨rows, p.waiting.eraseIdx i⟩)
  | .lost i => some { p with waiting := p.waiting.eraseIdx i }
  | .button page => (liveTable p.rows ⟨200, str "text/html; charset=utf-8", renderPage page⟩).map (fun rows => { p with rows := rows })

/-- The page after some events. cmd/server/asset/demo.html:117-151. -/
def liveRun (t : Tokenizer) (ideo : Nat → Bool) (short : Bool) : LivePage → List LiveEvent → Option LivePage
  | p, [] => some p
  | p, e :: es => (liveStep t ideo short p e).bind (fun q => liveRun t ideo short q es)

end Kagome
