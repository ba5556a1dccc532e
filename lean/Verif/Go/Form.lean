import Verif.Go.Str

/-! Forms in `net/url` and `net/http`. -/

namespace Kagome

/-- `ishex` and `unhex` of `net/url`. Standard library; used in /repo at cmd/server/demo.go:114-116. -/
def unhex (b : UInt8) : Option Nat :=
  if 0x30 ≤ b ∧ b ≤ 0x39 then some (b.toNat - 0x30)
  else if 0x61 ≤ b ∧ b ≤ 0x66 then some (b.toNat - 0x61 + 10)
  else if 0x41 ≤ b ∧ b ≤ 0x46 then some (b.toNat - 0x41 + 10)
  else none

/-- `url.QueryUnescape`, none for an error. The function looks for errors first and then decodes; here both are done in one pass. Standard library; used in
/repo at cmd/server/demo.go:114-116. -/
def queryUnescape : Bytes → Option Bytes
  | [] => some []
  | [b] => if b = 0x25 then none else some [if b = 0x2B then 0x20 else b]
  | [b, c] =>
    if b = 0x25 then none
    else if c = 0x25 then none else some [if b = 0x2B then 0x20 else b, if c = 0x2B then 0x20 else c]
  | b :: c :: d :: s =>
    if b = 0x25 then
      match unhex c, unhex d with
      | some x, some y => (queryUnescape s).map (UInt8.ofNat (16 * x + y) :: ·)
      | _, _ => none
    else (queryUnescape (c :: d :: s)).map ((if b = 0x2B then 0x20 else b) :: ·)

/-- `strings.Cut(s, sep)` for one byte, without the flag. Standard library; used in /repo at cmd/server/demo.go:114-116. -/
def cutByte (sep : UInt8) : Bytes → Bytes × Bytes
  | [] => ([], [])
  | b :: s => if b = sep then ([], s) else (b :: (cutByte sep s).1, (cutByte sep s).2)

/-- The pieces between the separators. Standard library; used in /repo at cmd/server/demo.go:114-116. -/
def piecesAt (sep : UInt8) : Bytes → List Bytes
  | [] => [[]]
  | b :: s =>
    match piecesAt sep s with
    | [] => [[b]]
    | p :: ps => if b = sep then [] :: p :: ps else (b :: p) :: ps

/-- The body of the loop of `parseQuery` for one piece; none if it goes on without a new value. Standard library; used in /repo at
cmd/server/demo.go:114-116. -/
def queryPair (piece : Bytes) : Option (Bytes × Bytes) :=
  if 0x3B ∈ piece then none
  else if piece = [] then none
  else
    match queryUnescape (cutByte 0x3D piece).1, queryUnescape (cutByte 0x3D piece).2 with
    | some k, some v => some (k, v)
    | _, _ => none

/-- `url.ParseQuery`: the names and values, in order; `FormValue` ignores the error. The loop cuts the text at the first `&` until nothing is left; here it is cut
into pieces first. Standard library; used in /repo at cmd/server/demo.go:114-116. -/
def parseQuery (query : Bytes) : List (Bytes × Bytes) := (piecesAt 0x26 query).filterMap queryPair

/-- What `FormValue` looks at: the method, whether the media type is `application/x-www-form-urlencoded`, the body and the query. Simplified: the header is not
parsed, and bodies of type `multipart/form-data` are left out. Standard library; used in /repo at cmd/server/demo.go:113. -/
structure HttpRequest where
  method : Bytes
  isForm : Bool
  body : Bytes
  query : Bytes
deriving DecidableEq, Repr

/-- `ParseForm`: the names and values of `r.Form`. A body of more than 10 MB is not read. Standard library; used in /repo at cmd/server/demo.go:114-116. -/
def parseForm (r : HttpRequest) : List (Bytes × Bytes) :=
  (if (r.method = str "POST" ∨ r.method = str "PUT" ∨ r.method = str "PATCH") ∧ r.isForm = true ∧ r.body.length ≤ 10485760 then parseQuery r.body else []) ++
    parseQuery r.query

/-- `FormValue`. Standard library; used in /repo at cmd/server/demo.go:114-116. -/
def formValue (r : HttpRequest) (key : Bytes) : Bytes :=
  match (parseForm r).find? (fun p => p.1 = key) with
  | some p => p.2
  | none => []

end Kagome
