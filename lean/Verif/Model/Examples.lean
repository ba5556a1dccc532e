import Verif.Model.Token
import Verif.Go.Str
import Verif.Go.Json

/-! The programs in `/repo/_examples`, for any dictionary and any text. A panic is `none`. -/

namespace Kagome

/-- _examples/wakati/main.go:11-20 `main`: what it prints. -/
def wakatiProgram (d : Option Dict) (ideo : Nat → Bool) (text : Bytes) : Option Bytes :=
  match newTokenizer d [optOmitBosEos] with
  | .error _ => none
  | .ok t => (wakati t ideo text).map (fun seg => str "---wakati---\n" ++ (join (str "/") seg ++ str "\n"))

/-- _examples/tokenize/main.go:19-22: the loop over the tokens. -/
def tokenizeRows : List Token → Option Bytes
  | [] => some []
  | token :: tokens =>
    match features token with
    | none => none
    | some fs => (tokenizeRows tokens).map (fun rest => token.surface ++ str "\t" ++ join (str ",") (fs.getD []) ++ str "\n" ++ rest)

/-- _examples/tokenize/main.go:11-22 `main`: what it prints. -/
def tokenizeProgram (d : Option Dict) (ideo : Nat → Bool) (text : Bytes) : Option Bytes :=
  match newTokenizer d [optOmitBosEos] with
  | .error _ => none
  | .ok t =>
    match tokenize t ideo text with
    | none => none
    | some tokens => (tokenizeRows tokens).map (str "---tokenize---\n" ++ ·)

/-- _examples/user_dict/main.go:28-30: the loop over the tokens. `%v` of a string slice puts spaces between the strings and brackets around them. -/
def userDictRows : List Token → Option Bytes
  | [] => some []
  | token :: tokens =>
    match features token with
    | none => none
    | some fs => (userDictRows tokens).map (fun rest => token.surface ++ str "\t" ++ (str "[" ++ join (str " ") (fs.getD []) ++ str "]") ++ str "\n" ++ rest)

/-- _examples/user_dict/main.go:11-30 `main`: what it prints. `u` is the result of reading the user dictionary. -/
def userDictProgram (d : Option Dict) (u : Option UserDict) (ideo : Nat → Bool) (text : Bytes) : Option Bytes :=
  match u with
  | none => none
  | some u =>
    match newTokenizer d [optUserDict (some u), optOmitBosEos] with
    | .error _ => none
    | .ok t =>
      match analyze t ideo text modeSearch with
      | none => none
      | some tokens => userDictRows tokens

/-- _examples/wasm/main.go:30-39: the object for a token. -/
structure WasmRecord where
  wordId : Int
  wordType : Bytes
  wordPosition : Nat
  surfaceForm : Bytes
  pos : Bytes
  baseForm : Bytes
  reading : Bytes
  pronunciation : Bytes
deriving DecidableEq, Repr

/-- _examples/wasm/main.go:28-40: the loop over the tokens. `igOK` (_examples/wasm/main.go:14-16) drops the flag. -/
def wasmRecords : List Token → Option (List WasmRecord)
  | [] => some []
  | v :: tokens =>
    match tokenPOS v, baseForm v, reading v, pronunciation v with
    | some pos, some b, some r, some p =>
      (wasmRecords tokens).map (fun rest =>
        { wordId := v.id, wordType := className v.cls, wordPosition := v.start, surfaceForm := v.surface, pos := join (str ",") (pos.getD []),
          baseForm := b.1, reading := r.1, pronunciation := p.1 } :: rest)
    | _, _, _, _ => none

/-- _examples/wasm/main.go:18-42 `tokenize`, called with the texts of its arguments. The inner `none` is JavaScript's `null`. -/
def wasmTokenize (d : Option Dict) (ideo : Nat → Bool) (args : List Bytes) : Option (Option (List WasmRecord)) :=
  match args with
  | [] => some none
  | text :: _ =>
    match newTokenizer d [optOmitBosEos] with
    | .error _ => some none
    | .ok t =>
      match tokenize t ideo text with
      | none => none
      | some tokens => (wasmRecords tokens).map some

/-- `slices.Compact`, behind an element that was kept. Standard library; used in /repo at _examples/db_search/main.go:144. -/
def compactAfter (x : Bytes) : List Bytes → List Bytes
  | [] => []
  | y :: t => if x = y then compactAfter x t else y :: compactAfter y t

/-- `slices.Compact`: of equal neighbours the first is kept. Standard library; used in /repo at _examples/db_search/main.go:144. -/
def compact : List Bytes → List Bytes
  | [] => []
  | x :: t => x :: compactAfter x t

/-- A byte that belongs to a term for the tokenizer `simple` of SQLite's FTS4: a letter or digit of ASCII, or any byte above ASCII. SQLite; used in /repo
at _examples/db_search/main.go:55. -/
def termByte (b : UInt8) : Bool :=
  decide (0x80 ≤ b) || (decide (0x30 ≤ b) && decide (b ≤ 0x39)) || (decide (0x41 ≤ b) && decide (b ≤ 0x5A)) || (decide (0x61 ≤ b) && decide (b ≤ 0x7A))

/-- Folding of ASCII letters by the tokenizer `simple`. SQLite; used in /repo at _examples/db_search/main.go:55. -/
def foldByte (b : UInt8) : UInt8 := if 0x41 ≤ b ∧ b ≤ 0x5A then b + 0x20 else b

/-- The terms of a document, `cur` being the bytes of the current term in reverse. SQLite; used in /repo at _examples/db_search/main.go:55. -/
def ftsTerms : Bytes → Bytes → List Bytes
  | cur, [] => if cur = [] then [] else [cur.reverse]
  | cur, c :: cs =>
    if termByte c then ftsTerms (foldByte c :: cur) cs
    else if cur = [] then ftsTerms [] cs else cur.reverse :: ftsTerms [] cs

/-- The two tables: `contents_fts` (the ids are 1, 2, …: nothing is ever deleted) and `fts`. _examples/db_search/main.go:53-56. -/
structure SearchDb where
  contents : List Bytes
  fts : List (Nat × Bytes)

/-- _examples/db_search/main.go:122-132 `insertContent`. -/
def insertContent (db : SearchDb) (content : Bytes) : SearchDb × Nat :=
  (⟨db.contents ++ [content], db.fts⟩, db.contents.length + 1)

/-- _examples/db_search/main.go:134-155 `insertSearchToken`. The outer `none` is a panic, the inner an error. -/
def insertSearchToken (d : Option Dict) (ideo : Nat → Bool) (db : SearchDb) (rowID : Nat) (content : Bytes) : Option (Option SearchDb) :=
  match newTokenizer d [optOmitBosEos] with
  | .error _ => some none
  | .ok t => (wakati t ideo content).map (fun seg => some ⟨db.contents, db.fts ++ [(rowID, join (str " ") (compact seg))]⟩)

/-- _examples/db_search/main.go:61-69: the loop over the lines. -/
def insertLines (d : Option Dict) (ideo : Nat → Bool) : SearchDb → List Bytes → Option (Option SearchDb)
  | db, [] => some (some db)
  | db, line :: lines =>
    let (db, rowID) := insertContent db line
    match insertSearchToken d ideo db rowID line with
    | none => none
    | some none => some none
    | some (some db) => insertLines d ideo db lines

/-- _examples/db_search/main.go:185-210 `searchFTS4`, for a search word without the characters and key words of the query language: the rows that have
all its terms, in the order of their ids. -/
def searchFTS4 (db : SearchDb) (searchWord : Bytes) : List Nat :=
  (db.fts.filter (fun row => (ftsTerms [] searchWord).all (fun term => decide (term ∈ ftsTerms [] row.2)))).map Prod.fst

/-- _examples/db_search/main.go:157-183 `retrieveContent`. -/
def retrieveContent (db : SearchDb) (rowID : Nat) : Option Bytes := if rowID = 0 then none else db.contents[rowID - 1]?

/-- _examples/db_search/main.go:99-105: the loop over the rows found. The flag says whether an error is returned. -/
def foundRows (db : SearchDb) : List Nat → Bytes × Bool
  | [] => ([], false)
  | rowID :: rest =>
    match retrieveContent db rowID with
    | none => ([], true)
    | some cont =>
      let r := foundRows db rest
      (str "  Found content: " ++ cont ++ str " at line: " ++ itoa rowID ++ str "\n" ++ r.1, r.2)

/-- _examples/db_search/main.go:73-106: the loop over the words searched for. -/
def searchLoop (db : SearchDb) : List Bytes → Bytes × Bool
  | [] => ([], false)
  | w :: rest =>
    let head := str "Searching for: " ++ w ++ str "\n"
    if searchFTS4 db w = [] then
      let r := searchLoop db rest
      (head ++ str "  No results found\n" ++ r.1, r.2)
    else
      let found := foundRows db (searchFTS4 db w)
      if found.2 then (head ++ found.1, true)
      else
        let r := searchLoop db rest
        (head ++ found.1 ++ r.1, r.2)

/-- _examples/db_search/main.go:31-120 `run`, for any lines and search words: what it prints and whether it returns an error. -/
def searchProgram (d : Option Dict) (ideo : Nat → Bool) (lines words : List Bytes) : Option (Bytes × Bool) :=
  match insertLines d ideo ⟨[], []⟩ lines with
  | none => none
  | some none => some ([], true)
  | some (some db) => some (searchLoop db words)

end Kagome
