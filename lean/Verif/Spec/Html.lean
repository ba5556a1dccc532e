import Verif.Go.Str

/-! Specification: how a browser reads an HTML page, as far as needed to say which tags a page has and which texts stand in its table.

The reader goes through the bytes from left to right. It follows the tokenizer of the HTML standard, with these simplifications: what is
inside a tag is kept as it is and not taken apart further; a character reference is read only if it ends in a semicolon and is one of `amp`,
`lt`, `gt`, `quot` or a decimal number below 128; script text has no "escaped" states; the decoding of the bytes and the normalisation of
line ends, which come before, are left out. -/

namespace Kagome.Spec

open Kagome

/-- What the reader finds: a character (byte) of text, a tag with what is between `<` and `>`, or `<!...>` and the like. -/
inductive HtmlEvent where
  | ch (b : UInt8)
  | tag (inside : Bytes)
  | decl (inside : Bytes)
deriving DecidableEq, Repr

/-- Where the reader is. -/
inductive HtmlState where
  | data
  | lt
  | ltSlash
  | tag (inside : Bytes) (quote : Option UInt8)
  | decl (inside : Bytes)
  | raw (name pending : Bytes)
deriving DecidableEq, Repr

def isAlphaByte (b : UInt8) : Bool := (0x41 ≤ b && b ≤ 0x5A) || (0x61 ≤ b && b ≤ 0x7A)

def isBlankByte (b : UInt8) : Bool := b == 0x20 || b == 0x09 || b == 0x0A || b == 0x0C || b == 0x0D

def lowerByte (b : UInt8) : UInt8 := if 0x41 ≤ b && b ≤ 0x5A then b + 0x20 else b

/-- The name of a tag: up to the first blank or slash after the first byte (a leading slash belongs to the name of an end tag). -/
def nameOf : Bytes → Bytes
  | [] => []
  | b :: s => lowerByte b :: (s.takeWhile (fun c => !(isBlankByte c) && c != 0x2F)).map lowerByte

/-- Elements whose content is text up to their end tag. -/
def rawNames : List Bytes := [str "textarea", str "title", str "style", str "script"]

/-- After the tag. -/
def afterTag (inside : Bytes) : HtmlState := if nameOf inside ∈ rawNames then .raw (nameOf inside) [] else .data

/-- A quote opens a value if the last byte that is not blank is `=`. -/
def opensValue (inside : Bytes) : Bool := (inside.reverse.dropWhile isBlankByte).head? == some 0x3D

/-- One byte. -/
def htmlStep : HtmlState → UInt8 → HtmlState × List HtmlEvent
  | .data, b => if b = 0x3C then (.lt, []) else (.data, [.ch b])
  | .lt, b =>
    if isAlphaByte b then (.tag [b] none, [])
    else if b = 0x2F then (.ltSlash, [])
    else if b = 0x21 ∨ b = 0x3F then (.decl [b], [])
    else if b = 0x3C then (.lt, [.ch 0x3C])
    else (.data, [.ch 0x3C, .ch b])
  | .ltSlash, b =>
    if isAlphaByte b then (.tag [0x2F, b] none, [])
    else if b = 0x3E then (.data, [])
    else (.decl [0x2F, b], [])
  | .tag i none, b =>
    if b = 0x3E then (afterTag i, [.tag i])
    else if (b = 0x22 ∨ b = 0x27) ∧ opensValue i then (.tag (i ++ [b]) (some b), [])
    else (.tag (i ++ [b]) none, [])
  | .tag i (some q), b => if b = q then (.tag (i ++ [b]) none, []) else (.tag (i ++ [b]) (some q), [])
  | .decl i, b =>
    if b = 0x3E ∧ (str "!--" <+: i → str "--" <:+ i) then (.data, [.decl i])
    else (.decl (i ++ [b]), [])
  | .raw n p, b =>
    if b = 0x3E ∧ p = 0x3C :: 0x2F :: n then (.data, [.tag (0x2F :: n)])
    else if (isBlankByte b ∨ b = 0x2F) ∧ p = 0x3C :: 0x2F :: n then (.tag (0x2F :: n ++ [b]) none, [])
    else if p ++ [lowerByte b] <+: 0x3C :: 0x2F :: n then (.raw n (p ++ [lowerByte b]), [])
    else if b = 0x3C then (.raw n [b], p.map .ch)
    else (.raw n [], p.map .ch ++ [.ch b])

/-- The state after a text, and what was found in it. -/
def htmlRun : HtmlState → Bytes → HtmlState × List HtmlEvent
  | st, [] => (st, [])
  | st, b :: s => ((htmlRun (htmlStep st b).1 s).1, (htmlStep st b).2 ++ (htmlRun (htmlStep st b).1 s).2)

/-- What a page has. -/
def readHtml (page : Bytes) : List HtmlEvent := (htmlRun .data page).2

/-- The page ends between tags: nothing is left open. -/
def Closed (page : Bytes) : Prop := (htmlRun .data page).1 = .data

/-- The tags (and declarations) of a page, from first to last. -/
def tagsOf (es : List HtmlEvent) : List HtmlEvent :=
  es.filter (fun e => match e with | .ch _ => false | _ => true)

/-- The character that a reference stands for. -/
def refBytes (r : Bytes) : Bytes :=
  if r = str "amp" then [0x26]
  else if r = str "lt" then [0x3C]
  else if r = str "gt" then [0x3E]
  else if r = str "quot" then [0x22]
  else match r with
    | 0x23 :: ds =>
      if ds ≠ [] ∧ ds.all (fun d => 0x30 ≤ d && d ≤ 0x39) ∧ ds.foldl (fun a d => a * 10 + (d.toNat - 0x30)) 0 < 128 then
        [UInt8.ofNat (ds.foldl (fun a d => a * 10 + (d.toNat - 0x30)) 0)]
      else 0x26 :: r ++ [0x3B]
    | _ => 0x26 :: r ++ [0x3B]

/-- Whether the byte can belong to a reference. -/
def isRefByte (b : UInt8) : Bool := isAlphaByte b || (0x30 ≤ b && b ≤ 0x39) || b == 0x23

/-- The text with its references replaced; `some r`: behind `&` and the bytes `r`. -/
def unrefFrom : Option Bytes → Bytes → Bytes
  | none, [] => []
  | some r, [] => 0x26 :: r
  | none, b :: s => if b = 0x26 then unrefFrom (some []) s else b :: unrefFrom none s
  | some r, b :: s =>
    if b = 0x3B then refBytes r ++ unrefFrom none s
    else if isRefByte b then unrefFrom (some (r ++ [b])) s
    else if b = 0x26 then (0x26 :: r) ++ unrefFrom (some []) s
    else (0x26 :: r) ++ b :: unrefFrom none s

def unref (s : Bytes) : Bytes := unrefFrom none s

/-- The texts of the elements of the given name: the characters between the start tag and the end tag (of the outermost such element). -/
def textsFrom (name : Bytes) : Option Bytes → List HtmlEvent → List Bytes
  | _, [] => []
  | none, e :: es =>
    match e with
    | .tag i => if nameOf i = name then textsFrom name (some []) es else textsFrom name none es
    | _ => textsFrom name none es
  | some t, e :: es =>
    match e with
    | .ch b => textsFrom name (some (t ++ [b])) es
    | .tag i => if nameOf i = 0x2F :: name then unref t :: textsFrom name none es else textsFrom name (some t) es
    | _ => textsFrom name (some t) es

/-- The texts of the elements of a name in a page. -/
def textsOf (name : Bytes) (page : Bytes) : List Bytes := textsFrom name none (readHtml page)

/-- What stands in the field of a `textarea` with this text: a line feed right after the start tag is left out. -/
def fieldOf : Bytes → Bytes
  | [] => []
  | b :: s => if b = 0x0A then s else b :: s

/-- What is behind the first occurrence. -/
def behindFirst (p : Bytes) : Bytes → Bytes
  | [] => []
  | b :: s => if p <+: b :: s then (b :: s).drop p.length else behindFirst p s

/-- The values of the buttons that are marked (the attribute `checked` at the end of the tag); the last of them is the one that is chosen. -/
def checkedOf (page : Bytes) : List Bytes :=
  (readHtml page).filterMap fun e =>
    match e with
    | .tag i =>
      if nameOf i = str "input" ∧ str " checked" <:+ i then some ((behindFirst (str " value=\"") i).takeWhile (· != 0x22)) else none
    | _ => none

/-- A text as a page can show it: NUL does not exist in a page; U+FFFD stands for it. -/
def onPage (s : Bytes) : Bytes := s.flatMap (fun b => if b = 0 then [0xEF, 0xBF, 0xBD] else [b])

end Kagome.Spec
