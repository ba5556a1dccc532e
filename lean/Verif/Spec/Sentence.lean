import Verif.Go.Space
import Verif.Model.Splitter

/-!
# Specification: characters, white space, sentences

A direct definition of sentence splitting on the list of characters, without buffers, offsets or refills.
From the model only the configuration record `Splitter` with its membership tests `isDelim`, `isFollower` is used.
-/

namespace Kagome.Spec

open Kagome

/-- A character as a range loop sees it: the rune and its bytes. -/
abbrev Piece := Nat × Bytes

def cutAt : List (Nat × Nat) → Bytes → List Piece
  | [], _ => []
  | d :: ds, s => (d.1, s.take d.2) :: cutAt ds (s.drop d.2)

/-- The characters of a byte sequence (an undecodable byte counts as a character U+FFFD). -/
def pieces (s : Bytes) : List Piece := cutAt (runes s) s

/-- The bytes of a list of characters. -/
def text (ps : List Piece) : Bytes := ps.flatMap (·.2)

/-- The UTF-8 encoding of a list of characters. -/
abbrev enc (cs : List Char) : Bytes := cs.flatMap String.utf8EncodeChar

/-- The characters with the Unicode property White_Space. -/
def whiteSpace : List Nat :=
  [0x0009, 0x000A, 0x000B, 0x000C, 0x000D, 0x0020, 0x0085, 0x00A0, 0x1680, 0x2000, 0x2001, 0x2002, 0x2003, 0x2004, 0x2005, 0x2006, 0x2007, 0x2008, 0x2009,
    0x200A, 0x2028, 0x2029, 0x202F, 0x205F, 0x3000]

/-- The characters that end a sentence unless another set is configured. -/
def enders : List Char := ['。', '．', '！', '!', '？', '?']

/-- The characters that may follow the end of a sentence and still belong to it. -/
def closers : List Char := ['.', '｣', '」', '』', ')', '）', '｝', '}', '〉', '》']

/-- Not a white-space character. -/
abbrev nonSpace (c : Char) : Bool := !isSpace c.val.toNat

/-- A character the splitter leaves out. -/
def blank (s : Splitter) (c : Piece) : Bool := s.skipWhiteSpace && isSpace c.1

/-- A line feed that counts for `DoubleLineFeedSplit`. -/
def feed (s : Splitter) (c : Piece) : Bool := s.doubleLineFeedSplit && c.1 == 10

/-- What follows the end of a sentence: the closing delimiters and followers, and the rest. White space is dropped;
a second line feed stops it. -/
def closing (s : Splitter) : (fed : Bool) → List Piece → List Piece × List Piece
  | _, [] => ([], [])
  | fed, c :: cs =>
    if blank s c then
      if feed s c && fed then ([], cs) else closing s (fed || feed s c) cs
    else if s.isDelim c.1 || s.isFollower c.1 then (c :: (closing s fed cs).1, (closing s fed cs).2)
    else ([], c :: cs)

/-- A sentence cut off the front of a text: its body, its closing characters, and the text behind it (`none`: the text
ended before the sentence did). -/
structure Cut where
  body : List Piece
  closing : List Piece
  rest : Option (List Piece)

def Cut.cons (c : Piece) (k : Cut) : Cut := { k with body := c :: k.body }

/-- The body of a sentence of which `n` characters have been read; `fed`: a line feed is pending. -/
def body (s : Splitter) : (n : Int) → (fed : Bool) → List Piece → Cut
  | _, _, [] => ⟨[], [], none⟩
  | n, fed, c :: cs =>
    if blank s c then
      if s.isDelim c.1 then ⟨[], [], some cs⟩
      else if feed s c then
        if fed then ⟨[], [], some cs⟩ else body s n true cs
      else body s n false cs
    else if feed s c && fed then ⟨[c], [], some cs⟩
    else if s.isDelim c.1 || decide (s.maxRuneLen ≤ n + 1) then
      ⟨[c], (closing s false cs).1, some (closing s false cs).2⟩
    else (body s (n + 1) (fed || feed s c) cs).cons c

/-- The characters before the first sentence. -/
def leading (s : Splitter) (cs : List Piece) : List Piece := cs.takeWhile (blank s)

/-- The first sentence of a text. -/
def sentence (s : Splitter) (cs : List Piece) : Cut := body s 0 false (cs.dropWhile (blank s))

/-- The sentences of a text of at most `n` characters. -/
def sentencesUpTo (s : Splitter) : Nat → List Piece → List (List Piece)
  | 0, _ => []
  | n + 1, cs =>
    if cs.dropWhile (blank s) = [] then []
    else
      ((sentence s cs).body ++ (sentence s cs).closing) ::
        match (sentence s cs).rest with
        | none => []
        | some rest => sentencesUpTo s n rest

/-- The sentences of a text. -/
def sentences (s : Splitter) (t : Bytes) : List Bytes :=
  (sentencesUpTo s (pieces t).length (pieces t)).map text

end Kagome.Spec
