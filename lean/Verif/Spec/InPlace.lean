import Verif.Model.Splitter

/-!
# A client that splits a text in its own memory

    for len(data) > 0 {
        n, token, _ := splitter.ScanSentences(data, true)
        tokens = append(tokens, token)
        data = data[n:]
    }

The tokens are parts of the array of the text, and the split function moves characters in this array.
-/

namespace Kagome.Spec

open Kagome

/-- The array at the end of the loop, and for each token where it begins and ends in the array. At most `fuel` calls. -/
def splitInPlace (s : Splitter) : Nat → Bytes → Option (Bytes × List (Nat × Nat))
  | 0, _ => none
  | fuel + 1, data =>
    if data = [] then some ([], [])
    else
      match s.scanSentences data true with
      | none => none
      | some res =>
        match res.token with
        | none => none
        | some (a, b) =>
          (splitInPlace s fuel (res.data.drop res.advance)).map fun more =>
            (res.data.take res.advance ++ more.1, (a, b) :: more.2.map (fun p => (res.advance + p.1, res.advance + p.2)))

/-- What is in a part of an array. -/
def part (arr : Bytes) (p : Nat × Nat) : Bytes := (arr.take p.2).drop p.1

end Kagome.Spec
