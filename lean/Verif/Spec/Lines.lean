import Verif.Go.Utf8

/-! Specification: the lines of a text. -/

namespace Kagome.Spec

open Kagome

/-- The text cut behind every line feed, without the line feeds. A text that ends with a line feed has no empty line behind it. -/
def rawLines : Bytes → List Bytes
  | [] => []
  | b :: s =>
    if b = 0x0A then [] :: rawLines s
    else match rawLines s with
      | [] => [[b]]
      | l :: ls => (b :: l) :: ls

/-- Without one carriage return at the end. -/
def dropCR (l : Bytes) : Bytes := if l.getLast? = some 0x0D then l.dropLast else l

/-- The lines of a text, which end with LF or CR LF. -/
def lines (s : Bytes) : List Bytes := (rawLines s).map dropCR

end Kagome.Spec
