import Verif.Go.Form
import Verif.Model.Live

/-!
The demo page from the bytes of a request, and the request that a browser makes when the form of `/repo/cmd/server/asset/demo.html` is submitted. The
browser's part is written from the HTML standard (4.10.22: constructing the entry list, converting to a list of name-value pairs) and the URL standard (5.2:
application/x-www-form-urlencoded).
-/

namespace Kagome

/-- A text of a browser as a string of scalar values in UTF-8: surrogates without a partner become U+FFFD. Used at cmd/server/asset/demo.html:92-99 and
_examples/wasm/main.go:27. -/
def unitsUtf8 : List Nat → Bytes
  | [] => []
  | [u] => encodeRune (if isSurrogate u then runeError else u)
  | u :: v :: us =>
    match utf16Decode u (some v) with
    | some r => encodeRune r ++ unitsUtf8 us
    | none => encodeRune (if isSurrogate u then runeError else u) ++ unitsUtf8 (v :: us)

/-- Line breaks as a form sends them: CR LF. Used at cmd/server/asset/demo.html:92-99. -/
def formLines : Bytes → Bytes
  | [] => []
  | [b] => if b = 0x0D ∨ b = 0x0A then [0x0D, 0x0A] else [b]
  | b :: c :: s =>
    if b = 0x0D ∧ c = 0x0A then 0x0D :: 0x0A :: formLines s
    else if b = 0x0D ∨ b = 0x0A then 0x0D :: 0x0A :: formLines (c :: s)
    else b :: formLines (c :: s)

/-- A digit of a percent escape. Used at cmd/server/asset/demo.html:92-99. -/
def upperHex (n : Nat) : UInt8 := if n < 10 then UInt8.ofNat (0x30 + n) else UInt8.ofNat (0x41 + (n - 10))

/-- The serializer of application/x-www-form-urlencoded on a byte. Used at cmd/server/asset/demo.html:92-99. -/
def formByte (b : UInt8) : Bytes :=
  if b = 0x20 then [0x2B]
  else if (0x30 ≤ b ∧ b ≤ 0x39) ∨ (0x41 ≤ b ∧ b ≤ 0x5A) ∨ (0x61 ≤ b ∧ b ≤ 0x7A) ∨ b = 0x2A ∨ b = 0x2D ∨ b = 0x2E ∨ b = 0x5F then [b]
  else [0x25, upperHex (b.toNat / 16), upperHex (b.toNat % 16)]

/-- The bytes that are sent as they are. -/
example : ((List.range 256).filter (fun n => formByte (UInt8.ofNat n) == [UInt8.ofNat n])).map UInt8.ofNat =
    str "*-.0123456789ABCDEFGHIJKLMNOPQRSTUVWXYZ_abcdefghijklmnopqrstuvwxyz" := by decide +kernel

/-- The serializer on a text. Used at cmd/server/asset/demo.html:92-99. -/
def formText (us : List Nat) : Bytes := (formLines (unitsUtf8 us)).flatMap formByte

/-- cmd/server/asset/demo.html:92-101: the body of the request when the button is pressed, for a text in the field and the value of the checked button (none if
none is checked: it is not sent). -/
def submitBody (text : List Nat) (mode : Option (List Nat)) : Bytes :=
  str "s=" ++ formText text ++ (match mode with | none => [] | some m => str "&r=" ++ formText m) ++ str "&lattice=Lattice"

/-- cmd/server/asset/demo.html:92: the request. -/
def submitRequest (text : List Nat) (mode : Option (List Nat)) : HttpRequest := ⟨str "POST", true, submitBody text mode, []⟩

/-- demo.go:113-158 `ServeHTTP` of the demo page, from a request to the bytes of the answer. -/
def serveForm (t : Tokenizer) (ideo : Nat → Bool) (viz : Graphviz) (addr : Ptr → Bytes) (r : HttpRequest) : Option Bytes :=
  demoBody t ideo viz addr (formValue r (str "s")) (formValue r (str "r")) (formValue r (str "lattice"))

end Kagome
