import Verif.Asset.Page
import Verif.Model.Server

/-! The pages of the demo server as bytes: `html/template` on `graph.html` and `demo.html`, and the rows that the script of `demo.html`
writes. -/

namespace Kagome

/-- `htmlReplacementTable` of `html/template`: what stands in the page for a byte of a text. The package goes rune by rune, and every entry
of its table is a one-byte rune, so it may as well go byte by byte. Standard library; used in /repo at cmd/server/demo.go:23, 27. -/
def htmlByte (b : UInt8) : Bytes :=
  if b = 0 then [0xEF, 0xBF, 0xBD]
  else if b = 0x22 then str "&#34;"
  else if b = 0x26 then str "&amp;"
  else if b = 0x27 then str "&#39;"
  else if b = 0x2B then str "&#43;"
  else if b = 0x3C then str "&lt;"
  else if b = 0x3E then str "&gt;"
  else [b]

/-- `_html_template_htmlescaper` and `_html_template_rcdataescaper` of `html/template` on a string: a text between tags, and a text inside
`textarea`. Standard library; used in /repo at cmd/server/demo.go:23, 27. -/
def htmlEscape (s : Bytes) : Bytes := s.flatMap htmlByte

/-- cmd/server/asset/graph.html:55-63: the body of the range action for a record of cmd/server/demo.go:40-46. -/
def renderRecord (r : Record) : Bytes :=
  rowSurface ++ (htmlEscape r.surface ++ (rowPos ++ (htmlEscape r.pos ++ (rowBase ++ (htmlEscape r.baseForm ++
    (rowReading ++ (htmlEscape r.reading ++ (rowPron ++ (htmlEscape r.pronunciation ++ rowEnd)))))))))

/-- cmd/server/asset/graph.html:67-69: the error, if there is one. Given at cmd/server/demo.go:152. -/
def renderErr (e : Bytes) : Bytes := if e = [] then [] else errOpen ++ (htmlEscape e ++ errClose)

/-- cmd/server/asset/graph.html:70-72: the picture, if there is one. It is `template.HTML`, which is written as it is: cmd/server/demo.go:153. -/
def renderSvg (svg : Bytes) : Bytes := if svg = [] then [] else svgOpen ++ (svg ++ svgClose)

/-- cmd/server/asset/graph.html:1-77 executed at cmd/server/demo.go:143-155. -/
def renderGraph (sentence : Bytes) (rs : List Record) (err svg mode : Bytes) : Bytes :=
  graphTop ++ (htmlEscape sentence ++ (graphMode ++ (htmlEscape mode ++ (graphHead ++ (rs.flatMap renderRecord ++
    (graphRange ++ (renderErr err ++ (graphIf ++ (renderSvg svg ++ graphEnd)))))))))

/-- cmd/server/asset/demo.html:1-155 executed at cmd/server/demo.go:118-124. -/
def renderForm (sentence mode : Bytes) : Bytes :=
  formTop ++ (htmlEscape sentence ++ (formSearch ++ ((if mode = str "search" then formSearchOn else []) ++ (formExtended ++
    ((if mode = str "extended" then formExtendedOn else []) ++ formEnd)))))

/-- cmd/server/demo.go:118-127, 143-157: the body of the answer. -/
def renderPage : DemoPage → Bytes
  | .form s m => renderForm s m
  | .graph s rs e svg m => renderGraph s rs e svg m

/-- cmd/server/demo.go:113-158: the body of the answer of the demo handler. -/
def demoBody (t : Tokenizer) (ideo : Nat → Bool) (viz : Graphviz) (addr : Ptr → Bytes) (sen mode lattice : Bytes) : Option Bytes :=
  (serveDemo t ideo viz addr sen mode lattice).map renderPage

/-- cmd/server/asset/demo.html:124-126: a star for an empty text. The value is that of a token of `/tokenize` (cmd/server/api.go:52). -/
def orStar (s : Bytes) : Bytes := if s = [] then str "*" else s

/-- cmd/server/asset/demo.html:123-134: the text that the script of the page appends to the table for a token of the answer of `/tokenize`
(cmd/server/api.go:52). An array in a sum of strings is its elements with commas between; `null` is a star. -/
def liveRow (d : TokenData) : Bytes :=
  str "<tr><td>" ++ (d.surface ++ (str "</td><td>" ++ ((match d.pos with | none => str "*" | some l => join (str ",") l) ++
    (str "</td><td>" ++ (orStar d.baseForm ++ (str "</td><td>" ++ (orStar d.reading ++ (str "</td><td>" ++ (orStar d.pronunciation ++
      str "</td></tr>")))))))))

/-- The handlers of the server. cmd/server/cmd.go:104-106. -/
inductive Route where
  | demo
  | api
deriving DecidableEq, Repr

/-- `http.ServeMux` with the patterns `/` and `/tokenize`: the first matches every path, the second one path only, and the longer pattern
is preferred. cmd/server/cmd.go:104-106. Simplification: a path that is not clean (`//`, `.`) is first redirected to the clean one. -/
def route (path : Bytes) : Route := if path = str "/tokenize" then .api else .demo

end Kagome
