import Verif.Go.Str

/-! The embedded files `/repo/cmd/server/asset/graph.html` and `demo.html`, cut at the actions (`{{` to `}}`), without the comments:
`html/template` leaves HTML comments and the line comments of scripts out of the page. Line by line, as bytes; the comments show the lines. -/

namespace Kagome

/-- cmd/server/asset/graph.html, lines 1-42. Then comes `{{.Sentence}}`. The data of the template: cmd/server/demo.go:143-155. -/
def graphTop : Bytes := ([
  [60,33,68,79,67,84,89,80,69,32,104,116,109,108,62,10], -- <!DOCTYPE html>
  [60,104,116,109,108,32,108,97,110,103,61,34,106,97,34,62,10], -- <html lang="ja">
  [60,104,101,97,100,62,10], -- <head>
  [32,32,60,115,116,121,108,101,32,116,121,112,101,61,34,116,101,120,116,47,99,115,115,34,62,10], --   <style type="text/css">
  [32,32,32,32,32,32,98,111,100,121,32,123,10], --       body {
  [32,32,32,32,32,32,32,32,32,32,116,101,120,116,45,97,108,105,103,110,58,32,99,101,110,116,101,114,59,10], --           text-align: center;
  [32,32,32,32,32,32,125,10], --       }
  [32,32,32,32,32,32,100,105,118,35,99,101,110,116,101,114,123,10], --       div#center{
  [32,32,32,32,32,32,32,32,32,32,119,105,100,116,104,58,32,56,48,48,112,120,59,10], --           width: 800px;
  [32,32,32,32,32,32,32,32,32,32,109,97,114,103,105,110,58,32,48,32,97,117,116,111,59,10], --           margin: 0 auto;
  [32,32,32,32,32,32,32,32,32,32,116,101,120,116,45,97,108,105,103,110,58,32,108,101,102,116,59,10], --           text-align: left;
  [32,32,32,32,32,32,125,10], --       }
  [32,32,32,32,32,32,46,116,98,108,123,10], --       .tbl{
  [32,32,32,32,32,32,32,32,32,32,119,105,100,116,104,58,32,49,48,48,37,59,10], --           width: 100%;
  [32,32,32,32,32,32,32,32,32,32,98,111,114,100,101,114,45,99,111,108,108,97,112,115,101,58,32,115,101,112,97,114,97,116,101,59,10], --           border-collapse: separate;
  [32,32,32,32,32,32,125,10], --       }
  [32,32,32,32,32,32,46,116,98,108,32,116,104,123,10], --       .tbl th{
  [32,32,32,32,32,32,32,32,32,32,119,105,100,116,104,58,32,50,48,37,59,10], --           width: 20%;
  [32,32,32,32,32,32,32,32,32,32,112,97,100,100,105,110,103,58,32,54,112,120,59,10], --           padding: 6px;
  [32,32,32,32,32,32,32,32,32,32,116,101,120,116,45,97,108,105,103,110,58,32,108,101,102,116,59,10], --           text-align: left;
  [32,32,32,32,32,32,32,32,32,32,118,101,114,116,105,99,97,108,45,97,108,105,103,110,58,32,116,111,112,59,10], --           vertical-align: top;
  [32,32,32,32,32,32,32,32,32,32,99,111,108,111,114,58,32,35,51,51,51,59,10], --           color: #333;
  [32,32,32,32,32,32,32,32,32,32,98,97,99,107,103,114,111,117,110,100,45,99,111,108,111,114,58,32,35,101,101,101,59,10], --           background-color: #eee;
  [32,32,32,32,32,32,32,32,32,32,98,111,114,100,101,114,58,32,49,112,120,32,115,111,108,105,100,32,35,98,57,98,57,98,57,59,10], --           border: 1px solid #b9b9b9;
  [32,32,32,32,32,32,125,10], --       }
  [32,32,32,32,32,32,46,116,98,108,32,116,100,123,10], --       .tbl td{
  [32,32,32,32,32,32,32,32,32,32,112,97,100,100,105,110,103,58,32,54,112,120,59,10], --           padding: 6px;
  [32,32,32,32,32,32,32,32,32,32,98,97,99,107,103,114,111,117,110,100,45,99,111,108,111,114,58,32,35,102,102,102,59,10], --           background-color: #fff;
  [32,32,32,32,32,32,32,32,32,32,98,111,114,100,101,114,58,32,49,112,120,32,115,111,108,105,100,32,35,98,57,98,57,98,57,59,10], --           border: 1px solid #b9b9b9;
  [32,32,32,32,32,32,125,10], --       }
  [32,32,60,47,115,116,121,108,101,62,10], --   </style>
  [32,32,60,109,101,116,97,32,99,104,97,114,115,101,116,61,34,85,84,70,45,56,34,62,10], --   <meta charset="UTF-8">
  [32,32,60,116,105,116,108,101,62,75,97,103,111,109,101,32,100,101,109,111,32,45,32,74,97,112,97,110,101,115,101,32,109,111,114,112,104,111,108,111,103,105,99,97,108,32,97,110,97,108,121,122,101,114,60,47,116,105,116,108,101,62,10], --   <title>Kagome demo - Japanese morphological analyzer</title>
  [32,32,10], --
  [32,32,10], --
  [60,47,104,101,97,100,62,10], -- </head>
  [60,98,111,100,121,62,10], -- <body>
  [60,100,105,118,32,105,100,61,34,99,101,110,116,101,114,34,62,10], -- <div id="center">
  [32,32,60,116,97,98,108,101,32,99,108,97,115,115,61,34,116,98,108,34,62,10], --   <table class="tbl">
  [32,32,32,32,60,116,114,62,60,116,104,62,73,110,112,117,116,60,47,116,104,62,60,116,100,62] --     <tr><th>Input</th><td>
  ] : List (List Nat)).flatMap (List.map UInt8.ofNat)

/-- cmd/server/asset/graph.html, lines 42-43. Then comes `{{.Mode}}`. The data of the template: cmd/server/demo.go:143-155. -/
def graphMode : Bytes := ([
  [60,47,116,100,62,60,47,116,114,62,10], -- </td></tr>
  [32,32,32,32,60,116,114,62,60,116,104,62,77,111,100,101,60,47,116,104,62,60,116,100,62] --     <tr><th>Mode</th><td>
  ] : List (List Nat)).flatMap (List.map UInt8.ofNat)

/-- cmd/server/asset/graph.html, lines 43-55. Then comes `{{range .Tokens}}`. The data of the template: cmd/server/demo.go:143-155. -/
def graphHead : Bytes := ([
  [60,47,116,100,62,60,47,116,114,62,10], -- </td></tr>
  [32,32,60,47,116,97,98,108,101,62,10], --   </table>
  [10], --
  [32,32,60,116,97,98,108,101,32,99,108,97,115,115,61,34,116,98,108,34,62,10], --   <table class="tbl">
  [32,32,32,32,60,116,104,114,101,97,100,62,60,116,114,62,10], --     <thread><tr>
  [32,32,32,32,32,32,60,116,104,62,83,117,114,102,97,99,101,60,47,116,104,62,10], --       <th>Surface</th>
  [32,32,32,32,32,32,60,116,104,62,80,97,114,116,45,111,102,45,83,112,101,101,99,104,60,47,116,104,62,10], --       <th>Part-of-Speech</th>
  [32,32,32,32,32,32,60,116,104,62,66,97,115,101,32,70,111,114,109,60,47,116,104,62,10], --       <th>Base Form</th>
  [32,32,32,32,32,32,60,116,104,62,82,101,97,100,105,110,103,60,47,116,104,62,10], --       <th>Reading</th>
  [32,32,32,32,32,32,60,116,104,62,80,114,111,110,117,110,99,105,97,116,105,111,110,60,47,116,104,62,10], --       <th>Pronunciation</th>
  [32,32,32,32,60,47,116,114,62,60,47,116,104,114,101,97,100,62,10], --     </tr></thread>
  [32,32,32,32,60,116,98,111,100,121,32,105,100,61,34,109,111,114,112,104,115,34,62,10], --     <tbody id="morphs">
  [32,32,32,32] --
  ] : List (List Nat)).flatMap (List.map UInt8.ofNat)

/-- cmd/server/asset/graph.html, lines 55-57. Then comes `{{.Surface}}`. The data of the template: cmd/server/demo.go:143-155. -/
def rowSurface : Bytes := ([
  [10], --
  [32,32,32,32,60,116,114,62,10], --     <tr>
  [32,32,32,32,32,32,60,116,100,62] --       <td>
  ] : List (List Nat)).flatMap (List.map UInt8.ofNat)

/-- cmd/server/asset/graph.html, lines 57-58. Then comes `{{.POS}}`. The data of the template: cmd/server/demo.go:143-155. -/
def rowPos : Bytes := ([
  [60,47,116,100,62,10], -- </td>
  [32,32,32,32,32,32,60,116,100,62] --       <td>
  ] : List (List Nat)).flatMap (List.map UInt8.ofNat)

/-- cmd/server/asset/graph.html, lines 58-59. Then comes `{{.BaseForm}}`. The data of the template: cmd/server/demo.go:143-155. -/
def rowBase : Bytes := ([
  [60,47,116,100,62,10], -- </td>
  [32,32,32,32,32,32,60,116,100,62] --       <td>
  ] : List (List Nat)).flatMap (List.map UInt8.ofNat)

/-- cmd/server/asset/graph.html, lines 59-60. Then comes `{{.Reading}}`. The data of the template: cmd/server/demo.go:143-155. -/
def rowReading : Bytes := ([
  [60,47,116,100,62,10], -- </td>
  [32,32,32,32,32,32,60,116,100,62] --       <td>
  ] : List (List Nat)).flatMap (List.map UInt8.ofNat)

/-- cmd/server/asset/graph.html, lines 60-61. Then comes `{{.Pronunciation}}`. The data of the template: cmd/server/demo.go:143-155. -/
def rowPron : Bytes := ([
  [60,47,116,100,62,10], -- </td>
  [32,32,32,32,32,32,60,116,100,62] --       <td>
  ] : List (List Nat)).flatMap (List.map UInt8.ofNat)

/-- cmd/server/asset/graph.html, lines 61-63. Then comes `{{end}}`. The data of the template: cmd/server/demo.go:143-155. -/
def rowEnd : Bytes := ([
  [60,47,116,100,62,10], -- </td>
  [32,32,32,32,60,47,116,114,62,10], --     </tr>
  [32,32,32,32] --
  ] : List (List Nat)).flatMap (List.map UInt8.ofNat)

/-- cmd/server/asset/graph.html, lines 63-67. Then comes `{{if .CmdErr}}`. The data of the template: cmd/server/demo.go:143-155. -/
def graphRange : Bytes := ([
  [10], --
  [32,32,32,32,60,47,116,98,111,100,121,62,10], --     </tbody>
  [32,32,60,47,116,97,98,108,101,62,10], --   </table>
  [32,32,60,100,105,118,32,105,100,61,34,103,114,97,112,104,34,62,10], --   <div id="graph">
  [32,32,32,32] --
  ] : List (List Nat)).flatMap (List.map UInt8.ofNat)

/-- cmd/server/asset/graph.html, lines 67-68. Then comes `{{.CmdErr}}`. The data of the template: cmd/server/demo.go:143-155. -/
def errOpen : Bytes := ([
  [10], --
  [32,32,32,32,60,115,116,114,111,110,103,62] --     <strong>
  ] : List (List Nat)).flatMap (List.map UInt8.ofNat)

/-- cmd/server/asset/graph.html, lines 68-69. Then comes `{{end}}`. The data of the template: cmd/server/demo.go:143-155. -/
def errClose : Bytes := ([
  [60,47,115,116,114,111,110,103,62,10], -- </strong>
  [32,32,32,32] --
  ] : List (List Nat)).flatMap (List.map UInt8.ofNat)

/-- cmd/server/asset/graph.html, lines 69-70. Then comes `{{if .GraphSVG}}`. The data of the template: cmd/server/demo.go:143-155. -/
def graphIf : Bytes := ([
  [10], --
  [32,32,32,32] --
  ] : List (List Nat)).flatMap (List.map UInt8.ofNat)

/-- cmd/server/asset/graph.html, lines 70-71. Then comes `{{.GraphSVG}}`. The data of the template: cmd/server/demo.go:143-155. -/
def svgOpen : Bytes := ([
  [10], --
  [32,32,32,32] --
  ] : List (List Nat)).flatMap (List.map UInt8.ofNat)

/-- cmd/server/asset/graph.html, lines 71-72. Then comes `{{end}}`. The data of the template: cmd/server/demo.go:143-155. -/
def svgClose : Bytes := ([
  [10], --
  [32,32,32,32] --
  ] : List (List Nat)).flatMap (List.map UInt8.ofNat)

/-- cmd/server/asset/graph.html, lines 72-77. The data of the template: cmd/server/demo.go:143-155. -/
def graphEnd : Bytes := ([
  [10], --
  [32,32,60,47,100,105,118,62,10], --   </div>
  [60,47,100,105,118,62,10], -- </div>
  [60,47,98,111,100,121,62,10], -- </body>
  [60,47,104,116,109,108,62,10] -- </html>
  ] : List (List Nat)).flatMap (List.map UInt8.ofNat)

/-- Part 1 of `formTop`: cmd/server/asset/demo.html, within lines 1-93. Embedded at cmd/server/demo.go:25. -/
def formTop1 : Bytes := ([
  [60,33,68,79,67,84,89,80,69,32,104,116,109,108,62,10], -- <!DOCTYPE html>
  [60,104,116,109,108,32,108,97,110,103,61,34,106,97,34,62,10], -- <html lang="ja">
  [60,104,101,97,100,62,10], -- <head>
  [32,32,60,115,116,121,108,101,32,116,121,112,101,61,34,116,101,120,116,47,99,115,115,34,62,10], --   <style type="text/css">
  [32,32,32,32,32,32,98,111,100,121,32,123,10], --       body {
  [32,32,32,32,32,32,32,32,32,32,116,101,120,116,45,97,108,105,103,110,58,32,99,101,110,116,101,114,59,10], --           text-align: center;
  [32,32,32,32,32,32,125,10], --       }
  [32,32,32,32,32,32,100,105,118,35,99,101,110,116,101,114,123,10], --       div#center{
  [32,32,32,32,32,32,32,32,32,32,119,105,100,116,104,58,32,56,48,48,112,120,59,10], --           width: 800px;
  [32,32,32,32,32,32,32,32,32,32,109,97,114,103,105,110,58,32,48,32,97,117,116,111,59,10], --           margin: 0 auto;
  [32,32,32,32,32,32,32,32,32,32,116,101,120,116,45,97,108,105,103,110,58,32,108,101,102,116,59,10], --           text-align: left;
  [32,32,32,32,32,32,125,10], --       }
  [32,32,32,32,32,32,46,116,98,108,123,10], --       .tbl{
  [32,32,32,32,32,32,32,32,32,32,119,105,100,116,104,58,32,49,48,48,37,59,10], --           width: 100%;
  [32,32,32,32,32,32,32,32,32,32,98,111,114,100,101,114,45,99,111,108,108,97,112,115,101,58,32,115,101,112,97,114,97,116,101,59,10], --           border-collapse: separate;
  [32,32,32,32,32,32,125,10], --       }
  [32,32,32,32,32,32,46,116,98,108,32,116,104,123,10], --       .tbl th{
  [32,32,32,32,32,32,32,32,32,32,119,105,100,116,104,58,32,50,48,37,59,10], --           width: 20%;
  [32,32,32,32,32,32,32,32,32,32,112,97,100,100,105,110,103,58,32,54,112,120,59,10], --           padding: 6px;
  [32,32,32,32,32,32,32,32,32,32,116,101,120,116,45,97,108,105,103,110,58,32,108,101,102,116,59,10], --           text-align: left;
  [32,32,32,32,32,32,32,32,32,32,118,101,114,116,105,99,97,108,45,97,108,105,103,110,58,32,116,111,112,59,10], --           vertical-align: top;
  [32,32,32,32,32,32,32,32,32,32,99,111,108,111,114,58,32,35,51,51,51,59,10], --           color: #333;
  [32,32,32,32,32,32,32,32,32,32,98,97,99,107,103,114,111,117,110,100,45,99,111,108,111,114,58,32,35,101,101,101,59,10], --           background-color: #eee;
  [32,32,32,32,32,32,32,32,32,32,98,111,114,100,101,114,58,32,49,112,120,32,115,111,108,105,100,32,35,98,57,98,57,98,57,59,10], --           border: 1px solid #b9b9b9;
  [32,32,32,32,32,32,125,10], --       }
  [32,32,32,32,32,32,46,116,98,108,32,116,100,123,10], --       .tbl td{
  [32,32,32,32,32,32,32,32,32,32,112,97,100,100,105,110,103,58,32,54,112,120,59,10], --           padding: 6px;
  [32,32,32,32,32,32,32,32,32,32,98,97,99,107,103,114,111,117,110,100,45,99,111,108,111,114,58,32,35,102,102,102,59,10], --           background-color: #fff;
  [32,32,32,32,32,32,32,32,32,32,98,111,114,100,101,114,58,32,49,112,120,32,115,111,108,105,100,32,35,98,57,98,57,98,57,59,10], --           border: 1px solid #b9b9b9;
  [32,32,32,32,32,32,125,10], --       }
  [32,32,32,32,32,32,46,102,114,109,32,123,10], --       .frm {
  [32,32,32,32,32,32,32,32,32,32,109,105,110,45,104,101,105,103,104,116,58,32,49,48,112,120,59,10], --           min-height: 10px;
  [32,32,32,32,32,32,32,32,32,32,112,97,100,100,105,110,103,58,32,48,32,49,48,112,120,32,48,59,10], --           padding: 0 10px 0;
  [32,32,32,32,32,32,32,32,32,32,109,97,114,103,105,110,45,98,111,116,116,111,109,58,32,50,48,112,120,59,10], --           margin-bottom: 20px;
  [32,32,32,32,32,32,32,32,32,32,98,97,99,107,103,114,111,117,110,100,45,99,111,108,111,114,58,32,35,102,53,102,53,102,53,59,10], --           background-color: #f5f5f5;
  [32,32,32,32,32,32,32,32,32,32,98,111,114,100,101,114,58,32,49,112,120,32,115,111,108,105,100,32,35,101,51,101,51,101,51,59,10], --           border: 1px solid #e3e3e3;
  [32,32,32,32,32,32,32,32,32,32,45,119,101,98,107,105,116,45,98,111,114,100,101,114,45,114,97,100,105,117,115,58,32,52,112,120,59,10], --           -webkit-border-radius: 4px;
  [32,32,32,32,32,32,32,32,32,32,45,109,111,122,45,98,111,114,100,101,114,45,114,97,100,105,117,115,58,32,52,112,120,59,10] --           -moz-border-radius: 4px;
  ] : List (List Nat)).flatMap (List.map UInt8.ofNat)

/-- Part 2 of `formTop`: cmd/server/asset/demo.html, within lines 1-93. Embedded at cmd/server/demo.go:25. -/
def formTop2 : Bytes := ([
  [32,32,32,32,32,32,32,32,32,32,98,111,114,100,101,114,45,114,97,100,105,117,115,58,32,52,112,120,59,10], --           border-radius: 4px;
  [32,32,32,32,32,32,32,32,32,32,45,119,101,98,107,105,116,45,98,111,120,45,115,104,97,100,111,119,58,32,105,110,115,101,116,32,48,32,49,112,120,32,49,112,120,32,114,103,98,97,40,48,44,48,44,48,44,48,46,48,53,41,59,10], --           -webkit-box-shadow: inset 0 1px 1px rgba(0,0,0,0.05);
  [32,32,32,32,32,32,32,32,32,32,45,109,111,122,45,98,111,120,45,115,104,97,100,111,119,58,32,105,110,115,101,116,32,48,32,49,112,120,32,49,112,120,32,114,103,98,97,40,48,44,48,44,48,44,48,46,48,53,41,59,10], --           -moz-box-shadow: inset 0 1px 1px rgba(0,0,0,0.05);
  [32,32,32,32,32,32,32,32,32,32,98,111,120,45,115,104,97,100,111,119,58,32,105,110,115,101,116,32,48,32,49,112,120,32,49,112,120,32,114,103,98,97,40,48,44,48,44,48,44,48,46,48,53,41,59,10], --           box-shadow: inset 0 1px 1px rgba(0,0,0,0.05);
  [32,32,32,32,32,32,125,10], --       }
  [32,32,32,32,32,32,46,116,120,97,114,32,123,10], --       .txar {
  [32,32,32,32,32,32,32,32,32,32,98,111,114,100,101,114,58,49,48,112,120,59,10], --           border:10px;
  [32,32,32,32,32,32,32,32,32,32,112,97,100,100,105,110,103,58,49,48,112,120,59,10], --           padding:10px;
  [32,32,32,32,32,32,32,32,32,32,102,111,110,116,45,115,105,122,101,58,49,46,49,101,109,59,10], --           font-size:1.1em;
  [32,32,32,32,32,32,32,32,32,32,102,111,110,116,45,102,97,109,105,108,121,58,65,114,105,97,108,44,32,115,97,110,115,45,115,101,114,105,102,59,10], --           font-family:Arial, sans-serif;
  [32,32,32,32,32,32,32,32,32,32,98,111,114,100,101,114,58,115,111,108,105,100,32,49,112,120,32,35,99,99,99,59,10], --           border:solid 1px #ccc;
  [32,32,32,32,32,32,32,32,32,32,109,97,114,103,105,110,58,48,59,10], --           margin:0;
  [32,32,32,32,32,32,32,32,32,32,119,105,100,116,104,58,56,48,37,59,10], --           width:80%;
  [32,32,32,32,32,32,32,32,32,32,45,119,101,98,107,105,116,45,98,111,114,100,101,114,45,114,97,100,105,117,115,58,32,51,112,120,59,10], --           -webkit-border-radius: 3px;
  [32,32,32,32,32,32,32,32,32,32,45,109,111,122,45,98,111,114,100,101,114,45,114,97,100,105,117,115,58,32,51,112,120,59,10], --           -moz-border-radius: 3px;
  [32,32,32,32,32,32,32,32,32,32,98,111,114,100,101,114,45,114,97,100,105,117,115,58,32,51,112,120,59,10], --           border-radius: 3px;
  [32,32,32,32,32,32,32,32,32,32,45,109,111,122,45,98,111,120,45,115,104,97,100,111,119,58,32,105,110,115,101,116,32,48,32,48,32,52,112,120,32,114,103,98,97,40,48,44,48,44,48,44,48,46,50,41,59,10], --           -moz-box-shadow: inset 0 0 4px rgba(0,0,0,0.2);
  [32,32,32,32,32,32,32,32,32,32,45,119,101,98,107,105,116,45,98,111,120,45,115,104,97,100,111,119,58,32,105,110,115,101,116,32,48,32,48,32,52,112,120,32,114,103,98,97,40,48,44,32,48,44,32,48,44,32,48,46,50,41,59,10], --           -webkit-box-shadow: inset 0 0 4px rgba(0, 0, 0, 0.2);
  [32,32,32,32,32,32,32,32,32,32,98,111,120,45,115,104,97,100,111,119,58,32,105,110,115,101,116,32,48,32,48,32,52,112,120,32,114,103,98,97,40,48,44,32,48,44,32,48,44,32,48,46,50,41,59,10], --           box-shadow: inset 0 0 4px rgba(0, 0, 0, 0.2);
  [32,32,32,32,32,32,125,10], --       }
  [32,32,32,32,32,32,46,98,116,110,32,123,10], --       .btn {
  [32,32,32,32,32,32,32,32,32,32,98,97,99,107,103,114,111,117,110,100,58,32,45,109,111,122,45,108,105,110,101,97,114,45,103,114,97,100,105,101,110,116,40,116,111,112,44,35,70,70,70,32,48,37,44,35,69,69,69,41,59,10], --           background: -moz-linear-gradient(top,#FFF 0%,#EEE);
  [32,32,32,32,32,32,32,32,32,32,98,97,99,107,103,114,111,117,110,100,58,32,45,119,101,98,107,105,116,45,103,114,97,100,105,101,110,116,40,108,105,110,101,97,114,44,32,108,101,102,116,32,116,111,112,44,32,108,101,102,116,32,98,111,116,116,111,109,44,32,102,114,111,109,40,35,70,70,70,41,44,32,116,111,40,35,69,69,69,41,41,59,10] --           background: -webkit-gradient(linear, left top, left bottom, from(#FFF), to(#EEE));
  ] : List (List Nat)).flatMap (List.map UInt8.ofNat)

/-- Part 3 of `formTop`: cmd/server/asset/demo.html, within lines 1-93. Embedded at cmd/server/demo.go:25. -/
def formTop3 : Bytes := ([
  [32,32,32,32,32,32,32,32,32,32,98,111,114,100,101,114,58,32,49,112,120,32,115,111,108,105,100,32,35,68,68,68,59,10], --           border: 1px solid #DDD;
  [32,32,32,32,32,32,32,32,32,32,98,111,114,100,101,114,45,114,97,100,105,117,115,58,32,51,112,120,59,10], --           border-radius: 3px;
  [32,32,32,32,32,32,32,32,32,32,99,111,108,111,114,58,35,49,49,49,59,10], --           color:#111;
  [32,32,32,32,32,32,32,32,32,32,119,105,100,116,104,58,32,49,48,48,112,120,59,10], --           width: 100px;
  [32,32,32,32,32,32,32,32,32,32,112,97,100,100,105,110,103,58,32,53,112,120,32,48,59,10], --           padding: 5px 0;
  [32,32,32,32,32,32,32,32,32,32,109,97,114,103,105,110,58,32,48,59,10], --           margin: 0;
  [32,32,32,32,32,32,125,10], --       }
  [32,32,32,32,32,32,35,98,111,120,32,123,10], --       #box {
  [32,32,32,32,32,32,32,32,32,32,119,105,100,116,104,58,49,48,48,37,59,10], --           width:100%;
  [32,32,32,32,32,32,32,32,32,32,109,97,114,103,105,110,58,49,48,112,120,59,10], --           margin:10px;
  [32,32,32,32,32,32,32,32,32,32,104,101,105,103,104,116,58,97,117,116,111,59,10], --           height:auto;
  [32,32,32,32,32,32,125,10], --       }
  [32,32,32,32,32,32,35,114,98,111,120,32,123,10], --       #rbox {
  [32,32,32,32,32,32,32,32,32,32,119,105,100,116,104,58,49,53,37,59,10], --           width:15%;
  [32,32,32,32,32,32,32,32,32,32,102,108,111,97,116,58,114,105,103,104,116,59,10], --           float:right;
  [32,32,32,32,32,32,125,10], --       }
  [32,32,60,47,115,116,121,108,101,62,10], --   </style>
  [32,32,60,109,101,116,97,32,99,104,97,114,115,101,116,61,34,85,84,70,45,56,34,62,10], --   <meta charset="UTF-8">
  [32,32,60,116,105,116,108,101,62,75,97,103,111,109,101,32,100,101,109,111,32,45,32,74,97,112,97,110,101,115,101,32,109,111,114,112,104,111,108,111,103,105,99,97,108,32,97,110,97,108,121,122,101,114,60,47,116,105,116,108,101,62,10], --   <title>Kagome demo - Japanese morphological analyzer</title>
  [32,32,10], --
  [32,32,10], --
  [32,32,60,115,99,114,105,112,116,32,116,121,112,101,61,34,116,101,120,116,47,106,97,118,97,115,99,114,105,112,116,34,32,115,114,99,61,34,104,116,116,112,115,58,47,47,97,106,97,120,46,103,111,111,103,108,101,97,112,105,115,46,99,111,109,47,97,106,97,120,47,108,105,98,115,47,106,113,117,101,114,121,47,49,46,54,46,48,47,106,113,117,101,114,121,46,109,105,110,46,106,115,34,62,60,47,115,99,114,105,112,116,62,10], --   <script type="text/javascript" src="https://ajax.googleapis.com/ajax/libs/jquery/1.6.0/jquery.min.js"></script>
  [60,47,104,101,97,100,62,10], -- </head>
  [60,98,111,100,121,62,10], -- <body>
  [60,100,105,118,32,105,100,61,34,99,101,110,116,101,114,34,62,10], -- <div id="center">
  [32,32,60,104,49,62,75,97,103,111,109,101,32,100,101,109,111,60,47,104,49,62,10], --   <h1>Kagome demo</h1>
  [32,32,60,102,111,114,109,32,99,108,97,115,115,61,34,102,114,109,34,32,97,99,116,105,111,110,61,34,47,95,100,101,109,111,34,32,109,101,116,104,111,100,61,34,80,79,83,84,34,32,111,110,105,110,112,117,116,61,34,116,111,107,101,110,105,122,101,40,41,34,32,116,97,114,103,101,116,61,34,95,98,108,97,110,107,34,62,10], --   <form class="frm" action="/_demo" method="POST" oninput="tokenize()" target="_blank">
  [32,32,32,32,60,100,105,118,32,105,100,61,34,98,111,120,34,62,10], --     <div id="box">
  [32,32,32,32,60,116,101,120,116,97,114,101,97,32,105,100,61,34,105,110,112,34,32,99,108,97,115,115,61,34,116,120,97,114,34,32,114,111,119,115,61,34,51,34,32,110,97,109,101,61,34,115,34,10], --     <textarea id="inp" class="txar" rows="3" name="s"
  [32,32,32,32,32,32,32,32,32,32,32,32,32,32,112,108,97,99,101,104,111,108,100,101,114,61,34,69,110,116,101,114,32,74,97,112,97,110,101,115,101,32,116,101,120,116,32,98,101,108,111,119,46,34,62] --               placeholder="Enter Japanese text below.">
  ] : List (List Nat)).flatMap (List.map UInt8.ofNat)

/-- cmd/server/asset/demo.html, lines 1-93. Then comes `{{.Sentence}}`. The data of the template: cmd/server/demo.go:118-124. -/
def formTop : Bytes := formTop1 ++ (formTop2 ++ (formTop3))

/-- cmd/server/asset/demo.html, lines 93-96. Then comes `{{if eq .RadioOpt "search"}}`. The data of the template: cmd/server/demo.go:118-124. -/
def formSearch : Bytes := ([
  [60,47,116,101,120,116,97,114,101,97,62,10], -- </textarea>
  [32,32,32,32,32,32,60,100,105,118,32,105,100,61,34,114,98,111,120,34,62,10], --       <div id="rbox">
  [32,32,32,32,32,32,32,32,60,100,105,118,62,60,108,97,98,101,108,62,60,105,110,112,117,116,32,116,121,112,101,61,34,114,97,100,105,111,34,32,110,97,109,101,61,34,114,34,32,118,97,108,117,101,61,34,78,111,114,109,97,108,34,32,99,104,101,99,107,101,100,62,78,111,114,109,97,108,60,47,108,97,98,101,108,62,60,47,100,105,118,62,10], --         <div><label><input type="radio" name="r" value="Normal" checked>Normal</label></div>
  [32,32,32,32,32,32,32,32,60,100,105,118,62,60,108,97,98,101,108,62,60,105,110,112,117,116,32,116,121,112,101,61,34,114,97,100,105,111,34,32,110,97,109,101,61,34,114,34,32,118,97,108,117,101,61,34,83,101,97,114,99,104,34,32] --         <div><label><input type="radio" name="r" value="Search"
  ] : List (List Nat)).flatMap (List.map UInt8.ofNat)

/-- cmd/server/asset/demo.html, line 96. Then comes `{{end}}`. The data of the template: cmd/server/demo.go:118-124. -/
def formSearchOn : Bytes := str "checked"

/-- cmd/server/asset/demo.html, lines 96-97. Then comes `{{if eq .RadioOpt "extended"}}`. The data of the template: cmd/server/demo.go:118-124. -/
def formExtended : Bytes := ([
  [62,83,101,97,114,99,104,60,47,108,97,98,101,108,62,60,47,100,105,118,62,10], -- >Search</label></div>
  [32,32,32,32,32,32,32,32,60,100,105,118,62,60,108,97,98,101,108,62,60,105,110,112,117,116,32,116,121,112,101,61,34,114,97,100,105,111,34,32,110,97,109,101,61,34,114,34,32,118,97,108,117,101,61,34,69,120,116,101,110,100,101,100,34,32] --         <div><label><input type="radio" name="r" value="Extended"
  ] : List (List Nat)).flatMap (List.map UInt8.ofNat)

/-- cmd/server/asset/demo.html, line 97. Then comes `{{end}}`. The data of the template: cmd/server/demo.go:118-124. -/
def formExtendedOn : Bytes := str "checked"

/-- Part 1 of `formEnd`: cmd/server/asset/demo.html, within lines 97-156. Embedded at cmd/server/demo.go:25. -/
def formEnd1 : Bytes := ([
  [62,69,120,116,101,110,100,101,100,60,47,108,97,98,101,108,62,60,47,100,105,118,62,10], -- >Extended</label></div>
  [32,32,32,32,32,32,60,47,100,105,118,62,10], --       </div>
  [32,32,32,32,32,32,60,112,62,60,105,110,112,117,116,32,99,108,97,115,115,61,34,98,116,110,34,32,116,121,112,101,61,34,115,117,98,109,105,116,34,32,110,97,109,101,61,34,108,97,116,116,105,99,101,34,32,118,97,108,117,101,61,34,76,97,116,116,105,99,101,34,47,62,60,47,112,62,10], --       <p><input class="btn" type="submit" name="lattice" value="Lattice"/></p>
  [32,32,32,32,60,47,100,105,118,62,10], --     </div>
  [32,32,60,47,102,111,114,109,62,10], --   </form>
  [10], --
  [32,32,60,116,97,98,108,101,32,99,108,97,115,115,61,34,116,98,108,34,62,10], --   <table class="tbl">
  [32,32,32,32,60,116,104,114,101,97,100,62,60,116,114,62,10], --     <thread><tr>
  [32,32,32,32,32,32,60,116,104,62,83,117,114,102,97,99,101,60,47,116,104,62,10], --       <th>Surface</th>
  [32,32,32,32,32,32,60,116,104,62,80,97,114,116,45,111,102,45,83,112,101,101,99,104,60,47,116,104,62,10], --       <th>Part-of-Speech</th>
  [32,32,32,32,32,32,60,116,104,62,66,97,115,101,32,70,111,114,109,60,47,116,104,62,10], --       <th>Base Form</th>
  [32,32,32,32,32,32,60,116,104,62,82,101,97,100,105,110,103,60,47,116,104,62,10], --       <th>Reading</th>
  [32,32,32,32,32,32,60,116,104,62,80,114,111,110,117,110,99,105,97,116,105,111,110,60,47,116,104,62,10], --       <th>Pronunciation</th>
  [32,32,32,32,60,47,116,114,62,60,47,116,104,114,101,97,100,62,10], --     </tr></thread>
  [32,32,32,32,60,116,98,111,100,121,32,105,100,61,34,109,111,114,112,104,115,34,62,10], --     <tbody id="morphs">
  [32,32,32,32,60,47,116,98,111,100,121,62,10], --     </tbody>
  [32,32,60,47,116,97,98,108,101,62,10], --   </table>
  [60,47,100,105,118,62,10], -- </div>
  [10], --
  [60,115,99,114,105,112,116,62,10], -- <script>
  [32,32,32,32,102,117,110,99,116,105,111,110,32,99,98,40,100,97,116,97,44,32,115,116,97,116,117,115,41,32,123,10], --     function cb(data, status) {
  [32,32,32,32,32,32,32,32,10], --
  [32,32,32,32,32,32,32,32,10], --
  [32,32,32,32,32,32,32,32,105,102,40,115,116,97,116,117,115,32,61,61,32,34,115,117,99,99,101,115,115,34,32,38,38,32,65,114,114,97,121,46,105,115,65,114,114,97,121,40,100,97,116,97,46,116,111,107,101,110,115,41,41,123,10], --         if(status == "success" && Array.isArray(data.tokens)){
  [32,32,32,32,32,32,32,32,32,32,32,32,36,40,34,35,109,111,114,112,104,115,34,41,46,101,109,112,116,121,40,41,59,10], --             $("#morphs").empty();
  [32,32,32,32,32,32,32,32,32,32,32,32,36,46,101,97,99,104,40,100,97,116,97,46,116,111,107,101,110,115,44,32,102,117,110,99,116,105,111,110,40,105,44,32,118,97,108,41,32,123,10], --             $.each(data.tokens, function(i, val) {
  [32,32,32,32,32,32,32,32,32,32,32,32,32,32,32,32,112,111,115,32,61,32,40,118,97,108,46,112,111,115,32,61,61,32,110,117,108,108,41,32,63,32,34,42,34,32,58,32,118,97,108,46,112,111,115,59,10], --                 pos = (val.pos == null) ? "*" : val.pos;
  [32,32,32,32,32,32,32,32,32,32,32,32,32,32,32,32,98,97,115,101,32,61,32,118,97,108,46,98,97,115,101,95,102,111,114,109,32,33,61,32,34,34,32,63,32,118,97,108,46,98,97,115,101,95,102,111,114,109,32,58,32,34,42,34,59,10], --                 base = val.base_form != "" ? val.base_form : "*";
  [32,32,32,32,32,32,32,32,32,32,32,32,32,32,32,32,114,101,97,100,105,110,103,32,61,32,118,97,108,46,114,101,97,100,105,110,103,32,33,61,32,34,34,32,63,32,118,97,108,46,114,101,97,100,105,110,103,32,58,32,34,42,34,59,10], --                 reading = val.reading != "" ? val.reading : "*";
  [32,32,32,32,32,32,32,32,32,32,32,32,32,32,32,32,112,114,111,110,111,117,110,32,61,32,118,97,108,46,112,114,111,110,117,110,99,105,97,116,105,111,110,33,61,32,34,34,32,63,32,118,97,108,46,112,114,111,110,117,110,99,105,97,116,105,111,110,32,58,32,34,42,34,59,10], --                 pronoun = val.pronunciation!= "" ? val.pronunciation : "*";
  [32,32,32,32,32,32,32,32,32,32,32,32,32,32,32,32,36,40,34,35,109,111,114,112,104,115,34,41,46,97,112,112,101,110,100,40,10] --                 $("#morphs").append(
  ] : List (List Nat)).flatMap (List.map UInt8.ofNat)

/-- Part 2 of `formEnd`: cmd/server/asset/demo.html, within lines 97-156. Embedded at cmd/server/demo.go:25. -/
def formEnd2 : Bytes := ([
  [32,32,32,32,32,32,32,32,32,32,32,32,32,32,32,32,32,32,32,32,34,60,116,114,62,34,43,34,60,116,100,62,34,32,43,32,118,97,108,46,115,117,114,102,97,99,101,32,43,32,34,60,47,116,100,62,34,32,43,10], --                     "<tr>"+"<td>" + val.surface + "</td>" +
  [32,32,32,32,32,32,32,32,32,32,32,32,32,32,32,32,32,32,32,32,34,60,116,100,62,34,32,43,32,112,111,115,32,43,32,34,60,47,116,100,62,34,43,10], --                     "<td>" + pos + "</td>"+
  [32,32,32,32,32,32,32,32,32,32,32,32,32,32,32,32,32,32,32,32,34,60,116,100,62,34,32,43,32,98,97,115,101,32,43,32,34,60,47,116,100,62,34,43,10], --                     "<td>" + base + "</td>"+
  [32,32,32,32,32,32,32,32,32,32,32,32,32,32,32,32,32,32,32,32,34,60,116,100,62,34,32,43,32,114,101,97,100,105,110,103,32,43,32,34,60,47,116,100,62,34,43,10], --                     "<td>" + reading + "</td>"+
  [32,32,32,32,32,32,32,32,32,32,32,32,32,32,32,32,32,32,32,32,34,60,116,100,62,34,32,43,32,112,114,111,110,111,117,110,32,43,32,34,60,47,116,100,62,34,43,10], --                     "<td>" + pronoun + "</td>"+
  [32,32,32,32,32,32,32,32,32,32,32,32,32,32,32,32,32,32,32,32,34,60,47,116,114,62,34,10], --                     "</tr>"
  [32,32,32,32,32,32,32,32,32,32,32,32,32,32,32,32,41,59,10], --                 );
  [32,32,32,32,32,32,32,32,32,32,32,32,125,41,59,10], --             });
  [32,32,32,32,32,32,32,32,125,10], --         }
  [32,32,32,32,125,10], --     }
  [10], --
  [32,32,32,32,102,117,110,99,116,105,111,110,32,116,111,107,101,110,105,122,101,40,41,32,123,10], --     function tokenize() {
  [32,32,32,32,32,32,32,32,118,97,114,32,115,32,61,32,100,111,99,117,109,101,110,116,46,103,101,116,69,108,101,109,101,110,116,66,121,73,100,40,34,105,110,112,34,41,46,118,97,108,117,101,59,10], --         var s = document.getElementById("inp").value;
  [32,32,32,32,32,32,32,32,118,97,114,32,109,32,61,32,36,40,39,105,110,112,117,116,91,110,97,109,101,61,34,114,34,93,39,41,46,102,105,108,116,101,114,40,39,58,99,104,101,99,107,101,100,39,41,46,118,97,108,40,41,59,10], --         var m = $('input[name="r"]').filter(':checked').val();
  [32,32,32,32,32,32,32,32,118,97,114,32,111,32,61,32,123,34,115,101,110,116,101,110,99,101,34,32,58,32,115,44,32,34,109,111,100,101,34,32,58,32,109,125,59,10], --         var o = {"sentence" : s, "mode" : m};
  [32,32,32,32,32,32,32,32,36,46,112,111,115,116,40,39,46,47,116,111,107,101,110,105,122,101,39,44,32,74,83,79,78,46,115,116,114,105,110,103,105,102,121,40,111,41,44,32,99,98,44,32,39,106,115,111,110,39,41,59,10], --         $.post('./tokenize', JSON.stringify(o), cb, 'json');
  [32,32,32,32,125,10], --     }
  [10], --
  [32,32,32,32,36,40,39,105,110,112,117,116,91,110,97,109,101,61,34,114,34,93,58,114,97,100,105,111,39,41,46,99,104,97,110,103,101,40,32,102,117,110,99,116,105,111,110,40,41,32,123,10], --     $('input[name="r"]:radio').change( function() {
  [32,32,32,32,32,32,32,32,118,97,114,32,115,32,61,32,100,111,99,117,109,101,110,116,46,103,101,116,69,108,101,109,101,110,116,66,121,73,100,40,34,105,110,112,34,41,46,118,97,108,117,101,59,10], --         var s = document.getElementById("inp").value;
  [32,32,32,32,32,32,32,32,118,97,114,32,109,32,61,32,36,40,39,105,110,112,117,116,91,110,97,109,101,61,34,114,34,93,39,41,46,102,105,108,116,101,114,40,39,58,99,104,101,99,107,101,100,39,41,46,118,97,108,40,41,59,10], --         var m = $('input[name="r"]').filter(':checked').val();
  [32,32,32,32,32,32,32,32,118,97,114,32,111,32,61,32,123,34,115,101,110,116,101,110,99,101,34,32,58,32,115,44,32,34,109,111,100,101,34,32,58,32,109,125,59,10], --         var o = {"sentence" : s, "mode" : m};
  [32,32,32,32,32,32,32,32,36,46,112,111,115,116,40,39,46,47,97,39,44,32,74,83,79,78,46,115,116,114,105,110,103,105,102,121,40,111,41,44,32,99,98,44,32,39,106,115,111,110,39,41,59,10], --         $.post('./a', JSON.stringify(o), cb, 'json');
  [32,32,32,32,125,41,10], --     })
  [60,47,115,99,114,105,112,116,62,10], -- </script>
  [10], --
  [60,47,98,111,100,121,62,10], -- </body>
  [60,47,104,116,109,108,62,10] -- </html>
  ] : List (List Nat)).flatMap (List.map UInt8.ofNat)

/-- cmd/server/asset/demo.html, lines 97-156. The data of the template: cmd/server/demo.go:118-124. -/
def formEnd : Bytes := formEnd1 ++ (formEnd2)

end Kagome
