import Verif.Os.Props2

/-!
# Making a new page and the splash screen of a graphical application

modules/gui/services/new-page/logic.go and modules/gui/services/splash-screen/service-make-splash-screen.go.
`text/template` is modelled for the templates that occur: text and the fields of the request. The texts are those of the
source. The three fixed files are made by reinterpreting a string as a slice; the capacity of that slice, which is read from
beyond the string header, is not modelled.
-/

namespace Memar.Gui
open Memar

/-- modules/gui/services/new-page/request.go:5-9 -/
structure Request where
  domain : Bytes
  scopeName : Bytes
  pageVarName : Bytes
  deriving DecidableEq, Repr

/-- modules/gui/services/new-page/response.go:5-7 -/
structure Response where
  js : Bytes
  html : Bytes
  css : Bytes
  json : Bytes
  deriving DecidableEq, Repr

/-- `unicode.IsLetter`, `unicode.IsDigit` and the underscore, as `strings.Title` (standard library) asks for them. Simplified:
every byte of a character beyond ASCII counts as part of a letter. -/
def wordByte (b : Byte) : Bool :=
  (ch 'a' ≤ b && b ≤ ch 'z') || (ch 'A' ≤ b && b ≤ ch 'Z') || (ch '0' ≤ b && b ≤ ch '9') || b == ch '_' || 128 ≤ b.toNat

/-- `unicode.ToTitle` (standard library). Simplified: characters beyond ASCII are kept. -/
def upperByte (b : Byte) : Byte := if ch 'a' ≤ b ∧ b ≤ ch 'z' then b - 32 else b

/-- `strings.Title` (standard library): the first letter of every word in upper case; `prev` is the byte before. -/
def titleFrom (prev : Byte) : Bytes → Bytes
  | [] => []
  | b :: t => (if wordByte prev then b else upperByte b) :: titleFrom b t

/-- `strings.Title` (standard library). -/
def title (s : Bytes) : Bytes := titleFrom (ch ' ') s

/-- `strings.ReplaceAll` (standard library) of one byte by another. -/
def replaceByte (s : Bytes) (old new : Byte) : Bytes := s.map fun (b : Byte) => if b = old then new else b

/-- A piece of a template: text, or a field of the request. -/
inductive Piece
  | text (s : Bytes)
  | domain
  | scopeName
  | pageVarName

/-- `template.Execute` (standard library) for one piece: `text/template` writes a string field as it is. -/
def Piece.write (r : Request) : Piece → Bytes
  | .text s => s
  | .domain => r.domain
  | .scopeName => r.scopeName
  | .pageVarName => r.pageVarName

/-- modules/gui/services/new-page/logic.go:33-92: the pieces of the script. -/
def jsPageFile : List Piece :=
  [.text (bs "/* For license and copyright information please see the LEGAL file in the code repository */\n" ++
    (bs "\n" ++
    (bs "import 'github.com/GeniusesGroup/libjs/widget-notification/force-leave-page.js'\n" ++
    bs "\nconst page"))),
   .pageVarName,
   .text (bs " = {\n" ++
    (bs "    URN: {\n" ++
    bs "\t\tURN: \"domain/")),
   .domain,
   .text (bs ":page:"),
   .scopeName,
   .text (bs "\",\n" ++
    (bs "\t\tID: \"\",\n" ++
    bs "        Domain: \"")),
   .domain,
   .text (bs "\",\n" ++
    (bs "        Scope: \"page\",\n" ++
    bs "\t\tName: \"")),
   .scopeName,
   .text (bs "\",\n" ++
    (bs "\t},\n" ++
    bs "    Icon: \"")),
   .scopeName,
   .text (bs "\",\n" ++
    (bs "    Info: {\n        Name: \"LocaleText[0]\",\n" ++
    (bs "        ShortName: \"LocaleText[1]\",\n" ++
    (bs "        Tagline: \"LocaleText[2]\",\n" ++
    (bs "        Slogan: \"LocaleText[3]\",\n" ++
    (bs "        Description: \"LocaleText[4]\",\n" ++
    (bs "        Tags: [\"LocaleText[5]\"]\n    },\n    Robots: \"all\",\n" ++
    (bs "    Related: [\"\", \"\"],\n    HTML: () => ``,\n    CSS: '',\n" ++
    (bs "    Templates: {},\n    Options: {},\n\tacceptedConditions: {\n" ++
    (bs "\t\t\"id\": \"\",\n\t\teditable: true,\n\t\toffset: 0,\n\t},\n" ++
    (bs "\tactiveState: null,\n}\n" ++
    bs "Application.RegisterPage(page"))))))))))),
   .pageVarName,
   .text (bs ")\n" ++
    (bs "\n// function init() {\n\n// }\n" ++
    bs "\npage")),
   .pageVarName,
   .text (bs ".ActivatePage = async function (state) {\n" ++
    (bs "    // this.activeState = state\n" ++
    (bs "\t// TODO::: Do any logic before page render\n" ++
    (bs "\twindow.document.body.innerHTML = this.HTML()\n" ++
    (bs "\t// TODO::: Do any logic after page render\n}\n" ++
    bs "\npage"))))),
   .pageVarName,
   .text (bs ".DeactivatePage = async function () {\n" ++
    (bs "\tif (this.newList) {\n" ++
    (bs "        var forceLeave = await forceLeavePageWidget.ConnectedCallback()\n" ++
    (bs "    }\n    if (forceLeave) {\n\t\tthis.newList = null\n" ++
    (bs "\t\t// call any widgets DisconnectedCallback e.g. barcodeCameraScannerWidget.DisconnectedCallback()\n" ++
    (bs "    }\n    return forceLeave\n}\n" ++
    bs "\npage")))))),
   .pageVarName,
   .text (bs ".OtherAction = async function () {}\n")]

/-- modules/gui/services/new-page/logic.go:94-105 -/
def htmlPageFile : Bytes :=
  bs "<!-- For license and copyright information please see the LEGAL file in the code repository -->\n" ++
    bs "\n<header>\n</header>\n\n<main>\n    <header>\n    </header>\n\n" ++
    bs "    <footer>\n    </footer>\n</main>"

/-- modules/gui/services/new-page/logic.go:107-109 -/
def cssPageFile : Bytes :=
  bs "/* For license and copyright information please see the LEGAL file in the code repository */\n" ++
    bs "\n"

/-- modules/gui/services/new-page/logic.go:111-130 -/
def jsonPageFile : Bytes :=
  bs "{\n    \"en\": [\n        \"\",\n        \"\",\n        \"\",\n" ++
    bs "        \"\",\n        \"\",\n        \"\",\n        \"\"\n    ],\n" ++
    bs "    \"fa\": [\n        \"\",\n        \"\",\n        \"\",\n        \"\",\n" ++
    bs "        \"\",\n        \"\",\n        \"\"\n    ]\n}"

/-- modules/gui/services/new-page/logic.go:13-31: `MakeNewPage`: the request as it is left and the answer. Executing the template cannot fail: the fields
exist and the buffer takes every write. -/
def makeNewPage (req : Request) : Request × Response :=
  let req' := if req.pageVarName = [] then
    { req with pageVarName := replaceByte (title req.scopeName) (ch '-') (ch ' ') } else req
  (req', ⟨jsPageFile.flatMap (Piece.write req'), htmlPageFile, cssPageFile, jsonPageFile⟩)

/-- modules/gui/services/splash-screen/service-make-splash-screen.go:37-51 -/
def splashHTML : Bytes :=
  bs "\n" ++
    bs "<!-- For license and copyright information please see the LEGAL file in the code repository -->\n" ++
    bs "\n<main>\n    <div>\n" ++
    bs "        <img src=\"/images/app-icon-128x128.png\" alt=\"Platform logo\" />\n" ++
    bs "        <p>\n            POWERED BY <br />\n" ++
    bs "            <a href=\"/cloud\">SABZCITY PLATFORM</a>\n" ++
    bs "        </p>\n\n" ++
    bs "        <noscript>Please Enable Javascript to be able to use this web app.</noscript>\n" ++
    bs "    </div>\n</main>\n"

/-- modules/gui/services/splash-screen/service-make-splash-screen.go:53-91 -/
def splashCSS : Bytes :=
  bs "\n" ++
    bs "/* For license and copyright information please see the LEGAL file in the code repository */\n" ++
    bs "\nmain {\n    position: fixed;\n    width: 100%;\n" ++
    bs "    height: 100%;\n    top: 0;\n    left: 0;\n" ++
    bs "    background: rgba(0, 0, 0, 0.5)\n}\n\ndiv {\n" ++
    bs "    position: absolute;\n    height: 200px;\n" ++
    bs "    max-width: 400px;\n    top: 0;\n    bottom: 0;\n" ++
    bs "    right: 0;\n    left: 0;\n    margin: auto;\n" ++
    bs "    text-align: center;\n    background: #ffffff;\n" ++
    bs "    box-shadow: 0 2px 4px -1px rgba(0, 0, 0, 0.2), 0 4px 5px 0 rgba(0, 0, 0, 0.14), 0 1px 10px 0 rgba(0, 0, 0, 0.12);\n" ++
    bs "}\n\n/* img {} */\n\np {\n    color: #92989b;\n" ++
    bs "    font-family: sans-serif;\n    font-size: 9pt\n}\n\na {\n" ++
    bs "    color: #616161;\n    text-decoration: none\n}\n"

/-- modules/gui/services/splash-screen/service-make-splash-screen.go:93-97 -/
def splashJSON : Bytes :=
  bs "\n{\n\t\"en\": []\n}\n"

/-- One file of the splash screen: renamed, then given its contents. `none` is a panic. -/
def makeFile (w : Os.World) (f : Option Nat) (name data : Bytes) : Option Os.World :=
  (Os.rename w f name).bind fun (w : Os.World) => Os.unmarshal w f data

/-- modules/gui/services/splash-screen/service-make-splash-screen.go:13-35: `MakeSplashFiles` on files of os/default. The templates have no fields and cannot fail. -/
def makeSplashFiles (w : Os.World) (html css json : Option Nat) : Option Os.World :=
  (makeFile w html (bs "splash.html") splashHTML).bind fun (w : Os.World) =>
    (makeFile w css (bs "splash.css") splashCSS).bind fun (w : Os.World) =>
      makeFile w json (bs "splash.json") splashJSON

end Memar.Gui
