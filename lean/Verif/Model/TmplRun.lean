import Verif.Model.TmplParse
import Verif.Model.Run
/-!
# The template parser of a run

`template.New("").Delims(l, r).Funcs(funcs).Parse(src)` and `Templates` (cmd/xtemplate/internal/run.go:105-113):
the parameter `parse` of a run (`Env`) as the scanner and parser of text/template.
-/
namespace Verif.Tmpl
open Verif Verif.Xt

/-- The functions of text/template itself (`builtins`, text/template/funcs.go). -/
def predefined : List Str :=
  [b!"and", b!"call", b!"html", b!"index", b!"slice", b!"js", b!"len", b!"not", b!"or", b!"print", b!"printf",
   b!"println", b!"urlquery", b!"eq", b!"ge", b!"gt", b!"le", b!"lt", b!"ne"]

/-- `hasFunction` (text/template/parse/parse.go) when these functions are registered. -/
def hasFunction (registered : Str → Bool) (n : Str) : Bool := predefined.contains n || registered n

/-- `Parse` with delimiters and functions (run.go:105-108): the roots of the templates. -/
def goParse (num : Tok → Bool) (letter digit : Nat → Bool) (left right : Str) (registered : Str → Bool) (src : Str) :
    Option (List (List Stmt)) := parse num (mkCfg left right (hasFunction registered) letter digit) src

/-- The run uses the parser of text/template; `num` tells which numbers it accepts.  For cmd/xtemplate/internal/run.go:105-108 (`Parse`). -/
def GoParser (E : Env) (num : Tok → Bool) : Prop := E.parse = goParse num E.letter E.digit

end Verif.Tmpl
