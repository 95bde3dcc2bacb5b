import Verif.Model.Main
import Verif.Model.KeywordError
/-!
# What a run writes to stderr (cmd/xtemplate/main.go, internal/run.go, param.go, keyword.go)

The texts of errors as `Error()` returns them (see Model/KeywordError.lean for `errors.Errorf` and `errors.Wrapf`), the lines
written while files are processed, and what `main` says at the end.  Not modelled: failures of writing to stderr, the texts of
the errors of the operating system and of the template parser, and of panics (parameters).  Arguments of messages are texts:
for `%v` of an error that of `Error()`, for a `[]string` the elements in brackets; what `%+v` shows is given by the formatter.
-/
namespace Verif.Xt
open Verif

/-- What the messages depend on.  For cmd/xtemplate/internal/run.go:55-83. -/
structure Lang where
  /-- `t.T(msgid)` -/
  tr : Str → Str
  /-- package fmt -/
  fmt : Fmt.Env Str
  /-- the text of the error that was met -/
  cause : RunErr → Str
  /-- the text of a panic -/
  panic : Str

/-- `t.T(msgid, args...)`.  For cmd/xtemplate/internal/run.go:55-83. -/
def Lang.t (L : Lang) (f : Str) (args : List Str) : Str := Fmt.format L.fmt (L.tr f) args

/-- `errors.Wrapf(err, format, args...)`.  For cmd/xtemplate/internal/run.go:55, 93, 110. -/
def Lang.wrapf (L : Lang) (err format : Str) (args : List Str) : Str := Fmt.sprintf L.fmt format args ++ b!": " ++ err

/-- The text of an error of `Run`: keyword.go:22-122 and 131, run.go:55, 93 and 110, and errors returned as they are
(run.go:48, param.go:101). -/
def Lang.text (L : Lang) (E : Env) (p : Param) : RunErr → Str
  | .keyword => (keywordsText E.isPrint L.fmt L.t p.keyword).getD []
  | .openOutput => L.wrapf (L.cause .openOutput) (L.t b!"can not open output file: %s" [p.output]) []
  | .glob => L.wrapf b!"syntax error in pattern" (L.tr b!"invalid input pattern") []
  | .read f => L.wrapf (L.cause (.read f)) (L.tr b!"failed to read file %v") [f]
  | .parse f => L.wrapf (L.cause (.parse f)) (L.tr b!"failed to parse file %v") [f]
  | .write => L.cause .write
  | .close => L.cause .close

/-- `printErr` (run.go:81-83). -/
def Lang.printErr (L : Lang) (format : Str) (args : List Str) : Str := Fmt.sprintf L.fmt (format ++ b!"\n") args

/-- A `[]string` under `%v`.  For cmd/xtemplate/internal/run.go:55-83. -/
def listText (l : List Str) : Str := b!"[" ++ GoStr.join b!" " l ++ b!"]"

/-- The text of the error of `Add` (param.go:84-87). -/
def Lang.conflict (L : Lang) (entry pre : Tr.Entry) : Str :=
  Fmt.sprintf L.fmt (L.tr b!"msgid '%v' is used without plural and with plural.\nLine    =%v\nPrevious=%v")
    [entry.id, listText entry.cmts, listText pre.cmts]

/-- What is written if `Add` returns an error (param.go:79-87, run.go:284-290). -/
def Lang.warning (L : Lang) (debug : Bool) (ctx : Ctx) (entry : Tr.Entry) : Str :=
  match ctx.entries.get? entry.key with
  | some pre =>
    if pre.isPlural ≠ entry.isPlural then
      L.printErr (L.tr (if debug then b!"Warning: %+v" else b!"Warning: %v")) [L.conflict entry pre]
    else []
  | none => []

/-- The same for the entries of a file.  For cmd/xtemplate/internal/run.go:284-290. -/
def Lang.warnings (L : Lang) (debug : Bool) (ctx : Ctx) : List Tr.Entry → Str
  | [] => []
  | e :: es => L.warning debug ctx e ++ L.warnings debug (ctx.add e).1 es

/-- What the loop of `Run` writes (run.go:59-70). -/
def Lang.loop (L : Lang) (E : Env) (p : Param) (debug : Bool) (kws : List Keyword) (d : Disk) : List Str → Ctx → Str
  | [], _ => []
  | f :: fs, ctx =>
    match resolveOneFile E p kws d f with
    | .entries es => L.warnings debug ctx es ++ L.loop E p debug kws d fs (ctx.addAll es).1
    | .fail e =>
      L.printErr (L.tr (if debug then b!"failed to process file %v. error message: %+v"
        else b!"failed to process file %v. error message: %v")) [f, L.text E p e] ++ L.loop E p debug kws d fs ctx
    | .panic => []

/-- What `Run` writes (run.go:40-78). -/
def Lang.run (L : Lang) (E : Env) (p : Param) (debug : Bool) (d : Disk) : Str :=
  match parseKeywords p.keyword with
  | none => []
  | some kws =>
    if p.toStdout || E.canOpen then
      match E.glob (d.truncate E p).files p.input with
      | none => []
      | some fs => L.loop E p debug kws (d.truncate E p) fs {}
    else []

/-- What `main` writes after `Run` (main.go:38-43 and 47-53). -/
def Lang.final (L : Lang) (E : Env) (p : Param) (debug : Bool) : Outcome → Str
  | .returned none _ _ => []
  | .returned (some e) _ _ =>
    Fmt.sprintf L.fmt (L.tr (if debug then b!"run error: %+v" else b!"run error: %v")) [L.text E p e]
  | .panicked _ => Fmt.sprintf L.fmt (L.tr b!"unexpected error: %+v\n") [L.panic]

/-- What a run of the command with these outcomes writes to stderr.  For cmd/xtemplate/main.go:37-55. -/
def Lang.stderr (L : Lang) (E : Env) (p : Param) (debug : Bool) (d : Disk) (o : Outcome) : Str :=
  L.run E p debug d ++ L.final E p debug o

end Verif.Xt
