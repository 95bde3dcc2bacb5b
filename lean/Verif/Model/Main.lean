import Verif.Model.Run
/-!
# The command (cmd/xtemplate/main.go)

Modelled: Go's `flag` package as used by the command (`parseOne`, `strconv.ParseBool`), the checks of
`buildParam`, `versionString`, the exit status and what goes to stdout.  Not modelled here: what goes to
stderr (see Model/Stderr.lean and Model/Usage.lean), the translation of these messages (see Model/Embed.lean), failures of writing to
stdout outside of `Run`.  Debug output is an arbitrary text after its first words.
-/
namespace Verif.Xt
open Verif

/-- The variables of `buildParam` (main.go:59-69). -/
structure Flags where
  input : Str := []
  left : Str := b!"{{"
  right : Str := b!"}}"
  keyword : Str := []
  function : Str := []
  output : Str := []
  debug : Bool := false
  version : Bool := false
  help : Bool := false
  deriving DecidableEq

/-- `strconv.ParseBool`.  For cmd/xtemplate/main.go:58-106 (package flag). -/
def parseBool (s : Str) : Option Bool :=
  if s = b!"1" ∨ s = b!"t" ∨ s = b!"T" ∨ s = b!"true" ∨ s = b!"TRUE" ∨ s = b!"True" then some true
  else if s = b!"0" ∨ s = b!"f" ∨ s = b!"F" ∨ s = b!"false" ∨ s = b!"FALSE" ∨ s = b!"False" then some false
  else none

/-- The flags defined (main.go:60-68): `some true` for a bool flag. -/
def flagKind (name : Str) : Option Bool :=
  if name = b!"i" ∨ name = b!"left" ∨ name = b!"right" ∨ name = b!"k" ∨ name = b!"f" ∨ name = b!"o" then some false
  else if name = b!"d" ∨ name = b!"v" ∨ name = b!"h" then some true
  else none

/-- `Value.Set` of the flag; `none` is an error.  For cmd/xtemplate/main.go:58-106 (package flag). -/
def Flags.set (fl : Flags) (name value : Str) : Option Flags :=
  if name = b!"i" then some { fl with input := value }
  else if name = b!"left" then some { fl with left := value }
  else if name = b!"right" then some { fl with right := value }
  else if name = b!"k" then some { fl with keyword := value }
  else if name = b!"f" then some { fl with function := value }
  else if name = b!"o" then some { fl with output := value }
  else match parseBool value with
    | none => none
    | some b =>
      if name = b!"d" then some { fl with debug := b }
      else if name = b!"v" then some { fl with version := b }
      else some { fl with help := b }

/-- The loop of `parseOne` that looks for `=` in the name, from its second byte on.  For cmd/xtemplate/main.go:58-106 (package flag). -/
def splitEq : Str → Str × Option Str
  | [] => ([], none)
  | c :: r =>
    match r.span (· ≠ 61) with
    | (_, []) => (c :: r, none)
    | (a, _ :: v) => (c :: a, some v)

/-- The result of `flag.Parse`; `help` is `ErrHelp`, for which the process ends with status 0, `bad` any
other error, for which it ends with status 2.  For cmd/xtemplate/main.go:58-106 (package flag). -/
inductive FlagRes where
  | ok (fl : Flags)
  | help
  | bad
  deriving DecidableEq

/-- `(*FlagSet).Parse` and `parseOne` of package flag, called at main.go:78. -/
def parseFlags (fl : Flags) : List Str → FlagRes
  | [] => .ok fl
  | s :: args =>
    match s with
    | 45 :: c :: r =>
      if c = 45 ∧ r = [] then .ok fl
      else
        let name := if c = 45 then r else c :: r
        if name.head? = none ∨ name.head? = some 45 ∨ name.head? = some 61 then .bad
        else
          let (name, value) := splitEq name
          match flagKind name with
          | none => if name = b!"help" then .help else .bad
          | some true =>
            match fl.set name (value.getD b!"true") with
            | none => .bad
            | some fl => parseFlags fl args
          | some false =>
            match value with
            | some v =>
              match fl.set name v with
              | none => .bad
              | some fl => parseFlags fl args
            | none =>
              match args with
              | [] => .bad
              | v :: args =>
                match fl.set name v with
                | none => .bad
                | some fl => parseFlags fl args
    | _ => .ok fl

/-- `internal.Param` without `Debug` (main.go:97-105). -/
def Flags.param (fl : Flags) : Param :=
  { input := fl.input, left := fl.left, right := fl.right, keyword := fl.keyword, function := fl.function,
    output := fl.output }

/-- `debug.BuildInfo`: the version of the main module and the settings.  For cmd/xtemplate/main.go:108-148. -/
structure BuildInfo where
  main : Str
  settings : List (Str × Str)

/-- The variables of the loop of `versionString` (main.go:119-133). -/
structure Vcs where
  revision : Str := []
  time : Str := []
  dirty : Bool := false

/-- One step of the loop of `versionString` (main.go:124-133). -/
def Vcs.step (v : Vcs) (item : Str × Str) : Vcs :=
  if item.1 = b!"vcs.revision" then { v with revision := item.2 }
  else if item.1 = b!"vcs.time" then { v with time := item.2 }
  else if item.1 = b!"vcs.modified" then { v with dirty := item.2 = b!"true" }
  else v

/-- `versionString` (main.go:108-147), given the variable `Version` and `debug.ReadBuildInfo()`. -/
def versionString (version : Str) (info : Option BuildInfo) : Str :=
  if version ≠ [] ∧ version ≠ b!"dev" then version
  else match info with
    | none => b!"dev"
    | some info =>
      if info.main ≠ [] ∧ info.main ≠ b!"(devel)" then info.main
      else
        let v := info.settings.foldl Vcs.step {}
        if v.revision = [] then b!"dev"
        else
          let rev := if 12 < v.revision.length then v.revision.take 12 else v.revision
          GoStr.join b!"-" ([rev] ++ (if v.dirty then [b!"dirty"] else []) ++ (if v.time ≠ [] then [v.time] else []))

/-- What `-v` prints (main.go:80-85). -/
def versionText (version : Str) : Str :=
  b!"xtemplate\nhttps://github.com/youthlin/t/tree/main/cmd/xtemplate\nby Youth．霖(https://youthlin.com)\nversion: " ++
    version ++ b!"\n"

/-- The disk with a text added to stdout.  For cmd/xtemplate/main.go:37-106. -/
def Disk.print (d : Disk) (text : Str) : Disk := { d with stdout := d.stdout ++ text }

/-- What the process leaves behind after `Run` (main.go:46-54 and 38-43): its exit status and the disk. -/
def Outcome.exit : Outcome → Nat × Disk
  | .returned none _ d => (0, d)
  | .returned (some _) _ d => (2, d)
  | .panicked d => (2, d)

/-- `main` (main.go:37-55): possible exit status and disk, given the arguments.  `trace` is the debug
output after its first words (run.go:41), all of which precedes the POT. -/
inductive Main (E : Env) (version trace : Str) (args : List Str) (d : Disk) : Nat × Disk → Prop
  | errHelp : parseFlags {} args = .help → Main E version trace args d (0, d)
  | bad : parseFlags {} args = .bad → Main E version trace args d (2, d)
  | version {fl} : parseFlags {} args = .ok fl → fl.version = true →
      Main E version trace args d (0, d.print (versionText version))
  | help {fl} : parseFlags {} args = .ok fl → fl.version = false → fl.help = true → Main E version trace args d (0, d)
  | missing {fl} : parseFlags {} args = .ok fl → fl.version = false → fl.help = false →
      (GoStr.trimSpace fl.input = [] ∨ GoStr.trimSpace fl.keyword = []) → Main E version trace args d (2, d)
  | run {fl o} : parseFlags {} args = .ok fl → fl.version = false → fl.help = false →
      ¬ (GoStr.trimSpace fl.input = [] ∨ GoStr.trimSpace fl.keyword = []) →
      Run E fl.param (if fl.debug then d.print (b!"run param=" ++ trace) else d) o → Main E version trace args d o.exit

end Verif.Xt
