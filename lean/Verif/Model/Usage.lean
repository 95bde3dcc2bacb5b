import Verif.Model.Stderr
import Verif.Model.Quote
/-!
# What the command says about its flags (cmd/xtemplate/main.go:57-106 and package flag)

The messages of `parseOne`, `UnquoteUsage` and `PrintDefaults` of package flag (Go 1.23), and everything `main` writes to stderr.
The output of package flag is stderr.  Simplified: `%s`, `%v` and `%q` of strings in the messages of package flag are written as
concatenations with the text or its quoted form.
-/
namespace Verif.Xt
open Verif

/-- The errors of `parseOne` that can be met with the flags of the command; texts never fail to be set.
For cmd/xtemplate/main.go:58-90 (package flag). -/
inductive FlagErr where
  | syntax (arg : Str)
  | undefined (name : Str)
  | boolean (value name : Str)
  | argument (name : Str)
  deriving DecidableEq

/-- The error for which `parseFlags` returns `bad`.  For cmd/xtemplate/main.go:58-90 (package flag). -/
def flagErr (fl : Flags) : List Str → Option FlagErr
  | [] => none
  | s :: args =>
    match s with
    | 45 :: c :: r =>
      if c = 45 ∧ r = [] then none
      else
        let name := if c = 45 then r else c :: r
        if name.head? = none ∨ name.head? = some 45 ∨ name.head? = some 61 then some (.syntax (45 :: c :: r))
        else
          let (name, value) := splitEq name
          match flagKind name with
          | none => if name = b!"help" then none else some (.undefined name)
          | some true =>
            match fl.set name (value.getD b!"true") with
            | none => some (.boolean (value.getD b!"true") name)
            | some fl => flagErr fl args
          | some false =>
            match value with
            | some v =>
              match fl.set name v with
              | none => none
              | some fl => flagErr fl args
            | none =>
              match args with
              | [] => some (.argument name)
              | v :: args =>
                match fl.set name v with
                | none => none
                | some fl => flagErr fl args
    | _ => none

/-- The texts of the errors; `errParse` is the error of `boolValue.Set`.  For cmd/xtemplate/main.go:58-90 (package flag). -/
def FlagErr.text (P : Nat → Bool) : FlagErr → Str
  | .syntax arg => b!"bad flag syntax: " ++ arg
  | .undefined name => b!"flag provided but not defined: -" ++ name
  | .boolean value name => b!"invalid boolean value " ++ Quote.quote P value ++ b!" for -" ++ name ++ b!": parse error"
  | .argument name => b!"flag needs an argument: -" ++ name

/-- `Flag`: name, usage, and the default of a text; `none` for a bool flag (whose defaults are all false).
For cmd/xtemplate/main.go:58-90 (package flag). -/
structure FlagDef where
  name : Str
  usage : Str
  dflt : Option Str

/-- The flags (main.go:60-68) in the order of `VisitAll`, which is by name. -/
def Lang.flags (L : Lang) : List FlagDef := [
  { name := b!"d", usage := L.tr b!"debug mode", dflt := none },
  { name := b!"f", usage := L.tr b!"function names of template", dflt := some [] },
  { name := b!"h", usage := L.tr b!"show help message", dflt := none },
  { name := b!"i", usage := L.tr b!"input file pattern", dflt := some [] },
  { name := b!"k", usage := L.tr b!"keywords e.g.: gettext;T:1;N:1,2;X:1c,2;XN:1c,2,3", dflt := some [] },
  { name := b!"left", usage := L.tr b!"left delim", dflt := some b!"{{" },
  { name := b!"o", usage := L.tr b!"output file, - is stdout", dflt := some [] },
  { name := b!"right", usage := L.tr b!"right delim", dflt := some b!"}}" },
  { name := b!"v", usage := L.tr b!"show version", dflt := none }]

/-- The name for the type of the flag in `UnquoteUsage`.  For cmd/xtemplate/main.go:58-90 (package flag). -/
def FlagDef.kind (f : FlagDef) : Str :=
  match f.dflt with
  | none => []
  | some _ => b!"string"

/-- `UnquoteUsage`: name and usage.  For cmd/xtemplate/main.go:58-90 (package flag). -/
def FlagDef.unquote (f : FlagDef) : Str × Str :=
  match f.usage.span (· ≠ 96) with
  | (_, []) => (f.kind, f.usage)
  | (a, _ :: r) =>
    match r.span (· ≠ 96) with
    | (_, []) => (f.kind, f.usage)
    | (name, _ :: c) => (name, a ++ name ++ c)

/-- `strings.ReplaceAll(usage, "\n", "\n    \t")`.  For cmd/xtemplate/main.go:58-90 (package flag). -/
def indent (s : Str) : Str := s.flatMap fun c => if c = 10 then b!"\n    \t" else [c]

/-- One round of `PrintDefaults`.  For cmd/xtemplate/main.go:58-90 (package flag). -/
def FlagDef.print (P : Nat → Bool) (f : FlagDef) : Str :=
  let b := b!"  -" ++ f.name
  let (name, usage) := f.unquote
  let b := if 0 < name.length then b ++ b!" " ++ name else b
  let b := if b.length ≤ 4 then b ++ b!"\t" else b ++ b!"\n    \t"
  let b := b ++ indent usage
  let b := match f.dflt with
    | none => b
    | some v => if v = [] then b else b ++ b!" (default " ++ Quote.quote P v ++ b!")"
  b ++ b!"\n"

/-- `flag.Usage` (main.go:70-77). -/
def Lang.usage (L : Lang) (P : Nat → Bool) (arg0 : Str) : Str :=
  Fmt.sprintf L.fmt (L.tr b!"Usage of %s:\nxtemplate -i input-pattern -k keywords [-f functions] [-o output]\n") [arg0] ++
    L.flags.flatMap (FlagDef.print P)

/-- `main` (main.go:37-55) with what is written to stderr; see `Main`. -/
inductive MainErr (E : Env) (version trace : Str) (L : Lang) (arg0 : Str) (args : List Str) (d : Disk) : Nat × Disk → Str → Prop
  | errHelp : parseFlags {} args = .help → MainErr E version trace L arg0 args d (0, d) (L.usage E.isPrint arg0)
  | bad {e} : parseFlags {} args = .bad → flagErr {} args = some e →
      MainErr E version trace L arg0 args d (2, d) (e.text E.isPrint ++ b!"\n" ++ L.usage E.isPrint arg0)
  | version {fl} : parseFlags {} args = .ok fl → fl.version = true →
      MainErr E version trace L arg0 args d (0, d.print (versionText version)) []
  | help {fl} : parseFlags {} args = .ok fl → fl.version = false → fl.help = true →
      MainErr E version trace L arg0 args d (0, d) (L.usage E.isPrint arg0)
  | missing {fl} : parseFlags {} args = .ok fl → fl.version = false → fl.help = false →
      (GoStr.trimSpace fl.input = [] ∨ GoStr.trimSpace fl.keyword = []) →
      MainErr E version trace L arg0 args d (2, d) (L.usage E.isPrint arg0 ++ L.tr b!"flags -i and -k are required" ++ b!"\n")
  | run {fl o d0} : parseFlags {} args = .ok fl → fl.version = false → fl.help = false →
      ¬ (GoStr.trimSpace fl.input = [] ∨ GoStr.trimSpace fl.keyword = []) →
      d0 = (if fl.debug then d.print (b!"run param=" ++ trace) else d) → Run E fl.param d0 o →
      MainErr E version trace L arg0 args d o.exit (L.stderr E fl.param fl.debug d0 o)

end Verif.Xt
