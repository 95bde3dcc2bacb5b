import Verif.Model.Xtemplate
import Verif.Model.Utf8
/-!
# A run of the extractor (cmd/xtemplate/internal/run.go, param.go, keyword.go)

Modelled: the collection of entries (`Add`), the POT (`header`, `pot`, `Write`), the functions
registered with the template parser, and `Run` with its files, failures, panics and effect on the
output.  Not modelled: the template parser, `filepath.Glob`, the file system beyond "a path names a
file with some content" and the clock; they are parameters (`Env`).  Warnings of `Add` are modelled as
a list; debug output is modelled in `Model/Debug.lean`.
-/
namespace Verif.Xt
open Verif

/-- `Context` (param.go:35-42): what has been collected. -/
structure Ctx where
  entries : GMap Tr.Entry := []
  hasPlural : Bool := false

/-- `Add` (param.go:79-96); the second component is true if an error is returned. -/
def Ctx.add (ctx : Ctx) (entry : Tr.Entry) : Ctx × Bool :=
  match ctx.entries.get? entry.key with
  | some pre =>
    if pre.isPlural ≠ entry.isPlural then (ctx, true)
    else ({ ctx with entries := ctx.entries.set entry.key { pre with cmts := pre.cmts ++ entry.cmts } }, false)
  | none =>
    ({ entries := ctx.entries.set entry.key entry, hasPlural := ctx.hasPlural || entry.isPlural }, false)

/-- The calls of `Add` for a sequence of entries (run.go:289-291); the second component lists the
entries for which an error was printed. -/
def Ctx.addAll (ctx : Ctx) : List Tr.Entry → Ctx × List Tr.Entry
  | [] => (ctx, [])
  | e :: es =>
    let (ctx, bad) := ctx.add e
    let (ctx, rest) := ctx.addAll es
    (ctx, if bad then e :: rest else rest)

/-- `Param` (param.go:16-24) without `Debug`. -/
structure Param where
  input : Str
  left : Str
  right : Str
  keyword : Str
  function : Str
  output : Str

/-- The comments of the header (param.go:125-132). -/
def headerCmts : List Str :=
  [b!"# SOME DESCRIPTIVE TITLE.",
   b!"# Copyright (C) YEAR THE PACKAGE'S COPYRIGHT HOLDER",
   b!"# This file is distributed under the same license as the PACKAGE package.",
   b!"# FIRST AUTHOR <EMAIL@ADDRESS>, YEAR.",
   b!"#",
   b!"#, fuzzy"]

/-- The lines of the header (param.go:133-155); `now` is the formatted time. -/
def headerLines (p : Param) (now : Str) (hasPlural : Bool) : List Str :=
  [b!"Project-Id-Version: PACKAGE VERSION",
   b!"Report-Msgid-Bugs-To: ",
   b!"POT-Creation-Date: " ++ now,
   b!"PO-Revision-Date: YEAR-MO-DA HO:MI+ZONE",
   b!"Last-Translator: FULL NAME <EMAIL@ADDRESS>",
   b!"Language-Team: LANGUAGE <LL@li.org>",
   b!"Language: ",
   b!"MIME-Version: 1.0",
   b!"Content-Type: text/plain; charset=CHARSET",
   b!"Content-Transfer-Encoding: 8bit",
   b!"X-Created-By: xtemplate(https://github.com/youthlin/t/tree/main/cmd/xtemplate)"] ++
  (if hasPlural then [b!"Plural-Forms: nplurals=INTEGER; plural=EXPRESSION;"] else []) ++
  [b!"X-Xtemplate-Input: " ++ p.input,
   b!"X-Xtemplate-Left: " ++ p.left,
   b!"X-Xtemplate-Right: " ++ p.right,
   b!"X-Xtemplate-Keywords: " ++ p.keyword,
   b!"X-Xtemplate-Functions: " ++ p.function,
   b!"X-Xtemplate-Output: " ++ p.output,
   b!""]

/-- `header` (param.go:123-158). -/
def header (p : Param) (now : Str) (hasPlural : Bool) : Tr.Entry :=
  { cmts := headerCmts, str := GoStr.join [10] (headerLines p now hasPlural) }

/-- `pot` (param.go:113-120), the map being ranged over in some order. -/
def Pot (p : Param) (now : Str) (ctx : Ctx) (f : Tr.File) : Prop :=
  ∃ m : GMap Tr.Entry, m.Perm ctx.entries ∧
    f = m.vals.foldl Tr.File.addEntry (Tr.File.addEntry {} (header p now ctx.hasPlural))

/-- `Write` (param.go:99-102): a text it may write. -/
def PotText (P : Nat → Bool) (p : Param) (now : Str) (ctx : Ctx) (text : Str) : Prop :=
  ∃ f es, Pot p now ctx f ∧ Tr.SortedEntry f es ∧ text = Tr.savePot P es

/-! ## Functions -/

/-- `[a-zA-Z_]` (run.go:26). -/
def isIdentStart (c : UInt8) : Bool := (65 ≤ c && c ≤ 90) || (97 ≤ c && c ≤ 122) || c == 95

/-- `\w` (run.go:26). -/
def isWordByte (c : UInt8) : Bool := isIdentStart c || (48 ≤ c && c ≤ 57)

/-- `identPattern.FindAllString(src, -1)` (run.go:31): leftmost matches, each as long as possible. -/
def findIdents : Str → List Str
  | [] => []
  | c :: s =>
    if isIdentStart c then (c :: s.takeWhile isWordByte) :: findIdents (s.dropWhile isWordByte)
    else findIdents s
  termination_by s => s.length
  decreasing_by
    · have := (List.dropWhile_sublist (p := isWordByte) (l := s)).length_le
      simp; omega
    · simp

/-- `templateBuiltins` (run.go:19-22). -/
def templateBuiltins : List Str :=
  [b!"if", b!"else", b!"end", b!"range", b!"with", b!"template", b!"define", b!"block", b!"break",
   b!"continue"]

/-- `scanFuncNames` (run.go:29-37). -/
def scanFuncNames (src : Str) : List Str := (findIdents src).filter fun n => !templateBuiltins.contains n

/-- The names given by `-f` (param.go:65-74). -/
def functionNames (function : Str) : List Str :=
  ((GoStr.splitByte 44 function).map GoStr.trimSpace).filter (· ≠ [])

/-- `ctx.Functions` (param.go:56-58,72). -/
def ctxFunctions (kws : List Keyword) (p : Param) : List Str :=
  kws.map (·.name) ++ functionNames p.function

/-- `funcs` (run.go:95-103). -/
def funcsFor (kws : List Keyword) (p : Param) (src : Str) : List Str :=
  ctxFunctions kws p ++ scanFuncNames src

/-- The runes of a string (a `range` loop).  For cmd/xtemplate/internal/run.go:105-108 (`Funcs`). -/
def runesN : Nat → Str → List Nat
  | 0, _ => []
  | _, [] => []
  | n + 1, s => (Utf8.decode s).1 :: runesN n (s.drop (Utf8.decode s).2)

/-- See `runesN`. -/
def runes (s : Str) : List Nat := runesN s.length s

/-- `goodName` of text/template (funcs.go), called by `Funcs` (run.go:107), which panics for
any other name. -/
def goodName (letter digit : Nat → Bool) (name : Str) : Bool :=
  match runes name with
  | [] => false
  | r :: rs => (r == 95 || letter r) && rs.all fun r => r == 95 || letter r || digit r

/-! ## Run -/

/-- What the run depends on.  For cmd/xtemplate/internal/run.go:40-78. -/
structure Env where
  /-- `strconv.IsPrint` -/
  isPrint : Nat → Bool
  /-- `unicode.IsLetter` and `unicode.IsDigit` -/
  letter : Nat → Bool
  digit : Nat → Bool
  /-- the file a path names -/
  canon : Str → Str
  /-- can the output be opened? -/
  canOpen : Bool
  /-- `filepath.Glob`, given the files -/
  glob : (Str → Option Str) → Str → Option (List Str)
  /-- the template parser: the roots of the templates of a source text, given delimiters and functions -/
  parse : Str → Str → (Str → Bool) → Str → Option (List (List Stmt))
  /-- the formatted time -/
  now : Str
  /-- how much of a text can be written to the output, and whether all of it was -/
  sink : Str → Str × Bool
  /-- does closing the output succeed? -/
  closes : Bool

/-- The files, by what `canon` returns (`none`: cannot be read), and what was written to stdout.
For cmd/xtemplate/internal/run.go:40-78. -/
structure Disk where
  files : Str → Option Str
  stdout : Str

/-- Failures.  For cmd/xtemplate/internal/run.go:40-78. -/
inductive RunErr where
  | keyword
  | openOutput
  | glob
  | read (file : Str)
  | parse (file : Str)
  | write
  | close
  deriving DecidableEq

/-- Does the output go to stdout (keyword.go:128)? -/
def Param.toStdout (p : Param) : Bool := p.output = [] || p.output = b!"-"

/-- The files with one of them replaced.  For cmd/xtemplate/internal/run.go:40-78. -/
def Disk.put (d : Disk) (file content : Str) : Disk :=
  { d with files := fun f => if f = file then some content else d.files f }

/-- `Writer` (keyword.go:126-135): the output is created or truncated. -/
def Disk.truncate (E : Env) (p : Param) (d : Disk) : Disk :=
  if p.toStdout then d else d.put (E.canon p.output) []

/-- The disk after writing a text to the opened output.  For cmd/xtemplate/internal/param.go:99-102. -/
def Disk.write (E : Env) (p : Param) (d : Disk) (text : Str) : Disk :=
  if p.toStdout then { d with stdout := d.stdout ++ (E.sink text).1 }
  else d.put (E.canon p.output) (E.sink text).1

/-- The result of `resolveOneFile`.  For cmd/xtemplate/internal/run.go:86-117. -/
inductive FileRes where
  | entries (es : List Tr.Entry)
  | fail (e : RunErr)
  | panic

/-- `resolveOneFile` (run.go:86-117). -/
def resolveOneFile (E : Env) (p : Param) (kws : List Keyword) (d : Disk) (filename : Str) : FileRes :=
  match d.files (E.canon filename) with
  | none => .fail (.read filename)
  | some src =>
    let funcs := funcsFor kws p src
    if funcs.all (goodName E.letter E.digit) then
      match E.parse p.left p.right funcs.contains src with
      | none => .fail (.parse filename)
      | some roots => .entries (resolveTemplates kws filename roots)
    else .panic

/-- The loop of `Run` (run.go:58-70): the collection, the first failure and the failures printed;
`none` is a panic. -/
def loop (E : Env) (p : Param) (kws : List Keyword) (d : Disk) :
    List Str → Ctx → Option RunErr → Option (Ctx × Option RunErr × List RunErr)
  | [], ctx, first => some (ctx, first, [])
  | f :: fs, ctx, first =>
    match resolveOneFile E p kws d f with
    | .entries es => loop E p kws d fs (ctx.addAll es).1 first
    | .fail e =>
      (loop E p kws d fs ctx (first.or (some e))).map fun r => (r.1, r.2.1, e :: r.2.2)
    | .panic => none

/-- What a run does: it returns an error or none, having printed some failures, or panics.  For cmd/xtemplate/internal/run.go:40-78. -/
inductive Outcome where
  | returned (err : Option RunErr) (printed : List RunErr) (d : Disk)
  | panicked (d : Disk)

/-- The deferred function (run.go:46-51) and `Close` (param.go:105-110). -/
def finish (E : Env) (p : Param) (err : Option RunErr) : Option RunErr :=
  if p.toStdout || E.closes then err else err.or (some .close)

/-- `Run` (run.go:40-78): its possible outcomes. -/
inductive Run (E : Env) (p : Param) (d : Disk) : Outcome → Prop
  | keyword : parseKeywords p.keyword = none → Run E p d (.returned (some .keyword) [] d)
  | openOutput {kws} : parseKeywords p.keyword = some kws → p.toStdout = false → E.canOpen = false →
      Run E p d (.returned (some .openOutput) [] d)
  | glob {kws} : parseKeywords p.keyword = some kws → (p.toStdout || E.canOpen) = true →
      E.glob (d.truncate E p).files p.input = none →
      Run E p d (.returned (finish E p (some .glob)) [] (d.truncate E p))
  | panic {kws fs} : parseKeywords p.keyword = some kws → (p.toStdout || E.canOpen) = true →
      E.glob (d.truncate E p).files p.input = some fs →
      loop E p kws (d.truncate E p) fs {} none = none → Run E p d (.panicked (d.truncate E p))
  | failed {kws fs ctx e printed} : parseKeywords p.keyword = some kws →
      (p.toStdout || E.canOpen) = true → E.glob (d.truncate E p).files p.input = some fs →
      loop E p kws (d.truncate E p) fs {} none = some (ctx, some e, printed) →
      Run E p d (.returned (finish E p (some e)) printed (d.truncate E p))
  | written {kws fs ctx printed text} : parseKeywords p.keyword = some kws →
      (p.toStdout || E.canOpen) = true → E.glob (d.truncate E p).files p.input = some fs →
      loop E p kws (d.truncate E p) fs {} none = some (ctx, none, printed) →
      PotText E.isPrint p E.now ctx text →
      Run E p d (.returned (finish E p (if (E.sink text).2 then none else some .write)) printed
        ((d.truncate E p).write E p text))

end Verif.Xt
