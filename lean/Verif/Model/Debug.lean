import Verif.Model.Run
import Verif.Model.Render
import Verif.Model.Stderr
import Mathlib.Data.List.Forall2
/-!
# What a run with -d prints (cmd/xtemplate/internal/run.go, param.go)

`debugPrint` writes to stdout.  Its calls are modelled as a list of events in the order of the calls, one function for each function of
run.go, and the texts of the events by the format strings and the model of package fmt.  All the calls come before the POT is written.
Simplified: as in Model/Xtemplate.lean a nil pipeline is one without commands; every template has a tree, as after a successful `Parse` (so
the call in run.go:123 is left out); stdout takes all of these lines.  The positions of commands, the names of templates and `%#v` of nodes
are not in the tree of the model and may be any.
-/
namespace Verif.Xt
open Verif

/-- What `extract` misses.  For cmd/xtemplate/internal/run.go:319-352. -/
inductive Missing where
  | ctxt
  | id
  | plural
  deriving DecidableEq

/-- The calls of `debugPrint`.  For cmd/xtemplate/internal/run.go:41-351. -/
inductive Event where
  /-- run.go:41 -/
  | param
  /-- run.go:53 -/
  | glob (files : Option (List Str))
  /-- run.go:75 -/
  | done (n : Nat)
  /-- run.go:87 -/
  | file (name : Str)
  /-- run.go:121 -/
  | template (file : Str)
  /-- run.go:181 -/
  | noPipe (line : Nat)
  /-- run.go:184 -/
  | pipe (line : Nat)
  /-- run.go:194 -/
  | cmd (line : Nat)
  /-- run.go:202 -/
  | arg
  /-- run.go:262 -/
  | tooFew (name : Str)
  /-- run.go:271 -/
  | notString (name : Str) (i : Nat)
  /-- run.go:325, 332 and 341 -/
  | missing (name : Str) (what : Missing)
  /-- run.go:351 -/
  | ok (name : Str) (e : Tr.Entry)
  deriving DecidableEq

/-- `extract` (run.go:319-353). -/
def extractEv (line name : Str) (kw : Keyword) (m : List Str) : Event :=
  match (if kw.msgCtxt > 0 then posArg m kw.msgCtxt else some []) with
  | none => .missing name .ctxt
  | some ctxt =>
    match posArg m kw.msgID with
    | none => .missing name .id
    | some id =>
      match (if kw.msgID2 > 0 then posArg m kw.msgID2 else some []) with
      | none => .missing name .plural
      | some id2 =>
        let e : Tr.Entry :=
          { cmts := [b!"#: " ++ line], ctxt := ctxt, id := id, id2 := id2, isPlural := kw.msgID2 > 0 }
        .ok name (if isGoFormat e then { e with cmts := e.cmts ++ [b!"#, go-format"] } else e)

/-- The loop over the arguments after the name (run.go:265-276): the texts, or the index of the argument that is no literal. -/
def literalsEv (i : Nat) : List Arg → Nat ⊕ List Str
  | [] => .inr []
  | a :: as =>
    match stringLiteral a with
    | none => .inl i
    | some t =>
      match literalsEv (i + 1) as with
      | .inl j => .inl j
      | .inr ts => .inr (t :: ts)

/-- One keyword of the loop of `filter` (run.go:252-290). -/
def filterOneEv (line name : Str) (nameIndex : Nat) (args : List Arg) (kw : Keyword) : List Event :=
  if kw.name = name then
    if argCount kw + nameIndex ≥ args.length then [.tooFew name]
    else match literalsEv (nameIndex + 1) ((args.drop (nameIndex + 1)).take (argCount kw)) with
      | .inl i => [.notString name i]
      | .inr m => [extractEv line name kw m]
  else []

/-- `filter` (run.go:249-293). -/
def filterEv (kws : List Keyword) (line name : Str) (nameIndex : Nat) (args : List Arg) : List Event :=
  kws.flatMap (filterOneEv line name nameIndex args)

mutual
/-- The switch on one argument (run.go:203-226). -/
def resolveArgEv (kws : List Keyword) (filename : Str) (line : Nat) (args : List Arg) (i : Nat) : Arg → List Event
  | .pipe cmds => (if cmds = [] then [.noPipe line] else [.pipe line]) ++ resolveCmdsEv kws filename line none cmds
  | .ident name => filterEv kws (refText filename line) name i args
  | .field ids =>
    match ids.getLast? with
    | none => []
    | some name => filterEv kws (refText filename line) name i args
  | .var ids =>
    match ids.getLast? with
    | none => []
    | some name => filterEv kws (refText filename line) name i args
  | .chain _ fields =>
    match fields.getLast? with
    | none => []
    | some name => filterEv kws (refText filename line) name i args
  | .str _ => []
  | .other => []
  termination_by a => sizeOf a
/-- The loop over the arguments of a command (run.go:200-227). -/
def resolveArgsEv (kws : List Keyword) (filename : Str) (line : Nat) (args : List Arg) (i : Nat) : List Arg → List Event
  | [] => []
  | a :: as => .arg :: resolveArgEv kws filename line args i a ++ resolveArgsEv kws filename line args (i + 1) as
  termination_by l => sizeOf l
/-- `resolveCmds` (run.go:189-229), `prev` being the command before. -/
def resolveCmdsEv (kws : List Keyword) (filename : Str) (line : Nat) (prev : Option Cmd) : List Cmd → List Event
  | [] => []
  | args :: rest =>
    match _h : pipedStringArg prev with
    | some a =>
      .cmd line :: resolveArgsEv kws filename line (args ++ [a]) 0 (args ++ [a]) ++ resolveCmdsEv kws filename line (some args) rest
    | none => .cmd line :: resolveArgsEv kws filename line args 0 args ++ resolveCmdsEv kws filename line (some args) rest
  termination_by cmds => (match prev with | none => 0 | some c => sizeOf c) + sizeOf cmds
  decreasing_by
    · have hp : ∃ b, prev = some [b] ∧ b = a := by
        unfold pipedStringArg at _h
        split at _h
        · split at _h
          · exact ⟨_, rfl, by simpa using _h⟩
          · simp at _h
        · simp at _h
      obtain ⟨b, rfl, rfl⟩ := hp
      have := sizeOf_snoc args b
      simp at this ⊢
      omega
    · simp; omega
    · simp; omega
    · simp; omega
end

/-- `resolvePipe` (run.go:179-186). -/
def resolvePipeEv (kws : List Keyword) (filename : Str) (line : Nat) (pipe : Pipe) : List Event :=
  (if pipe = [] then [.noPipe line] else [.pipe line]) ++ resolveCmdsEv kws filename line none pipe

mutual
/-- `resolveNode` (run.go:132-176). -/
def resolveNodeEv (kws : List Keyword) (filename : Str) : Stmt → List Event
  | .list ns => resolveNodesEv kws filename ns
  | .action line pipe => resolvePipeEv kws filename line pipe
  | .ifN line pipe body els =>
    resolvePipeEv kws filename line pipe ++ resolveNodesEv kws filename body ++ resolveNodesEv kws filename els
  | .rangeN line pipe body els =>
    resolvePipeEv kws filename line pipe ++ resolveNodesEv kws filename body ++ resolveNodesEv kws filename els
  | .withN line pipe body els =>
    resolvePipeEv kws filename line pipe ++ resolveNodesEv kws filename body ++ resolveNodesEv kws filename els
  | .template line pipe => resolvePipeEv kws filename line pipe
  | .other => []
/-- The loop over the children of a list (run.go:141-143). -/
def resolveNodesEv (kws : List Keyword) (filename : Str) : List Stmt → List Event
  | [] => []
  | n :: ns => resolveNodeEv kws filename n ++ resolveNodesEv kws filename ns
end

/-- The loop over the templates of a file (run.go:113-115) with `resolveTmpl` (run.go:120-127). -/
def resolveTemplatesEv (kws : List Keyword) (filename : Str) (roots : List (List Stmt)) : List Event :=
  roots.flatMap fun root => .template filename :: resolveNodesEv kws filename root

/-- `resolveOneFile` (run.go:86-117). -/
def resolveOneFileEv (E : Env) (p : Param) (kws : List Keyword) (d : Disk) (filename : Str) : List Event :=
  .file filename ::
    match d.files (E.canon filename) with
    | none => []
    | some src =>
      let funcs := funcsFor kws p src
      if funcs.all (goodName E.letter E.digit) then
        match E.parse p.left p.right funcs.contains src with
        | none => []
        | some roots => resolveTemplatesEv kws filename roots
      else []

/-- The loop of `Run` and the end of it (run.go:58-77). -/
def loopEv (E : Env) (p : Param) (kws : List Keyword) (d : Disk) : List Str → Ctx → Bool → List Event
  | [], ctx, failed => if failed then [] else [.done ctx.entries.length]
  | f :: fs, ctx, failed =>
    resolveOneFileEv E p kws d f ++
      match resolveOneFile E p kws d f with
      | .entries es => loopEv E p kws d fs (ctx.addAll es).1 failed
      | .fail _ => loopEv E p kws d fs ctx true
      | .panic => []

/-- `Run` (run.go:40-78). -/
def runEv (E : Env) (p : Param) (d : Disk) : List Event :=
  .param ::
    match parseKeywords p.keyword with
    | none => []
    | some kws =>
      if p.toStdout || E.canOpen then
        .glob (E.glob (d.truncate E p).files p.input) ::
          match E.glob (d.truncate E p).files p.input with
          | none => []
          | some fs => loopEv E p kws (d.truncate E p) fs {} false
      else []

/-! ## Texts -/

/-- An argument of `debugPrint`: one of a usual type, or another one of which is known how it is shown.
For cmd/xtemplate/internal/param.go:27-32. -/
inductive DVal where
  | val (v : Fmt.Val)
  | shown (s : Str)

/-- Package fmt for these.  For cmd/xtemplate/internal/param.go:27-32. -/
def dEnv (L : Fmt.Lib) : Fmt.Env DVal where
  render o verb
    | .val v => (Fmt.goEnv L).render o verb v
    | .shown s => s
  asInt
    | .val v => (Fmt.goEnv L).asInt v
    | .shown _ => none
  empty := .val (.str [])
  extra _ := []

/-- `debugPrint` (param.go:27-31). -/
def debugPrint (L : Fmt.Lib) (debug : Bool) (format : Str) (args : List DVal) : Str :=
  if debug then Fmt.sprintf (dEnv L) (format ++ b!"\n") args else []

/-- `%v` of a boolean.  For cmd/xtemplate/internal/param.go:27-32. -/
def boolText (b : Bool) : Str := if b then b!"true" else b!"false"

/-- `%+v` of a `*Param` (param.go:16-24). -/
def paramText (p : Param) (debug : Bool) : Str :=
  b!"&{Input:" ++ p.input ++ b!" Left:" ++ p.left ++ b!" Right:" ++ p.right ++ b!" Keyword:" ++ p.keyword ++
    b!" Function:" ++ p.function ++ b!" OutputFile:" ++ p.output ++ b!" Debug:" ++ boolText debug ++ b!"}"

/-- `%+v` of a `*translator.Entry` (translator/entry.go:10-18). -/
def entryText (e : Tr.Entry) : Str :=
  b!"&{MsgCmts:" ++ listText e.cmts ++ b!" MsgCtxt:" ++ e.ctxt ++ b!" MsgID:" ++ e.id ++ b!" IsPlural:" ++ boolText e.isPlural ++
    b!" MsgID2:" ++ e.id2 ++ b!" MsgStr:" ++ e.str ++ b!" MsgStrN:" ++ listText e.strN ++ b!"}"

/-- An `int`.  For cmd/xtemplate/internal/param.go:27-32. -/
def DVal.num (n : Nat) : DVal := .val (.int (Int64.ofNat n))

/-- A string.  For cmd/xtemplate/internal/param.go:27-32. -/
def DVal.str (s : Str) : DVal := .val (.str s)

/-- What the call prints.  For cmd/xtemplate/internal/param.go:27-32. -/
inductive Prints (L : Fmt.Lib) (p : Param) (debug : Bool) : Event → Str → Prop
  | param : Prints L p debug .param (debugPrint L debug b!"run param=%+v" [.shown (paramText p debug)])
  | files (fs : List Str) : Prints L p debug (.glob (some fs))
      (debugPrint L debug b!"Glob files=%v err=%+v" [.shown (listText fs), .val .nil])
  | bad : Prints L p debug (.glob none)
      (debugPrint L debug b!"Glob files=%v err=%+v" [.shown (listText []), .shown b!"syntax error in pattern"])
  | done (n : Nat) : Prints L p debug (.done n) (debugPrint L debug b!"extract done, %d entries" [.num n])
  | file (f : Str) : Prints L p debug (.file f) (debugPrint L debug b!"resolve one file: filename=%v" [.str f])
  | template (f name : Str) : Prints L p debug (.template f)
      (debugPrint L debug b!"process template: [filename=%v] [template name=%v]" [.str f, .str name])
  | noPipe (line : Nat) : Prints L p debug (.noPipe line) (debugPrint L debug b!"  > line %v: Pipe is nil" [.num line])
  | pipe (line : Nat) : Prints L p debug (.pipe line) (debugPrint L debug b!"  >  Pipe: Line=%v" [.num line])
  | cmd (line pos : Nat) (h : pos < 2 ^ 63) : Prints L p debug (.cmd line) (debugPrint L debug b!"  >  >  Cmd: Line=%v Pos=%v" [.num line, .num pos])
  | arg (node : Str) : Prints L p debug .arg (debugPrint L debug b!"  >  >  >  Cmd.Arg: %#v" [.shown node])
  | tooFew (name : Str) : Prints L p debug (.tooFew name) (debugPrint L debug b!"  >  >  >  ID=%v too few args" [.str name])
  | notString (name : Str) (i : Nat) : Prints L p debug (.notString name i)
      (debugPrint L debug b!"  >  >  >  ID=%v args[%d] is not string node" [.str name, .num i])
  | noCtxt (name : Str) : Prints L p debug (.missing name .ctxt) (debugPrint L debug b!"  >  >  >  ID=%v missing ctxt" [.str name])
  | noId (name : Str) : Prints L p debug (.missing name .id) (debugPrint L debug b!"  >  >  >  ID=%v missing msg id" [.str name])
  | noPlural (name : Str) : Prints L p debug (.missing name .plural)
      (debugPrint L debug b!"  >  >  >  ID=%v missing msg plural" [.str name])
  | ok (name : Str) (e : Tr.Entry) : Prints L p debug (.ok name e)
      (debugPrint L debug b!"【ok】  >  >  ID=%v entry=%+v" [.str name, .shown (entryText e)])

/-- `Run` (run.go:40-78) with what it prints: the lines come before the POT, which is the only other text for stdout. -/
def DebugRun (L : Fmt.Lib) (E : Env) (p : Param) (debug : Bool) (d : Disk) (o : Outcome) : Prop :=
  ∃ lines, List.Forall₂ (Prints L p debug) (runEv E p d) lines ∧ Run E p { d with stdout := d.stdout ++ lines.flatten } o

end Verif.Xt
