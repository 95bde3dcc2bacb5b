import Verif.Model.Keyword
import Verif.Model.Po
/-!
# Extraction of messages from templates (cmd/xtemplate/internal/run.go, param.go, helper.go)

The syntax tree is that of package text/template/parse, restricted to what the code looks at.
Simplified: a nil list is an empty list and a nil pipeline is a pipeline without commands (the code
does nothing for either); nil commands and nil nodes, which the parser never produces, are not
represented; variable declarations of a pipeline, which the code does not look at, are left out.
The only effect of the traversal is the sequence of entries given to `Add`; it is modelled as the list
of these entries.  Debug output is modelled in `Model/Debug.lean`, warnings in `Model/Stderr.lean`.
-/
namespace Verif.Xt
open Verif

/-- An argument of a command: `StringNode`, `PipeNode` (a list of commands, each a list of
arguments), `IdentifierNode`, `FieldNode`, `VariableNode`, `ChainNode` and the other kinds.
For cmd/xtemplate/internal/run.go:132-245 (package text/template/parse). -/
inductive Arg where
  | str (text : Str)
  | pipe (cmds : List (List Arg))
  | ident (name : Str)
  | field (ids : List Str)
  | var (ids : List Str)
  | chain (node : Arg) (fields : List Str)
  | other

/-- `CommandNode`: its arguments.  For cmd/xtemplate/internal/run.go:132-245 (package text/template/parse). -/
abbrev Cmd := List Arg

/-- `PipeNode`: its commands.  For cmd/xtemplate/internal/run.go:132-245 (package text/template/parse). -/
abbrev Pipe := List Cmd

/-- A node of a template: `ListNode`, `ActionNode`, `IfNode`, `RangeNode`, `WithNode`, `TemplateNode`
and the other kinds.  For cmd/xtemplate/internal/run.go:132-245 (package text/template/parse). -/
inductive Stmt where
  | list (ns : List Stmt)
  | action (line : Nat) (pipe : Pipe)
  | ifN (line : Nat) (pipe : Pipe) (body els : List Stmt)
  | rangeN (line : Nat) (pipe : Pipe) (body els : List Stmt)
  | withN (line : Nat) (pipe : Pipe) (body els : List Stmt)
  | template (line : Nat) (pipe : Pipe)
  | other

/-- `stringLiteral` (run.go:297-316). -/
def stringLiteral : Arg → Option Str
  | .str text => some text
  | .pipe [[a]] => stringLiteral a
  | _ => none

/-- `pipedStringArg` (run.go:234-246), given the previous command. -/
def pipedStringArg (prev : Option Cmd) : Option Arg :=
  match prev with
  | some [a] => if (stringLiteral a).isSome then some a else none
  | _ => none

/-- `isGoFormat` (helper.go:20-22). -/
def isGoFormat (e : Tr.Entry) : Bool := e.id.contains 37 || e.id2.contains 37

/-- `m[k]` in the map of the arguments after the name, numbered from 1 (run.go:266,275). -/
def posArg (m : List Str) (k : Int) : Option Str :=
  if 1 ≤ k then m[(k - 1).toNat]? else none

/-- `extract` (run.go:319-353). -/
def extract (line : Str) (kw : Keyword) (m : List Str) : Option Tr.Entry :=
  match (if kw.msgCtxt > 0 then posArg m kw.msgCtxt else some []) with
  | none => none
  | some ctxt =>
    match posArg m kw.msgID with
    | none => none
    | some id =>
      match (if kw.msgID2 > 0 then posArg m kw.msgID2 else some []) with
      | none => none
      | some id2 =>
        let e : Tr.Entry :=
          { cmts := [b!"#: " ++ line], ctxt := ctxt, id := id, id2 := id2, isPlural := kw.msgID2 > 0 }
        some (if isGoFormat e then { e with cmts := e.cmts ++ [b!"#, go-format"] } else e)

/-- `argCount` (run.go:253-259). -/
def argCount (kw : Keyword) : Nat :=
  1 + (if kw.msgCtxt > 0 ∧ kw.msgCtxt ≠ kw.msgID then 1 else 0)
    + (if kw.msgID2 > 0 ∧ kw.msgID2 ≠ kw.msgID ∧ kw.msgID2 ≠ kw.msgCtxt then 1 else 0)

/-- The loop over the arguments after the name (run.go:265-276). -/
def literals : List Arg → Option (List Str)
  | [] => some []
  | a :: as =>
    match stringLiteral a with
    | none => none
    | some t =>
      match literals as with
      | none => none
      | some ts => some (t :: ts)

/-- One keyword of the loop of `filter` (run.go:252-290). -/
def filterOne (line name : Str) (nameIndex : Nat) (args : List Arg) (kw : Keyword) : Option Tr.Entry :=
  if kw.name = name then
    if argCount kw + nameIndex ≥ args.length then none
    else match literals ((args.drop (nameIndex + 1)).take (argCount kw)) with
      | none => none
      | some m => extract line kw m
  else none

/-- `filter` (run.go:249-293): the entries given to `Add`. -/
def filter (kws : List Keyword) (line name : Str) (nameIndex : Nat) (args : List Arg) : List Tr.Entry :=
  kws.filterMap (filterOne line name nameIndex args)

/-- `fmt.Sprintf("%v:%d", filename, line)` (run.go:207). -/
def refText (filename : Str) (line : Nat) : Str := filename ++ b!":" ++ Num.natDigits line

theorem sizeOf_snoc (l : List Arg) (a : Arg) : sizeOf (l ++ [a]) = sizeOf l + 1 + sizeOf a := by
  induction l with
  | nil => simp; omega
  | cons b l ih => simp only [List.cons_append, List.cons.sizeOf_spec, ih]; omega

mutual
/-- The switch on one argument (run.go:203-226). -/
def resolveArg (kws : List Keyword) (line : Str) (args : List Arg) (i : Nat) : Arg → List Tr.Entry
  | .pipe cmds => resolveCmds kws line none cmds
  | .ident name => filter kws line name i args
  | .field ids =>
    match ids.getLast? with
    | none => []
    | some name => filter kws line name i args
  | .var ids =>
    match ids.getLast? with
    | none => []
    | some name => filter kws line name i args
  | .chain _ fields =>
    match fields.getLast? with
    | none => []
    | some name => filter kws line name i args
  | .str _ => []
  | .other => []
  termination_by a => sizeOf a
/-- The loop over the arguments of a command (run.go:200-227). -/
def resolveArgs (kws : List Keyword) (line : Str) (args : List Arg) (i : Nat) : List Arg → List Tr.Entry
  | [] => []
  | a :: as => resolveArg kws line args i a ++ resolveArgs kws line args (i + 1) as
  termination_by l => sizeOf l
/-- `resolveCmds` (run.go:189-229), `prev` being the command before. -/
def resolveCmds (kws : List Keyword) (line : Str) (prev : Option Cmd) : List Cmd → List Tr.Entry
  | [] => []
  | args :: rest =>
    match _h : pipedStringArg prev with
    | some a =>
      resolveArgs kws line (args ++ [a]) 0 (args ++ [a]) ++ resolveCmds kws line (some args) rest
    | none => resolveArgs kws line args 0 args ++ resolveCmds kws line (some args) rest
  termination_by cmds => (match prev with | none => 0 | some c => sizeOf c) + sizeOf cmds
  decreasing_by
    · have hp : ∃ b, prev = some [b] ∧ b = a := by
        unfold pipedStringArg at _h
        split at _h
        · split at _h
          · exact ⟨_, rfl, by simpa using _h⟩
          · simp at _h
        · simp at _h
      obtain ⟨b, rfl, rfl⟩ := hp
      have := sizeOf_snoc args b
      simp at this ⊢
      omega
    · simp; omega
    · simp; omega
    · simp; omega
end

/-- `resolvePipe` (run.go:179-186). -/
def resolvePipe (kws : List Keyword) (filename : Str) (line : Nat) (pipe : Pipe) : List Tr.Entry :=
  resolveCmds kws (refText filename line) none pipe

mutual
/-- `resolveNode` (run.go:132-176). -/
def resolveNode (kws : List Keyword) (filename : Str) : Stmt → List Tr.Entry
  | .list ns => resolveNodes kws filename ns
  | .action line pipe => resolvePipe kws filename line pipe
  | .ifN line pipe body els =>
    resolvePipe kws filename line pipe ++ resolveNodes kws filename body ++ resolveNodes kws filename els
  | .rangeN line pipe body els =>
    resolvePipe kws filename line pipe ++ resolveNodes kws filename body ++ resolveNodes kws filename els
  | .withN line pipe body els =>
    resolvePipe kws filename line pipe ++ resolveNodes kws filename body ++ resolveNodes kws filename els
  | .template line pipe => resolvePipe kws filename line pipe
  | .other => []
/-- The loop over the children of a list (run.go:141-143). -/
def resolveNodes (kws : List Keyword) (filename : Str) : List Stmt → List Tr.Entry
  | [] => []
  | n :: ns => resolveNode kws filename n ++ resolveNodes kws filename ns
end

/-- The loop over the templates of a file (run.go:113-115) with `resolveTmpl` (run.go:120-127): the
root of a template is a list; a template without a tree is an empty list.  The order of the templates
is that of a map. -/
def resolveTemplates (kws : List Keyword) (filename : Str) (roots : List (List Stmt)) : List Tr.Entry :=
  roots.flatMap (resolveNodes kws filename)

end Verif.Xt
