import Verif.Model.Xtemplate
import Mathlib.Data.List.Forall2
/-!
# Which messages a template asks for

Call sites of a template: a name in a command that is followed by string literals, where a literal
piped into a command counts as its last argument.
-/
namespace Verif.Xt
open Verif

/-- The argument is a string literal, possibly in parentheses. -/
inductive Lit : Arg → Str → Prop
  | str (t : Str) : Lit (.str t) t
  | paren {a : Arg} {t : Str} : Lit a t → Lit (.pipe [[a]]) t

/-- The argument calls a function or method of this name. -/
inductive Calls : Arg → Str → Prop
  | ident (n : Str) : Calls (.ident n) n
  | field (ids : List Str) (n : Str) : Calls (.field (ids ++ [n])) n
  | var (ids : List Str) (n : Str) : Calls (.var (ids ++ [n])) n
  | chain (a : Arg) (ids : List Str) (n : Str) : Calls (.chain a (ids ++ [n])) n

/-- A pipeline occurs in a pipeline: it is the pipeline itself or occurs in one that is an argument of
a command of it. -/
inductive InPipe (q : Pipe) : Pipe → Prop
  | self : InPipe q q
  | arg {p r : Pipe} {cmd : Cmd} : cmd ∈ p → Arg.pipe r ∈ cmd → InPipe q r → InPipe q p

/-- A node contains a pipeline, on a line. -/
inductive PipeAt (line : Nat) (p : Pipe) : Stmt → Prop
  | list {ns : List Stmt} {n : Stmt} : n ∈ ns → PipeAt line p n → PipeAt line p (.list ns)
  | action : PipeAt line p (.action line p)
  | template : PipeAt line p (.template line p)
  | ifCond (body els : List Stmt) : PipeAt line p (.ifN line p body els)
  | ifBody {l : Nat} {q : Pipe} {body els : List Stmt} {n : Stmt} :
      n ∈ body ∨ n ∈ els → PipeAt line p n → PipeAt line p (.ifN l q body els)
  | rangeCond (body els : List Stmt) : PipeAt line p (.rangeN line p body els)
  | rangeBody {l : Nat} {q : Pipe} {body els : List Stmt} {n : Stmt} :
      n ∈ body ∨ n ∈ els → PipeAt line p n → PipeAt line p (.rangeN l q body els)
  | withCond (body els : List Stmt) : PipeAt line p (.withN line p body els)
  | withBody {l : Nat} {q : Pipe} {body els : List Stmt} {n : Stmt} :
      n ∈ body ∨ n ∈ els → PipeAt line p n → PipeAt line p (.withN l q body els)

/-- A command of the pipeline is called with these arguments (the name first): its own ones and the
literal piped into it, if the command before is one. -/
inductive Receives (p : Pipe) : List Arg → Prop
  | alone (pre post : Pipe) (args : Cmd) : p = pre ++ args :: post →
      (∀ pre' a t, pre = pre' ++ [[a]] → ¬ Lit a t) → Receives p args
  | piped (pre post : Pipe) (a : Arg) (t : Str) (args : Cmd) : p = pre ++ [a] :: args :: post →
      Lit a t → Receives p (args ++ [a])

/-- `k` is a position the keyword declares: that of the message, or a positive one of the context or
of the plural. -/
def Declared (kw : Keyword) (k : Int) : Prop :=
  k = kw.msgID ∨ k = kw.msgCtxt ∧ 0 < kw.msgCtxt ∨ k = kw.msgID2 ∧ 0 < kw.msgID2

/-- The text at the position, counted from 1. -/
def At (texts : List Str) (k : Int) (t : Str) : Prop :=
  ∃ pre post : List Str, texts = pre ++ t :: post ∧ k = pre.length + 1

/-- The entry for a call of the keyword with the arguments `after` the name, at the place `ref`: the
declared positions are 1, ..., n without gaps, the first n arguments are literals, the texts are those
at the declared positions. -/
structure EntryFor (kw : Keyword) (ref : Str) (after : List Arg) (e : Tr.Entry) : Prop where
  literals : ∃ (lits rest : List Arg) (texts : List Str), after = lits ++ rest ∧
    List.Forall₂ Lit lits texts ∧ (∀ k, Declared kw k ↔ 1 ≤ k ∧ k ≤ texts.length) ∧
    At texts kw.msgID e.id ∧
    (if 0 < kw.msgCtxt then At texts kw.msgCtxt e.ctxt else e.ctxt = []) ∧
    (if 0 < kw.msgID2 then At texts kw.msgID2 e.id2 else e.id2 = [])
  plural : e.isPlural = true ↔ 0 < kw.msgID2
  comments : e.cmts = [b!"#: " ++ ref] ++ if 37 ∈ e.id ∨ 37 ∈ e.id2 then [b!"#, go-format"] else []
  untranslated : e.str = [] ∧ e.strN = []

/-- The pipeline asks for this entry: one of its pipelines has a command that calls a keyword. -/
def PipeEntry (kws : List Keyword) (ref : Str) (p : Pipe) (e : Tr.Entry) : Prop :=
  ∃ q, InPipe q p ∧ ∃ args, Receives q args ∧ ∃ before f after name, args = before ++ f :: after ∧
    Calls f name ∧ ∃ kw ∈ kws, kw.name = name ∧ EntryFor kw ref after e

/-- The template with this root asks for this entry. -/
def TemplateEntry (kws : List Keyword) (filename : Str) (root : List Stmt) (e : Tr.Entry) : Prop :=
  ∃ line p n, n ∈ root ∧ PipeAt line p n ∧
    PipeEntry kws (filename ++ b!":" ++ Num.natDigits line) p e

/-! ## Counting: every call site once -/

mutual
/-- The pipelines in parentheses in an argument. -/
def parens : Arg → List Pipe
  | .pipe cmds => cmds :: parensCmds cmds
  | _ => []
/-- The pipelines in parentheses in a list of arguments. -/
def parensArgs : List Arg → List Pipe
  | [] => []
  | a :: as => parens a ++ parensArgs as
/-- The pipelines in parentheses in a list of commands. -/
def parensCmds : List Cmd → List Pipe
  | [] => []
  | c :: cs => parensArgs c ++ parensCmds cs
end

/-- A pipeline and those in parentheses in it. -/
def subPipes (p : Pipe) : List Pipe := p :: parensCmds p

mutual
/-- The pipelines of a node, with their lines. -/
def pipesOf : Stmt → List (Nat × Pipe)
  | .list ns => pipesOfAll ns
  | .action l p => [(l, p)]
  | .ifN l p body els => (l, p) :: pipesOfAll body ++ pipesOfAll els
  | .rangeN l p body els => (l, p) :: pipesOfAll body ++ pipesOfAll els
  | .withN l p body els => (l, p) :: pipesOfAll body ++ pipesOfAll els
  | .template l p => [(l, p)]
  | .other => []
/-- The pipelines of a list of nodes. -/
def pipesOfAll : List Stmt → List (Nat × Pipe)
  | [] => []
  | n :: ns => pipesOf n ++ pipesOfAll ns
end

open Classical in
/-- The arguments each command of a pipeline is called with, `prev` being the command before. -/
noncomputable def received (prev : Option Cmd) : Pipe → List (List Arg)
  | [] => []
  | c :: cs =>
    (if h : ∃ a, prev = some [a] ∧ ∃ t, Lit a t then c ++ [h.choose] else c) :: received (some c) cs

open Classical in
/-- The entry for the argument at position `i` as a call of the keyword, if there is one. -/
noncomputable def entryAt (ref : Str) (args : List Arg) (i : Nat) (kw : Keyword) : Option Tr.Entry :=
  if h : ∃ e, ∃ f, args[i]? = some f ∧ Calls f kw.name ∧ EntryFor kw ref (args.drop (i + 1)) e then
    some h.choose else none

/-- The entries for the calls in a command. -/
noncomputable def entriesOf (kws : List Keyword) (ref : Str) (args : List Arg) : List Tr.Entry :=
  (List.range args.length).flatMap fun i => kws.filterMap (entryAt ref args i)

/-- The entries of a template: every call site once. -/
noncomputable def allEntries (kws : List Keyword) (filename : Str) (root : List Stmt) : List Tr.Entry :=
  (pipesOfAll root).flatMap fun lp => (subPipes lp.2).flatMap fun q => (received none q).flatMap
    (entriesOf kws (filename ++ b!":" ++ Num.natDigits lp.1))

end Verif.Xt
