import Verif.Model.TmplLex
import Verif.Model.Quote
import Verif.Model.Xtemplate
/-!
# The parser of `text/template/parse`

The parser behind `Parse(src)` (cmd/xtemplate/internal/run.go:105-108), from the published source of Go 1.23
(text/template/parse/parse.go; the Go standard library is not part of /repo).  The result is the syntax tree
as far as the extractor looks at it (`Xt.Stmt`, see `Model/Xtemplate.lean`): the text of the text nodes, the
declared variables of a pipeline and the values of numbers are dropped.  Simplified:

* `none` is any error; messages are dropped;
* the token buffer (`next`, `peek`, `backup`, ...) is a list of items;
* the acceptance of a number by `newNumber` is a parameter (`num`);
* the functions take a number that bounds the depth of calls (`parse` gives enough for any text, C75).
-/
namespace Verif.Tmpl
open Verif Verif.Xt

/-- `nextNonSpace` and `peekNonSpace`: the spaces before are gone.  For cmd/xtemplate/internal/run.go:105-108 (`Parse`). -/
def skip : List Item → List Item
  | ⟨.space, _⟩ :: is => skip is
  | is => is

/-- What a pipeline belongs to.  For cmd/xtemplate/internal/run.go:105-108 (`Parse`). -/
inductive Place where
  | command | ifP | rangeP | withP | templateP | blockP | paren
  deriving DecidableEq

/-- The item that ends a pipeline.  For cmd/xtemplate/internal/run.go:105-108 (`Parse`). -/
def Place.ends (p : Place) (t : Tok) : Bool :=
  match p with
  | .paren => t = .rparen
  | _ => t = .right

/-- The items a command begins with (`pipeline`).  For cmd/xtemplate/internal/run.go:105-108 (`Parse`). -/
def starts : Tok → Bool
  | .bool | .rune _ | .complex _ | .dot | .field _ | .ident _ _ | .num _ | .nil | .raw _ | .str _ | .var _ | .lparen => true
  | _ => false

/-- The declaration of one variable at the beginning of `pipeline`, or none; `second` if there is one before
it.  The items left, the variables known, and whether there is another declaration.  For cmd/xtemplate/internal/run.go:105-108 (`Parse`). -/
def decl (p : Place) (second : Bool) (is : List Item) (vars : List Str) : Option (List Item × List Str × Bool) :=
  match skip is with
  | ⟨.var v, vl⟩ :: r =>
    match skip r with
    | ⟨.assign, _⟩ :: r' => some (r', vars ++ [v], false)
    | ⟨.declare, _⟩ :: r' => some (r', vars ++ [v], false)
    | ⟨.char 44, _⟩ :: r' =>
      if p = .rangeP ∧ second = false then
        match skip r' with
        | ⟨.var _, _⟩ :: _ | ⟨.right, _⟩ :: _ | ⟨.rparen, _⟩ :: _ => some (r', vars ++ [v], true)
        | _ => none
      else none
    | n =>
      match r with
      | ⟨.space, sl⟩ :: _ => some (⟨.var v, vl⟩ :: ⟨.space, sl⟩ :: n, vars, false)
      | _ => some (⟨.var v, vl⟩ :: n, vars, false)
  | is => some (is, vars, false)

/-- The declarations at the beginning of `pipeline`: the items left and the variables known.
For cmd/xtemplate/internal/run.go:105-108 (`Parse`). -/
def decls (p : Place) (is : List Item) (vars : List Str) : Option (List Item × List Str) :=
  match decl p false is vars with
  | none => none
  | some (is, vars, false) => some (is, vars)
  | some (is, vars, true) => (decl p true is vars).map fun r => (r.1, r.2.1)

/-- `checkPipeline`.  For cmd/xtemplate/internal/run.go:105-108 (`Parse`). -/
def checkPipe (p : Pipe) : Bool :=
  match p with
  | [] => false
  | _ :: cs => cs.all fun c =>
    match c with
    | .str _ :: _ | .other :: _ => false
    | _ => true

/-- `strings.Split(s, ".")` for the identifiers of a variable or field.  For cmd/xtemplate/internal/run.go:105-108 (`Parse`). -/
def dotted (s : Str) : List Str := GoStr.splitByte 46 s

/-- The fields that follow a term (`operand`).  For cmd/xtemplate/internal/run.go:105-108 (`Parse`). -/
def fieldRun : List Item → List Str × List Item
  | ⟨.field f, _⟩ :: is => let (fs, r) := fieldRun is; (f :: fs, r)
  | is => ([], is)

/-- The node for a term followed by fields (`operand`).  For cmd/xtemplate/internal/run.go:105-108 (`Parse`). -/
def chained (node : Arg) (fields : List Str) : Option Arg :=
  match fields with
  | [] => some node
  | _ =>
    match node with
    | .field ids => some (.field (dotted ((46 :: GoStr.join [46] ids) ++ fields.flatten).tail))
    | .var ids => some (.var (dotted (GoStr.join [46] ids ++ fields.flatten)))
    | .str _ => none
    | .other => none
    | n => some (.chain n (fields.map List.tail))

/-- What the parser depends on: `newNumber`.  For cmd/xtemplate/internal/run.go:105-108 (`Parse`). -/
structure PCfg where
  num : Tok → Bool

mutual
/-- `pipeline`: the commands, the items left, the variables.  For cmd/xtemplate/internal/run.go:105-108 (`Parse`). -/
def PCfg.pipeline (P : PCfg) : Nat → Place → List Item → List Str → Option (Pipe × List Item × List Str)
  | 0, _, _, _ => none
  | n + 1, p, is, vars =>
    match decls p is vars with
    | none => none
    | some (is, vars) =>
      match P.cmds n p is vars with
      | none => none
      | some (cs, is, vars) => if checkPipe cs then some (cs, is, vars) else none
/-- The loop of `pipeline`.  For cmd/xtemplate/internal/run.go:105-108 (`Parse`). -/
def PCfg.cmds (P : PCfg) : Nat → Place → List Item → List Str → Option (Pipe × List Item × List Str)
  | 0, _, _, _ => none
  | n + 1, p, is, vars =>
    match skip is with
    | [] => none
    | i :: r =>
      if p.ends i.tok then some ([], r, vars)
      else if starts i.tok then
        match P.command n (i :: r) vars with
        | none => none
        | some ([], _, _) => none
        | some (c, is, vars) =>
          match P.cmds n p is vars with
          | none => none
          | some (cs, is, vars) => some (c :: cs, is, vars)
      else none
/-- `command`, without the check that there is an argument.  For cmd/xtemplate/internal/run.go:105-108 (`Parse`). -/
def PCfg.command (P : PCfg) : Nat → List Item → List Str → Option (Cmd × List Item × List Str)
  | 0, _, _ => none
  | n + 1, is, vars =>
    match P.operand n (skip is) vars with
    | none => none
    | some (a, is, vars) =>
      match is with
      | ⟨.space, _⟩ :: r =>
        match P.command n r vars with
        | none => none
        | some (as, is, vars) => some (a.toList ++ as, is, vars)
      | ⟨.right, _⟩ :: _ => some (a.toList, is, vars)
      | ⟨.rparen, _⟩ :: _ => some (a.toList, is, vars)
      | ⟨.pipe, _⟩ :: r => some (a.toList, r, vars)
      | _ => none
/-- `operand`: the first component is `none` if there is no operand.  For cmd/xtemplate/internal/run.go:105-108 (`Parse`). -/
def PCfg.operand (P : PCfg) : Nat → List Item → List Str → Option (Option Arg × List Item × List Str)
  | 0, _, _ => none
  | n + 1, is, vars =>
    match P.term n is vars with
    | none => none
    | some (none, is, vars) => some (none, is, vars)
    | some (some node, is, vars) =>
      let (fields, r) := fieldRun is
      (chained node fields).map fun a => (some a, r, vars)
/-- `term`.  For cmd/xtemplate/internal/run.go:105-108 (`Parse`). -/
def PCfg.term (P : PCfg) : Nat → List Item → List Str → Option (Option Arg × List Item × List Str)
  | 0, _, _ => none
  | n + 1, is, vars =>
    match skip is with
    | [] => none
    | i :: r =>
      match i.tok with
      | .ident name known => if known then some (some (.ident name), r, vars) else none
      | .dot => some (some .other, r, vars)
      | .nil => some (some .other, r, vars)
      | .var v => if vars.contains v then some (some (.var (dotted v)), r, vars) else none
      | .field f => some (some (.field (dotted f.tail)), r, vars)
      | .bool => some (some .other, r, vars)
      | .rune s => if P.num (.rune s) then some (some .other, r, vars) else none
      | .complex s => if P.num (.complex s) then some (some .other, r, vars) else none
      | .num s => if P.num (.num s) then some (some .other, r, vars) else none
      | .lparen =>
        match P.pipeline n .paren r vars with
        | none => none
        | some (cs, r, vars) => some (some (.pipe cs), r, vars)
      | .str s => (Quote.unquote s).map fun t => (some (.str t), r, vars)
      | .raw s => (Quote.unquote s).map fun t => (some (.str t), r, vars)
      | _ => some (none, i :: r, vars)
end

/-- A template: its nodes and whether they are all spaces (`IsEmptyTree`).  For cmd/xtemplate/internal/run.go:105-108 (`Parse`). -/
abbrev Root := List (Stmt × Bool)

/-- `IsEmptyTree` of a list.  For cmd/xtemplate/internal/run.go:105-108 (`Parse`). -/
def Root.empty (r : Root) : Bool := r.all (·.2)

/-- `add` (parse.go): the templates by name; `none` if there is one already. -/
def addTree (trees : GMap Root) (name : Str) (root : Root) : Option (GMap Root) :=
  match trees.get? name with
  | none => some (trees.set name root)
  | some old => if old.empty then some (trees.set name root) else if root.empty then some trees else none

/-- The name of a template (`parseTemplateName`, `parseDefinition`).  For cmd/xtemplate/internal/run.go:105-108 (`Parse`). -/
def tmplName (i : Item) : Option Str :=
  match i.tok with
  | .str s => Quote.unquote s
  | .raw s => Quote.unquote s
  | _ => none

/-- What changes during a parse: the items left, the variables, the templates found.
For cmd/xtemplate/internal/run.go:105-108 (`Parse`). -/
structure PS where
  is : List Item
  vars : List Str
  trees : GMap Root

/-- The result of `textOrAction`.  For cmd/xtemplate/internal/run.go:105-108 (`Parse`). -/
inductive Node where
  | stmt (s : Stmt) (empty : Bool)
  | fin
  | els

/-- `expect(itemRightDelim)`.  For cmd/xtemplate/internal/run.go:105-108 (`Parse`). -/
def expectRight (is : List Item) : Option (List Item) :=
  match skip is with
  | ⟨.right, _⟩ :: r => some r
  | _ => none

/-- The line of the next item that is not a space.  For cmd/xtemplate/internal/run.go:105-108 (`Parse`). -/
def lineOf (is : List Item) : Nat :=
  match skip is with
  | i :: _ => i.line
  | [] => 0

/-- The kinds of control structures.  For cmd/xtemplate/internal/run.go:105-108 (`Parse`). -/
inductive Ctl where
  | ifC | rangeC | withC
  deriving DecidableEq

/-- The context of the pipeline of a control structure.  For cmd/xtemplate/internal/run.go:105-108 (`Parse`). -/
def Ctl.place : Ctl → Place
  | .ifC => .ifP
  | .rangeC => .rangeP
  | .withC => .withP

/-- `newIf`, `newRange`, `newWith`.  For cmd/xtemplate/internal/run.go:105-108 (`Parse`). -/
def Ctl.stmt (c : Ctl) (line : Nat) (pipe : Pipe) (body els : Root) : Stmt :=
  match c with
  | .ifC => .ifN line pipe (body.map (·.1)) (els.map (·.1))
  | .rangeC => .rangeN line pipe (body.map (·.1)) (els.map (·.1))
  | .withC => .withN line pipe (body.map (·.1)) (els.map (·.1))

/-- The keyword after `else` that continues a control structure.  For cmd/xtemplate/internal/run.go:105-108 (`Parse`). -/
def Ctl.again (c : Ctl) (is : List Item) : Option (List Item) :=
  match c, is with
  | .ifC, ⟨.kw .ifK, _⟩ :: r => some r
  | .withC, ⟨.kw .withK, _⟩ :: r => some r
  | _, _ => none

mutual
/-- `itemList`: the nodes and whether an `else` ended them; the number `d` of loops around it.
For cmd/xtemplate/internal/run.go:105-108 (`Parse`). -/
def PCfg.itemList (P : PCfg) : Nat → Nat → PS → Option (Root × Bool × PS)
  | 0, _, _ => none
  | n + 1, d, s =>
    match skip s.is with
    | [] => none
    | i :: r =>
      if i.tok = .eof then none
      else
        match P.textOrAction n d { s with is := i :: r } with
        | none => none
        | some (.fin, s) => some ([], false, s)
        | some (.els, s) => some ([], true, s)
        | some (.stmt x e, s) =>
          match P.itemList n d s with
          | none => none
          | some (xs, b, s) => some ((x, e) :: xs, b, s)
/-- `textOrAction`.  For cmd/xtemplate/internal/run.go:105-108 (`Parse`). -/
def PCfg.textOrAction (P : PCfg) : Nat → Nat → PS → Option (Node × PS)
  | 0, _, _ => none
  | n + 1, d, s =>
    match skip s.is with
    | [] => none
    | i :: r =>
      match i.tok with
      | .text t => some (.stmt .other (GoStr.trimSpace t = []), { s with is := r })
      | .left => P.action n d { s with is := r }
      | _ => none
/-- `action`, after the left delimiter.  For cmd/xtemplate/internal/run.go:105-108 (`Parse`). -/
def PCfg.action (P : PCfg) : Nat → Nat → PS → Option (Node × PS)
  | 0, _, _ => none
  | n + 1, d, s =>
    match skip s.is with
    | [] => none
    | i :: r =>
      match i.tok with
      | .kw .block =>
        match skip r with
        | [] => none
        | j :: r =>
          match tmplName j with
          | none => none
          | some name =>
            match P.pipeline n .blockP r s.vars with
            | none => none
            | some (pipe, r, vars) =>
              match P.itemList n 0 { is := r, vars := [[36]], trees := s.trees } with
              | none => none
              | some (root, els, s') =>
                if els then none
                else (addTree s'.trees name root).map fun trees =>
                  (.stmt (.template j.line pipe) false, { is := s'.is, vars, trees })
      | .kw .brk => if d = 0 then none else (expectRight r).map fun r => (.stmt .other false, { s with is := r })
      | .kw .cont => if d = 0 then none else (expectRight r).map fun r => (.stmt .other false, { s with is := r })
      | .kw .els =>
        match skip r with
        | ⟨.kw .ifK, l⟩ :: r' => some (.els, { s with is := ⟨.kw .ifK, l⟩ :: r' })
        | ⟨.kw .withK, l⟩ :: r' => some (.els, { s with is := ⟨.kw .withK, l⟩ :: r' })
        | _ => (expectRight r).map fun r => (.els, { s with is := r })
      | .kw .fin => (expectRight r).map fun r => (.fin, { s with is := r })
      | .kw .ifK => P.control n .ifC d { s with is := r }
      | .kw .range => P.control n .rangeC d { s with is := r }
      | .kw .withK => P.control n .withC d { s with is := r }
      | .kw .template =>
        match skip r with
        | [] => none
        | j :: r =>
          match tmplName j with
          | none => none
          | some _ =>
            match expectRight r with
            | some r => some (.stmt (.template j.line []) false, { s with is := r })
            | none =>
              match P.pipeline n .templateP r s.vars with
              | none => none
              | some (pipe, r, vars) => some (.stmt (.template j.line pipe) false, { s with is := r, vars })
      | _ =>
        match P.pipeline n .command (i :: r) s.vars with
        | none => none
        | some (pipe, r, vars) => some (.stmt (.action i.line pipe) false, { s with is := r, vars })
/-- `parseControl`, after the keyword.  For cmd/xtemplate/internal/run.go:105-108 (`Parse`). -/
def PCfg.control (P : PCfg) : Nat → Ctl → Nat → PS → Option (Node × PS)
  | 0, _, _, _ => none
  | n + 1, c, d, s =>
    match P.pipeline n c.place s.is s.vars with
    | none => none
    | some (pipe, r, vars) =>
      match P.itemList n (if c = .rangeC then d + 1 else d) { s with is := r, vars } with
      | none => none
      | some (body, false, s') =>
        some (.stmt (c.stmt (lineOf s.is) pipe body []) false, { s' with vars := s.vars })
      | some (body, true, s') =>
        match c.again s'.is with
        | some r =>
          match P.control n c d { s' with is := r } with
          | some (.stmt x e, s'') =>
            some (.stmt (c.stmt (lineOf s.is) pipe body [(x, e)]) false, { s'' with vars := s.vars })
          | _ => none
        | none =>
          match P.itemList n d s' with
          | some (els, false, s'') =>
            some (.stmt (c.stmt (lineOf s.is) pipe body els) false, { s'' with vars := s.vars })
          | _ => none
end

/-- `parseDefinition`, after the keyword.  For cmd/xtemplate/internal/run.go:105-108 (`Parse`). -/
def PCfg.definition (P : PCfg) (n : Nat) (is : List Item) (trees : GMap Root) : Option (List Item × GMap Root) :=
  match skip is with
  | [] => none
  | i :: r =>
    match tmplName i with
    | none => none
    | some name =>
      match expectRight r with
      | none => none
      | some r =>
        match P.itemList n 0 { is := r, vars := [[36]], trees } with
        | some (root, false, s) => (addTree s.trees name root).map fun trees => (s.is, trees)
        | _ => none

/-- `Tree.parse` and the `add` after it: the templates by name, the one of the file being named "".
For cmd/xtemplate/internal/run.go:105-108 (`Parse`). -/
def PCfg.top (P : PCfg) : Nat → PS → Root → Option (GMap Root)
  | 0, _, _ => none
  | n + 1, s, root =>
    match s.is with
    | [] => none
    | i :: r =>
      if i.tok = .eof then addTree s.trees [] root
      else
        match i.tok, skip r with
        | .left, ⟨.kw .define, _⟩ :: r' =>
          match P.definition n r' s.trees with
          | none => none
          | some (is, trees) => P.top n { s with is, trees } root
        | _, _ =>
          match P.textOrAction n 0 s with
          | some (.stmt x e, s) => P.top n s (root ++ [(x, e)])
          | _ => none

/-- `parse.Parse` and `Templates`: the roots of the templates of a text, in some order.
For cmd/xtemplate/internal/run.go:105-108 (`Parse`). -/
def parse (num : Tok → Bool) (C : Cfg) (src : Str) : Option (List (List Stmt)) :=
  let is := C.items src
  (PCfg.top ⟨num⟩ (16 * is.length + 16) { is, vars := [[36]], trees := [] } []).map fun trees =>
    trees.map fun t => t.2.map (·.1)

end Verif.Tmpl
