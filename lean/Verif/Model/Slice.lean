import Verif.Model.File
import Verif.Model.Errorf
/-!
# Variadic arguments as slices

A call `f(xs...)` of a Go function with variadic parameter passes the slice `xs` itself, so `append` to
that parameter can write to the caller's array.  The functions that append are `f.Format`
(f/format.go:19) and `errors.Wrapf` (errors/errors.go:13); here they and the lookups that call them are
modelled with an explicit memory of arrays.
-/
namespace Verif.Slice
open Verif

variable {α : Type}

/-- Arrays by address.  For f/format.go:12-22. -/
abbrev Mem (α : Type) := List (List α)

/-- A slice: the address of its array, where it begins, its length and its capacity.  A nil slice has
capacity 0.  For f/format.go:12-22. -/
structure Slice where
  arr : Nat
  off : Nat
  len : Nat
  cap : Nat

/-- The elements of a slice.  For f/format.go:12-22. -/
def contents (mem : Mem α) (s : Slice) : List α := ((mem[s.arr]?.getD []).drop s.off).take s.len

/-- Go's `append` of one element: in place if there is capacity, otherwise to a copy in a new array,
whose spare elements are `spare`.  For f/format.go:12-22. -/
def append (mem : Mem α) (s : Slice) (x : α) (spare : List α) : Mem α × Slice :=
  if s.len < s.cap then
    (mem.modify s.arr fun a => a.set (s.off + s.len) x, { s with len := s.len + 1 })
  else
    (mem ++ [contents mem s ++ x :: spare],
      { arr := mem.length, off := 0, len := s.len + 1, cap := s.len + 1 + spare.length })

/-- `f.Format` (f/format.go:12-23). -/
def format (E : Fmt.Env α) (f : Str) (mem : Mem α) (args : Slice) (spare : List α) : Str × Mem α :=
  if args.len = 0 then (f, mem)
  else
    let r := append mem args E.empty spare
    (Fmt.sprintf E (f ++ b!"%[" ++ Num.natDigits (args.len + 1) ++ b!"]s") (contents r.1 r.2), r.1)

/-- `f.DefaultPlural` (f/format.go:27-35). -/
def defaultPlural (E : Fmt.Env α) (id id2 : Str) (n : Int64) (mem : Mem α) (args : Slice)
    (spare : List α) : Str × Mem α :=
  if id2 = [] then format E id mem args spare
  else if n ≠ 1 then format E id2 mem args spare
  else format E id mem args spare

/-- `(*File).X` (translator/file.go:35-41). -/
def x (E : Fmt.Env α) (f : Tr.File) (ctxt id : Str) (mem : Mem α) (args : Slice) (spare : List α) :
    Str × Mem α :=
  match f.entries.get? (Tr.key ctxt id) with
  | none => format E id mem args spare
  | some e => if e.str = [] then format E id mem args spare else format E e.str mem args spare

/-- A string returned.  For f/format.go:12-22. -/
def ret (r : Str × Mem α) : Res Str × Mem α := (.ok r.1, r.2)

/-- The choice of a form (translator/file.go:56-65). -/
def chooseForm (E : Fmt.Env α) (dg : Plural.Diag) (p : Tr.Plural) (e : Tr.Entry) (id id2 : Str)
    (n : Int64) (mem : Mem α) (args : Slice) (spare : List α) : Res Str × Mem α :=
  if p.totalForms ≤ 0 then ret (defaultPlural E id id2 n mem args spare)
  else
    match p.fn dg n with
    | .panic => (.panic, mem)
    | .err => (.err, mem)
    | .ok index =>
      if index < 0 ∨ index ≥ p.totalForms ∨ index > e.strN.length then
        ret (defaultPlural E id id2 n mem args spare)
      else
        match Tr.strAt e.strN index with
        | .panic => (.panic, mem)
        | .err => (.err, mem)
        | .ok s =>
          if s = [] then ret (defaultPlural E id id2 n mem args spare)
          else ret (format E s mem args spare)

/-- `(*File).XN64` (translator/file.go:44-66). -/
def xn (E : Fmt.Env α) (dg : Plural.Diag) (f : Tr.File) (ctxt id id2 : Str) (n : Int64) (mem : Mem α)
    (args : Slice) (spare : List α) : Res Str × Mem α :=
  match f.entries.get? (Tr.key ctxt id) with
  | none => ret (defaultPlural E id id2 n mem args spare)
  | some e =>
    if e.id2 = [] ∧ e.strN.length = 0 then
      ret (if e.str ≠ [] then format E e.str mem args spare else format E id mem args spare)
    else
      chooseForm E dg (f.initPlural.plural.getD { totalForms := 0, expr := none }) e id id2 n mem args spare

/-- `Wrapf` (errors/errors.go:12-15). -/
def wrapf (E : Fmt.Env α) (asErr : α → Option Errors.Err) (err : α) (f : Str) (mem : Mem α) (args : Slice)
    (spare : List α) : Errors.Err × Mem α :=
  let r := append mem args err spare
  (Errors.fmtErrorf E asErr (f ++ b!": %w") (contents r.1 r.2), r.1)

end Verif.Slice
