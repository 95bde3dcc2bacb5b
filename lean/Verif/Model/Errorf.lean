import Verif.Model.Errors
import Verif.Model.Fmt
/-!
# How `fmt.Errorf` finds the errors to wrap (errors/errors.go:8-19)

`fmt.Errorf` runs the directive loop of Model/Fmt.lean and notes the number of every argument printed
with the verb `w`.  The numbers are obtained here by running the loop on arguments paired with their
numbers.  Messages are not modelled.
-/
namespace Verif.Errors
open Verif

variable {α : Type}

/-- The formatter for arguments paired with their numbers.  For errors/errors.go:8-19 (`fmt.Errorf`). -/
def numbered (E : Fmt.Env α) : Fmt.Env (α × Nat) where
  render o v a := E.render o v a.1
  asInt a := E.asInt a.1
  empty := (E.empty, 0)
  extra l := E.extra (l.map (·.1))

/-- The number of the argument if it is printed with the verb `w`.  For errors/errors.go:8-19 (`fmt.Errorf`). -/
def wrapIndex : Fmt.Piece (α × Nat) → Option Nat
  | .arg _ verb a => if verb = b!"w" then some a.2 else none
  | _ => none

/-- `p.wrappedErrs` and `p.reordered` after `doPrintf`.  For errors/errors.go:8-19 (`fmt.Errorf`). -/
def wrappedErrs (E : Fmt.Env α) (format : Str) (args : List α) : List Nat × Bool :=
  let r := Fmt.pieces (numbered E) format args.zipIdx
  (r.1.filterMap wrapIndex, r.2.reordered)

/-- Leave out numbers equal to the one before.  For errors/errors.go:8-19 (`fmt.Errorf`). -/
def skipEqual : List Nat → List Nat
  | [] => []
  | [i] => [i]
  | i :: j :: l => if i = j then skipEqual (j :: l) else i :: skipEqual (j :: l)

/-- `fmt.Errorf` (and `Errorf`, errors/errors.go:8-10); `asErr` is the type assertion to `error`. -/
def fmtErrorf (E : Fmt.Env α) (asErr : α → Option Err) (format : Str) (args : List α) : Err :=
  let (ws, reordered) := wrappedErrs E format args
  let err := fun i => args[i]?.bind asErr
  match ws with
  | [] => .node fresh []
  | [i] => .node fresh (err i).toList
  | ws => .node fresh ((skipEqual (if reordered then ws.mergeSort else ws)).filterMap err)

/-- `Wrapf` (errors/errors.go:12-15); `err` is an argument, which may be nil. -/
def wrapfArgs (E : Fmt.Env α) (asErr : α → Option Err) (err : α) (format : Str) (args : List α) : Err :=
  fmtErrorf E asErr (format ++ b!": %w") (args ++ [err])

/-- `WithSecondaryError` (errors/errors.go:17-19). -/
def withSecondaryArgs (E : Fmt.Env α) (asErr : α → Option Err) (err additionalErr : α) : Err :=
  fmtErrorf E asErr b!"%w: %w" [err, additionalErr]

end Verif.Errors
