import Verif.Model.GoStr
/-!
# Error values (errors/errors.go)

An error is a node with an identity (its address), and the errors it unwraps to.  Messages are not
modelled.  All errors made by a call of `Errorf`, `Wrapf` or `WithSecondaryError` carry the same
identity `fresh`; the code never compares against such an error, only against package variables.
How `fmt.Errorf` finds the errors to wrap is modelled in Model/Errorf.lean.
-/
namespace Verif.Errors

/-- An error value.  For errors/errors.go:8-23. -/
inductive Err where
  | node (id : Nat) (causes : List Err)

/-- Identities: `io.EOF`, `errInvalidEntry` (translator/po.go:75), `errEmptyPo` (translator/po.go:15),
`strconv.ErrSyntax`, `errReadMo` (translator/mo.go:74) and every other error. -/
def eof : Nat := 0
/-- See `eof`. -/
def invalidEntry : Nat := 1
/-- See `eof`. -/
def syntaxErr : Nat := 3
/-- See `eof`. -/
def readMo : Nat := 4
/-- See `eof`. -/
def fresh : Nat := 100

mutual
/-- `errors.Is(err, target)` (errors/errors.go:21-23) for a comparable target without an `Is` method:
the error or something it unwraps to is the target. -/
def is (target : Nat) : Err → Bool
  | .node id causes => id == target || isAny target causes
/-- Some error of the list is the target.  For errors/errors.go:8-23. -/
def isAny (target : Nat) : List Err → Bool
  | [] => false
  | e :: es => is target e || isAny target es
end

/-- A package variable.  For translator/po.go:15, 75, mo.go:74 and plurals/err.go:11. -/
def sentinel (id : Nat) : Err := .node id []

/-- `Errorf` without `%w` (errors/errors.go:8-10). -/
def errorf : Err := .node fresh []

/-- `Wrapf` (errors/errors.go:12-15) with a format that consumes its arguments. -/
def wrapf (e : Err) : Err := .node fresh [e]

/-- `WithSecondaryError` (errors/errors.go:17-19). -/
def withSecondary (a b : Err) : Err := .node fresh [a, b]

end Verif.Errors
