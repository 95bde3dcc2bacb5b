import Verif.Model.Conc
import Verif.Spec.World
/-!
# Specification vocabulary for data races of lookups

The Go memory model calls two accesses of different goroutines to one variable a race if one of them
writes and nothing orders them.  Lookups synchronize on nothing, so a race is a state in which two
goroutines are each about to access the same variable and one is about to write it.  The variables
written after loading are the two lazy fields of a `File`.
-/
namespace Verif.Conc
open Verif
variable {α : Type}

/-- The fields of a `File` that are assigned lazily (translator/file.go:24-25). -/
inductive Var where
  | headers
  | plural
  deriving DecidableEq

/-- The next access of a goroutine to a lazy field, and whether it writes. -/
def Pc.access : Pc α → Option (Var × Bool)
  | .start _ => none
  | .hCheck _ => some (.headers, false)
  | .hWrite _ _ => some (.headers, true)
  | .hRead _ => some (.headers, false)
  | .pCheck _ _ _ _ _ => some (.plural, false)
  | .pWrite _ _ _ _ _ _ => some (.plural, true)
  | .pRead _ _ _ _ _ => some (.plural, false)
  | .done _ => none

/-- Two goroutines are about to access the same field, one of them to write it. -/
def Race (s : Sys α) : Prop :=
  ∃ (i j : Nat) (a b : Call α × Pc α) (v : Var) (w : Bool), i ≠ j ∧ s.threads[i]? = some a ∧ s.threads[j]? = some b ∧
    a.2.access = some (v, true) ∧ b.2.access = some (v, w)

/-- The file has an entry that is looked up by the plural rule. -/
def HasPlural (f : Tr.File) : Prop :=
  ∃ ctxt id e, f.entries.get? (Tr.key ctxt id) = some e ∧ ¬ (e.id2 = [] ∧ e.strN = [])

end Verif.Conc
