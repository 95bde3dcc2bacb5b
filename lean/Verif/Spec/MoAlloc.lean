import Verif.Spec.Mo
import Verif.Model.MoAlloc
/-!
# Specification vocabulary for the resources `ReadMo` needs

Of the model only the type of events is used.
-/
namespace Verif.Tr
open Verif

/-- The lengths of the buffers asked for. -/
def buffers (evs : List MoEv) : List Nat := evs.filterMap fun
  | .make n => some n
  | .descr => none

/-- How many descriptors were read. -/
def descrs (evs : List MoEv) : Nat := evs.countP (· = .descr)

/-- Every buffer asked for is possible where an `int` is at most `m`; `make` panics otherwise. -/
def Fits (m : Nat) (evs : List MoEv) : Prop := ∀ n ∈ buffers evs, n ≤ m

end Verif.Tr
