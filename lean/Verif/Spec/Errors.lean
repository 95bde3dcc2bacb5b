import Verif.Model.Errors
/-!
# Specification vocabulary for errors
-/
namespace Verif.Errors
open Verif

/-- The target is the error or one of its direct or indirect causes. -/
inductive Cause (target : Nat) : Err → Prop
  | self (causes : List Err) : Cause target (.node target causes)
  | step {id : Nat} {causes : List Err} {c : Err} : c ∈ causes → Cause target c → Cause target (.node id causes)

/-- An ASCII letter. -/
def Letter (c : UInt8) : Prop := (65 ≤ c ∧ c ≤ 90) ∨ (97 ≤ c ∧ c ≤ 122)

/-- A format with plain directives only: `%%`, or `%` and a letter.  The letters are the verbs. -/
inductive Directives : Str → Str → Prop
  | nil : Directives [] []
  | lit {c : UInt8} {s vs : Str} : c ≠ 37 → Directives s vs → Directives (c :: s) vs
  | percent {s vs : Str} : Directives s vs → Directives (37 :: 37 :: s) vs
  | verb {c : UInt8} {s vs : Str} : Letter c → Directives s vs → Directives (37 :: c :: s) (c :: vs)

/-- The arguments of the `w` verbs that are errors. -/
def wErrors {α : Type} (asErr : α → Option Err) : Str → List α → List Err
  | v :: vs, a :: args => (if v = 119 then (asErr a).toList else []) ++ wErrors asErr vs args
  | _, _ => []

end Verif.Errors
