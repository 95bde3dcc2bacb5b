import Verif.Model.Slice
/-!
# Specification vocabulary for slices and memory
-/
namespace Verif.Slice
open Verif

variable {α : Type}

/-- The slice lies inside an array that exists. -/
def Valid (mem : Mem α) (s : Slice) : Prop :=
  s.len ≤ s.cap ∧ ∃ a, mem[s.arr]? = some a ∧ s.off + s.cap ≤ a.length

/-- The element `i` of the array `a`, if both exist. -/
def elem (mem : Mem α) (a i : Nat) : Option α := mem[a]?.bind (·[i]?)

/-- Is `i` in array `a` the element just behind the slice, within its capacity? -/
def Behind (s : Slice) (a i : Nat) : Prop := a = s.arr ∧ i = s.off + s.len ∧ s.len < s.cap

/-- Every array that existed is as before. -/
def Untouched (mem mem' : Mem α) : Prop := ∀ a < mem.length, mem'[a]? = mem[a]?

/-- Every element that existed is as before, except that the one just behind the slice is `v`. -/
def Overwrites (s : Slice) (v : α) (mem mem' : Mem α) : Prop :=
  ∀ a < mem.length, ∀ i, (Behind s a i → elem mem' a i = some v) ∧ (¬ Behind s a i → elem mem' a i = elem mem a i)

end Verif.Slice
