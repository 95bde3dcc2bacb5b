import Verif.Model.Po
/-!
# What breaking a text costs (translator/wrap.go)

The calls of `split0` that are nested and the pieces that its `append` copies.
-/
namespace Verif.Tr
open Verif

/-- `split0` (translator/wrap.go:15-35): the number of nested calls, this one included, and the number of pieces appended to slices. -/
def split0Cost (long : Str) (threshold : Int) (depth : Nat) : Nat × Nat :=
  let byBlank : Nat × Nat :=
    if (long.length : Int) ≤ threshold then (1, 0)
    else match GoStr.lastIndexByte 32 long with
      | some i =>
        if _hi : i + 1 < long.length then
          let r := split0Cost (long.take (i + 1)) threshold (depth + 1)
          (r.1 + 1, r.2 + 1)
        else (1, 0)
      | none => (1, 0)
  match GoStr.indexByte 10 long with
  | some i =>
    if _hi : i + 1 < long.length then
      let r := split0Cost (long.drop (i + 1)) threshold (depth + 1)
      (r.1 + 1, r.2 + (split0 (long.drop (i + 1)) threshold (depth + 1)).length)
    else byBlank
  | none => byBlank
  termination_by long.length
  decreasing_by
    all_goals simp only [List.length_take, List.length_drop]
    all_goals omega

/-- `split` (translator/wrap.go:10-12). -/
def splitCost (long : Str) (threshold : Int) : Nat × Nat := split0Cost long threshold 0

end Verif.Tr
