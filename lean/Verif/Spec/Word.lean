import Verif.Model.GoStr
/-!
# Specification vocabulary: numbers of `w` bits
-/
namespace Verif.Word

/-- `r` is what a variable of `w` bits (with a sign) holds of `v`: a number of its range, at a distance of a multiple of `2 ^ w`. -/
def Holds (w : Nat) (v r : Int) : Prop := -(2 : Int) ^ (w - 1) ≤ r ∧ r < 2 ^ (w - 1) ∧ ∃ k, v = r + k * 2 ^ w

/-- `v` is in the range of `w` bits with a sign. -/
def Small (w : Nat) (v : Int) : Prop := -(2 : Int) ^ (w - 1) ≤ v ∧ v < 2 ^ (w - 1)

end Verif.Word
