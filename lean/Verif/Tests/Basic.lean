import Verif.Model.Fmt
/-!
# Arguments for the tests

The modules in this directory repeat the repository's own tests on the model.  They prove nothing
beyond the sample; they check that the model says what the code was tested to do.
-/
namespace Verif.Tests
open Verif

/-- Arguments: integers and strings. -/
inductive Any where
  | int (i : Int)
  | str (s : Str)

/-- Decimal digits of an integer. -/
def showInt : Int → Str
  | .ofNat n => Num.natDigits n
  | .negSucc n => b!"-" ++ Num.natDigits (n + 1)

/-- `%d` of integers, `%s` of strings, `%v`, and what package fmt prints for the wrong kind. -/
def anyEnv : Fmt.Env Any where
  render _ verb a :=
    match a with
    | .int i => if verb = b!"d" ∨ verb = b!"v" then showInt i else b!"%!" ++ verb ++ b!"(int=" ++ showInt i ++ b!")"
    | .str s => if verb = b!"s" ∨ verb = b!"v" then s else b!"%!" ++ verb ++ b!"(string=" ++ s ++ b!")"
  asInt a := match a with
    | .int i => some i
    | .str _ => none
  empty := .str []
  extra _ := b!"%!(EXTRA)"

end Verif.Tests
