import Verif.Model.Plural
/-!
# plurals/exp_test.go
-/
namespace Verif.Tests
open Verif

/-- Every case of a list evaluates to the wanted value. -/
def evals (l : List (Str × Int64 × Int64)) : Prop := ∀ t ∈ l, Plural.eval (fun _ => false) t.1 t.2.1 = .ok t.2.2

instance (l : List (Str × Int64 × Int64)) : Decidable (evals l) := inferInstanceAs (Decidable (∀ _ ∈ _, _))

/-- An expression evaluates to this for all n below 215. -/
def evals215 (exp : Str) (f : Nat → Int) : Prop :=
  ∀ n ∈ List.range 215, Plural.eval (fun _ => false) exp (Int64.ofNat n) = .ok (Int64.ofInt (f n))

instance (e : Str) (f : Nat → Int) : Decidable (evals215 e f) := inferInstanceAs (Decidable (∀ _ ∈ _, _))

/-- `okCase` (plurals/exp_test.go:28-48). -/
example : evals [
    (b!"0", 0, 0),
    (b!"0", 1, 0),
    (b!"0", 2, 0),
    (b!"n != 1", 0, 1),
    (b!"n != 1", 1, 0),
    (b!"n != 1", 2, 1),
    (b!"n > 1", 1, 0),
    (b!"n > 1", 2, 1),
    (b!"n > 1", 0, 0),
    (b!"n==1 ? 0 : n==2 ? 1 : 2", 0, 2),
    (b!"n==1 ? 0 : n==2 ? 1 : 2", 1, 0),
    (b!"n==1 ? 0 : n==2 ? 1 : 2", 2, 1),
    (b!"n==1 ? 0 : n==2 ? 1 : 2", 3, 2)] := by decide +kernel

/-- `myCase` (plurals/exp_test.go:201-238). -/
example : evals [
    (b!"n++", 0, 1),
    (b!"n++", 1, 2),
    (b!"n--", 1, 0),
    (b!"+n", 1, 1),
    (b!"-n", 1, -1),
    (b!"++n", 1, 2),
    (b!"--n", 1, 0),
    (b!"~n", 1, -2),
    (b!"!n", 1, 0),
    (b!"n*1", 1, 1),
    (b!"n/1", 1, 1),
    (b!"n%1", 1, 0),
    (b!"n+1", 0, 1),
    (b!"n-1", 1, 0),
    (b!"n>>1", 1, 0),
    (b!"n<<1", 1, 2),
    (b!"n<1", 1, 0),
    (b!"n>1", 1, 0),
    (b!"n>=1", 1, 1),
    (b!"n<=1", 1, 1),
    (b!"n==1", 1, 1),
    (b!"n!=1", 1, 0),
    (b!"n&1", 1, 1),
    (b!"n|1", 1, 1),
    (b!"n^1", 1, 1),
    (b!"n||1", 0, 1),
    (b!"n&&1", 0, 0),
    (b!"n&&1", 1, 1),
    (b!"n==1?1:0", 1, 1),
    (b!"n==1?1:0", 2, 0),
    (b!"0", 100, 0),
    (b!"n", 100, 100),
    (b!"(n)", 100, 100),
    (b!"!1", 100, 0)] := by decide +kernel

example : evals215 b!"n%10==1 && n%100!=11 ? 0 : n != 0 ? 1 : 2"
    (fun n => if n % 10 = 1 ∧ n % 100 ≠ 11 then 0 else if n ≠ 0 then 1 else 2) := by decide +kernel

example : evals215 b!"n==1 ? 0 : (n==0 || (n%100 > 0 && n%100 < 20)) ? 1 : 2"
    (fun n => if n = 1 then 0 else if n = 0 ∨ (n % 100 > 0 ∧ n % 100 < 20) then 1 else 2) := by decide +kernel

example : evals215 b!"n%10==1 && n%100!=11 ? 0 : n%10>=2 && (n%100<10 || n%100>=20) ? 1 : 2"
    (fun n => if n % 10 = 1 ∧ n % 100 ≠ 11 then 0 else if n % 10 ≥ 2 ∧ (n % 100 < 10 ∨ n % 100 ≥ 20) then 1 else 2) := by decide +kernel

example : evals215 b!"n%10==1 && n%100!=11 ? 0 : n%10>=2 && n%10<=4 && (n%100<10 || n%100>=20) ? 1 : 2"
    (fun n => if n % 10 = 1 ∧ n % 100 ≠ 11 then 0 else if n % 10 ≥ 2 ∧ n % 10 ≤ 4 ∧ (n % 100 < 10 ∨ n % 100 ≥ 20) then 1 else 2) := by decide +kernel

example : evals215 b!"(n==1) ? 0 : (n>=2 && n<=4) ? 1 : 2"
    (fun n => if n = 1 then 0 else if n ≥ 2 ∧ n ≤ 4 then 1 else 2) := by decide +kernel

example : evals215 b!"n==1 ? 0 :  n%10>=2 && n%10<=4 && (n%100<10 || n%100>=20) ? 1 : 2"
    (fun n => if n = 1 then 0 else if n % 10 ≥ 2 ∧ n % 10 ≤ 4 ∧ (n % 100 < 10 ∨ n % 100 ≥ 20) then 1 else 2) := by decide +kernel

example : evals215 b!"n%100==1 ? 0 : n%100==2 ? 1 : n%100==3 || n%100==4 ? 2 : 3"
    (fun n => if n % 100 = 1 then 0 else if n % 100 = 2 then 1 else if n % 100 = 3 ∨ n % 100 = 4 then 2 else 3) := by decide +kernel

example : evals215 b!" n==0 ? 0 : n==1 ? 1 : n==2 ? 2 : n%100>=3 && n%100<=10 ? 3  : n%100>=11 ? 4 : 5"
    (fun n => if n = 0 then 0 else if n = 1 then 1 else if n = 2 then 2 else if n % 100 ≥ 3 ∧ n % 100 ≤ 10 then 3 else if n % 100 ≥ 11 then 4 else 5) := by decide +kernel

/-- `errCase` and `TestEval2` (plurals/exp_test.go:239-244, 268-276). -/
example : Plural.eval (fun _ => false) [] 0 = .err ∧ Plural.eval (fun _ => false) b!"nn" 1 = .ok 1 := by decide +kernel

end Verif.Tests
