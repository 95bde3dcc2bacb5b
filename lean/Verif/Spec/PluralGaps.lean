import Verif.Spec.Plural
import Verif.Spec.PluralError
import Verif.Model.AtnRecover
/-!
# Specification vocabulary for the value of an expression with gaps

A calculator in postfix notation.  Of the model only the type of trees is used.
-/
namespace Verif.Antlr
open Verif

/-- A step of the calculator. -/
inductive Calc where
  | num (x : Int64)
  | big (digits : Str)
  | pre (o : Plural.Pre)
  | post (o : Plural.Post)
  | bin (o : Plural.Op)
  | cond
  deriving DecidableEq

/-- The tree in postfix notation, without a trace of what is missing; `+` in front of an operand is not a step. -/
def Tree.steps (n : Int64) : Tree → List Calc
  | .hole => []
  | .n => [.num n]
  | .int ds =>
    match Plural.litVal ds with
    | some x => [.num x]
    | none => [.big ds]
  | .paren e => e.steps n
  | .post o e => e.steps n ++ [.post o]
  | .pre .plus e => e.steps n
  | .pre o e => e.steps n ++ [.pre o]
  | .bin o l r => l.steps n ++ (r.steps n ++ [.bin o])
  | .tern c a b => c.steps n ++ (a.steps n ++ (b.steps n ++ [.cond]))
  | .cut c a => c.steps n ++ (a.steps n ++ [.cond])

/-- What comes of the steps, beginning with these numbers (the latest first): the numbers that are left, or what goes wrong first.
A number that is not there is 0. -/
inductive Calculates : List Int64 → List Calc → Except Plural.Cause (List Int64) → Prop
  | done {s} : Calculates s [] (.ok s)
  | num {s r out x} : Calculates (x :: s) r out → Calculates s (.num x :: r) out
  | big {s r ds} : Calculates s (.big ds :: r) (.error (.tooBig ds))
  | pre {s r out o} : Calculates (Plural.preVal o (s.getD 0 0) :: s.drop 1) r out → Calculates s (.pre o :: r) out
  | post {s r out o} : Calculates (Plural.postVal o (s.getD 0 0) :: s.drop 1) r out → Calculates s (.post o :: r) out
  | bin {s r out o x} : Plural.opVal o (s.getD 1 0) (s.getD 0 0) = some x → Calculates (x :: s.drop 2) r out → Calculates s (.bin o :: r) out
  | div {s r} : s.getD 0 0 = 0 → Calculates s (.bin .div :: r) (.error .divide)
  | mod {s r} : s.getD 0 0 = 0 → Calculates s (.bin .mod :: r) (.error .divide)
  | shr {s r} : s.getD 0 0 < 0 → Calculates s (.bin .shr :: r) (.error .shift)
  | shl {s r} : s.getD 0 0 < 0 → Calculates s (.bin .shl :: r) (.error .shift)
  | cond {s r out} : Calculates ((if s.getD 2 0 = 1 then s.getD 1 0 else s.getD 0 0) :: s.drop 3) r out → Calculates s (.cond :: r) out

end Verif.Antlr
