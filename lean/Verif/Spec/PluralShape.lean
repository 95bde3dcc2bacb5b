import Verif.Spec.CSem
/-!
# Plural expressions of the usual shape

Conditions that can be checked by looking at an expression, whatever the number.
-/
namespace Verif.Plural

/-- A literal other than zero, perhaps in parentheses. -/
def divisor : Exp → Bool
  | .int ds => (litVal ds).any (· != 0)
  | .paren e => divisor e
  | _ => false

/-- An expression that has a value for every number: literals are below 2^63, divisors are literals other than zero, and nothing is shifted. -/
def safe : Exp → Bool
  | .n => true
  | .int ds => (litVal ds).isSome
  | .paren e => safe e
  | .post _ e => safe e
  | .pre _ e => safe e
  | .bin o l r => safe l && safe r && o != .shl && o != .shr && (!(o == .div || o == .mod) || divisor r)
  | .tern c a b => safe c && safe a && safe b

/-- An expression that chooses between literals below `N`, or is a truth value where `N` is at least 2. -/
def below (N : Nat) : Exp → Bool
  | .int ds => (litVal ds).any fun v => decide (v.toInt < (N : Int))
  | .paren e => below N e
  | .tern c a b => safe c && below N a && below N b
  | .pre o e => o == .lnot && safe e && decide (2 ≤ N)
  | .bin o l r => isBool (.bin o l r) && safe (.bin o l r) && decide (2 ≤ N)
  | _ => false

end Verif.Plural
