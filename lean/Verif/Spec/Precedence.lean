import Verif.Spec.Lexeme
/-!
# Precedences of plural expressions as the grammar file describes them

The rule `exp` of plurals/plural.g4:10-26 has sixteen alternatives.  Earlier ones bind tighter.
-/
namespace Verif.Antlr
open Verif

/-- The alternatives of `exp` (plurals/plural.g4:11-26), each with the operators that follow an operand. -/
def alternatives : List (List Str) := [[], [b!"++", b!"--"], [], [], [b!"*", b!"/", b!"%"], [b!"+", b!"-"],
  [b!">>", b!"<<"], [b!">", b!"<"], [b!">=", b!"<="], [b!"==", b!"!="], [b!"&"], [b!"^"], [b!"|"], [b!"&&"], [b!"||"],
  [b!"?"]]

/-- The alternative (counted from 0) that goes on with a token of this type after an operand. -/
def goesOn (type : Nat) : Option Nat :=
  if type = 0 then none
  else (literals[type - 1]?).bind fun s => alternatives.findIdx? (s ∈ ·)

/-- The precedence of an alternative: the last one has the lowest, 1. -/
def levelAt (i : Nat) : Nat := 16 - i

/-- An expression of precedence at least `p` goes on with the next token, `none` at the end of the text. -/
def Continues (p : Nat) (t : Option Nat) : Prop := ∃ type i, t = some type ∧ goesOn type = some i ∧ p ≤ levelAt i

instance (p : Nat) (t : Option Nat) : Decidable (Continues p t) :=
  decidable_of_iff (∃ i ∈ t.bind goesOn, p ≤ levelAt i) (by
    constructor
    · rintro ⟨i, hi, h⟩
      cases t with
      | none => cases hi
      | some type => exact ⟨type, i, rfl, hi, h⟩
    · rintro ⟨type, i, rfl, hi, h⟩
      exact ⟨i, hi, h⟩)

end Verif.Antlr
