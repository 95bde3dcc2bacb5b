import Verif.Spec.Lexeme
/-!
# Specification vocabulary for positions of syntax errors

Texts are lists of Unicode code points.
-/
namespace Verif.Antlr
open Verif

/-- The line behind a text, counted from one: lines end with a line feed. -/
def lineOf (before : List Nat) : Nat := 1 + before.count 10

/-- The column behind a text: the number of characters of its last line. -/
def columnOf (before : List Nat) : Nat := (before.reverse.takeWhile (· ≠ 10)).length

/-- The line and the column are those of a place in the text, or of its end. -/
def InText (text : List Nat) (x : Nat × Nat) : Prop := ∃ before, before <+: text ∧ x = (lineOf before, columnOf before)

end Verif.Antlr
