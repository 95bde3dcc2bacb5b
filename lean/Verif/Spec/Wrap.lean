import Verif.Model.GoStr
/-!
# Where the texts of a saved file are broken
-/
namespace Verif.Tr
open Verif

/-- The line is longer than allowed and has a blank with something behind it, none of it a blank: it is broken there. -/
def BrokenAt (limit : Int) (line a b : Str) : Prop :=
  limit < line.length ∧ line = a ++ 32 :: b ∧ 32 ∉ b ∧ b ≠ []

/-- The pieces of the last line: two or one. -/
inductive LastLine (limit : Int) (line : Str) : List Str → Prop
  | broken (a b : Str) (h : BrokenAt limit line a b) : LastLine limit line [a ++ [32], b]
  | whole (h : ∀ a b, ¬ BrokenAt limit line a b) : LastLine limit line [line]

/-- The pieces of a text: an empty one if it has more than one line, then its lines with their line ends, of which the last may be broken. -/
def Wrapped (limit : Int) (text : Str) (ps : List Str) : Prop :=
  ∃ ls last tail, text = (ls.map (· ++ [10])).flatten ++ last ∧ (∀ l ∈ ls, 10 ∉ l) ∧ (∀ a b, last = a ++ 10 :: b → b = []) ∧ (ls ≠ [] → last ≠ []) ∧
    LastLine limit last tail ∧ ps = (if ls = [] then [] else [[]]) ++ (ls.map (· ++ [10]) ++ tail)

end Verif.Tr
