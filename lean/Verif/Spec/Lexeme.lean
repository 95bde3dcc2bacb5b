import Verif.Model.Plural
/-!
# Tokens of plural expressions as the grammar file describes them

plurals/plural.g4 lists the literal tokens in the rules of expressions (lines 12-27) and defines
`INT: [0-9]+` and `WS: [ \t]+` (lines 28-29).  Texts are lists of Unicode code points.  Tokens are
numbered in the order in which they appear in the file.
-/
namespace Verif.Antlr
open Verif

/-- The literal tokens in the order of their first appearance in plurals/plural.g4:12-27. -/
def literals : List Str := [b!"++", b!"--", b!"+", b!"-", b!"~", b!"!", b!"*", b!"/", b!"%", b!">>", b!"<<", b!">", b!"<",
  b!">=", b!"<=", b!"==", b!"!=", b!"&", b!"^", b!"|", b!"&&", b!"||", b!"?", b!":", b!"(", b!")", b!"n"]

/-- The text is a token of this type. -/
def Lexeme (type : Nat) (w : List Nat) : Prop :=
  (∃ s, literals[type - 1]? = some s ∧ 0 < type ∧ w = s.map UInt8.toNat) ∨
  (type = 28 ∧ w ≠ [] ∧ ∀ c ∈ w, 48 ≤ c ∧ c ≤ 57) ∨
  (type = 29 ∧ w ≠ [] ∧ ∀ c ∈ w, c = 32 ∨ c = 9)

/-- The text is the longest token at the beginning of the input. -/
def Longest (type : Nat) (w inp : List Nat) : Prop :=
  Lexeme type w ∧ w <+: inp ∧ ∀ type' w', Lexeme type' w' → w' <+: inp → w'.length ≤ w.length

/-- A piece of the input: a token, or something that is not the beginning of a token. -/
inductive Item where
  | tok (type : Nat) (text : List Nat)
  | bad
  deriving DecidableEq, Repr

/-- How the input is cut into tokens: always the longest, without spaces.  Nothing is said about what
follows the first error. -/
inductive Scans : List Nat → List Item → Prop where
  | nil : Scans [] []
  | tok {type : Nat} {w r : List Nat} {items : List Item} :
      Longest type w (w ++ r) → type ≠ 29 → Scans r items → Scans (w ++ r) (.tok type w :: items)
  | skip {w r : List Nat} {items : List Item} : Longest 29 w (w ++ r) → Scans r items → Scans (w ++ r) items
  | bad {inp : List Nat} {items : List Item} :
      inp ≠ [] → (∀ type w, Lexeme type w → ¬ w <+: inp) → Scans inp (.bad :: items)

end Verif.Antlr
