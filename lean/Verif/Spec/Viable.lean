import Verif.Spec.Plural
/-!
# Specification vocabulary for the first syntax error of a plural expression

Only the grammar is used here: how a sequence of tokens can go on.
-/
namespace Verif.Plural

/-- The tokens are an expression. -/
def Complete (ts : List Tok) : Prop := ∃ t, toks t = ts ∧ Wf goTable 0 t

/-- An expression begins with the tokens. -/
def Viable (ts : List Tok) : Prop := ∃ more, Complete (ts ++ more)

/-- What is missing where a sequence of tokens cannot go on. -/
inductive Want where
  | operand
  | colon
  | paren
  deriving DecidableEq

/-- A token of which it is known that it could come next. -/
def Want.tok : Want → Tok
  | .operand => .n
  | .colon => .colon
  | .paren => .rp

/-- The names of the tokens that are wanted. -/
def Want.names : Want → Str
  | .operand => b!"{'++', '--', '+', '-', '~', '!', '(', 'n', INT}"
  | .colon => b!"':'"
  | .paren => b!"')'"

/-- The tokens `pre` are followed by the token `x` (or by the end), this by the token `y` (or by the end): what is said about `x`, which is
written `d`.  If `y` is what is wanted, `x` is too much; if a colon or a parenthesis is wanted and `x` could follow it, that is missing. -/
def Says (pre : List Tok) (x y : Option Tok) (d msg : Str) : Prop := ∃ want : Want,
  (∀ w : Want, Viable (pre ++ [w.tok]) ↔ w = want) ∧
  (let much := ∃ t, y = some t ∧ Viable (pre ++ [t]) ∧ (want ≠ .operand → t = want.tok)
   let lacks := want ≠ .operand ∧ (∀ t, x = some t → Viable (pre ++ [want.tok, t])) ∧ (x = none → Complete (pre ++ [want.tok]))
   (much ∧ msg = b!"extraneous input " ++ d ++ b!" expecting " ++ want.names) ∨
   (¬much ∧ lacks ∧ msg = b!"missing " ++ want.names ++ b!" at " ++ d) ∨
   (¬much ∧ ¬lacks ∧ msg = b!"mismatched input " ++ d ++ b!" expecting " ++ want.names))

end Verif.Plural
