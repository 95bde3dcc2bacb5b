import Verif.Spec.Plural
import Verif.Spec.Debug
import Verif.Model.PluralError
/-!
# Specification vocabulary for the errors of an evaluation

Of the model only the types, the lexer and the table of precedences are used.
-/
namespace Verif.Plural
open Verif

/-- Why a well-formed expression has no value. -/
inductive Cause where
  | divide
  | shift
  | tooBig (digits : Str)

/-- What is said about it. -/
def Cause.text : Cause → Str
  | .divide => b!"runtime error: integer divide by zero"
  | .shift => b!"runtime error: negative shift amount"
  | .tooBig digits => b!"assert error: not a number: " ++ digits

/-- The first thing that goes wrong when the expression is evaluated from the left, operands before operators. -/
inductive Fails (n : Int64) : Exp → Cause → Prop
  | literal {ds} : 2 ^ 63 ≤ ds.foldl (fun a c => a * 10 + (c.toNat - 48)) 0 → Fails n (.int ds) (.tooBig ds)
  | paren {e c} : Fails n e c → Fails n (.paren e) c
  | post {o e c} : Fails n e c → Fails n (.post o e) c
  | pre {o e c} : Fails n e c → Fails n (.pre o e) c
  | left {o l r c} : Fails n l c → Fails n (.bin o l r) c
  | right {o l r x c} : den n l = some x → Fails n r c → Fails n (.bin o l r) c
  | div {l r x} : den n l = some x → den n r = some 0 → Fails n (.bin .div l r) .divide
  | mod {l r x} : den n l = some x → den n r = some 0 → Fails n (.bin .mod l r) .divide
  | shr {l r x y} : den n l = some x → den n r = some y → y < 0 → Fails n (.bin .shr l r) .shift
  | shl {l r x y} : den n l = some x → den n r = some y → y < 0 → Fails n (.bin .shl l r) .shift
  | cond {a b d c} : Fails n a c → Fails n (.tern a b d) c
  | yes {a b d x c} : den n a = some x → Fails n b c → Fails n (.tern a b d) c
  | no {a b d x y c} : den n a = some x → den n b = some y → Fails n d c → Fails n (.tern a b d) c

/-- The text does not begin with an expression. -/
def Malformed (exp : Str) : Prop := ¬ ∃ t r, lex exp = toks t ++ r ∧ Wf goTable 0 t ∧ Ends r

/-- ANTLR reports something exactly if the text is malformed. -/
def Reported (exp : Str) (reports : List Report) : Prop := reports ≠ [] ↔ Malformed exp

/-- What is said about a report. -/
def Report.says : Report → Str
  | .syntaxError line column msg => b!"SyntaxError(line " ++ Xt.inDigits line ++ b!":" ++ Xt.inDigits column ++ b!"): " ++ msg
  | .ambiguity => b!"ReportAmbiguity"
  | .fullContext => b!"ReportAttemptingFullContext"
  | .sensitivity => b!"ReportContextSensitivity"

/-- Its numbers are `int`s. -/
def Report.small : Report → Prop
  | .syntaxError line column _ => line < 2 ^ 63 ∧ column < 2 ^ 63
  | _ => True

end Verif.Plural
