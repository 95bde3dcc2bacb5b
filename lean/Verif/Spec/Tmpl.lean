import Verif.Model.TmplRun
import Verif.Spec.Run
/-!
# Specification vocabulary for the text of templates
-/
namespace Verif.Tmpl
open Verif Verif.Xt

/-- The letters and digits below 128 are those of ASCII. -/
def AsciiClasses (E : Env) : Prop :=
  (∀ r, r < 128 → (E.letter r = true ↔ 65 ≤ r ∧ r ≤ 90 ∨ 97 ≤ r ∧ r ≤ 122)) ∧
  (∀ r, r < 128 → (E.digit r = true ↔ 48 ≤ r ∧ r ≤ 57))

/-- The delimiter does not end with an ASCII letter, digit or underscore. -/
def PlainEnd (left : Str) : Prop := ∀ a x, left = a ++ [x] → ¬ (LetterByte x ∨ DigitByte x)

/-- The scanner of text/template finds this name of a function in the text, whichever are registered. -/
def NameIn (E : Env) (p : Param) (src w : Str) : Prop :=
  ∃ registered, ∃ i ∈ (mkCfg p.left p.right registered E.letter E.digit).items src, ∃ k, i.tok = .ident w k

/-- Are `break` and `continue` registered as functions just as by the run? -/
def SameLoops (kws : List Keyword) (p : Param) (registered : Str → Bool) : Prop :=
  (registered b!"break" = true ↔ Given kws p b!"break") ∧ (registered b!"continue" = true ↔ Given kws p b!"continue")

/-- The functions that every template has (documentation of text/template). -/
inductive Builtin : Str → Prop
  | and : Builtin b!"and" | or : Builtin b!"or" | not : Builtin b!"not" | len : Builtin b!"len" | index : Builtin b!"index"
  | slice : Builtin b!"slice" | call : Builtin b!"call" | print : Builtin b!"print" | printf : Builtin b!"printf"
  | println : Builtin b!"println" | html : Builtin b!"html" | js : Builtin b!"js" | urlquery : Builtin b!"urlquery"
  | eq : Builtin b!"eq" | ne : Builtin b!"ne" | lt : Builtin b!"lt" | le : Builtin b!"le" | gt : Builtin b!"gt" | ge : Builtin b!"ge"

end Verif.Tmpl
