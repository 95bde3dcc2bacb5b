import Verif.Model.TmplLex
import Verif.Spec.TmplText
/-!
# Which numbers `text/template` accepts
-/
namespace Verif.Tmpl
open Verif Verif.Xt

/-- `newNumber` accepts at least these numbers and character constants. -/
structure Accepts (num : Tok → Bool) : Prop where
  number : ∀ s, NumberText s → num (.num s) = true
  complex : ∀ s, ComplexText s → num (.complex s) = true
  char : ∀ s, CharText s → num (.rune s) = true

end Verif.Tmpl
