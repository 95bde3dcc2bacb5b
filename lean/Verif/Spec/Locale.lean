import Verif.Model.Locale
/-! # Specification vocabulary for names of languages: what the packages promise -/
namespace Verif.Locale
open Verif

/-- `%v` prints a `Stringer` as its `String()`. -/
def Prints (E : Fmt.Env Str) : Prop := ∀ s, E.render {} b!"v" s = s

/-- Codes of base languages are letters: there is no underscore in them. -/
def Letters (p : Pkg) : Prop := ∀ t, 95 ∉ p.base t

/-- The tag made of `ll_CC` has the base language `ll` and the region `CC`. -/
def Faithful (p : Pkg) : Prop := ∀ t, p.base (p.make (p.base t ++ b!"_" ++ p.region t)) = p.base t ∧
  p.region (p.make (p.base t ++ b!"_" ++ p.region t)) = p.region t

/-- The two names are of the same language in the same region, whatever else they say. -/
def SameLanguage (p : Pkg) (a b : Str) : Prop :=
  p.base (p.make a) = p.base (p.make b) ∧ p.region (p.make a) = p.region (p.make b)

end Verif.Locale
