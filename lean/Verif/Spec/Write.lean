import Verif.Model.Write
/-!
# Specification vocabulary for saving to a writer

Of the model only the types of writers and outcomes are used.
-/
namespace Verif.Write
open Verif

/-- What the documentation of `io.Writer` demands, for a writer that keeps what it takes: it takes a beginning of what it is given and
tells how long that is, with an error if it is not everything. -/
def Contract {S E : Type} (w : Writer S E) (content : S → Str) : Prop :=
  ∀ s p o s', w s p o s' → ∃ taken rest e, p = taken ++ rest ∧ o = .done taken.length e ∧ content s' = content s ++ taken ∧
    (rest ≠ [] → e ≠ none)

/-- The destination got the whole text. -/
def GotAll {S : Type} (content : S → Str) (text : Str) (s s' : S) : Prop := content s' = content s ++ text

/-- The destination got a beginning of the text. -/
def GotPart {S : Type} (content : S → Str) (text : Str) (s s' : S) : Prop := ∃ a, a <+: text ∧ content s' = content s ++ a

end Verif.Write
