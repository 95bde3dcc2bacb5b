import Verif.Model.Read
/-!
# Specification vocabulary for reading a file

Of the model only the types of readers and outcomes are used.
-/
namespace Verif.Read
open Verif

/-- What the documentation of `io.Reader` demands, with `content` what the reader has still to deliver: the beginning of the buffer is the
next piece of it, the count tells how long that is, and the end is reported only when nothing is left. -/
def Contract {S E : Type} (r : Reader S E) (content : S → Str) : Prop :=
  ∀ s k o s', r s k o s' → ∃ piece rest e, o = .done piece.length (piece ++ rest) e ∧ (piece ++ rest).length = k ∧
    content s = piece ++ content s' ∧ (e = some .eof → content s' = [])

/-- A reader that has no errors. -/
def NoErrors {S E : Type} (r : Reader S E) : Prop := ∀ s k n buf e s', r s k (.done n buf (some (.other e))) s' → False

end Verif.Read
