import Verif.Spec.Joined
import Verif.Spec.File
/-!
# Remarks in PO texts

Lines that begin with `#`: comments, and the obsolete messages (`#~`) and previous ids (`#|`) of GNU gettext.
-/
namespace Verif.Tr
open Verif

/-- All lines of the text that are not blank begin with `#`. -/
def Remarks (r : Str) : Prop := ∀ l ∈ meaningfulLines r, b!"#" <+: l

/-- The lines of obsolete messages. -/
def Obsolete (r : Str) : Prop := ∀ l ∈ meaningfulLines r, b!"#~" <+: l

/-- The files answer every sequence of lookups alike. -/
def Alike (f g : File) : Prop :=
  ∀ (α : Type) (E : Fmt.Env α) (dg : Plural.Diag) (qs : List (Call α)), (∀ q ∈ qs, q.isLookup = true) → ∀ q : Call α, q.isLookup = true →
    (q.exec E dg (execAll E dg f qs)).1 = (q.exec E dg (execAll E dg g qs)).1

/-- The text consists of these entries, and its last line that is no comment belongs to the id of the last one. -/
def EndsInId (c : Str) (es : List Entry) : Prop :=
  ∃ gs g, Parse (meaningfulLines c) gs g ∧ lastField g = some .id ∧ es = (gs ++ [g]).map entryOf

/-- The entry without its comments. -/
def plainly (e : Entry) : Entry := { e with cmts := [] }

end Verif.Tr
