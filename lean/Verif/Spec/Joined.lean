import Verif.Spec.Po
/-!
# Joining PO texts

When one PO text can be written behind another.
-/
namespace Verif.Tr
open Verif

/-- The last entry of the text is finished: its last field is a translation. -/
def Finished (c : Str) : Prop :=
  ∃ gs g, Parse (meaningfulLines c) gs g ∧ (lastField g = some .str ∨ lastField g = some .form)

/-- The text begins with a comment, a context or an id. -/
def Begins (c : Str) : Prop :=
  ∀ l, (meaningfulLines c).head? = some l → b!"#" <+: l ∨ b!"msgctxt " <+: l ∨ b!"msgid " <+: l

/-- The text has a translated entry with an empty id. -/
def Headed (c : Str) : Prop := ∃ es e, PoText c es ∧ e ∈ es ∧ Translated e ∧ e.id = []

/-- The text has a translated entry under this key. -/
def Defines (c : Str) (ctxt id : Str) : Prop :=
  ∃ es e, PoText c es ∧ e ∈ es ∧ Translated e ∧ e.ctxt ++ [4] ++ e.id = ctxt ++ [4] ++ id

end Verif.Tr
