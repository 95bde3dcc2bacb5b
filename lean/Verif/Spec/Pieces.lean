import Verif.Spec.Joined
/-!
# PO texts in pieces

A PO text that is put together from pieces, each a PO text of its own.
-/
namespace Verif.Tr
open Verif

/-- A PO text that can stand anywhere among others: it begins with a comment, a context or an id, and its last
entry is finished. -/
def Piece (c : Str) : Prop := Begins c ∧ Finished c

/-- The pieces on lines of their own. -/
def joined (cs : List Str) : Str := List.intercalate [10] cs

/-- No message has a translation in both texts. -/
def Disjoint (a b : Str) : Prop := ∀ ctxt id, ¬ (Defines a ctxt id ∧ Defines b ctxt id)

end Verif.Tr
