import Verif.Spec.Po
/-!
# The size of a translation file in memory
-/
namespace Verif.Tr
open Verif

/-- The number of bytes of all the texts of an entry. -/
def Entry.size (e : Entry) : Nat :=
  (e.cmts.map List.length).sum + e.ctxt.length + e.id.length + e.id2.length + e.str.length + (e.strN.map List.length).sum

/-- The number of bytes of all the texts of a file. -/
def File.size (f : File) : Nat := (f.entries.map fun p => p.2.size).sum

/-- The text has `n` lines that are not blank. -/
def lineCount (content : Str) : Nat := (meaningfulLines content).length

end Verif.Tr
