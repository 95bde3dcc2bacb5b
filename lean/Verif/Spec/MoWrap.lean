import Verif.Spec.Mo
/-!
# Where the strings of a saved MO file are, whatever its size

MO files have 32-bit numbers.  What is written of a larger number is its remainder.
-/
namespace Verif.Tr
open Verif

/-- The numbers an MO file can state are below this one. -/
def moLimit : Nat := 2 ^ 32

/-- Where `SaveAsMo` writes the original string of the `i`-th of these entries: behind 75 fixed bytes, two tables of eight bytes for each entry, and
the original strings before it, each with a NUL. -/
def origAt (es : List Entry) (i : Nat) : Nat := 75 + 16 * es.length + ((es.take i).map fun e => (origOf e).length + 1).sum

/-- Where `SaveAsMo` writes the translated string of the `i`-th of these entries: behind all original strings and the translated ones before it. -/
def transAt (es : List Entry) (i : Nat) : Nat := origAt es es.length + ((es.take i).map fun e => (transOf e).length + 1).sum

/-- The string found in `c` by 32 bits of its position and its length. -/
def found (c : Str) (pos len : Nat) : Str := (c.drop (pos % moLimit)).take (len % moLimit)

end Verif.Tr
