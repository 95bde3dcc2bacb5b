import Verif.Spec.Po
import Verif.Spec.Trim
/-!
# The encoding of PO texts

Byte order marks, and texts in which no byte is written as a number.
-/
namespace Verif.Tr
open Verif

/-- The byte order marks of UTF-8, UTF-16 (big and little endian; the latter begins also the one of UTF-32) and big endian UTF-32. -/
def byteOrderMarks : List Str := [[0xEF, 0xBB, 0xBF], [0xFE, 0xFF], [0xFF, 0xFE], [0, 0, 0xFE, 0xFF]]

/-- Nothing of a PO text begins with this byte: no comment, no quoted string, no keyword, no white space. -/
def Foreign (c : UInt8) : Prop := c ≠ 35 ∧ c ≠ 34 ∧ c ≠ 109 ∧ ∀ w ∈ GoStr.whiteSpace, w.head? ≠ some c

/-- The line has no back quote, and no byte is written as an octal or a hexadecimal number in it. -/
def Textual (line : Str) : Prop :=
  96 ∉ line ∧ ∀ d : UInt8, d = 120 ∨ (48 ≤ d ∧ d ≤ 55) → ¬ [92, d] <:+: line

/-- The texts of an entry other than its comments. -/
def Entry.strings (e : Entry) : List Str := [e.ctxt, e.id, e.id2, e.str] ++ e.strN

/-- ASCII characters that stand for themselves in a quoted string. -/
def Simple (t : Str) : Prop := ∀ c ∈ t, 32 ≤ c ∧ c < 127 ∧ c ≠ 34 ∧ c ≠ 92

end Verif.Tr
