import Verif.Model.GoStr
/-!
# White space around a text

The white space characters of Unicode in UTF-8, and what it means for a text to be another one without
the white space around it.
-/
namespace Verif.GoStr
open Verif

/-- The UTF-8 encodings of the white space characters: tab, line feed, vertical tab, form feed,
carriage return, blank, U+0085, U+00A0, U+1680, U+2000..U+200A, U+2028, U+2029, U+202F, U+205F and
U+3000. -/
def whiteSpace : List Str :=
  [[9], [10], [11], [12], [13], [32], [0xC2, 0x85], [0xC2, 0xA0], [0xE1, 0x9A, 0x80],
   [0xE2, 0x80, 0x80], [0xE2, 0x80, 0x81], [0xE2, 0x80, 0x82], [0xE2, 0x80, 0x83],
   [0xE2, 0x80, 0x84], [0xE2, 0x80, 0x85], [0xE2, 0x80, 0x86], [0xE2, 0x80, 0x87],
   [0xE2, 0x80, 0x88], [0xE2, 0x80, 0x89], [0xE2, 0x80, 0x8A], [0xE2, 0x80, 0xA8],
   [0xE2, 0x80, 0xA9], [0xE2, 0x80, 0xAF], [0xE2, 0x81, 0x9F], [0xE3, 0x80, 0x80]]

/-- A text of white space characters. -/
def White (w : Str) : Prop := ∃ rs : List Str, (∀ r ∈ rs, r ∈ whiteSpace) ∧ w = rs.flatten

/-- `t` is `s` without the white space around it. -/
def Trims (s t : Str) : Prop :=
  ∃ w1 w2, White w1 ∧ White w2 ∧ s = w1 ++ t ++ w2 ∧
    ∀ r ∈ whiteSpace, ¬ r <+: t ∧ ¬ r <:+ t

end Verif.GoStr
