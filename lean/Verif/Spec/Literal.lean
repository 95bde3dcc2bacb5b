import Verif.Model.GoStr
/-!
# Quoted strings of the Go language

An independent description of the texts that `strconv.Unquote` turns into a string, and of the string:
the interpreted string literals, the character literals and the raw string literals of the Go
specification, as far as bytes that are no UTF-8 are concerned with the replacement character in their
place.  Characters and their UTF-8 form are those of Lean's library.
-/
namespace Verif.Literal
open Verif

/-- The UTF-8 form of a character. -/
abbrev utf8 (ch : Char) : Str := String.utf8EncodeChar ch

/-- `c` is a digit for `v` in this base. -/
def IsDigit (base : Nat) (c : UInt8) (v : Nat) : Prop :=
  v < base ∧ (b!"0123456789abcdef"[v]? = some c ∨ b!"0123456789ABCDEF"[v]? = some c)

/-- The digits `ds`, written behind the number `acc`, make the number `v`. -/
inductive Digits (base : Nat) : Nat → Str → Nat → Prop
  | nil (acc : Nat) : Digits base acc [] acc
  | cons {acc c d ds v} : IsDigit base c d → Digits base (acc * base + d) ds v →
      Digits base acc (c :: ds) v

/-- The one-letter escapes and the bytes they stand for. -/
def letters : List (UInt8 × UInt8) :=
  [(97, 7), (98, 8), (102, 12), (110, 10), (114, 13), (116, 9), (118, 11), (92, 92)]

/-- `OneChar q t rest d`: between quotes `q`, the text `t` followed by `rest` stands for the bytes
`d`. -/
inductive OneChar (q : UInt8) : Str → Str → Str → Prop
  /-- a character other than newline, backslash and the quote stands for itself -/
  | char (ch : Char) (rest : Str) : ch.toNat ≠ 10 → ch.toNat ≠ 92 → ch.toNat ≠ q.toNat →
      OneChar q (utf8 ch) rest (utf8 ch)
  /-- a byte with which no character begins is replaced -/
  | bad (b : UInt8) (rest : Str) : 0x80 ≤ b → (∀ ch u, b :: rest ≠ utf8 ch ++ u) →
      OneChar q [b] rest (utf8 '\uFFFD')
  | letter (c v : UInt8) (rest : Str) : (c, v) ∈ letters → OneChar q [92, c] rest [v]
  | quote (rest : Str) : OneChar q [92, q] rest [q]
  | octal (ds : Str) (v : Nat) (rest : Str) : ds.length = 3 → Digits 8 0 ds v → v ≤ 255 →
      OneChar q (92 :: ds) rest [UInt8.ofNat v]
  | hex (ds : Str) (v : Nat) (rest : Str) : ds.length = 2 → Digits 16 0 ds v →
      OneChar q (92 :: 120 :: ds) rest [UInt8.ofNat v]
  | short (ds : Str) (ch : Char) (rest : Str) : ds.length = 4 → Digits 16 0 ds ch.toNat →
      OneChar q (92 :: 117 :: ds) rest (utf8 ch)
  | long (ds : Str) (ch : Char) (rest : Str) : ds.length = 8 → Digits 16 0 ds ch.toNat →
      OneChar q (92 :: 85 :: ds) rest (utf8 ch)

/-- The text between double quotes stands for these bytes. -/
inductive Body : Str → Str → Prop
  | nil : Body [] []
  | cons {t s d e} : OneChar 34 t s d → Body s e → Body (t ++ s) (d ++ e)

/-- The text is a quoted string for these bytes. -/
inductive Literal : Str → Str → Prop
  | interpreted {t d} : Body t d → Literal (34 :: t ++ [34]) d
  | character {t d} : OneChar 39 t [] d → Literal (39 :: t ++ [39]) d
  /-- no Go literal, but accepted -/
  | noCharacter : Literal [39, 39] []
  | raw {t} : 96 ∉ t → Literal (96 :: t ++ [96]) (t.filter (· ≠ 13))

end Verif.Literal
