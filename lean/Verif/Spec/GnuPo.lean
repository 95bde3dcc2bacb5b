import Verif.Spec.Literal
import Verif.Spec.Debug
import Verif.Model.File
/-!
# PO files as GNU gettext reads them

The strings and the grammar of PO files, after the lexer and the grammar of GNU gettext (`po-lex.c`, `po-gram-gen.y`): as in C an octal
escape has one to three digits and a hexadecimal one as many digits as follow, and there are no `\u` and `\U`.  Left out: obsolete
(`#~`) and previous (`#|`) messages, and white space other than that between a keyword and its string.
-/
namespace Verif.GnuPo
open Verif
open Verif.Literal (utf8 IsDigit Digits letters)

/-- The text begins with a digit. -/
def Starts (base : Nat) (s : Str) : Prop := ∃ c t v, s = c :: t ∧ IsDigit base c v

/-- `OneChar t rest d`: between double quotes, the text `t` followed by `rest` stands for the byte `d`. -/
inductive OneChar : Str → Str → UInt8 → Prop
  | byte (c : UInt8) (rest : Str) : c ≠ 34 → c ≠ 92 → c ≠ 10 → OneChar [c] rest c
  | letter (c v : UInt8) (rest : Str) : (c, v) ∈ (34, 34) :: letters → OneChar [92, c] rest v
  | octal (ds : Str) (v : Nat) (rest : Str) : ds ≠ [] → ds.length ≤ 3 → Digits 8 0 ds v → (ds.length < 3 → ¬ Starts 8 rest) →
      OneChar (92 :: ds) rest (UInt8.ofNat v)
  | hex (ds : Str) (v : Nat) (rest : Str) : ds ≠ [] → Digits 16 0 ds v → ¬ Starts 16 rest → OneChar (92 :: 120 :: ds) rest (UInt8.ofNat v)

/-- The text between double quotes stands for these bytes. -/
inductive Body : Str → Str → Prop
  | nil : Body [] []
  | cons {t s d e} : OneChar t s d → Body s e → Body (t ++ s) (d :: e)

/-- What GNU gettext writes between double quotes for these bytes; which of the forms it chooses depends on its options. -/
inductive Written : Str → Str → Prop
  | nil : Written [] []
  | raw {b d} (ch : Char) : ch.toNat ≠ 34 → ch.toNat ≠ 92 → ch.toNat ≠ 10 → Written b d → Written (utf8 ch ++ b) (utf8 ch ++ d)
  | letter {b d} (c v : UInt8) : (c, v) ∈ (34, 34) :: letters → Written b d → Written (92 :: c :: b) (v :: d)
  | octal {b d} (ds : Str) (v : Nat) : ds.length = 3 → Digits 8 0 ds v → v ≤ 255 → Written b d → Written (92 :: ds ++ b) (UInt8.ofNat v :: d)

/-- Well-formed UTF-8. -/
inductive Valid : Str → Prop
  | nil : Valid []
  | cons {t} (ch : Char) : Valid t → Valid (utf8 ch ++ t)

/-- A text that can be exchanged with GNU gettext; `P` tells which characters are printable.  A control character, and a byte that belongs
to no character, must not be followed by what looks like a hexadecimal digit; other characters that are not printable must not occur. -/
inductive Portable (P : Nat → Bool) : Str → Prop
  | nil : Portable P []
  | shown {t} (ch : Char) : P ch.toNat = true ∨ (7 ≤ ch.toNat ∧ ch.toNat ≤ 13) → Portable P t → Portable P (utf8 ch ++ t)
  | control {t} (c : UInt8) : c.toNat < 32 ∨ c.toNat = 127 → ¬ Starts 16 t → Portable P t → Portable P (c :: t)
  | bad {t} (b : UInt8) : 0x80 ≤ b.toNat → (∀ ch u, b :: t ≠ utf8 ch ++ u) → ¬ Starts 16 t → Portable P t → Portable P (b :: t)

/-- Of the ASCII characters those from the blank to the tilde are printable. -/
def Ascii (P : Nat → Bool) : Prop := ∀ r < 128, (P r = true ↔ 32 ≤ r ∧ r < 127)

/-! ## Files

Here `B` tells what the text between double quotes stands for: `Body` for what is read, `Written` for what is written. -/

/-- Strings, each in its line, that stand together for these bytes. -/
inductive Strings (B : Str → Str → Prop) : Str → Str → Prop
  | one {t d} : B t d → Strings B (34 :: t ++ [34, 10]) d
  | more {t d s e} : B t d → Strings B s e → Strings B (34 :: t ++ [34, 10] ++ s) (d ++ e)

/-- A keyword with its strings. -/
def Field (B : Str → Str → Prop) (key s d : Str) : Prop := ∃ t, s = key ++ 32 :: t ∧ Strings B t d

/-- The forms from this number on. -/
inductive Forms (B : Str → Str → Prop) : Nat → Str → List Str → Prop
  | nil {i} : Forms B i [] []
  | cons {i s d t ds} : Field B (b!"msgstr[" ++ Xt.inDigits i ++ b!"]") s d → Forms B (i + 1) t ds → Forms B i (s ++ t) (d :: ds)

/-- A message. -/
structure Msg where
  ctxt : Option Str
  id : Str
  plural : Option Str
  forms : List Str
  deriving DecidableEq

/-- The context of a message, which may be missing. -/
inductive Context (B : Str → Str → Prop) : Str → Option Str → Prop
  | none : Context B [] none
  | some {s d} : Field B b!"msgctxt" s d → Context B s (some d)

/-- One message in the file. -/
inductive Message (B : Str → Str → Prop) : Str → Msg → Prop
  | single {a c b id s str} : Context B a c → Field B b!"msgid" b id → Field B b!"msgstr" s str → Message B (a ++ b ++ s) ⟨c, id, none, [str]⟩
  | plural {a c b id p id2 s strs} : Context B a c → Field B b!"msgid" b id → Field B b!"msgid_plural" p id2 → Forms B 0 s strs → strs ≠ [] →
      Message B (a ++ b ++ p ++ s) ⟨c, id, some id2, strs⟩

/-- A comment that belongs to a message. -/
def Comment (l : Str) : Prop := ∃ r, l = 35 :: r ∧ 10 ∉ r ∧ r.head? ≠ some 126 ∧ r.head? ≠ some 124

/-- The messages of a file. -/
inductive Reads (B : Str → Str → Prop) : Str → List Msg → Prop
  | nil : Reads B [] []
  | blank {s ms} : Reads B s ms → Reads B (10 :: s) ms
  | comment {l s ms} : Comment l → Reads B s ms → Reads B (l ++ 10 :: s) ms
  | message {t m s ms} : Message B t m → Reads B s ms → Reads B (t ++ s) (m :: ms)

end Verif.GnuPo
