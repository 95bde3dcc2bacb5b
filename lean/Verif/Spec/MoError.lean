import Verif.Spec.Mo
import Verif.Model.Num
/-! # What can be wrong with an MO file, and how it is called -/
namespace Verif.Tr
open Verif

/-- The content ends before these `len` bytes from `pos` on. -/
def Lacks (c : Str) (pos len : Nat) : Prop := len ≠ 0 ∧ c.length < pos + len

/-- The magic number, a header of a known version, and what it says: the number of strings and where the
two tables are. -/
structure MoHead (be : Bool) (c : Str) (n O T : Nat) : Prop where
  magic : At c 0 (if be then [0x95, 0x04, 0x12, 0xde] else [0xde, 0x12, 0x04, 0x95])
  length : 28 ≤ c.length
  version : ∃ major minor, Num16 be c 4 major ∧ Num16 be c 6 minor ∧ major ≤ 1 ∧ minor ≤ 1
  count : Num32 be c 8 n
  ids : Num32 be c 12 O
  strs : Num32 be c 16 T

/-- The `i`-th string of the table at `pos` is there. -/
def Whole (be : Bool) (c : Str) (pos i : Nat) : Prop := ∃ len off, Descr be c pos i len off ∧ ¬ Lacks c off len

/-- The first thing that is wrong with an MO file, as the message calls it, and where data is missing, if
that is what is wrong. -/
inductive MoDefect (c : Str) : Str → Option Nat → Prop
  | noMagic : Lacks c 0 4 → MoDefect c b!"failed to read magic number" (some 0)
  | magic (v : Nat) : Num32 false c 0 v → v ≠ 0x950412de → v ≠ 0xde120495 →
      MoDefect c (b!"invalid magic number: " ++ Num.natDigits v) none
  | header (be : Bool) : At c 0 (if be then [0x95, 0x04, 0x12, 0xde] else [0xde, 0x12, 0x04, 0x95]) → Lacks c 4 24 →
      MoDefect c b!"failed to read mo header" (some 4)
  | major (be : Bool) (v : Nat) : At c 0 (if be then [0x95, 0x04, 0x12, 0xde] else [0xde, 0x12, 0x04, 0x95]) →
      28 ≤ c.length → Num16 be c 4 v → 1 < v → MoDefect c (b!"unsopported major version: " ++ Num.natDigits v) none
  | minor (be : Bool) (ma v : Nat) : At c 0 (if be then [0x95, 0x04, 0x12, 0xde] else [0xde, 0x12, 0x04, 0x95]) →
      28 ≤ c.length → Num16 be c 4 ma → ma ≤ 1 → Num16 be c 6 v → 1 < v →
      MoDefect c (b!"unsopported minor version: " ++ Num.natDigits v) none
  | idTable (be : Bool) (n O T i : Nat) : MoHead be c n O T → i < n → (∀ j < i, ¬ Lacks c (O + 8 * j) 8) →
      Lacks c (O + 8 * i) 8 →
      MoDefect c (b!"failed to read msg_id[" ++ Num.natDigits i ++ b!"] length & offset") (some (O + 8 * i))
  | strTable (be : Bool) (n O T i : Nat) : MoHead be c n O T → (∀ j < n, ¬ Lacks c (O + 8 * j) 8) → i < n →
      (∀ j < i, ¬ Lacks c (T + 8 * j) 8) → Lacks c (T + 8 * i) 8 →
      MoDefect c (b!"failed to read msg_str[" ++ Num.natDigits i ++ b!"] length & offset") (some (T + 8 * i))
  | id (be : Bool) (n O T i len off : Nat) : MoHead be c n O T → (∀ j < n, ¬ Lacks c (O + 8 * j) 8) →
      (∀ j < n, ¬ Lacks c (T + 8 * j) 8) → i < n → (∀ j < i, Whole be c O j ∧ Whole be c T j) →
      Descr be c O i len off → Lacks c off len →
      MoDefect c (b!"failed to read msg_id[" ++ Num.natDigits i ++ b!"]") (some off)
  | str (be : Bool) (n O T i len off : Nat) : MoHead be c n O T → (∀ j < n, ¬ Lacks c (O + 8 * j) 8) →
      (∀ j < n, ¬ Lacks c (T + 8 * j) 8) → i < n → (∀ j < i, Whole be c O j ∧ Whole be c T j) → Whole be c O i →
      Descr be c T i len off → Lacks c off len →
      MoDefect c (b!"failed to read msg_str[" ++ Num.natDigits i ++ b!"]") (some off)

/-- The message: what is wrong, and `EOF` if the content ends before or at the missing data, `unexpected EOF`
if it ends within them. -/
def defectText (c what : Str) (pos : Option Nat) : Str :=
  b!"read mo: " ++ what ++ match pos with
    | none => []
    | some p => if c.length ≤ p then b!": EOF" else b!": unexpected EOF"

end Verif.Tr
