import Verif.Spec.Trim
import Verif.Model.Keyword
import Mathlib.Data.Nat.Digits.Defs
/-!
# The grammar of keyword declarations

Items separated by `;`, each a name, optionally followed by `:` and positions separated by `,`; white
space around every part is ignored.
-/
namespace Verif.Xt
open Verif GoStr

/-- The number written with the decimal digits `ds`, most significant first. -/
def decimal (ds : List Nat) : Nat := Nat.ofDigits 10 ds.reverse

/-- `s` is a decimal numeral, possibly with a sign, for the int64 `i`. -/
def Numeral (s : Str) (i : Int) : Prop :=
  ∃ (sign : Str) (ds : List Nat), ds ≠ [] ∧ (∀ d ∈ ds, d < 10) ∧
    s = sign ++ ds.map (fun d => UInt8.ofNat (48 + d)) ∧
    (sign = [] ∧ i = decimal ds ∨ sign = b!"+" ∧ i = decimal ds ∨
      sign = b!"-" ∧ i = - (decimal ds : Int)) ∧
    -2 ^ 63 ≤ i ∧ i < 2 ^ 63

/-- `s`, without white space around it, is a numeral for `i`. -/
def Position (s : Str) (i : Int) : Prop := ∃ t, Trims s t ∧ Numeral t i

/-- `s`, without white space around it, is a numeral for `i` followed by `c`. -/
def CtxtPosition (s : Str) (i : Int) : Prop := ∃ t, Trims s (t ++ b!"c") ∧ Numeral t i

/-- `s`, without white space around it, is the non-empty `name`. -/
def NameText (s name : Str) : Prop := Trims s name ∧ name ≠ []

/-- The text declares the keyword. -/
inductive Declares : Str → Keyword → Prop
  | name {n name : Str} : 58 ∉ n → NameText n name →
      Declares n ⟨name, 0, 1, 0⟩
  | id {n name a : Str} {i : Int} : 58 ∉ n → 58 ∉ a → 44 ∉ a → NameText n name → Position a i →
      Declares (n ++ b!":" ++ a) ⟨name, 0, i, 0⟩
  | plural {n name a b : Str} {i j : Int} : 58 ∉ n → 58 ∉ a → 44 ∉ a → 58 ∉ b → 44 ∉ b →
      NameText n name → Position a i → Position b j →
      Declares (n ++ b!":" ++ a ++ b!"," ++ b) ⟨name, 0, i, j⟩
  | ctxt {n name a b : Str} {c i : Int} : 58 ∉ n → 58 ∉ a → 44 ∉ a → 58 ∉ b → 44 ∉ b →
      NameText n name → CtxtPosition a c → Position b i →
      Declares (n ++ b!":" ++ a ++ b!"," ++ b) ⟨name, c, i, 0⟩
  | ctxtPlural {n name a b d : Str} {c i j : Int} : 58 ∉ n → 58 ∉ a → 44 ∉ a → 58 ∉ b → 44 ∉ b →
      58 ∉ d → 44 ∉ d →
      NameText n name → CtxtPosition a c → Position b i → Position d j →
      Declares (n ++ b!":" ++ a ++ b!"," ++ b ++ b!"," ++ d) ⟨name, c, i, j⟩

/-- The text declares the keywords, in order. -/
def DeclaresAll (s : Str) (ks : List Keyword) : Prop :=
  ∃ items : List Str, items ≠ [] ∧ (∀ t ∈ items, 59 ∉ t) ∧ s = List.intercalate b!";" items ∧
    List.Forall₂ Declares items ks

end Verif.Xt
