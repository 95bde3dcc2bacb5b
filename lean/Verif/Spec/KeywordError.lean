import Verif.Spec.Keyword
import Verif.Model.Quote
/-! # What is wrong with a keyword declaration -/
namespace Verif.Xt
open Verif GoStr

/-- `t` starts with digits for a number beyond 64 bits, or is a numeral beyond the int64s. -/
def TooBig (t : Str) : Prop :=
  ∃ (sign : Str) (ds : List Nat) (rest : Str), (sign = [] ∨ sign = b!"+" ∨ sign = b!"-") ∧ (∀ d ∈ ds, d < 10) ∧
    t = sign ++ ds.map (fun d => UInt8.ofNat (48 + d)) ++ rest ∧
    (2 ^ 64 ≤ decimal ds ∨ rest = [] ∧ sign ≠ b!"-" ∧ 2 ^ 63 ≤ decimal ds ∨ rest = [] ∧ 2 ^ 63 < decimal ds)

/-- `t` is not a numeral for an int64, and what is said about it. -/
def NotNumeral (P : Nat → Bool) (t cause : Str) : Prop :=
  (∀ i, ¬ Numeral t i) ∧
  (TooBig t ∧ cause = b!"strconv.ParseInt: parsing " ++ Quote.quote P t ++ b!": value out of range" ∨
    ¬ TooBig t ∧ cause = b!"strconv.ParseInt: parsing " ++ Quote.quote P t ++ b!": invalid syntax")

/-- The text does not end with `c`. -/
def NoC (t : Str) : Prop := ∀ u, t ≠ u ++ b!"c"

/-- What is wrong with the text of one item: a detail (a text with a place for an argument) and a cause. -/
inductive Blames (P : Nat → Bool) : Str → Option (Str × List Str) → Option Str → Prop
  | empty {n : Str} : 58 ∉ n → Trims n [] → Blames P n none none
  | colons {s : Str} : 2 ≤ s.count 58 → Blames P s none none
  | noName {n a : Str} : 58 ∉ n → 58 ∉ a → Trims n [] → Blames P (n ++ b!":" ++ a) none none
  | id {n name a t e : Str} : 58 ∉ n → NameText n name → 58 ∉ a → 44 ∉ a → Trims a t → NotNumeral P t e →
      Blames P (n ++ b!":" ++ a) (some (b!"msg id index is not a number", [])) (some e)
  | ctxt {n name a b t e : Str} : 58 ∉ n → NameText n name → 58 ∉ a → 44 ∉ a → 58 ∉ b → 44 ∉ b →
      Trims a (t ++ b!"c") → NotNumeral P t e →
      Blames P (n ++ b!":" ++ a ++ b!"," ++ b) (some (b!"context index is not a number: %v", [t])) (some e)
  | ctxtId {n name a b t e : Str} {c : Int} : 58 ∉ n → NameText n name → 58 ∉ a → 44 ∉ a → 58 ∉ b → 44 ∉ b →
      CtxtPosition a c → Trims b t → NotNumeral P t e →
      Blames P (n ++ b!":" ++ a ++ b!"," ++ b) (some (b!"msg id index is not a number: %v", [t])) (some e)
  | pluralId {n name a b t e : Str} : 58 ∉ n → NameText n name → 58 ∉ a → 44 ∉ a → 58 ∉ b → 44 ∉ b →
      Trims a t → NoC t → NotNumeral P t e →
      Blames P (n ++ b!":" ++ a ++ b!"," ++ b) (some (b!"msg id index is not a number: %v", [t])) (some e)
  | plural {n name a b t e : Str} {i : Int} : 58 ∉ n → NameText n name → 58 ∉ a → 44 ∉ a → 58 ∉ b → 44 ∉ b →
      Position a i → Trims b t → NotNumeral P t e →
      Blames P (n ++ b!":" ++ a ++ b!"," ++ b) (some (b!"msg plural index is not a number: %v", [t])) (some e)
  | noC {n name a b d t : Str} : 58 ∉ n → NameText n name → 58 ∉ a → 44 ∉ a → 58 ∉ b → 44 ∉ b → 58 ∉ d → 44 ∉ d →
      Trims a t → NoC t →
      Blames P (n ++ b!":" ++ a ++ b!"," ++ b ++ b!"," ++ d) (some (b!"context index must end with 'c': %v", [t])) none
  | ctxt3 {n name a b d t e : Str} : 58 ∉ n → NameText n name → 58 ∉ a → 44 ∉ a → 58 ∉ b → 44 ∉ b → 58 ∉ d → 44 ∉ d →
      Trims a (t ++ b!"c") → NotNumeral P t e →
      Blames P (n ++ b!":" ++ a ++ b!"," ++ b ++ b!"," ++ d) (some (b!"msg context index is not a number: %v", [t])) (some e)
  | id3 {n name a b d t e : Str} {c : Int} : 58 ∉ n → NameText n name → 58 ∉ a → 44 ∉ a → 58 ∉ b → 44 ∉ b → 58 ∉ d →
      44 ∉ d → CtxtPosition a c → Trims b t → NotNumeral P t e →
      Blames P (n ++ b!":" ++ a ++ b!"," ++ b ++ b!"," ++ d) (some (b!"msg id index is not a number: %v", [t])) (some e)
  | plural3 {n name a b d t e : Str} {c i : Int} : 58 ∉ n → NameText n name → 58 ∉ a → 44 ∉ a → 58 ∉ b → 44 ∉ b → 58 ∉ d →
      44 ∉ d → CtxtPosition a c → Position b i → Trims d t → NotNumeral P t e →
      Blames P (n ++ b!":" ++ a ++ b!"," ++ b ++ b!"," ++ d) (some (b!"msg id index is not a number: %v", [t])) (some e)
  | many {n name ps : Str} : 58 ∉ n → NameText n name → 58 ∉ ps → 3 ≤ ps.count 44 →
      Blames P (n ++ b!":" ++ ps) (some (b!"too much keyword index", [])) none

end Verif.Xt
