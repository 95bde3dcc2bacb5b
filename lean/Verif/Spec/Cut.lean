import Verif.Spec.Po
import Verif.Spec.Trim
/-!
# Cut PO texts

What is left of the entry in which a PO text was cut.
-/
namespace Verif.Tr
open Verif

/-- The first texts of a list, the last of them possibly cut. -/
inductive CutList : List Str → List Str → Prop
  | nil (l : List Str) : CutList [] l
  | last (s r : Str) (l : List Str) : CutList [s] ((s ++ r) :: l)
  | cons (s : Str) {l' l : List Str} : CutList l' l → CutList (s :: l') (s :: l)

/-- `e'` is what a reader sees of `e` if the text ends in the middle of it. -/
structure CutEntry (e' e : Entry) : Prop where
  cmts : e'.cmts <+: e.cmts
  ctxt : e'.ctxt <+: e.ctxt
  id : e'.id <+: e.id
  isPlural : e'.isPlural = true → e.isPlural = true
  id2 : e'.id2 <+: e.id2
  str : e'.str <+: e.str
  strN : CutList e'.strN e.strN

/-- A line cut inside: what is left (without carriage returns) is neither blank nor a comment, and
what is missing is more than white space. -/
def Torn (left missing : Str) : Prop :=
  ¬ Blank (left.filter (· != 13)) ∧ ¬ (b!"#" <+: left.filter (· != 13)) ∧
    ¬ GoStr.White (missing.filter (· != 13))

end Verif.Tr
