import Verif.Spec.Mo
import Verif.Spec.Po
/-!
# What GNU msgfmt puts into an MO file

After `msgfmt.c` and `read-po.c` of GNU gettext: untranslated messages and, without the option `--use-fuzzy`, fuzzy ones are left out; the
header never counts as fuzzy.
-/
namespace Verif.Msgfmt
open Verif Verif.Tr

/-- What separates flags. -/
def sep (c : UInt8) : Bool := c == 32 || c == 44 || (9 ≤ c && c ≤ 13)

/-- The comment is `#,` and flags, with this word among them. -/
def FlagLine (flag line : Str) : Prop :=
  ∃ a b, line = b!"#," ++ a ++ flag ++ b ∧ (∀ c ∈ a.getLast?, sep c = true) ∧ ∀ c ∈ b.head?, sep c = true

/-- The entry is marked as fuzzy.  The flags before an obsolete message, `#~`, are those of that message. -/
def Fuzzy (e : Entry) : Prop := ∃ a c b, e.cmts = a ++ c :: b ∧ FlagLine b!"fuzzy" c ∧ ∀ l ∈ b, ¬ b!"#~" <+: l

/-- The message gets into the MO file: its translation, with a NUL between the forms, does not begin with a NUL. -/
def Kept (e : Entry) : Prop := (∃ c r, transOf e = c :: r ∧ c ≠ 0) ∧ (¬ Fuzzy e ∨ e.ctxt = [] ∧ e.id = [])

/-- An MO file compiled from these entries, in either byte order, with its tables and strings wherever they are and in whatever order. -/
def Compiled (ts : List Entry) (c : Str) : Prop :=
  ∃ (be : Bool) (l : List ((Str × Str) × Entry)), MoFile be c (l.map Prod.fst) ∧ (∀ e, e ∈ l.map Prod.snd ↔ e ∈ ts ∧ Kept e) ∧
    ∀ x ∈ l, MoMsg x.1.1 x.1.2 { x.2 with cmts := [] }

/-- As msgfmt demands of its input: no message is translated twice; the header is the only message with an empty id. -/
def Distinct (ts : List Entry) : Prop :=
  ((ts.filter fun e => Translated e).map fun e => (e.ctxt, e.id)).Nodup ∧ ∀ e ∈ ts, Translated e → e.id = [] → e.ctxt = []

end Verif.Msgfmt
