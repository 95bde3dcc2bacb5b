import Verif.Spec.World
import Verif.Props.C14
import Verif.Props.C34_C35
import Verif.Props.C40_C44
/-!
# Specification vocabulary for the way of a message from a file to the caller

What a file of messages says, in terms of its list of entries and the text of its header only; what a
caller who asks for messages is shown; which calls leave a loaded domain alone.
-/
namespace Verif.W
open Verif Verif.Tr
variable {α : Type}

/-- These are the messages of a file for this language with this plural rule: one entry per message,
exactly one of them (the header) with an empty id. -/
structure Catalogue (f : Tr.File) (language forms : Str) : Prop where
  consistent : Consistent f
  noEot : ∀ e ∈ f.entries.vals, 4 ∉ e.ctxt
  onlyHeader : ∀ e ∈ f.entries.vals, e.id = [] → e.ctxt = []
  header : ∃ h ∈ f.entries.vals, h.id = [] ∧ HeaderField h.str b!"Language" language ∧
    (HeaderField h.str b!"Plural-Forms" forms ∨ (forms = [] ∧ ∀ v, ¬ HeaderField h.str b!"Plural-Forms" v))
  named : language ≠ []

/-- What is shown for a message there is an entry for. -/
structure ShownAs (c : Cfg α) (forms : Str) (e : Entry) (x : List α → Res Str)
    (xn : Str → Int64 → List α → Res Str) : Prop where
  translated : ∀ args, e.str ≠ [] → x args = .ok (Fmt.format c.fmt e.str args)
  untranslated : ∀ args, e.str = [] → x args = .ok (Fmt.format c.fmt e.id args)
  plain : ∀ id2 n args, e.id2 = [] → e.strN = [] →
    xn id2 n args = .ok (Fmt.format c.fmt (if e.str = [] then e.id else e.str) args)
  form : ∀ id2 n args i s, e.id2 ≠ [] ∨ e.strN ≠ [] → SelectsForm c.diag forms n i → e.strN[i]? = some s → s ≠ [] →
    xn id2 n args = .ok (Fmt.format c.fmt s args)
  beyond : ∀ id2 n args, e.id2 ≠ [] ∨ e.strN ≠ [] → SelectsForm c.diag forms n e.strN.length →
    xn id2 n args = .panic
  noForm : ∀ id2 n args, e.id2 ≠ [] ∨ e.strN ≠ [] →
    (∀ i s, SelectsForm c.diag forms n i → e.strN[i]? = some s → s = []) →
    ¬ SelectsForm c.diag forms n e.strN.length →
    xn id2 n args = .ok (Fmt.defaultPlural c.fmt e.id id2 n args)

/-- What is shown for all messages, given the entries there are: the entry of the message if there is
one, else the source text. -/
def Shows (c : Cfg α) (es : List Entry) (forms : Str) (x : Str → Str → List α → Res Str)
    (xn : Str → Str → Str → Int64 → List α → Res Str) : Prop :=
  (∀ e ∈ es, ShownAs c forms e (x e.ctxt e.id) (xn e.ctxt e.id)) ∧
  (∀ ctxt id, 4 ∉ ctxt → (∀ e ∈ es, ¬ (e.ctxt = ctxt ∧ e.id = id)) →
    (∀ args, x ctxt id args = .ok (Fmt.format c.fmt id args)) ∧
    ∀ id2 n args, xn ctxt id id2 n args = .ok (Fmt.defaultPlural c.fmt id id2 n args))

/-- The call leaves domain `d` of value `i` alone: it is neither a bind of that domain nor
a removal; and it does not change the object `p`. -/
def Leaves (i : Nat) (d : Str) (p : Nat) (o : Op α) : Prop :=
  (∀ fsys, o ≠ .bindFS i d fsys) ∧ o ≠ .removeDomain i d ∧ o ≠ .clearDomains i ∧ o.changes ≠ some p

end Verif.W
