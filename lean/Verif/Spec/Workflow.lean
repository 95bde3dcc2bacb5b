import Verif.Spec.Served
import Verif.Spec.Run
/-!
# Specification vocabulary for the way from a template to the translated message

A PO text is what any editor may have written: only the entries the PO grammar finds in it count.
-/
namespace Verif.W
open Verif Verif.Tr
variable {α : Type}

/-- What the entries of a PO text say about a message: the last translated one for it. -/
def answer (ts : List Entry) (ctxt id : Str) : Option Entry := Tr.lastFor ctxt id (ts.filter fun e => Translated e)

/-- These are the entries of a PO text for this language with this plural rule: the first translated entry
with an empty id has no context, and is the header. -/
structure PoFor (ts : List Entry) (language forms : Str) : Prop where
  noEot : ∀ e ∈ ts, 4 ∉ e.ctxt
  header : ∃ h, (ts.filter fun e => Translated e).find? (fun e => e.id = []) = some h ∧ h.ctxt = [] ∧
    HeaderField h.str b!"Language" language ∧
    (HeaderField h.str b!"Plural-Forms" forms ∨ (forms = [] ∧ ∀ v, ¬ HeaderField h.str b!"Plural-Forms" v))
  named : language ≠ []

/-- What is shown for all messages, given the entries of a PO text. -/
def ShowsText (c : Cfg α) (ts : List Entry) (forms : Str) (x : Str → Str → List α → Res Str)
    (xn : Str → Str → Str → Int64 → List α → Res Str) : Prop :=
  ∀ ctxt id, 4 ∉ ctxt →
    (∀ e, answer ts ctxt id = some e → ShownAs c forms e (x ctxt id) (xn ctxt id)) ∧
    (answer ts ctxt id = none → (∀ args, x ctxt id args = .ok (Fmt.format c.fmt id args)) ∧
      ∀ id2 n args, xn ctxt id id2 n args = .ok (Fmt.defaultPlural c.fmt id id2 n args))

/-- The PO text is in use: some time ago a tree was bound in which it is the last `.po` file for this
language; the calls since then, on whatever values, left the domain alone; and the value is now in that
domain and that language. -/
def InUse (c : Cfg α) (po language : Str) (w' : World α) (i : Nat) : Prop :=
  ∃ (w : World α) (d : Str) (fsys : Option Node) (pre post : List (Str × Option Opened)) (name : Str) (ops : List (Op α)),
    Reach c w ∧ i < w.tss.length ∧ b!".po" <:+ name ∧
    filesFrom fsys = pre ++ (name, some ⟨some name, some po⟩) :: post ∧
    (∀ q ∈ post, ∀ t, ¬ Provides c b!".po" (c.norm language) q t) ∧
    Run c (w.bindFS c i d fsys) ops w' ∧ (∀ o ∈ ops, Leaves i d w.trs.length o) ∧
    w'.domain i = d ∧ w'.locale i = c.norm language

/-- The PO entries answer what the POT entries ask: a string for each message, forms for each plural one. -/
def Completes (pot ts : List Entry) : Prop :=
  ∀ e ∈ pot, e.id ≠ [] → ∃ t, answer ts e.ctxt e.id = some t ∧ (e.isPlural = false → t.str ≠ []) ∧
    (e.isPlural = true → t.strN ≠ [] ∧ ∀ s ∈ t.strN, s ≠ [])

/-- Every entry of the PO but its header is for a message of the POT. -/
def Within (pot ts : List Entry) : Prop :=
  ∀ t ∈ ts, t.id ≠ [] → ∃ e ∈ pot, e.ctxt = t.ctxt ∧ e.id = t.id

/-- The plural messages of the POT are answered by forms only, as an editor that starts from the POT does. -/
def PluralAsForms (pot ts : List Entry) : Prop :=
  ∀ e ∈ pot, e.isPlural = true → ∀ t, answer ts e.ctxt e.id = some t → t.str = []

/-- What a run that succeeds with a file as output leaves there, as the PO grammar reads it: an entry for
every extracted message, plural if the first call for it is, one for each, and no entry for any other message. -/
structure PotFor (es pot : List Entry) : Prop where
  all : ∀ e ∈ es, ∃ q ∈ pot, q.ctxt = e.ctxt ∧ q.id = e.id ∧ (¬ Xt.Conflicts es e → q.isPlural = e.isPlural) ∧
    (Xt.Conflicts es e → q.isPlural = !e.isPlural)
  only : ∀ q ∈ pot, q.id ≠ [] → ∃ e ∈ es, e.ctxt = q.ctxt ∧ e.id = q.id
  once : (pot.map fun q => (q.ctxt, q.id)).Nodup

end Verif.W
