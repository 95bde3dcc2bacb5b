import Verif.Spec.Workflow
import Verif.Spec.Mo
/-!
# Specification vocabulary for MO files in use

An MO file is what any program may have written: only the strings the MO format finds in it count.
-/
namespace Verif.W
open Verif Verif.Tr
variable {α : Type}

/-- The content is an MO file, in either byte order, with these messages in this order. -/
def MoHas (content : Str) (es : List Entry) : Prop :=
  ∃ be ps, MoFile be content ps ∧ List.Forall₂ (fun p e => MoMsg p.1 p.2 e) ps es

/-- These are the messages of an MO file for this language with this plural rule: the first one with an empty id has no context, and is
the header. -/
structure MoFor (es : List Entry) (language forms : Str) : Prop where
  header : ∃ h, es.find? (fun e => e.id = []) = some h ∧ h.ctxt = [] ∧ HeaderField h.str b!"Language" language ∧
    (HeaderField h.str b!"Plural-Forms" forms ∨ (forms = [] ∧ ∀ v, ¬ HeaderField h.str b!"Plural-Forms" v))
  named : language ≠ []

/-- What is shown for all messages, given the messages of an MO file: of those for a message the last one, translated or not. -/
def ShowsMo (c : Cfg α) (es : List Entry) (forms : Str) (x : Str → Str → List α → Res Str)
    (xn : Str → Str → Str → Int64 → List α → Res Str) : Prop :=
  ∀ ctxt id, 4 ∉ ctxt →
    (∀ e, Tr.lastFor ctxt id es = some e → ShownAs c forms e (x ctxt id) (xn ctxt id)) ∧
    (Tr.lastFor ctxt id es = none → (∀ args, x ctxt id args = .ok (Fmt.format c.fmt id args)) ∧
      ∀ id2 n args, xn ctxt id id2 n args = .ok (Fmt.defaultPlural c.fmt id id2 n args))

/-- The MO file is in use: some time ago a tree was bound in which it is the last `.mo` file for this language and no `.po` file is for it;
the calls since then left the domain alone; and the value is now in that domain and that language. -/
def InUseMo (c : Cfg α) (mo language : Str) (w' : World α) (i : Nat) : Prop :=
  ∃ (w : World α) (d : Str) (fsys : Option Node) (pre post : List (Str × Option Opened)) (name : Str) (ops : List (Op α)),
    Reach c w ∧ i < w.tss.length ∧ b!".mo" <:+ name ∧
    filesFrom fsys = pre ++ (name, some ⟨some name, some mo⟩) :: post ∧
    (∀ q ∈ post, ∀ t, ¬ Provides c b!".mo" (c.norm language) q t) ∧
    (∀ q ∈ filesFrom fsys, ∀ t, ¬ Provides c b!".po" (c.norm language) q t) ∧
    Run c (w.bindFS c i d fsys) ops w' ∧ (∀ o ∈ ops, Leaves i d w.trs.length o) ∧
    w'.domain i = d ∧ w'.locale i = c.norm language

end Verif.W
