import Verif.Spec.GnuPo
import Verif.Spec.Run
import Verif.Spec.File
/-!
# Specification vocabulary for templates that are translated with GNU gettext

What GNU gettext finds in the POT of a run, and what a translator's file that answers it has.
-/
namespace Verif.GnuFlow
open Verif
open Verif.GnuPo (Msg Portable)

/-- The message as GNU gettext sees it when it is not translated yet. -/
def asked (e : Tr.Entry) : Msg where
  ctxt := if e.ctxt = [] then none else some e.ctxt
  id := e.id
  plural := if e.isPlural then some e.id2 else none
  forms := if e.isPlural then [[], []] else [[]]

/-- The messages GNU gettext finds ask for the extracted ones: for each one the first call for it, nothing else but the message with the
empty id, and none twice.  If no call is for the empty message, the text of the header belongs to it. -/
structure Asks (es : List Tr.Entry) (header : Str) (ms : List Msg) : Prop where
  all : ∀ e ∈ es, e.id ≠ [] → ∃ f, Xt.firstOf es e.ctxt e.id = some f ∧ asked f ∈ ms
  only : ∀ m ∈ ms, m.id ≠ [] → ∃ f ∈ es, Xt.firstOf es f.ctxt f.id = some f ∧ m = asked f
  once : (ms.map fun m => (m.ctxt, m.id)).Nodup
  header : ¬ Xt.HasEmpty es → ⟨none, [], none, [header]⟩ ∈ ms

/-- The file of the translator answers these messages: it has each of them with its plural, no form of it empty, and no message twice. -/
structure Answers (ms ts : List Msg) : Prop where
  all : ∀ m ∈ ms, m.id ≠ [] → ∃ t ∈ ts, t.ctxt = m.ctxt ∧ t.id = m.id ∧ t.plural = m.plural ∧ ∀ s ∈ t.forms, s ≠ []
  once : (ts.map fun t => (t.ctxt.getD [], t.id)).Nodup

/-- The file of the translator is for this language with this plural rule: the first message with an empty id is the header. -/
structure IsFor (ts : List Msg) (language forms : Str) : Prop where
  noEot : ∀ t ∈ ts, 4 ∉ t.ctxt.getD []
  header : ∃ h, ts.find? (fun t => t.id = []) = some ⟨none, [], none, [h]⟩ ∧ Tr.HeaderField h b!"Language" language ∧
    (Tr.HeaderField h b!"Plural-Forms" forms ∨ (forms = [] ∧ ∀ v, ¬ Tr.HeaderField h b!"Plural-Forms" v))
  named : language ≠ []

end Verif.GnuFlow
