import Verif.Lemmas.File
import Verif.Props.C09_C11
/-! # C12, C13: lookups and keys -/
namespace Verif.Tr
variable {α : Type}

/-- **C13** Messages with EOT-free contexts have the same key only if they are the same message. -/
theorem C13_key_injective (ctxt ctxt' id id' : Str) (h : 4 ∉ ctxt) (h' : 4 ∉ ctxt') :
    key ctxt id = key ctxt' id' ↔ ctxt = ctxt' ∧ id = id' := by
  constructor
  · exact key_inj _ _ _ _ h h'
  · rintro ⟨rfl, rfl⟩; rfl

/-- **C13** Without the proviso two different messages can collide. -/
theorem C13_collision : ∃ ctxt id ctxt' id' : Str, (ctxt, id) ≠ (ctxt', id') ∧
    key ctxt id = key ctxt' id' :=
  ⟨b!"a", 4 :: b!"b", 97 :: [4], b!"b", by decide, by decide⟩

/-- **C12** After any history of calls, `X` formats the translation last added for that context and
message, and the source text if there is none or it is empty. -/
theorem C12_lookup_last_added (E : Fmt.Env α) (dg : Plural.Diag) (cs : List (Call α)) (hcs : NoEot cs)
    (ctxt id : Str) (hc : 4 ∉ ctxt) (args : List α) :
    (∀ e, lastAdded cs ctxt id = some e → e.str ≠ [] →
      (execAll E dg {} cs).x E ctxt id args = Fmt.format E e.str args) ∧
    ((∀ e, lastAdded cs ctxt id = some e → e.str = []) →
      (execAll E dg {} cs).x E ctxt id args = Fmt.format E id args) := by
  have hent := entries_lastAdded E dg cs hcs ctxt id hc
  constructor
  · intro e he hne
    rw [he] at hent
    simp [File.x, hent, hne]
  · intro h
    cases hl : lastAdded cs ctxt id with
    | none => rw [hl] at hent; simp [File.x, hent]
    | some e => rw [hl] at hent; simp [File.x, hent, h e hl]

/-- **C12** Calls that do not add an entry for this message do not matter. -/
theorem C12_other_messages (E : Fmt.Env α) (dg : Plural.Diag) (cs ds : List (Call α))
    (hcs : NoEot (cs ++ ds)) (ctxt id : Str) (hc : 4 ∉ ctxt) (args : List α)
    (hds : ∀ e ∈ added ds, ¬ (e.ctxt = ctxt ∧ e.id = id)) :
    (execAll E dg {} (cs ++ ds)).x E ctxt id args = (execAll E dg {} cs).x E ctxt id args := by
  have h1 := entries_lastAdded E dg (cs ++ ds) hcs ctxt id hc
  have h2 := entries_lastAdded E dg cs
    (fun e he => hcs e (by rw [added_append]; simp [he])) ctxt id hc
  have h3 : lastAdded (cs ++ ds) ctxt id = lastAdded cs ctxt id := by
    simp only [lastAdded, added_append, List.reverse_append, List.find?_append]
    have : (added ds).reverse.find? (fun e => decide (e.ctxt = ctxt ∧ e.id = id)) = none := by
      rw [List.find?_eq_none]
      intro e he
      simpa using hds e (by simpa using he)
    rw [this]; rfl
  simp only [File.x, h1, h2, h3]

/-! Concrete case: an entry is added twice, with another message and a lookup in between. -/
def exCalls : List (Call Str) :=
  [.add { ctxt := b!"menu", id := b!"Open", str := b!"A" }, .lang,
   .add { id := b!"Open", str := b!"B" }, .add { ctxt := b!"menu", id := b!"Open", str := b!"C" }]

example : NoEot exCalls := by simp [NoEot, exCalls, added]
example : lastAdded exCalls b!"menu" b!"Open" =
    some { ctxt := b!"menu", id := b!"Open", str := b!"C" } := by decide
example : (execAll Fmt.exEnv (fun _ => false) {} exCalls).x Fmt.exEnv b!"menu" b!"Open" [] = b!"C" := by
  decide
example : (execAll Fmt.exEnv (fun _ => false) {} exCalls).x Fmt.exEnv b!"" b!"Open" [] = b!"B" := by
  decide
example : (execAll Fmt.exEnv (fun _ => false) {} exCalls).x Fmt.exEnv b!"" b!"Close" [] = b!"Close" := by
  decide

end Verif.Tr
