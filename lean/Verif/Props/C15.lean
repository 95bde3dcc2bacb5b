import Verif.Props.C17
/-! # C15: headers -/
namespace Verif.Tr
set_option linter.unusedSimpArgs false
variable {α : Type}

/-- Which calls need the headers: any header lookup, any plural lookup of a message with plural data,
and the addition of any entry with an empty id. -/
def Touches (before : List (Call α)) : Call α → Prop
  | .add e => e.id = []
  | .header _ => True
  | .lang => True
  | .x _ _ _ => False
  | .xn ctxt id _ _ _ => 4 ∉ ctxt → ∃ e, lastAdded before ctxt id = some e ∧ (e.id2 ≠ [] ∨ e.strN ≠ [])

/-- No call of the history needed the headers. -/
def Untouched (cs : List (Call α)) : Prop :=
  ∀ pre c post, cs = pre ++ c :: post → ¬ Touches pre c

/-- **C15** The fields of a header text: the first line with a key decides. -/
theorem C15_first_wins (text k v : Str) : (parseHeaders text).get? k = some v ↔ HeaderField text k v :=
  parseHeaders_get text k v

/-- A call that does not need the headers does not read them. -/
theorem exec_untouched (E : Fmt.Env α) (dg : Plural.Diag) (cs : List (Call α)) (hcs : NoEot cs)
    (c : Call α) (h : ¬ Touches cs c)
    (h1 : (execAll E dg {} cs).headers = none) (h2 : (execAll E dg {} cs).plural = none) :
    (c.exec E dg (execAll E dg {} cs)).2.headers = none ∧
    (c.exec E dg (execAll E dg {} cs)).2.plural = none := by
  cases c with
  | add e =>
    simp only [Touches] at h
    simp [Call.exec, File.addEntry, Entry.isHeader, h, h1, h2]
  | header k => simp [Touches] at h
  | lang => simp [Touches] at h
  | x => exact ⟨h1, h2⟩
  | xn ctxt id id2 n args =>
    simp only [Touches, not_forall, not_exists, not_and] at h
    obtain ⟨hc, h⟩ := h
    have hent := entries_lastAdded E dg cs hcs ctxt id hc
    simp only [Call.exec, File.xn, hent]
    cases hl : lastAdded cs ctxt id with
    | none => exact ⟨h1, h2⟩
    | some e =>
      have := h e hl
      simp only [not_or, not_not] at this
      simp [this.1, this.2, h1, h2]

theorem untouched_prefix (cs ds : List (Call α)) (h : Untouched (cs ++ ds)) : Untouched cs := by
  intro pre c post heq
  exact h pre c (post ++ ds) (by rw [heq]; simp)

theorem noEot_prefix (cs ds : List (Call α)) (h : NoEot (cs ++ ds)) : NoEot cs := by
  intro e he; exact h e (by rw [added_append]; simp [he])

theorem untouched_none (E : Fmt.Env α) (dg : Plural.Diag) (cs : List (Call α)) (hcs : NoEot cs)
    (h : Untouched cs) :
    (execAll E dg {} cs).headers = none ∧ (execAll E dg {} cs).plural = none := by
  induction cs using List.reverseRecOn with
  | nil => exact ⟨rfl, rfl⟩
  | append_singleton cs c ih =>
    obtain ⟨h1, h2⟩ := ih (noEot_prefix _ _ hcs) (untouched_prefix _ _ h)
    rw [execAll_snoc]
    exact exec_untouched E dg cs (noEot_prefix _ _ hcs) c (h cs c [] rfl) h1 h2

theorem heads_none (f : File) (h : f.headers = none) : f.heads =
    match f.entries.get? (key [] []) with
    | some e => parseHeaders e.str
    | none => [] := by
  unfold File.heads File.initHeader
  rw [h]
  dsimp only
  cases f.entries.get? (key [] []) <;> rfl

theorem field_of_entry (o : Option Entry) (k v : Str) :
    GMap.get? (match o with
    | some e => parseHeaders e.str
    | none => []) k = some v ↔ ∃ e, o = some e ∧ HeaderField e.str k v := by
  cases o with
  | none => simp [GMap.get?]
  | some e => simp [C15_first_wins]

/-- **C15** Until a call needs the headers, they are those of the header entry last added. -/
theorem C15_before_first_use (E : Fmt.Env α) (dg : Plural.Diag) (cs : List (Call α)) (hcs : NoEot cs)
    (h : Untouched cs) (k v : Str) :
    ((execAll E dg {} cs).getHeader k).1 = some v ↔
      ∃ e, lastAdded cs [] [] = some e ∧ HeaderField e.str k v := by
  rw [getHeader_eq, heads_none _ (untouched_none E dg cs hcs h).1,
    entries_lastAdded E dg cs hcs [] [] (by simp), field_of_entry]

/-- **C15** The first call that needs the headers fixes them for the life of the file: they are those
of the header entry last added up to and including that call, whatever happens afterwards. -/
theorem C15_first_use_fixes (E : Fmt.Env α) (dg : Plural.Diag) (pre post : List (Call α)) (c : Call α)
    (hcs : NoEot (pre ++ c :: post)) (h : Untouched pre) (hc : Touches pre c)
    (hxn : ∀ ctxt id id2 n args, c = .xn ctxt id id2 n args → 4 ∉ ctxt) (k v : Str) :
    ((execAll E dg {} (pre ++ c :: post)).getHeader k).1 = some v ↔
      ∃ e, lastAdded (pre ++ [c]) [] [] = some e ∧ HeaderField e.str k v := by
  have hpre : NoEot pre := noEot_prefix _ _ hcs
  have hpc : NoEot (pre ++ [c]) := by
    rw [show pre ++ c :: post = (pre ++ [c]) ++ post by simp] at hcs
    exact noEot_prefix _ _ hcs
  obtain ⟨h1, h2⟩ := untouched_none E dg pre hpre h
  have hent := entries_lastAdded E dg (pre ++ [c]) hpc [] [] (by simp)
  have key : (execAll E dg {} (pre ++ [c])).headers =
      some (match lastAdded (pre ++ [c]) [] [] with
        | some e => parseHeaders e.str
        | none => []) := by
    rw [← hent]
    rw [execAll_snoc]
    cases c with
    | add e =>
      simp only [Touches] at hc
      simp only [Call.exec, File.addEntry, Entry.isHeader, hc, decide_true, if_true]
      generalize hg : ({ (execAll E dg {} pre) with
        entries := (execAll E dg {} pre).entries.set e.key e } : File) = g
      have g1 : g.headers = none := by rw [← hg]; exact h1
      have g2 : g.plural = none := by rw [← hg]; exact h2
      have h3 : g.initHeader.plural = none := by rw [initHeader_plural]; exact g2
      rw [initPlural_headers _ h3, heads_initHeader, heads_none g g1, initPlural_entries,
        initHeader_entries]
    | header k =>
      simp only [Call.exec, File.getHeader]
      rw [initHeader_headers, heads_none _ h1, initHeader_entries]
    | lang =>
      simp only [Call.exec, File.lang, File.getHeader]
      rw [initHeader_headers, heads_none _ h1, initHeader_entries]
    | x => simp [Touches] at hc
    | xn ctxt id id2 n args =>
      have hctxt := hxn _ _ _ _ _ rfl
      obtain ⟨e, he, hpl⟩ := hc hctxt
      have hent' := entries_lastAdded E dg pre hpre ctxt id hctxt
      rw [he] at hent'
      have hno : ¬ (e.id2 = [] ∧ e.strN.length = 0) := by
        rintro ⟨a, b⟩
        rcases hpl with hpl | hpl
        · exact hpl a
        · exact hpl (by simpa using b)
      simp only [Call.exec, File.xn, hent', if_neg hno]
      rw [initPlural_headers _ h2, heads_none _ h1, initPlural_entries]
  have hfin := execAll_headers_frozen E dg _ _ key post
  rw [← execAll_append, show (pre ++ [c]) ++ post = pre ++ c :: post by simp] at hfin
  rw [getHeader_eq, heads_of_some _ _ hfin, field_of_entry]

/-! Concrete cases. -/

/-- The first of two lines with the same key counts; key and value are trimmed; lines without `": "`
are skipped. -/
example : (parseHeaders b!"A: 1\nnothing\n B : 2 \nA: 3\n").get? b!"A" = some b!"1" ∧
    (parseHeaders b!"A: 1\nnothing\n B : 2 \nA: 3\n").get? b!"B" = some b!"2" := by decide

/-- Adding a normal entry leaves the headers open; adding the header entry fixes them. -/
example : Untouched [Call.add (α := Str) { id := b!"a", str := b!"x" }] := by
  intro pre c post h
  cases pre with
  | nil => cases h; simp [Touches]
  | cons p pre => cases pre <;> cases h
example : Touches [Call.add (α := Str) { id := b!"a", str := b!"x" }] (.add { str := b!"A: 1" }) := rfl
example : NoEot ([Call.add (α := Str) { id := b!"a", str := b!"x" }] ++
    .add { str := b!"A: 1" } :: [.add { str := b!"A: 2" }]) := by simp [NoEot, added]
/-- An entry with a context and an empty id fixes them too, before there are any. -/
example : ((execAll Fmt.exEnv (fun _ => false) {} [.add { ctxt := b!"c", str := b!"x" },
    .add { str := b!"A: 1" }]).getHeader b!"A").1 = none := by decide

end Verif.Tr
