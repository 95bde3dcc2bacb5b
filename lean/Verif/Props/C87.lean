import Verif.Props.C34_C35
import Mathlib.Data.List.Nodup
/-! # C87: a PO file that was read can be saved without loss -/
namespace Verif.Tr
open Verif
variable {α : Type}

theorem foldl_consistent (es : List Entry) : Consistent (es.foldl File.addEntry {}) := by
  have h := C21_consistent (α := Unit) ⟨fun _ _ _ => [], fun _ => none, (), fun _ => []⟩ (fun _ => false)
    (es.map Call.add)
  have e : ∀ (E : Fmt.Env Unit) dg (es : List Entry) f, execAll E dg f (es.map Call.add) = es.foldl File.addEntry f := by
    intro E dg es
    induction es with
    | nil => intro f; rfl
    | cons x es ih => intro f; exact ih _
  rwa [e] at h

/-- Everything in a file that entries were added to is one of them. -/
theorem foldl_mem (es : List Entry) (p : Str × Entry) (hp : p ∈ (es.foldl File.addEntry {}).entries) : p.2 ∈ es := by
  have hg := (GMap.get?_iff _ (foldl_consistent es).1 p.1 p.2).mpr hp
  rw [foldl_addEntry_entries] at hg
  simp only [GMap.get?, Option.or_none] at hg
  have := List.mem_of_mem_getLast? hg
  simp only [List.mem_filter] at this
  exact this.1

/-! ## What the items of an entry of a text look like -/

/-- The comments are lines of the text, and there are not both a translation and forms. -/
def GoodItems (ls : List Str) (g : List Item) : Prop :=
  (∀ l ∈ comments g, l ∈ ls ∧ ∃ t, l = 35 :: t) ∧ (texts .str g = [] ∨ texts .form g = [])

theorem comments_append (g h : List Item) : comments (g ++ h) = comments g ++ comments h := by
  unfold comments
  rw [List.filterMap_append]

theorem parse_texts_str {ls gs g} (h : Parse ls gs g) : texts .str g ≠ [] → lastField g = some .str := by
  induction h with
  | nil => intro h; exact absurd rfl h
  | @same ls gs g line x hp hx hs ih =>
    cases x with
    | comment l => rw [texts_comment, lastField_comment]; exact ih
    | more d =>
      rw [texts_more, lastField_more]
      split
      · rename_i h; intro _; exact h
      · exact ih
    | field f d =>
      rw [texts_field, lastField_field]
      split
      · rename_i h; intro _; rw [h]
      · rename_i hf
        intro hne
        have hl := ih hne
        rw [hl] at hs
        exfalso
        cases f <;> simp [Starts] at hs
        exact hf rfl
  | @next ls gs g line x hp hx hs ih =>
    cases x with
    | comment l => intro h; exact absurd rfl h
    | more d => intro h; exact absurd rfl h
    | field f d => cases f <;> simp [texts, lastField]

theorem parse_good {ls gs g} (h : Parse ls gs g) : ∀ g' ∈ gs ++ [g], GoodItems ls g' := by
  have both : ∀ {ls gs g}, Parse ls gs g → texts .str g = [] ∨ texts .form g = [] := by
    intro ls gs g h
    by_cases hs : texts .str g = []
    · exact .inl hs
    · right
      have := parse_str h (parse_texts_str h hs)
      rw [numForms_eq] at this
      exact List.length_eq_zero_iff.mp this
  have mono : ∀ {ls : List Str} {line g}, GoodItems ls g → GoodItems (ls ++ [line]) g := by
    intro ls line g h
    exact ⟨fun l hl => ⟨List.mem_append_left _ (h.1 l hl).1, (h.1 l hl).2⟩, h.2⟩
  have one : ∀ {n line x}, IsItem n line x → ∀ l ∈ comments [x], l = line ∧ ∃ t, l = 35 :: t := by
    intro n line x hx l hl
    cases hx with
    | comment t =>
      have hl : l = 35 :: t := by simpa [comments] using hl
      exact ⟨hl, t, hl⟩
    | field f q d hq => simp [comments] at hl
    | more t d hq => simp [comments] at hl
  induction h with
  | nil =>
    intro g' hg
    simp only [List.nil_append, List.mem_singleton] at hg
    subst hg
    exact ⟨by simp [comments], .inl rfl⟩
  | @same ls gs g line x hp hx hs ih =>
    intro g' hg
    simp only [List.mem_append, List.mem_singleton] at hg
    rcases hg with hg | rfl
    · exact mono (ih g' (List.mem_append_left _ hg))
    · refine ⟨fun l hl => ?_, both (Parse.same hp hx hs)⟩
      rw [comments_append, List.mem_append] at hl
      rcases hl with hl | hl
      · have := (ih g (by simp)).1 l hl
        exact ⟨List.mem_append_left _ this.1, this.2⟩
      · obtain ⟨h1, h2⟩ := one hx l hl
        exact ⟨by rw [h1]; simp, h2⟩
  | @next ls gs g line x hp hx hs ih =>
    intro g' hg
    rw [List.append_assoc, List.mem_append] at hg
    rcases hg with hg | hg
    · exact mono (ih g' (List.mem_append_left _ hg))
    · simp only [List.cons_append, List.nil_append, List.mem_cons, List.not_mem_nil, or_false] at hg
      rcases hg with rfl | rfl
      · exact mono (ih g' (by simp))
      · refine ⟨fun l hl => ?_, both (Parse.next hp hx hs)⟩
        obtain ⟨h1, h2⟩ := one hx l hl
        exact ⟨by rw [h1]; simp, h2⟩

theorem splitByte_sub (c : UInt8) (s : Str) : ∀ l ∈ GoStr.splitByte c s, ∀ x ∈ l, x ∈ s := by
  have h : ∀ ls : List Str, ∀ l ∈ ls, ∀ x ∈ l, x ∈ List.intercalate [c] ls := by
    intro ls
    induction ls with
    | nil => simp
    | cons a ls ih =>
      intro l hl x hx
      cases ls with
      | nil =>
        simp only [List.mem_singleton] at hl
        subst hl
        simpa [List.intercalate] using hx
      | cons b ls =>
        have e : List.intercalate [c] (a :: b :: ls) = a ++ [c] ++ List.intercalate [c] (b :: ls) := by
          simp [List.intercalate, List.intersperse]
        rw [e]
        rw [List.mem_cons] at hl
        rcases hl with rfl | hl
        · simp [hx]
        · have := ih l hl x hx
          simp [this]
  intro l hl x hx
  have := h _ l hl x hx
  rwa [GoStr.intercalate_splitByte] at this

/-- **C87** Every entry of a file that `ReadPo` returned can be saved: it has comment lines only as
comments, a translation or forms but not both, and a plural id only if it is plural. -/
theorem C87_entries (c : Str) (f : File) (h : readPo c = .ok f) :
    Consistent f ∧ ∀ p ∈ f.entries, GoodEntry p.2 := by
  obtain ⟨-, es, ⟨gs, g, hp, rfl⟩, rfl⟩ := (C26_ok_iff c f).mp h
  refine ⟨foldl_consistent _, fun p hp' => ?_⟩
  have hm := foldl_mem _ p hp'
  simp only [List.mem_filter, List.mem_map, decide_eq_true_eq] at hm
  obtain ⟨⟨g', hg', he⟩, ht⟩ := hm
  obtain ⟨h1, h2⟩ := parse_good hp g' hg'
  rw [← he] at ht ⊢
  refine ⟨fun l hl => ?_, ht, ?_, ?_⟩
  · obtain ⟨hl1, hl2⟩ := h1 l hl
    unfold meaningfulLines at hl1
    have hm := (List.mem_filter.mp hl1).1
    refine ⟨hl2, GoStr.splitByte_not_mem _ _ l hm, fun h13 => ?_⟩
    have := splitByte_sub _ _ l hm 13 h13
    simp at this
  · rcases h2 with h2 | h2
    · left; simp [entryOf, h2]
    · right; exact h2
  · intro hpl
    have : texts .id2 g' = [] := by simpa [entryOf] using hpl
    simp [entryOf, this]

/-- **C87** Reading any PO text, saving the file and reading again loses nothing and changes nothing: the
same entries with the same comments, whatever the text and however the map is ranged over. -/
theorem C87_no_loss (P : Nat → Bool) (h10 : P 10 = false) (h13 : P 13 = false) (c : Str) (f : File)
    (h : readPo c = .ok f) (hne : f.entries ≠ []) (es : List Entry) (hs : SortedEntry f es) :
    ∃ g, readPo (savePo P es) = .ok g ∧ ∀ k, g.entries.get? k = f.entries.get? k := by
  obtain ⟨hf, hg⟩ := C87_entries c f h
  exact C21_round_trip P h10 h13 f hf hne hg es hs

theorem perm_of_get (f g : File) (hf : Consistent f) (hg : Consistent g)
    (h : ∀ k, g.entries.get? k = f.entries.get? k) : f.entries.Perm g.entries := by
  have nd : ∀ {f : File}, Consistent f → f.entries.Nodup := fun hf => List.Nodup.of_map _ hf.1
  rw [List.perm_ext_iff_of_nodup (nd hf) (nd hg)]
  intro p
  rw [← GMap.get?_iff _ hf.1 p.1 p.2, ← GMap.get?_iff _ hg.1 p.1 p.2, h]

/-- **C87** Saving what was saved gives the same bytes, if no two entries have the same sort key. -/
theorem C87_stable (P : Nat → Bool) (h10 : P 10 = false) (h13 : P 13 = false) (c : Str) (f : File)
    (h : readPo c = .ok f) (hne : f.entries ≠ []) (hk : (f.entries.vals.map Entry.sortKey).Nodup)
    (es : List Entry) (hs : SortedEntry f es) (g : File) (hr : readPo (savePo P es) = .ok g)
    (es' : List Entry) (hs' : SortedEntry g es') : savePo P es' = savePo P es := by
  obtain ⟨g', hg', he⟩ := C87_no_loss P h10 h13 c f h hne es hs
  rw [hr] at hg'
  cases hg'
  have hp := perm_of_get f g (C87_entries c f h).1 (C87_entries _ g hr).1 he
  exact (C28_deterministic P f g hp es es' hs hs' hk).2.1.symm

/-- Two files with the same entries and the same headers answer alike. -/
theorem same_answers (es es' : List Entry) (hent : ∀ k, (es.foldl File.addEntry {}).entries.get? k =
      (es'.foldl File.addEntry {}).entries.get? k)
    (hget : ∀ k, ((es.foldl File.addEntry {}).getHeader k).1 = ((es'.foldl File.addEntry {}).getHeader k).1)
    (E : Fmt.Env α) (dg : Plural.Diag) (cs : List (Call α)) (hcs : ∀ c ∈ cs, c.isLookup = true)
    (c : Call α) (hc : c.isLookup = true) :
    (c.exec E dg (execAll E dg (es.foldl File.addEntry {}) cs)).1 =
      (c.exec E dg (execAll E dg (es'.foldl File.addEntry {}) cs)).1 := by
  rw [C17_lookups_pure E dg _ cs hcs c, C17_lookups_pure E dg _ cs hcs c]
  have r1 := initPlural_ruleOk _ (foldl_ruleOk es {} (.inl rfl))
  have r2 := initPlural_ruleOk _ (foldl_ruleOk es' {} (.inl rfl))
  have hpf := hget hPluralForms
  rw [getHeader_eq, getHeader_eq] at hpf
  rw [hpf, ← r2] at r1
  clear r2 hpf
  generalize es.foldl File.addEntry {} = g at *
  generalize es'.foldl File.addEntry {} = g' at *
  cases c with
  | add e => simp [Call.isLookup] at hc
  | header k => simp only [Call.exec, hget]
  | lang =>
    simp only [Call.exec, File.lang]
    rw [hget hLanguage]
  | x ctxt id args => simp only [Call.exec, File.x, hent]
  | xn ctxt id id2 n args =>
    simp only [Call.exec, File.xn, hent]
    cases g'.entries.get? (key ctxt id) with
    | none => rfl
    | some e =>
      dsimp only
      split
      · rfl
      · simp only [r1]

/-- **C87** If the text has one header at most, and no message with a context and an empty id, the file
read again answers every sequence of lookups like the file read first: languages, headers, translations
and plural translations. -/
theorem C87_same_lookups (P : Nat → Bool) (h10 : P 10 = false) (h13 : P 13 = false) (c : Str) (f : File)
    (h : readPo c = .ok f) (hne : f.entries ≠ []) (ts : List Entry) (hts : PoText c ts)
    (hhd : ∀ e ∈ ts, Translated e → e.id = [] → e.ctxt = [])
    (hone : (ts.filter fun e => Translated e ∧ e.id = []).length ≤ 1)
    (es : List Entry) (hs : SortedEntry f es) :
    ∃ g, readPo (savePo P es) = .ok g ∧
      ∀ (E : Fmt.Env α) (dg : Plural.Diag) (cs : List (Call α)), (∀ c ∈ cs, c.isLookup = true) →
        ∀ c : Call α, c.isLookup = true →
          (c.exec E dg (execAll E dg g cs)).1 = (c.exec E dg (execAll E dg f cs)).1 := by
  obtain ⟨hcon, hgood⟩ := C87_entries c f h
  obtain ⟨-, ts', hts', hfold⟩ := (C26_ok_iff c f).mp h
  obtain rfl := text_unique c ts ts' hts hts'
  have mem : ∀ e ∈ es, ∃ p ∈ f.entries, p.2 = e := by
    intro e he
    have := hs.1.subset he
    simpa only [GMap.vals, List.mem_map] using this
  have mem' : ∀ p ∈ f.entries, p.2 ∈ ts ∧ Translated p.2 := by
    intro p hp
    rw [hfold] at hp
    have := foldl_mem _ p hp
    simpa only [List.mem_filter, decide_eq_true_eq] using this
  have hesne : es ≠ [] := by
    rintro rfl
    have := hs.1.length_eq
    simp [GMap.vals] at this
    exact hne (List.length_eq_zero_iff.mp this.symm)
  refine ⟨_, savePo_reads P h10 h13 es hesne ?_, ?_⟩
  · intro e he; obtain ⟨p, hp, rfl⟩ := mem e he; exact hgood p hp
  intro E dg cs hcs c hc
  have hent : ∀ k, (es.foldl File.addEntry {}).entries.get? k = f.entries.get? k := by
    intro k
    rw [foldl_addEntry_entries, get_of_perm f hcon es hs.1 k]
    simp [GMap.get?]
  have hfind : (ts.filter fun e => Translated e).find? (fun e => e.id = []) = f.entries.get? (key [] []) := by
    rw [hfold, foldl_addEntry_entries]
    have e : ((ts.filter fun e => Translated e).filter fun e => e.key = key [] []) =
        (ts.filter fun e => Translated e).filter fun e => e.id = [] := by
      apply List.filter_congr
      intro e he
      simp only [List.mem_filter, decide_eq_true_eq] at he
      rw [decide_eq_decide]
      constructor
      · intro hk
        exact (key_header hk).2
      · intro hi
        show key e.ctxt e.id = _
        rw [hi, hhd e he.1 he.2 hi]
    rw [e, ← List.head?_filter]
    have hlen : ((ts.filter fun e => Translated e).filter fun e => e.id = []).length ≤ 1 := by
      rw [List.filter_filter]
      refine Nat.le_trans (Nat.le_of_eq ?_) hone
      congr 1
      apply List.filter_congr
      intro e _
      simp [Bool.and_comm]
    generalize ((ts.filter fun e => Translated e).filter fun e => decide (e.id = [])) = l at hlen
    match l, hlen with
    | [], _ => rfl
    | [x], _ => rfl
  rw [hfold] at hent ⊢
  refine same_answers _ _ hent (fun k => ?_) E dg cs hcs c hc
  apply Option.ext
  intro v
  rw [read_headers _ k v,
    read_headers _ k v, hfind,
    find_header f hcon (fun p hp => hhd _ (mem' p hp).1 (mem' p hp).2) es hs.1]

/-- **C87** One header is needed: of two, the first is in force in the file read, the second after saving
and reading again. -/
theorem C87_two_headers :
    let es : List Entry := [{ str := b!"Language: de\n" }]
    ∃ f g, readPo b!"msgid \"\"\nmsgstr \"Language: fr\\n\"\n\nmsgid \"\"\nmsgstr \"Language: de\\n\"\n" = .ok f ∧
      SortedEntry f es ∧ readPo (savePo asciiPrint es) = .ok g ∧ f.lang.1 = b!"fr" ∧ g.lang.1 = b!"de" := by
  refine ⟨([{ str := b!"Language: fr\n" }, { str := b!"Language: de\n" }] : List Entry).foldl File.addEntry {},
    ([{ str := b!"Language: de\n" }] : List Entry).foldl File.addEntry {}, by decide +kernel,
    ⟨by decide, by simp⟩, by decide +kernel, by decide +kernel, by decide +kernel⟩

/-- A text meeting the hypotheses: comments, a context, forms and a header. -/
example : ∃ f, readPo sample = .ok f ∧ f.entries ≠ [] ∧ (f.entries.vals.map Entry.sortKey).Nodup ∧
    (∀ e ∈ sampleEntries, 4 ∉ e.ctxt) ∧ (∀ e ∈ sampleEntries, Translated e → e.id = [] → e.ctxt = []) ∧
    (sampleEntries.filter fun e => Translated e ∧ e.id = []).length ≤ 1 ∧
    SortedEntry f [sampleEntries[0], sampleEntries[2], sampleEntries[1]] := by
  refine ⟨_, readPo0_text false _ (by simp [sample]) _ sample_text, by decide, by decide, by decide, by decide,
    by decide, by decide, ?_⟩
  simp only [List.pairwise_cons, List.mem_cons, List.not_mem_nil, or_false, forall_eq_or_imp, forall_eq,
    IsEmpty.forall_iff, implies_true]
  decide

/-! ## MO files -/

theorem moMsg_shape (id str : Str) (e : Entry) (h : MoMsg id str e) :
    e.cmts = [] ∧ 4 ∉ e.ctxt ∧ 0 ∉ e.id ∧
    (e.isPlural = true → e.str = [] ∧ e.strN ≠ [] ∧ ∀ s ∈ e.strN, 0 ∉ s) ∧
    (e.isPlural = false → e.id2 = [] ∧ e.strN = []) := by
  obtain ⟨hc, h⟩ := h
  have body : ∀ rest, BodyOf rest str e → 0 ∉ e.id ∧
      (e.isPlural = true → e.str = [] ∧ e.strN ≠ [] ∧ ∀ s ∈ e.strN, 0 ∉ s) ∧
      (e.isPlural = false → e.id2 = [] ∧ e.strN = []) := by
    rintro rest (⟨h1, h2, h3, h4, h5, h6⟩ | ⟨a, b, h1, h2, h3, h4, h5, h6, h7, h8, -⟩)
    · exact ⟨by rw [h2]; exact h1, by rw [h3]; simp, fun _ => ⟨h4, h6⟩⟩
    · exact ⟨by rw [h3]; exact h2, fun _ => ⟨h6, h7, h8⟩, by rw [h4]; simp⟩
  rcases h with ⟨-, h2, h3⟩ | ⟨ctxt, rest, -, h2, h3, h4⟩
  · exact ⟨hc, by rw [h2]; simp, body _ h3⟩
  · exact ⟨hc, by rw [h3]; exact h2, body _ h4⟩

theorem readMo_shape (c : Str) (f : File) (h : readMo c = .ok f) :
    Consistent f ∧ ∀ p ∈ f.entries, ∃ id str, MoMsg id str p.2 := by
  have hcon : Consistent f := by
    obtain ⟨be, ps, -, rfl⟩ := (readMo_iff c f).mp h
    exact foldl_consistent _
  refine ⟨hcon, fun p hp => ?_⟩
  obtain ⟨-, id, str, -, -, hm⟩ := C32_substrings c f h p.1 p.2 ((GMap.get?_iff _ hcon.1 _ _).mpr hp)
  exact ⟨id, str, hm⟩

/-- **C87** The same for MO files, if no message without a context has an EOT in its ids. -/
theorem C87_mo (c : Str) (f : File) (h : readMo c = .ok f)
    (h4 : ∀ p ∈ f.entries, p.2.ctxt = [] → 4 ∉ p.2.id ∧ 4 ∉ p.2.id2)
    (es : List Entry) (hs : SortedEntry f es) (hlt : (saveMo es).length < 4294967296) :
    ∃ g, readMo (saveMo es) = .ok g ∧ ∀ k, g.entries.get? k = f.entries.get? k := by
  obtain ⟨hcon, hsh⟩ := readMo_shape c f h
  obtain ⟨g, hg, he⟩ := C30_round_trip f hcon (fun p hp => by
    obtain ⟨id, str, hm⟩ := hsh p hp
    obtain ⟨-, h1, h2, h3, h5⟩ := moMsg_shape _ _ _ hm
    exact ⟨h1, h4 p hp, h2, h3, h5⟩) es hs hlt
  refine ⟨g, hg, fun k => ?_⟩
  rw [he]
  cases hk : f.entries.get? k with
  | none => rfl
  | some e =>
    obtain ⟨id, str, hm⟩ := hsh _ (GMap.get?_mem _ _ _ hk)
    obtain ⟨h0, -⟩ := moMsg_shape _ _ _ hm
    simp only at h0
    rw [Option.map_some, ← h0]

/-- **C87** An MO file can be turned into a PO file without loss, if every message has a translation. -/
theorem C87_mo_to_po (P : Nat → Bool) (h10 : P 10 = false) (h13 : P 13 = false) (c : Str) (f : File)
    (h : readMo c = .ok f) (hne : f.entries ≠ []) (ht : ∀ p ∈ f.entries, Translated p.2)
    (es : List Entry) (hs : SortedEntry f es) :
    ∃ g, readPo (savePo P es) = .ok g ∧ ∀ k, g.entries.get? k = f.entries.get? k := by
  obtain ⟨hcon, hsh⟩ := readMo_shape c f h
  refine C21_round_trip P h10 h13 f hcon hne (fun p hp => ?_) es hs
  obtain ⟨id, str, hm⟩ := hsh p hp
  obtain ⟨h0, h1, h2, h3, h5⟩ := moMsg_shape _ _ _ hm
  refine ⟨by rw [h0]; simp, ht p hp, ?_, fun hf => (h5 hf).1⟩
  cases hpl : p.2.isPlural with
  | true => exact .inl (h3 hpl).1
  | false => exact .inr (h5 hpl).2

/-- **C87** The conditions are needed: an original string that starts with EOT is written without it, and
an untranslated message is not read from a PO file. -/
theorem C87_mo_conditions :
    (let e : Entry := { id := [97, 4, 98], str := b!"x" }
     readMo (moImage false [] [([4, 97, 4, 98], b!"x")]) = .ok (({} : File).addEntry e) ∧
       readMo (saveMo [e]) = .ok (({} : File).addEntry { ctxt := b!"a", id := b!"b", str := b!"x" })) ∧
    (let e : Entry := { id := b!"a" }
     readMo (moImage false [] [(b!"a", [])]) = .ok (({} : File).addEntry e) ∧
       readPo (savePo asciiPrint [e]) = .ok {}) := by
  refine ⟨⟨?_, ?_⟩, ?_, ?_⟩ <;> decide +kernel

/-- An MO file meeting the hypotheses. -/
example : ∃ f, readMo (saveMo [sampleEntries[0], sampleEntries[2], sampleEntries[1]]) = .ok f ∧ f.entries ≠ [] ∧
    (∀ p ∈ f.entries, p.2.ctxt = [] → 4 ∉ p.2.id ∧ 4 ∉ p.2.id2) ∧ ∀ p ∈ f.entries, Translated p.2 := by
  refine ⟨([sampleEntries[0], sampleEntries[2], { sampleEntries[1] with cmts := [] }] : List Entry).foldl File.addEntry {},
    by decide +kernel, by decide, by decide, by decide⟩

end Verif.Tr
