import Verif.Lemmas.PoWrite
import Verif.Props.C22_C26
/-! # C21, C27: what is saved as PO or POT reads back -/
namespace Verif.Tr
open Verif
set_option linter.unusedSimpArgs false

/-- A comment line: it starts with `#` and has no line ends. -/
def GoodComment (c : Str) : Prop := (∃ t, c = 35 :: t) ∧ 10 ∉ c ∧ 13 ∉ c

/-- An entry that a PO file can express: it has a translation, which is either single or plural forms,
and a plural id only if it is a plural entry. -/
def GoodEntry (e : Entry) : Prop :=
  (∀ c ∈ e.cmts, GoodComment c) ∧ (e.str ≠ [] ∨ e.strN ≠ []) ∧ (e.str = [] ∨ e.strN = []) ∧
    (e.isPlural = false → e.id2 = [])

/-- Entries are stored under their keys. -/
def Consistent (f : File) : Prop :=
  f.entries.keys.Nodup ∧ ∀ p ∈ f.entries, p.1 = key p.2.ctxt p.2.id

/-- Every file built by calls is consistent. -/
theorem C21_consistent {α : Type} (E : Fmt.Env α) (dg : Plural.Diag) (cs : List (Call α)) :
    Consistent (execAll E dg {} cs) := by
  induction cs using List.reverseRecOn with
  | nil => exact ⟨by simp [execAll, GMap.keys], by simp [execAll]⟩
  | append_singleton cs c ih =>
    rw [execAll_snoc]
    cases hc : c.isLookup with
    | true =>
      unfold Consistent
      rw [exec_lookup_entries E dg _ c hc]
      exact ih
    | false =>
      cases c with
      | add e =>
        unfold Consistent
        rw [exec_add_entries]
        refine ⟨GMap.nodup_set _ _ _ ih.1, ?_⟩
        intro p hp
        have hg := (GMap.get?_iff _ (GMap.nodup_set _ e.key e ih.1) p.1 p.2).mpr hp
        rw [GMap.get?_set] at hg
        split at hg
        · rename_i hk
          cases hg
          exact hk
        · exact ih.2 p (GMap.get?_mem _ _ _ hg)
      | _ => simp [Call.isLookup] at hc

/-- How an entry is written as PO. -/
def poShape (e : Entry) : Shape where
  cmts := e.cmts
  ctxt := e.ctxt
  id := e.id
  id2 := if e.isPlural then some e.id2 else none
  str := if e.str ≠ [] then some e.str else none
  forms := e.strN

theorem writeComments_eq (e : Entry) : writeComments e = unlines e.cmts := rfl

theorem word_names : Field.word 0 .ctxt = b!"msgctxt" ∧ Field.word 0 .id = b!"msgid" ∧
    Field.word 0 .id2 = b!"msgid_plural" ∧ Field.word 0 .str = b!"msgstr" := ⟨rfl, rfl, rfl, rfl⟩

theorem poEntry_eq (P : Nat → Bool) (e : Entry) :
    poEntry P e = unlines ((poShape e).lines P ++ [[]]) := by
  unfold poEntry
  have h := fun f s => writeString_eq P 0 f s
  obtain ⟨w1, w2, w3, w4⟩ := word_names
  have h1 := h .ctxt; have h2 := h .id; have h3 := h .id2; have h4 := h .str
  rw [w1] at h1; rw [w2] at h2; rw [w3] at h3; rw [w4] at h4
  rw [h1, h2, h3, h4, writeForms_eq, writeComments_eq]
  simp only [Shape.lines, poShape, unlines_append]
  by_cases hc : e.ctxt = [] <;> by_cases hp : e.isPlural <;> by_cases hs : e.str = [] <;>
    simp [hc, hp, hs, optLines, unlines]

theorem poShape_entry (e : Entry) (h : GoodEntry e) : (poShape e).entry = e := by
  obtain ⟨-, -, -, h2⟩ := h
  obtain ⟨cmts, ctxt, id, isPlural, id2, str, strN⟩ := e
  simp only [poShape, Shape.entry, Entry.mk.injEq, true_and]
  cases isPlural <;> by_cases hs : str = [] <;> simp_all

theorem savePo_eq (P : Nat → Bool) (es : List Entry) : savePo P es = shapeText P (es.map poShape) := by
  unfold savePo shapeText
  rw [List.flatMap_map]
  apply List.flatMap_congr
  intro e _
  exact poEntry_eq P e

theorem shapeText_ne_nil (P : Nat → Bool) (ss : List Shape) (h : ss ≠ []) : shapeText P ss ≠ [] := by
  cases ss with
  | nil => exact absurd rfl h
  | cons s ss => simp [shapeText, unlines]

theorem get_of_perm (f : File) (hf : Consistent f) (es : List Entry) (hp : es.Perm f.entries.vals) (k : Str) :
    (es.filter fun e => e.key = k).getLast? = f.entries.get? k := by
  have hperm : (es.filter fun e => e.key = k).Perm (f.entries.vals.filter fun e => e.key = k) := hp.filter _
  cases hg : f.entries.get? k with
  | none =>
    have : f.entries.vals.filter (fun e => e.key = k) = [] := by
      rw [List.filter_eq_nil_iff]
      intro e he
      simp only [GMap.vals, List.mem_map] at he
      obtain ⟨p, hp1, rfl⟩ := he
      simp only [decide_eq_true_eq]
      intro hk
      have := hf.2 p hp1
      rw [GMap.get?_eq_none] at hg
      apply hg
      simp only [GMap.keys, List.mem_map]
      exact ⟨p, hp1, by rw [this]; exact hk⟩
    rw [this] at hperm
    rw [hperm.eq_nil]; rfl
  | some e =>
    have hmem := GMap.get?_mem _ _ _ hg
    have hall : ∀ x ∈ es.filter (fun e => e.key = k), x = e := by
      intro x hx
      have hx' := hperm.subset hx
      simp only [GMap.vals, List.mem_filter, List.mem_map, decide_eq_true_eq] at hx'
      obtain ⟨⟨p, hp1, rfl⟩, hk⟩ := hx'
      have h1 := hf.2 p hp1
      have h2 := (GMap.get?_iff _ hf.1 p.1 p.2).mpr hp1
      have h3 : p.1 = k := by rw [h1]; exact hk
      rw [h3, hg] at h2
      cases h2; rfl
    have hin : e ∈ es.filter fun e => e.key = k := by
      apply hperm.mem_iff.mpr
      simp only [GMap.vals, List.mem_filter, List.mem_map, decide_eq_true_eq]
      exact ⟨⟨(k, e), hmem, rfl⟩, (hf.2 _ hmem).symm⟩
    cases hl : (es.filter fun e => e.key = k).getLast? with
    | none => rw [List.getLast?_eq_none_iff] at hl; rw [hl] at hin; cases hin
    | some x => rw [hall x (List.mem_of_mem_getLast? hl)]

/-- **C21** Reading back what `SaveAsPo` wrote gives the same entries, whatever the order in which the
map was ranged over and the sort left them. -/
theorem C21_round_trip (P : Nat → Bool) (h10 : P 10 = false) (h13 : P 13 = false) (f : File)
    (hf : Consistent f) (hne : f.entries ≠ []) (hgood : ∀ p ∈ f.entries, GoodEntry p.2)
    (es : List Entry) (hs : SortedEntry f es) :
    ∃ g, readPo (savePo P es) = .ok g ∧ ∀ k, g.entries.get? k = f.entries.get? k := by
  have hge : ∀ e ∈ es, GoodEntry e := by
    intro e he
    have := hs.1.subset he
    simp only [GMap.vals, List.mem_map] at this
    obtain ⟨p, hp, rfl⟩ := this
    exact hgood p hp
  have hesne : es ≠ [] := by
    rintro rfl
    have := hs.1.length_eq
    simp [GMap.vals] at this
    exact hne (List.length_eq_zero_iff.mp this.symm)
  have hp := shapeText_parses P h10 h13 (es.map poShape) (by simpa using hesne) (by
    intro s hs'
    simp only [List.mem_map] at hs'
    obtain ⟨e, he, rfl⟩ := hs'
    obtain ⟨g1, g2, g3, g4⟩ := hge e he
    refine ⟨fun c hc => ⟨(g1 c hc).1, (g1 c hc).2⟩, ?_, ?_⟩
    · rcases g3 with g3 | g3
      · left; simp [poShape, g3]
      · right; exact g3
    · rcases g2 with g2 | g2
      · left; simp [poShape, g2]
      · right; exact g2)
  have hmap : (es.map poShape).map Shape.entry = es := by
    rw [List.map_map]
    conv => rhs; rw [← List.map_id es]
    apply List.map_congr_left
    intro e he
    exact poShape_entry e (hge e he)
  rw [hmap, ← savePo_eq] at hp
  have hr := (C26_ok_iff (savePo P es) _).mpr ⟨by rw [savePo_eq]; exact shapeText_ne_nil P _ (by simpa using hesne), es, hp, rfl⟩
  refine ⟨_, hr, ?_⟩
  intro k
  have hfil : (es.filter fun e => Translated e) = es := by
    rw [List.filter_eq_self]
    intro e he
    exact decide_eq_true (hge e he).2.1
  rw [hfil, foldl_addEntry_entries, get_of_perm f hf es hs.1 k]
  simp [GMap.get?]

/-- The sample file meets the hypotheses. -/
example : ∃ f : File, ∃ es, Consistent f ∧ f.entries ≠ [] ∧ (∀ p ∈ f.entries, GoodEntry p.2) ∧ SortedEntry f es ∧
    es.length = 3 ∧ savePo asciiPrint es = b!"msgid \"\"\nmsgstr \"Language: fr\\n\"\n\nmsgid \"one\"\nmsgid_plural \"many\"\nmsgstr[0] \"un\"\nmsgstr[1] \"des\"\n\n#: a.go:1\nmsgctxt \"c\"\nmsgid \"xy\"\nmsgstr \"z\"\n\n" := by
  let e0 : Entry := { str := b!"Language: fr\n" }
  let e1 : Entry := { cmts := [b!"#: a.go:1"], ctxt := b!"c", id := b!"xy", str := b!"z" }
  let e2 : Entry := { id := b!"one", isPlural := true, id2 := b!"many", strN := [b!"un", b!"des"] }
  refine ⟨{ entries := [(e1.key, e1), (e0.key, e0), (e2.key, e2)] }, [e0, e2, e1], ⟨by decide, by decide⟩, by simp,
    ?_, ⟨?_, ?_⟩, rfl, by decide +kernel⟩
  · intro p hp
    simp only [List.mem_cons, List.not_mem_nil, or_false] at hp
    rcases hp with rfl | rfl | rfl
    · exact ⟨by intro c hc; simp [e1] at hc; subst hc; exact ⟨⟨_, rfl⟩, by decide, by decide⟩, by decide, by decide, by decide⟩
    · exact ⟨by intro c hc; simp [e0] at hc, by decide, by decide, by decide⟩
    · exact ⟨by intro c hc; simp [e2] at hc, by decide, by decide, by decide⟩
  · decide
  · simp only [List.pairwise_cons, List.mem_cons, List.not_mem_nil, or_false, forall_eq_or_imp, forall_eq,
      IsEmpty.forall_iff, implies_true, and_true]
    decide

/-- **C21** The conditions are needed: with both a single translation and plural forms the forms come
back as an entry of their own, for the empty message. -/
theorem C21_both_kinds : readPo (savePo asciiPrint [{ id := b!"a", str := b!"b", strN := [b!"c"] }]) =
    .ok (([{ id := b!"a", str := b!"b" }, { strN := [b!"c"] }] : List Entry).foldl File.addEntry {}) := by
  decide +kernel

/-- **C21** A file without entries is saved as the empty text, which `ReadPo` rejects. -/
theorem C21_empty (P : Nat → Bool) : readPo (savePo P []) = .err := rfl

/-- How an entry is written as POT. -/
def potShape (e : Entry) : Shape where
  cmts := e.cmts
  ctxt := e.ctxt
  id := e.id
  id2 := if e.isPlural then some e.id2 else none
  str := if e.isPlural then none else if e.id = [] then some e.str else some []
  forms := if e.isPlural then [[], []] else []

/-- What of an entry a template keeps: no translation, except the text of a header. -/
def template (e : Entry) : Entry :=
  { e with
    id2 := if e.isPlural then e.id2 else []
    str := if e.id = [] ∧ e.isPlural = false then e.str else []
    strN := if e.isPlural then [[], []] else [] }

theorem potEntry_eq (P : Nat → Bool) (e : Entry) :
    potEntry P e = unlines ((potShape e).lines P ++ [[]]) := by
  unfold potEntry
  have h := fun f s => writeString_eq P 0 f s
  obtain ⟨w1, w2, w3, w4⟩ := word_names
  have h1 := h .ctxt; have h2 := h .id; have h3 := h .id2; have h4 := h .str
  rw [w1] at h1; rw [w2] at h2; rw [w3] at h3; rw [w4] at h4
  have h5 := fun n s => writeString_eq P n .form s
  simp only [word_form] at h5
  rw [h1, h2, h3, h4, h4, h5, h5, writeComments_eq]
  simp only [Shape.lines, potShape, unlines_append]
  by_cases hc : e.ctxt = [] <;> by_cases hp : e.isPlural <;> by_cases hs : e.id = [] <;>
    simp [hc, hp, hs, optLines, formLines, unlines]

theorem potShape_entry (e : Entry) : (potShape e).entry = template e := by
  obtain ⟨cmts, ctxt, id, isPlural, id2, str, strN⟩ := e
  simp only [potShape, Shape.entry, template, Entry.mk.injEq, true_and]
  cases isPlural <;> by_cases hs : id = [] <;> simp_all

theorem savePot_eq (P : Nat → Bool) (es : List Entry) : savePot P es = shapeText P (es.map potShape) := by
  unfold savePot shapeText
  rw [List.flatMap_map]
  apply List.flatMap_congr
  intro e _
  exact potEntry_eq P e

theorem fileOf_pot (es : List Entry) : fileOf true es = es.foldl File.addEntry {} := by
  unfold fileOf
  congr 1

/-- **C27** Reading with `ReadPot` what `SaveAsPot` wrote gives the templates of the entries: comments,
context, id and plural id, with empty translations, and the header text. -/
theorem C27_round_trip (P : Nat → Bool) (h10 : P 10 = false) (h13 : P 13 = false) (f : File)
    (hf : Consistent f) (hne : f.entries ≠ []) (hgood : ∀ p ∈ f.entries, ∀ c ∈ p.2.cmts, GoodComment c)
    (es : List Entry) (hs : SortedEntry f es) :
    ∃ g, readPot (savePot P es) = .ok g ∧ ∀ k, g.entries.get? k = (f.entries.get? k).map template := by
  have hge : ∀ e ∈ es, ∀ c ∈ e.cmts, GoodComment c := by
    intro e he
    have := hs.1.subset he
    simp only [GMap.vals, List.mem_map] at this
    obtain ⟨p, hp, rfl⟩ := this
    exact hgood p hp
  have hesne : es ≠ [] := by
    rintro rfl
    have := hs.1.length_eq
    simp [GMap.vals] at this
    exact hne (List.length_eq_zero_iff.mp this.symm)
  have hp := shapeText_parses P h10 h13 (es.map potShape) (by simpa using hesne) (by
    intro s hs'
    simp only [List.mem_map] at hs'
    obtain ⟨e, he, rfl⟩ := hs'
    refine ⟨fun c hc => ⟨(hge e he c hc).1, (hge e he c hc).2⟩, ?_, ?_⟩
    · simp only [potShape]; cases e.isPlural <;> simp
    · simp only [potShape]; cases e.isPlural <;> by_cases hi : e.id = [] <;> simp [hi])
  have hmap : (es.map potShape).map Shape.entry = es.map template := by
    rw [List.map_map]
    apply List.map_congr_left
    intro e he
    exact potShape_entry e
  rw [hmap, ← savePot_eq] at hp
  have hnn : savePot P es ≠ [] := by rw [savePot_eq]; exact shapeText_ne_nil P _ (by simpa using hesne)
  refine ⟨_, readPo0_text true _ hnn _ hp, ?_⟩
  intro k
  rw [fileOf_pot, foldl_addEntry_entries]
  have hfil : ((es.map template).filter fun e => e.key = k) = (es.filter fun e => e.key = k).map template := by
    rw [List.filter_map]
    congr 1
  rw [hfil, List.getLast?_map, get_of_perm f hf es hs.1 k]
  simp [GMap.get?]

/-- A template: the translation of a message is dropped, the header stays. -/
example : template { cmts := [b!"#: a.go:1"], id := b!"one", isPlural := true, id2 := b!"many", strN := [b!"un"] } =
    { cmts := [b!"#: a.go:1"], id := b!"one", isPlural := true, id2 := b!"many", strN := [[], []] } ∧
    template { id := b!"x", str := b!"y" } = { id := b!"x" } ∧
    template { str := b!"Language: fr\n" } = { str := b!"Language: fr\n" } := by decide

/-- Reading the sample as POT, saving and reading again. -/
example : readPot (savePot asciiPrint [{ str := b!"H: 1\n" }, { id := b!"x", str := b!"y" }]) =
    .ok (([{ str := b!"H: 1\n" }, { id := b!"x" }] : List Entry).foldl File.addEntry {}) := by decide +kernel

end Verif.Tr
