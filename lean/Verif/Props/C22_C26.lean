import Verif.Lemmas.PoRead
import Verif.Lemmas.File
import Mathlib.Data.List.Induction
/-! # C16, C22-C26: reading PO and POT text -/
namespace Verif.Tr
open Verif
set_option linter.unusedSimpArgs false

/-- A PO text with a header, a message with a context and a continuation line, and a plural message. -/
def sample : Str := b!"msgid \"\"\nmsgstr \"Language: fr\\n\"\n\n#: a.go:1\nmsgctxt \"c\"\nmsgid \"x\"\n\"y\"\nmsgstr \"z\"\n\nmsgid \"one\"\nmsgid_plural \"many\"\nmsgstr[0] \"un\"\nmsgstr[1] \"des\"\n"

/-- The entries of `sample`. -/
def sampleEntries : List Entry :=
  [{ str := b!"Language: fr\n" },
   { cmts := [b!"#: a.go:1"], ctxt := b!"c", id := b!"xy", str := b!"z" },
   { id := b!"one", isPlural := true, id2 := b!"many", strN := [b!"un", b!"des"] }]

/-- Lines of a sample are parsed. -/
theorem sample_text : PoText sample sampleEntries := by
  refine ⟨[[.field .id [], .field .str b!"Language: fr\n"],
    [.comment b!"#: a.go:1", .field .ctxt b!"c", .field .id b!"x", .more b!"y", .field .str b!"z"]],
    [.field .id b!"one", .field .id2 b!"many", .field .form b!"un", .field .form b!"des"], ?_, by decide⟩
  have hl : meaningfulLines sample = [b!"msgid \"\"", b!"msgstr \"Language: fr\\n\"", b!"#: a.go:1",
      b!"msgctxt \"c\"", b!"msgid \"x\"", b!"\"y\"", b!"msgstr \"z\"", b!"msgid \"one\"",
      b!"msgid_plural \"many\"", b!"msgstr[0] \"un\"", b!"msgstr[1] \"des\""] := by decide +kernel
  rw [hl]
  have i (n : Nat) (f : Field) (q d : Str) (h : Quote.unquote (GoStr.trimSpace q) = some d) :
    IsItem n (f.word n ++ 32 :: q) (.field f d) := .field f q d h
  have p1 := Parse.same .nil (i 0 .id b!"\"\"" [] (by decide)) (by simp [Starts, lastField])
  have p2 := Parse.same p1 (i 0 .str b!"\"Language: fr\\n\"" b!"Language: fr\n" (by decide)) (by simp [Starts, lastField])
  have p3 := Parse.next p2 (.comment b!": a.go:1") (by simp [Starts, lastField])
  have p4 := Parse.same p3 (i 0 .ctxt b!"\"c\"" b!"c" (by decide)) (by simp [Starts, lastField])
  have p5 := Parse.same p4 (i 0 .id b!"\"x\"" b!"x" (by decide)) (by simp [Starts, lastField])
  have p6 := Parse.same p5 (.more b!"y\"" b!"y" (by unfold Quotes; decide)) (by simp [Starts, lastField])
  have p7 := Parse.same p6 (i 0 .str b!"\"z\"" b!"z" (by decide)) (by simp [Starts, lastField])
  have p8 := Parse.next p7 (i 0 .id b!"\"one\"" b!"one" (by decide)) (by simp [Starts, lastField])
  have p9 := Parse.same p8 (i 0 .id2 b!"\"many\"" b!"many" (by decide)) (by simp [Starts, lastField])
  have p10 := Parse.same p9 (i 0 .form b!"\"un\"" b!"un" (by decide)) (by simp [Starts, lastField])
  have p11 := Parse.same p10 (i 1 .form b!"\"des\"" b!"des" (by decide)) (by simp [Starts, lastField])
  exact p11

/-- **C22** `ReadPo` terminates and never panics: it returns a file or an error. -/
theorem C22_total (c : Str) : (∃ f, readPo c = .ok f) ∨ readPo c = .err := by
  by_cases h : c = []
  · right; subst h; rfl
  · rcases text_or_malformed c with ⟨es, he⟩ | hm
    · left; exact ⟨_, readPo0_text false c h es he⟩
    · right; exact readPo0_malformed false c h hm

/-- Both outcomes occur. -/
example : (∃ f, readPo sample = .ok f) ∧ readPo b!"junk" = .err := by
  refine ⟨⟨_, readPo0_text false _ (by simp [sample]) _ sample_text⟩, by decide +kernel⟩

/-- **C26** `ReadPo` reports an error exactly for empty content and for content with a malformed
line. -/
theorem C26_error_iff (c : Str) : readPo c = .err ↔ c = [] ∨ Malformed c := by
  constructor
  · intro h
    by_cases hc : c = []
    · exact .inl hc
    · rcases text_or_malformed c with ⟨es, he⟩ | hm
      · rw [readPo, readPo0_text false c hc es he] at h; cases h
      · exact .inr hm
  · rintro (rfl | hm)
    · rfl
    · by_cases hc : c = []
      · subst hc; rfl
      · exact readPo0_malformed false c hc hm

/-- **C26** Otherwise the content is well-formed, and its entries are those the reader adds, one after
the other. -/
theorem C26_ok_iff (c : Str) (f : File) :
    readPo c = .ok f ↔ c ≠ [] ∧ ∃ es, PoText c es ∧ f = (es.filter fun e => Translated e).foldl File.addEntry {} := by
  have hfold : ∀ (es : List Entry) (f : File), es.foldl (addRead false) f =
      (es.filter fun e => Translated e).foldl File.addEntry f := by
    intro es
    induction es with
    | nil => intro f; rfl
    | cons e es ih =>
      intro f
      by_cases h : Translated e
      · have : e.isValid = true := by
          rcases h with h | h
          · simp [Entry.isValid, h]
          · simp [Entry.isValid, List.length_pos_iff, h]
        simp [h, ih, addRead, this]
      · have : e.isValid = false := by
          simp [Translated] at h
          simp [Entry.isValid, h.1, h.2]
        simp [h, ih, addRead, this]
  constructor
  · intro h
    by_cases hc : c = []
    · subst hc; cases h
    · refine ⟨hc, ?_⟩
      rcases text_or_malformed c with ⟨es, he⟩ | hm
      · rw [readPo, readPo0_text false c hc es he] at h
        cases h
        exact ⟨es, he, hfold _ _⟩
      · rw [readPo, readPo0_malformed false c hc hm] at h; cases h
  · rintro ⟨hc, es, he, rfl⟩
    rw [readPo, readPo0_text false c hc es he, fileOf, hfold]

/-- **C26** A text is not both well-formed and malformed, and its entries are determined. -/
theorem C26_exclusive (c : Str) : ((∃ es, PoText c es) ↔ ¬ Malformed c) ∧
    (∀ es es', PoText c es → PoText c es' → es = es') := by
  refine ⟨⟨?_, ?_⟩, text_unique c⟩
  · rintro ⟨es, he⟩ hm
    by_cases hc : c = []
    · subst hc
      obtain ⟨pre, line, post, gs, g, h, _⟩ := hm
      have : meaningfulLines [] = [] := by decide
      rw [this] at h
      simp at h
    · have h1 := readPo0_text false c hc es he
      rw [readPo0_malformed false c hc hm] at h1
      cases h1
  · intro h
    rcases text_or_malformed c with h' | h'
    · exact h'
    · exact absurd h' h

/-- Malformed texts: an unknown word, a string that is not closed, a plural form out of turn. -/
example : Malformed b!"junk" ∧ Malformed b!"msgid \"x" ∧ Malformed b!"msgid \"x\"\nmsgstr[1] \"y\"" := by
  have h (c : Str) (hc : c ≠ []) (hr : readPo c = .err) : Malformed c := by
    rcases (C26_error_iff c).mp hr with h | h
    · exact absurd h hc
    · exact h
  refine ⟨h _ (by simp) (by decide +kernel), h _ (by simp) (by decide +kernel), h _ (by simp) (by decide +kernel)⟩

/-- **C23** `ReadPot` panics exactly on content with a malformed line, and otherwise returns a file
or (for empty content) an error.  The claim that it never panics is false of the code, see
`C23_counterexample`. -/
theorem C23_exact (c : Str) : (readPot c = .panic ↔ Malformed c) ∧
    (readPot c = .err ↔ c = []) ∧ (¬ Malformed c → c ≠ [] → ∃ f, readPot c = .ok f) := by
  by_cases hc : c = []
  · subst hc
    refine ⟨⟨fun h => (by cases h), fun hm => ?_⟩, by simp [readPot, readPo0], fun _ h => absurd rfl h⟩
    obtain ⟨pre, line, post, gs, g, h, _⟩ := hm
    have : meaningfulLines [] = [] := by decide
    rw [this] at h
    simp at h
  · by_cases hm : Malformed c
    · have := readPo0_malformed true c hc hm
      rw [readPot, this]
      simp [hm, hc]
    · obtain ⟨es, he⟩ := (C26_exclusive c).1.mpr hm
      have := readPo0_text true c hc es he
      rw [readPot, this]
      simp [hm, hc]

/-- The full claim of C23. -/
def C23_full : Prop := ∀ c, readPot c ≠ .panic

/-- **C23** The full claim fails: a line that is no PO line makes `ReadPot` panic. -/
theorem C23_counterexample : ¬ C23_full := by
  intro h
  exact h b!"junk" (by decide +kernel)

/-- **C24** What `ReadPo` and `ReadPot` return depends only on the lines that are not blank, without
carriage returns. -/
theorem C24_meaningful_lines (c c' : Str) (hc : c ≠ []) (hc' : c' ≠ [])
    (h : meaningfulLines c = meaningfulLines c') : readPo c = readPo c' ∧ readPot c = readPot c' := by
  unfold readPo readPot
  rw [readPo0_eq _ c hc, readPo0_eq _ c hc, readPo0_eq _ c' hc', readPo0_eq _ c' hc', h]
  exact ⟨rfl, rfl⟩

/-- **C24** A carriage return can be inserted or removed anywhere. -/
theorem C24_carriage_return (a b : Str) (h : a ++ b ≠ []) :
    readPo (a ++ 13 :: b) = readPo (a ++ b) ∧ readPot (a ++ 13 :: b) = readPot (a ++ b) := by
  apply C24_meaningful_lines _ _ (by simp) h
  simp [meaningfulLines]

theorem removeCr_lines (ls : List Str) :
    (List.intercalate [10] ls).filter (· != 13) = List.intercalate [10] (ls.map fun l => l.filter (· != 13)) := by
  induction ls with
  | nil => rfl
  | cons a ls ih =>
    cases ls with
    | nil => simp [GoStr.intercalate_single]
    | cons b ls =>
      rw [GoStr.intercalate_cons_cons, List.filter_append, List.filter_cons, ih]
      simp only [List.map_cons, GoStr.intercalate_cons_cons]
      simp

theorem lines_meaningful (c : Str) (ls : List Str) (h : Lines c ls) :
    meaningfulLines c = (ls.map fun l => l.filter (· != 13)).filter fun l => ¬ Blank l := by
  obtain ⟨h0, h1, rfl⟩ := h
  unfold meaningfulLines
  rw [removeCr_lines, GoStr.splitByte_intercalate]
  · simpa using h0
  · intro l hl
    simp only [List.mem_map] at hl
    obtain ⟨l', hl', rfl⟩ := hl
    intro hm
    exact h1 l' hl' (List.mem_of_mem_filter hm)

/-- **C24** A blank line can be inserted or removed anywhere. -/
theorem C24_blank_line (c c' : Str) (hc : c ≠ []) (hc' : c' ≠ []) (pre post : List Str) (w : Str)
    (hw : Blank (w.filter (· != 13))) (h : Lines c (pre ++ post)) (h' : Lines c' (pre ++ w :: post)) :
    readPo c' = readPo c ∧ readPot c' = readPot c := by
  apply C24_meaningful_lines _ _ hc' hc
  rw [lines_meaningful c _ h, lines_meaningful c' _ h']
  simp [hw]

example : Lines b!"msgid \"a\"\nmsgstr \"b\"" ([b!"msgid \"a\""] ++ [b!"msgstr \"b\""]) ∧
    Lines b!"msgid \"a\"\n \t\nmsgstr \"b\"" ([b!"msgid \"a\""] ++ b!" \t" :: [b!"msgstr \"b\""]) ∧
    Blank (b!" \t".filter (· != 13)) := by
  refine ⟨⟨by simp, by decide, by decide⟩, ⟨by simp, by decide, by decide⟩, by decide⟩

/-- The empty content is the exception: it is an error, a blank line is not. -/
example : readPo [] = .err ∧ readPo [13] = .ok {} := by decide +kernel

theorem foldl_addEntry_entries (es : List Entry) (f : File) (k : Str) :
    (es.foldl File.addEntry f).entries.get? k =
      ((es.filter fun e => e.key = k).getLast?).or (f.entries.get? k) := by
  induction es generalizing f with
  | nil => simp
  | cons e es ih =>
    rw [List.foldl_cons, ih]
    have he : (f.addEntry e).entries = f.entries.set e.key e := by
      unfold File.addEntry
      dsimp only
      split
      · rw [initPlural_entries, initHeader_entries]
      · rfl
    rw [he, GMap.get?_set]
    by_cases hk : e.key = k
    · rw [if_pos hk.symm, List.filter_cons_of_pos (by simpa using hk), List.getLast?_cons]
      cases hl : (es.filter fun e => e.key = k).getLast? <;> simp
    · rw [if_neg (Ne.symm hk), List.filter_cons_of_neg (by simpa using hk)]

/-- **C25** A file read by `ReadPo` holds for each message the last translated entry of the text for
it, and nothing else.  (No context contains the EOT byte, see C12.) -/
theorem C25_last_translated (c : Str) (f : File) (es : List Entry) (h : readPo c = .ok f) (he : PoText c es)
    (hes : ∀ e ∈ es, 4 ∉ e.ctxt) (ctxt id : Str) (hctxt : 4 ∉ ctxt) :
    f.entries.get? (key ctxt id) = lastFor ctxt id (es.filter fun e => Translated e) := by
  obtain ⟨hc, es', he', rfl⟩ := (C26_ok_iff c f).mp h
  have := text_unique c es es' he he'
  subst this
  rw [foldl_addEntry_entries]
  simp only [GMap.get?, Option.or_none, lastFor]
  congr 1
  apply List.filter_congr
  intro e hm
  have h4 := hes e (List.mem_of_mem_filter hm)
  apply decide_eq_decide.mpr
  constructor
  · intro hk
    exact key_inj _ _ _ _ h4 hctxt hk
  · rintro ⟨h1, h2⟩
    rw [Entry.key, h1, h2]

/-- **C25** Without that condition: for each text the last translated entry whose context, EOT byte and id joined are
this text. -/
theorem C25_joined (c : Str) (f : File) (es : List Entry) (h : readPo c = .ok f) (he : PoText c es) (k : Str) :
    f.entries.get? k = (es.filter fun e => Translated e ∧ e.ctxt ++ 4 :: e.id = k).getLast? := by
  obtain ⟨hc, es', he', rfl⟩ := (C26_ok_iff c f).mp h
  obtain rfl := text_unique c es es' he he'
  rw [foldl_addEntry_entries]
  simp only [GMap.get?, Option.or_none, List.filter_filter]
  congr 1
  apply List.filter_congr
  intro e _
  simp [Entry.key, key, Bool.and_comm]

/-- **C25** Every entry of a file read by `ReadPo` is a translated entry of the text. -/
theorem C25_all_translated (c : Str) (f : File) (es : List Entry) (h : readPo c = .ok f) (he : PoText c es)
    (k : Str) (e : Entry) (hg : f.entries.get? k = some e) : e ∈ es ∧ Translated e ∧ k = key e.ctxt e.id := by
  obtain ⟨hc, es', he', rfl⟩ := (C26_ok_iff c f).mp h
  have := text_unique c es es' he he'
  subst this
  rw [foldl_addEntry_entries] at hg
  simp only [GMap.get?, Option.or_none] at hg
  have hm := List.mem_of_mem_getLast? hg
  simp only [List.mem_filter, decide_eq_true_eq] at hm
  exact ⟨hm.1.1, hm.1.2, hm.2.symm⟩

/-- An untranslated entry and an earlier translation do not show. -/
example : ∃ f, readPo b!"msgid \"a\"\nmsgstr \"b\"\nmsgid \"a\"\nmsgstr \"c\"\nmsgid \"a\"\nmsgstr \"\"" = .ok f ∧
    f.entries.get? (key [] b!"a") = some { id := b!"a", str := b!"c" } := by
  refine ⟨{ entries := [(key [] b!"a", { id := b!"a", str := b!"c" })] }, by decide +kernel, by decide⟩

theorem foldl_addEntry_headers (es : List Entry) (f : File) (h : GMap Str) (hf : f.headers = some h) :
    (es.foldl File.addEntry f).headers = some h := by
  induction es generalizing f with
  | nil => exact hf
  | cons e es ih =>
    rw [List.foldl_cons]
    apply ih
    unfold File.addEntry
    dsimp only
    split
    · rw [initHeader_of_some _ h (by exact hf)]
      unfold File.initPlural
      split
      · exact hf
      · simp only [File.getHeader]
        rw [initHeader_of_some _ h (by exact hf)]
        exact hf
    · exact hf

theorem initPlural_headers' (f : File) (h : GMap Str) (hf : f.headers = some h) :
    f.initPlural.headers = some h := by
  unfold File.initPlural
  split
  · exact hf
  · simp only [File.getHeader]
    rw [initHeader_of_some _ h hf]
    exact hf

theorem foldl_addEntry_noheader (es : List Entry) (f : File) (hes : ∀ e ∈ es, e.id ≠ [])
    (hf : f.headers = none) : (es.foldl File.addEntry f).headers = none := by
  induction es generalizing f with
  | nil => exact hf
  | cons e es ih =>
    rw [List.foldl_cons]
    apply ih _ (fun x hx => hes x (by simp [hx]))
    simp [File.addEntry, Entry.isHeader, hes e (by simp), hf]

/-- No other message has the key of the header entry. -/
theorem key_header {c i : Str} (h : key c i = key [] []) : c = [] ∧ i = [] := by
  have := congrArg List.length h
  simp only [key, List.length_append, List.length_cons, List.length_nil] at this
  exact ⟨List.length_eq_zero_iff.mp (by omega), List.length_eq_zero_iff.mp (by omega)⟩

/-- The headers of a read file: those of the first translated entry without id, if that has no
context either. -/
theorem read_headers (es : List Entry) (k v : Str) :
    ((es.foldl File.addEntry {}).getHeader k).1 = some v ↔
      ∃ e, es.find? (fun e => e.id = []) = some e ∧ e.ctxt = [] ∧ HeaderField e.str k v := by
  rw [getHeader_eq]
  cases hfd : es.find? (fun e => e.id = []) with
  | none =>
    simp only [List.find?_eq_none, decide_eq_true_eq] at hfd
    have hh := foldl_addEntry_noheader es {} hfd rfl
    have hg := foldl_addEntry_entries es {} (key [] [])
    have hnil : (es.filter fun e => e.key = key [] []) = [] := by
      rw [List.filter_eq_nil_iff]
      intro e he
      simp only [decide_eq_true_eq]
      intro hk
      exact hfd e he (key_header hk).2
    rw [hnil] at hg
    simp [File.heads, File.initHeader, hh, hg, GMap.get?]
  | some e =>
    rw [List.find?_eq_some_iff_append] at hfd
    obtain ⟨he, pre, post, rfl, hpre⟩ := hfd
    simp only [decide_eq_true_eq] at he
    have hpre' : ∀ x ∈ pre, x.id ≠ [] := by
      intro x hx; simpa using hpre x hx
    rw [List.foldl_append, List.foldl_cons]
    generalize hf1 : pre.foldl File.addEntry {} = f1
    have h1 : f1.headers = none := by rw [← hf1]; exact foldl_addEntry_noheader pre {} hpre' rfl
    have hg1 : f1.entries.get? (key [] []) = none := by
      rw [← hf1, foldl_addEntry_entries]
      have hnil : (pre.filter fun e => e.key = key [] []) = [] := by
        rw [List.filter_eq_nil_iff]
        intro x hx
        simp only [decide_eq_true_eq]
        intro hk
        exact hpre' x hx (key_header hk).2
      rw [hnil]; rfl
    have h2 : (f1.addEntry e).headers = some (if e.ctxt = [] then parseHeaders e.str else []) := by
      unfold File.addEntry
      simp only [Entry.isHeader, he, decide_true, if_true]
      apply initPlural_headers'
      unfold File.initHeader
      simp only [h1]
      rw [GMap.get?_set]
      by_cases hx : e.ctxt = []
      · have : key [] [] = e.key := by rw [Entry.key, he, hx]
        rw [if_pos this]; simp [hx]
      · have : ¬ key [] [] = e.key := by
          intro hk
          exact hx (key_header hk.symm).1
        rw [if_neg this, hg1]; simp [hx]
    rw [heads_of_some _ _ (foldl_addEntry_headers post _ _ h2)]
    by_cases hx : e.ctxt = []
    · simp [hx, parseHeaders_get]
    · simp [hx, GMap.get?]

/-- **C16** The language of a PO file is the Language field of its first translated entry with an
empty msgid, provided that entry has no context; if it has one, or there is no such entry, or no such
field, the language is empty.  The claim that the language is that of the header entry (no context, no
id) wherever it stands is false, see `C16_counterexample`. -/
theorem C16_exact (c : Str) (f : File) (es : List Entry) (h : readPo c = .ok f) (he : PoText c es)
    (v : Str) :
    f.lang.1 = v ↔
      (∃ e, (es.filter fun e => Translated e).find? (fun e => e.id = []) = some e ∧ e.ctxt = [] ∧
        HeaderField e.str hLanguage v) ∨
      (v = [] ∧ ¬ ∃ e w, (es.filter fun e => Translated e).find? (fun e => e.id = []) = some e ∧
        e.ctxt = [] ∧ HeaderField e.str hLanguage w) := by
  obtain ⟨hc, es', he', rfl⟩ := (C26_ok_iff c f).mp h
  have := text_unique c es es' he he'
  subst this
  have key := fun v => read_headers (es.filter fun e => Translated e) hLanguage v
  have hl : ∀ f : File, f.lang.1 = (f.getHeader hLanguage).1.getD [] := fun _ => rfl
  rw [hl]
  cases hg : (((es.filter fun e => Translated e).foldl File.addEntry {}).getHeader hLanguage).1 with
  | none =>
    have hno : ¬ ∃ e w, (es.filter fun e => Translated e).find? (fun e => e.id = []) = some e ∧
        e.ctxt = [] ∧ HeaderField e.str hLanguage w := by
      rintro ⟨e, w, hw⟩
      have := (key w).mpr ⟨e, hw⟩
      rw [hg] at this; cases this
    constructor
    · intro hv; right; exact ⟨hv.symm, hno⟩
    · rintro (⟨e, hw⟩ | ⟨rfl, _⟩)
      · exact absurd ⟨e, v, hw⟩ hno
      · rfl
  | some w =>
    have hw := (key w).mp hg
    constructor
    · intro hv
      have hv : w = v := hv
      subst hv; exact .inl hw
    · rintro (hv | ⟨_, hno⟩)
      · have := (key v).mpr hv
        rw [hg] at this
        cases this; rfl
      · obtain ⟨e, he⟩ := hw
        exact absurd ⟨e, w, he⟩ hno

/-- The full claim of C16: the language is the Language field of the header entry. -/
def C16_full : Prop := ∀ c f es, readPo c = .ok f → PoText c es → ∀ e v,
  lastFor [] [] (es.filter fun e => Translated e) = some e → HeaderField e.str hLanguage v → f.lang.1 = v

/-- The language of the sample. -/
theorem C16_sample : ∃ f, readPo sample = .ok f ∧ f.lang.1 = b!"fr" := by
  refine ⟨_, readPo0_text false _ (by simp [sample]) _ sample_text, ?_⟩
  decide +kernel

/-- **C16** The full claim fails when an entry with a context and an empty msgid comes first. -/
theorem C16_counterexample : ¬ C16_full := by
  intro h
  have hr : readPo b!"msgctxt \"c\"\nmsgid \"\"\nmsgstr \"x\"\n\nmsgid \"\"\nmsgstr \"Language: fr\"" = .ok
      (([{ ctxt := b!"c", str := b!"x" }, { str := b!"Language: fr" }] : List Entry).foldl File.addEntry {}) := by
    decide +kernel
  obtain ⟨hc, es, he, _⟩ := (C26_ok_iff _ _).mp hr
  have he2 : PoText b!"msgctxt \"c\"\nmsgid \"\"\nmsgstr \"x\"\n\nmsgid \"\"\nmsgstr \"Language: fr\""
      [{ ctxt := b!"c", str := b!"x" }, { str := b!"Language: fr" }] := by
    refine ⟨[[.field .ctxt b!"c", .field .id [], .field .str b!"x"]],
      [.field .id [], .field .str b!"Language: fr"], ?_, by decide⟩
    have hl : meaningfulLines b!"msgctxt \"c\"\nmsgid \"\"\nmsgstr \"x\"\n\nmsgid \"\"\nmsgstr \"Language: fr\"" =
      [b!"msgctxt \"c\"", b!"msgid \"\"", b!"msgstr \"x\"", b!"msgid \"\"", b!"msgstr \"Language: fr\""] := by
      decide +kernel
    rw [hl]
    have i (n : Nat) (f : Field) (q d : Str) (h : Quote.unquote (GoStr.trimSpace q) = some d) :
      IsItem n (f.word n ++ 32 :: q) (.field f d) := .field f q d h
    have p1 := Parse.same .nil (i 0 .ctxt b!"\"c\"" b!"c" (by decide)) (by simp [Starts, lastField])
    have p2 := Parse.same p1 (i 0 .id b!"\"\"" [] (by decide)) (by simp [Starts, lastField])
    have p3 := Parse.same p2 (i 0 .str b!"\"x\"" b!"x" (by decide)) (by simp [Starts, lastField])
    have p4 := Parse.next p3 (i 0 .id b!"\"\"" [] (by decide)) (by simp [Starts, lastField])
    have p5 := Parse.same p4 (i 0 .str b!"\"Language: fr\"" b!"Language: fr" (by decide)) (by simp [Starts, lastField])
    exact p5
  have := h _ _ _ hr he2 { str := b!"Language: fr" } b!"fr" (by decide)
    ((parseHeaders_get _ _ _).mp (by decide))
  revert this
  decide +kernel

end Verif.Tr
