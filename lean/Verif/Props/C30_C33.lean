import Verif.Lemmas.MoWrite
import Verif.Props.C21_C27
/-! # C30-C33: MO files -/
namespace Verif.Tr
open Verif
set_option linter.unusedSimpArgs false

/-- An entry that an MO file can express: the separators EOT and NUL do not occur where they would be
misread, plural entries have forms only, the others a single translation only. -/
def MoGood (e : Entry) : Prop :=
  4 ∉ e.ctxt ∧ (e.ctxt = [] → 4 ∉ e.id ∧ 4 ∉ e.id2) ∧ 0 ∉ e.id ∧
  (e.isPlural = true → e.str = [] ∧ e.strN ≠ [] ∧ ∀ s ∈ e.strN, 0 ∉ s) ∧
  (e.isPlural = false → e.id2 = [] ∧ e.strN = [])

/-- The entry without its comments. -/
def Entry.bare (e : Entry) : Entry := { e with cmts := [] }

theorem moEntry_of_good (e : Entry) (h : MoGood e) : moEntry (moMsgID e) (moMsgStr e) = e.bare := by
  symm
  rw [← moMsg_iff]
  obtain ⟨h1, h2, h3, h4, h5⟩ := h
  obtain ⟨cmts, ctxt, id, isPlural, id2, str, strN⟩ := e
  simp only [Entry.bare, MoMsg, true_and] at *
  have hbody : BodyOf (id ++ if isPlural = true then [0] ++ id2 else [])
      (moMsgStr { cmts := cmts, ctxt := ctxt, id := id, isPlural := isPlural, id2 := id2, str := str, strN := strN })
      { cmts := [], ctxt := ctxt, id := id, isPlural := isPlural, id2 := id2, str := str, strN := strN } := by
    cases isPlural with
    | true =>
      obtain ⟨rfl, g2, g3⟩ := h4 rfl
      refine .inr ⟨id, id2, by simp, h3, rfl, rfl, rfl, rfl, g2, g3, ?_⟩
      have : strN.length > 0 := List.length_pos_iff.mpr g2
      simp only [moMsgStr, if_pos this]
      exact join_eq_intercalate _ _
    | false =>
      obtain ⟨rfl, rfl⟩ := h5 rfl
      exact .inl ⟨by simpa using h3, by simp, rfl, rfl, rfl, rfl⟩
  by_cases hc : ctxt = []
  · subst hc
    left
    obtain ⟨g1, g2⟩ := h2 rfl
    refine ⟨?_, rfl, ?_⟩
    · cases isPlural <;> simp [moMsgID, g1, g2]
    · simpa [moMsgID] using hbody
  · right
    refine ⟨ctxt, _, ?_, h1, rfl, hbody⟩
    simp [moMsgID, hc]

theorem readMo_of_file {be : Bool} {c : Str} {ps : List (Str × Str)} (h : MoFile be c ps) :
    readMo c = .ok (moFileOf ps) := (readMo_iff c _).mpr ⟨be, ps, h, rfl⟩

theorem readMo_saveMo (es : List Entry) (hlt : (saveMo es).length < 4294967296) (hg : ∀ e ∈ es, MoGood e) :
    readMo (saveMo es) = .ok ((es.map Entry.bare).foldl File.addEntry {}) := by
  rw [saveMo_eq] at hlt ⊢
  rw [readMo_of_file (moImage_file _ _ _ hlt)]
  unfold moFileOf
  rw [List.map_map]
  congr 2
  apply List.map_congr_left
  intro e he
  exact moEntry_of_good e (hg e he)

theorem getLast?_bare (es : List Entry) (k : Str) :
    ((es.map Entry.bare).filter fun e => e.key = k).getLast? =
      ((es.filter fun e => e.key = k).getLast?).map Entry.bare := by
  rw [List.filter_map, List.getLast?_map]
  rfl

/-- **C30** Reading back what `SaveAsMo` wrote gives the same entries without their comments, whatever
the order in which the map was ranged over and the sort left them. -/
theorem C30_round_trip (f : File) (hf : Consistent f) (hgood : ∀ p ∈ f.entries, MoGood p.2)
    (es : List Entry) (hs : SortedEntry f es) (hlt : (saveMo es).length < 4294967296) :
    ∃ g, readMo (saveMo es) = .ok g ∧
      ∀ k, g.entries.get? k = (f.entries.get? k).map fun e => { e with cmts := [] } := by
  refine ⟨_, readMo_saveMo es hlt ?_, ?_⟩
  · intro e he
    have := hs.1.subset he
    simp only [GMap.vals, List.mem_map] at this
    obtain ⟨p, hp, rfl⟩ := this
    exact hgood p hp
  · intro k
    rw [foldl_addEntry_entries, getLast?_bare, get_of_perm f hf es hs.1 k]
    simp only [GMap.get?, Option.or_none]
    rfl

/-- A file with a header, a context and plural forms meets the hypotheses. -/
example : ∃ f : File, ∃ es, Consistent f ∧ (∀ p ∈ f.entries, MoGood p.2) ∧ SortedEntry f es ∧
    es.length = 3 ∧ (saveMo es).length < 4294967296 := by
  let e0 : Entry := { str := b!"Language: fr\n" }
  let e1 : Entry := { cmts := [b!"#: a.go:1"], ctxt := b!"c", id := b!"xy", str := b!"z" }
  let e2 : Entry := { id := b!"one", isPlural := true, id2 := b!"many", strN := [b!"un", b!"des"] }
  refine ⟨{ entries := [(e1.key, e1), (e0.key, e0), (e2.key, e2)] }, [e0, e2, e1], ⟨by decide, by decide⟩,
    ?_, ⟨?_, ?_⟩, rfl, by decide +kernel⟩
  · intro p hp
    simp only [List.mem_cons, List.not_mem_nil, or_false] at hp
    rcases hp with rfl | rfl | rfl <;> (refine ⟨?_, ?_, ?_, ?_, ?_⟩ <;> decide)
  · decide
  · simp only [List.pairwise_cons, List.mem_cons, List.not_mem_nil, or_false, forall_eq_or_imp, forall_eq,
      IsEmpty.forall_iff, implies_true, and_true]
    decide

/-- **C30** The conditions are needed: without a context, an EOT in an id is read as the end of a
context; a plural entry without forms comes back with one empty form. -/
theorem C30_conditions_needed :
    readMo (saveMo [{ id := [97, 4, 98], str := b!"x" }]) = .ok (({} : File).addEntry { ctxt := b!"a", id := b!"b", str := b!"x" }) ∧
    readMo (saveMo [{ id := b!"a", isPlural := true, id2 := b!"b" }]) =
      .ok (({} : File).addEntry { id := b!"a", isPlural := true, id2 := b!"b", strN := [[]] }) := by
  constructor <;> decide +kernel

/-- **C31** A big-endian and a little-endian file with the same original and translated strings read to
the same file, wherever their tables and strings are. -/
theorem C31_byte_order (c c' : Str) (ps : List (Str × Str)) (h : MoFile true c ps) (h' : MoFile false c' ps) :
    readMo c = readMo c' ∧ ∃ f, readMo c = .ok f := by
  rw [readMo_of_file h, readMo_of_file h']
  exact ⟨rfl, _, rfl⟩

/-- **C31** In particular for images of the same layout. -/
theorem C31_image (extra : Str) (ps : List (Str × Str)) (hlt : (moImage true extra ps).length < 4294967296) :
    readMo (moImage true extra ps) = readMo (moImage false extra ps) ∧
      ∃ f, readMo (moImage true extra ps) = .ok f :=
  C31_byte_order _ _ ps (moImage_file true extra ps hlt)
    (moImage_file false extra ps (by rw [moImage_length] at hlt ⊢; exact hlt))

/-- A big-endian file byte for byte. -/
example : moImage true [] [(b!"a", b!"bc")] =
    [0x95, 0x04, 0x12, 0xde, 0, 0, 0, 0, 0, 0, 0, 1, 0, 0, 0, 28, 0, 0, 0, 36, 0, 0, 0, 0, 0, 0, 0, 0,
     0, 0, 0, 1, 0, 0, 0, 44, 0, 0, 0, 2, 0, 0, 0, 46, 97, 0, 98, 99, 0] := by decide

example : readMo (moImage true [] [(b!"a", b!"bc")]) = .ok (({} : File).addEntry { id := b!"a", str := b!"bc" }) := by
  decide +kernel

/-- **C32** `ReadMo` never panics (it is a total function), and it succeeds exactly on the files with
the magic number, a known revision, and two tables of as many descriptors as announced whose strings
are where the descriptors say; the file then has the messages these strings describe, a later one
replacing an earlier one with the same key. -/
theorem C32_total (c : Str) : readMo c ≠ .panic ∧ ∀ f, readMo c = .ok f ↔
    ∃ be ps, ∃ es : List Entry, MoFile be c ps ∧ es.length = ps.length ∧
      (∀ (i : Nat) p e, ps[i]? = some p → es[i]? = some e → MoMsg p.1 p.2 e) ∧
      f = es.foldl File.addEntry {} := by
  refine ⟨readMo_ne_panic c, fun f => ?_⟩
  rw [readMo_iff]
  constructor
  · rintro ⟨be, ps, h, rfl⟩
    refine ⟨be, ps, _, h, by rw [List.length_map], ?_, rfl⟩
    intro i p e hp he
    rw [List.getElem?_map, hp] at he
    simp only [Option.map_some, Option.some.injEq] at he
    rw [moMsg_iff, he]
  · rintro ⟨be, ps, es, h, hl, he, rfl⟩
    refine ⟨be, ps, h, ?_⟩
    unfold moFileOf
    congr 1
    apply List.ext_getElem? 
    intro i
    rw [List.getElem?_map]
    cases hp : ps[i]? with
    | none =>
      rw [List.getElem?_eq_none_iff] at hp
      rw [Option.map_none, List.getElem?_eq_none_iff]; omega
    | some p =>
      have : i < es.length := by
        obtain ⟨h, -⟩ := List.getElem?_eq_some_iff.mp hp; omega
      have hq := List.getElem?_eq_getElem this
      have := (moMsg_iff _ _ _).mp (he i p _ hp hq)
      rw [hq, Option.map_some, this]

/-- **C32** Every entry of the file read is described by two strings of the input. -/
theorem C32_substrings (c : Str) (f : File) (h : readMo c = .ok f) (k : Str) (e : Entry)
    (he : f.entries.get? k = some e) :
    k = key e.ctxt e.id ∧ ∃ id str, id <:+: c ∧ str <:+: c ∧ MoMsg id str e := by
  obtain ⟨be, ps, hm, rfl⟩ := (readMo_iff c f).mp h
  unfold moFileOf at he
  rw [foldl_addEntry_entries] at he
  simp only [GMap.get?, Option.or_none] at he
  have hmem := List.mem_of_mem_getLast? he
  simp only [List.mem_filter, decide_eq_true_eq, List.mem_map] at hmem
  obtain ⟨⟨p, hp, rfl⟩, hk⟩ := hmem
  refine ⟨hk.symm, p.1, p.2, ?_, ?_, (moMsg_iff _ _ _).mpr rfl⟩
  all_goals
    obtain ⟨i, hi, rfl⟩ := List.getElem_of_mem hp
    obtain ⟨-, -, -, O, T, -, -, -, hd⟩ := hm
    obtain ⟨⟨o1, -, h1⟩, ⟨o2, -, h2⟩⟩ := hd i _ (List.getElem?_eq_getElem hi)
  · rcases h1 with h1 | ⟨pre, post, h1, -⟩
    · rw [h1]; exact List.nil_infix
    · exact ⟨pre, post, h1.symm⟩
  · rcases h2 with h2 | ⟨pre, post, h2, -⟩
    · rw [h2]; exact List.nil_infix
    · exact ⟨pre, post, h2.symm⟩

/-- A truncated file is an error. -/
example : readMo ((moImage true [] [(b!"a", b!"bc")]).take 47) = .err := by decide +kernel

/-- Fixed little-endian layout of an MO file: all places the header and the descriptors point to. -/
def Layout (c : Str) (ps : List (Str × Str)) : Prop :=
  ∃ (O T : Nat) (offI offS : Nat → Nat),
    At c 0 [0xde, 0x12, 0x04, 0x95] ∧ Num32 false c 4 0 ∧ Num32 false c 8 ps.length ∧
    Num32 false c 12 O ∧ Num32 false c 16 T ∧ Num32 false c 20 0 ∧
    -- the tables follow the header and do not overlap
    28 ≤ O ∧ O + 8 * ps.length ≤ T ∧ T + 8 * ps.length ≤ c.length ∧
    ∀ i p, ps[i]? = some p →
      -- exact descriptors of NUL-terminated strings
      Descr false c O i p.1.length (offI i) ∧ At c (offI i) (p.1 ++ [0]) ∧
      Descr false c T i p.2.length (offS i) ∧ At c (offS i) (p.2 ++ [0]) ∧
      -- after the tables, inside the file, without overlap
      T + 8 * ps.length ≤ offI i ∧ offI i + p.1.length + 1 ≤ c.length ∧ offS i + p.2.length + 1 ≤ c.length ∧
      ∀ j q, ps[j]? = some q → offI i + p.1.length + 1 ≤ offS j ∧
        (i < j → offI i + p.1.length + 1 ≤ offI j ∧ offS i + p.2.length + 1 ≤ offS j)

/-- **C33** `SaveAsMo` writes a file with the GNU layout for every list of entries: the original strings
are the ids with context and plural id, the translated strings the translation or the forms. -/
theorem C33_layout (es : List Entry) (hlt : (saveMo es).length < 4294967296) :
    Layout (saveMo es) (es.map fun e => (origOf e, transOf e)) := by
  have hps : (es.map fun e => (origOf e, transOf e)) =
      es.map fun e => (moMsgID e, moMsgStr e) := by
    apply List.map_congr_left
    intro e _
    unfold moMsgID moMsgStr origOf transOf
    rw [join_eq_intercalate]
    by_cases h1 : e.ctxt = [] <;> by_cases h2 : e.strN = [] <;>
      simp [h1, h2, List.length_pos_iff]
  rw [hps]
  rw [saveMo_eq] at hlt ⊢
  generalize es.map (fun e => (moMsgID e, moMsgStr e)) = ps at hlt ⊢
  have P := moImage_parts false moExtra ps
  have hl := moImage_length false moExtra ps
  generalize moImage false moExtra ps = c at P hl hlt ⊢
  refine ⟨_, _, offsetOf (28 + moExtra.length + ps.length * 8 * 2) (ps.map Prod.fst),
    offsetOf (28 + moExtra.length + ps.length * 8 * 2 + (writeStrings (ps.map Prod.fst)).length) (ps.map Prod.snd), P.magic, num32_putBe P.rev (by omega),
    num32_putBe P.count (by omega), num32_putBe P.posO (by omega), num32_putBe P.posT (by omega),
    num32_putBe P.hashSize (by omega), by omega, by omega, by omega, ?_⟩
  intro i p hi
  obtain ⟨g1, g2⟩ := getElem?_map_fst hi
  have d1 := table_descr P.tableO (by omega) g1
  have d2 := table_descr P.tableT (by omega) g2
  have a1 := strings_at P.ids g1
  have a2 := strings_at P.strs g2
  refine ⟨d1, a1, d2, a2, ?_, ?_, ?_, ?_⟩
  · have := offsetOf_le (28 + moExtra.length + ps.length * 8 * 2) (ps.map Prod.fst) i
    omega
  · have := ((at_iff _ _ _).mp a1).1
    simp only [List.length_append, List.length_cons, List.length_nil] at this
    omega
  · have := ((at_iff _ _ _).mp a2).1
    simp only [List.length_append, List.length_cons, List.length_nil] at this
    omega
  · intro j q hj
    have s1 := offsetOf_step (28 + moExtra.length + ps.length * 8 * 2) g1
    have s2 := offsetOf_step (28 + moExtra.length + ps.length * 8 * 2 + (writeStrings (ps.map Prod.fst)).length) g2
    constructor
    · have := offsetOf_end (28 + moExtra.length + ps.length * 8 * 2) (ps.map Prod.fst) (i + 1)
      have := offsetOf_le (28 + moExtra.length + ps.length * 8 * 2 + (writeStrings (ps.map Prod.fst)).length)
        (ps.map Prod.snd) j
      omega
    · intro hij
      have := offsetOf_mono (28 + moExtra.length + ps.length * 8 * 2) (ps.map Prod.fst) (show i + 1 ≤ j from hij)
      have := offsetOf_mono (28 + moExtra.length + ps.length * 8 * 2 + (writeStrings (ps.map Prod.fst)).length)
        (ps.map Prod.snd) (show i + 1 ≤ j from hij)
      omega

/-- **C33** The file has no more than these parts: its length is the sum of theirs. -/
theorem C33_length (es : List Entry) : (saveMo es).length = 75 + 16 * es.length +
    (es.map fun e => (moMsgID e).length + 1).sum + (es.map fun e => (moMsgStr e).length + 1).sum := by
  have h : ∀ (g : Entry → Str) (l : List Entry), (writeStrings (l.map g)).length = (l.map fun e => (g e).length + 1).sum := by
    intro g l
    induction l with
    | nil => rfl
    | cons e l ih =>
      simp only [List.map_cons, List.sum_cons, ← ih, writeStrings, List.flatMap_cons, List.length_append,
        List.length_cons, List.length_nil]
  rw [saveMo_eq, moImage_length, List.map_map, List.map_map, List.length_map]
  have h1 := h moMsgID es
  have h2 := h moMsgStr es
  have e1 : (Prod.fst ∘ fun e => (moMsgID e, moMsgStr e)) = moMsgID := rfl
  have e2 : (Prod.snd ∘ fun e => (moMsgID e, moMsgStr e)) = moMsgStr := rfl
  rw [e1, e2, h1, h2]
  have : moExtra.length = 47 := by decide
  omega

/-- A file below the limit. -/
example : (saveMo [{ str := b!"Language: fr\n" }, { ctxt := b!"c", id := b!"xy", str := b!"z" }]).length = 129 := by
  rw [C33_length]; decide

end Verif.Tr
