import Verif.Spec.Pieces
import Verif.Props.C92
import Verif.Props.C87
/-! # C118: the order of the messages of a PO file -/
namespace Verif.Tr
open Verif
variable {α : Type}

/-! ## Joined pieces -/

theorem finished_lines {c : Str} (h : Finished c) : meaningfulLines c ≠ [] := by
  obtain ⟨gs, g, hp, hg⟩ := h
  intro h0
  rw [h0] at hp
  obtain ⟨rfl, rfl⟩ := parse_nil hp
  simp [lastField] at hg

theorem finished_join {a b : Str} (ha : Finished a) (hb : Piece b) : Finished (a ++ 10 :: b) := by
  obtain ⟨ga, g, hp, hg⟩ := ha
  obtain ⟨hs, gb, g', hp', hg'⟩ := hb
  exact ⟨_, _, by rw [lines_join]; exact parse_join hp hg hp' hs (finished_lines ⟨gb, g', hp', hg'⟩), hg'⟩

theorem begins_join {a b : Str} (ha : Piece a) : Begins (a ++ 10 :: b) := by
  intro l hl
  rw [lines_join] at hl
  have := finished_lines ha.2
  cases hm : meaningfulLines a with
  | nil => exact absurd hm this
  | cons x xs =>
    rw [hm] at hl
    exact ha.1 l (by rw [hm]; exact hl)

theorem piece_text {c : Str} (h : Piece c) : ∃ es, PoText c es := by
  obtain ⟨-, gs, g, hp, -⟩ := h
  exact ⟨_, gs, g, hp, rfl⟩

open Classical in
/-- The translated entries of a text. -/
noncomputable def translatedOf (c : Str) : List Entry :=
  if h : ∃ es, PoText c es then (Classical.choose h).filter (fun e => Translated e) else []

theorem translatedOf_eq {c : Str} {es : List Entry} (h : PoText c es) :
    translatedOf c = es.filter (fun e => Translated e) := by
  unfold translatedOf
  have hx : ∃ es, PoText c es := ⟨es, h⟩
  rw [dif_pos hx, text_unique c _ _ (Classical.choose_spec hx) h]

theorem joined_cons (c d : Str) (cs : List Str) : joined (c :: d :: cs) = c ++ 10 :: joined (d :: cs) := by
  unfold joined
  rw [GoStr.intercalate_cons_cons]

theorem pieces_joined (cs : List Str) (hne : cs ≠ []) (h : ∀ c ∈ cs, Piece c) :
    Piece (joined cs) ∧ translatedOf (joined cs) = cs.flatMap translatedOf := by
  induction cs with
  | nil => exact absurd rfl hne
  | cons c cs ih =>
    cases cs with
    | nil =>
      have : joined [c] = c := GoStr.intercalate_single _ _
      rw [this]
      exact ⟨h c (by simp), by simp⟩
    | cons d cs =>
      obtain ⟨hp, ht⟩ := ih (by simp) (fun x hx => h x (by simp [hx]))
      have hc := h c (by simp)
      rw [joined_cons]
      refine ⟨⟨begins_join hc, finished_join hc.2 hp⟩, ?_⟩
      obtain ⟨ea, hea⟩ := piece_text hc
      obtain ⟨eb, heb⟩ := piece_text hp
      obtain ⟨es, hes, hf⟩ := text_join c _ ea eb hea heb hc.2 hp.1
      rw [List.flatMap_cons, ← ht, translatedOf_eq hes, hf, translatedOf_eq hea, translatedOf_eq heb]

theorem piece_read {c : Str} (h : Piece c) : readPo c = .ok ((translatedOf c).foldl File.addEntry {}) := by
  obtain ⟨es, hes⟩ := piece_text h
  refine (C26_ok_iff _ _).mpr ⟨?_, es, hes, by rw [translatedOf_eq hes]⟩
  rintro rfl
  exact finished_lines h.2 (by decide)

theorem headed_iff {c : Str} (h : Piece c) : Headed c ↔ ∃ e ∈ translatedOf c, e.id = [] := by
  obtain ⟨es, hes⟩ := piece_text h
  rw [translatedOf_eq hes]
  constructor
  · rintro ⟨es', e, h', hm, ht, hi⟩
    obtain rfl := text_unique c _ _ hes h'
    exact ⟨e, by simp [hm, ht], hi⟩
  · rintro ⟨e, he, hi⟩
    simp only [List.mem_filter, decide_eq_true_eq] at he
    exact ⟨es, e, hes, he.1, he.2, hi⟩

theorem defines_iff' {c : Str} (h : Piece c) (ctxt id : Str) :
    Defines c ctxt id ↔ ∃ e ∈ translatedOf c, e.key = key ctxt id := by
  obtain ⟨es, hes⟩ := piece_text h
  rw [translatedOf_eq hes]
  constructor
  · rintro ⟨es', e, h', hm, ht, hi⟩
    obtain rfl := text_unique c _ _ hes h'
    exact ⟨e, by simp [hm, ht], hi⟩
  · rintro ⟨e, he, hi⟩
    simp only [List.mem_filter, decide_eq_true_eq] at he
    exact ⟨es, e, hes, he.1, he.2, hi⟩

/-! ## Headers depend on the entries with empty ids only -/

theorem addEntry_sameHead (f : File) (e : Entry) (h : e.id ≠ []) : SameHead (f.addEntry e) f := by
  have he : f.addEntry e = { f with entries := f.entries.set e.key e } := by
    unfold File.addEntry
    simp [Entry.isHeader, h]
  rw [he]
  refine ⟨rfl, rfl, ?_⟩
  show (f.entries.set e.key e).get? _ = _
  rw [GMap.get?_set, if_neg (fun hk => h (key_nil e hk.symm))]

theorem SameHead.trans {f g h : File} (a : SameHead f g) (b : SameHead g h) : SameHead f h :=
  ⟨a.1.trans b.1, a.2.1.trans b.2.1, a.2.2.trans b.2.2⟩

theorem head_filter (es : List Entry) (f : File) :
    SameHead (es.foldl File.addEntry f) ((es.filter fun e => e.id = []).foldl File.addEntry f) := by
  induction es generalizing f with
  | nil => exact ⟨rfl, rfl, rfl⟩
  | cons e es ih =>
    by_cases he : e.id = []
    · rw [List.filter_cons_of_pos (by simp [he])]
      exact ih _
    · rw [List.filter_cons_of_neg (by simp [he])]
      exact (foldl_same es (addEntry_sameHead f e he)).trans (ih f)

/-! ## The order -/

theorem flatMap_perm {β γ : Type} (g : β → List γ) {cs ds : List β} (hp : cs.Perm ds)
    (h : cs.Pairwise fun a b => g a = [] ∨ g b = []) : cs.flatMap g = ds.flatMap g := by
  induction hp with
  | nil => rfl
  | cons x _ ih => rw [List.flatMap_cons, List.flatMap_cons, ih (List.pairwise_cons.mp h).2]
  | swap x y l =>
    have := (List.pairwise_cons.mp h).1 x (by simp)
    simp only [List.flatMap_cons]
    rcases this with h | h <;> simp [h]
  | trans p1 p2 ih1 ih2 =>
    rw [ih1 h, ih2 (p1.pairwise h (fun {a b} h => Or.symm h))]

theorem filter_flatMap' {β : Type} (p : Entry → Bool) (g : β → List Entry) (cs : List β) :
    (cs.flatMap g).filter p = cs.flatMap fun c => (g c).filter p := by
  induction cs with
  | nil => rfl
  | cons c cs ih => simp [List.flatMap_cons, ih]

/-- Lists of entries that agree on every key and on the headers are the same file to the caller. -/
theorem same_file (es es' : List Entry) (hk : ∀ k, es.filter (fun e => e.key = k) = es'.filter (fun e => e.key = k))
    (hh : es.filter (fun e => e.id = []) = es'.filter (fun e => e.id = [])) :
    (∀ k, (es.foldl File.addEntry {}).entries.get? k = (es'.foldl File.addEntry {}).entries.get? k) ∧
    ∀ (E : Fmt.Env α) (dg : Plural.Diag) (qs : List (Call α)), (∀ q ∈ qs, q.isLookup = true) →
      ∀ q : Call α, q.isLookup = true →
        (q.exec E dg (execAll E dg (es.foldl File.addEntry {}) qs)).1 =
          (q.exec E dg (execAll E dg (es'.foldl File.addEntry {}) qs)).1 := by
  have hent : ∀ k, (es.foldl File.addEntry {}).entries.get? k = (es'.foldl File.addEntry {}).entries.get? k := by
    intro k
    rw [foldl_addEntry_entries, foldl_addEntry_entries, hk]
  refine ⟨hent, fun E dg qs hqs q hq => same_answers es es' hent (fun k => ?_) E dg qs hqs q hq⟩
  have h1 := heads_same (head_filter es {}) k
  have h2 := heads_same (head_filter es' {}) k
  rw [h1, h2, hh]

theorem pieces_filter (p : Entry → Bool) {cs ds : List Str} (hp : cs.Perm ds)
    (h : cs.Pairwise fun a b => ¬ ((∃ e ∈ translatedOf a, p e = true) ∧ ∃ e ∈ translatedOf b, p e = true)) :
    (cs.flatMap translatedOf).filter p = (ds.flatMap translatedOf).filter p := by
  rw [filter_flatMap', filter_flatMap']
  refine flatMap_perm _ hp (h.imp fun {a b} hab => ?_)
  by_contra hc
  rw [not_or] at hc
  refine hab ⟨?_, ?_⟩
  · obtain ⟨e, he⟩ := List.exists_mem_of_ne_nil _ hc.1
    exact ⟨e, (List.mem_filter.mp he).1, (List.mem_filter.mp he).2⟩
  · obtain ⟨e, he⟩ := List.exists_mem_of_ne_nil _ hc.2
    exact ⟨e, (List.mem_filter.mp he).1, (List.mem_filter.mp he).2⟩

theorem pieces_agree {cs ds : List Str} (hp : cs.Perm ds) (h : ∀ c ∈ cs, Piece c)
    (hd : cs.Pairwise Disjoint) (hh : cs.Pairwise fun a b => ¬ (Headed a ∧ Headed b)) :
    (∀ k, (cs.flatMap translatedOf).filter (fun e => e.key = k) = (ds.flatMap translatedOf).filter (fun e => e.key = k)) ∧
    (cs.flatMap translatedOf).filter (fun e => e.id = []) = (ds.flatMap translatedOf).filter (fun e => e.id = []) := by
  constructor
  · intro k
    apply pieces_filter _ hp
    refine List.Pairwise.imp_of_mem (fun {a b} ha hb hab => ?_) hd
    rintro ⟨⟨e, he, hk⟩, ⟨e', he', hk'⟩⟩
    simp only [decide_eq_true_eq] at hk hk'
    refine hab e.ctxt e.id ⟨(defines_iff' (h a ha) _ _).mpr ⟨e, he, rfl⟩, (defines_iff' (h b hb) _ _).mpr ⟨e', he', ?_⟩⟩
    rw [hk', ← hk]; rfl
  · apply pieces_filter _ hp
    refine List.Pairwise.imp_of_mem (fun {a b} ha hb hab => ?_) hh
    rintro ⟨⟨e, he, hk⟩, ⟨e', he', hk'⟩⟩
    simp only [decide_eq_true_eq] at hk hk'
    exact hab ⟨(headed_iff (h a ha)).mpr ⟨e, he, hk⟩, (headed_iff (h b hb)).mpr ⟨e', he', hk'⟩⟩

/-- **C118** The order of the pieces of a PO text does not matter, if no message is translated in two of them and
no two have an entry with an empty id: both texts are read, and the files answer every sequence of lookups alike. -/
theorem C118_order (cs ds : List Str) (hne : cs ≠ []) (hp : cs.Perm ds) (h : ∀ c ∈ cs, Piece c)
    (hd : cs.Pairwise Disjoint) (hh : cs.Pairwise fun a b => ¬ (Headed a ∧ Headed b)) :
    ∃ f g, readPo (joined cs) = .ok f ∧ readPo (joined ds) = .ok g ∧
      (∀ k, f.entries.get? k = g.entries.get? k) ∧
      ∀ (E : Fmt.Env α) (dg : Plural.Diag) (qs : List (Call α)), (∀ q ∈ qs, q.isLookup = true) →
        ∀ q : Call α, q.isLookup = true →
          (q.exec E dg (execAll E dg f qs)).1 = (q.exec E dg (execAll E dg g qs)).1 := by
  have hne' : ds ≠ [] := by rintro rfl; exact hne hp.eq_nil
  obtain ⟨p1, t1⟩ := pieces_joined cs hne h
  obtain ⟨p2, t2⟩ := pieces_joined ds hne' (fun c hc => h c (hp.mem_iff.mpr hc))
  obtain ⟨a1, a2⟩ := pieces_agree hp h hd hh
  obtain ⟨b1, b2⟩ := same_file (α := α) _ _ a1 a2
  refine ⟨_, _, piece_read p1, piece_read p2, ?_, ?_⟩
  · rw [t1, t2]; exact b1
  · rw [t1, t2]; exact b2

/-- **C118** Then the two files are also saved alike, as PO, POT and MO, if no two entries have the same sort key. -/
theorem C118_saved (P : Nat → Bool) (cs ds : List Str) (hne : cs ≠ []) (hp : cs.Perm ds) (h : ∀ c ∈ cs, Piece c)
    (hd : cs.Pairwise Disjoint) (hh : cs.Pairwise fun a b => ¬ (Headed a ∧ Headed b)) (f g : File)
    (hf : readPo (joined cs) = .ok f) (hg : readPo (joined ds) = .ok g) (hk : (f.entries.vals.map Entry.sortKey).Nodup)
    (es es' : List Entry) (hs : SortedEntry f es) (hs' : SortedEntry g es') :
    savePo P es = savePo P es' ∧ savePot P es = savePot P es' ∧ saveMo es = saveMo es' := by
  obtain ⟨f', g', hf', hg', he, -⟩ := C118_order (α := Unit) cs ds hne hp h hd hh
  rw [hf] at hf'; rw [hg] at hg'
  cases hf'; cases hg'
  have hperm := perm_of_get f g (C87_entries _ f hf).1 (C87_entries _ g hg).1 (fun k => (he k).symm)
  exact (C28_deterministic P f g hperm es es' hs hs' hk).2

/-- **C118** Whatever the pieces define, of several translations of one message that in the last piece counts, and
the header fields are those of the first piece with an entry with an empty id. -/
theorem C118_read (cs : List Str) (hne : cs ≠ []) (h : ∀ c ∈ cs, Piece c) : ∃ f, readPo (joined cs) = .ok f ∧
    (∀ pre c post fc, cs = pre ++ c :: post → readPo c = .ok fc →
      (∀ ctxt id, Defines c ctxt id → (∀ d ∈ post, ¬ Defines d ctxt id) →
        f.entries.get? (key ctxt id) = fc.entries.get? (key ctxt id)) ∧
      (Headed c → (∀ d ∈ pre, ¬ Headed d) → ∀ k, (f.getHeader k).1 = (fc.getHeader k).1)) ∧
    (∀ ctxt id, (∀ c ∈ cs, ¬ Defines c ctxt id) → f.entries.get? (key ctxt id) = none) ∧
    ((∀ c ∈ cs, ¬ Headed c) → ∀ k, (f.getHeader k).1 = none) := by
  obtain ⟨p1, t1⟩ := pieces_joined cs hne h
  refine ⟨_, piece_read p1, ?_, ?_, ?_⟩
  · rintro pre c post fc rfl hc
    have hpc := h c (by simp)
    rw [piece_read hpc] at hc
    cases hc
    rw [t1]
    constructor
    · intro ctxt id hdef hno
      have h0 : (post.flatMap translatedOf).filter (fun e => e.key = key ctxt id) = [] := by
        rw [List.filter_eq_nil_iff]
        intro e he hk
        obtain ⟨d, hd, he⟩ := List.mem_flatMap.mp he
        exact hno d hd ((defines_iff' (h d (by simp [hd])) _ _).mpr ⟨e, he, by simpa using hk⟩)
      have h1 : (translatedOf c).filter (fun e => e.key = key ctxt id) ≠ [] := by
        obtain ⟨e, he, hk⟩ := (defines_iff' hpc _ _).mp hdef
        exact List.ne_nil_of_mem (a := e) (List.mem_filter.mpr ⟨he, by simpa using hk⟩)
      rw [foldl_addEntry_entries, foldl_addEntry_entries]
      rw [List.flatMap_append, List.flatMap_cons, List.filter_append, List.filter_append, h0, List.append_nil,
        List.getLast?_append_of_ne_nil _ h1]
    · intro hhd hno k
      have h0 : (pre.flatMap translatedOf).filter (fun e => e.id = []) = [] := by
        rw [List.filter_eq_nil_iff]
        intro e he hk
        obtain ⟨d, hd, he⟩ := List.mem_flatMap.mp he
        exact hno d hd ((headed_iff (h d (by simp [hd]))).mpr ⟨e, he, by simpa using hk⟩)
      have hx : ∃ e ∈ (translatedOf c).filter (fun e => e.id = []), e.id = [] := by
        obtain ⟨e, he, hi⟩ := (headed_iff hpc).mp hhd
        exact ⟨e, List.mem_filter.mpr ⟨he, by simpa using hi⟩, hi⟩
      rw [heads_same (head_filter _ {}) k, heads_same (head_filter (translatedOf c) {}) k]
      rw [List.flatMap_append, List.flatMap_cons, List.filter_append, List.filter_append, h0, List.nil_append,
        List.foldl_append]
      obtain ⟨h1, h2⟩ := foldl_headed _ {} hx
      obtain ⟨x, h1⟩ := Option.isSome_iff_exists.mp h1
      obtain ⟨p, h2⟩ := Option.isSome_iff_exists.mp h2
      rw [getHeader_eq, getHeader_eq, heads_of_some _ x h1, heads_of_some _ x (foldl_frozen _ _ x p h1 h2).1]
  · intro ctxt id hno
    rw [t1, foldl_addEntry_entries]
    have h0 : (cs.flatMap translatedOf).filter (fun e => e.key = key ctxt id) = [] := by
      rw [List.filter_eq_nil_iff]
      intro e he hk
      obtain ⟨d, hd, he⟩ := List.mem_flatMap.mp he
      exact hno d hd ((defines_iff' (h d hd) _ _).mpr ⟨e, he, by simpa using hk⟩)
    rw [h0]
    rfl
  · intro hno k
    have h0 : (cs.flatMap translatedOf).filter (fun e => e.id = []) = [] := by
      rw [List.filter_eq_nil_iff]
      intro e he hk
      obtain ⟨d, hd, he⟩ := List.mem_flatMap.mp he
      exact hno d hd ((headed_iff (h d hd)).mpr ⟨e, he, by simpa using hk⟩)
    rw [t1, heads_same (head_filter _ {}) k, h0]
    rfl

/-- **C118** So the text of well-formed entries may be written in any order: if they are translations of different
messages and one at most has an empty id, the texts are read as files that answer alike. -/
theorem C118_written (P : Nat → Bool) (h10 : P 10 = false) (h13 : P 13 = false) (es es' : List Entry) (hne : es ≠ [])
    (hp : es.Perm es') (hg : ∀ e ∈ es, GoodEntry e)
    (hk : es.Pairwise fun a b => a.ctxt ++ [4] ++ a.id ≠ b.ctxt ++ [4] ++ b.id)
    (hh : es.Pairwise fun a b => ¬ (a.id = [] ∧ b.id = [])) :
    ∃ f g, readPo (savePo P es) = .ok f ∧ readPo (savePo P es') = .ok g ∧
      ∀ (E : Fmt.Env α) (dg : Plural.Diag) (qs : List (Call α)), (∀ q ∈ qs, q.isLookup = true) →
        ∀ q : Call α, q.isLookup = true →
          (q.exec E dg (execAll E dg f qs)).1 = (q.exec E dg (execAll E dg g qs)).1 := by
  have hne' : es' ≠ [] := by rintro rfl; exact hne hp.eq_nil
  refine ⟨_, _, savePo_reads P h10 h13 es hne hg, savePo_reads P h10 h13 es' hne' fun e he => hg e (hp.mem_iff.mpr he), ?_⟩
  have key (p : Entry → Bool) (h : es.Pairwise fun a b => ¬ (p a = true ∧ p b = true)) : es.filter p = es'.filter p := by
    have e (l : List Entry) : l.filter p = l.flatMap fun e => [e].filter p := by
      induction l with
      | nil => rfl
      | cons x l ih => rw [List.flatMap_cons, ← ih]; cases hx : p x <;> simp [hx]
    rw [e es, e es']
    refine flatMap_perm _ hp (h.imp fun {a b} hab => ?_)
    cases ha : p a
    · left; simp [ha]
    · cases hb : p b
      · right; simp [hb]
      · exact absurd ⟨ha, hb⟩ hab
  refine (same_file _ _ (fun k => key _ (hk.imp fun {a b} hab => ?_)) (key _ (hh.imp fun {a b} hab => ?_))).2
  · simp only [decide_eq_true_eq]
    rintro ⟨rfl, h⟩
    exact hab h.symm
  · simpa using hab

/-! ## Examples -/

/-- A text of one entry with an id and a translation is a piece. -/
theorem piece_one (c q r d e : Str) (hl : meaningfulLines c = [b!"msgid " ++ q, b!"msgstr " ++ r])
    (hq : Quote.unquote (GoStr.trimSpace q) = some d) (hr : Quote.unquote (GoStr.trimSpace r) = some e) :
    Piece c ∧ PoText c [entryOf [.field .id d, .field .str e]] := by
  have p1 : Parse [Field.id.word 0 ++ 32 :: q] [] [.field .id d] := Parse.same .nil (.field .id q d hq) (by simp [Starts, lastField])
  have p2 := Parse.same p1 (.field .str r e hr) (by simp [Starts, lastField])
  have hl' : meaningfulLines c = [Field.id.word 0 ++ 32 :: q] ++ [Field.str.word 1 ++ 32 :: r] := hl
  refine ⟨⟨?_, [], _, by rw [hl']; exact p2, .inl rfl⟩, [], _, by rw [hl']; exact p2, rfl⟩
  intro l h
  rw [hl'] at h
  cases h
  exact .inr (.inr ⟨q, rfl⟩)

/-- Three pieces. -/
def pieces : List Str := [b!"msgid \"a\"\nmsgstr \"b\"\n", b!"msgid \"\"\nmsgstr \"Language: fr\\n\"\n", b!"msgid \"x\"\nmsgstr \"y\""]

theorem pieces_ok : (∀ c ∈ pieces, Piece c) ∧ pieces.Pairwise Disjoint ∧
    pieces.Pairwise fun a b => ¬ (Headed a ∧ Headed b) := by
  have h1 := piece_one b!"msgid \"a\"\nmsgstr \"b\"\n" b!"\"a\"" b!"\"b\"" b!"a" b!"b" (by decide +kernel) (by decide) (by decide)
  have h2 := piece_one b!"msgid \"\"\nmsgstr \"Language: fr\\n\"\n" b!"\"\"" b!"\"Language: fr\\n\"" [] b!"Language: fr\n"
    (by decide +kernel) (by decide) (by decide +kernel)
  have h3 := piece_one b!"msgid \"x\"\nmsgstr \"y\"" b!"\"x\"" b!"\"y\"" b!"x" b!"y" (by decide +kernel) (by decide) (by decide)
  have t1 := translatedOf_eq h1.2
  have t2 := translatedOf_eq h2.2
  have t3 := translatedOf_eq h3.2
  have k {c : Str} {e : Entry} (h : translatedOf c = [e].filter fun e => Translated e) (hc : Piece c) (ctxt id : Str)
      (hd : Defines c ctxt id) : e.key = key ctxt id := by
    obtain ⟨e', he, hk⟩ := (defines_iff' hc ctxt id).mp hd
    rw [h] at he
    have := (List.mem_filter.mp he).1
    simp only [List.mem_singleton] at this
    rw [← this]; exact hk
  have kh {c : Str} {e : Entry} (h : translatedOf c = [e].filter fun e => Translated e) (hc : Piece c)
      (hd : Headed c) : e.id = [] := by
    obtain ⟨e', he, hk⟩ := (headed_iff hc).mp hd
    rw [h] at he
    have := (List.mem_filter.mp he).1
    simp only [List.mem_singleton] at this
    rw [← this]; exact hk
  have dis {c d : Str} {e e' : Entry} (h : translatedOf c = [e].filter fun e => Translated e) (hc : Piece c)
      (h' : translatedOf d = [e'].filter fun e => Translated e) (hc' : Piece d) (hne : e.key ≠ e'.key) : Disjoint c d := by
    rintro ctxt id ⟨a, b⟩
    exact hne ((k h hc ctxt id a).trans (k h' hc' ctxt id b).symm)
  refine ⟨?_, ?_, ?_⟩
  · intro c hc
    simp only [pieces, List.mem_cons, List.not_mem_nil, or_false] at hc
    rcases hc with rfl | rfl | rfl
    · exact h1.1
    · exact h2.1
    · exact h3.1
  · unfold pieces
    simp only [List.pairwise_cons, List.mem_cons, List.not_mem_nil, or_false, forall_eq_or_imp, forall_eq, List.Pairwise.nil,
      and_true, false_implies, implies_true]
    exact ⟨⟨dis t1 h1.1 t2 h2.1 (by decide), dis t1 h1.1 t3 h3.1 (by decide)⟩, dis t2 h2.1 t3 h3.1 (by decide)⟩
  · unfold pieces
    simp only [List.pairwise_cons, List.mem_cons, List.not_mem_nil, or_false, forall_eq_or_imp, forall_eq, List.Pairwise.nil,
      and_true, false_implies, implies_true]
    exact ⟨⟨fun h => absurd (kh t1 h1.1 h.1) (by decide), fun h => absurd (kh t1 h1.1 h.1) (by decide)⟩,
      fun h => absurd (kh t3 h3.1 h.2) (by decide)⟩

/-- The pieces in another order, with the header in the middle or first. -/
example : pieces.Perm [b!"msgid \"\"\nmsgstr \"Language: fr\\n\"\n", b!"msgid \"x\"\nmsgstr \"y\"", b!"msgid \"a\"\nmsgstr \"b\"\n"] ∧
    (∃ f, readPo (joined pieces) = .ok f ∧ f.lang.1 = b!"fr" ∧ (f.entries.get? (key [] b!"a")).map (·.str) = some b!"b" ∧
      (f.entries.get? (key [] b!"x")).map (·.str) = some b!"y") :=
  ⟨by decide +kernel, of_okAnd _ _ (by decide +kernel)⟩

/-- **C118** The conditions are needed: of two translations of one message, or two headers, the order decides; and
behind an unfinished piece another is read as its continuation. -/
theorem C118_conditions :
    (∃ f g, readPo (joined [b!"msgid \"a\"\nmsgstr \"b\"", b!"msgid \"a\"\nmsgstr \"c\""]) = .ok f ∧
      readPo (joined [b!"msgid \"a\"\nmsgstr \"c\"", b!"msgid \"a\"\nmsgstr \"b\""]) = .ok g ∧
      (f.entries.get? (key [] b!"a")).map (·.str) = some b!"c" ∧ (g.entries.get? (key [] b!"a")).map (·.str) = some b!"b") ∧
    (∃ f g, readPo (joined [b!"msgid \"\"\nmsgstr \"Language: fr\"", b!"msgctxt \"x\"\nmsgid \"\"\nmsgstr \"Language: de\""]) = .ok f ∧
      readPo (joined [b!"msgctxt \"x\"\nmsgid \"\"\nmsgstr \"Language: de\"", b!"msgid \"\"\nmsgstr \"Language: fr\""]) = .ok g ∧
      f.lang.1 = b!"fr" ∧ g.lang.1 = []) ∧
    (∃ f, readPo (joined [b!"msgctxt \"c\"", b!"msgid \"a\"\nmsgstr \"b\""]) = .ok f ∧ f.entries.get? (key [] b!"a") = none) := by
  refine ⟨?_, ?_, ?_⟩
  · obtain ⟨f, hf, h1⟩ := of_okAnd (readPo (joined [b!"msgid \"a\"\nmsgstr \"b\"", b!"msgid \"a\"\nmsgstr \"c\""]))
      (fun f => (f.entries.get? (key [] b!"a")).map (·.str) = some b!"c") (by decide +kernel)
    obtain ⟨g, hg, h2⟩ := of_okAnd (readPo (joined [b!"msgid \"a\"\nmsgstr \"c\"", b!"msgid \"a\"\nmsgstr \"b\""]))
      (fun f => (f.entries.get? (key [] b!"a")).map (·.str) = some b!"b") (by decide +kernel)
    exact ⟨f, g, hf, hg, h1, h2⟩
  · obtain ⟨f, hf, h1⟩ := of_okAnd
      (readPo (joined [b!"msgid \"\"\nmsgstr \"Language: fr\"", b!"msgctxt \"x\"\nmsgid \"\"\nmsgstr \"Language: de\""]))
      (fun f => f.lang.1 = b!"fr") (by decide +kernel)
    obtain ⟨g, hg, h2⟩ := of_okAnd
      (readPo (joined [b!"msgctxt \"x\"\nmsgid \"\"\nmsgstr \"Language: de\"", b!"msgid \"\"\nmsgstr \"Language: fr\""]))
      (fun f => f.lang.1 = []) (by decide +kernel)
    exact ⟨f, g, hf, hg, h1, h2⟩
  · exact of_okAnd _ _ (by decide +kernel)

end Verif.Tr
