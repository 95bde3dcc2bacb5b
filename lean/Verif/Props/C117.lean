import Verif.Spec.MoLookup
import Verif.Props.C34_C35
/-!
# C117 Which messages C programs find in a saved MO file
-/
namespace Verif.Libintl
open Verif

theorem word_of_num32 {c : Str} {pos v : Nat} (h : Tr.Num32 false c pos v) : word c pos = some v := by
  obtain ⟨w, x, y, z, ⟨pre, post, rfl, rfl⟩, rfl⟩ := h
  simp [word]

theorem cstr_at {c : Str} {pos : Nat} {s : Str} (h : Tr.At c pos (s ++ [0])) : cstr (c.drop pos) = cstr s := by
  obtain ⟨pre, post, rfl, rfl⟩ := h
  unfold cstr
  rw [show pre ++ (s ++ [0]) ++ post = pre ++ (s ++ 0 :: post) from by simp, List.drop_left]
  induction s with
  | nil => simp
  | cons x s ih =>
    simp only [List.cons_append, List.takeWhile_cons]
    split
    · rw [ih]
    · rfl

theorem bytes_at {c : Str} {pos : Nat} {s : Str} (h : Tr.At c pos (s ++ [0])) : (c.drop pos).take s.length = s := by
  obtain ⟨pre, post, rfl, rfl⟩ := h
  rw [show pre ++ (s ++ [0]) ++ post = pre ++ (s ++ 0 :: post) from by simp, List.drop_left, List.take_left]

/-! ## Binary search -/

/-- Binary search for `q` among the keys from `bottom` to `top`. -/
def bsearch (key : Nat → Str) (q : Str) : Nat → Nat → Nat → Option Nat
  | 0, _, _ => none
  | fuel + 1, bottom, top =>
    if bottom < top then
      let act := (bottom + top) / 2
      if q < key act then bsearch key q fuel bottom act
      else if key act < q then bsearch key q fuel (act + 1) top
      else some act
    else none

theorem search_eq {c : Str} {O n : Nat} {key : Nat → Str} {q : Str}
    (h : ∀ i < n, ∃ off, word c (O + 8 * i + 4) = some off ∧ cstr (c.drop off) = key i) : ∀ fuel b t, t ≤ n →
    search c O q fuel b t = bsearch key q fuel b t := by
  intro fuel
  induction fuel with
  | zero => intro b t _; rfl
  | succ fuel ih =>
    intro b t ht
    rw [search, bsearch]
    by_cases hb : b < t
    · rw [if_pos hb, if_pos hb]
      obtain ⟨off, h1, h2⟩ := h ((b + t) / 2) (by omega)
      dsimp only
      rw [h1]
      dsimp only
      rw [h2, ih _ _ (by omega), ih _ _ ht]
    · rw [if_neg hb, if_neg hb]

theorem bsearch_some {key : Nat → Str} {q : Str} : ∀ {fuel b t i : Nat}, bsearch key q fuel b t = some i → b ≤ i ∧ i < t ∧ key i = q := by
  intro fuel
  induction fuel with
  | zero => intro b t i h; cases h
  | succ fuel ih =>
    intro b t i h
    rw [bsearch] at h
    split at h
    · dsimp only at h
      split at h
      · have := ih h; refine ⟨this.1, by omega, this.2.2⟩
      · split at h
        · have := ih h; refine ⟨by omega, this.2⟩
        · rename_i h1 h2
          cases h
          exact ⟨by omega, by omega, List.le_antisymm (List.not_lt.mp h1) (List.not_lt.mp h2)⟩
    · cases h

theorem bsearch_sorted {key : Nat → Str} : ∀ {fuel b t : Nat}, t - b ≤ fuel → (∀ i j, b ≤ i → i < j → j < t → key i < key j) →
    ∀ i, b ≤ i → i < t → bsearch key (key i) fuel b t = some i := by
  intro fuel
  induction fuel with
  | zero => intro b t h _ i h1 h2; omega
  | succ fuel ih =>
    intro b t h hs i h1 h2
    rw [bsearch, if_pos (by omega)]
    dsimp only
    rcases Nat.lt_trichotomy i ((b + t) / 2) with hi | hi | hi
    · rw [if_pos (hs i _ h1 hi (by omega))]
      exact ih (by omega) (fun i j a b c => hs i j a b (by omega)) i h1 hi
    · rw [← hi, if_neg (List.lt_irrefl _), if_neg (List.lt_irrefl _)]
    · have hlt := hs _ i (by omega) hi h2
      rw [if_neg (List.lt_asymm hlt), if_pos hlt]
      exact ih (by omega) (fun i j a b c => hs i j (by omega) b c) i hi h2

/-- If every key is found where it is, the keys are sorted. -/
theorem sorted_of_found {key : Nat → Str} : ∀ {fuel b t : Nat}, (∀ i, b ≤ i → i < t → bsearch key (key i) fuel b t = some i) →
    ∀ i j, b ≤ i → i < j → j < t → key i < key j := by
  intro fuel
  induction fuel with
  | zero => intro b t h i j h1 h2 h3; cases h i h1 (by omega)
  | succ fuel ih =>
    intro b t h
    have left : ∀ i, b ≤ i → i < (b + t) / 2 → key i < key ((b + t) / 2) ∧ bsearch key (key i) fuel b ((b + t) / 2) = some i := by
      intro i h1 h2
      have := h i h1 (by omega)
      rw [bsearch, if_pos (by omega)] at this
      dsimp only at this
      split at this
      · rename_i hlt; exact ⟨hlt, this⟩
      · split at this
        · have := bsearch_some this; omega
        · cases this; omega
    have right : ∀ i, (b + t) / 2 < i → i < t → key ((b + t) / 2) < key i ∧ bsearch key (key i) fuel ((b + t) / 2 + 1) t = some i := by
      intro i h1 h2
      have := h i (by omega) h2
      rw [bsearch, if_pos (by omega)] at this
      dsimp only at this
      split at this
      · have := bsearch_some this; omega
      · split at this
        · rename_i hlt; exact ⟨hlt, this⟩
        · cases this; omega
    intro i j h1 h2 h3
    rcases Nat.lt_trichotomy j ((b + t) / 2) with hj | hj | hj
    · exact ih (fun i a b => (left i a b).2) i j h1 h2 hj
    · rw [hj]; exact (left i h1 (by omega)).1
    · rcases Nat.lt_trichotomy i ((b + t) / 2) with hi | hi | hi
      · exact List.lt_trans (left i h1 hi).1 (right j hj h3).1
      · rw [hi]; exact (right j hj h3).1
      · exact ih (fun i a b => (right i (by omega) b).2) i j hi h2 h3

/-! ## Lookups -/

theorem find_eq {c : Str} {ps : List (Str × Str)} (h : Tr.Layout c ps) (q : Str) :
    find c q = (bsearch (fun i => cstr ((ps[i]?.map Prod.fst).getD [])) q ps.length 0 ps.length).bind fun i => (ps[i]?).map Prod.snd := by
  obtain ⟨O, T, offI, offS, h0, h4, h8, h12, h16, h20, -, -, -, hp⟩ := h
  have hm : word c 0 = some 0x950412de := word_of_num32 ⟨_, _, _, _, h0, rfl⟩
  unfold find
  rw [hm, word_of_num32 h8, word_of_num32 h12, word_of_num32 h16, word_of_num32 h20]
  simp only [Option.bind_eq_bind, Option.bind_some]
  rw [if_pos (by decide), search_eq (n := ps.length) (key := fun i => cstr ((ps[i]?.map Prod.fst).getD [])) _ _ _ _ (Nat.le_refl _)]
  · cases hb : bsearch (fun i => cstr ((ps[i]?.map Prod.fst).getD [])) q ps.length 0 ps.length with
    | none => rfl
    | some i =>
      obtain ⟨-, hi, -⟩ := bsearch_some hb
      have hg := List.getElem?_eq_getElem hi
      obtain ⟨-, -, ⟨h1, h2⟩, h3, -⟩ := hp i _ hg
      simp only [Option.bind_some]
      rw [word_of_num32 h1, Option.bind_some, word_of_num32 h2, Option.bind_some, bytes_at h3, hg]
      rfl
  · intro i hi
    have hg := List.getElem?_eq_getElem hi
    obtain ⟨⟨h1, h2⟩, h3, -⟩ := hp i _ hg
    exact ⟨_, word_of_num32 h2, by rw [cstr_at h3, hg]; rfl⟩

/-- **C117** If the original strings are in increasing order, as C compares them, libintl finds exactly the messages of the file. -/
theorem C117_sorted (c : Str) (ps : List (Str × Str)) (h : Tr.Layout c ps) (hs : (ps.map fun p => cstr p.1).Pairwise (· < ·)) (q : Str) :
    find c q = (ps.find? fun p => cstr p.1 = q).map Prod.snd := by
  have hk : ∀ i (hi : i < ps.length), cstr ((ps[i]?.map Prod.fst).getD []) = cstr ps[i].1 := by
    intro i hi; rw [List.getElem?_eq_getElem hi]; rfl
  have hsort : ∀ i j, 0 ≤ i → i < j → j < ps.length → cstr ((ps[i]?.map Prod.fst).getD []) < cstr ((ps[j]?.map Prod.fst).getD []) := by
    intro i j _ hij hj
    rw [hk i (by omega), hk j hj]
    have := List.pairwise_iff_getElem.1 hs i j (by rw [List.length_map]; omega) (by rw [List.length_map]; omega) hij
    rwa [List.getElem_map, List.getElem_map] at this
  rw [find_eq h]
  cases hf : ps.find? fun p => cstr p.1 = q with
  | none =>
    rw [List.find?_eq_none] at hf
    cases hb : bsearch (fun i => cstr ((ps[i]?.map Prod.fst).getD [])) q ps.length 0 ps.length with
    | none => rfl
    | some i =>
      obtain ⟨-, hi, he⟩ := bsearch_some hb
      rw [hk i hi] at he
      exact absurd (by simpa using he) (hf ps[i] (List.getElem_mem hi))
  | some p =>
    have hq : cstr p.1 = q := by simpa using List.find?_some hf
    obtain ⟨i, hi, rfl⟩ := List.mem_iff_getElem.1 (List.mem_of_find?_eq_some hf)
    have := bsearch_sorted (key := fun i => cstr ((ps[i]?.map Prod.fst).getD [])) (fuel := ps.length) (b := 0) (by omega) hsort i (by omega) hi
    rw [hk i hi, hq] at this
    rw [this, Option.bind_some, List.getElem?_eq_getElem hi]

/-- **C117** It finds all of them only then. -/
theorem C117_iff (c : Str) (ps : List (Str × Str)) (h : Tr.Layout c ps) (hn : (ps.map fun p => cstr p.1).Nodup) :
    (∀ p ∈ ps, find c (cstr p.1) = some p.2) ↔ (ps.map fun p => cstr p.1).Pairwise (· < ·) := by
  constructor
  · intro hall
    have hk : ∀ i (hi : i < ps.length), cstr ((ps[i]?.map Prod.fst).getD []) = cstr ps[i].1 := by
      intro i hi; rw [List.getElem?_eq_getElem hi]; rfl
    have := sorted_of_found (key := fun i => cstr ((ps[i]?.map Prod.fst).getD [])) (fuel := ps.length) (b := 0) (t := ps.length) ?_
    · rw [List.pairwise_iff_getElem]
      intro i j hi hj hij
      rw [List.length_map] at hi hj
      have := this i j (by omega) hij hj
      rw [hk i hi, hk j hj] at this
      rwa [List.getElem_map, List.getElem_map]
    · intro i _ hi
      have hf := hall ps[i] (List.getElem_mem hi)
      rw [find_eq h, ← hk i hi] at hf
      cases hb : bsearch (fun i => cstr ((ps[i]?.map Prod.fst).getD [])) (cstr ((ps[i]?.map Prod.fst).getD [])) ps.length 0 ps.length with
      | none => rw [hb] at hf; cases hf
      | some j =>
        obtain ⟨-, hj, he⟩ := bsearch_some hb
        rw [hk i hi, hk j hj] at he
        have : j = i := by
          apply (List.Nodup.getElem_inj_iff hn (hi := by rw [List.length_map]; omega) (hj := by rw [List.length_map]; omega)).1
          rw [List.getElem_map, List.getElem_map, he]
        rw [this]
  · intro hs p hp
    rw [C117_sorted c ps h hs]
    obtain ⟨i, hi, rfl⟩ := List.mem_iff_getElem.1 hp
    cases hf : ps.find? fun p => cstr p.1 = cstr ps[i].1 with
    | none =>
      rw [List.find?_eq_none] at hf
      exact absurd (by simp) (hf ps[i] hp)
    | some p' =>
      have hq : cstr p'.1 = cstr ps[i].1 := by simpa using List.find?_some hf
      obtain ⟨j, hj, rfl⟩ := List.mem_iff_getElem.1 (List.mem_of_find?_eq_some hf)
      have : j = i := by
        apply (List.Nodup.getElem_inj_iff hn (hi := by rw [List.length_map]; omega) (hj := by rw [List.length_map]; omega)).1
        rw [List.getElem_map, List.getElem_map, hq]
      subst this
      rfl


/-! ## Saved files -/

/-- What a C program asks for: the id, after the context if there is one. -/
def question (e : Tr.Entry) : Str := if e.ctxt = [] then e.id else e.ctxt ++ 4 :: e.id

theorem cstr_self {s : Str} (h : 0 ∉ s) : cstr s = s := by
  induction s with
  | nil => rfl
  | cons x s ih =>
    simp only [List.mem_cons, not_or] at h
    unfold cstr at ih ⊢
    rw [List.takeWhile_cons_of_pos (by simpa using Ne.symm h.1), ih h.2]

theorem cstr_append {s : Str} (h : 0 ∉ s) (t : Str) : cstr (s ++ 0 :: t) = s := by
  unfold cstr
  rw [List.takeWhile_append_of_pos]
  · simp
  · intro x hx
    have : x ≠ 0 := by rintro rfl; exact h hx
    simpa using this

theorem question_nul {e : Tr.Entry} (h1 : 0 ∉ e.ctxt) (h2 : 0 ∉ e.id) : 0 ∉ question e := by
  unfold question
  split
  · exact h2
  · simp [h1, h2]

theorem cstr_origOf {e : Tr.Entry} (h1 : 0 ∉ e.ctxt) (h2 : 0 ∉ e.id) : cstr (Tr.origOf e) = question e := by
  have h := question_nul h1 h2
  unfold Tr.origOf
  change cstr (question e ++ _) = _
  split
  · exact cstr_append h _
  · rw [List.append_nil, cstr_self h]

theorem question_key {a b : Tr.Entry} (ha : 4 ∉ a.ctxt ∧ 4 ∉ a.id) (hb : 4 ∉ b.ctxt ∧ 4 ∉ b.id) (h : question a = question b) : a.key = b.key := by
  unfold question at h
  unfold Tr.Entry.key Tr.key
  split at h <;> split at h
  · rename_i h1 h2; rw [h1, h2, h]
  · exfalso; apply ha.2; rw [h]; simp
  · exfalso; apply hb.2; rw [← h]; simp
  · simpa using h

/-- **C117** A C program finds every message of a saved file, with its translation, exactly if the original strings are in increasing order
(C34 tells when they are). -/
theorem C117_saved (f : Tr.File) (hf : Tr.Consistent f) (es : List Tr.Entry) (hs : Tr.SortedEntry f es) (hlt : (Tr.saveMo es).length < 4294967296)
    (hnul : ∀ e ∈ es, 0 ∉ e.ctxt ∧ 0 ∉ e.id) (heot : ∀ e ∈ es, 4 ∉ e.ctxt ∧ 4 ∉ e.id) :
    (∀ e ∈ es, find (Tr.saveMo es) (question e) = some (Tr.transOf e)) ↔ Tr.MoSorted es := by
  have hkeys : es.Pairwise fun a b => a.key ≠ b.key := by
    have : (f.entries.vals.map Tr.Entry.key).Nodup := by
      have : f.entries.vals.map Tr.Entry.key = f.entries.keys := by
        simp only [GMap.vals, GMap.keys, List.map_map]
        apply List.map_congr_left
        intro p hp
        exact (hf.2 p hp).symm
      rw [this]
      exact hf.1
    have := (hs.1.map Tr.Entry.key).nodup_iff.2 this
    exact List.pairwise_map.1 this
  have hL := C117_iff _ _ (Tr.C33_layout es hlt) (by
    rw [List.map_map]
    unfold List.Nodup
    rw [List.pairwise_map]
    refine hkeys.imp_of_mem ?_
    intro a b ha hb hne hq
    simp only [Function.comp_apply] at hq
    rw [cstr_origOf (hnul a ha).1 (hnul a ha).2, cstr_origOf (hnul b hb).1 (hnul b hb).2] at hq
    exact hne (question_key (heot a ha) (heot b hb) hq))
  have h1 : (∀ e ∈ es, find (Tr.saveMo es) (question e) = some (Tr.transOf e)) ↔
      ∀ p ∈ es.map fun e => (Tr.origOf e, Tr.transOf e), find (Tr.saveMo es) (cstr p.1) = some p.2 := by
    constructor
    · intro h p hp
      obtain ⟨e, he, rfl⟩ := List.mem_map.1 hp
      rw [cstr_origOf (hnul e he).1 (hnul e he).2]
      exact h e he
    · intro h e he
      have := h _ (List.mem_map.2 ⟨e, he, rfl⟩)
      rwa [cstr_origOf (hnul e he).1 (hnul e he).2] at this
  rw [h1, hL, List.map_map, List.pairwise_map]
  unfold Tr.MoSorted
  rw [List.pairwise_map]
  have lt : ∀ a ∈ es, ∀ b ∈ es, question a < question b → Tr.origOf a < Tr.origOf b := by
    intro a ha b hb h
    unfold Tr.origOf
    refine Tr.lt_suffix _ _ _ _ h (question_nul (hnul b hb).1 (hnul b hb).2) ?_
    split
    · exact .inr ⟨_, rfl⟩
    · exact .inl rfl
  constructor
  · intro h
    refine h.imp_of_mem ?_
    intro a b ha hb hab
    simp only [Function.comp_apply] at hab
    rw [cstr_origOf (hnul a ha).1 (hnul a ha).2, cstr_origOf (hnul b hb).1 (hnul b hb).2] at hab
    exact lt a ha b hb hab
  · intro h
    refine (h.and hkeys).imp_of_mem ?_
    rintro a b ha hb ⟨hab, hne⟩
    simp only [Function.comp_apply]
    rw [cstr_origOf (hnul a ha).1 (hnul a ha).2, cstr_origOf (hnul b hb).1 (hnul b hb).2]
    by_contra hc
    by_cases h2 : question b < question a
    · exact List.lt_asymm hab (lt b hb a ha h2)
    · exact hne (question_key (heot a ha) (heot b hb) (List.le_antisymm (List.not_lt.mp h2) (List.not_lt.mp hc)))

/-- **C117** From the translation found, a C program takes the form it wants. -/
theorem C117_form (ss : List Str) (h0 : ∀ s ∈ ss, 0 ∉ s) (k : Nat) (hk : k < ss.length) : form k (List.intercalate [0] ss) = some ss[k] := by
  induction ss generalizing k with
  | nil => simp at hk
  | cons s ss ih =>
    have hs := h0 s (by simp)
    cases ss with
    | nil =>
      have : k = 0 := by simpa using hk
      subst this
      simp [List.intercalate, form, cstr_self hs]
    | cons t ts =>
      have e : List.intercalate [0] (s :: t :: ts) = s ++ 0 :: List.intercalate [0] (t :: ts) := by
        simp [List.intercalate, List.intersperse]
      rw [e]
      cases k with
      | zero => simp [form, cstr_append hs]
      | succ k =>
        have hd : (s ++ 0 :: List.intercalate [0] (t :: ts)).dropWhile (· ≠ 0) = 0 :: List.intercalate [0] (t :: ts) := by
          rw [List.dropWhile_append_of_pos]
          · simp
          · intro x hx
            have : x ≠ 0 := by rintro rfl; exact hs hx
            simpa using this
        rw [form, hd]
        simpa using ih (fun s hs => h0 s (by simp [hs])) k (by simpa using hk)

/-- **C117** With musl no message is found in any saved file: the table begins at byte 75, and musl wants a multiple of 4. -/
theorem C117_musl (es : List Tr.Entry) (q : Str) : musl (Tr.saveMo es) q = none := by
  have h12 : word (Tr.saveMo es) 12 = some 75 := by
    unfold Tr.saveMo Tr.moHeader
    rfl
  unfold musl
  rw [h12]
  cases word (Tr.saveMo es) 8 with
  | none => rfl
  | some n =>
    cases word (Tr.saveMo es) 16 with
    | none => rfl
    | some t =>
      simp only [Option.bind_eq_bind, Option.bind_some]
      rw [if_pos (by simp)]


/-- Two messages and the header. -/
def hello : List Tr.Entry := [{ str := b!"Language: de\n" }, { id := b!"a", str := b!"A" },
  { id := b!"file", isPlural := true, id2 := b!"files", strN := [b!"Datei", b!"Dateien"] }]

example : Tr.MoSorted hello ∧ find (Tr.saveMo hello) b!"file" = some b!"Datei\x00Dateien" ∧ form 1 b!"Datei\x00Dateien" = some b!"Dateien" ∧
    find (Tr.saveMo hello) b!"a" = some b!"A" ∧ find (Tr.saveMo hello) b!"fil" = none := by
  refine ⟨?_, by decide +kernel, by decide +kernel, by decide +kernel, by decide +kernel⟩
  unfold Tr.MoSorted
  decide +kernel

/-- With references the messages are in the order of the references, and one of the two is not found. -/
example : find (Tr.saveMo [{ cmts := [b!"#: a.go:1"], id := b!"z", str := b!"1" }, { cmts := [b!"#: a.go:2"], id := b!"a", str := b!"2" }]) b!"z" = none ∧
    find (Tr.saveMo [{ cmts := [b!"#: a.go:1"], id := b!"z", str := b!"1" }, { cmts := [b!"#: a.go:2"], id := b!"a", str := b!"2" }]) b!"a" = some b!"2" := by
  decide +kernel

/-- The same strings in a file whose tables begin at multiples of 4: there musl finds them. -/
example : musl (Tr.moImage false [0] [(b!"a", b!"A"), (b!"b", b!"B"), (b!"c", b!"C")]) b!"c" = none ∧
    musl (Tr.moImage false [0, 0, 0, 0] [(b!"a", b!"A"), (b!"b", b!"B"), (b!"c", b!"C")]) b!"c" = some b!"C" := by
  decide +kernel

/-- **C117** Without references, and without contexts, every message is found. -/
theorem C117_plain (f : Tr.File) (hf : Tr.Consistent f) (es : List Tr.Entry) (hs : Tr.SortedEntry f es) (hlt : (Tr.saveMo es).length < 4294967296)
    (hcmt : ∀ e ∈ es, ∀ c ∈ e.cmts, ¬ b!"#:" <+: c) (hctx : ∀ e ∈ es, e.ctxt = []) (hid : ∀ e ∈ es, 0 ∉ e.id ∧ 4 ∉ e.id) :
    ∀ e ∈ es, find (Tr.saveMo es) e.id = some (Tr.transOf e) := by
  have hnul : ∀ e ∈ es, 0 ∉ e.ctxt ∧ 0 ∉ e.id := fun e he => ⟨by rw [hctx e he]; simp, (hid e he).1⟩
  have heot : ∀ e ∈ es, 4 ∉ e.ctxt ∧ 4 ∉ e.id := fun e he => ⟨by rw [hctx e he]; simp, (hid e he).2⟩
  have hm := Tr.C34_sorted f hf es hs hcmt (fun e he _ => hctx e he) hnul (.inl fun e he _ => hctx e he)
  intro e he
  have := (C117_saved f hf es hs hlt hnul heot).2 hm e he
  rwa [question, if_pos (hctx e he)] at this

/-- The messages of `hello` in a file. -/
example : ∃ f, Tr.Consistent f ∧ Tr.SortedEntry f hello := by
  refine ⟨{ entries := hello.map fun e => (e.key, e) }, ⟨by decide, by decide⟩, ?_, ?_⟩
  · have : GMap.vals (hello.map fun e => (e.key, e)) = hello := by decide +kernel
    change List.Perm hello (GMap.vals (hello.map fun e => (e.key, e)))
    rw [this]
  · simp only [hello, List.pairwise_cons, List.mem_cons, List.not_mem_nil, or_false, forall_eq_or_imp, forall_eq, IsEmpty.forall_iff, implies_true, and_true,
      List.Pairwise.nil]
    decide +kernel

end Verif.Libintl
