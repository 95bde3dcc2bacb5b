import Verif.Props.C30_C33
import Verif.Props.C28_C29
import Verif.Props.C17
/-! # C34, C35: the order of MO strings, and PO against MO -/
namespace Verif.Tr
open Verif
set_option linter.unusedSimpArgs false

theorem origOf_eq (e : Entry) : origOf e = moMsgID e := by
  unfold origOf moMsgID
  by_cases h1 : e.ctxt = [] <;> simp [h1]

theorem lt_suffix (x y s t : Str) (h : x < y) (h0 : 0 ∉ y) (hs : s = [] ∨ ∃ r, s = 0 :: r) : x ++ s < y ++ t := by
  induction x generalizing y with
  | nil =>
    cases y with
    | nil => exact absurd h (List.lt_irrefl _)
    | cons c y =>
      rcases hs with rfl | ⟨r, rfl⟩
      · exact List.nil_lt_cons _ _
      · simp only [List.nil_append, List.cons_append, List.cons_lt_cons_iff]
        left
        simp only [List.mem_cons, not_or] at h0
        rw [UInt8.lt_iff_toNat_lt]
        have : c.toNat ≠ 0 := by
          intro h; apply h0.1; apply UInt8.toNat_inj.mp; rw [h]; rfl
        change 0 < _
        omega
  | cons a x ih =>
    cases y with
    | nil => exact absurd h (List.not_lt_nil _)
    | cons c y =>
      simp only [List.cons_append, List.cons_lt_cons_iff] at h ⊢
      simp only [List.mem_cons, not_or] at h0
      rcases h with h | ⟨h1, h2⟩
      · exact .inl h
      · exact .inr ⟨h1, ih y h2 h0.2⟩

/-- The original strings are in increasing order, as the GNU format demands. -/
def MoSorted (es : List Entry) : Prop := (es.map origOf).Pairwise (· < ·)

/-- The unrestricted claim. -/
def C34_full : Prop := ∀ (f : File) (es : List Entry), Consistent f → SortedEntry f es → MoSorted es

/-- **C34** The unrestricted claim is false of the code, even without contexts (references come first)
and even without references (ids without context come first). -/
theorem C34_counterexample : ¬ C34_full ∧
    (∃ f es, Consistent f ∧ SortedEntry f es ∧ (∀ e ∈ es, e.ctxt = []) ∧ ¬ MoSorted es) ∧
    (∃ f es, Consistent f ∧ SortedEntry f es ∧ (∀ e ∈ es, e.cmts = []) ∧ ¬ MoSorted es) := by
  have h1 : ∃ f es, Consistent f ∧ SortedEntry f es ∧ (∀ e ∈ es, e.ctxt = []) ∧ ¬ MoSorted es := by
    let e0 : Entry := { cmts := [b!"#: a.go:1"], id := b!"z", str := b!"1" }
    let e1 : Entry := { cmts := [b!"#: a.go:2"], id := b!"a", str := b!"2" }
    refine ⟨{ entries := [(e0.key, e0), (e1.key, e1)] }, [e0, e1], ⟨by decide, by decide⟩, ⟨by decide, ?_⟩, by decide, ?_⟩
    · simp only [List.pairwise_cons, List.mem_cons, List.not_mem_nil, or_false, forall_eq,
        IsEmpty.forall_iff, implies_true, and_true]
      decide
    · intro h
      have := (List.pairwise_cons.mp h).1 (origOf e1) (by simp)
      revert this; decide
  have h2 : ∃ f es, Consistent f ∧ SortedEntry f es ∧ (∀ e ∈ es, e.cmts = []) ∧ ¬ MoSorted es := by
    let e0 : Entry := { id := b!"b", str := b!"1" }
    let e1 : Entry := { ctxt := b!"a", id := b!"x", str := b!"2" }
    refine ⟨{ entries := [(e0.key, e0), (e1.key, e1)] }, [e0, e1], ⟨by decide, by decide⟩, ⟨by decide, ?_⟩, by decide, ?_⟩
    · simp only [List.pairwise_cons, List.mem_cons, List.not_mem_nil, or_false, forall_eq,
        IsEmpty.forall_iff, implies_true, and_true]
      decide
    · intro h
      have := (List.pairwise_cons.mp h).1 (origOf e1) (by simp)
      revert this; decide
  refine ⟨?_, h1, h2⟩
  intro h
  obtain ⟨f, es, a, b, -, c⟩ := h1
  exact c (h f es a b)

theorem cmtPieces_of_not_ref (c : Str) (h : ¬ b!"#:" <+: c) : cmtPieces c = [] := by
  unfold cmtPieces
  rw [if_neg]
  simpa [GoStr.hasPrefix] using h

/-- Ids without a context sort before ids with one. -/
theorem key_lt_of_ctxt (a b : Entry) (ca : a.ctxt = []) (cb : b.ctxt ≠ []) (hlow : ∀ c ∈ b.ctxt.head?, 4 < c) :
    a.key < b.key := by
  unfold Entry.key key
  rw [ca]
  cases hb : b.ctxt with
  | nil => exact absurd hb cb
  | cons c t =>
    rw [hb] at hlow
    simp only [List.nil_append, List.cons_append, List.cons_lt_cons_iff]
    exact .inl (hlow c rfl)

theorem mo_sorted_of_mixed (f : File) (hf : Consistent f) (es : List Entry) (hs : SortedEntry f es)
    (hcmt : ∀ e ∈ es, ∀ c ∈ e.cmts, ¬ b!"#:" <+: c) (hhd : ∀ e ∈ es, e.id = [] → e.ctxt = [])
    (hnul : ∀ e ∈ es, 0 ∉ e.ctxt ∧ 0 ∉ e.id)
    (hlow : ∀ e ∈ es, ∀ c ∈ e.ctxt.head?, 4 < c)
    (hctx : ∀ a ∈ es, ∀ b ∈ es, a.id ≠ [] → a.ctxt = [] → b.ctxt ≠ [] → origOf a < origOf b) : MoSorted es := by
  have hkeys : es.Pairwise fun a b => a.key ≠ b.key := by
    have : (f.entries.vals.map Entry.key).Nodup := by
      have : f.entries.vals.map Entry.key = f.entries.keys := by
        simp only [GMap.vals, GMap.keys, List.map_map]
        apply List.map_congr_left
        intro p hp
        exact (hf.2 p hp).symm
      rw [this]; exact hf.1
    have := ((hs.1.map Entry.key).nodup_iff).mpr this
    exact List.pairwise_map.mp this
  have hline : ∀ e ∈ es, e.lineString = [] := by
    intro e he
    unfold Entry.lineString
    have : e.cmts.flatMap cmtPieces = [] := by
      rw [List.flatMap_eq_nil_iff]
      intro c hc
      exact cmtPieces_of_not_ref c (hcmt e he c hc)
    rw [this]; rfl
  unfold MoSorted
  rw [List.pairwise_map]
  refine List.Pairwise.imp_of_mem ?_ (hkeys.and hs.2)
  rintro a b ha hb ⟨hk, hlt⟩
  by_cases hmix : a.id ≠ [] ∧ a.ctxt = [] ∧ b.ctxt ≠ []
  · exact hctx a ha b hb hmix.1 hmix.2.1 hmix.2.2
  let base : Entry → Str := fun e => if e.ctxt = [] then e.id else e.ctxt ++ 4 :: e.id
  have h0 : 0 ∉ base b := by
    have := hnul b hb
    simp only [base]
    split <;> simp [this]
  suffices base a < base b by
    apply lt_suffix _ _ _ _ this h0
    cases a.isPlural
    · left; rfl
    · right; exact ⟨_, rfl⟩
  have hsk : ∀ e ∈ es, e.id ≠ [] → e.sortKey = e.key := by
    intro e he hid
    unfold Entry.sortKey
    rw [if_neg (by simpa [Entry.isHeader] using hid), hline e he]; rfl
  have hbase : ∀ e ∈ es, e.id = [] → base e = [] := by
    intro e he hid
    simp only [base]
    rw [if_pos (hhd e he hid), hid]
  by_cases ia : a.id = []
  · rw [hbase a ha ia]
    by_cases ib : b.id = []
    · exact absurd (by unfold Entry.key; rw [ia, ib, hhd a ha ia, hhd b hb ib]) hk
    · have : base b ≠ [] := by
        simp only [base]
        split
        · exact ib
        · simp
      cases hbb : base b with
      | nil => exact absurd hbb this
      | cons c t => exact List.nil_lt_cons _ _
  · by_cases ib : b.id = []
    · exfalso
      apply hlt
      rw [(sortKey_nil b).mpr ib]
      cases hsa : a.sortKey with
      | nil => exact absurd ((sortKey_nil a).mp hsa) ia
      | cons c t => exact List.nil_lt_cons _ _
    · rw [hsk a ha ia, hsk b hb ib] at hlt
      have hlt' : a.key < b.key := by
        by_contra hc
        exact hk (str_trichotomy _ _ hc hlt)
      by_cases ca : a.ctxt = []
      · have cb : b.ctxt = [] := by
          by_contra cb
          exact hmix ⟨ia, ca, cb⟩
        simp only [base, ca, cb, if_true]
        simp only [Entry.key, key, ca, cb, List.nil_append, List.cons_append] at hlt'
        rw [List.cons_lt_cons_iff] at hlt'
        rcases hlt' with h | ⟨-, h⟩
        · exact absurd h (by decide)
        · exact h
      · by_cases cb : b.ctxt = []
        · exfalso
          exact List.lt_asymm hlt' (key_lt_of_ctxt b a cb ca (hlow a ha))
        · simp only [base, ca, cb, if_false]
          simpa only [Entry.key, key, List.append_assoc, List.cons_append, List.nil_append] using hlt'

/-- **C34** (what holds) For a file whose entries have no reference comments and in which only the header
has an empty id (no NUL in contexts and ids, contexts starting with a byte above EOT), the original
strings are strictly increasing exactly if every id without a context is smaller than every id with one.
In particular that is so if all or none of the messages have a context. -/
theorem C34_sorted_iff (f : File) (hf : Consistent f) (es : List Entry) (hs : SortedEntry f es)
    (hcmt : ∀ e ∈ es, ∀ c ∈ e.cmts, ¬ b!"#:" <+: c) (hhd : ∀ e ∈ es, e.id = [] → e.ctxt = [])
    (hnul : ∀ e ∈ es, 0 ∉ e.ctxt ∧ 0 ∉ e.id) (hlow : ∀ e ∈ es, ∀ c ∈ e.ctxt.head?, 4 < c) :
    MoSorted es ↔ ∀ a ∈ es, ∀ b ∈ es, a.id ≠ [] → a.ctxt = [] → b.ctxt ≠ [] → origOf a < origOf b := by
  refine ⟨?_, mo_sorted_of_mixed f hf es hs hcmt hhd hnul hlow⟩
  intro hm a ha b hb ia ca cb
  have ib : b.id ≠ [] := fun h => cb (hhd b hb h)
  have hline : ∀ e ∈ es, e.id ≠ [] → e.sortKey = e.key := by
    intro e he hid
    unfold Entry.sortKey Entry.lineString
    have : e.cmts.flatMap cmtPieces = [] := by
      rw [List.flatMap_eq_nil_iff]
      intro c hc
      exact cmtPieces_of_not_ref c (hcmt e he c hc)
    rw [if_neg (by simpa [Entry.isHeader] using hid), this]; rfl
  have hlt := key_lt_of_ctxt a b ca cb (hlow b hb)
  unfold MoSorted at hm
  rw [List.pairwise_map] at hm
  obtain ⟨i, hi, rfl⟩ := List.getElem_of_mem ha
  obtain ⟨j, hj, rfl⟩ := List.getElem_of_mem hb
  rcases Nat.lt_trichotomy i j with h | h | h
  · exact List.pairwise_iff_getElem.mp hm i j hi hj h
  · subst h; exact absurd ca cb
  · have := List.pairwise_iff_getElem.mp hs.2 j i hj hi h
    rw [hline _ ha ia, hline _ hb ib] at this
    exact absurd hlt this

/-- **C34** The original strings are strictly increasing if, moreover, all or none of the messages have a
context; here contexts may start with any byte. -/
theorem C34_sorted (f : File) (hf : Consistent f) (es : List Entry) (hs : SortedEntry f es)
    (hcmt : ∀ e ∈ es, ∀ c ∈ e.cmts, ¬ b!"#:" <+: c) (hhd : ∀ e ∈ es, e.id = [] → e.ctxt = [])
    (hnul : ∀ e ∈ es, 0 ∉ e.ctxt ∧ 0 ∉ e.id)
    (hctx : (∀ e ∈ es, e.id ≠ [] → e.ctxt = []) ∨ (∀ e ∈ es, e.id ≠ [] → e.ctxt ≠ [])) : MoSorted es := by
  have hkeys : es.Pairwise fun a b => a.key ≠ b.key := by
    have : (f.entries.vals.map Entry.key).Nodup := by
      have : f.entries.vals.map Entry.key = f.entries.keys := by
        simp only [GMap.vals, GMap.keys, List.map_map]
        apply List.map_congr_left
        intro p hp
        exact (hf.2 p hp).symm
      rw [this]; exact hf.1
    have := ((hs.1.map Entry.key).nodup_iff).mpr this
    exact List.pairwise_map.mp this
  have hline : ∀ e ∈ es, e.lineString = [] := by
    intro e he
    unfold Entry.lineString
    have : e.cmts.flatMap cmtPieces = [] := by
      rw [List.flatMap_eq_nil_iff]
      intro c hc
      exact cmtPieces_of_not_ref c (hcmt e he c hc)
    rw [this]; rfl
  unfold MoSorted
  rw [List.pairwise_map]
  refine List.Pairwise.imp_of_mem ?_ (hkeys.and hs.2)
  rintro a b ha hb ⟨hk, hlt⟩
  let base : Entry → Str := fun e => if e.ctxt = [] then e.id else e.ctxt ++ 4 :: e.id
  have h0 : 0 ∉ base b := by
    have := hnul b hb
    simp only [base]
    split <;> simp [this]
  suffices base a < base b by
    apply lt_suffix _ _ _ _ this h0
    cases a.isPlural
    · left; rfl
    · right; exact ⟨_, rfl⟩
  have hsk : ∀ e ∈ es, e.id ≠ [] → e.sortKey = e.key := by
    intro e he hid
    unfold Entry.sortKey
    rw [if_neg (by simpa [Entry.isHeader] using hid), hline e he]; rfl
  have hbase : ∀ e ∈ es, e.id = [] → base e = [] := by
    intro e he hid
    simp only [base]
    rw [if_pos (hhd e he hid), hid]
  by_cases ia : a.id = []
  · rw [hbase a ha ia]
    by_cases ib : b.id = []
    · exact absurd (by unfold Entry.key; rw [ia, ib, hhd a ha ia, hhd b hb ib]) hk
    · have : base b ≠ [] := by
        simp only [base]
        split
        · exact ib
        · simp
      cases hbb : base b with
      | nil => exact absurd hbb this
      | cons c t => exact List.nil_lt_cons _ _
  · by_cases ib : b.id = []
    · exfalso
      apply hlt
      rw [(sortKey_nil b).mpr ib]
      cases hsa : a.sortKey with
      | nil => exact absurd ((sortKey_nil a).mp hsa) ia
      | cons c t => exact List.nil_lt_cons _ _
    · rw [hsk a ha ia, hsk b hb ib] at hlt
      have hlt' : a.key < b.key := by
        by_contra hc
        exact hk (str_trichotomy _ _ hc hlt)
      rcases hctx with hc | hc
      · have ca := hc a ha ia
        have cb := hc b hb ib
        simp only [base, ca, cb, if_true]
        simp only [Entry.key, key, ca, cb, List.nil_append, List.cons_append] at hlt'
        rw [List.cons_lt_cons_iff] at hlt'
        rcases hlt' with h | ⟨-, h⟩
        · exact absurd h (by decide)
        · exact h
      · have ca := hc a ha ia
        have cb := hc b hb ib
        simp only [base, ca, cb, if_false]
        simpa only [Entry.key, key, List.append_assoc, List.cons_append, List.nil_append] using hlt'

/-- A file with a header, a plain comment and a plural entry meets the hypotheses. -/
example : ∃ f : File, ∃ es : List Entry, Consistent f ∧ SortedEntry f es ∧
    (∀ e ∈ es, ∀ c ∈ e.cmts, ¬ b!"#:" <+: c) ∧ (∀ e ∈ es, e.id = [] → e.ctxt = []) ∧
    (∀ e ∈ es, 0 ∉ e.ctxt ∧ 0 ∉ e.id) ∧ (∀ e ∈ es, e.id ≠ [] → e.ctxt = []) ∧ es.length = 3 := by
  let e0 : Entry := { str := b!"Language: fr\n" }
  let e1 : Entry := { cmts := [b!"# note"], id := b!"ab", str := b!"z" }
  let e2 : Entry := { id := b!"a", isPlural := true, id2 := b!"many", strN := [b!"un", b!"des"] }
  refine ⟨{ entries := [(e1.key, e1), (e0.key, e0), (e2.key, e2)] }, [e0, e2, e1], ⟨by decide, by decide⟩,
    ⟨by decide, ?_⟩, by decide, by decide, by decide, by decide, rfl⟩
  simp only [List.pairwise_cons, List.mem_cons, List.not_mem_nil, or_false, forall_eq_or_imp, forall_eq,
      IsEmpty.forall_iff, implies_true, and_true]
  decide

/-- Messages with and without context: in order here, because `a` is below `c`. -/
example : ∃ f : File, ∃ es : List Entry, Consistent f ∧ SortedEntry f es ∧
    (∀ e ∈ es, ∀ c ∈ e.cmts, ¬ b!"#:" <+: c) ∧ (∀ e ∈ es, e.id = [] → e.ctxt = []) ∧
    (∀ e ∈ es, 0 ∉ e.ctxt ∧ 0 ∉ e.id) ∧ (∀ e ∈ es, ∀ c ∈ e.ctxt.head?, 4 < c) ∧ MoSorted es ∧
    (∃ a ∈ es, a.id ≠ [] ∧ a.ctxt = []) ∧ (∃ b ∈ es, b.ctxt ≠ []) := by
  let e0 : Entry := { str := b!"Language: fr\n" }
  let e1 : Entry := { id := b!"a", str := b!"z" }
  let e2 : Entry := { ctxt := b!"c", id := b!"a", str := b!"y" }
  have hc : Consistent { entries := [(e1.key, e1), (e0.key, e0), (e2.key, e2)] } := ⟨by decide, by decide⟩
  have hs : SortedEntry { entries := [(e1.key, e1), (e0.key, e0), (e2.key, e2)] } [e0, e1, e2] := by
    refine ⟨by decide, ?_⟩
    simp only [List.pairwise_cons, List.mem_cons, List.not_mem_nil, or_false, forall_eq_or_imp, forall_eq,
      IsEmpty.forall_iff, implies_true, and_true]
    decide
  refine ⟨_, _, hc, hs, by decide, by decide, by decide, by decide, ?_, ⟨e1, by decide, by decide, rfl⟩,
    ⟨e2, by decide, by decide⟩⟩
  exact (C34_sorted_iff _ hc _ hs (by decide) (by decide) (by decide) (by decide)).mpr (by decide)

/-! ## C35 -/

/-- The plural rule is the one of the headers, once it is set. -/
def RuleOk (f : File) : Prop :=
  f.plural = none ∨ ∃ h, f.headers = some h ∧ f.plural = some (parsePlural ((h.get? hPluralForms).getD []))

theorem initPlural_ruleOk (f : File) (h : RuleOk f) :
    f.initPlural.plural = some (parsePlural ((f.heads.get? hPluralForms).getD [])) := by
  unfold File.initPlural
  rcases h with h | ⟨hd, h1, h2⟩
  · rw [h]
    dsimp only
    rfl
  · rw [h2, heads_of_some f hd h1]
    exact h2

theorem addEntry_ruleOk (f : File) (e : Entry) (h : RuleOk f) : RuleOk (f.addEntry e) := by
  unfold File.addEntry
  dsimp only
  have h' : RuleOk { f with entries := f.entries.set e.key e } := h
  generalize ({ f with entries := f.entries.set e.key e } : File) = g at h'
  split
  · right
    have h1 : RuleOk g.initHeader := by
      rcases h' with h | ⟨hd, h1, h2⟩
      · left; rw [initHeader_plural]; exact h
      · right; rw [initHeader_of_some g hd h1]; exact ⟨hd, h1, h2⟩
    refine ⟨g.heads, ?_, ?_⟩
    · have : g.initHeader.headers = some g.heads := initHeader_headers g
      unfold File.initPlural
      split
      · exact this
      · simp only [File.getHeader]
        rw [initHeader_idem]; exact this
    · rw [initPlural_ruleOk _ h1, heads_of_some g.initHeader g.heads (initHeader_headers g)]
  · exact h'

theorem foldl_ruleOk (es : List Entry) (f : File) (h : RuleOk f) : RuleOk (es.foldl File.addEntry f) := by
  induction es generalizing f with
  | nil => exact h
  | cons e es ih => exact ih _ (addEntry_ruleOk f e h)

theorem find_header (f : File) (hf : Consistent f) (hhd : ∀ p ∈ f.entries, p.2.id = [] → p.2.ctxt = [])
    (es : List Entry) (hp : es.Perm f.entries.vals) :
    es.find? (fun e => e.id = []) = f.entries.get? (key [] []) := by
  cases hfd : es.find? (fun e => e.id = []) with
  | none =>
    simp only [List.find?_eq_none, decide_eq_true_eq] at hfd
    symm
    cases hg : f.entries.get? (key [] []) with
    | none => rfl
    | some e =>
      exfalso
      have hm := GMap.get?_mem _ _ _ hg
      have hk := hf.2 _ hm
      have hid : e.id = [] := by
        have := congrArg List.length hk
        simp only [key, List.length_append, List.length_cons, List.length_nil] at this
        exact List.length_eq_zero_iff.mp (by omega)
      exact hfd e (hp.mem_iff.mpr (List.mem_map_of_mem hm)) hid
  | some e =>
    have hid : e.id = [] := by simpa using List.find?_some hfd
    have hm := hp.subset (List.mem_of_find?_eq_some hfd)
    simp only [GMap.vals, List.mem_map] at hm
    obtain ⟨p, hp, rfl⟩ := hm
    have := (GMap.get?_iff _ hf.1 p.1 p.2).mpr hp
    rw [hf.2 p hp, hhd p hp hid, hid] at this
    exact this.symm

theorem savePo_reads (P : Nat → Bool) (h10 : P 10 = false) (h13 : P 13 = false) (es : List Entry) (hne : es ≠ [])
    (hge : ∀ e ∈ es, GoodEntry e) : readPo (savePo P es) = .ok (es.foldl File.addEntry {}) := by
  have hp := shapeText_parses P h10 h13 (es.map poShape) (by simpa using hne) (by
    intro s hs'
    simp only [List.mem_map] at hs'
    obtain ⟨e, he, rfl⟩ := hs'
    obtain ⟨g1, g2, g3, g4⟩ := hge e he
    refine ⟨fun c hc => ⟨(g1 c hc).1, (g1 c hc).2⟩, ?_, ?_⟩
    · rcases g3 with g3 | g3
      · left; simp [poShape, g3]
      · right; exact g3
    · rcases g2 with g2 | g2
      · left; simp [poShape, g2]
      · right; exact g2)
  have hmap : (es.map poShape).map Shape.entry = es := by
    rw [List.map_map]
    conv => rhs; rw [← List.map_id es]
    apply List.map_congr_left
    intro e he
    exact poShape_entry e (hge e he)
  rw [hmap, ← savePo_eq] at hp
  have hr := (C26_ok_iff (savePo P es) _).mpr ⟨by rw [savePo_eq]; exact shapeText_ne_nil P _ (by simpa using hne), es, hp, rfl⟩
  have hfil : (es.filter fun e => Translated e) = es := by
    rw [List.filter_eq_self]
    intro e he
    exact decide_eq_true (hge e he).2.1
  rwa [hfil] at hr

theorem find_bare (es : List Entry) : (es.map Entry.bare).find? (fun e => e.id = []) =
    (es.find? (fun e => e.id = [])).map Entry.bare := by
  rw [List.find?_map]
  rfl

variable {α : Type}

/-- **C35** The saved PO form and the saved MO form of a file that both formats can express, and whose
only entry with an empty id is the header, load to files that answer every sequence of lookups alike:
the same languages, headers, translations and plural translations. -/
theorem C35_same_lookups (P : Nat → Bool) (h10 : P 10 = false) (h13 : P 13 = false) (f : File)
    (hf : Consistent f) (hne : f.entries ≠ []) (hpo : ∀ p ∈ f.entries, GoodEntry p.2)
    (hmo : ∀ p ∈ f.entries, MoGood p.2) (hhd : ∀ p ∈ f.entries, p.2.id = [] → p.2.ctxt = [])
    (es es' : List Entry) (hs : SortedEntry f es) (hs' : SortedEntry f es')
    (hlt : (saveMo es').length < 4294967296) :
    ∃ g g', readPo (savePo P es) = .ok g ∧ readMo (saveMo es') = .ok g' ∧
      ∀ (E : Fmt.Env α) (dg : Plural.Diag) (cs : List (Call α)), (∀ c ∈ cs, c.isLookup = true) →
        ∀ c : Call α, c.isLookup = true →
          (c.exec E dg (execAll E dg g cs)).1 = (c.exec E dg (execAll E dg g' cs)).1 := by
  have mem : ∀ l : List Entry, l.Perm f.entries.vals → ∀ e ∈ l, ∃ p ∈ f.entries, p.2 = e := by
    intro l hl e he
    have := hl.subset he
    simpa only [GMap.vals, List.mem_map] using this
  have hesne : es ≠ [] := by
    rintro rfl
    have := hs.1.length_eq
    simp [GMap.vals] at this
    exact hne (List.length_eq_zero_iff.mp this.symm)
  refine ⟨_, _, savePo_reads P h10 h13 es hesne ?_, readMo_saveMo es' hlt ?_, ?_⟩
  · intro e he; obtain ⟨p, hp, rfl⟩ := mem es hs.1 e he; exact hpo p hp
  · intro e he; obtain ⟨p, hp, rfl⟩ := mem es' hs'.1 e he; exact hmo p hp
  intro E dg cs hcs c hc
  rw [C17_lookups_pure E dg _ cs hcs c, C17_lookups_pure E dg _ cs hcs c]
  have hent : ∀ k, ((es'.map Entry.bare).foldl File.addEntry {}).entries.get? k =
      ((es.foldl File.addEntry {}).entries.get? k).map Entry.bare := by
    intro k
    rw [foldl_addEntry_entries, foldl_addEntry_entries, getLast?_bare, get_of_perm f hf es hs.1 k,
      get_of_perm f hf es' hs'.1 k]
    simp [GMap.get?]
  have hget : ∀ k, ((es.foldl File.addEntry {}).getHeader k).1 =
      (((es'.map Entry.bare).foldl File.addEntry {}).getHeader k).1 := by
    intro k
    apply Option.ext
    intro v
    rw [read_headers es k v,
      read_headers _ k v, find_bare, find_header f hf hhd es hs.1, find_header f hf hhd es' hs'.1]
    constructor
    · rintro ⟨e, h1, h2, h3⟩
      exact ⟨e.bare, by rw [h1]; rfl, h2, h3⟩
    · rintro ⟨e, h1, h2, h3⟩
      rw [Option.map_eq_some_iff] at h1
      obtain ⟨e, h1, rfl⟩ := h1
      exact ⟨e, h1, h2, h3⟩
  have r1 := initPlural_ruleOk _ (foldl_ruleOk es {} (.inl rfl))
  have r2 := initPlural_ruleOk _ (foldl_ruleOk (es'.map Entry.bare) {} (.inl rfl))
  have hpf := hget hPluralForms
  rw [getHeader_eq, getHeader_eq] at hpf
  rw [hpf] at r1
  rw [← r2] at r1
  clear r2 hpf
  generalize es.foldl File.addEntry {} = g at *
  generalize (es'.map Entry.bare).foldl File.addEntry {} = g' at *
  cases c with
  | add e => simp [Call.isLookup] at hc
  | header k => simp only [Call.exec, hget]
  | lang =>
    simp only [Call.exec, File.lang]
    rw [hget hLanguage]
  | x ctxt id args =>
    simp only [Call.exec, File.x, hent]
    cases g.entries.get? (key ctxt id) <;> rfl
  | xn ctxt id id2 n args =>
    simp only [Call.exec, File.xn, hent]
    cases g.entries.get? (key ctxt id) with
    | none => rfl
    | some e =>
      simp only [Option.map_some, Entry.bare]
      split
      · rfl
      · simp only [r1]
        rfl

/-- The sample file of C30 meets the hypotheses of C35, and its lookups are not trivial. -/
example : ∃ f : File, ∃ es, Consistent f ∧ f.entries ≠ [] ∧ (∀ p ∈ f.entries, GoodEntry p.2) ∧
    (∀ p ∈ f.entries, MoGood p.2) ∧ (∀ p ∈ f.entries, p.2.id = [] → p.2.ctxt = []) ∧ SortedEntry f es ∧
    (saveMo es).length < 4294967296 ∧ f.lang.1 = b!"fr" := by
  let e0 : Entry := { str := b!"Language: fr\n" }
  let e1 : Entry := { cmts := [b!"#: a.go:1"], ctxt := b!"c", id := b!"xy", str := b!"z" }
  let e2 : Entry := { id := b!"one", isPlural := true, id2 := b!"many", strN := [b!"un", b!"des"] }
  refine ⟨{ entries := [(e1.key, e1), (e0.key, e0), (e2.key, e2)] }, [e0, e2, e1], ⟨by decide, by decide⟩, by simp,
    ?_, ?_, by decide, ⟨?_, ?_⟩, by decide +kernel, by decide⟩
  · intro p hp
    simp only [List.mem_cons, List.not_mem_nil, or_false] at hp
    rcases hp with rfl | rfl | rfl
    · exact ⟨by intro c hc; simp [e1] at hc; subst hc; exact ⟨⟨_, rfl⟩, by decide, by decide⟩, by decide, by decide, by decide⟩
    · exact ⟨by intro c hc; simp [e0] at hc, by decide, by decide, by decide⟩
    · exact ⟨by intro c hc; simp [e2] at hc, by decide, by decide, by decide⟩
  · intro p hp
    simp only [List.mem_cons, List.not_mem_nil, or_false] at hp
    rcases hp with rfl | rfl | rfl <;> (refine ⟨?_, ?_, ?_, ?_, ?_⟩ <;> decide)
  · decide
  · simp only [List.pairwise_cons, List.mem_cons, List.not_mem_nil, or_false, forall_eq_or_imp, forall_eq,
      IsEmpty.forall_iff, implies_true, and_true]
    decide

end Verif.Tr
