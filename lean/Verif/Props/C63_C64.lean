import Verif.Props.C58
import Verif.Props.C21_C27
import Verif.Props.C28_C29
import Verif.Props.C09_C11
/-!
# C63: the POT of a run can be read.  C64: what the order of templates changes.
-/
namespace Verif.Xt
open Verif

theorem merged_first (es : List Tr.Entry) (c i : Str) : (merged es c i).isSome = true ↔ ∃ e ∈ es, e.ctxt = c ∧ e.id = i := by
  unfold merged firstOf
  rw [Option.isSome_map, List.find?_isSome]
  simp

theorem merged_extracted (es : List Tr.Entry) (h : ∀ e ∈ es, Extracted e) (c i : Str) (e : Tr.Entry)
    (hm : merged es c i = some e) : Extracted e := by
  unfold merged at hm
  rw [Option.map_eq_some_iff] at hm
  obtain ⟨f, hf, rfl⟩ := hm
  have hfm := List.mem_of_find?_eq_some hf
  refine ⟨fun x hx => ?_, (h f hfm).2.1, (h f hfm).2.2⟩
  obtain ⟨g, hg, hx⟩ := List.mem_flatMap.mp hx
  exact (h g (List.mem_of_mem_filter hg)).1 x hx

theorem asRead_template (e : Tr.Entry) (h : Extracted e) : Tr.template e = asRead e := by
  obtain ⟨cmts, ctxt, id, isPlural, id2, str, strN⟩ := e
  obtain ⟨-, h1, h2⟩ := h
  dsimp only at h1 h2
  subst h1
  cases isPlural
  · simp [Tr.template, asRead, h2]
  · simp [Tr.template, asRead]

/-- **C63** A POT of extracted entries can be read by `ReadPot`, which returns the header and the collected
entries, and nothing else. -/
theorem C63_readable (P : Nat → Bool) (h10 : P 10 = false) (h13 : P 13 = false) (p : Param) (now : Str)
    (es : List Tr.Entry) (hn : NoEotIn es) (hx : ∀ e ∈ es, Extracted e) (text : Str) (ht : PotOf P p now es text) :
    ∃ g, Tr.readPot text = .ok g ∧
      ∀ ctxt id, 4 ∉ ctxt → g.entries.get? (Tr.key ctxt id) = potEntry p now es ctxt id := by
  obtain ⟨L, M, ⟨hnd, hL⟩, hM, hs, rfl⟩ := ht
  have hLx : ∀ e ∈ L, Extracted e ∧ 4 ∉ e.ctxt ∧ merged es e.ctxt e.id = some e := by
    intro e he
    obtain ⟨c, i, hm⟩ := (hL e).mp he
    obtain ⟨f, hf, hfc, hfi, hpc, hpi, -, -⟩ := merged_some _ _ _ _ hm
    refine ⟨merged_extracted es hx c i e hm, ?_, by rw [hpc, hpi]; exact hm⟩
    rw [hpc, ← hfc]; exact hn f hf
  let hdr := header p now (@decide (SomePlural es) (Classical.propDecidable _))
  have hcm : ∀ c ∈ headerCmts, Tr.GoodComment c := by
    intro c hc
    have : ∀ c ∈ headerCmts, c.head? = some 35 ∧ 10 ∉ c ∧ 13 ∉ c := by decide
    obtain ⟨h1, h2, h3⟩ := this c hc
    refine ⟨?_, h2, h3⟩
    cases c with
    | nil => cases h1
    | cons a t => simp only [List.head?_cons, Option.some.injEq] at h1; exact ⟨t, by rw [h1]⟩
  have hempty : HasEmpty es ↔ ∃ e ∈ L, e.ctxt = [] ∧ e.id = [] := by
    unfold HasEmpty
    rw [← merged_first]
    constructor
    · intro h
      obtain ⟨e, he⟩ := Option.isSome_iff_exists.mp h
      obtain ⟨f, hf, hfc, hfi, hpc, hpi, -, -⟩ := merged_some _ _ _ _ he
      exact ⟨e, (hL e).mpr ⟨_, _, he⟩, hpc, hpi⟩
    · rintro ⟨e, he, h1, h2⟩
      have := (hLx e he).2.2
      rw [h1, h2] at this
      rw [this]; rfl
  -- the list before sorting
  obtain ⟨N, hN, hNM, hNnd⟩ : ∃ N : List Tr.Entry, (∀ e, e ∈ N ↔ e ∈ L ∨ (¬ HasEmpty es ∧ e = hdr)) ∧ M.Perm N ∧
      (N.map fun e => (e.ctxt, e.id)).Nodup := by
    by_cases hE : HasEmpty es
    · rw [if_pos hE] at hM
      exact ⟨L, fun e => by simp [hE], hM, hnd⟩
    · rw [if_neg hE] at hM
      refine ⟨_, fun e => ?_, hM, ?_⟩
      · simp only [List.mem_cons, hE, not_false_eq_true, true_and, hdr]; exact or_comm
      · rw [List.map_cons, List.nodup_cons]
        refine ⟨?_, hnd⟩
        intro hm
        obtain ⟨e, he, h1⟩ := List.mem_map.mp hm
        simp only [header, Prod.mk.injEq] at h1
        exact hE (hempty.mpr ⟨e, he, h1⟩)
  have hN4 : ∀ e ∈ N, 4 ∉ e.ctxt := by
    intro e he
    rcases (hN e).mp he with h | ⟨-, rfl⟩
    · exact (hLx e h).2.1
    · simp [hdr, header]
  let f : Tr.File := { entries := N.map fun e => (e.key, e) }
  have hvals : f.entries.vals = N := by simp [f, GMap.vals, Function.comp_def]
  have hf : Tr.Consistent f := by
    constructor
    · have : f.entries.keys = N.map Tr.Entry.key := by simp [f, GMap.keys, Function.comp_def]
      rw [this]
      unfold List.Nodup at hNnd ⊢
      rw [List.pairwise_map] at hNnd ⊢
      refine hNnd.imp_of_mem fun {a b} ha hb hne hk => hne ?_
      obtain ⟨h1, h2⟩ := Tr.key_inj _ _ _ _ (hN4 a ha) (hN4 b hb) hk
      rw [h1, h2]
    · intro q hq
      obtain ⟨e, he, rfl⟩ := List.mem_map.mp hq
      rfl
  have hne : f.entries ≠ [] := by
    intro h0
    have hN0 : N = [] := by simpa [f] using h0
    by_cases hE : HasEmpty es
    · obtain ⟨e, he, -⟩ := hempty.mp hE
      have := (hN e).mpr (.inl he)
      rw [hN0] at this; simp at this
    · have := (hN hdr).mpr (.inr ⟨hE, rfl⟩)
      rw [hN0] at this; simp at this
  have hgood : ∀ q ∈ f.entries, ∀ c ∈ q.2.cmts, Tr.GoodComment c := by
    intro q hq c hc
    obtain ⟨e, he, rfl⟩ := List.mem_map.mp hq
    rcases (hN e).mp he with h | ⟨-, rfl⟩
    · exact (hLx e h).1.1 c hc
    · exact hcm c hc
  obtain ⟨g, hg, hget⟩ := Tr.C27_round_trip P h10 h13 f hf hne hgood M ⟨by rw [hvals]; exact hNM, hs⟩
  refine ⟨g, hg, fun ctxt id hc => ?_⟩
  rw [hget]
  have hfind : ∀ e, f.entries.get? (Tr.key ctxt id) = some e ↔ e ∈ N ∧ e.ctxt = ctxt ∧ e.id = id := by
    intro e
    constructor
    · intro h
      have := GMap.get?_mem _ _ _ h
      obtain ⟨e', he', hq⟩ := List.mem_map.mp this
      simp only [Prod.mk.injEq] at hq
      obtain ⟨hk, rfl⟩ := hq
      exact ⟨he', Tr.key_inj _ _ _ _ (hN4 _ he') hc hk⟩
    · rintro ⟨he, rfl, rfl⟩
      exact (GMap.get?_iff _ hf.1 _ _).mpr (List.mem_map.mpr ⟨e, he, rfl⟩)
  unfold potEntry
  cases hm : merged es ctxt id with
  | some e =>
    obtain ⟨f', hf', hfc, hfi, hpc, hpi, -, -⟩ := merged_some _ _ _ _ hm
    have he : e ∈ L := (hL e).mpr ⟨_, _, hm⟩
    rw [(hfind e).mpr ⟨(hN e).mpr (.inl he), hpc, hpi⟩]
    simp [asRead_template e (hLx e he).1]
  | none =>
    have hnl : ∀ e ∈ L, ¬ (e.ctxt = ctxt ∧ e.id = id) := by
      rintro e he ⟨rfl, rfl⟩
      rw [(hLx e he).2.2] at hm; cases hm
    by_cases h0 : ctxt = [] ∧ id = []
    · obtain ⟨rfl, rfl⟩ := h0
      have hE : ¬ HasEmpty es := by
        intro h
        obtain ⟨e, he, h1⟩ := hempty.mp h
        exact hnl e he h1
      rw [(hfind hdr).mpr ⟨(hN hdr).mpr (.inr ⟨hE, rfl⟩), rfl, rfl⟩]
      simp [Tr.template, hdr, header]
    · simp only [h0, if_false]
      cases hg' : f.entries.get? (Tr.key ctxt id) with
      | none => rfl
      | some e =>
        obtain ⟨he, h1, h2⟩ := (hfind e).mp hg'
        rcases (hN e).mp he with h | ⟨-, rfl⟩
        · exact absurd ⟨h1, h2⟩ (hnl e h)
        · exact absurd ⟨h1.symm, h2.symm⟩ h0

theorem forall₂_mem_right {α β : Type} {R : α → β → Prop} {l : List α} {l' : List β} (h : List.Forall₂ R l l') (b : β)
    (hb : b ∈ l') : ∃ a ∈ l, R a b := by
  induction h with
  | nil => simp at hb
  | cons h1 _ ih =>
    rcases List.mem_cons.mp hb with rfl | hb
    · exact ⟨_, by simp, h1⟩
    · obtain ⟨a, ha, hr⟩ := ih hb
      exact ⟨a, by simp [ha], hr⟩

/-- The entries of files whose names have no line ends are extracted entries. -/
theorem fileOk_extracted (E : Env) (p : Param) (kws : List Keyword) (d : Disk) (f : Str) (hf : OneLine f)
    (es : List Tr.Entry) (h : FileOk E p kws d f es) : ∀ e ∈ es, Extracted e := by
  intro e he
  obtain ⟨src, roots, -, -, hp⟩ := h
  obtain ⟨root, -, hm⟩ := List.mem_flatMap.mp (hp.subset he)
  rw [← (C54_count kws f root).mem_iff, C54_exact] at hm
  obtain ⟨line, q, n, -, -, hm⟩ := hm
  obtain ⟨_, _, _, _, _, _, _, _, _, _, kw, -, -, hE⟩ := hm
  refine ⟨?_, hE.untranslated.1, ?_⟩
  · rw [hE.comments]
    have hd : ∀ c ∈ Num.natDigits line, c ≠ 10 ∧ c ≠ 13 := by
      intro c hc
      have := List.all_eq_true.mp (Fmt.natDigits_spec line).2.1 c hc
      clear hc
      revert this; revert c; apply u8; decide +kernel
    intro c hc
    rcases List.mem_append.mp hc with hc | hc
    · simp only [List.mem_singleton] at hc
      subst hc
      refine ⟨⟨_, rfl⟩, ?_, ?_⟩
      · simp only [List.mem_append, not_or]
        exact ⟨by decide, ⟨hf.1, by decide⟩, fun hc => (hd _ hc).1 rfl⟩
      · simp only [List.mem_append, not_or]
        exact ⟨by decide, ⟨hf.2, by decide⟩, fun hc => (hd _ hc).2 rfl⟩
    · split at hc
      · simp only [List.mem_singleton] at hc
        subst hc
        exact ⟨⟨_, rfl⟩, by unfold OneLine; decide⟩
      · simp at hc
  · intro hpl
    obtain ⟨_, _, _, _, _, _, _, _, h2⟩ := hE.literals
    have : ¬ 0 < kw.msgID2 := fun hh => by
      rw [hE.plural.mpr hh] at hpl; cases hpl
    rw [if_neg this] at h2
    exact h2

/-- **C63** After a run that succeeds with a file as output, `ReadPot` reads from that file the header and
the messages of all the input files, with their comments, and nothing else. -/
theorem C63_run (E : Env) (h10 : E.isPrint 10 = false) (h13 : E.isPrint 13 = false)
    (hsink : ∀ t, (E.sink t).2 = true → (E.sink t).1 = t) (p : Param) (hout : ¬ ToStdout p) (d : Disk)
    (kws : List Keyword) (hk : DeclaresAll p.keyword kws) (ho : OpenOk E p) (d1 : Disk) (h1 : Opened E p d d1)
    (fs : List Str) (hg : E.glob d1.files p.input = some fs) (hfs : ∀ f ∈ fs, OneLine f) (printed : List RunErr)
    (d' : Disk) (h : Run E p d (.returned none printed d')) :
    ∃ ess, List.Forall₂ (FileOk E p kws d1) fs ess ∧ (NoEotIn ess.flatten →
      ∃ text g, d'.files (E.canon p.output) = some text ∧ Tr.readPot text = .ok g ∧
        ∀ ctxt id, 4 ∉ ctxt → g.entries.get? (Tr.key ctxt id) = potEntry p E.now ess.flatten ctxt id) := by
  obtain ⟨fates, hf, hp, hfail, hok⟩ := C58_run E p d kws hk ho d1 h1 fs hg none printed d' h
  have hp0 : printed = [] := by
    by_contra hne
    obtain ⟨he, -⟩ := hfail hne
    cases printed with
    | nil => exact hne rfl
    | cons a l => cases he
  obtain ⟨ess, text, hess, hpot, hrec, herr⟩ := hok hp0
  refine ⟨ess, hess, fun hn => ?_⟩
  have hx : ∀ e ∈ ess.flatten, Extracted e := by
    intro e he
    obtain ⟨es, hes, he⟩ := List.mem_flatten.mp he
    obtain ⟨f, hf, hok⟩ := forall₂_mem_right hess es hes
    exact fileOk_extracted E p kws d1 f (hfs f hf) es hok e he
  obtain ⟨g, hg1, hg2⟩ := C63_readable E.isPrint h10 h13 p E.now ess.flatten hn hx text (hpot hn)
  refine ⟨text, g, ?_, hg1, hg2⟩
  rw [(hrec.2 hout).2.1, hsink text ((herr.mp rfl).1)]

/-- **C63** The name of a file matters: with a line end in it, the POT has a malformed line, on which
`ReadPot` panics. -/
theorem C63_line_end : ∃ e : Tr.Entry, EntryFor ⟨b!"T", 0, 1, 0⟩ b!"a\nb:1" [.str b!"hello"] e ∧
    Tr.readPot (Tr.savePot Tr.asciiPrint [e]) = .panic ∧ Tr.readPo (Tr.savePot Tr.asciiPrint [e]) = .err := by
  refine ⟨{ cmts := [b!"#: a\nb:1"], id := b!"hello" }, ?_, by decide +kernel, by decide +kernel⟩
  refine ⟨⟨[.str b!"hello"], [], [b!"hello"], rfl, .cons (.str _) .nil, ?_, ⟨[], [], rfl, rfl⟩, rfl, rfl⟩, ?_, ?_, rfl, rfl⟩
  · intro k
    simp only [Declared, List.length_cons, List.length_nil]
    omega
  · simp
  · decide

/-! ## C64 -/

/-- **C64** The entries decide the POT, unless sort keys tie. -/
theorem C64_unique (P : Nat → Bool) (p : Param) (now : Str) (es : List Tr.Entry) (hn : NoTies es) (t1 t2 : Str)
    (h1 : PotOf P p now es t1) (h2 : PotOf P p now es t2) : t1 = t2 := by
  obtain ⟨L1, M1, ⟨hd1, hL1⟩, hM1, hs1, rfl⟩ := h1
  obtain ⟨L2, M2, ⟨hd2, hL2⟩, hM2, hs2, rfl⟩ := h2
  have hL : L1.Perm L2 := by
    refine (List.perm_ext_iff_of_nodup (List.Nodup.of_map _ hd1) (List.Nodup.of_map _ hd2)).mpr fun e => ?_
    rw [hL1, hL2]
  have hM : M1.Perm M2 := by
    refine hM1.trans (List.Perm.trans ?_ hM2.symm)
    split
    · exact hL
    · exact hL.cons _
  have hself : ∀ e ∈ L1, merged es e.ctxt e.id = some e := by
    intro e he
    obtain ⟨c, i, hm⟩ := (hL1 e).mp he
    obtain ⟨f, -, -, -, hpc, hpi, -, -⟩ := merged_some _ _ _ _ hm
    rw [hpc, hpi]; exact hm
  have hk1 : (L1.map Tr.Entry.sortKey).Nodup := by
    unfold List.Nodup at hd1 ⊢
    rw [List.pairwise_map] at hd1 ⊢
    refine hd1.imp_of_mem fun {a b} ha hb hne hk => hne ?_
    obtain ⟨h1, h2⟩ := hn.1 _ _ _ _ _ _ (hself a ha) (hself b hb) hk
    rw [h1, h2]
  have hk : (M1.map Tr.Entry.sortKey).Nodup := by
    rw [(hM1.map Tr.Entry.sortKey).nodup_iff]
    split
    · exact hk1
    · rename_i hE
      rw [List.map_cons, List.nodup_cons]
      refine ⟨fun hm => ?_, hk1⟩
      obtain ⟨e, he, hek⟩ := List.mem_map.mp hm
      rw [show (header p now _).sortKey = [] from (Tr.sortKey_nil _).mpr rfl, Tr.sortKey_nil] at hek
      obtain ⟨f, hf, hfc, hfi, -⟩ := merged_some _ _ _ _ (hself e he)
      exact hE ⟨f, hf, hn.2 f hf (hfi.trans hek), hfi.trans hek⟩
  rw [Tr.sorted_unique M1 M2 hM hs1 hs2 hk]

/-- **C64** Two runs on the same input have the same outcome, unless sort keys tie. -/
theorem C64_run (E : Env) (p : Param) (d : Disk)
    (hd : ∀ kws d1 fs ess, DeclaresAll p.keyword kws → Opened E p d d1 → E.glob d1.files p.input = some fs →
      List.Forall₂ (FileOk E p kws d1) fs ess → NoEotIn ess.flatten ∧ NoTies ess.flatten)
    (o1 o2 : Outcome) (h1 : Run E p d o1) (h2 : Run E p d o2) : o1 = o2 := by
  cases h1 <;> cases h2 <;> simp_all
  rename_i kws fs ctx printed t1 _ _ ctx' _ t2 hk hf hl ht1 hpk _ hg hc ht2
  obtain ⟨rfl, rfl⟩ := hc
  obtain ⟨fates, -, h1, h2, h3⟩ := loop_some E p kws _ fs {} none _ hl
  dsimp only at h1 h2 h3
  have h0 : fates.filterMap id = [] := by
    cases hh : fates.filterMap id with
    | nil => rfl
    | cons a l => rw [hh] at h2; cases h2
  obtain ⟨ess, hess, hctx⟩ := h3 h0
  obtain ⟨hne, hnt⟩ := hd kws _ fs ess ((C53_exact _ _).mp hpk) ((opened_iff _ _ _ _).mpr rfl) hg hess
  subst hctx
  have := C64_unique E.isPrint p E.now _ hnt t1 t2 (C57_pot _ _ _ _ hne _ ht1) (C57_pot _ _ _ _ hne _ ht2)
  subst this
  exact ⟨rfl, rfl⟩

/-- **C64** The order of the entries changes only the order of the comments of collected entries, if the
entries for each message agree. -/
theorem C64_permuted (es es' : List Tr.Entry) (hp : es.Perm es') (ha : Agree es)
    (hu : ∀ e ∈ es, e.str = [] ∧ e.strN = []) (c i : Str) :
    Option.Rel SameEntry (merged es c i) (merged es' c i) := by
  have hnone : merged es c i = none ↔ merged es' c i = none := by
    rw [← Option.not_isSome_iff_eq_none, ← Option.not_isSome_iff_eq_none, merged_first, merged_first]
    simp [hp.mem_iff]
  cases h : merged es c i with
  | none => rw [hnone.mp h]; exact .none
  | some e =>
    cases h' : merged es' c i with
    | none => rw [hnone.mpr h'] at h; cases h
    | some e' =>
      refine .some ?_
      unfold merged at h h'
      rw [Option.map_eq_some_iff] at h h'
      obtain ⟨f, hf, rfl⟩ := h
      obtain ⟨f', hf', rfl⟩ := h'
      obtain ⟨m1, m2, m3⟩ := firstOf_some es c i f hf
      obtain ⟨m1', m2', m3'⟩ := firstOf_some es' c i f' hf'
      have m1' := hp.mem_iff.mpr m1'
      obtain ⟨q1, q2⟩ := ha f m1 f' m1' (m2.trans m2'.symm) (m3.trans m3'.symm)
      refine ⟨?_, m2.trans m2'.symm, m3.trans m3'.symm, q1, q2, (hu f m1).1.trans (hu f' m1').1.symm,
        (hu f m1).2.trans (hu f' m1').2.symm⟩
      rw [q1]
      exact (hp.filter _).flatMap_right _

/-- **C64** Without that condition the order decides: if one template says `T "a"` and another `N "a" "b" .`,
the POT has a plural message or not, and one of the uses is dropped. -/
theorem C64_order : ∃ (kws : List Keyword) (r1 r2 : List Stmt),
    merged (resolveTemplates kws b!"f" [r1, r2]) [] b!"a" = some { cmts := [b!"#: f:1"], id := b!"a" } ∧
    merged (resolveTemplates kws b!"f" [r2, r1]) [] b!"a" =
      some { cmts := [b!"#: f:2"], id := b!"a", isPlural := true, id2 := b!"b" } :=
  ⟨[⟨b!"T", 0, 1, 0⟩, ⟨b!"N", 0, 1, 2⟩], [.action 1 [[.ident b!"T", .str b!"a"]]],
    [.action 2 [[.ident b!"N", .str b!"a", .str b!"b", .field [b!"n"]]]], by decide +kernel, by decide +kernel⟩

/-- **C64** The order of comments is that of the uses. -/
theorem C64_comments : ∃ (kws : List Keyword) (r1 r2 : List Stmt),
    merged (resolveTemplates kws b!"f" [r1, r2]) [] b!"a" =
      some { cmts := [b!"#: f:1", b!"#: f:2"], id := b!"a" } ∧
    merged (resolveTemplates kws b!"f" [r2, r1]) [] b!"a" =
      some { cmts := [b!"#: f:2", b!"#: f:1"], id := b!"a" } :=
  ⟨[⟨b!"T", 0, 1, 0⟩], [.action 1 [[.ident b!"T", .str b!"a"]]], [.action 2 [[.ident b!"T", .str b!"a"]]],
    by decide +kernel, by decide +kernel⟩

/-- Two messages, one of them used twice. -/
def someUses : List Tr.Entry :=
  [{ cmts := [b!"#: f:1"], id := b!"a" }, { cmts := [b!"#: f:2", b!"#, go-format"], id := b!"%d b" },
   { cmts := [b!"#: g:3"], id := b!"a" }]

theorem someUses_ok : NoEotIn someUses ∧ (∀ e ∈ someUses, Extracted e) ∧ Agree someUses ∧ NoTies someUses := by
  refine ⟨by unfold NoEotIn; decide, ?_, by unfold Agree; decide, ?_, by decide⟩
  · simp only [someUses, List.mem_cons, List.not_mem_nil, or_false, forall_eq_or_imp, forall_eq]
    refine ⟨⟨?_, rfl, fun _ => rfl⟩, ⟨?_, rfl, fun _ => rfl⟩, ⟨?_, rfl, fun _ => rfl⟩⟩ <;>
    · simp only [List.mem_cons, List.not_mem_nil, or_false, forall_eq_or_imp, forall_eq, OneLine]
      simp
  · have key : ∀ c i e, merged someUses c i = some e → (c = [] ∧ i = b!"a" ∧
        e.sortKey =
          ({ cmts := [b!"#: f:1", b!"#: g:3"], id := b!"a" } : Tr.Entry).sortKey) ∨
        (c = [] ∧ i = b!"%d b" ∧ e.sortKey =
          ({ cmts := [b!"#: f:2", b!"#, go-format"], id := b!"%d b" } : Tr.Entry).sortKey) := by
      intro c i e h
      obtain ⟨f, hf, rfl, rfl, -⟩ := merged_some _ _ _ _ h
      simp only [someUses, List.mem_cons, List.not_mem_nil, or_false] at hf
      have ha : ∀ e, merged someUses [] b!"a" = some e → e.sortKey =
          ({ cmts := [b!"#: f:1", b!"#: g:3"], id := b!"a" } : Tr.Entry).sortKey := by
        intro e h
        rw [show merged someUses [] b!"a" = some { cmts := [b!"#: f:1", b!"#: g:3"], id := b!"a" } by decide] at h
        cases h; rfl
      have hb : ∀ e, merged someUses [] b!"%d b" = some e → e.sortKey =
          ({ cmts := [b!"#: f:2", b!"#, go-format"], id := b!"%d b" } : Tr.Entry).sortKey := by
        intro e h
        rw [show merged someUses [] b!"%d b" = some { cmts := [b!"#: f:2", b!"#, go-format"], id := b!"%d b" } by
          decide] at h
        cases h; rfl
      rcases hf with rfl | rfl | rfl
      · exact .inl ⟨rfl, rfl, ha e h⟩
      · exact .inr ⟨rfl, rfl, hb e h⟩
      · exact .inl ⟨rfl, rfl, ha e h⟩
    intro c i e c' i' e' h h' hk
    rcases key c i e h with ⟨h1, h2, h3⟩ | ⟨h1, h2, h3⟩ <;> rcases key c' i' e' h' with ⟨h1', h2', h3'⟩ | ⟨h1', h2', h3'⟩
    · exact ⟨h1.trans h1'.symm, h2.trans h2'.symm⟩
    · rw [h3, h3'] at hk; exact absurd hk (by decide +kernel)
    · rw [h3, h3'] at hk; exact absurd hk (by decide +kernel)
    · exact ⟨h1.trans h1'.symm, h2.trans h2'.symm⟩

end Verif.Xt
