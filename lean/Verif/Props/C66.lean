import Verif.Spec.Served
import Verif.Props.C15
/-!
# C66: from a saved file to the caller

The whole way of a message: the writers of C20/C33, the readers of C22/C32, the walk and the domains of
C39/C40, the locale of C42 and the lookups of C12/C14, in one statement.
-/
namespace Verif.W
open Verif Verif.Tr
variable {α : Type}

theorem get_of_mem (f : Tr.File) (hf : Consistent f) (e : Entry) (he : e ∈ f.entries.vals) :
    f.entries.get? (key e.ctxt e.id) = some e := by
  simp only [GMap.vals, List.mem_map] at he
  obtain ⟨p, hp, rfl⟩ := he
  rw [← hf.2 p hp]
  exact (GMap.get?_iff _ hf.1 p.1 p.2).mpr hp

theorem get_of_absent (f : Tr.File) (hf : Consistent f) (he : ∀ e ∈ f.entries.vals, 4 ∉ e.ctxt) (ctxt id : Str) (hc : 4 ∉ ctxt)
    (hno : ∀ e ∈ f.entries.vals, ¬ (e.ctxt = ctxt ∧ e.id = id)) : f.entries.get? (key ctxt id) = none := by
  cases hg : f.entries.get? (key ctxt id) with
  | none => rfl
  | some e =>
    have hm := GMap.get?_mem _ _ _ hg
    have hv : e ∈ f.entries.vals := List.mem_map_of_mem hm
    have hk := hf.2 _ hm
    have := key_inj _ _ _ _ hc (he e hv) hk
    exact absurd ⟨this.1.symm, this.2.symm⟩ (hno e hv)

theorem shows_of (c : Cfg α) (f g : Tr.File) (language forms : Str) (hf : Catalogue f language forms) (r : Entry → Entry)
    (hr : ∀ e, (r e).str = e.str ∧ (r e).id2 = e.id2 ∧ (r e).strN = e.strN)
    (hent : ∀ k, g.entries.get? k = (f.entries.get? k).map r)
    (hpl : g.initPlural.plural = some (parsePlural forms)) :
    Shows c f.entries.vals forms (fileTor c g).x (fileTor c g).xn := by
  refine ⟨?_, ?_⟩
  · intro e he
    have hg := hent (key e.ctxt e.id)
    rw [get_of_mem f hf.consistent e he, Option.map_some] at hg
    obtain ⟨r1, r2, r3⟩ := hr e
    have hx : ∀ args, (fileTor c g).x e.ctxt e.id args =
        .ok (if e.str = [] then Fmt.format c.fmt e.id args else Fmt.format c.fmt e.str args) := by
      intro args
      simp only [fileTor, File.x, hg, r1]
    have hp : e.id2 ≠ [] ∨ e.strN ≠ [] → ∀ id2 n args, (fileTor c g).xn e.ctxt e.id id2 n args =
        chooseForm c.fmt c.diag (parsePlural forms) e e.id id2 n args := by
      intro h id2 n args
      have hno : ¬ (e.id2 = [] ∧ e.strN.length = 0) := by
        rintro ⟨a, b⟩
        rcases h with h | h
        · exact h a
        · exact h (List.length_eq_zero_iff.mp b)
      simp only [fileTor, File.xn, hg, r2, r3, if_neg hno, hpl, Option.getD_some, chooseForm]
    refine ⟨?_, ?_, ?_, ?_, ?_, ?_⟩
    · intro args h; rw [hx, if_neg h]
    · intro args h; rw [hx, if_pos h]
    · intro id2 n args h1 h2
      have hyes : e.id2 = [] ∧ e.strN.length = 0 := ⟨h1, by rw [h2]; rfl⟩
      simp only [fileTor, File.xn, hg, r1, r2, r3, if_pos hyes]
      by_cases hs : e.str = [] <;> simp [hs]
    · intro id2 n args i s h hs hi hne
      rw [hp h]
      exact (chooseForm_spec c.fmt c.diag forms e e.id id2 n args).1 i s hs hi hne
    · intro id2 n args h hs
      rw [hp h]
      exact (chooseForm_spec c.fmt c.diag forms e e.id id2 n args).2.1 hs
    · intro id2 n args h h1 h2
      rw [hp h]
      exact (chooseForm_spec c.fmt c.diag forms e e.id id2 n args).2.2 h1 h2
  · intro ctxt id hc hno
    have hg := hent (key ctxt id)
    rw [get_of_absent f hf.consistent hf.noEot ctxt id hc hno, Option.map_none] at hg
    constructor
    · intro args; simp only [fileTor, File.x, hg]
    · intro id2 n args; simp only [fileTor, File.xn, hg]

/-- Reading these entries, with or without their comments, in any order. -/
theorem loaded (c : Cfg α) (f : Tr.File) (language forms : Str) (hf : Catalogue f language forms) (es : List Entry)
    (hp : es.Perm f.entries.vals) (r : Entry → Entry)
    (hr : ∀ e, (r e).str = e.str ∧ (r e).id2 = e.id2 ∧ (r e).strN = e.strN)
    (hk : ∀ e, (r e).ctxt = e.ctxt ∧ (r e).id = e.id) :
    (fileTor c ((es.map r).foldl File.addEntry {})).lang = language ∧
    Shows c f.entries.vals forms (fileTor c ((es.map r).foldl File.addEntry {})).x
      (fileTor c ((es.map r).foldl File.addEntry {})).xn := by
  have hhd : ∀ p ∈ f.entries, p.2.id = [] → p.2.ctxt = [] := fun p hp => hf.onlyHeader p.2 (List.mem_map_of_mem hp)
  have hfind : (es.map r).find? (fun e => e.id = []) = (f.entries.get? (key [] [])).map r := by
    rw [List.find?_map, ← find_header f hf.consistent hhd es hp]
    congr 2
    funext e
    simp only [Function.comp, (hk e).2]
  obtain ⟨h, hm, hid, hlang, hforms⟩ := hf.header
  have hget : f.entries.get? (key [] []) = some h := by
    have := get_of_mem f hf.consistent h hm
    rwa [hf.onlyHeader h hm hid, hid] at this
  rw [hget] at hfind
  have hdr : ∀ k v, ((es.map r).foldl File.addEntry {}).heads.get? k = some v ↔ HeaderField h.str k v := by
    intro k v
    rw [← getHeader_eq, read_headers (es.map r) k v, hfind]
    constructor
    · rintro ⟨e, he, _, hv⟩
      simp only [Option.map_some, Option.some.injEq] at he
      subst he
      rwa [(hr h).1] at hv
    · intro hv
      exact ⟨r h, rfl, by rw [(hk h).1]; exact hf.onlyHeader h hm hid, by rw [(hr h).1]; exact hv⟩
  have hrule := initPlural_ruleOk _ (foldl_ruleOk (es.map r) {} (.inl rfl))
  have hfo : (((es.map r).foldl File.addEntry {}).heads.get? hPluralForms).getD [] = forms := by
    rcases hforms with hv | ⟨rfl, hno⟩
    · rw [(hdr hPluralForms forms).mpr hv]; rfl
    · cases hg : ((es.map r).foldl File.addEntry {}).heads.get? hPluralForms with
      | none => rfl
      | some v => exact absurd ((hdr _ _).mp hg) (hno v)
  rw [hfo] at hrule
  refine ⟨?_, shows_of c f _ language forms hf r hr ?_ hrule⟩
  · simp only [fileTor, File.lang]
    rw [getHeader_eq, (hdr hLanguage language).mpr hlang]
    rfl
  · intro k
    rw [foldl_addEntry_entries]
    have : ((es.map r).filter fun e => e.key = k) = (es.filter fun e => e.key = k).map r := by
      rw [List.filter_map]
      congr 2
      funext e
      have : (r e).key = e.key := by unfold Entry.key; rw [(hk e).1, (hk e).2]
      simp only [Function.comp, this]
    rw [this, List.getLast?_map, get_of_perm f hf.consistent es hp k]
    simp [GMap.get?]

theorem leaves_exec (c : Cfg α) (w : World α) (h : Reach c w) (i : Nat) (hi : i < w.tss.length) (d : Str)
    (p : Nat) (o : Op α) (hv : o.Valid w) (hl : Leaves i d p o) (hg : w.get i d = some p) :
    (o.exec c w).get i d = some p := by

  have hw := reach_wf c w h
  obtain ⟨l1, l2, l3, _⟩ := hl
  by_cases ht : o.target = some i
  · cases o with
    | bindFS j e fsys =>
      simp only [Op.target, Option.some.injEq] at ht
      subst ht
      by_cases hl : Loads c fsys
      · have hvw := congrFun (congrArg View.doms (view_bindFS_self c w hw j hi e fsys hl)) d
        refine hvw.trans ?_
        have hne : d ≠ e := by rintro rfl; exact l1 fsys rfl
        dsimp only
        rw [if_neg hne]; exact hg
      · exact (congrFun (congrArg View.doms (view_bindFS_fail c w j e fsys hl j)) d).trans hg
    | removeDomain j e =>
      simp only [Op.target, Option.some.injEq] at ht
      subst ht
      refine (congrFun (congrArg View.doms (view_removeDomain_self w hw j hi e)) d).trans ?_
      have hne : d ≠ e := by rintro rfl; exact l2 rfl
      split
      · dsimp only; rw [if_neg hne]; exact hg
      · exact hg
    | clearDomains j =>
      simp only [Op.target, Option.some.injEq] at ht
      subst ht
      exact absurd rfl l3
    | setDomain j e =>
      simp only [Op.target, Option.some.injEq] at ht
      subst ht
      exact (congrFun (congrArg View.doms (view_setDomain_self w j hi e)) d).trans hg
    | setLocale j lang dflt =>
      simp only [Op.target, Option.some.injEq] at ht
      subst ht
      exact (congrFun (congrArg View.doms (view_setLocale_self c w j hi lang dflt)) d).trans hg
    | setSourceCodeLocale j lang =>
      simp only [Op.target, Option.some.injEq] at ht
      subst ht
      exact (congrFun (congrArg View.doms (view_setSrc_self c w j hi lang)) d).trans hg
    | _ => simp [Op.target] at ht
  · exact (congrFun (congrArg View.doms (exec_view c w hw o hv i hi ht)) d).trans hg

theorem leaves_run (c : Cfg α) (w w' : World α) (h : Reach c w) (i : Nat) (hi : i < w.tss.length) (d : Str) (p : Nat)
    (hp : p < w.trs.length) (ops : List (Op α)) (r : Run c w ops w') (hl : ∀ o ∈ ops, Leaves i d p o)
    (hg : w.get i d = some p) : w'.get i d = some p ∧ w'.tr p = w.tr p := by
  induction r with
  | nil w => exact ⟨hg, rfl⟩
  | cons w o os w' hv r ih =>
    have hw := reach_wf c w h
    have lo := hl o List.mem_cons_self
    obtain ⟨a, b⟩ := ih (Reach.step w o h hv) (Nat.lt_of_lt_of_le hi (exec_tss c w hw o))
      (Nat.lt_of_lt_of_le hp (exec_trs_length c w hw o)) (fun o' ho' => hl o' (List.mem_cons_of_mem _ ho'))
      (leaves_exec c w h i hi d p o hv lo hg)
    exact ⟨a, b.trans (exec_tr c w hw o p hp lo.2.2.2)⟩

/-- A tree whose translator for the language is `t`: bind it, call whatever leaves the domain alone, and
be in that domain and locale. -/
theorem served (c : Cfg α) (w w' : World α) (h : Reach c w) (i : Nat) (hi : i < w.tss.length) (d : Str) (fsys : Option Node)
    (hload : Loads c fsys) (lang : Str) (t : Tor α) (ht : (bound c d fsys).get lang = some t) (ops : List (Op α))
    (r : Run c (w.bindFS c i d fsys) ops w') (hl : ∀ o ∈ ops, Leaves i d w.trs.length o)
    (hd : w'.domain i = d) (hloc : w'.locale i = lang) : Answers c w' i t := by
  have hw := reach_wf c w h
  have hb : Reach c (w.bindFS c i d fsys) := Reach.step w (.bindFS i d fsys) h hi
  obtain ⟨a, b⟩ := leaves_run c (w.bindFS c i d fsys) w' hb i (by rw [bindFS_tss]; exact hi) d w.trs.length
    (by rw [bindFS_trs]; simp) ops r hl (C39_bound c w h i hi d fsys hload).1
  have htr : (w.bindFS c i d fsys).tr w.trs.length = bound c d fsys := by
    unfold World.tr; rw [bindFS_trs]; exact getD_snoc _ _ _
  exact answers_of c w' i w.trs.length t (by rw [hd]; exact a) (by rw [b, htr, hloc]; exact ht)

theorem Shows.of_answers {c : Cfg α} {w : World α} {i : Nat} {t : Tor α} {es : List Entry} {forms : Str}
    (ha : Answers c w i t) (hs : Shows c es forms t.x t.xn) : Shows c es forms (w.x c i) (w.xn64 c i) := by
  have h1 : (w.x c i) = t.x := by funext a b args; exact ha.1 a b args
  have h2 : (w.xn64 c i) = t.xn := by funext a b e n args; exact ha.2 a b e n args
  rw [h1, h2]; exact hs

/-- The messages of a file, saved as PO, found by a bind as the last `.po` file for that language, are
what the lookups of that value show from then on, in that domain and that locale: after any other calls
on any values, as long as none binds or removes that domain of that value or changes the `Translation`
object. -/
theorem C66_po (c : Cfg α) (P : Nat → Bool) (h10 : P 10 = false) (h13 : P 13 = false)
    (f : Tr.File) (language forms : Str) (hf : Catalogue f language forms) (hgood : ∀ e ∈ f.entries.vals, GoodEntry e)
    (es : List Entry) (hs : SortedEntry f es)
    (fsys : Option Node) (pre post : List (Str × Option Opened)) (name : Str) (hname : b!".po" <:+ name)
    (hfs : filesFrom fsys = pre ++ (name, some ⟨some name, some (savePo P es)⟩) :: post)
    (hlast : ∀ q ∈ post, ∀ t, ¬ Provides c b!".po" (c.norm language) q t)
    (w w' : World α) (h : Reach c w) (i : Nat) (hi : i < w.tss.length) (d : Str) (ops : List (Op α))
    (r : Run c (w.bindFS c i d fsys) ops w') (hl : ∀ o ∈ ops, Leaves i d w.trs.length o)
    (hd : w'.domain i = d) (hloc : w'.locale i = c.norm language) :
    Shows c f.entries.vals forms (w'.x c i) (w'.xn64 c i) := by
  obtain ⟨hm, hmm, _⟩ := hf.header
  have hesne : es ≠ [] := by
    rintro rfl
    have := hs.1.symm.subset hmm
    simp at this
  have hread := savePo_reads P h10 h13 es hesne (fun e he => hgood e (hs.1.subset he))
  obtain ⟨hlang, hshow⟩ := loaded c f language forms hf es hs.1 id (fun e => ⟨rfl, rfl, rfl⟩) (fun e => ⟨rfl, rfl⟩)
  rw [List.map_id] at hlang hshow
  have hct : contentTor c ⟨some name, some (savePo P es)⟩ = some (some (fileTor c (es.foldl File.addEntry {}))) := by
    unfold contentTor
    simp only [if_pos hname, hread]
    rw [if_neg]
    intro hx
    exact hf.named (hlang.symm.trans hx)
  have hprov : Provides c b!".po" (c.norm language) (name, some ⟨some name, some (savePo P es)⟩)
      (fileTor c (es.foldl File.addEntry {})) := ⟨hname, ⟨_, rfl, hct⟩, by rw [hlang]; exact hf.named, by rw [hlang]⟩
  have hload : Loads c fsys := ⟨(name, some ⟨some name, some (savePo P es)⟩), by rw [hfs]; simp, .inl hname, _, rfl, by rw [hct]; rfl⟩
  refine Shows.of_answers (served c w w' h i hi d fsys hload (c.norm language) _ ?_ ops r hl hd hloc) hshow
  unfold bound
  exact (C40_po_wins c _ fsys _ _).mpr (.inl ⟨pre, _, post, hfs, hprov, hlast⟩)

/-- The same for a file saved as MO, if no `.po` file of the tree has that language. -/
theorem C66_mo (c : Cfg α) (f : Tr.File) (language forms : Str) (hf : Catalogue f language forms)
    (hgood : ∀ e ∈ f.entries.vals, MoGood e) (es : List Entry) (hs : SortedEntry f es)
    (hlt : (saveMo es).length < 4294967296)
    (fsys : Option Node) (pre post : List (Str × Option Opened)) (name : Str) (hname : b!".mo" <:+ name)
    (hfs : filesFrom fsys = pre ++ (name, some ⟨some name, some (saveMo es)⟩) :: post)
    (hlast : ∀ q ∈ post, ∀ t, ¬ Provides c b!".mo" (c.norm language) q t)
    (hpo : ∀ q ∈ filesFrom fsys, ∀ t, ¬ Provides c b!".po" (c.norm language) q t)
    (w w' : World α) (h : Reach c w) (i : Nat) (hi : i < w.tss.length) (d : Str) (ops : List (Op α))
    (r : Run c (w.bindFS c i d fsys) ops w') (hl : ∀ o ∈ ops, Leaves i d w.trs.length o)
    (hd : w'.domain i = d) (hloc : w'.locale i = c.norm language) :
    Shows c f.entries.vals forms (w'.x c i) (w'.xn64 c i) := by
  have hread := readMo_saveMo es hlt (fun e he => hgood e (hs.1.subset he))
  obtain ⟨hlang, hshow⟩ := loaded c f language forms hf es hs.1 Entry.bare (fun e => ⟨rfl, rfl, rfl⟩) (fun e => ⟨rfl, rfl⟩)
  have hnpo : ¬ b!".po" <:+ name := by
    obtain ⟨a, rfl⟩ := hname
    rintro ⟨b, hb⟩
    have := List.append_inj_right' hb (by decide)
    exact absurd this (by decide)
  have hct : contentTor c ⟨some name, some (saveMo es)⟩ = some (some (fileTor c ((es.map Entry.bare).foldl File.addEntry {}))) := by
    unfold contentTor
    simp only [if_neg hnpo, if_pos hname, hread]
    rw [if_neg]
    intro hx
    exact hf.named (hlang.symm.trans hx)
  have hprov : Provides c b!".mo" (c.norm language) (name, some ⟨some name, some (saveMo es)⟩)
      (fileTor c ((es.map Entry.bare).foldl File.addEntry {})) :=
    ⟨hname, ⟨_, rfl, hct⟩, by rw [hlang]; exact hf.named, by rw [hlang]⟩
  have hload : Loads c fsys := ⟨(name, some ⟨some name, some (saveMo es)⟩), by rw [hfs]; simp, .inr hname, _, rfl, by rw [hct]; rfl⟩
  refine Shows.of_answers (served c w w' h i hi d fsys hload (c.norm language) _ ?_ ops r hl hd hloc) hshow
  unfold bound
  refine (C40_po_wins c _ fsys _ _).mpr (.inr ⟨?_, .inl ⟨pre, _, post, hfs, hprov, hlast⟩⟩)
  rintro t' ⟨a, p, b, he, hp, _⟩
  exact hpo p (by rw [he]; simp) t' hp

/-- The usual program: bind one file, choose the domain and the locale, ask.  The locale may be spelled
in any way that normalizes like the language of the file. -/
theorem C66_usual (c : Cfg α) (P : Nat → Bool) (h10 : P 10 = false) (h13 : P 13 = false)
    (f : Tr.File) (language forms : Str) (hf : Catalogue f language forms) (hgood : ∀ e ∈ f.entries.vals, GoodEntry e)
    (es : List Entry) (hs : SortedEntry f es) (name : Str) (hname : b!".po" <:+ name)
    (w : World α) (h : Reach c w) (i : Nat) (hi : i < w.tss.length) (d lang dflt : Str) (hne : lang ≠ [])
    (hn : c.norm lang = c.norm language) :
    let fsys := some (Node.dir b!"." true [.file name (some ⟨some name, some (savePo P es)⟩)])
    let w' := ((w.bindFS c i d fsys).setDomain i d).setLocale c i lang dflt
    Shows c f.entries.vals forms (w'.x c i) (w'.xn64 c i) := by
  intro fsys w'
  have hi1 : i < (w.bindFS c i d fsys).tss.length := by rw [bindFS_tss]; exact hi
  have hi2 : i < ((w.bindFS c i d fsys).setDomain i d).tss.length := by
    simpa [World.setDomain, World.setTs] using hi1
  have hv := view_setLocale_self c ((w.bindFS c i d fsys).setDomain i d) i hi2 lang dflt
  have hv1 := view_setDomain_self (w.bindFS c i d fsys) i hi1 d
  refine C66_po c P h10 h13 f language forms hf hgood es hs fsys [] [] name hname ?_ (by simp) w w' h i hi d
    [.setDomain i d, .setLocale i lang dflt] (Run.cons _ _ _ _ hi1 (Run.cons _ _ _ _ hi2 (Run.nil _))) ?_ ?_ ?_
  · simp [fsys, filesFrom, filesOf, filesOfList]
  · intro o ho
    simp only [List.mem_cons, List.not_mem_nil, or_false] at ho
    rcases ho with rfl | rfl <;> simp [Leaves, Op.changes]
  · refine (congrArg View.domain hv).trans ?_
    exact congrArg View.domain hv1
  · refine (congrArg View.locale hv).trans ?_
    simp only [chosen, if_neg hne, hn]

/-- A file of three messages: the header, a greeting and a counted message with context. -/
def exCat : Tr.File :=
  let e0 : Entry := { str := b!"Language: fr_FR\nPlural-Forms: nplurals=2; plural=n > 1;\n" }
  let e1 : Entry := { cmts := [b!"#: a.go:1"], id := b!"Hello", str := b!"Bonjour" }
  let e2 : Entry := { ctxt := b!"c", id := b!"One day", isPlural := true, id2 := b!"Days", strN := [b!"Un jour", b!"Des jours"] }
  { entries := [(e1.key, e1), (e0.key, e0), (e2.key, e2)] }

/-- The sample file is a catalogue for French that both formats can express. -/
theorem exCat_ok : Catalogue exCat b!"fr_FR" b!"nplurals=2; plural=n > 1;" ∧ (∀ e ∈ exCat.entries.vals, GoodEntry e) ∧
    (∀ e ∈ exCat.entries.vals, MoGood e) ∧ ∃ es, SortedEntry exCat es ∧ (saveMo es).length < 4294967296 := by
  refine ⟨⟨⟨by decide, by decide⟩, by decide, by decide, ⟨_, List.mem_cons_of_mem _ List.mem_cons_self, rfl, ?_, .inl ?_⟩,
    by decide⟩, ?_, ?_, ?_⟩
  · exact (C15_first_wins _ _ _).mp (by decide +kernel)
  · exact (C15_first_wins _ _ _).mp (by decide +kernel)
  · intro p hp
    simp only [exCat, GMap.vals, List.map_cons, List.map_nil, List.mem_cons, List.not_mem_nil, or_false] at hp
    rcases hp with rfl | rfl | rfl
    · exact ⟨by intro c hc; simp only [List.mem_cons, List.not_mem_nil, or_false] at hc; subst hc; exact ⟨⟨_, rfl⟩, by decide, by decide⟩, by decide, by decide, by decide⟩
    · exact ⟨(fun c hc => nomatch hc), by decide, by decide, by decide⟩
    · exact ⟨(fun c hc => nomatch hc), by decide, by decide, by decide⟩
  · intro p hp
    simp only [exCat, GMap.vals, List.map_cons, List.map_nil, List.mem_cons, List.not_mem_nil, or_false] at hp
    rcases hp with rfl | rfl | rfl <;> exact ⟨by decide, by decide, by decide, by decide, by decide⟩
  · refine ⟨[{ str := b!"Language: fr_FR\nPlural-Forms: nplurals=2; plural=n > 1;\n" },
      { cmts := [b!"#: a.go:1"], id := b!"Hello", str := b!"Bonjour" },
      { ctxt := b!"c", id := b!"One day", isPlural := true, id2 := b!"Days", strN := [b!"Un jour", b!"Des jours"] }], ⟨?_, ?_⟩, by decide +kernel⟩
    · decide
    · simp only [List.pairwise_cons, List.mem_cons, List.not_mem_nil, or_false, forall_eq_or_imp, forall_eq,
        IsEmpty.forall_iff, implies_true]
      decide

/-- The usual program on the sample file: the greeting and the counted message come out translated,
another message as it is in the source. -/
example (c : Cfg α) (w : World α) (h : Reach c w) (i : Nat) (hi : i < w.tss.length) (es : List Entry)
    (hs : SortedEntry exCat es) (hfmt : ∀ s, Fmt.format c.fmt s [] = s) :
    let fsys := some (Node.dir b!"." true [.file b!"fr.po" (some ⟨some b!"fr.po", some (savePo (fun _ => false) es)⟩)])
    let w' := ((w.bindFS c i b!"app" fsys).setDomain i b!"app").setLocale c i b!"fr_FR" []
    w'.t c i b!"Hello" [] = .ok b!"Bonjour" ∧ w'.xn64 c i b!"c" b!"One day" b!"Days" 3 [] = .ok b!"Des jours" ∧
      w'.t c i b!"Bye" [] = .ok b!"Bye" := by
  intro fsys w'
  have hsh := C66_usual c (fun _ => false) rfl rfl exCat _ _ exCat_ok.1 exCat_ok.2.1 es hs b!"fr.po" ⟨b!"fr", rfl⟩ w h i hi
    b!"app" b!"fr_FR" [] (by decide) rfl
  refine ⟨?_, ?_, ?_⟩
  · exact ((hsh.1 _ List.mem_cons_self).translated [] (by decide)).trans (by rw [hfmt])
  · refine ((hsh.1 _ (List.mem_cons_of_mem _ (List.mem_cons_of_mem _ List.mem_cons_self))).form b!"Days" 3 [] 1 b!"Des jours"
      (.inr (by decide)) ?_ rfl (by decide)).trans (by rw [hfmt])
    refine ⟨50, b!"n > 1", 1, ?_, ?_, rfl, by decide⟩
    · exact ⟨[], [], [], [], [32], [], [], [], by simp [Ws], by simp [Ws], by simp [Ws], by simp [Ws], by simp [Ws], by simp [Ws],
        by simp [Ws], by simp [Ws], by decide, by decide, by decide, by simp, by simp [Ws], rfl⟩
    · rfl
  · exact ((hsh.2 [] b!"Bye" (by simp) (by decide)).1 []).trans (by rw [hfmt])

end Verif.W
