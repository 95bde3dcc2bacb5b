import Verif.Spec.MoUse
import Verif.Props.C124
import Verif.Props.C128
/-!
# C129: MO files in use

Any MO file is shown as the MO format describes it; so are templates translated with GNU gettext and compiled with msgfmt.
-/
namespace Verif.W
open Verif Verif.Tr
variable {α : Type}

theorem moHas_read {content : Str} {es : List Entry} (h : MoHas content es) :
    readMo content = .ok (es.foldl File.addEntry {}) ∧ ∀ e ∈ es, 4 ∉ e.ctxt := by
  obtain ⟨be, ps, hm, hf⟩ := h
  have heq : ps.map (fun p => moEntry p.1 p.2) = es := by
    clear hm
    induction hf with
    | nil => rfl
    | cons h _ ih => rw [List.map_cons, ih, ← (moMsg_iff _ _ _).1 h]
  refine ⟨?_, ?_⟩
  · rw [readMo_of_file hm, moFileOf, heq]
  · clear hm heq
    induction hf with
    | nil => simp
    | cons h _ ih =>
      intro e he
      rcases List.mem_cons.1 he with rfl | he
      · obtain ⟨-, ⟨-, h, -⟩ | ⟨ctxt, rest, -, h4, h, -⟩⟩ := h
        · rw [h]; simp
        · rw [h]; exact h4
      · exact ih e he

/-- **C129** A content is read exactly if it is an MO file. -/
theorem C129_accepted (content : Str) : (∃ f, readMo content = .ok f) ↔ ∃ es, MoHas content es := by
  constructor
  · rintro ⟨f, hf⟩
    obtain ⟨be, ps, hm, -⟩ := (readMo_iff content f).mp hf
    refine ⟨ps.map fun p => moEntry p.1 p.2, be, ps, hm, ?_⟩
    clear hm hf
    induction ps with
    | nil => exact .nil
    | cons p ps ih => exact .cons ((moMsg_iff _ _ _).2 rfl) ih
  · rintro ⟨es, h⟩
    exact ⟨_, (moHas_read h).1⟩

/-- Reading an MO file. -/
theorem mo_loaded (c : Cfg α) (mo : Str) (es : List Entry) (hm : MoHas mo es) (language forms : Str) (hf : MoFor es language forms) :
    ∃ g, readMo mo = .ok g ∧ (fileTor c g).lang = language ∧ ShowsMo c es forms (fileTor c g).x (fileTor c g).xn := by
  obtain ⟨hread, hno⟩ := moHas_read hm
  obtain ⟨h, hfind, hctxt, hlang, hforms⟩ := hf.header
  have hdr : ∀ k v, (es.foldl File.addEntry {}).heads.get? k = some v ↔ HeaderField h.str k v := by
    intro k v
    rw [← getHeader_eq, read_headers _ k v, hfind]
    constructor
    · rintro ⟨e, he, _, hv⟩
      simp only [Option.some.injEq] at he
      subst he; exact hv
    · intro hv
      exact ⟨h, rfl, hctxt, hv⟩
  have hrule := initPlural_ruleOk _ (foldl_ruleOk es {} (.inl rfl))
  have hfo : ((es.foldl File.addEntry {}).heads.get? hPluralForms).getD [] = forms := by
    rcases hforms with hv | ⟨rfl, hno⟩
    · rw [(hdr hPluralForms forms).mpr hv]; rfl
    · cases hg : (es.foldl File.addEntry {}).heads.get? hPluralForms with
      | none => rfl
      | some v => exact absurd ((hdr _ _).mp hg) (hno v)
  rw [hfo] at hrule
  refine ⟨_, hread, ?_, ?_⟩
  · simp only [fileTor, File.lang]
    rw [getHeader_eq, (hdr hLanguage language).mpr hlang]
    rfl
  · intro ctxt id hc
    have hg : (es.foldl File.addEntry {}).entries.get? (key ctxt id) = Tr.lastFor ctxt id es := by
      rw [foldl_addEntry_entries]
      simp only [GMap.get?, Option.or_none, Tr.lastFor]
      congr 1
      apply List.filter_congr
      intro e he
      apply decide_eq_decide.mpr
      constructor
      · intro hk
        exact key_inj _ _ _ _ (hno e he) hc hk
      · rintro ⟨h1, h2⟩
        rw [Entry.key, h1, h2]
    constructor
    · intro e he
      rw [he] at hg
      refine shown_of c _ forms ctxt id e ?_ hg hrule
      unfold Tr.lastFor at he
      have hm := List.mem_of_mem_getLast? he
      simp only [List.mem_filter, decide_eq_true_eq] at hm
      exact hm.2.2
    · intro he
      rw [he] at hg
      constructor
      · intro args; simp only [fileTor, File.x, hg]
      · intro id2 n args; simp only [fileTor, File.xn, hg]

/-- **C129** While an MO file is in use, every lookup shows what the file, read by the MO format, has for the message. -/
theorem C129_mo (c : Cfg α) (mo : Str) (es : List Entry) (hm : MoHas mo es) (language forms : Str)
    (hf : MoFor es language forms) (w' : World α) (i : Nat) (hu : InUseMo c mo language w' i) :
    ShowsMo c es forms (w'.x c i) (w'.xn64 c i) := by
  obtain ⟨w, d, fsys, pre, post, name, ops, h, hi, hname, hfs, hlast, hpo, r, hl, hd, hloc⟩ := hu
  obtain ⟨g, hread, hlang, hshow⟩ := mo_loaded c mo es hm language forms hf
  have hnpo : ¬ b!".po" <:+ name := by
    obtain ⟨a, rfl⟩ := hname
    rintro ⟨b, hb⟩
    have := List.append_inj_right' hb (by decide)
    exact absurd this (by decide)
  have hct : contentTor c ⟨some name, some mo⟩ = some (some (fileTor c g)) := by
    unfold contentTor
    simp only [if_neg hnpo, if_pos hname, hread]
    rw [if_neg]
    intro hx
    exact hf.named (hlang.symm.trans hx)
  have hprov : Provides c b!".mo" (c.norm language) (name, some ⟨some name, some mo⟩) (fileTor c g) :=
    ⟨hname, ⟨_, rfl, hct⟩, by rw [hlang]; exact hf.named, by rw [hlang]⟩
  have hload : Loads c fsys := ⟨(name, some ⟨some name, some mo⟩), by rw [hfs]; simp, .inr hname, _, rfl, by rw [hct]; rfl⟩
  have ha : Answers c w' i (fileTor c g) := by
    refine served c w w' h i hi d fsys hload (c.norm language) _ ?_ ops r hl hd hloc
    unfold bound
    refine (C40_po_wins c _ fsys _ _).mpr (.inr ⟨?_, .inl ⟨pre, _, post, hfs, hprov, hlast⟩⟩)
    rintro t' ⟨a, p, b, he, hp, _⟩
    exact hpo p (by rw [he]; simp) t' hp
  have h1 : (w'.x c i) = (fileTor c g).x := by funext a b args; exact ha.1 a b args
  have h2 : (w'.xn64 c i) = (fileTor c g).xn := by funext a b e n args; exact ha.2 a b e n args
  rw [h1, h2]; exact hshow

/-- The usual way to use an MO file: bind a tree with it, choose the domain and the locale. -/
theorem inUseMo_usual (c : Cfg α) (mo language name : Str) (hname : b!".mo" <:+ name) (w : World α) (h : Reach c w) (i : Nat)
    (hi : i < w.tss.length) (d lang dflt : Str) (hne : lang ≠ []) (hn : c.norm lang = c.norm language) :
    InUseMo c mo language (((w.bindFS c i d (some (Node.dir b!"." true [.file name (some ⟨some name, some mo⟩)]))).setDomain i d).setLocale
      c i lang dflt) i := by
  generalize hfs : some (Node.dir b!"." true [.file name (some ⟨some name, some mo⟩)]) = fsys
  have hi1 : i < (w.bindFS c i d fsys).tss.length := by rw [bindFS_tss]; exact hi
  have hi2 : i < ((w.bindFS c i d fsys).setDomain i d).tss.length := by
    simpa [World.setDomain, World.setTs] using hi1
  have hv := view_setLocale_self c ((w.bindFS c i d fsys).setDomain i d) i hi2 lang dflt
  have hv1 := view_setDomain_self (w.bindFS c i d fsys) i hi1 d
  have hfiles : filesFrom fsys = [(name, some ⟨some name, some mo⟩)] := by subst hfs; simp [filesFrom, filesOf, filesOfList]
  refine ⟨w, d, fsys, [], [], name, [.setDomain i d, .setLocale i lang dflt], h, hi, hname, hfiles, by simp, ?_,
    Run.cons _ _ _ _ hi1 (Run.cons _ _ _ _ hi2 (Run.nil _)), ?_, ?_, ?_⟩
  · intro q hq t hp
    rw [hfiles, List.mem_singleton] at hq
    subst hq
    obtain ⟨a, rfl⟩ := hname
    obtain ⟨b, hb⟩ := hp.1
    have := List.append_inj_right' hb (by decide)
    exact absurd this (by decide)
  · intro o ho
    simp only [List.mem_cons, List.not_mem_nil, or_false] at ho
    rcases ho with rfl | rfl <;> simp [Leaves, Op.changes]
  · exact (congrArg View.domain hv).trans (congrArg View.domain hv1)
  · refine (congrArg View.locale hv).trans ?_
    simp only [chosen, if_neg hne, hn]

end Verif.W

namespace Verif.GnuFlow
open Verif
open Verif.GnuPo (Msg Reads Written msgEntry bare)
open Verif.Msgfmt (Kept Fuzzy Compiled)
variable {α : Type}

theorem lastFor_only {L : List Tr.Entry} {x : Tr.Entry} (hx : x ∈ L) (h : ∀ y ∈ L, y.ctxt = x.ctxt → y.id = x.id → y = x) :
    Tr.lastFor x.ctxt x.id L = some x := by
  unfold Tr.lastFor
  have hm : x ∈ L.filter fun e => e.ctxt = x.ctxt ∧ e.id = x.id := by simp [hx]
  cases hl : (L.filter fun e => e.ctxt = x.ctxt ∧ e.id = x.id).getLast? with
  | none =>
    rw [List.getLast?_eq_none_iff] at hl
    rw [hl] at hm
    cases hm
  | some y =>
    have := List.mem_of_getLast? hl
    simp only [List.mem_filter, decide_eq_true_eq] at this
    rw [h y this.1 this.2.1 this.2.2]

/-- The translation of a message read from a file, when no form is empty and none has a NUL. -/
theorem trans_starts {s : Str} {ts : List Msg} (h : Reads Written s ts) {t : Msg} (ht : t ∈ ts) (h1 : ∀ s ∈ t.forms, s ≠ [])
    (h0 : ∀ s ∈ t.forms, 0 ∉ s) : ∃ c r, Tr.transOf (msgEntry t) = c :: r ∧ c ≠ 0 := by
  obtain ⟨hne, hone⟩ := reads_forms h t ht
  have hlist : ∀ f fs, t.forms = f :: fs → ∃ c r, f = c :: r ∧ c ≠ 0 := by
    intro f fs hf
    have hm : f ∈ t.forms := by rw [hf]; simp
    cases f with
    | nil => exact absurd rfl (h1 _ hm)
    | cons c r =>
      refine ⟨c, r, rfl, ?_⟩
      rintro rfl
      exact h0 _ hm (by simp)
  cases hp : t.plural with
  | none =>
    obtain ⟨str, hs⟩ := hone hp
    obtain ⟨c, r, rfl, hc⟩ := hlist _ _ hs
    exact ⟨c, r, by simp [Tr.transOf, msgEntry, hp, hs], hc⟩
  | some p =>
    cases hf : t.forms with
    | nil => exact absurd hf hne
    | cons f fs =>
      obtain ⟨c, r, rfl, hc⟩ := hlist _ _ hf
      cases fs with
      | nil => exact ⟨c, r, by simp [Tr.transOf, msgEntry, hp, hf, List.intercalate], hc⟩
      | cons g gs =>
        refine ⟨c, r ++ ([0] ++ (List.intersperse [0] (g :: gs)).flatten), ?_, hc⟩
        simp [Tr.transOf, msgEntry, hp, hf, List.intercalate]

/-- **C129** The templates are translated with GNU gettext, the translator's file is compiled with msgfmt, and the MO file is used: whoever
asks for a message of the templates gets what the translator wrote. -/
theorem C129_compiled (es : List Tr.Entry) (header : Str) (ms : List Msg) (hms : Asks es header ms) (c : W.Cfg α) (po mo : Str)
    (ts : List Msg) (hpo : Reads Written po ts) (h13 : 13 ∉ po) (language forms : Str) (hf : IsFor ts language forms)
    (ha : Answers ms ts) (hh : ∀ t ∈ ts, t.id = [] → t.ctxt.getD [] = []) (h0 : ∀ t ∈ ts, ∀ s ∈ t.forms, 0 ∉ s)
    (tes : List Tr.Entry) (htes : Tr.PoText po tes) (hfz : ∀ e ∈ tes, e.id ≠ [] → ¬ Fuzzy e) (hc : Compiled tes mo)
    (w : W.World α) (i : Nat) (hu : W.InUseMo c mo language w i) (e : Tr.Entry) (he : e ∈ es) (hid : e.id ≠ []) (h4 : 4 ∉ e.ctxt)
    (hno : ¬ Xt.Conflicts es e) :
    ∃ t ∈ ts, t.ctxt.getD [] = e.ctxt ∧ t.id = e.id ∧
      (e.isPlural = false → ∃ s, t.forms = [s] ∧ s ≠ [] ∧ ∀ args, w.x c i e.ctxt e.id args = .ok (Fmt.format c.fmt s args)) ∧
      (e.isPlural = true → ∀ id2 n args k s, Tr.SelectsForm c.diag forms n k → t.forms[k]? = some s →
        w.xn64 c i e.ctxt e.id id2 n args = .ok (Fmt.format c.fmt s args)) := by
  obtain ⟨tes', h1, h2, -⟩ := written_text po ts hpo h13
  obtain rfl := Tr.text_unique _ _ _ h1 htes
  -- the messages of the MO file
  obtain ⟨be, l, hmf, hl, hmsg⟩ := hc
  have hhas : W.MoHas mo (l.map fun x => bare x.2) := by
    refine ⟨be, _, hmf, ?_⟩
    rw [List.forall₂_map_left_iff, List.forall₂_map_right_iff, List.forall₂_same]
    exact hmsg
  have hin : ∀ x ∈ l.map (fun x => bare x.2), ∃ t ∈ ts, x = msgEntry t := by
    intro x hx
    obtain ⟨y, hy, rfl⟩ := List.mem_map.1 hx
    obtain ⟨hy1, ⟨c0, r0, hk, -⟩, -⟩ := (hl y.2).1 (List.mem_map_of_mem hy)
    have htr : Tr.Translated y.2 := by
      by_contra hn
      simp only [Tr.Translated, not_or, not_not] at hn
      rw [Tr.transOf, hn.2, if_pos rfl, hn.1] at hk
      cases hk
    have : bare y.2 ∈ (tes'.filter fun e => Tr.Translated e).map bare :=
      List.mem_map_of_mem (List.mem_filter.2 ⟨hy1, decide_eq_true htr⟩)
    rw [h2, List.mem_filter, List.mem_map] at this
    obtain ⟨⟨t, ht, hb⟩, -⟩ := this
    exact ⟨t, ht, hb.symm⟩
  have hout : ∀ t ∈ ts, Tr.Translated (msgEntry t) → (∃ c r, Tr.transOf (msgEntry t) = c :: r ∧ c ≠ 0) →
      msgEntry t ∈ l.map fun x => bare x.2 := by
    intro t ht htr hk
    have : msgEntry t ∈ (ts.map msgEntry).filter fun e => Tr.Translated e :=
      List.mem_filter.2 ⟨List.mem_map_of_mem ht, decide_eq_true htr⟩
    rw [← h2] at this
    obtain ⟨y, hy, hb⟩ := List.mem_map.1 this
    have hy := (List.mem_filter.1 hy).1
    have hkept : Kept y := by
      refine ⟨?_, ?_⟩
      · rw [← hb] at hk
        exact hk
      · by_cases h : y.id = []
        · refine .inr ⟨?_, h⟩
          have h5 : (bare y).ctxt = (msgEntry t).ctxt := congrArg Tr.Entry.ctxt hb
          have h6 : (bare y).id = (msgEntry t).id := congrArg Tr.Entry.id hb
          exact h5.trans (hh t ht (h6.symm.trans h))
        · exact .inl (hfz y hy h)
    have := (hl y).2 ⟨hy, hkept⟩
    obtain ⟨z, hz, hzy⟩ := List.mem_map.1 this
    exact List.mem_map.2 ⟨z, hz, by rw [hzy, hb]⟩
  have huniq : ∀ t ∈ ts, ∀ y ∈ l.map (fun x => bare x.2), y.ctxt = (msgEntry t).ctxt → y.id = (msgEntry t).id → y = msgEntry t := by
    intro t ht y hy h5 h6
    obtain ⟨t', ht', rfl⟩ := hin y hy
    rw [List.inj_on_of_nodup_map ha.once ht' ht (Prod.ext h5 h6)]
  -- the header
  have hfor : W.MoFor (l.map fun x => bare x.2) language forms := by
    obtain ⟨-, ⟨h, hfind, hlang, hpl⟩, hne⟩ := hf
    refine ⟨?_, hne⟩
    have hmem := List.mem_of_find?_eq_some hfind
    have hhne := headerField_ne hlang
    have hhm := hout _ hmem (by simp [Tr.Translated, msgEntry, hhne])
      (trans_starts hpo hmem (by simpa using hhne) (h0 _ hmem))
    cases hx : (l.map fun x => bare x.2).find? (fun e => e.id = []) with
    | none =>
      rw [List.find?_eq_none] at hx
      exact absurd (decide_eq_true (rfl : (msgEntry ⟨none, [], none, [h]⟩).id = [])) (hx _ hhm)
    | some x =>
      have hxm := List.mem_of_find?_eq_some hx
      have hxi := List.find?_some hx
      simp only [decide_eq_true_eq] at hxi
      obtain ⟨t', ht', rfl⟩ := hin x hxm
      have : msgEntry t' = msgEntry ⟨none, [], none, [h]⟩ := huniq _ hmem _ hxm (hh t' ht' hxi) hxi
      rw [this]
      exact ⟨_, rfl, rfl, by simpa [msgEntry] using hlang, by simpa [msgEntry] using hpl⟩
  -- the message
  obtain ⟨f, hff, hfm⟩ := hms.all e he hid
  obtain ⟨-, hfc, hfi⟩ := Xt.firstOf_some es _ _ f hff
  obtain ⟨t, ht, ht1, ht2, ht3, ht4⟩ := ha.all _ hfm (by rw [← hfi] at hid; exact hid)
  have hpl : f.isPlural = e.isPlural := by
    by_contra hne
    exact hno ⟨f, hff, hne⟩
  have hctxt : t.ctxt.getD [] = e.ctxt := by
    rw [ht1, ← hfc]
    unfold asked
    by_cases h : f.ctxt = [] <;> simp [h]
  have hid' : t.id = e.id := ht2.trans hfi
  have hplural : t.plural.isSome = e.isPlural := by
    rw [ht3, ← hpl]
    unfold asked
    cases f.isPlural <;> rfl
  have hforms := reads_forms hpo t ht
  have hone : t.plural.isSome = false → ∃ s, t.forms = [s] ∧ s ≠ [] := by
    intro h
    obtain ⟨s, hs⟩ := hforms.2 (by simpa using h)
    exact ⟨s, hs, ht4 s (by rw [hs]; simp)⟩
  have htr : Tr.Translated (msgEntry t) := by
    unfold Tr.Translated msgEntry
    cases h : t.plural.isSome with
    | true => exact .inr (by simpa using hforms.1)
    | false =>
      obtain ⟨s, hs, hne⟩ := hone h
      exact .inl (by simpa [hs] using hne)
  have hlast := lastFor_only (hout t ht htr (trans_starts hpo ht ht4 (h0 t ht))) (huniq t ht)
  rw [show (msgEntry t).ctxt = e.ctxt from hctxt, show (msgEntry t).id = e.id from hid'] at hlast
  have hshow := (W.C129_mo c mo _ hhas language forms hfor w i hu e.ctxt e.id h4).1 _ hlast
  refine ⟨t, ht, hctxt, hid', fun hp => ?_, fun hp id2 n args k s hk hs => ?_⟩
  · rw [hp] at hplural
    obtain ⟨s, hs, hne⟩ := hone hplural
    have hxs : (msgEntry t).str = s := by simp [msgEntry, hplural, hs]
    refine ⟨s, hs, hne, fun args => ?_⟩
    rw [hshow.translated args (by rw [hxs]; exact hne), hxs]
  · rw [hp] at hplural
    have hxs : (msgEntry t).strN = t.forms := by simp [msgEntry, hplural]
    exact hshow.form id2 n args k s (.inr (by rw [hxs]; exact hforms.1)) hk (by rw [hxs]; exact hs) (ht4 s (List.mem_of_getElem? hs))

/-! ## Example: the translator's file of C128, compiled -/

/-- The entries of the translator's file. -/
def gnuEntries : List Tr.Entry :=
  [{ cmts := [b!"# French"], str := b!"Language: fr\nPlural-Forms: nplurals=2; plural=n > 1;\n" },
   { cmts := [b!"#: a.html:1"], id := b!"a", str := b!"y" },
   { cmts := [b!"#: a.html:2"], id := b!"one", isPlural := true, id2 := b!"many", strN := [b!"un", b!"des"] }]

theorem gnuPo_text : Tr.PoText gnuPo gnuEntries := by
  refine ⟨[[.comment b!"# French", .field .id [], .field .str [], .more b!"Language: fr\n", .more b!"Plural-Forms: nplurals=2; plural=n > 1;\n"],
    [.comment b!"#: a.html:1", .field .id b!"a", .field .str b!"y"]],
    [.comment b!"#: a.html:2", .field .id b!"one", .field .id2 b!"many", .field .form b!"un", .field .form b!"des"], ?_, by decide⟩
  have hl : Tr.meaningfulLines gnuPo = [b!"# French", b!"msgid \"\"", b!"msgstr \"\"", b!"\"Language: fr\\n\"",
      b!"\"Plural-Forms: nplurals=2; plural=n > 1;\\n\"", b!"#: a.html:1", b!"msgid \"a\"", b!"msgstr \"y\"", b!"#: a.html:2", b!"msgid \"one\"",
      b!"msgid_plural \"many\"", b!"msgstr[0] \"un\"", b!"msgstr[1] \"des\""] := by decide +kernel
  rw [hl]
  have i (n : Nat) (f : Tr.Field) (q d : Str) (h : Quote.unquote (GoStr.trimSpace q) = some d) :
    Tr.IsItem n (f.word n ++ 32 :: q) (.field f d) := .field f q d h
  have p0 := Tr.Parse.same .nil (.comment b!" French") (by simp [Tr.Starts, Tr.lastField])
  have p1 := Tr.Parse.same p0 (i 0 .id b!"\"\"" [] (by decide)) (by simp [Tr.Starts, Tr.lastField])
  have p2 := Tr.Parse.same p1 (i 0 .str b!"\"\"" [] (by decide)) (by simp [Tr.Starts, Tr.lastField])
  have p3 := Tr.Parse.same p2 (.more b!"Language: fr\\n\"" b!"Language: fr\n" (by unfold Tr.Quotes; decide)) (by simp [Tr.Starts, Tr.lastField])
  have p4 := Tr.Parse.same p3 (.more b!"Plural-Forms: nplurals=2; plural=n > 1;\\n\"" b!"Plural-Forms: nplurals=2; plural=n > 1;\n"
    (by unfold Tr.Quotes; decide +kernel)) (by simp [Tr.Starts, Tr.lastField])
  have p5 := Tr.Parse.next p4 (.comment b!": a.html:1") (by simp [Tr.Starts, Tr.lastField])
  have p6 := Tr.Parse.same p5 (i 0 .id b!"\"a\"" b!"a" (by decide)) (by simp [Tr.Starts, Tr.lastField])
  have p7 := Tr.Parse.same p6 (i 0 .str b!"\"y\"" b!"y" (by decide)) (by simp [Tr.Starts, Tr.lastField])
  have p8 := Tr.Parse.next p7 (.comment b!": a.html:2") (by simp [Tr.Starts, Tr.lastField])
  have p12 := Tr.Parse.same p8 (i 0 .id b!"\"one\"" b!"one" (by decide)) (by simp [Tr.Starts, Tr.lastField])
  have p13 := Tr.Parse.same p12 (i 0 .id2 b!"\"many\"" b!"many" (by decide)) (by simp [Tr.Starts, Tr.lastField])
  have p14 := Tr.Parse.same p13 (i 0 .form b!"\"un\"" b!"un" (by decide)) (by simp [Tr.Starts, Tr.lastField])
  have p15 := Tr.Parse.same p14 (i 1 .form b!"\"des\"" b!"des" (by decide)) (by simp [Tr.Starts, Tr.lastField])
  exact p15

/-- A comment that does not begin with `#,` has no flags. -/
theorem not_fuzzy_of (e : Tr.Entry) (h : ∀ c ∈ e.cmts, c.take 2 ≠ b!"#,") : ¬ Fuzzy e := by
  rintro ⟨a, c, b, h1, ⟨x, y, rfl, -⟩, -⟩
  exact h _ (by rw [h1]; exact List.mem_append_right _ (List.mem_cons_self ..)) rfl

/-- The compiled file, most significant bytes first. -/
def gnuMo : Str := Tr.moImage true [] [(b!"", b!"Language: fr\nPlural-Forms: nplurals=2; plural=n > 1;\n"), (b!"a", b!"y"),
  (b!"one\x00many", b!"un\x00des")]

theorem gnuMo_compiled : Compiled gnuEntries gnuMo := by
  have hk : ∀ e ∈ gnuEntries, Kept e := by
    intro e he
    simp only [gnuEntries, List.mem_cons, List.not_mem_nil, or_false] at he
    rcases he with rfl | rfl | rfl <;> exact ⟨⟨_, _, rfl, by decide⟩, .inl (not_fuzzy_of _ (by decide))⟩
  refine ⟨true, [((b!"", b!"Language: fr\nPlural-Forms: nplurals=2; plural=n > 1;\n"), gnuEntries[0]), ((b!"a", b!"y"), gnuEntries[1]),
    ((b!"one\x00many", b!"un\x00des"), gnuEntries[2])], Tr.moImage_file true [] _ (by decide +kernel), ?_, ?_⟩
  · intro e
    exact ⟨fun h => ⟨h, hk e h⟩, fun h => h.1⟩
  · intro x hx
    simp only [List.mem_cons, List.not_mem_nil, or_false] at hx
    rcases hx with rfl | rfl | rfl <;> exact (Tr.moMsg_iff _ _ _).2 (by decide +kernel)

/-- With the compiled file in use the messages of the templates come out translated. -/
example (c : W.Cfg α) (w : W.World α) (h : W.Reach c w) (i : Nat) (hi : i < w.tss.length) (hfmt : ∀ s, Fmt.format c.fmt s [] = s) :
    let w' := ((w.bindFS c i b!"app" (some (W.Node.dir b!"." true [.file b!"fr.mo" (some ⟨some b!"fr.mo", some gnuMo⟩)]))).setDomain i
      b!"app").setLocale c i b!"fr" []
    w'.x c i [] b!"a" [] = .ok b!"y" ∧ w'.xn64 c i [] b!"one" b!"many" 3 [] = .ok b!"des" := by
  intro w'
  obtain ⟨d', hrun⟩ := gnu_run
  obtain ⟨es, text, header, ms, hp, -, -, hms, ha⟩ := gnu_pot d' hrun
  have hu := W.inUseMo_usual c gnuMo b!"fr" b!"fr.mo" ⟨b!"fr", rfl⟩ w h i hi b!"app" b!"fr" [] (by decide) rfl
  have hno : ∀ e ∈ es, ¬ Xt.Conflicts es e := by
    rintro e he ⟨f, hf, hd⟩
    obtain ⟨hmem, -, hi⟩ := Xt.firstOf_some _ _ _ _ hf
    have : ∀ e ∈ Flow.flowEntries, ∀ f ∈ Flow.flowEntries, f.id = e.id → f.isPlural = e.isPlural := by decide
    exact hd (this e (hp.subset he) f (hp.subset hmem) hi)
  have key := C129_compiled es header ms hms c gnuPo gnuMo gnuMsgs gnuPo_reads (by decide +kernel) _ _ gnuMsgs_for ha (by decide)
    (by decide) gnuEntries gnuPo_text (by
      intro e he _
      simp only [gnuEntries, List.mem_cons, List.not_mem_nil, or_false] at he
      rcases he with rfl | rfl | rfl <;> exact not_fuzzy_of _ (by decide)) gnuMo_compiled w' i hu
  refine ⟨?_, ?_⟩
  · have he := hp.symm.subset (show ({ cmts := [b!"#: a.html:1"], id := b!"a" } : Tr.Entry) ∈ Flow.flowEntries by decide)
    obtain ⟨t, ht, -, hid, h1, -⟩ := key _ he (by decide) (by decide) (hno _ he)
    have : ∀ t ∈ gnuMsgs, t.id = b!"a" → t.forms = [b!"y"] := by decide
    obtain ⟨s, hs, -, h2⟩ := h1 rfl
    rw [this t ht hid] at hs
    cases hs
    exact (h2 []).trans (by rw [hfmt])
  · have he := hp.symm.subset (show ({ cmts := [b!"#: a.html:2"], id := b!"one", isPlural := true, id2 := b!"many" } : Tr.Entry) ∈
      Flow.flowEntries by decide)
    obtain ⟨t, ht, -, hid, -, h2⟩ := key _ he (by decide) (by decide) (hno _ he)
    have : ∀ t ∈ gnuMsgs, t.id = b!"one" → t.forms = [b!"un", b!"des"] := by decide
    have h3 := h2 rfl b!"many" 3 [] 1 b!"des" ⟨50, b!"n > 1", 1, ⟨[], [], [], [], [32], [], [], [], by simp [Tr.Ws],
      by simp [Tr.Ws], by simp [Tr.Ws], by simp [Tr.Ws], by simp [Tr.Ws], by simp [Tr.Ws], by simp [Tr.Ws], by simp [Tr.Ws], by decide,
      by decide, by decide, by simp, by simp [Tr.Ws], rfl⟩, rfl, rfl, by decide⟩ (by rw [this t ht hid]; rfl)
    exact h3.trans (by rw [hfmt])

/-- A file with a message twice and one untranslated: the last one counts, and the source text is shown. -/
example (c : W.Cfg α) (w : W.World α) (h : W.Reach c w) (i : Nat) (hi : i < w.tss.length) (hfmt : ∀ s, Fmt.format c.fmt s [] = s) :
    let mo := Tr.moImage false [] [(b!"a", b!"x"), (b!"", b!"Language: fr\n"), (b!"b", b!""), (b!"a", b!"y")]
    let w' := ((w.bindFS c i b!"app" (some (W.Node.dir b!"." true [.file b!"fr.mo" (some ⟨some b!"fr.mo", some mo⟩)]))).setDomain i
      b!"app").setLocale c i b!"fr" []
    w'.x c i [] b!"a" [] = .ok b!"y" ∧ w'.x c i [] b!"b" [] = .ok b!"b" := by
  intro mo w'
  have hu := W.inUseMo_usual c mo b!"fr" b!"fr.mo" ⟨b!"fr", rfl⟩ w h i hi b!"app" b!"fr" [] (by decide) rfl
  have hm : W.MoHas mo [{ id := b!"a", str := b!"x" }, { str := b!"Language: fr\n" }, { id := b!"b" }, { id := b!"a", str := b!"y" }] :=
    ⟨false, _, Tr.moImage_file false [] _ (by decide +kernel), .cons ((Tr.moMsg_iff _ _ _).2 (by decide +kernel)) (.cons
      ((Tr.moMsg_iff _ _ _).2 (by decide +kernel)) (.cons ((Tr.moMsg_iff _ _ _).2 (by decide +kernel)) (.cons
      ((Tr.moMsg_iff _ _ _).2 (by decide +kernel)) .nil)))⟩
  have hf : W.MoFor [{ id := b!"a", str := b!"x" }, { str := b!"Language: fr\n" }, { id := b!"b" }, { id := b!"a", str := b!"y" }] b!"fr" [] :=
    ⟨⟨_, rfl, rfl, (Tr.C15_first_wins _ _ _).mp (by decide +kernel), .inr ⟨rfl, fun v hv => by
      have := (Tr.C15_first_wins _ _ _).mpr hv
      rw [show (Tr.parseHeaders b!"Language: fr\n").get? b!"Plural-Forms" = none by decide +kernel] at this
      cases this⟩⟩, by decide⟩
  have key := W.C129_mo c mo _ hm b!"fr" [] hf w' i hu
  constructor
  · exact (((key [] b!"a" (by decide)).1 { id := b!"a", str := b!"y" } (by decide)).translated [] (by decide)).trans (by rw [hfmt])
  · exact (((key [] b!"b" (by decide)).1 { id := b!"b" } (by decide)).untranslated [] rfl).trans (by rw [hfmt])

end Verif.GnuFlow
