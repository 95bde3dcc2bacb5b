import Verif.Spec.Workflow
import Verif.Props.C66
/-! # C80: any PO text is shown as the PO grammar reads it -/
namespace Verif.W
open Verif Verif.Tr
variable {α : Type}

theorem shown_of (c : Cfg α) (g : Tr.File) (forms : Str) (ctxt id : Str) (e : Entry) (hid : e.id = id)
    (hg : g.entries.get? (key ctxt id) = some e) (hpl : g.initPlural.plural = some (parsePlural forms)) :
    ShownAs c forms e ((fileTor c g).x ctxt id) ((fileTor c g).xn ctxt id) := by
  subst hid
  have hx : ∀ args, (fileTor c g).x ctxt e.id args =
      .ok (if e.str = [] then Fmt.format c.fmt e.id args else Fmt.format c.fmt e.str args) := by
    intro args
    simp only [fileTor, File.x, hg]
  have hp : e.id2 ≠ [] ∨ e.strN ≠ [] → ∀ id2 n args, (fileTor c g).xn ctxt e.id id2 n args =
      chooseForm c.fmt c.diag (parsePlural forms) e e.id id2 n args := by
    intro h id2 n args
    have hno : ¬ (e.id2 = [] ∧ e.strN.length = 0) := by
      rintro ⟨a, b⟩
      rcases h with h | h
      · exact h a
      · exact h (List.length_eq_zero_iff.mp b)
    simp only [fileTor, File.xn, hg, if_neg hno, hpl, Option.getD_some]
  refine ⟨?_, ?_, ?_, ?_, ?_, ?_⟩
  · intro args h; rw [hx, if_neg h]
  · intro args h; rw [hx, if_pos h]
  · intro id2 n args h1 h2
    have hyes : e.id2 = [] ∧ e.strN.length = 0 := ⟨h1, by rw [h2]; rfl⟩
    simp only [fileTor, File.xn, hg, if_pos hyes]
    by_cases hs : e.str = [] <;> simp [hs]
  · intro id2 n args i s h hs hi hne
    rw [hp h]
    exact (chooseForm_spec c.fmt c.diag forms e e.id id2 n args).1 i s hs hi hne
  · intro id2 n args h hs
    rw [hp h]
    exact (chooseForm_spec c.fmt c.diag forms e e.id id2 n args).2.1 hs
  · intro id2 n args h h1 h2
    rw [hp h]
    exact (chooseForm_spec c.fmt c.diag forms e e.id id2 n args).2.2 h1 h2

/-- Reading a PO text. -/
theorem text_loaded (c : Cfg α) (po : Str) (hne : po ≠ []) (ts : List Entry) (hpo : PoText po ts) (language forms : Str)
    (hf : PoFor ts language forms) :
    ∃ g, readPo po = .ok g ∧ (fileTor c g).lang = language ∧ ShowsText c ts forms (fileTor c g).x (fileTor c g).xn := by
  have hread : readPo po = .ok ((ts.filter fun e => Translated e).foldl File.addEntry {}) :=
    (C26_ok_iff po _).mpr ⟨hne, ts, hpo, rfl⟩
  obtain ⟨h, hfind, hctxt, hlang, hforms⟩ := hf.header
  have hdr : ∀ k v, ((ts.filter fun e => Translated e).foldl File.addEntry {}).heads.get? k = some v ↔ HeaderField h.str k v := by
    intro k v
    rw [← getHeader_eq, read_headers _ k v, hfind]
    constructor
    · rintro ⟨e, he, _, hv⟩
      simp only [Option.some.injEq] at he
      subst he; exact hv
    · intro hv
      exact ⟨h, rfl, hctxt, hv⟩
  have hrule := initPlural_ruleOk _ (foldl_ruleOk (ts.filter fun e => Translated e) {} (.inl rfl))
  have hfo : (((ts.filter fun e => Translated e).foldl File.addEntry {}).heads.get? hPluralForms).getD [] = forms := by
    rcases hforms with hv | ⟨rfl, hno⟩
    · rw [(hdr hPluralForms forms).mpr hv]; rfl
    · cases hg : ((ts.filter fun e => Translated e).foldl File.addEntry {}).heads.get? hPluralForms with
      | none => rfl
      | some v => exact absurd ((hdr _ _).mp hg) (hno v)
  rw [hfo] at hrule
  refine ⟨_, hread, ?_, ?_⟩
  · simp only [fileTor, File.lang]
    rw [getHeader_eq, (hdr hLanguage language).mpr hlang]
    rfl
  · intro ctxt id hc
    have hg := C25_last_translated po _ ts hread hpo hf.noEot ctxt id hc
    constructor
    · intro e he
      rw [answer] at he
      rw [he] at hg
      refine shown_of c _ forms ctxt id e ?_ hg hrule
      unfold Tr.lastFor at he
      have hm := List.mem_of_mem_getLast? he
      simp only [List.mem_filter, decide_eq_true_eq] at hm
      exact hm.2.2
    · intro he
      rw [answer] at he
      rw [he] at hg
      constructor
      · intro args; simp only [fileTor, File.x, hg]
      · intro id2 n args; simp only [fileTor, File.xn, hg]

/-- **C80** While a PO text is in use, every lookup shows what the text, read by the PO grammar, answers:
whatever wrote it, and however its lines are broken. -/
theorem C80_text (c : Cfg α) (po : Str) (ts : List Entry) (hpo : PoText po ts) (language forms : Str)
    (hf : PoFor ts language forms) (w' : World α) (i : Nat) (hu : InUse c po language w' i) :
    ShowsText c ts forms (w'.x c i) (w'.xn64 c i) := by
  obtain ⟨w, d, fsys, pre, post, name, ops, h, hi, hname, hfs, hlast, r, hl, hd, hloc⟩ := hu
  have hne : po ≠ [] := by
    rintro rfl
    have : ts = [{}] := text_unique _ _ _ hpo (by
      exact ⟨[], [], .nil, rfl⟩)
    subst this
    obtain ⟨h, hh, -⟩ := hf.header
    simp [Translated] at hh
  obtain ⟨g, hread, hlang, hshow⟩ := text_loaded c po hne ts hpo language forms hf
  have hct : contentTor c ⟨some name, some po⟩ = some (some (fileTor c g)) := by
    unfold contentTor
    simp only [if_pos hname, hread]
    rw [if_neg]
    intro hx
    exact hf.named (hlang.symm.trans hx)
  have hprov : Provides c b!".po" (c.norm language) (name, some ⟨some name, some po⟩) (fileTor c g) :=
    ⟨hname, ⟨_, rfl, hct⟩, by rw [hlang]; exact hf.named, by rw [hlang]⟩
  have hload : Loads c fsys := ⟨(name, some ⟨some name, some po⟩), by rw [hfs]; simp, .inl hname, _, rfl, by rw [hct]; rfl⟩
  have ha : Answers c w' i (fileTor c g) := by
    refine served c w w' h i hi d fsys hload (c.norm language) _ ?_ ops r hl hd hloc
    unfold bound
    exact (C40_po_wins c _ fsys _ _).mpr (.inl ⟨pre, _, post, hfs, hprov, hlast⟩)
  have h1 : (w'.x c i) = (fileTor c g).x := by funext a b args; exact ha.1 a b args
  have h2 : (w'.xn64 c i) = (fileTor c g).xn := by funext a b e n args; exact ha.2 a b e n args
  rw [h1, h2]; exact hshow

/-- The usual way to use a PO text: bind a tree with it, choose the domain and the locale. -/
theorem inUse_usual (c : Cfg α) (po language name : Str) (hname : b!".po" <:+ name) (w : World α) (h : Reach c w) (i : Nat)
    (hi : i < w.tss.length) (d lang dflt : Str) (hne : lang ≠ []) (hn : c.norm lang = c.norm language) :
    InUse c po language (((w.bindFS c i d (some (Node.dir b!"." true [.file name (some ⟨some name, some po⟩)]))).setDomain i d).setLocale
      c i lang dflt) i := by
  generalize hfs : some (Node.dir b!"." true [.file name (some ⟨some name, some po⟩)]) = fsys
  have hi1 : i < (w.bindFS c i d fsys).tss.length := by rw [bindFS_tss]; exact hi
  have hi2 : i < ((w.bindFS c i d fsys).setDomain i d).tss.length := by
    simpa [World.setDomain, World.setTs] using hi1
  have hv := view_setLocale_self c ((w.bindFS c i d fsys).setDomain i d) i hi2 lang dflt
  have hv1 := view_setDomain_self (w.bindFS c i d fsys) i hi1 d
  refine ⟨w, d, fsys, [], [], name, [.setDomain i d, .setLocale i lang dflt], h, hi, hname, ?_, by simp,
    Run.cons _ _ _ _ hi1 (Run.cons _ _ _ _ hi2 (Run.nil _)), ?_, ?_, ?_⟩
  · subst hfs; simp [filesFrom, filesOf, filesOfList]
  · intro o ho
    simp only [List.mem_cons, List.not_mem_nil, or_false] at ho
    rcases ho with rfl | rfl <;> simp [Leaves, Op.changes]
  · exact (congrArg View.domain hv).trans (congrArg View.domain hv1)
  · refine (congrArg View.locale hv).trans ?_
    simp only [chosen, if_neg hne, hn]

/-! ## Examples -/

/-- A PO text no writer of this package makes: the header is broken over lines, one line end is CRLF, a
message is translated twice, another one not at all. -/
def exPo : Str := b!"msgid \"\"\r\nmsgstr \"\"\n\"Language: fr\\n\"\n\"Plural-Forms: nplurals=2; plural=n > 1;\\n\"\n# note\nmsgid \"a\"\nmsgstr \"x\"\nmsgid \"a\"\nmsgstr \t \"y\"\nmsgid \"b\"\nmsgstr \"\"\n\nmsgid \"one\"\nmsgid_plural \"many\"\nmsgstr[0] \"un\"\nmsgstr[1] \"des\""

/-- Its entries. -/
def exPoEntries : List Entry :=
  [{ str := b!"Language: fr\nPlural-Forms: nplurals=2; plural=n > 1;\n" },
   { cmts := [b!"# note"], id := b!"a", str := b!"x" },
   { id := b!"a", str := b!"y" },
   { id := b!"b" },
   { id := b!"one", isPlural := true, id2 := b!"many", strN := [b!"un", b!"des"] }]

theorem exPo_text : PoText exPo exPoEntries := by
  refine ⟨[[.field .id [], .field .str [], .more b!"Language: fr\n", .more b!"Plural-Forms: nplurals=2; plural=n > 1;\n"],
    [.comment b!"# note", .field .id b!"a", .field .str b!"x"], [.field .id b!"a", .field .str b!"y"],
    [.field .id b!"b", .field .str []]],
    [.field .id b!"one", .field .id2 b!"many", .field .form b!"un", .field .form b!"des"], ?_, by decide⟩
  have hl : meaningfulLines exPo = [b!"msgid \"\"", b!"msgstr \"\"", b!"\"Language: fr\\n\"",
      b!"\"Plural-Forms: nplurals=2; plural=n > 1;\\n\"", b!"# note", b!"msgid \"a\"", b!"msgstr \"x\"", b!"msgid \"a\"",
      b!"msgstr \t \"y\"", b!"msgid \"b\"", b!"msgstr \"\"", b!"msgid \"one\"",
      b!"msgid_plural \"many\"", b!"msgstr[0] \"un\"", b!"msgstr[1] \"des\""] := by decide +kernel
  rw [hl]
  have i (n : Nat) (f : Field) (q d : Str) (h : Quote.unquote (GoStr.trimSpace q) = some d) :
    IsItem n (f.word n ++ 32 :: q) (.field f d) := .field f q d h
  have p1 := Parse.same .nil (i 0 .id b!"\"\"" [] (by decide)) (by simp [Starts, lastField])
  have p2 := Parse.same p1 (i 0 .str b!"\"\"" [] (by decide)) (by simp [Starts, lastField])
  have p3 := Parse.same p2 (.more b!"Language: fr\\n\"" b!"Language: fr\n" (by unfold Quotes; decide)) (by simp [Starts, lastField])
  have p4 := Parse.same p3 (.more b!"Plural-Forms: nplurals=2; plural=n > 1;\\n\"" b!"Plural-Forms: nplurals=2; plural=n > 1;\n"
    (by unfold Quotes; decide +kernel)) (by simp [Starts, lastField])
  have p5 := Parse.next p4 (.comment b!" note") (by simp [Starts, lastField])
  have p6 := Parse.same p5 (i 0 .id b!"\"a\"" b!"a" (by decide)) (by simp [Starts, lastField])
  have p7 := Parse.same p6 (i 0 .str b!"\"x\"" b!"x" (by decide)) (by simp [Starts, lastField])
  have p8 := Parse.next p7 (i 0 .id b!"\"a\"" b!"a" (by decide)) (by simp [Starts, lastField])
  have p9 := Parse.same p8 (i 0 .str b!"\t \"y\"" b!"y" (by decide)) (by simp [Starts, lastField])
  have p10 := Parse.next p9 (i 0 .id b!"\"b\"" b!"b" (by decide)) (by simp [Starts, lastField])
  have p11 := Parse.same p10 (i 0 .str b!"\"\"" [] (by decide)) (by simp [Starts, lastField])
  have p12 := Parse.next p11 (i 0 .id b!"\"one\"" b!"one" (by decide)) (by simp [Starts, lastField])
  have p13 := Parse.same p12 (i 0 .id2 b!"\"many\"" b!"many" (by decide)) (by simp [Starts, lastField])
  have p14 := Parse.same p13 (i 0 .form b!"\"un\"" b!"un" (by decide)) (by simp [Starts, lastField])
  have p15 := Parse.same p14 (i 1 .form b!"\"des\"" b!"des" (by decide)) (by simp [Starts, lastField])
  exact p15

theorem exPo_for : PoFor exPoEntries b!"fr" b!"nplurals=2; plural=n > 1;" := by
  refine ⟨by decide, ⟨_, rfl, rfl, ?_, .inl ?_⟩, by decide⟩
  · exact (C15_first_wins _ _ _).mp (by decide +kernel)
  · exact (C15_first_wins _ _ _).mp (by decide +kernel)

/-- The text in use: the later translation, the form for the number, and the source text for the message
that is not translated. -/
example (c : Cfg α) (w : World α) (h : Reach c w) (i : Nat) (hi : i < w.tss.length) (hfmt : ∀ s, Fmt.format c.fmt s [] = s) :
    let w' := ((w.bindFS c i b!"app" (some (Node.dir b!"." true [.file b!"fr.po" (some ⟨some b!"fr.po", some exPo⟩)]))).setDomain i
      b!"app").setLocale c i b!"fr" []
    w'.t c i b!"a" [] = .ok b!"y" ∧ w'.xn64 c i [] b!"one" b!"many" 3 [] = .ok b!"des" ∧ w'.t c i b!"b" [] = .ok b!"b" := by
  intro w'
  have hs := C80_text c exPo _ exPo_text _ _ exPo_for w' i
    (inUse_usual c exPo b!"fr" b!"fr.po" ⟨b!"fr", rfl⟩ w h i hi b!"app" b!"fr" [] (by decide) rfl)
  refine ⟨?_, ?_, ?_⟩
  · exact (((hs [] b!"a" (by simp)).1 { id := b!"a", str := b!"y" } (by decide)).translated [] (by decide)).trans (by rw [hfmt])
  · refine (((hs [] b!"one" (by simp)).1 { id := b!"one", isPlural := true, id2 := b!"many", strN := [b!"un", b!"des"] }
      (by decide)).form b!"many" 3 [] 1 b!"des" (.inr (by decide)) ?_ rfl (by decide)).trans (by rw [hfmt])
    refine ⟨50, b!"n > 1", 1, ?_, ?_, rfl, by decide⟩
    · exact ⟨[], [], [], [], [32], [], [], [], by simp [Ws], by simp [Ws], by simp [Ws], by simp [Ws], by simp [Ws], by simp [Ws],
        by simp [Ws], by simp [Ws], by decide, by decide, by decide, by simp, by simp [Ws], rfl⟩
    · rfl
  · exact (((hs [] b!"b" (by simp)).2 (by decide)).1 []).trans (by rw [hfmt])

end Verif.W
