import Verif.Props.C87
import Verif.Props.C40_C44
import Verif.Props.WorldExamples
import Verif.Props.C14
/-! # C88: where answers come from, and which messages make a lookup panic -/
namespace Verif.W
open Verif Verif.Tr
variable {α : Type}

/-- The program itself hands over this translator. -/
def Given (o : Op α) (t : Tor α) : Prop :=
  (∃ d tors, o = .newTranslation d tors ∧ t ∈ tors) ∨ ∃ p, o = .addOrReplace p t

/-- The call loads a tree with a PO or MO file whose content reads as these messages. -/
def Reads (o : Op α) (f : File) : Prop :=
  ∃ fsys path name content, ((∃ i d, o = .bindFS i d fsys) ∨ ∃ p, o = .loadFS p fsys) ∧
    (path, some { stat := some name, content := some content }) ∈ filesFrom fsys ∧
    (b!".po" <:+ path ∨ b!".mo" <:+ path) ∧
    (b!".po" <:+ name ∧ readPo content = .ok f ∨ b!".mo" <:+ name ∧ readMo content = .ok f)

/-- The translator was handed over in one of these calls, or is a file read in one of them. -/
def From (c : Cfg α) (ops : List (Op α)) (t : Tor α) : Prop :=
  ∃ o ∈ ops, Given o t ∨ ∃ f, Reads o f ∧ f.lang.1 ≠ [] ∧ t = fileTor c f

/-- The messages need one more plural form than there are, for this number: there is an entry for the
message with a plural id or forms, and the form selected is the one just behind the last. -/
def Missing (dg : Plural.Diag) (f : File) (ctxt id : Str) (n : Int64) : Prop :=
  ∃ e ∈ f.entries.vals, key e.ctxt e.id = key ctxt id ∧ (e.id2 ≠ [] ∨ e.strN ≠ []) ∧
    SelectsForm dg ((f.getHeader b!"Plural-Forms").1.getD []) n e.strN.length

/-- Every entry with a plural id or forms has as many forms as the header announces. -/
def EnoughForms (f : File) : Prop :=
  ∀ d ex, PluralForms ((f.getHeader b!"Plural-Forms").1.getD []) d ex →
    ∀ e ∈ f.entries.vals, e.id2 ≠ [] ∨ e.strN ≠ [] → digitNum d ≤ e.strN.length

theorem addAll_from (c : Cfg α) (tr : Translation α) (tors : List (Tor α)) (k : Str) (t : Tor α)
    (h : (addAll c tr tors).langs.get? k = some t) : (t ∈ tors ∧ t.lang ≠ []) ∨ tr.langs.get? k = some t := by
  rw [addAll_get, Option.or_eq_some_iff] at h
  rcases h with h | ⟨-, h⟩
  · unfold lastFor at h
    have := List.mem_of_getLast? h
    rw [List.mem_filter] at this
    exact .inl ⟨this.1, (decide_eq_true_iff.mp this.2).1⟩
  · exact .inr h

theorem contentTor_from (c : Cfg α) (o : Opened) (t : Tor α) (h : contentTor c o = some (some t)) :
    ∃ name content f, o = { stat := some name, content := some content } ∧ f.lang.1 ≠ [] ∧ t = fileTor c f ∧
      (b!".po" <:+ name ∧ readPo content = .ok f ∨ b!".mo" <:+ name ∧ readMo content = .ok f) := by
  obtain ⟨st, co⟩ := o
  unfold contentTor at h
  cases st with
  | none => simp at h
  | some name =>
    cases co with
    | none => simp at h
    | some content =>
      refine ⟨name, content, ?_⟩
      dsimp only at h
      by_cases hp : b!".po" <:+ name
      · rw [if_pos hp] at h
        cases hr : readPo content with
        | ok f =>
          rw [hr] at h
          by_cases hl : f.lang.1 = []
          · simp [hl] at h
          · simp only [hl, if_false, Option.some.injEq] at h
            exact ⟨f, rfl, hl, h.symm, .inl ⟨hp, rfl⟩⟩
        | err => rw [hr] at h; cases h
        | panic => rw [hr] at h; cases h
      · rw [if_neg hp] at h
        by_cases hm : b!".mo" <:+ name
        · rw [if_pos hm] at h
          cases hr : readMo content with
          | ok f =>
            rw [hr] at h
            by_cases hl : f.lang.1 = []
            · simp [hl] at h
            · simp only [hl, if_false, Option.some.injEq] at h
              exact ⟨f, rfl, hl, h.symm, .inr ⟨hm, rfl⟩⟩
          | err => rw [hr] at h; cases h
          | panic => rw [hr] at h; cases h
        · rw [if_neg hm] at h
          simp at h

theorem loadFS_from (c : Cfg α) (tr : Translation α) (fsys : Option Node) (o : Op α)
    (ho : (∃ i d, o = .bindFS i d fsys) ∨ ∃ p, o = .loadFS p fsys) (k : Str) (t : Tor α)
    (h : (tr.loadFS c fsys).2.langs.get? k = some t) :
    (∃ f, Reads o f ∧ f.lang.1 ≠ [] ∧ t = fileTor c f) ∨ tr.langs.get? k = some t := by
  rw [loadFS_eq] at h
  rcases addAll_from c tr _ k t h with ⟨hm, -⟩ | h
  · left
    have key : ∀ ext, (ext = b!".po" ∨ ext = b!".mo") → t ∈ torsOf c ext fsys →
        ∃ f, Reads o f ∧ f.lang.1 ≠ [] ∧ t = fileTor c f := by
      intro ext hext ht
      obtain ⟨path, op, hp, hs, hc⟩ := (mem_torsOf c ext fsys t).mp ht
      obtain ⟨name, content, f, rfl, hl, rfl, hr⟩ := contentTor_from c op t hc
      refine ⟨f, ⟨fsys, path, name, content, ho, hp, ?_, hr⟩, hl, rfl⟩
      rcases hext with rfl | rfl
      · exact .inl hs
      · exact .inr hs
    rcases List.mem_append.mp hm with hm | hm
    · exact key _ (.inr rfl) hm
    · exact key _ (.inl rfl) hm
  · exact .inr h

theorem exec_from (c : Cfg α) (w : World α) (hw : WF w) (ops : List (Op α))
    (h : ∀ p k t, (w.tr p).langs.get? k = some t → From c ops t) (o : Op α) (p : Nat) (k : Str) (t : Tor α)
    (hg : ((o.exec c w).tr p).langs.get? k = some t) : From c (ops ++ [o]) t := by
  have old : ∀ t, From c ops t → From c (ops ++ [o]) t := by
    rintro t ⟨o', ho', h'⟩
    exact ⟨o', List.mem_append_left _ ho', h'⟩
  have new : ∀ t, (Given o t ∨ ∃ f, Reads o f ∧ f.lang.1 ≠ [] ∧ t = fileTor c f) → From c (ops ++ [o]) t := by
    intro t h'
    exact ⟨o, by simp, h'⟩
  let Q : Translation α → Prop := fun tr => ∀ k t, tr.langs.get? k = some t → From c (ops ++ [o]) t
  have hQ : ∀ p, Q (w.tr p) := fun p k t hg => old t (h p k t hg)
  have snoc : ∀ t : Translation α, Q t → ∀ l, l = w.trs ++ [t] → Q (l.getD p { domain := [], langs := [] }) := by
    rintro t ht l rfl
    rw [getD_snoc_or]
    split
    · exact ht
    · exact hQ p
  have set : ∀ q, ∀ t : Translation α, Q t → Q ((w.trs.set q t).getD p { domain := [], langs := [] }) := by
    intro q t ht
    rw [getD_set]
    split
    · exact ht
    · exact hQ p
  have frame : (o.exec c w).trs = w.trs → Q ((o.exec c w).tr p) := by
    intro e; unfold World.tr; rw [e]; exact hQ p
  refine (?_ : Q ((o.exec c w).tr p)) k t hg
  cases o with
  | newTranslation domain tors =>
    refine snoc _ ?_ _ rfl
    intro k t hg
    rcases addAll_from c _ tors k t hg with ⟨hm, -⟩ | h
    · exact new t (.inl (.inl ⟨domain, tors, rfl, hm⟩))
    · simp [GMap.get?] at h
  | withContext ctx dflt => exact frame (withContext_facts c w hw ctx dflt).trs
  | bindFS i domain fsys =>
    refine snoc _ ?_ _ (bindFS_trs c w i domain fsys)
    intro k t hg
    rcases loadFS_from c _ fsys (.bindFS i domain fsys) (.inl ⟨i, domain, rfl⟩) k t hg with h | h
    · exact new t (.inr h)
    · simp [newTranslation, GMap.get?] at h
  | removeDomain i domain => exact frame (removeDomain_frame w i domain).1
  | addOrReplace q tor =>
    refine set q _ ?_
    intro k t hg
    rcases addAll_from c _ [tor] k t hg with ⟨hm, -⟩ | h
    · rw [List.mem_singleton] at hm
      subst hm
      exact new t (.inl (.inr ⟨q, rfl⟩))
    · exact hQ q k t h
  | loadFS q fsys =>
    refine set q _ ?_
    intro k t hg
    rcases loadFS_from c _ fsys (.loadFS q fsys) (.inr ⟨q, rfl⟩) k t hg with h | h
    · exact new t (.inr h)
    · exact hQ q k t h
  | _ => exact frame rfl

theorem run_from (c : Cfg α) (w w' : World α) (ops0 ops : List (Op α)) (hr : Reach c w)
    (h : ∀ p k t, (w.tr p).langs.get? k = some t → From c ops0 t) (r : Run c w ops w') :
    ∀ p k t, (w'.tr p).langs.get? k = some t → From c (ops0 ++ ops) t := by
  induction r generalizing ops0 with
  | nil w => simpa using h
  | cons w o os w' hv r ih =>
    have := ih (ops0 ++ [o]) (.step w o hr hv) (exec_from c w (reach_wf c w hr) ops0 h o)
    simpa using this

/-- **C88** Whatever a program does, each of its values answers with the source texts, or with one
translator: one the program handed over, or a PO or MO file in a tree it loaded, for the current
locale. -/
theorem C88_provenance (c : Cfg α) (dflt : Str) (ops : List (Op α)) (w : World α)
    (r : Run c (World.init c dflt) ops w) (i : Nat) :
    SourceText c w i ∨ ∃ t, Answers c w i t ∧ From c ops t ∧ c.norm t.lang = w.locale i := by
  have hr : Reach c w := run_reach c _ ops w (.init dflt) r
  have h0 : ∀ p k t, ((World.init c dflt).tr p).langs.get? k = some t → From c [] t := by
    intro p k t hg
    have : ((World.init c dflt).tr p).langs = [] := by
      cases p with
      | zero => rfl
      | succ p => rfl
    rw [this] at hg
    simp [GMap.get?] at hg
  have inv := run_from c _ w [] ops (.init dflt) h0 r
  cases hg : (w.tr (w.getOrNoop i (w.domain i))).get (w.locale i) with
  | none => exact .inl (source_of c w i _ rfl hg)
  | some t =>
    refine .inr ⟨t, ⟨fun ctxt id args => ?_, fun ctxt id id2 n args => ?_⟩, inv _ _ t hg,
      (filed_reach c w hr _ _ t hg).2⟩
    all_goals
      have hg : (w.tr (w.getOrNoop i (w.ts i).domain)).langs.get? (w.ts i).locale = some t := hg
      simp only [World.x, World.xn64, Translation.getOrNoop, hg]

/-- A lookup in a file panics exactly if the form just behind the last is selected. -/
theorem file_panic_iff (c : Cfg α) (es : List Entry) (ctxt id id2 : Str) (n : Int64) (args : List α) :
    (fileTor c (es.foldl File.addEntry {})).xn ctxt id id2 n args = .panic ↔
      Missing c.diag (es.foldl File.addEntry {}) ctxt id n := by
  have hcon := foldl_consistent es
  have hrule := initPlural_ruleOk _ (foldl_ruleOk es {} (.inl rfl))
  generalize es.foldl File.addEntry {} = f at hcon hrule
  have hv : (f.getHeader b!"Plural-Forms").1.getD [] = (f.heads.get? hPluralForms).getD [] := by
    rw [getHeader_eq]; rfl
  have hmem : ∀ e, e ∈ f.entries.vals ∧ key e.ctxt e.id = key ctxt id ↔ f.entries.get? (key ctxt id) = some e := by
    intro e
    rw [GMap.get?_iff _ hcon.1]
    constructor
    · rintro ⟨h, hk⟩
      obtain ⟨p, hp, rfl⟩ := List.mem_map.mp h
      rw [← hk]
      have := hcon.2 p hp
      rw [show p = (key p.2.ctxt p.2.id, p.2) from Prod.ext this rfl] at hp
      exact hp
    · intro h
      exact ⟨List.mem_map.mpr ⟨_, h, rfl⟩, (hcon.2 _ h).symm⟩
  have hM : Missing c.diag f ctxt id n ↔ ∃ e, f.entries.get? (key ctxt id) = some e ∧ (e.id2 ≠ [] ∨ e.strN ≠ []) ∧
      SelectsForm c.diag ((f.heads.get? hPluralForms).getD []) n e.strN.length := by
    unfold Missing
    rw [hv]
    constructor
    · rintro ⟨e, h1, h2, h3⟩; exact ⟨e, (hmem e).mp ⟨h1, h2⟩, h3⟩
    · rintro ⟨e, h1, h3⟩; exact ⟨e, ((hmem e).mpr h1).1, ((hmem e).mpr h1).2, h3⟩
  rw [hM]
  show (f.xn c.fmt c.diag ctxt id id2 n args).1 = .panic ↔ _
  unfold File.xn
  cases hg : f.entries.get? (key ctxt id) with
  | none => simp
  | some e =>
    by_cases hpl : e.id2 = [] ∧ e.strN.length = 0
    · simp only [if_pos hpl, reduceCtorEq, Option.some.injEq, exists_eq_left', false_iff]
      rintro ⟨h, -⟩
      rcases h with h | h
      · exact h hpl.1
      · exact h (List.length_eq_zero_iff.mp hpl.2)
    · simp only [if_neg hpl, Option.some.injEq, exists_eq_left', hrule, Option.getD_some]
      have hpl' : e.id2 ≠ [] ∨ e.strN ≠ [] := by
        by_cases h : e.id2 = []
        · exact .inr fun h' => hpl ⟨h, by rw [h']; rfl⟩
        · exact .inl h
      obtain ⟨a, b, d⟩ := chooseForm_spec c.fmt c.diag ((f.heads.get? hPluralForms).getD []) e id id2 n args
      constructor
      · intro hp
        refine ⟨hpl', ?_⟩
        by_contra hno
        by_cases hex : ∃ i s, SelectsForm c.diag ((f.heads.get? hPluralForms).getD []) n i ∧ e.strN[i]? = some s ∧ s ≠ []
        · obtain ⟨i, s, x, y, z⟩ := hex
          rw [a i s x y z] at hp; cases hp
        · rw [d (fun i s x y => by_contra fun z => hex ⟨i, s, x, y, z⟩) hno] at hp; cases hp
      · rintro ⟨-, h⟩
        exact b h

theorem reads_foldl (o : Op α) (f : File) (h : Reads o f) : ∃ es : List Entry, f = es.foldl File.addEntry {} := by
  obtain ⟨_, _, _, content, _, _, _, ⟨_, h⟩ | ⟨_, h⟩⟩ := h
  · obtain ⟨_, es, _, rfl⟩ := (C26_ok_iff content f).mp h
    exact ⟨_, rfl⟩
  · obtain ⟨be, ps, -, rfl⟩ := (readMo_iff content f).mp h
    exact ⟨_, rfl⟩

/-- **C88** A singular lookup panics only if a translator the program handed over does; a plural lookup
only if such a translator does, or a file that was loaded lacks the form just behind its last for this
message and this number. -/
theorem C88_blame (c : Cfg α) (dflt : Str) (ops : List (Op α)) (w : World α)
    (r : Run c (World.init c dflt) ops w) (i : Nat) (ctxt id id2 : Str) (n : Int64) (args : List α) :
    (w.x c i ctxt id args = .panic → ∃ o ∈ ops, ∃ t, Given o t ∧ t.x ctxt id args = .panic) ∧
    (w.xn64 c i ctxt id id2 n args = .panic →
      (∃ o ∈ ops, ∃ t, Given o t ∧ t.xn ctxt id id2 n args = .panic) ∨
      ∃ o ∈ ops, ∃ f, Reads o f ∧ c.norm f.lang.1 = w.locale i ∧ Missing c.diag f ctxt id n) := by
  rcases C88_provenance c dflt ops w r i with h | ⟨t, ha, ⟨o, ho, h⟩, hl⟩
  · exact ⟨fun hp => (by rw [h.1] at hp; cases hp), fun hp => (by rw [h.2] at hp; cases hp)⟩
  · rcases h with hgv | ⟨f, hf, -, rfl⟩
    · exact ⟨fun hp => ⟨o, ho, t, hgv, by rw [← ha.1]; exact hp⟩,
        fun hp => .inl ⟨o, ho, t, hgv, by rw [← ha.2]; exact hp⟩⟩
    · refine ⟨fun hp => ?_, fun hp => .inr ⟨o, ho, f, hf, hl, ?_⟩⟩
      · rw [ha.1] at hp; cases hp
      · rw [ha.2] at hp
        obtain ⟨es, rfl⟩ := reads_foldl o f hf
        exact (file_panic_iff c es ctxt id id2 n args).mp hp

/-- **C88** And a value whose lookups use such a file does panic. -/
theorem C88_panics (c : Cfg α) (o : Op α) (f : File) (hf : Reads o f) (w : World α) (i : Nat)
    (ha : Answers c w i (fileTor c f)) (ctxt id id2 : Str) (n : Int64) (args : List α) :
    w.xn64 c i ctxt id id2 n args = .panic ↔ Missing c.diag f ctxt id n := by
  obtain ⟨es, rfl⟩ := reads_foldl o f hf
  rw [ha.2]
  exact file_panic_iff c es ctxt id id2 n args

theorem enough_not_missing (dg : Plural.Diag) (f : File) (h : EnoughForms f) (ctxt id : Str) (n : Int64) :
    ¬ Missing dg f ctxt id n := by
  rintro ⟨e, he, -, hpl, d, ex, r, hpf, -, -, hlt⟩
  have := h d ex hpf e he hpl
  omega

/-- **C88** If all files that are loaded have as many forms as their header announces, in every entry
with a plural, and the translators handed over do not panic, no lookup of any value ever panics. -/
theorem C88_no_panic (c : Cfg α) (dflt : Str) (ops : List (Op α)) (w : World α)
    (r : Run c (World.init c dflt) ops w)
    (hfiles : ∀ o ∈ ops, ∀ f, Reads o f → EnoughForms f)
    (hgiven : ∀ o ∈ ops, ∀ t, Given o t → (∀ ctxt id args, t.x ctxt id args ≠ .panic) ∧
      ∀ ctxt id id2 n args, t.xn ctxt id id2 n args ≠ .panic)
    (i : Nat) (ctxt id id2 : Str) (n : Int64) (args : List α) :
    w.x c i ctxt id args ≠ .panic ∧ w.xn64 c i ctxt id id2 n args ≠ .panic := by
  obtain ⟨h1, h2⟩ := C88_blame c dflt ops w r i ctxt id id2 n args
  constructor
  · intro hp
    obtain ⟨o, ho, t, ht, h⟩ := h1 hp
    exact (hgiven o ho t ht).1 _ _ _ h
  · intro hp
    rcases h2 hp with ⟨o, ho, t, ht, h⟩ | ⟨o, ho, f, hf, -, h⟩
    · exact (hgiven o ho t ht).2 _ _ _ _ _ h
    · exact enough_not_missing _ f (hfiles o ho f hf) ctxt id n h

/-! ## Concrete cases -/

/-- A file with two forms announced and two stored, and one with only one stored. -/
def poFull : Str := b!"msgid \"\"\nmsgstr \"Language: fr\\nPlural-Forms: nplurals=2; plural=n != 1;\\n\"\n\nmsgid \"one\"\nmsgid_plural \"many\"\nmsgstr[0] \"un\"\nmsgstr[1] \"des\"\n"
def poShort : Str := b!"msgid \"\"\nmsgstr \"Language: fr\\nPlural-Forms: nplurals=2; plural=n != 1;\\n\"\n\nmsgid \"one\"\nmsgid_plural \"many\"\nmsgstr[0] \"un\"\n"

/-- Bind a tree with this one file and use its language. -/
def useOps (content : Str) : List (Op Str) :=
  [.bindFS 0 b!"default" (some (.dir b!"." true [file b!"fr.po" content])), .setLocale 0 b!"fr" []]
def useWorld (content : Str) : World Str := (useOps content).foldl (fun w o => o.exec exCfg w) (World.init exCfg b!"en")

theorem use_run (content : Str) : Run exCfg (World.init exCfg b!"en") (useOps content) (useWorld content) := by
  refine .cons _ _ _ _ (by show 0 < 1; decide) (.cons _ _ _ _ ?_ (.nil _))
  show 0 < (World.bindFS exCfg _ _ _ _).tss.length
  rw [bindFS_tss]
  exact Nat.zero_lt_one

theorem use_reads (content : Str) (o : Op Str) (ho : o ∈ useOps content) (f : File) (h : Reads o f) :
    readPo content = .ok f := by
  obtain ⟨fsys, path, name, content', hop, hmem, -, hr⟩ := h
  have hf : fsys = some (.dir b!"." true [file b!"fr.po" content]) := by
    simp only [useOps, List.mem_cons, List.not_mem_nil, or_false] at ho
    rcases ho with rfl | rfl <;> rcases hop with ⟨i, d, e⟩ | ⟨p, e⟩ <;> cases e
    rfl
  subst hf
  simp only [filesFrom, filesOf, filesOfList, file, if_true, List.append_nil,
    complete, List.mem_singleton, Prod.mk.injEq, Option.some.injEq, Opened.mk.injEq] at hmem
  obtain ⟨-, rfl, rfl⟩ := hmem
  rcases hr with ⟨-, h⟩ | ⟨h, -⟩
  · exact h
  · exact absurd h (by decide)

/-- The complete file never makes anything panic, whatever is asked. -/
example (ctxt id id2 : Str) (n : Int64) (args : List Str) :
    (useWorld poFull).xn64 exCfg 0 ctxt id id2 n args ≠ .panic := by
  refine (C88_no_panic exCfg b!"en" (useOps poFull) _ (use_run poFull) ?_ ?_ 0 ctxt id id2 n args).2
  · intro o ho f hf
    have h := use_reads poFull o ho f hf
    have hv : (f.getHeader b!"Plural-Forms").1.getD [] = b!"nplurals=2; plural=n != 1;" ∧
        ∀ e ∈ f.entries.vals, e.id2 ≠ [] ∨ e.strN ≠ [] → 2 ≤ e.strN.length := by
      have : (match readPo poFull with
          | .ok f => decide ((f.getHeader b!"Plural-Forms").1.getD [] = b!"nplurals=2; plural=n != 1;") &&
              decide (∀ e ∈ f.entries.vals, e.id2 ≠ [] ∨ e.strN ≠ [] → 2 ≤ e.strN.length)
          | _ => true) = true := by decide +kernel
      rw [h] at this
      simp only [Bool.and_eq_true, decide_eq_true_eq] at this
      exact this
    intro d ex hpf e he hpl
    rw [hv.1] at hpf
    obtain ⟨rfl, -⟩ := C18_unique _ _ _ _ _ hpf
      ((C18_syntax b!"nplurals=2; plural=n != 1;" 50 b!"n != 1").mp (by decide))
    have := hv.2 e he hpl
    show (2 : Int) ≤ _
    omega
  · intro o ho t ht
    simp only [useOps, List.mem_cons, List.not_mem_nil, or_false] at ho
    rcases ho with rfl | rfl <;> rcases ht with ⟨_, _, e, _⟩ | ⟨_, e⟩ <;> cases e

/-- The short one does, for the second form only. -/
example : (useWorld poShort).xn64 exCfg 0 [] b!"one" b!"many" 2 [] = .panic ∧
    (useWorld poShort).xn64 exCfg 0 [] b!"one" b!"many" 1 [] = .ok b!"un" ∧
    (useWorld poFull).xn64 exCfg 0 [] b!"one" b!"many" 2 [] = .ok b!"des" := by decide +kernel

end Verif.W
