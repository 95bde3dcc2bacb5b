import Verif.Props.C63_C64
import Verif.Props.C76
import Verif.Props.C80
/-!
# C81: from the template to the translated message

The extractor is run, the POT it writes is translated by any means, and the translation is used.
-/
namespace Verif.Flow
open Verif
open Verif.W (PotFor answer Completes Within PluralAsForms InUse PoFor)
open Verif.Xt (Env Param Disk Keyword FileOk Conflicts NoEotIn ToStdout DeclaresAll OpenOk OneLine potEntry merged asRead)

theorem pot_entries (P : Nat → Bool) (h10 : P 10 = false) (h13 : P 13 = false) (p : Param) (now : Str) (es : List Tr.Entry)
    (hx : ∀ e ∈ es, Xt.Extracted e) (text : Str) (ht : Xt.PotOf P p now es text) :
    ∃ pot, Tr.PoText text pot ∧ PotFor es pot := by
  obtain ⟨L, M, ⟨hnd, hL⟩, hM, -, rfl⟩ := ht
  generalize hh : Xt.header p now (@decide (Xt.SomePlural es) (Classical.propDecidable _)) = hdr at hM
  have hhdr : hdr.ctxt = [] ∧ hdr.id = [] ∧ hdr.cmts = Xt.headerCmts := by subst hh; exact ⟨rfl, rfl, rfl⟩
  have hempty : Xt.HasEmpty es ↔ ∃ e ∈ L, e.ctxt = [] ∧ e.id = [] := by
    constructor
    · rintro ⟨e, he, h1, h2⟩
      obtain ⟨m, hm⟩ := Option.isSome_iff_exists.mp ((Xt.merged_first es e.ctxt e.id).mpr ⟨e, he, rfl, rfl⟩)
      obtain ⟨f, -, -, -, h3, h4, -, -⟩ := Xt.merged_some _ _ _ _ hm
      exact ⟨m, (hL m).mpr ⟨_, _, hm⟩, h3.trans h1, h4.trans h2⟩
    · rintro ⟨m, hm, h1, h2⟩
      obtain ⟨c, i, hmm⟩ := (hL m).mp hm
      obtain ⟨f, hf, h3, h4, h5, h6, -, -⟩ := Xt.merged_some _ _ _ _ hmm
      exact ⟨f, hf, h3.trans (h5.symm.trans h1), h4.trans (h6.symm.trans h2)⟩
  have hmem : ∀ q, q ∈ M ↔ q ∈ L ∨ (¬ Xt.HasEmpty es ∧ q = hdr) := by
    intro q
    rw [hM.mem_iff]
    split
    · rename_i h; simp [h]
    · rename_i h; simp [h, or_comm]
  have hndM : (M.map fun q => (q.ctxt, q.id)).Nodup := by
    rw [(hM.map _).nodup_iff]
    split
    · exact hnd
    · rename_i h
      rw [List.map_cons, List.nodup_cons]
      refine ⟨?_, hnd⟩
      intro hm
      obtain ⟨e, he, h1⟩ := List.mem_map.mp hm
      simp only [hhdr.1, hhdr.2.1, Prod.mk.injEq] at h1
      exact h (hempty.mpr ⟨e, he, h1⟩)
  have hne : M ≠ [] := by
    by_cases hE : Xt.HasEmpty es
    · obtain ⟨e, he, -⟩ := hempty.mp hE
      exact List.ne_nil_of_mem ((hmem e).mpr (.inl he))
    · exact List.ne_nil_of_mem ((hmem hdr).mpr (.inr ⟨hE, rfl⟩))
  have hgood : ∀ e ∈ M, ∀ c ∈ e.cmts, Tr.GoodComment c := by
    intro e he c hc
    rcases (hmem e).mp he with h | ⟨-, rfl⟩
    · obtain ⟨ctxt, id, hm⟩ := (hL e).mp h
      exact (Xt.merged_extracted es hx _ _ e hm).1 c hc
    · rw [hhdr.2.2] at hc
      have : ∀ c ∈ Xt.headerCmts, c.head? = some 35 ∧ 10 ∉ c ∧ 13 ∉ c := by decide
      obtain ⟨h1, h2, h3⟩ := this c hc
      refine ⟨?_, h2, h3⟩
      cases c with
      | nil => cases h1
      | cons a t => simp only [List.head?_cons, Option.some.injEq] at h1; exact ⟨t, by rw [h1]⟩
  have hp := Tr.shapeText_parses P h10 h13 (M.map Tr.potShape) (by simpa using hne) (by
    intro s hs'
    simp only [List.mem_map] at hs'
    obtain ⟨e, he, rfl⟩ := hs'
    refine ⟨fun c hc => ⟨(hgood e he c hc).1, (hgood e he c hc).2⟩, ?_, ?_⟩
    · simp only [Tr.potShape]; cases e.isPlural <;> simp
    · simp only [Tr.potShape]; cases e.isPlural <;> by_cases hi : e.id = [] <;> simp [hi])
  have hmap : (M.map Tr.potShape).map Tr.Shape.entry = M.map Tr.template := by
    rw [List.map_map]
    apply List.map_congr_left
    intro e he
    exact Tr.potShape_entry e
  rw [hmap, ← Tr.savePot_eq] at hp
  have htem : ∀ e : Tr.Entry, (Tr.template e).ctxt = e.ctxt ∧ (Tr.template e).id = e.id ∧ (Tr.template e).isPlural = e.isPlural := by
    intro e; exact ⟨rfl, rfl, rfl⟩
  refine ⟨_, hp, ?_, ?_, ?_⟩
  · intro e he
    obtain ⟨m, hm⟩ := Option.isSome_iff_exists.mp ((Xt.merged_first es e.ctxt e.id).mpr ⟨e, he, rfl, rfl⟩)
    obtain ⟨f, -, -, -, h1, h2, hf, hpl⟩ := Xt.merged_some _ _ _ _ hm
    refine ⟨Tr.template m, List.mem_map_of_mem ((hmem m).mpr (.inl ((hL m).mpr ⟨_, _, hm⟩))), h1, h2, ?_, ?_⟩
    · intro hc
      by_contra hne
      exact hc ⟨f, hf, fun h => hne (hpl.trans h)⟩
    · rintro ⟨f', hf', hd⟩
      rw [hf] at hf'
      cases hf'
      show m.isPlural = _
      rw [hpl]
      cases h : f.isPlural <;> cases h' : e.isPlural <;> simp_all
  · intro q hq hid
    obtain ⟨m, hm, rfl⟩ := List.mem_map.mp hq
    rcases (hmem m).mp hm with h | ⟨-, rfl⟩
    · obtain ⟨ctxt, id, hmm⟩ := (hL m).mp h
      obtain ⟨f, hf, h1, h2, h3, h4, -, -⟩ := Xt.merged_some _ _ _ _ hmm
      exact ⟨f, hf, h1.trans h3.symm, h2.trans h4.symm⟩
    · exact absurd hhdr.2.1 hid
  · rw [List.map_map]
    exact hndM

/-- **C81** The POT of a run, read by the PO grammar. -/
theorem C81_pot (E : Env) (h10 : E.isPrint 10 = false) (h13 : E.isPrint 13 = false)
    (hsink : ∀ t, (E.sink t).2 = true → (E.sink t).1 = t) (p : Param) (hout : ¬ ToStdout p) (d : Disk)
    (kws : List Keyword) (hk : DeclaresAll p.keyword kws) (ho : OpenOk E p) (d1 : Disk) (h1 : Xt.Opened E p d d1)
    (fs : List Str) (hg : E.glob d1.files p.input = some fs) (hfs : ∀ f ∈ fs, OneLine f) (printed : List Xt.RunErr)
    (d' : Disk) (h : Xt.Run E p d (.returned none printed d')) :
    ∃ ess, List.Forall₂ (FileOk E p kws d1) fs ess ∧ (NoEotIn ess.flatten →
      ∃ text pot, d'.files (E.canon p.output) = some text ∧ Tr.PoText text pot ∧ PotFor ess.flatten pot) := by
  obtain ⟨fates, hf, hp, hfail, hok⟩ := Xt.C58_run E p d kws hk ho d1 h1 fs hg none printed d' h
  have hp0 : printed = [] := by
    by_contra hne
    obtain ⟨he, -⟩ := hfail hne
    cases printed with
    | nil => exact hne rfl
    | cons a l => cases he
  obtain ⟨ess, text, hess, hpot, hrec, herr⟩ := hok hp0
  refine ⟨ess, hess, fun hn => ?_⟩
  have hx : ∀ e ∈ ess.flatten, Xt.Extracted e := by
    intro e he
    obtain ⟨es, hes, he⟩ := List.mem_flatten.mp he
    obtain ⟨f, hf, hok⟩ := Xt.forall₂_mem_right hess es hes
    exact Xt.fileOk_extracted E p kws d1 f (hfs f hf) es hok e he
  obtain ⟨pot, h7, h8⟩ := pot_entries E.isPrint h10 h13 p E.now _ hx text (hpot hn)
  refine ⟨text, pot, ?_, h7, h8⟩
  rw [(hrec.2 hout).2.1, hsink text ((herr.mp rfl).1)]

variable {α : Type}

/-- **C81** Whoever asks for an extracted message gets its translation, once a PO that answers all the
entries of the POT is in use. -/
theorem C81_translated (es pot : List Tr.Entry) (hp : PotFor es pot) (c : W.Cfg α) (po : Str) (ts : List Tr.Entry)
    (hpo : Tr.PoText po ts) (language forms : Str) (hf : PoFor ts language forms) (hc : Completes pot ts)
    (w : W.World α) (i : Nat) (hu : InUse c po language w i) (e : Tr.Entry) (he : e ∈ es) (hid : e.id ≠ [])
    (h4 : 4 ∉ e.ctxt) (hno : ¬ Conflicts es e) :
    ∃ t, answer ts e.ctxt e.id = some t ∧
      (e.isPlural = false → t.str ≠ [] ∧ ∀ args, w.x c i e.ctxt e.id args = .ok (Fmt.format c.fmt t.str args)) ∧
      (e.isPlural = true → ∀ id2 n args k, Tr.SelectsForm c.diag forms n k → k < t.strN.length →
        ∃ s, t.strN[k]? = some s ∧ s ≠ [] ∧ w.xn64 c i e.ctxt e.id id2 n args = .ok (Fmt.format c.fmt s args)) := by
  obtain ⟨q, hq, h1, h2, h3, -⟩ := hp.all e he
  obtain ⟨t, ht, h5, h6⟩ := hc q hq (by rw [h2]; exact hid)
  rw [h1, h2] at ht
  rw [h3 hno] at h5 h6
  have hs := (W.C80_text c po ts hpo language forms hf w i hu e.ctxt e.id h4).1 t ht
  refine ⟨t, ht, fun hpl => ⟨h5 hpl, fun args => hs.translated args (h5 hpl)⟩, fun hpl id2 n args k hk hlt => ?_⟩
  obtain ⟨h7, h8⟩ := h6 hpl
  exact ⟨t.strN[k], List.getElem?_eq_getElem hlt, h8 _ (List.getElem_mem _),
    hs.form id2 n args k _ (.inr h7) hk (List.getElem?_eq_getElem hlt) (h8 _ (List.getElem_mem _))⟩

/-- **C81** A call without plural of a message that was first called with one is not translated: the POT asks for
forms only, and the caller gets the source text. -/
theorem C81_conflict (es pot : List Tr.Entry) (hp : PotFor es pot) (c : W.Cfg α) (po : Str) (ts : List Tr.Entry)
    (hpo : Tr.PoText po ts) (language forms : Str) (hf : PoFor ts language forms) (hc : PluralAsForms pot ts)
    (w : W.World α) (i : Nat) (hu : InUse c po language w i) (e : Tr.Entry) (he : e ∈ es)
    (h4 : 4 ∉ e.ctxt) (hcon : Conflicts es e) (hpl : e.isPlural = false) (args : List α) :
    w.x c i e.ctxt e.id args = .ok (Fmt.format c.fmt e.id args) := by
  obtain ⟨q, hq, h1, h2, -, h3⟩ := hp.all e he
  have hs := W.C80_text c po ts hpo language forms hf w i hu e.ctxt e.id h4
  cases ht : answer ts e.ctxt e.id with
  | none => exact (hs.2 ht).1 args
  | some t =>
    have h5 := (hs.1 t ht).untranslated args (hc q hq (by rw [h3 hcon, hpl]; rfl) t (by rw [h1, h2]; exact ht))
    have h6 : t.id = e.id := by
      unfold answer Tr.lastFor at ht
      have hm := List.mem_of_mem_getLast? ht
      simp only [List.mem_filter, decide_eq_true_eq] at hm
      exact hm.2.2
    rw [h5, h6]

/-- **C81** A message no template asks for is shown as it is, if the PO is for the POT. -/
theorem C81_rest (es pot : List Tr.Entry) (hp : PotFor es pot) (c : W.Cfg α) (po : Str) (ts : List Tr.Entry)
    (hpo : Tr.PoText po ts) (language forms : Str) (hf : PoFor ts language forms) (hc : Within pot ts)
    (w : W.World α) (i : Nat) (hu : InUse c po language w i) (ctxt id : Str) (hid : id ≠ []) (h4 : 4 ∉ ctxt)
    (hno : ∀ e ∈ es, ¬ (e.ctxt = ctxt ∧ e.id = id)) :
    (∀ args, w.x c i ctxt id args = .ok (Fmt.format c.fmt id args)) ∧
      ∀ id2 n args, w.xn64 c i ctxt id id2 n args = .ok (Fmt.defaultPlural c.fmt id id2 n args) := by
  refine (W.C80_text c po ts hpo language forms hf w i hu ctxt id h4).2 ?_
  cases ht : answer ts ctxt id with
  | none => rfl
  | some t =>
    exfalso
    unfold answer Tr.lastFor at ht
    have hm := List.mem_of_mem_getLast? ht
    simp only [List.mem_filter, decide_eq_true_eq] at hm
    obtain ⟨⟨h1, -⟩, rfl, rfl⟩ := hm
    obtain ⟨q, hq, h2, h3⟩ := hc t h1 hid
    obtain ⟨e, he, h5, h6⟩ := hp.only q hq (by rw [h3]; exact hid)
    exact hno e he ⟨h5.trans h2, h6.trans h3⟩

theorem fileOk_mem {E : Env} {p : Param} {kws : List Keyword} {d : Disk} {f : Str} {es es' : List Tr.Entry}
    (h : FileOk E p kws d f es) (h' : FileOk E p kws d f es') (e : Tr.Entry) (he : e ∈ es) : e ∈ es' := by
  obtain ⟨src, roots, h1, h2, h3⟩ := h
  obtain ⟨src', roots', h1', h2', h3'⟩ := h'
  rw [h1] at h1'
  cases h1'
  rw [h2] at h2'
  cases h2'
  exact h3'.symm.subset (h3.subset he)

theorem forall₂_mem_left {β γ : Type} {R : β → γ → Prop} {l : List β} {l' : List γ} (h : List.Forall₂ R l l') (a : β)
    (ha : a ∈ l) : ∃ b ∈ l', R a b := by
  induction h with
  | nil => simp at ha
  | cons h1 _ ih =>
    rcases List.mem_cons.mp ha with rfl | ha
    · exact ⟨_, by simp, h1⟩
    · obtain ⟨b, hb, hr⟩ := ih ha
      exact ⟨b, by simp [hb], hr⟩

/-- **C81** From the text of a template to what the caller gets: `{{T "m"}}` stands anywhere in a file (with these or other delimiters), the
extractor is run, a PO that answers its POT is in use: then `T("m")` is the translation the PO has for `m`. -/
theorem C81_message {E : Env} {num : Tmpl.Tok → Bool} (hgp : Tmpl.GoParser E num) (hE : Tmpl.AsciiClasses E)
    (hN : Tmpl.Accepts num) (h10 : E.isPrint 10 = false) (h13 : E.isPrint 13 = false)
    (hsink : ∀ t, (E.sink t).2 = true → (E.sink t).1 = t) (p : Param) (hD : (Tmpl.delimsOf p).Plain) (hout : ¬ ToStdout p) (d : Disk)
    (kws : List Keyword) (hk : DeclaresAll p.keyword kws) (ho : OpenOk E p) (d1 : Disk) (h1 : Xt.Opened E p d d1)
    (fs : List Str) (hg : E.glob d1.files p.input = some fs) (hfs : ∀ f ∈ fs, OneLine f) (printed : List Xt.RunErr)
    (d' : Disk) (h : Xt.Run E p d (.returned none printed d'))
    -- a file with the call of a keyword
    (f : Str) (hf : f ∈ fs) (pre o sp n sp' q m sp'' cl post : Str) (b b' : Bool)
    (hsrc : d1.files (E.canon f) = some (pre ++ o ++ sp ++ n ++ sp' ++ q ++ sp'' ++ cl ++ post)) (hpre : Tmpl.Free (Tmpl.delimsOf p).left pre)
    (hpost : ∀ x y, post ≠ x ++ (Tmpl.delimsOf p).left ++ y) (hopen : Tmpl.Open (Tmpl.delimsOf p) b o) (hsp : Tmpl.Blank sp)
    (hn : Tmpl.FuncName (Xt.Given kws p) n) (hsp' : Tmpl.Spaces sp') (hq : Tmpl.Literal q m) (hm : m ≠ [])
    (hsp'' : Tmpl.Blank sp'') (hcl : Tmpl.Close (Tmpl.delimsOf p) b' cl) (hkw : (⟨n, 0, 1, 0⟩ : Keyword) ∈ kws) :
    ∃ ess, List.Forall₂ (FileOk E p kws d1) fs ess ∧
      (NoEotIn ess.flatten → (∀ e ∈ ess.flatten, e.ctxt = [] → e.id = m → e.isPlural = false) →
        ∃ text pot, d'.files (E.canon p.output) = some text ∧ Tr.PoText text pot ∧
          ∀ (c : W.Cfg α) po ts language forms, Tr.PoText po ts → PoFor ts language forms → Completes pot ts →
            ∀ w i, InUse c po language w i → ∃ t, answer ts [] m = some t ∧ t.str ≠ [] ∧
              ∀ args, w.x c i [] m args = .ok (Fmt.format c.fmt t.str args)) := by
  obtain ⟨ess, h2, h3⟩ := C81_pot E h10 h13 hsink p hout d kws hk ho d1 h1 fs hg hfs printed d' h
  refine ⟨ess, h2, fun hn4 hsame => ?_⟩
  obtain ⟨text, pot, h4, h5, h6⟩ := h3 hn4
  refine ⟨text, pot, h4, h5, fun c po ts language forms hpo hfor hcomp w i hu => ?_⟩
  obtain ⟨es, e, h7, h8, rfl, h9, hpl, -⟩ := Tmpl.C76_message hgp hE hN p hD kws d1 f pre o sp n sp' q m sp'' cl post b b' hsrc
    hpre hpost hopen hsp hn hsp' hq hsp'' hcl hkw
  obtain ⟨es', h10', h11⟩ := forall₂_mem_left h2 f hf
  have he : e ∈ ess.flatten := List.mem_flatten.mpr ⟨es', h10', fileOk_mem h7 h11 e h8⟩
  have hno : ¬ Conflicts ess.flatten e := by
    rintro ⟨e', he', hd⟩
    have hmem := List.mem_of_find?_eq_some he'
    have hprop := List.find?_some he'
    simp only [decide_eq_true_eq] at hprop
    exact hd ((hsame e' hmem (hprop.1.trans h9) hprop.2).trans hpl.symm)
  obtain ⟨t, ht, hs, -⟩ := C81_translated _ pot h6 c po ts hpo language forms hfor hcomp w i hu e he hm (hn4 e he) hno
  rw [h9] at ht hs
  exact ⟨t, ht, hs hpl⟩

/-! ## Example: one template, the extractor, and a hand-written PO -/

/-- An environment with one template. -/
def flowEnv : Env where
  isPrint := fun r => 32 ≤ r
  letter := fun r => (65 ≤ r && r ≤ 90) || (97 ≤ r && r ≤ 122)
  digit := fun r => 48 ≤ r && r ≤ 57
  canon := id
  canOpen := true
  glob := fun _ _ => some [b!"a.html"]
  parse := Tmpl.goParse (fun _ => true) (fun r => (65 ≤ r && r ≤ 90) || (97 ≤ r && r ≤ 122)) (fun r => 48 ≤ r && r ≤ 57)
  now := b!"now"
  sink := fun text => (text, true)
  closes := true

/-- The options. -/
def flowParam : Param := ⟨b!"*", [], [], b!"T;N:1,2", [], b!"m.pot"⟩

/-- The file. -/
def flowDisk : Disk where
  files := fun f => if f = b!"a.html" then some b!"<p>{{ T \"a\" }}\n{{N \"one\" \"many\" 2}}</p>" else none
  stdout := []

/-- The messages of the file. -/
def flowEntries : List Tr.Entry :=
  [{ cmts := [b!"#: a.html:1"], id := b!"a" },
   { cmts := [b!"#: a.html:2"], id := b!"one", isPlural := true, id2 := b!"many" }]

/-- The disk when the output is open. -/
def flowOpened : Disk := flowDisk.truncate flowEnv flowParam

/-- The keywords. -/
def flowKws : List Keyword := [⟨b!"T", 0, 1, 0⟩, ⟨b!"N", 0, 1, 2⟩]

theorem flow_file (es : List Tr.Entry) (h : FileOk flowEnv flowParam flowKws flowOpened b!"a.html" es) : es.Perm flowEntries := by
  obtain ⟨src, roots, h1, h2, h3⟩ := h
  obtain rfl : b!"<p>{{ T \"a\" }}\n{{N \"one\" \"many\" 2}}</p>" = src := by
    have : flowOpened.files (flowEnv.canon b!"a.html") = some b!"<p>{{ T \"a\" }}\n{{N \"one\" \"many\" 2}}</p>" := by
      decide +kernel
    rw [this] at h1
    exact Option.some.inj h1
  rw [← Xt.parsed_eq] at h2
  have hroots : (flowEnv.parse flowParam.left flowParam.right (Xt.funcsFor flowKws flowParam
        b!"<p>{{ T \"a\" }}\n{{N \"one\" \"many\" 2}}</p>").contains
        b!"<p>{{ T \"a\" }}\n{{N \"one\" \"many\" 2}}</p>").map
        (fun roots => roots.flatMap (Xt.resolveNodes flowKws b!"a.html")) = some flowEntries := by
    decide +kernel
  rw [h2, Option.map_some, Option.some.injEq] at hroots
  rw [← hroots]
  exact h3.trans (List.Perm.flatMap_left _ fun root _ => (Xt.C54_count _ _ root).symm)

theorem flow_run : ∃ d', Xt.Run flowEnv flowParam flowDisk (.returned none [] d') := by
  have h : (Xt.loop flowEnv flowParam flowKws flowOpened [b!"a.html"] {} none).map (·.2) = some (none, []) := by decide +kernel
  rw [Option.map_eq_some_iff] at h
  obtain ⟨⟨ctx, e, pr⟩, h1, h2⟩ := h
  cases h2
  obtain ⟨text, ht⟩ := Xt.C57_exists flowEnv.isPrint flowParam flowEnv.now ctx
  exact ⟨_, .written (kws := flowKws) (by decide +kernel) (by decide) rfl h1 ht⟩

/-- The run leaves a POT for the messages. -/
theorem flow_pot (d' : Disk) (h : Xt.Run flowEnv flowParam flowDisk (.returned none [] d')) :
    ∃ es text pot, es.Perm flowEntries ∧ d'.files b!"m.pot" = some text ∧ Tr.PoText text pot ∧ PotFor es pot := by
  obtain ⟨ess, h1, h2⟩ := C81_pot flowEnv (by decide) (by decide) (fun _ _ => rfl) flowParam (by unfold ToStdout; decide) flowDisk
    flowKws ((Xt.C53_exact _ _).mp (by decide +kernel)) (.inr (.inr rfl)) flowOpened ((Xt.opened_iff _ _ _ _).mpr rfl) [b!"a.html"] rfl
    (by simp [OneLine]) [] d' h
  cases h1 with
  | @cons _ es _ _ hf ht =>
    cases ht
    have hp := flow_file es hf
    rw [List.flatten_cons, List.flatten_nil, List.append_nil] at h2
    have h4 : NoEotIn es := by
      intro e he
      have : ∀ e ∈ flowEntries, 4 ∉ e.ctxt := by decide
      exact this e (hp.subset he)
    obtain ⟨text, pot, h5, h6, h7⟩ := h2 h4
    exact ⟨es, text, pot, hp, h5, h6, h7⟩

theorem flow_completes (es pot : List Tr.Entry) (hp : es.Perm flowEntries) (hpot : PotFor es pot) :
    (∀ e ∈ es, ¬ Conflicts es e) ∧ Completes pot W.exPoEntries := by
  have hno : ∀ e ∈ es, ¬ Conflicts es e := by
    rintro e he ⟨f, hf, hd⟩
    have hmem := List.mem_of_find?_eq_some hf
    have hprop := List.find?_some hf
    simp only [decide_eq_true_eq] at hprop
    have : ∀ e ∈ flowEntries, ∀ f ∈ flowEntries, f.id = e.id → f.isPlural = e.isPlural := by decide
    exact hd (this e (hp.subset he) f (hp.subset hmem) hprop.2)
  refine ⟨hno, fun q hq hid => ?_⟩
  obtain ⟨e, he, h1, h2⟩ := hpot.only q hq hid
  obtain ⟨q', hq', h3, h4, h5, -⟩ := hpot.all e he
  have hqq : q = q' := List.inj_on_of_nodup_map hpot.once hq hq' (by rw [← h1, ← h2, h3, h4])
  subst hqq
  rw [h3, h4, h5 (hno e he)]
  have hm := hp.subset he
  simp only [flowEntries, List.mem_cons, List.not_mem_nil, or_false] at hm
  rcases hm with rfl | rfl
  · exact ⟨{ id := b!"a", str := b!"y" }, by decide, by decide, by decide⟩
  · exact ⟨{ id := b!"one", isPlural := true, id2 := b!"many", strN := [b!"un", b!"des"] }, by decide, by decide, by decide⟩

/-- After the run, with the PO text of C80 in use, the message comes out translated, and so does the plural one. -/
example (c : W.Cfg α) (w : W.World α) (h : W.Reach c w) (i : Nat) (hi : i < w.tss.length) (hfmt : ∀ s, Fmt.format c.fmt s [] = s) :
    let w' := ((w.bindFS c i b!"app" (some (W.Node.dir b!"." true [.file b!"fr.po" (some ⟨some b!"fr.po", some W.exPo⟩)]))).setDomain i
      b!"app").setLocale c i b!"fr" []
    w'.t c i b!"a" [] = .ok b!"y" ∧ w'.xn64 c i [] b!"one" b!"many" 3 [] = .ok b!"des" := by
  intro w'
  obtain ⟨d', hrun⟩ := flow_run
  obtain ⟨es, text, pot, hp, -, -, hpot⟩ := flow_pot d' hrun
  obtain ⟨hno, hc⟩ := flow_completes es pot hp hpot
  have hu := W.inUse_usual c W.exPo b!"fr" b!"fr.po" ⟨b!"fr", rfl⟩ w h i hi b!"app" b!"fr" [] (by decide) rfl
  have key := C81_translated es pot hpot c _ _ W.exPo_text _ _ W.exPo_for hc w' i hu
  constructor
  · have he := hp.symm.subset (show ({ cmts := [b!"#: a.html:1"], id := b!"a" } : Tr.Entry) ∈ flowEntries by decide)
    obtain ⟨t, ht, h1, -⟩ := key _ he (by decide) (by decide) (hno _ he)
    rw [show answer W.exPoEntries [] b!"a" = some { id := b!"a", str := b!"y" } by decide] at ht
    cases ht
    exact ((h1 rfl).2 []).trans (by rw [hfmt])
  · have he := hp.symm.subset (show ({ cmts := [b!"#: a.html:2"], id := b!"one", isPlural := true, id2 := b!"many" } : Tr.Entry) ∈
      flowEntries by decide)
    obtain ⟨t, ht, -, h2⟩ := key _ he (by decide) (by decide) (hno _ he)
    rw [show answer W.exPoEntries [] b!"one" = some { id := b!"one", isPlural := true, id2 := b!"many", strN := [b!"un", b!"des"] } by
      decide] at ht
    cases ht
    obtain ⟨s, hs, -, h3⟩ := h2 rfl b!"many" 3 [] 1 ⟨50, b!"n > 1", 1, ⟨[], [], [], [], [32], [], [], [], by simp [Tr.Ws],
      by simp [Tr.Ws], by simp [Tr.Ws], by simp [Tr.Ws], by simp [Tr.Ws], by simp [Tr.Ws], by simp [Tr.Ws], by simp [Tr.Ws], by decide,
      by decide, by decide, by simp, by simp [Tr.Ws], rfl⟩, rfl, rfl, by decide⟩ (by decide)
    cases hs
    exact h3.trans (by rw [hfmt])

/-- Entries of a POT where a call without plural is in conflict: the hypotheses of `C81_conflict` and of
`C81_rest`. -/
example : let es : List Tr.Entry := [{ id := b!"one", isPlural := true, id2 := b!"many" }, { id := b!"one" }]
    let pot : List Tr.Entry := [{ id := b!"one", isPlural := true, id2 := b!"many", strN := [[], []] }]
    let ts : List Tr.Entry := [{ id := b!"one", isPlural := true, id2 := b!"many", strN := [b!"un", b!"des"] }]
    PotFor es pot ∧ Conflicts es { id := b!"one" } ∧ PluralAsForms pot ts ∧ Within pot ts := by
  intro es pot ts
  have hc : Conflicts es { id := b!"one" } := ⟨{ id := b!"one", isPlural := true, id2 := b!"many" }, by decide, by decide⟩
  have hn : ¬ Conflicts es { id := b!"one", isPlural := true, id2 := b!"many" } := by
    rintro ⟨f, hf, hd⟩
    cases (show some { id := b!"one", isPlural := true, id2 := b!"many" } = some f from hf)
    exact hd rfl
  refine ⟨⟨?_, by decide, by decide⟩, hc, ?_, by unfold Within; decide⟩
  · intro e he
    simp only [es, List.mem_cons, List.not_mem_nil, or_false] at he
    rcases he with rfl | rfl
    · exact ⟨_, List.mem_cons_self, rfl, rfl, fun _ => rfl, fun h => absurd h hn⟩
    · exact ⟨_, List.mem_cons_self, rfl, rfl, fun h => absurd hc h, fun _ => rfl⟩
  · intro e he _ t ht
    simp only [pot, List.mem_cons, List.not_mem_nil, or_false] at he
    subst he
    cases (show some { id := b!"one", isPlural := true, id2 := b!"many", strN := [b!"un", b!"des"] } = some t from ht)
    rfl

end Verif.Flow
