import Verif.Spec.GnuFlow
import Verif.Props.C81
import Verif.Props.C116
import Verif.Lemmas.GnuUnique
/-!
# C128: templates translated with GNU gettext

The extractor is run, GNU gettext reads its POT, a translator's file written by GNU gettext answers it, and the file is used.
-/
namespace Verif.GnuFlow
open Verif
open Verif.GnuPo (Msg Portable Ascii Comment Reads Body Written potMsg msgEntry bare)
open Verif.Xt (Env Param Disk Keyword FileOk Conflicts NoEotIn ToStdout DeclaresAll OpenOk OneLine merged)
open Verif.W (answer Completes InUse PoFor PotFor)

/-! ## Reading -/

/-- **C128** What GNU gettext reads is determined by the text. -/
theorem C128_unique (s : Str) (ms ms' : List Msg) (h : Reads Body s ms) (h' : Reads Body s ms') : ms = ms' := GnuPo.reads_unique h h'

theorem strings_back {s d : Str} (h : GnuPo.Strings Written s d) : GnuPo.Strings Body s d := by
  induction h with
  | one h => exact .one (GnuPo.C116_written _ _ h).1
  | more h _ ih => exact .more (GnuPo.C116_written _ _ h).1 ih

theorem field_back {k s d : Str} (h : GnuPo.Field Written k s d) : GnuPo.Field Body k s d := by
  obtain ⟨t, rfl, h⟩ := h
  exact ⟨t, rfl, strings_back h⟩

theorem forms_back {i : Nat} {s : Str} {ds : List Str} (h : GnuPo.Forms Written i s ds) : GnuPo.Forms Body i s ds := by
  induction h with
  | nil => exact .nil
  | cons h _ ih => exact .cons (field_back h) ih

theorem context_back {s : Str} {c : Option Str} (h : GnuPo.Context Written s c) : GnuPo.Context Body s c := by
  cases h with
  | none => exact .none
  | some h => exact .some (field_back h)

/-- **C128** What GNU gettext writes it reads back. -/
theorem C128_back (s : Str) (ms : List Msg) (h : Reads Written s ms) : Reads Body s ms := by
  induction h with
  | nil => exact .nil
  | blank _ ih => exact .blank ih
  | comment hc _ ih => exact .comment hc ih
  | message hm _ ih =>
    refine .message ?_ ih
    cases hm with
    | single hc hi hs => exact .single (context_back hc) (field_back hi) (field_back hs)
    | plural hc hi hp hs hne => exact .plural (context_back hc) (field_back hi) (field_back hp) (forms_back hs) hne

/-! ## The template -/

/-- What the comments of an extracted entry look like. -/
theorem fileOk_comments (E : Env) (p : Param) (kws : List Keyword) (d : Disk) (f : Str) (hf : 10 ∉ f) (es : List Tr.Entry)
    (h : FileOk E p kws d f es) : ∀ e ∈ es, ∀ c ∈ e.cmts, Comment c := by
  intro e he
  obtain ⟨src, roots, -, -, hp⟩ := h
  obtain ⟨root, -, hm⟩ := List.mem_flatMap.mp (hp.subset he)
  rw [← (Xt.C54_count kws f root).mem_iff, Xt.C54_exact] at hm
  obtain ⟨line, q, n, -, -, hm⟩ := hm
  obtain ⟨_, _, _, _, _, _, _, _, _, _, kw, -, -, hE⟩ := hm
  rw [hE.comments]
  have hd : ∀ c ∈ Num.natDigits line, c ≠ 10 := by
    intro c hc
    have := List.all_eq_true.mp (Fmt.natDigits_spec line).2.1 c hc
    clear hc
    revert this; revert c; apply u8; decide +kernel
  intro c hc
  rcases List.mem_append.mp hc with hc | hc
  · simp only [List.mem_singleton] at hc
    subst hc
    refine ⟨58 :: 32 :: (f ++ b!":" ++ Num.natDigits line), rfl, ?_, by simp, by simp⟩
    simp only [List.mem_cons, List.mem_append, not_or]
    exact ⟨by decide, by decide, ⟨hf, by decide⟩, fun hc => hd _ hc rfl⟩
  · split at hc
    · simp only [List.mem_singleton] at hc
      subst hc
      exact ⟨b!", go-format", rfl, by decide, by decide, by decide⟩
    · simp at hc

theorem header_comments : ∀ c ∈ Xt.headerCmts, Comment c := by
  have h : ∀ c ∈ Xt.headerCmts, c.head? = some 35 ∧ 10 ∉ c ∧ c.tail.head? ≠ some 126 ∧ c.tail.head? ≠ some 124 := by decide
  intro c hc
  obtain ⟨h1, h2, h3, h4⟩ := h c hc
  cases c with
  | nil => cases h1
  | cons a t =>
    simp only [List.head?_cons, Option.some.injEq] at h1
    exact ⟨t, by rw [h1], fun hh => h2 (List.mem_cons_of_mem _ hh), h3, h4⟩

theorem asked_eq (e : Tr.Entry) (h : e.id ≠ []) : potMsg e = asked e := by
  unfold potMsg asked
  by_cases hc : e.ctxt = [] <;> simp [h, hc]

theorem merged_asked (es : List Tr.Entry) (c i : Str) (m : Tr.Entry) (h : merged es c i = some m) :
    ∃ f ∈ es, Xt.firstOf es c i = some f ∧ f.ctxt = c ∧ f.id = i ∧ m.ctxt = c ∧ m.id = i ∧ asked m = asked f ∧ m.isPlural = f.isPlural ∧
      m.id2 = f.id2 ∧ m.str = f.str := by
  unfold merged at h
  rw [Option.map_eq_some_iff] at h
  obtain ⟨f, hf, rfl⟩ := h
  obtain ⟨h1, h2, h3⟩ := Xt.firstOf_some es c i f hf
  exact ⟨f, h1, hf, h2, h3, h2, h3, rfl, rfl, rfl, rfl⟩

theorem merged_cmts (es : List Tr.Entry) (h : ∀ e ∈ es, ∀ c ∈ e.cmts, Comment c) (ctxt id : Str) (m : Tr.Entry)
    (hm : merged es ctxt id = some m) : ∀ c ∈ m.cmts, Comment c := by
  unfold merged at hm
  rw [Option.map_eq_some_iff] at hm
  obtain ⟨f, -, rfl⟩ := hm
  intro c hc
  obtain ⟨g, hg, hc⟩ := List.mem_flatMap.mp hc
  exact h g (List.mem_of_mem_filter hg) c hc

/-- **C128** GNU gettext reads the POT for extracted entries and finds what the templates ask for. -/
theorem C128_pot (P : Nat → Bool) (hP : Ascii P) (p : Param) (now : Str) (es : List Tr.Entry) (hc : ∀ e ∈ es, ∀ c ∈ e.cmts, Comment c)
    (hs : ∀ e ∈ es, e.str = []) (hes : ∀ e ∈ es, Portable P e.ctxt ∧ Portable P e.id ∧ (e.isPlural = true → Portable P e.id2))
    (hh : ∀ b, Portable P (Xt.header p now b).str) (text : Str) (ht : Xt.PotOf P p now es text) :
    ∃ b ms, Reads Body text ms ∧ Asks es (Xt.header p now b).str ms ∧ (b = true ↔ Xt.SomePlural es) := by
  obtain ⟨L, M, ⟨hnd, hL⟩, hM, -, rfl⟩ := ht
  generalize hb : @decide (Xt.SomePlural es) (Classical.propDecidable _) = b at hM
  have hb' : b = true ↔ Xt.SomePlural es := by rw [← hb]; exact @decide_eq_true_iff _ (Classical.propDecidable _)
  have hmem : ∀ q, q ∈ M ↔ q ∈ L ∨ (¬ Xt.HasEmpty es ∧ q = Xt.header p now b) := by
    intro q
    rw [hM.mem_iff]
    split
    · rename_i h; simp [h]
    · rename_i h; simp [h, or_comm]
  have hempty : (∃ e ∈ L, e.ctxt = [] ∧ e.id = []) → Xt.HasEmpty es := by
    rintro ⟨m, hm, h1, h2⟩
    obtain ⟨c, i, hmm⟩ := (hL m).mp hm
    obtain ⟨f, hf, -, h3, h4, h5, h6, -⟩ := merged_asked _ _ _ _ hmm
    exact ⟨f, hf, h3.trans (h5.symm.trans h1), h4.trans (h6.symm.trans h2)⟩
  have hndM : (M.map fun q => (q.ctxt, q.id)).Nodup := by
    rw [(hM.map _).nodup_iff]
    split
    · exact hnd
    · rename_i h
      rw [List.map_cons, List.nodup_cons]
      refine ⟨?_, hnd⟩
      intro hm
      obtain ⟨e, he, h1⟩ := List.mem_map.mp hm
      simp only [Xt.header, Prod.mk.injEq] at h1
      exact h (hempty ⟨e, he, h1⟩)
  have hr := GnuPo.C116_pot P hP M (by
    intro e he
    rcases (hmem e).mp he with h | ⟨-, rfl⟩
    · obtain ⟨ctxt, id, hm⟩ := (hL e).mp h
      exact merged_cmts es hc _ _ e hm
    · exact header_comments) (by
    intro e he
    rcases (hmem e).mp he with h | ⟨-, rfl⟩
    · obtain ⟨ctxt, id, hm⟩ := (hL e).mp h
      obtain ⟨f, hf, -, h1, h2, h3, h4, -, h5, h6, h7⟩ := merged_asked _ _ _ _ hm
      rw [h3, h4, h5, h6, h7, ← h1, ← h2, hs f hf]
      exact ⟨(hes f hf).1, (hes f hf).2.1, (hes f hf).2.2, fun _ _ => .nil⟩
    · exact ⟨.nil, .nil, fun _ => .nil, fun _ _ => hh b⟩)
  refine ⟨b, _, hr, ⟨?_, ?_, ?_, ?_⟩, hb'⟩
  · intro e he hid
    obtain ⟨m, hm⟩ := Option.isSome_iff_exists.mp ((Xt.merged_first es e.ctxt e.id).mpr ⟨e, he, rfl, rfl⟩)
    obtain ⟨f, hf, h1, -, -, -, h2, h3, -⟩ := merged_asked _ _ _ _ hm
    refine ⟨f, h1, ?_⟩
    rw [← h3, ← asked_eq m (by rw [h2]; exact hid)]
    exact List.mem_map_of_mem ((hmem m).mpr (.inl ((hL m).mpr ⟨_, _, hm⟩)))
  · intro m hm hid
    obtain ⟨q, hq, rfl⟩ := List.mem_map.mp hm
    rcases (hmem q).mp hq with h | ⟨-, rfl⟩
    · obtain ⟨ctxt, id, hmm⟩ := (hL q).mp h
      obtain ⟨f, hf, h1, h2, h3, -, -, h4, -⟩ := merged_asked _ _ _ _ hmm
      exact ⟨f, hf, by rw [h2, h3]; exact h1, (asked_eq q hid).trans h4⟩
    · exact absurd rfl hid
  · rw [List.map_map]
    refine List.Nodup.map_on ?_ (List.Nodup.of_map _ hndM)
    intro a ha c hc' hac
    apply List.inj_on_of_nodup_map hndM ha hc'
    simp only [Function.comp, potMsg, Prod.mk.injEq] at hac
    refine Prod.ext ?_ hac.2
    show a.ctxt = c.ctxt
    have := hac.1
    by_cases h1 : a.ctxt = [] <;> by_cases h2 : c.ctxt = [] <;> simp_all
  · intro hne
    exact List.mem_map.2 ⟨Xt.header p now b, (hmem _).mpr (.inr ⟨hne, rfl⟩), rfl⟩

/-- **C128** After a run that succeeds with a file as output, GNU gettext reads that file. -/
theorem C128_run (E : Env) (hP : Ascii E.isPrint)
    (hsink : ∀ t, (E.sink t).2 = true → (E.sink t).1 = t) (p : Param) (hout : ¬ ToStdout p) (d : Disk)
    (kws : List Keyword) (hk : DeclaresAll p.keyword kws) (ho : OpenOk E p) (d1 : Disk) (h1 : Xt.Opened E p d d1)
    (fs : List Str) (hg : E.glob d1.files p.input = some fs) (hfs : ∀ f ∈ fs, OneLine f)
    (hh : ∀ b, Portable E.isPrint (Xt.header p E.now b).str) (printed : List Xt.RunErr)
    (d' : Disk) (h : Xt.Run E p d (.returned none printed d')) :
    ∃ ess, List.Forall₂ (FileOk E p kws d1) fs ess ∧ (NoEotIn ess.flatten →
      (∀ e ∈ ess.flatten, Portable E.isPrint e.ctxt ∧ Portable E.isPrint e.id ∧ (e.isPlural = true → Portable E.isPrint e.id2)) →
      ∃ text b ms, d'.files (E.canon p.output) = some text ∧ Reads Body text ms ∧ Asks ess.flatten (Xt.header p E.now b).str ms ∧
        (b = true ↔ Xt.SomePlural ess.flatten)) := by
  obtain ⟨fates, hf, hp, hfail, hok⟩ := Xt.C58_run E p d kws hk ho d1 h1 fs hg none printed d' h
  have hp0 : printed = [] := by
    by_contra hne
    obtain ⟨he, -⟩ := hfail hne
    cases printed with
    | nil => exact hne rfl
    | cons a l => cases he
  obtain ⟨ess, text, hess, hpot, hrec, herr⟩ := hok hp0
  refine ⟨ess, hess, fun hn hport => ?_⟩
  obtain ⟨b, ms, h7, h8, h9⟩ := C128_pot E.isPrint hP p E.now ess.flatten (by
      intro e he
      obtain ⟨es, hes, he⟩ := List.mem_flatten.mp he
      obtain ⟨f, hf, hok⟩ := Xt.forall₂_mem_right hess es hes
      exact fileOk_comments E p kws d1 f (hfs f hf).1 es hok e he) (by
      intro e he
      obtain ⟨es, hes, he⟩ := List.mem_flatten.mp he
      obtain ⟨f, hf, hok⟩ := Xt.forall₂_mem_right hess es hes
      exact (Xt.fileOk_extracted E p kws d1 f (hfs f hf) es hok e he).2.1) hport hh text (hpot hn)
  refine ⟨text, b, ms, ?_, h7, h8, h9⟩
  rw [(hrec.2 hout).2.1, hsink text ((herr.mp rfl).1)]

/-! ## The translation -/

/-- The entries of a file written by GNU gettext, those not translated included. -/
theorem written_text (s : Str) (ms : List Msg) (h : Reads Written s ms) (h13 : 13 ∉ s) :
    ∃ es, Tr.PoText s es ∧ ((es.filter fun e => Tr.Translated e).map bare = (ms.map msgEntry).filter fun e => Tr.Translated e) ∧
      ∀ e ∈ es, e.ctxt = [] ∨ ∃ m ∈ ms, e.ctxt = m.ctxt.getD [] := by
  obtain ⟨es, h1, h2⟩ := GnuPo.C116_text s ms h h13
  refine ⟨es, h1, h2, ?_⟩
  obtain ⟨new, g', h3, h4, h5⟩ := GnuPo.ate_reads h [] [] rfl
  obtain ⟨lines, rfl, hl, hp⟩ := h3 [] (.inl ⟨rfl, .inl ⟨rfl, rfl⟩⟩)
  have hml : Tr.meaningfulLines (Tr.unlines lines) = lines.filter fun l => ¬ Tr.Blank l := by
    unfold Tr.meaningfulLines
    have e : (Tr.unlines lines).filter (· != 13) = Tr.unlines lines := by
      rw [List.filter_eq_self]
      intro a ha
      rw [bne_iff_ne]
      rintro rfl
      exact h13 ha
    rw [e, Tr.splitByte_unlines lines hl, List.filter_append]
    have : (([[]] : List Str).filter fun l => ¬ Tr.Blank l) = [] := by decide
    rw [this, List.append_nil]
  rw [List.nil_append, List.nil_append] at hp
  have hnew : ∀ g ∈ new, ∃ m ∈ ms, (Tr.entryOf g).ctxt = m.ctxt.getD [] := by
    intro g hg
    have : bare (Tr.entryOf g) ∈ ms.map msgEntry := by rw [← h5]; exact List.mem_map.2 ⟨g, hg, rfl⟩
    obtain ⟨m, hm, he⟩ := List.mem_map.1 this
    exact ⟨m, hm, (congrArg Tr.Entry.ctxt he).symm⟩
  rcases hp with ⟨rfl, ⟨e1, rfl⟩ | ⟨gs0, g0, rfl, hp, -⟩⟩ | ⟨-, hp⟩
  · have : es = [{}] := Tr.text_unique _ _ _ h1 ⟨[], [], by rw [hml, e1]; exact .nil, rfl⟩
    subst this
    intro e he
    rw [List.mem_singleton] at he
    exact .inl (by rw [he])
  · have : es = (gs0 ++ [g0]).map Tr.entryOf := Tr.text_unique _ _ _ h1 ⟨gs0, g0, by rw [hml]; exact hp, rfl⟩
    subst this
    intro e he
    obtain ⟨g, hg, rfl⟩ := List.mem_map.1 he
    exact .inr (hnew g hg)
  · have : es = (new ++ [g']).map Tr.entryOf := Tr.text_unique _ _ _ h1 ⟨new, g', by rw [hml]; exact hp, rfl⟩
    subst this
    intro e he
    obtain ⟨g, hg, rfl⟩ := List.mem_map.1 he
    rcases List.mem_append.1 hg with hg | hg
    · exact .inr (hnew g hg)
    · rw [List.mem_singleton] at hg
      subst hg
      refine .inl ?_
      unfold Tr.entryOf
      simp [Tr.texts_none _ _ h4]

theorem reads_forms {B : Str → Str → Prop} {s : Str} {ms : List Msg} (h : Reads B s ms) :
    ∀ m ∈ ms, m.forms ≠ [] ∧ (m.plural = none → ∃ str, m.forms = [str]) := by
  induction h with
  | nil => simp
  | blank _ ih => exact ih
  | comment _ _ ih => exact ih
  | message hm _ ih =>
    intro m hmem
    rcases List.mem_cons.1 hmem with rfl | hmem
    · cases hm with
      | single _ _ _ => exact ⟨by simp, fun _ => ⟨_, rfl⟩⟩
      | plural _ _ _ _ hne => exact ⟨hne, fun h => by cases h⟩
    · exact ih m hmem

theorem find_filter {β : Type} (p q : β → Bool) (l : List β) (x : β) (h : l.find? p = some x) (hq : q x = true) :
    (l.filter q).find? p = some x := by
  induction l with
  | nil => cases h
  | cons a l ih =>
    rw [List.find?_cons] at h
    cases hp : p a with
    | true =>
      rw [hp] at h
      cases h
      rw [List.filter_cons, hq, if_pos rfl, List.find?_cons, hp]
    | false =>
      rw [hp] at h
      rw [List.filter_cons]
      split
      · rw [List.find?_cons, hp]; exact ih h
      · exact ih h

theorem headerField_ne {h k v : Str} (hh : Tr.HeaderField h k v) : h ≠ [] := by
  rintro rfl
  have := (Tr.C15_first_wins _ _ _).mpr hh
  rw [show Tr.parseHeaders [] = [] by decide] at this
  cases this

/-- The file is one for the language as the package understands it. -/
theorem poFor_of {ts : List Msg} {language forms : Str} (hf : IsFor ts language forms) {tes : List Tr.Entry}
    (h2 : (tes.filter fun e => Tr.Translated e).map bare = (ts.map msgEntry).filter fun e => Tr.Translated e)
    (h3 : ∀ e ∈ tes, e.ctxt = [] ∨ ∃ m ∈ ts, e.ctxt = m.ctxt.getD []) : PoFor tes language forms := by
  obtain ⟨hn, ⟨h, hh, hl, hp⟩, hne⟩ := hf
  refine ⟨?_, ?_, hne⟩
  · intro e he
    rcases h3 e he with hc | ⟨m, hm, hc⟩
    · rw [hc]; simp
    · rw [hc]; exact hn m hm
  · have hfind : ((ts.map msgEntry).filter fun e => Tr.Translated e).find? (fun e => e.id = []) = some (msgEntry ⟨none, [], none, [h]⟩) := by
      apply find_filter
      · rw [List.find?_map]
        have : ((fun e : Tr.Entry => decide (e.id = [])) ∘ msgEntry) = fun t => decide (t.id = []) := rfl
        rw [this, hh]
        rfl
      · have := headerField_ne hl
        simp [Tr.Translated, msgEntry, this]
    rw [← h2, List.find?_map] at hfind
    have : ((fun e : Tr.Entry => decide (e.id = [])) ∘ bare) = fun e => decide (e.id = []) := rfl
    rw [this, Option.map_eq_some_iff] at hfind
    obtain ⟨x, hx, hb⟩ := hfind
    have hstr : x.str = h := by
      have := congrArg Tr.Entry.str hb
      simpa [bare, msgEntry] using this
    refine ⟨x, hx, ?_, by rw [hstr]; exact hl, by rw [hstr]; exact hp⟩
    have := congrArg Tr.Entry.ctxt hb
    simpa [bare, msgEntry] using this

theorem answer_msg {ts : List Msg} (hd : (ts.map fun t => (t.ctxt.getD [], t.id)).Nodup) {tes : List Tr.Entry}
    (h2 : (tes.filter fun e => Tr.Translated e).map bare = (ts.map msgEntry).filter fun e => Tr.Translated e) {t : Msg} (ht : t ∈ ts)
    (htr : Tr.Translated (msgEntry t)) : ∃ x, answer tes (t.ctxt.getD []) t.id = some x ∧ bare x = msgEntry t := by
  have key : (answer tes (t.ctxt.getD []) t.id).map bare = some (msgEntry t) := by
    unfold answer
    rw [GnuPo.lastFor_bare, h2]
    unfold Tr.lastFor
    have hm : msgEntry t ∈ (((ts.map msgEntry).filter fun e => Tr.Translated e).filter fun e => e.ctxt = t.ctxt.getD [] ∧ e.id = t.id) := by
      simp only [List.mem_filter, decide_eq_true_eq]
      exact ⟨⟨List.mem_map_of_mem ht, htr⟩, rfl, rfl⟩
    cases hl : (((ts.map msgEntry).filter fun e => Tr.Translated e).filter fun e => e.ctxt = t.ctxt.getD [] ∧ e.id = t.id).getLast? with
    | none =>
      rw [List.getLast?_eq_none_iff] at hl
      rw [hl] at hm
      cases hm
    | some x =>
      have := List.mem_of_getLast? hl
      simp only [List.mem_filter, decide_eq_true_eq] at this
      obtain ⟨⟨hx, -⟩, h5, h6⟩ := this
      obtain ⟨t', ht', rfl⟩ := List.mem_map.1 hx
      rw [List.inj_on_of_nodup_map hd ht' ht (Prod.ext h5 h6)]
  rw [Option.map_eq_some_iff] at key
  exact key

variable {α : Type}

/-- **C128** Whoever asks for a message of the templates gets what the translator's file, written by GNU gettext, has for it. -/
theorem C128_shown (es : List Tr.Entry) (header : Str) (ms : List Msg) (hms : Asks es header ms) (c : W.Cfg α) (po : Str) (ts : List Msg)
    (hpo : Reads Written po ts) (h13 : 13 ∉ po) (language forms : Str) (hf : IsFor ts language forms) (ha : Answers ms ts)
    (w : W.World α) (i : Nat) (hu : InUse c po language w i) (e : Tr.Entry) (he : e ∈ es) (hid : e.id ≠ []) (h4 : 4 ∉ e.ctxt)
    (hno : ¬ Conflicts es e) :
    ∃ t ∈ ts, t.ctxt.getD [] = e.ctxt ∧ t.id = e.id ∧
      (e.isPlural = false → ∃ s, t.forms = [s] ∧ s ≠ [] ∧ ∀ args, w.x c i e.ctxt e.id args = .ok (Fmt.format c.fmt s args)) ∧
      (e.isPlural = true → ∀ id2 n args k s, Tr.SelectsForm c.diag forms n k → t.forms[k]? = some s →
        w.xn64 c i e.ctxt e.id id2 n args = .ok (Fmt.format c.fmt s args)) := by
  obtain ⟨tes, h1, h2, h3⟩ := written_text po ts hpo h13
  obtain ⟨f, hff, hfm⟩ := hms.all e he hid
  obtain ⟨hf0, hfc, hfi⟩ := Xt.firstOf_some es _ _ f hff
  obtain ⟨t, ht, ht1, ht2, ht3, ht4⟩ := ha.all _ hfm (by rw [← hfi] at hid; exact hid)
  have hpl : f.isPlural = e.isPlural := by
    by_contra hne
    exact hno ⟨f, hff, hne⟩
  have hctxt : t.ctxt.getD [] = e.ctxt := by
    rw [ht1, ← hfc]
    unfold asked
    by_cases h : f.ctxt = [] <;> simp [h]
  have hid' : t.id = e.id := ht2.trans hfi
  have hplural : t.plural.isSome = e.isPlural := by
    rw [ht3, ← hpl]
    unfold asked
    cases f.isPlural <;> rfl
  have hforms := reads_forms hpo t ht
  have hone : t.plural.isSome = false → ∃ s, t.forms = [s] ∧ s ≠ [] := by
    intro h
    obtain ⟨s, hs⟩ := hforms.2 (by simpa using h)
    exact ⟨s, hs, ht4 s (by rw [hs]; simp)⟩
  have htr : Tr.Translated (msgEntry t) := by
    unfold Tr.Translated msgEntry
    cases h : t.plural.isSome with
    | true => exact .inr (by simpa using hforms.1)
    | false =>
      obtain ⟨s, hs, hne⟩ := hone h
      exact .inl (by simpa [hs] using hne)
  obtain ⟨x, hx, hb⟩ := answer_msg ha.once h2 ht htr
  rw [hctxt, hid'] at hx
  have hshow := (W.C80_text c po tes h1 language forms (poFor_of hf h2 h3) w i hu e.ctxt e.id h4).1 x hx
  have hstr : (bare x).str = (msgEntry t).str := congrArg Tr.Entry.str hb
  have hstrN : (bare x).strN = (msgEntry t).strN := congrArg Tr.Entry.strN hb
  refine ⟨t, ht, hctxt, hid', fun hp => ?_, fun hp id2 n args k s hk hs => ?_⟩
  · rw [hp] at hplural
    obtain ⟨s, hs, hne⟩ := hone hplural
    have hxs : x.str = s := hstr.trans (by simp [msgEntry, hplural, hs])
    refine ⟨s, hs, hne, fun args => ?_⟩
    rw [hshow.translated args (by rw [hxs]; exact hne), hxs]
  · rw [hp] at hplural
    have hxs : x.strN = t.forms := hstrN.trans (by simp [msgEntry, hplural])
    exact hshow.form id2 n args k s (.inr (by rw [hxs]; exact hforms.1)) hk (by rw [hxs]; exact hs) (ht4 s (List.mem_of_getElem? hs))

/-- **C128** A message the translator's file does not have is shown as it is. -/
theorem C128_rest (c : W.Cfg α) (po : Str) (ts : List Msg) (hpo : Reads Written po ts) (h13 : 13 ∉ po) (language forms : Str)
    (hf : IsFor ts language forms) (w : W.World α) (i : Nat) (hu : InUse c po language w i) (ctxt id : Str) (h4 : 4 ∉ ctxt)
    (hno : ∀ t ∈ ts, t.ctxt.getD [] = ctxt → t.id = id → ∀ s ∈ t.forms, t.plural = none ∧ s = []) :
    (∀ args, w.x c i ctxt id args = .ok (Fmt.format c.fmt id args)) ∧
      ∀ id2 n args, w.xn64 c i ctxt id id2 n args = .ok (Fmt.defaultPlural c.fmt id id2 n args) := by
  obtain ⟨tes, h1, h2, h3⟩ := written_text po ts hpo h13
  refine (W.C80_text c po tes h1 language forms (poFor_of hf h2 h3) w i hu ctxt id h4).2 ?_
  cases hx : answer tes ctxt id with
  | none => rfl
  | some x =>
    exfalso
    have hm := List.mem_of_getLast? hx
    simp only [List.mem_filter, decide_eq_true_eq] at hm
    obtain ⟨⟨hm, htr⟩, hc, hi⟩ := hm
    have : bare x ∈ (tes.filter fun e => Tr.Translated e).map bare :=
      List.mem_map_of_mem (List.mem_filter.2 ⟨hm, decide_eq_true htr⟩)
    rw [h2, List.mem_filter, List.mem_map] at this
    obtain ⟨⟨t, ht, hb⟩, htr'⟩ := this
    obtain ⟨hne, hone⟩ := reads_forms hpo t ht
    have hall := hno t ht ((congrArg Tr.Entry.ctxt hb).trans hc) ((congrArg Tr.Entry.id hb).trans hi)
    obtain ⟨s, hs⟩ := List.exists_mem_of_ne_nil _ hne
    obtain ⟨s', hs'⟩ := hone (hall s hs).1
    have h0 : t.forms = [[]] := by
      rw [hs'] at hs ⊢
      rw [List.mem_singleton] at hs
      rw [← hs, (hall s (by rw [hs', hs]; simp)).2]
    rw [← hb, decide_eq_true_eq] at htr'
    simp [Tr.Translated, msgEntry, (hall s hs).1, h0] at htr'

/-- **C128** The whole way: the extractor is run, GNU gettext reads its file, a translator's file written by GNU gettext that answers what
was read is in use; then every call extracted from the templates shows what the translator wrote for it. -/
theorem C128_flow (E : Env) (hP : Ascii E.isPrint)
    (hsink : ∀ t, (E.sink t).2 = true → (E.sink t).1 = t) (p : Param) (hout : ¬ ToStdout p) (d : Disk)
    (kws : List Keyword) (hk : DeclaresAll p.keyword kws) (ho : OpenOk E p) (d1 : Disk) (h1 : Xt.Opened E p d d1)
    (fs : List Str) (hg : E.glob d1.files p.input = some fs) (hfs : ∀ f ∈ fs, OneLine f)
    (hh : ∀ b, Portable E.isPrint (Xt.header p E.now b).str) (printed : List Xt.RunErr)
    (d' : Disk) (h : Xt.Run E p d (.returned none printed d')) :
    ∃ ess, List.Forall₂ (FileOk E p kws d1) fs ess ∧ (NoEotIn ess.flatten →
      (∀ e ∈ ess.flatten, Portable E.isPrint e.ctxt ∧ Portable E.isPrint e.id ∧ (e.isPlural = true → Portable E.isPrint e.id2)) →
      ∃ text, d'.files (E.canon p.output) = some text ∧ (∃ ms, Reads Body text ms) ∧ ∀ ms, Reads Body text ms →
        ∀ (c : W.Cfg α) po ts language forms, Reads Written po ts → 13 ∉ po → IsFor ts language forms → Answers ms ts →
          ∀ w i, InUse c po language w i → ∀ e ∈ ess.flatten, e.id ≠ [] → ¬ Conflicts ess.flatten e →
            ∃ t ∈ ts, t.ctxt.getD [] = e.ctxt ∧ t.id = e.id ∧
              (e.isPlural = false → ∃ s, t.forms = [s] ∧ s ≠ [] ∧ ∀ args, w.x c i e.ctxt e.id args = .ok (Fmt.format c.fmt s args)) ∧
              (e.isPlural = true → ∀ id2 n args k s, Tr.SelectsForm c.diag forms n k → t.forms[k]? = some s →
                w.xn64 c i e.ctxt e.id id2 n args = .ok (Fmt.format c.fmt s args))) := by
  obtain ⟨ess, h2, h3⟩ := C128_run E hP hsink p hout d kws hk ho d1 h1 fs hg hfs hh printed d' h
  refine ⟨ess, h2, fun hn hport => ?_⟩
  obtain ⟨text, b, ms, h4, h5, h6, -⟩ := h3 hn hport
  refine ⟨text, h4, ⟨ms, h5⟩, fun ms' h5' => ?_⟩
  obtain rfl := C128_unique text ms ms' h5 h5'
  exact fun c po ts language forms hpo h13 hf ha w i hu e he hid hno =>
    C128_shown _ _ ms h6 c po ts hpo h13 language forms hf ha w i hu e he hid (hn e he) hno

/-! ## Example: the template of C81, and a PO file as GNU gettext writes it -/

/-- The environment of C81, with the printable characters of C116. -/
def gnuEnv : Env := { Flow.flowEnv with isPrint := GnuPo.someP }

theorem gnu_run : ∃ d', Xt.Run gnuEnv Flow.flowParam Flow.flowDisk (.returned none [] d') := by
  have h : (Xt.loop gnuEnv Flow.flowParam Flow.flowKws Flow.flowOpened [b!"a.html"] {} none).map (·.2) = some (none, []) := by decide +kernel
  rw [Option.map_eq_some_iff] at h
  obtain ⟨⟨ctx, e, pr⟩, h1, h2⟩ := h
  cases h2
  obtain ⟨text, ht⟩ := Xt.C57_exists gnuEnv.isPrint Flow.flowParam gnuEnv.now ctx
  exact ⟨_, .written (kws := Flow.flowKws) (by decide +kernel) (by decide) rfl h1 ht⟩

/-- The translator's file. -/
def gnuPo : Str := b!"# French\nmsgid \"\"\nmsgstr \"\"\n\"Language: fr\\n\"\n\"Plural-Forms: nplurals=2; plural=n > 1;\\n\"\n\n#: a.html:1\nmsgid \"a\"\nmsgstr \"y\"\n\n#: a.html:2\nmsgid \"one\"\nmsgid_plural \"many\"\nmsgstr[0] \"un\"\nmsgstr[1] \"des\"\n"

/-- Its messages. -/
def gnuMsgs : List Msg :=
  [⟨none, [], none, [b!"Language: fr\nPlural-Forms: nplurals=2; plural=n > 1;\n"]⟩, ⟨none, b!"a", none, [b!"y"]⟩,
   ⟨none, b!"one", some b!"many", [b!"un", b!"des"]⟩]

theorem written_nl (s : Str) (h : ∀ c ∈ s, 32 ≤ c.toNat ∧ c.toNat < 127 ∧ c.toNat ≠ 34 ∧ c.toNat ≠ 92) :
    Written (s ++ b!"\\n") (s ++ [10]) := by
  induction s with
  | nil => exact .letter 110 10 (by decide) .nil
  | cons c s ih =>
    have hc := h c (by simp)
    obtain ⟨e, hu⟩ := GnuPo.ascii_char (c := c) (by omega)
    rw [List.cons_append, List.cons_append, show ∀ t : Str, c :: t = Literal.utf8 (Char.ofNat c.toNat) ++ t from fun t => by rw [hu]; rfl,
      show ∀ t : Str, c :: t = Literal.utf8 (Char.ofNat c.toNat) ++ t from fun t => by rw [hu]; rfl]
    exact .raw _ (by omega) (by omega) (by omega) (ih fun c hc => h c (by simp [hc]))

theorem gnuPo_reads : Reads Written gnuPo gnuMsgs := by
  have hw := GnuPo.plain_written
  have h0 : GnuPo.Message Written b!"msgid \"\"\nmsgstr \"\"\n\"Language: fr\\n\"\n\"Plural-Forms: nplurals=2; plural=n > 1;\\n\"\n"
      ⟨none, [], none, [b!"Language: fr\nPlural-Forms: nplurals=2; plural=n > 1;\n"]⟩ :=
    .single (a := []) (b := b!"msgid \"\"\n") (s := b!"msgstr \"\"\n\"Language: fr\\n\"\n\"Plural-Forms: nplurals=2; plural=n > 1;\\n\"\n") .none
      ⟨b!"\"\"\n", rfl, .one (t := []) .nil⟩
      ⟨b!"\"\"\n\"Language: fr\\n\"\n\"Plural-Forms: nplurals=2; plural=n > 1;\\n\"\n", rfl, .more (t := []) (d := []) .nil
        (.more (t := b!"Language: fr\\n") (d := b!"Language: fr\n") (written_nl b!"Language: fr" (by decide))
        (.one (t := b!"Plural-Forms: nplurals=2; plural=n > 1;\\n") (written_nl b!"Plural-Forms: nplurals=2; plural=n > 1;" (by decide))))⟩
  have h1 : GnuPo.Message Written b!"msgid \"a\"\nmsgstr \"y\"\n" ⟨none, b!"a", none, [b!"y"]⟩ :=
    .single (a := []) (b := b!"msgid \"a\"\n") (s := b!"msgstr \"y\"\n") .none
      ⟨b!"\"a\"\n", rfl, .one (t := b!"a") (hw _ (by decide))⟩ ⟨b!"\"y\"\n", rfl, .one (t := b!"y") (hw _ (by decide))⟩
  have h2 : GnuPo.Message Written b!"msgid \"one\"\nmsgid_plural \"many\"\nmsgstr[0] \"un\"\nmsgstr[1] \"des\"\n"
      ⟨none, b!"one", some b!"many", [b!"un", b!"des"]⟩ :=
    .plural (a := []) (b := b!"msgid \"one\"\n") (p := b!"msgid_plural \"many\"\n") (s := b!"msgstr[0] \"un\"\nmsgstr[1] \"des\"\n") .none
      ⟨b!"\"one\"\n", rfl, .one (t := b!"one") (hw _ (by decide))⟩ ⟨b!"\"many\"\n", rfl, .one (t := b!"many") (hw _ (by decide))⟩
      (.cons (s := b!"msgstr[0] \"un\"\n") (t := b!"msgstr[1] \"des\"\n") ⟨b!"\"un\"\n", by decide, .one (t := b!"un") (hw _ (by decide))⟩
        (.cons (s := b!"msgstr[1] \"des\"\n") (t := []) ⟨b!"\"des\"\n", by decide, .one (t := b!"des") (hw _ (by decide))⟩ .nil)) (by simp)
  exact .comment (l := b!"# French") ⟨_, rfl, by decide, by decide, by decide⟩ (.message h0 (.blank
    (.comment (l := b!"#: a.html:1") ⟨_, rfl, by decide, by decide, by decide⟩ (.message h1 (.blank
    (.comment (l := b!"#: a.html:2") ⟨_, rfl, by decide, by decide, by decide⟩ (.message (s := []) h2 .nil)))))))

theorem gnuMsgs_for : IsFor gnuMsgs b!"fr" b!"nplurals=2; plural=n > 1;" := by
  refine ⟨by decide, ⟨_, rfl, ?_, .inl ?_⟩, by decide⟩
  · exact (Tr.C15_first_wins _ _ _).mp (by decide +kernel)
  · exact (Tr.C15_first_wins _ _ _).mp (by decide +kernel)

theorem gnu_answers (es : List Tr.Entry) (hp : es.Perm Flow.flowEntries) (header : Str) (ms : List Msg) (hms : Asks es header ms) :
    Answers ms gnuMsgs := by
  refine ⟨fun m hm hid => ?_, by decide⟩
  obtain ⟨f, hf, -, rfl⟩ := hms.only m hm hid
  have hm := hp.subset hf
  simp only [Flow.flowEntries, List.mem_cons, List.not_mem_nil, or_false] at hm
  rcases hm with rfl | rfl
  · exact ⟨⟨none, b!"a", none, [b!"y"]⟩, by decide, by decide, rfl, by decide, by decide⟩
  · exact ⟨⟨none, b!"one", some b!"many", [b!"un", b!"des"]⟩, by decide, by decide, rfl, by decide, by decide⟩

/-- The run leaves a file in which GNU gettext finds messages that the translator's file answers. -/
theorem gnu_pot (d' : Disk) (h : Xt.Run gnuEnv Flow.flowParam Flow.flowDisk (.returned none [] d')) :
    ∃ es text header ms, es.Perm Flow.flowEntries ∧ d'.files b!"m.pot" = some text ∧ Reads Body text ms ∧ Asks es header ms ∧
      Answers ms gnuMsgs := by
  obtain ⟨ess, h1, h2⟩ := C128_run gnuEnv GnuPo.someP_ascii (fun _ _ => rfl) Flow.flowParam (by unfold ToStdout; decide) Flow.flowDisk
    Flow.flowKws ((Xt.C53_exact _ _).mp (by decide +kernel)) (.inr (.inr rfl)) Flow.flowOpened ((Xt.opened_iff _ _ _ _).mpr rfl) [b!"a.html"]
    rfl (by simp [OneLine]) (by
      intro b
      apply GnuPo.plain_portable
      cases b <;> decide +kernel) [] d' h
  cases h1 with
  | @cons _ es _ _ hf ht =>
    cases ht
    have hp := Flow.flow_file es hf
    rw [List.flatten_cons, List.flatten_nil, List.append_nil] at h2
    obtain ⟨text, b, ms, h5, h6, h7, -⟩ := h2 (by
      intro e he
      have : ∀ e ∈ Flow.flowEntries, 4 ∉ e.ctxt := by decide
      exact this e (hp.subset he)) (by
      intro e he
      have := hp.subset he
      simp only [Flow.flowEntries, List.mem_cons, List.not_mem_nil, or_false] at this
      rcases this with rfl | rfl
      · exact ⟨.nil, GnuPo.plain_portable _ (by decide), fun h => by cases h⟩
      · exact ⟨.nil, GnuPo.plain_portable _ (by decide), fun _ => GnuPo.plain_portable _ (by decide)⟩)
    exact ⟨es, text, _, ms, hp, h5, h6, h7, gnu_answers es hp _ ms h7⟩

/-- After the run, with the translator's file in use, the messages come out translated; a message the templates do not have does not. -/
example (c : W.Cfg α) (w : W.World α) (h : W.Reach c w) (i : Nat) (hi : i < w.tss.length) (hfmt : ∀ s, Fmt.format c.fmt s [] = s) :
    let w' := ((w.bindFS c i b!"app" (some (W.Node.dir b!"." true [.file b!"fr.po" (some ⟨some b!"fr.po", some gnuPo⟩)]))).setDomain i
      b!"app").setLocale c i b!"fr" []
    w'.x c i [] b!"a" [] = .ok b!"y" ∧ w'.xn64 c i [] b!"one" b!"many" 3 [] = .ok b!"des" ∧ w'.x c i [] b!"b" [] = .ok b!"b" := by
  intro w'
  obtain ⟨d', hrun⟩ := gnu_run
  obtain ⟨es, text, header, ms, hp, -, -, hms, ha⟩ := gnu_pot d' hrun
  have hu := W.inUse_usual c gnuPo b!"fr" b!"fr.po" ⟨b!"fr", rfl⟩ w h i hi b!"app" b!"fr" [] (by decide) rfl
  have hno : ∀ e ∈ es, ¬ Conflicts es e := by
    rintro e he ⟨f, hf, hd⟩
    obtain ⟨hmem, -, hi⟩ := Xt.firstOf_some _ _ _ _ hf
    have : ∀ e ∈ Flow.flowEntries, ∀ f ∈ Flow.flowEntries, f.id = e.id → f.isPlural = e.isPlural := by decide
    exact hd (this e (hp.subset he) f (hp.subset hmem) hi)
  have key := C128_shown es header ms hms c gnuPo gnuMsgs gnuPo_reads (by decide +kernel) _ _ gnuMsgs_for ha w' i hu
  refine ⟨?_, ?_, ?_⟩
  · have he := hp.symm.subset (show ({ cmts := [b!"#: a.html:1"], id := b!"a" } : Tr.Entry) ∈ Flow.flowEntries by decide)
    obtain ⟨t, ht, -, hid, h1, -⟩ := key _ he (by decide) (by decide) (hno _ he)
    have : ∀ t ∈ gnuMsgs, t.id = b!"a" → t.forms = [b!"y"] := by decide
    obtain ⟨s, hs, -, h2⟩ := h1 rfl
    rw [this t ht hid] at hs
    cases hs
    exact (h2 []).trans (by rw [hfmt])
  · have he := hp.symm.subset (show ({ cmts := [b!"#: a.html:2"], id := b!"one", isPlural := true, id2 := b!"many" } : Tr.Entry) ∈
      Flow.flowEntries by decide)
    obtain ⟨t, ht, -, hid, -, h2⟩ := key _ he (by decide) (by decide) (hno _ he)
    have : ∀ t ∈ gnuMsgs, t.id = b!"one" → t.forms = [b!"un", b!"des"] := by decide
    have h3 := h2 rfl b!"many" 3 [] 1 b!"des" ⟨50, b!"n > 1", 1, ⟨[], [], [], [], [32], [], [], [], by simp [Tr.Ws],
      by simp [Tr.Ws], by simp [Tr.Ws], by simp [Tr.Ws], by simp [Tr.Ws], by simp [Tr.Ws], by simp [Tr.Ws], by simp [Tr.Ws], by decide,
      by decide, by decide, by simp, by simp [Tr.Ws], rfl⟩, rfl, rfl, by decide⟩ (by rw [this t ht hid]; rfl)
    exact h3.trans (by rw [hfmt])
  · have := (C128_rest c gnuPo gnuMsgs gnuPo_reads (by decide +kernel) _ _ gnuMsgs_for w' i hu [] b!"b" (by decide) (by decide)).1 []
    exact this.trans (by rw [hfmt])

end Verif.GnuFlow
