import Verif.Spec.Msgfmt
import Verif.Props.C80
/-!
# C124 A PO file and what msgfmt makes of it
-/
namespace Verif.Msgfmt
open Verif Verif.Tr Verif.W

variable {α : Type}

theorem kept_translated {e : Entry} (h : Kept e) : Translated e := by
  obtain ⟨⟨c, r, h, -⟩, -⟩ := h
  unfold transOf at h
  split at h
  · exact .inl (by rw [h]; simp)
  · rename_i hn
    exact .inr hn

/-- Reading a compiled file. -/
theorem compiled_read {ts : List Entry} {c : Str} (h : Compiled ts c) :
    ∃ es : List Entry, (∀ e, e ∈ es ↔ e ∈ ts ∧ Kept e) ∧ readMo c = .ok ((es.map Entry.bare).foldl File.addEntry {}) := by
  obtain ⟨be, l, h1, h2, h3⟩ := h
  refine ⟨_, h2, ?_⟩
  rw [readMo_of_file h1]
  unfold moFileOf
  congr 2
  rw [List.map_map, List.map_map]
  exact List.map_congr_left fun x hx => ((moMsg_iff _ _ _).1 (h3 x hx)).symm

theorem same_of_distinct {ts : List Entry} (hd : Distinct ts) {a b : Entry} (ha : a ∈ ts) (hb : b ∈ ts) (ta : Translated a) (tb : Translated b)
    (h1 : a.ctxt = b.ctxt) (h2 : a.id = b.id) : a = b :=
  List.inj_on_of_nodup_map hd.1 (List.mem_filter.2 ⟨ha, decide_eq_true ta⟩) (List.mem_filter.2 ⟨hb, decide_eq_true tb⟩) (by rw [h1, h2])

/-- The only entry for a message is the last one. -/
theorem answer_iff {ts : List Entry} (hd : Distinct ts) {ctxt id : Str} {e : Entry} :
    answer ts ctxt id = some e ↔ e ∈ ts ∧ Translated e ∧ e.ctxt = ctxt ∧ e.id = id := by
  unfold answer Tr.lastFor
  constructor
  · intro h
    have := List.mem_of_getLast? h
    simp only [List.mem_filter, decide_eq_true_eq] at this
    exact ⟨this.1.1, this.1.2, this.2.1, this.2.2⟩
  · rintro ⟨h1, h2, rfl, rfl⟩
    have hm : e ∈ (ts.filter fun e => Translated e).filter fun x => x.ctxt = e.ctxt ∧ x.id = e.id := by
      simp [h1, h2]
    cases hl : ((ts.filter fun e => Translated e).filter fun x => x.ctxt = e.ctxt ∧ x.id = e.id).getLast? with
    | none =>
      rw [List.getLast?_eq_none_iff] at hl
      rw [hl] at hm
      cases hm
    | some x =>
      have := List.mem_of_getLast? hl
      simp only [List.mem_filter, decide_eq_true_eq] at this
      rw [same_of_distinct hd this.1.1 h1 this.1.2 h2 this.2.1 this.2.2]

/-- What the compiled file has for a message. -/
theorem compiled_get {ts es : List Entry} (hd : Distinct ts) (h4 : ∀ e ∈ ts, 4 ∉ e.ctxt) (hes : ∀ e, e ∈ es ↔ e ∈ ts ∧ Kept e) {ctxt id : Str}
    (hc : 4 ∉ ctxt) (e : Entry) :
    ((es.map Entry.bare).foldl File.addEntry {}).entries.get? (key ctxt id) = some e ↔
      ∃ x, answer ts ctxt id = some x ∧ Kept x ∧ e = x.bare := by
  rw [foldl_addEntry_entries, getLast?_bare]
  simp only [GMap.get?, Option.or_none, Option.map_eq_some_iff]
  have hk : ∀ x ∈ es, x.key = key ctxt id ↔ x.ctxt = ctxt ∧ x.id = id := by
    intro x hx
    have := h4 x ((hes x).1 hx).1
    exact ⟨key_inj _ _ _ _ this hc, fun h => by rw [← h.1, ← h.2]; rfl⟩
  constructor
  · rintro ⟨x, hx, rfl⟩
    have := List.mem_of_getLast? hx
    simp only [List.mem_filter, decide_eq_true_eq] at this
    obtain ⟨hxe, hxk⟩ := this
    obtain ⟨h1, h2⟩ := (hes x).1 hxe
    obtain ⟨rfl, rfl⟩ := (hk x hxe).1 hxk
    exact ⟨x, (answer_iff hd).2 ⟨h1, kept_translated h2, rfl, rfl⟩, h2, rfl⟩
  · rintro ⟨x, hx, h2, rfl⟩
    obtain ⟨h1, h3, rfl, rfl⟩ := (answer_iff hd).1 hx
    have hxe := (hes x).2 ⟨h1, h2⟩
    have hm : x ∈ es.filter fun e => e.key = key x.ctxt x.id := by
      simp only [List.mem_filter, decide_eq_true_eq]
      exact ⟨hxe, rfl⟩
    cases hl : (es.filter fun e => e.key = key x.ctxt x.id).getLast? with
    | none =>
      rw [List.getLast?_eq_none_iff] at hl
      rw [hl] at hm
      cases hm
    | some y =>
      have := List.mem_of_getLast? hl
      simp only [List.mem_filter, decide_eq_true_eq] at this
      obtain ⟨hye, hyk⟩ := this
      obtain ⟨g1, g2⟩ := (hes y).1 hye
      obtain ⟨k1, k2⟩ := (hk y hye).1 hyk
      exact ⟨y, rfl, by rw [same_of_distinct hd g1 h1 (kept_translated g2) h3 k1 k2]⟩

/-- Both files have the same headers. -/
theorem compiled_header {ts es : List Entry} (hd : Distinct ts) (hes : ∀ e, e ∈ es ↔ e ∈ ts ∧ Kept e)
    (hk : ∀ e ∈ ts, Translated e → e.id = [] → Kept e) (k : Str) :
    (((ts.filter fun e => Translated e).foldl File.addEntry {}).getHeader k).1 = (((es.map Entry.bare).foldl File.addEntry {}).getHeader k).1 := by
  apply Option.ext
  intro v
  rw [read_headers, read_headers, find_bare]
  constructor
  · rintro ⟨e, h1, h2, h3⟩
    have hm := List.mem_of_find?_eq_some h1
    have hid : e.id = [] := by simpa using List.find?_some h1
    rw [List.mem_filter, decide_eq_true_eq] at hm
    have hee := (hes e).2 ⟨hm.1, hk e hm.1 hm.2 hid⟩
    cases hl : es.find? fun e => e.id = [] with
    | none =>
      rw [List.find?_eq_none] at hl
      exact absurd (decide_eq_true hid) (hl e hee)
    | some y =>
      have hy := List.mem_of_find?_eq_some hl
      have hyid : y.id = [] := by simpa using List.find?_some hl
      obtain ⟨g1, g2⟩ := (hes y).1 hy
      have g3 := kept_translated g2
      have := same_of_distinct hd g1 hm.1 g3 hm.2 (by rw [hd.2 y g1 g3 hyid, h2]) (by rw [hyid, hid])
      subst this
      exact ⟨y.bare, rfl, h2, h3⟩
  · rintro ⟨e, h1, h2, h3⟩
    rw [Option.map_eq_some_iff] at h1
    obtain ⟨e, h1, rfl⟩ := h1
    have hm := List.mem_of_find?_eq_some h1
    have hid : e.id = [] := by simpa using List.find?_some h1
    obtain ⟨g1, g2⟩ := (hes e).1 hm
    have g3 := kept_translated g2
    cases hl : (ts.filter fun e => Translated e).find? fun e => e.id = [] with
    | none =>
      rw [List.find?_eq_none] at hl
      exact absurd (decide_eq_true hid) (hl e (List.mem_filter.2 ⟨g1, decide_eq_true g3⟩))
    | some y =>
      have hy := List.mem_of_find?_eq_some hl
      have hyid : y.id = [] := by simpa using List.find?_some hl
      rw [List.mem_filter, decide_eq_true_eq] at hy
      have := same_of_distinct hd hy.1 g1 hy.2 g3 (by rw [hd.2 y hy.1 hy.2 hyid, hd.2 e g1 g3 hid]) (by rw [hyid, hid])
      subst this
      exact ⟨y, rfl, h2, h3⟩

/-- **C124** A PO text and an MO file that msgfmt made of it are for the same language and answer alike for every message but the translated
ones that msgfmt leaves out; for those the MO file shows the source text. -/
theorem C124_compiled (c : Cfg α) (po mo : Str) (hne : po ≠ []) (ts : List Entry) (hpo : PoText po ts) (hd : Distinct ts) (h4 : ∀ e ∈ ts, 4 ∉ e.ctxt)
    (hk : ∀ e ∈ ts, Translated e → e.id = [] → Kept e) (hc : Compiled ts mo) :
    ∃ f g, readPo po = .ok f ∧ readMo mo = .ok g ∧ (fileTor c f).lang = (fileTor c g).lang ∧ ∀ ctxt id, 4 ∉ ctxt →
      ((∀ e, answer ts ctxt id = some e → Kept e) →
        (fileTor c f).x ctxt id = (fileTor c g).x ctxt id ∧ (fileTor c f).xn ctxt id = (fileTor c g).xn ctxt id) ∧
      ∀ e, answer ts ctxt id = some e → ¬ Kept e → (∀ args, (fileTor c g).x ctxt id args = .ok (Fmt.format c.fmt id args)) ∧
        ∀ id2 n args, (fileTor c g).xn ctxt id id2 n args = .ok (Fmt.defaultPlural c.fmt id id2 n args) := by
  obtain ⟨es, hes, hread⟩ := compiled_read hc
  have hrf : readPo po = .ok ((ts.filter fun e => Translated e).foldl File.addEntry {}) := (C26_ok_iff po _).mpr ⟨hne, ts, hpo, rfl⟩
  refine ⟨_, _, hrf, hread, ?_, ?_⟩
  · simp only [fileTor, File.lang]
    rw [compiled_header hd hes hk hLanguage]
  · intro ctxt id hctxt
    have r1 := initPlural_ruleOk _ (foldl_ruleOk (ts.filter fun e => Translated e) {} (.inl rfl))
    have r2 := initPlural_ruleOk _ (foldl_ruleOk (es.map Entry.bare) {} (.inl rfl))
    have hpf := compiled_header hd hes hk hPluralForms
    rw [getHeader_eq, getHeader_eq] at hpf
    rw [hpf] at r1
    rw [← r2] at r1
    have hf := C25_last_translated po _ ts hrf hpo h4 ctxt id hctxt
    have hg := compiled_get hd h4 hes (id := id) hctxt
    have hf' : ((ts.filter fun e => Translated e).foldl File.addEntry {}).entries.get? (key ctxt id) = answer ts ctxt id := hf
    clear hpf r2 hf hrf hread
    generalize (ts.filter fun e => Translated e).foldl File.addEntry {} = f at *
    generalize (es.map Entry.bare).foldl File.addEntry {} = g at *
    constructor
    · intro h
      cases ha : answer ts ctxt id with
      | none =>
        have hgn : g.entries.get? (key ctxt id) = none := by
          cases hge : g.entries.get? (key ctxt id) with
          | none => rfl
          | some e =>
            obtain ⟨x, hx, -⟩ := (hg e).1 hge
            rw [ha] at hx
            cases hx
        rw [ha] at hf'
        constructor
        · funext args
          simp only [fileTor, File.x, hf', hgn]
        · funext id2 n args
          simp only [fileTor, File.xn, hf', hgn]
      | some e =>
        have hge := (hg e.bare).2 ⟨e, ha, h e ha, rfl⟩
        rw [ha] at hf'
        constructor
        · funext args
          simp only [fileTor, File.x, hf', hge]
          rfl
        · funext id2 n args
          simp only [fileTor, File.xn, hf', hge, Entry.bare]
          split
          · rfl
          · simp only [r1]
            rfl
    · intro e ha hnk
      have hgn : g.entries.get? (key ctxt id) = none := by
        cases hge : g.entries.get? (key ctxt id) with
        | none => rfl
        | some y =>
          obtain ⟨x, hx, hx2, -⟩ := (hg y).1 hge
          rw [ha] at hx
          cases hx
          exact absurd hx2 hnk
      constructor
      · intro args
        simp only [fileTor, File.x, hgn]
      · intro id2 n args
        simp only [fileTor, File.xn, hgn]

/-- **C124** So a fuzzy translation, which other programs do not show, is shown if the PO file is loaded, and not if the MO file is. -/
theorem C124_fuzzy (c : Cfg α) (po mo : Str) (hne : po ≠ []) (ts : List Entry) (hpo : PoText po ts) (hd : Distinct ts) (h4 : ∀ e ∈ ts, 4 ∉ e.ctxt)
    (hk : ∀ e ∈ ts, Translated e → e.id = [] → Kept e) (hc : Compiled ts mo) (e : Entry) (he : e ∈ ts) (hfz : Fuzzy e) (hid : e.id ≠ [])
    (hs : e.str ≠ []) :
    ∃ f g, readPo po = .ok f ∧ readMo mo = .ok g ∧ ∀ args, (fileTor c f).x e.ctxt e.id args = .ok (Fmt.format c.fmt e.str args) ∧
      (fileTor c g).x e.ctxt e.id args = .ok (Fmt.format c.fmt e.id args) := by
  obtain ⟨f, g, h1, h2, -, h⟩ := C124_compiled c po mo hne ts hpo hd h4 hk hc
  have ha := (answer_iff hd).2 ⟨he, .inl hs, rfl, rfl⟩
  have hnk : ¬ Kept e := by
    rintro ⟨-, hn | ⟨-, hn⟩⟩
    · exact hn hfz
    · exact hid hn
  refine ⟨f, g, h1, h2, fun args => ⟨?_, ((h e.ctxt e.id (h4 e he)).2 e ha hnk).1 args⟩⟩
  have hf : f.entries.get? (key e.ctxt e.id) = some e := (C25_last_translated po f ts h1 hpo h4 e.ctxt e.id (h4 e he)).trans ha
  simp only [fileTor, File.x, hf, if_neg hs]

/-- A header, a message, and a fuzzy message. -/
def hello : List Entry := [{ cmts := [b!"#, fuzzy"], str := b!"Language: fr\n" }, { id := b!"a", str := b!"A" },
  { cmts := [b!"#, c-format, fuzzy"], id := b!"b", str := b!"B" }]

theorem not_fuzzy (e : Entry) (h : e.cmts = []) : ¬ Fuzzy e := by
  rintro ⟨a, c, b, h1, -⟩
  rw [h] at h1
  simp at h1

/-- The conditions of the theorems can be met. -/
example : PoText (savePo (fun _ => false) hello) hello ∧ Distinct hello ∧ (∀ e ∈ hello, 4 ∉ e.ctxt) ∧ (∀ e ∈ hello, Translated e → e.id = [] → Kept e) ∧
    Compiled hello (moImage true [] [(b!"", b!"Language: fr\n"), (b!"a", b!"A")]) ∧
    ∃ e ∈ hello, Fuzzy e ∧ e.id ≠ [] ∧ e.str ≠ [] := by
  have hfz : Fuzzy hello[2] := ⟨[], _, [], rfl, ⟨b!" c-format, ", [], rfl, by decide, by decide⟩, by simp⟩
  have k0 : Kept hello[0] := ⟨⟨_, _, rfl, by decide⟩, .inr ⟨rfl, rfl⟩⟩
  have k1 : Kept hello[1] := ⟨⟨_, _, rfl, by decide⟩, .inl (not_fuzzy _ rfl)⟩
  have k2 : ¬ Kept hello[2] := by
    rintro ⟨-, hn | ⟨-, hn⟩⟩
    · exact hn hfz
    · cases hn
  refine ⟨?_, ⟨by decide, by decide⟩, by decide, ?_, ?_, ⟨hello[2], by simp [hello], hfz, by decide, by decide⟩⟩
  · have hp := shapeText_parses (fun _ => false) rfl rfl (hello.map poShape) (by decide) (by
      intro s hs
      simp only [hello, List.map_cons, List.map_nil, List.mem_cons, List.not_mem_nil, or_false] at hs
      rcases hs with rfl | rfl | rfl <;>
        exact ⟨by intro c hc; simp [poShape] at hc; try (subst hc; exact ⟨⟨_, rfl⟩, by decide, by decide⟩), by decide, by decide⟩)
    rw [← savePo_eq] at hp
    exact hp
  · intro e he ht hid
    simp only [hello, List.mem_cons, List.not_mem_nil, or_false] at he
    rcases he with rfl | rfl | rfl
    · exact k0
    · exact k1
    · cases hid
  · refine ⟨true, [((b!"", b!"Language: fr\n"), hello[0]), ((b!"a", b!"A"), hello[1])], moImage_file true [] _ (by decide +kernel), ?_, ?_⟩
    · intro e
      simp only [List.map_cons, List.map_nil, List.mem_cons, List.not_mem_nil, or_false]
      constructor
      · rintro (rfl | rfl)
        · exact ⟨by simp [hello], k0⟩
        · exact ⟨by simp [hello], k1⟩
      · rintro ⟨he, hk⟩
        change e ∈ [hello[0], hello[1], hello[2]] at he
        simp only [List.mem_cons, List.not_mem_nil, or_false] at he
        rcases he with rfl | rfl | rfl
        · exact .inl rfl
        · exact .inr rfl
        · exact absurd hk k2
    · intro x hx
      simp only [List.mem_cons, List.not_mem_nil, or_false] at hx
      rcases hx with rfl | rfl <;> exact (moMsg_iff _ _ _).2 (by decide +kernel)

end Verif.Msgfmt
