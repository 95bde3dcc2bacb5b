import Verif.Spec.Run
import Verif.Spec.File
import Verif.Lemmas.File
import Verif.Lemmas.GMap
import Verif.Lemmas.Mo
import Verif.Props.C28_C29
import Mathlib.Data.List.Induction
import Mathlib.Tactic.ByContra
/-!
# C56: merging of collected entries.  C57: the POT and its header.
-/
namespace Verif.Xt
open Verif

theorem addAll_append (ctx : Ctx) (es es' : List Tr.Entry) : ctx.addAll (es ++ es') =
    (((ctx.addAll es).1.addAll es').1, (ctx.addAll es).2 ++ ((ctx.addAll es).1.addAll es').2) := by
  induction es generalizing ctx with
  | nil => simp [Ctx.addAll]
  | cons e es ih =>
    simp only [List.cons_append, Ctx.addAll, ih]
    split <;> simp

theorem addAll_snoc (ctx : Ctx) (es : List Tr.Entry) (e : Tr.Entry) : ctx.addAll (es ++ [e]) =
    (((ctx.addAll es).1.add e).1, (ctx.addAll es).2 ++ if ((ctx.addAll es).1.add e).2 then [e] else []) := by
  rw [addAll_append]
  simp [Ctx.addAll]

theorem firstOf_snoc (es : List Tr.Entry) (e : Tr.Entry) (c i : Str) : firstOf (es ++ [e]) c i =
    (firstOf es c i).or (if e.ctxt = c ∧ e.id = i then some e else none) := by
  unfold firstOf
  rw [List.find?_append]
  congr 1
  by_cases h : e.ctxt = c ∧ e.id = i <;> simp [h]

theorem firstOf_some (es : List Tr.Entry) (c i : Str) (f : Tr.Entry) (h : firstOf es c i = some f) :
    f ∈ es ∧ f.ctxt = c ∧ f.id = i := by
  refine ⟨List.mem_of_find?_eq_some h, ?_⟩
  simpa using List.find?_some h

theorem firstOf_none (es : List Tr.Entry) (c i : Str) (h : firstOf es c i = none) (e : Tr.Entry) (he : e ∈ es) :
    ¬ (e.ctxt = c ∧ e.id = i) := by
  have := List.find?_eq_none.mp h e he
  simpa using this

theorem firstOf_mem (es : List Tr.Entry) (e : Tr.Entry) (he : e ∈ es) : ∃ f, firstOf es e.ctxt e.id = some f := by
  cases h : firstOf es e.ctxt e.id with
  | some f => exact ⟨f, rfl⟩
  | none => exact absurd ⟨rfl, rfl⟩ (firstOf_none es _ _ h e he)

theorem merged_some (es : List Tr.Entry) (c i : Str) (e : Tr.Entry) (h : merged es c i = some e) :
    ∃ f ∈ es, f.ctxt = c ∧ f.id = i ∧ e.ctxt = c ∧ e.id = i ∧ firstOf es c i = some f ∧ e.isPlural = f.isPlural := by
  unfold merged at h
  rw [Option.map_eq_some_iff] at h
  obtain ⟨f, hf, rfl⟩ := h
  obtain ⟨h1, h2, h3⟩ := firstOf_some es c i f hf
  exact ⟨f, h1, h2, h3, h2, h3, hf, rfl⟩

/-- What is known of the collection. -/
structure Inv (es : List Tr.Entry) (ctx : Ctx) : Prop where
  nodup : ctx.entries.keys.Nodup
  keyed : ∀ q ∈ ctx.entries, q.1 = q.2.key ∧ ∃ e ∈ es, q.2.ctxt = e.ctxt ∧ q.2.id = e.id
  get : ∀ c i, 4 ∉ c → ctx.entries.get? (Tr.key c i) = merged es c i
  plural : ctx.hasPlural = true ↔ ∃ q ∈ ctx.entries, q.2.isPlural = true

theorem merged_snoc_other (es : List Tr.Entry) (e : Tr.Entry) (c i : Str) (h : ¬ (e.ctxt = c ∧ e.id = i)) :
    merged (es ++ [e]) c i = merged es c i := by
  unfold merged
  rw [firstOf_snoc, if_neg h, Option.or_none]
  congr 1
  funext f
  have : ([e].filter fun x => x.ctxt = c ∧ x.id = i ∧ x.isPlural = f.isPlural) = [] := by
    simp only [List.filter_cons, List.filter_nil]
    rw [if_neg]
    simp only [decide_eq_true_eq]
    rintro ⟨h1, h2, _⟩
    exact h ⟨h1, h2⟩
  rw [List.filter_append, this, List.append_nil]

theorem merged_snoc_first (es : List Tr.Entry) (e : Tr.Entry) (h : firstOf es e.ctxt e.id = none) :
    merged (es ++ [e]) e.ctxt e.id = some e := by
  unfold merged
  rw [firstOf_snoc, h]
  have h2 : (es.filter fun x => x.ctxt = e.ctxt ∧ x.id = e.id ∧ x.isPlural = e.isPlural) = [] := by
    rw [List.filter_eq_nil_iff]
    intro x hx
    have := firstOf_none es _ _ h x hx
    simp only [decide_eq_true_eq]
    rintro ⟨h1, h2, _⟩
    exact this ⟨h1, h2⟩
  simp only [Option.none_or, and_self, if_true, Option.map_some, List.filter_append, h2]
  simp

theorem merged_snoc_again (es : List Tr.Entry) (e f : Tr.Entry) (h : firstOf es e.ctxt e.id = some f) :
    merged (es ++ [e]) e.ctxt e.id = (merged es e.ctxt e.id).map fun x =>
      if f.isPlural = e.isPlural then { x with cmts := x.cmts ++ e.cmts } else x := by
  unfold merged
  rw [firstOf_snoc, h]
  by_cases hp : f.isPlural = e.isPlural
  · simp [List.filter_append, hp]
  · have hp' : ¬ e.isPlural = f.isPlural := fun h => hp h.symm
    simp [List.filter_append, hp, hp']

theorem mem_set {V : Type} (m : GMap V) (k : Str) (v : V) (q : Str × V) (h : q ∈ m.set k v) : q = (k, v) ∨ q ∈ m := by
  induction m with
  | nil => simpa [GMap.set] using h
  | cons p m ih =>
    obtain ⟨k', v'⟩ := p
    by_cases hk : k' = k
    · simp [GMap.set, hk] at h
      rcases h with h | h
      · exact .inl h
      · exact .inr (by simp [h])
    · simp [GMap.set, hk] at h
      rcases h with h | h
      · exact .inr (by simp [h])
      · rcases ih h with h | h
        · exact .inl h
        · exact .inr (by simp [h])

theorem set_mem {V : Type} (m : GMap V) (hm : m.keys.Nodup) (k : Str) (v : V) (q : Str × V) :
    q ∈ m.set k v ↔ q = (k, v) ∨ (q ∈ m ∧ q.1 ≠ k) := by
  obtain ⟨k', v'⟩ := q
  rw [← GMap.get?_iff _ (GMap.nodup_set m k v hm), GMap.get?_set]
  by_cases h : k' = k
  · subst h
    simp [eq_comm]
  · rw [if_neg h, GMap.get?_iff m hm]
    simp [h]

theorem inv_add (es : List Tr.Entry) (ctx : Ctx) (e : Tr.Entry) (hI : Inv es ctx) (he : 4 ∉ e.ctxt) : Inv (es ++ [e]) (ctx.add e).1 := by
  have hget := hI.get e.ctxt e.id he
  unfold Ctx.add
  rw [show e.key = Tr.key e.ctxt e.id from rfl] at *
  split
  · rename_i pre hpre
    rw [hget] at hpre
    obtain ⟨f, hf, hfc, hfi, hpc, hpi, hff, hpl⟩ := merged_some _ _ _ _ hpre
    split
    · rename_i hne
      refine ⟨hI.nodup, ?_, ?_, hI.plural⟩
      · intro q hq
        obtain ⟨h1, x, hx, h2⟩ := hI.keyed q hq
        exact ⟨h1, x, by simp [hx], h2⟩
      · intro c i hc
        rw [hI.get c i hc]
        by_cases hm : e.ctxt = c ∧ e.id = i
        · obtain ⟨rfl, rfl⟩ := hm
          rw [merged_snoc_again es e f hff, hpre]
          rw [hpl] at hne
          simp [hne]
        · rw [merged_snoc_other es e c i hm]
    · rename_i heq
      have heq : pre.isPlural = e.isPlural := by simpa using heq
      refine ⟨GMap.nodup_set _ _ _ hI.nodup, ?_, ?_, ?_⟩
      · intro q hq
        rcases mem_set _ _ _ _ hq with rfl | hq
        · exact ⟨by simp [Tr.Entry.key, hpc, hpi], e, by simp, hpc, hpi⟩
        · obtain ⟨h1, x, hx, h2⟩ := hI.keyed q hq
          exact ⟨h1, x, by simp [hx], h2⟩
      · intro c i hc
        dsimp only
        rw [GMap.get?_set]
        by_cases hm : e.ctxt = c ∧ e.id = i
        · obtain ⟨rfl, rfl⟩ := hm
          rw [if_pos rfl, merged_snoc_again es e f hff, hpre]
          rw [hpl] at heq
          simp [heq]
        · rw [if_neg, merged_snoc_other es e c i hm, hI.get c i hc]
          intro h
          obtain ⟨h1, h2⟩ := Tr.key_inj _ _ _ _ hc he h
          exact hm ⟨h1.symm, h2.symm⟩
      · dsimp only
        rw [hI.plural]
        have hmem : (Tr.key e.ctxt e.id, pre) ∈ ctx.entries := by
          rw [← GMap.get?_iff _ hI.nodup, hget, hpre]
        simp only [set_mem _ hI.nodup]
        constructor
        · rintro ⟨q, hq, hqp⟩
          by_cases hk : q.1 = Tr.key e.ctxt e.id
          · refine ⟨_, .inl rfl, ?_⟩
            have : q.2 = pre := by
              have h1 := (GMap.get?_iff _ hI.nodup q.1 q.2).mpr hq
              have h2 := (GMap.get?_iff _ hI.nodup _ _).mpr hmem
              rw [hk, h2] at h1
              exact (Option.some.inj h1).symm
            rw [← this]; exact hqp
          · exact ⟨q, .inr ⟨hq, hk⟩, hqp⟩
        · rintro ⟨q, rfl | ⟨hq, _⟩, hqp⟩
          · exact ⟨_, hmem, hqp⟩
          · exact ⟨q, hq, hqp⟩
  · rename_i hnone
    have hmn := hnone
    rw [hget] at hmn
    have hfirst : firstOf es e.ctxt e.id = none := by
      unfold merged at hmn
      simpa using hmn
    refine ⟨GMap.nodup_set _ _ _ hI.nodup, ?_, ?_, ?_⟩
    · intro q hq
      rcases mem_set _ _ _ _ hq with rfl | hq
      · exact ⟨rfl, e, by simp, rfl, rfl⟩
      · obtain ⟨h1, x, hx, h2⟩ := hI.keyed q hq
        exact ⟨h1, x, by simp [hx], h2⟩
    · intro c i hc
      dsimp only
      rw [GMap.get?_set]
      by_cases hm : e.ctxt = c ∧ e.id = i
      · obtain ⟨rfl, rfl⟩ := hm
        rw [if_pos rfl, merged_snoc_first es e hfirst]
      · rw [if_neg, merged_snoc_other es e c i hm, hI.get c i hc]
        intro h
        obtain ⟨h1, h2⟩ := Tr.key_inj _ _ _ _ hc he h
        exact hm ⟨h1.symm, h2.symm⟩
    · dsimp only
      rw [Bool.or_eq_true, hI.plural]
      have hno : ∀ q ∈ ctx.entries, q.1 ≠ Tr.key e.ctxt e.id := by
        intro q hq h
        have h1 := (GMap.get?_iff _ hI.nodup q.1 q.2).mpr hq
        rw [h, hnone] at h1
        cases h1
      simp only [set_mem _ hI.nodup]
      constructor
      · rintro (⟨q, hq, hqp⟩ | hp)
        · exact ⟨q, .inr ⟨hq, hno q hq⟩, hqp⟩
        · exact ⟨_, .inl rfl, hp⟩
      · rintro ⟨q, rfl | ⟨hq, _⟩, hqp⟩
        · exact .inr hqp
        · exact .inl ⟨q, hq, hqp⟩

theorem inv_addAll (es : List Tr.Entry) (h : NoEotIn es) : Inv es (Ctx.addAll {} es).1 := by
  induction es using List.reverseRecOn with
  | nil =>
    refine ⟨by simp [Ctx.addAll, GMap.keys], by simp [Ctx.addAll], ?_, by simp [Ctx.addAll]⟩
    intro c i _
    simp [Ctx.addAll, GMap.get?, merged, firstOf]
  | append_singleton es e ih =>
    have h1 : NoEotIn es := fun x hx => h x (by simp [hx])
    rw [addAll_snoc]
    exact inv_add es _ e (ih h1) (h e (by simp))

/-- **C56**: one entry per message: the first, with the comments of the compatible ones. -/
theorem C56_merge (es : List Tr.Entry) (h : NoEotIn es) :
    Collection es (Ctx.addAll {} es).1.entries.vals := by
  have hI := inv_addAll es h
  generalize (Ctx.addAll {} es).1 = ctx at hI
  refine ⟨?_, ?_⟩
  · have : ctx.entries.keys = (ctx.entries.vals.map fun e => (e.ctxt, e.id)).map fun q => Tr.key q.1 q.2 := by
      unfold GMap.keys GMap.vals
      rw [List.map_map, List.map_map]
      refine List.map_congr_left fun q hq => ?_
      exact (hI.keyed q hq).1
    have hn := hI.nodup
    rw [this] at hn
    exact List.Nodup.of_map _ hn
  · intro e
    constructor
    · intro he
      unfold GMap.vals at he
      obtain ⟨q, hq, rfl⟩ := List.mem_map.mp he
      obtain ⟨h1, x, hx, h2, h3⟩ := hI.keyed q hq
      refine ⟨q.2.ctxt, q.2.id, ?_⟩
      rw [← hI.get _ _ (by rw [h2]; exact h x hx), GMap.get?_iff _ hI.nodup]
      rw [show Tr.key q.2.ctxt q.2.id = q.1 from h1.symm]
      exact hq
    · rintro ⟨c, i, hm⟩
      obtain ⟨f, hf, hfc, -⟩ := merged_some _ _ _ _ hm
      rw [← hI.get c i (hfc ▸ h f hf)] at hm
      exact List.mem_map.mpr ⟨_, GMap.get?_mem _ _ _ hm, rfl⟩

open Classical in
/-- **C56**: the entries reported are those that disagree with the first one for their message. -/
theorem C56_reported (es : List Tr.Entry) (h : NoEotIn es) :
    (Ctx.addAll {} es).2 = es.filter fun e => decide (Conflicts es e) := by
  induction es using List.reverseRecOn with
  | nil => rfl
  | append_singleton es e ih =>
    have h1 : NoEotIn es := fun x hx => h x (by simp [hx])
    have hI := inv_addAll es h1
    have hget := hI.get e.ctxt e.id (h e (by simp))
    rw [addAll_snoc, ih h1, List.filter_append]
    dsimp only
    congr 1
    · refine List.filter_congr fun x hx => ?_
      obtain ⟨f, hf⟩ := firstOf_mem es x hx
      simp only [Conflicts, firstOf_snoc, hf, Option.some_or]
    · unfold Ctx.add
      rw [show e.key = Tr.key e.ctxt e.id from rfl, hget]
      cases hm : merged es e.ctxt e.id with
      | none =>
        have hfirst : firstOf es e.ctxt e.id = none := by
          unfold merged at hm
          simpa using hm
        simp [Conflicts, firstOf_snoc, hfirst]
      | some pre =>
        obtain ⟨f, hf, hfc, hfi, hpc, hpi, hff, hpl⟩ := merged_some _ _ _ _ hm
        have hc : Conflicts (es ++ [e]) e ↔ pre.isPlural ≠ e.isPlural := by
          simp [Conflicts, firstOf_snoc, hff, hpl]
        by_cases hp : pre.isPlural = e.isPlural
        · simp [hc, hp]
        · simp [hc, hp]

theorem hasPlural_iff (es : List Tr.Entry) (h : NoEotIn es) :
    (Ctx.addAll {} es).1.hasPlural = true ↔ SomePlural es := by
  rw [(inv_addAll es h).plural]
  have hC := (C56_merge es h).2
  constructor
  · rintro ⟨q, hq, hp⟩
    obtain ⟨c, i, hm⟩ := (hC q.2).mp (List.mem_map.mpr ⟨q, hq, rfl⟩)
    exact ⟨c, i, q.2, hm, hp⟩
  · rintro ⟨c, i, e, hm, hp⟩
    obtain ⟨q, hq, rfl⟩ := List.mem_map.mp ((hC e).mpr ⟨c, i, hm⟩)
    exact ⟨q, hq, hp⟩

/-- The fields of the header. -/
def headerFields (p : Param) (now : Str) (hasPlural : Bool) : List (Str × Str) :=
  [(b!"Project-Id-Version", b!"PACKAGE VERSION"),
   (b!"Report-Msgid-Bugs-To", b!""),
   (b!"POT-Creation-Date", now),
   (b!"PO-Revision-Date", b!"YEAR-MO-DA HO:MI+ZONE"),
   (b!"Last-Translator", b!"FULL NAME <EMAIL@ADDRESS>"),
   (b!"Language-Team", b!"LANGUAGE <LL@li.org>"),
   (b!"Language", b!""),
   (b!"MIME-Version", b!"1.0"),
   (b!"Content-Type", b!"text/plain; charset=CHARSET"),
   (b!"Content-Transfer-Encoding", b!"8bit"),
   (b!"X-Created-By", b!"xtemplate(https://github.com/youthlin/t/tree/main/cmd/xtemplate)")] ++
  (if hasPlural then [(b!"Plural-Forms", b!"nplurals=INTEGER; plural=EXPRESSION;")] else []) ++
  [(b!"X-Xtemplate-Input", p.input),
   (b!"X-Xtemplate-Left", p.left),
   (b!"X-Xtemplate-Right", p.right),
   (b!"X-Xtemplate-Keywords", p.keyword),
   (b!"X-Xtemplate-Functions", p.function),
   (b!"X-Xtemplate-Output", p.output)]

theorem headerLines_eq (p : Param) (now : Str) (hasPlural : Bool) : headerLines p now hasPlural =
    ((headerFields p now hasPlural).map fun kv => kv.1 ++ b!": " ++ kv.2) ++ [b!""] := by
  cases hasPlural <;> rfl

/-- Empty parameters. -/
def noParam : Param := ⟨[], [], [], [], [], []⟩

theorem headerKeys (p : Param) (now : Str) (hasPlural : Bool) (kv : Str × Str)
    (h : kv ∈ headerFields p now hasPlural) :
    10 ∉ kv.1 ∧ ¬ b!": " <:+: kv.1 ++ b!":" ∧
      (GoStr.trimSpace kv.1 = b!"Plural-Forms" → hasPlural = true ∧ kv.1 = b!"Plural-Forms") := by
  have hk : kv.1 ∈ (headerFields p now hasPlural).map (·.1) := List.mem_map.mpr ⟨kv, h, rfl⟩
  have h1 : ∀ k ∈ (headerFields noParam [] true).map (·.1), 10 ∉ k ∧ ¬ b!": " <:+: k ++ b!":" ∧
      (GoStr.trimSpace k = b!"Plural-Forms" → true = true ∧ k = b!"Plural-Forms") := by
    decide +kernel
  have h2 : ∀ k ∈ (headerFields noParam [] false).map (·.1), 10 ∉ k ∧ ¬ b!": " <:+: k ++ b!":" ∧
      (GoStr.trimSpace k = b!"Plural-Forms" → false = true ∧ k = b!"Plural-Forms") := by
    decide +kernel
  cases hasPlural
  · exact h2 _ hk
  · exact h1 _ hk

/-- **C56**: the header declares plural forms iff some collected entry is plural. -/
theorem C56_plural_header (p : Param) (now : Str) (es : List Tr.Entry) (h : NoEotIn es)
    (hp : 10 ∉ p.input ∧ 10 ∉ p.left ∧ 10 ∉ p.right ∧ 10 ∉ p.keyword ∧ 10 ∉ p.function ∧ 10 ∉ p.output)
    (hnow : 10 ∉ now) (v : Str) :
    Tr.HeaderField (header p now (Ctx.addAll {} es).1.hasPlural).str b!"Plural-Forms" v ↔
      SomePlural es ∧ v = b!"nplurals=INTEGER; plural=EXPRESSION;" := by
  rw [← hasPlural_iff es h]
  generalize (Ctx.addAll {} es).1.hasPlural = hpl
  obtain ⟨h1, h2, h3, h4, h5, h6⟩ := hp
  have hvals : ∀ kv ∈ headerFields p now hpl, 10 ∉ kv.2 ∧
      (kv.1 = b!"Plural-Forms" → kv.2 = b!"nplurals=INTEGER; plural=EXPRESSION;") := by
    intro kv hkv
    cases hpl <;> simp only [headerFields, Bool.false_eq_true, if_true, if_false, List.cons_append, List.nil_append,
      List.append_nil, List.mem_cons, List.not_mem_nil, or_false] at hkv
    · rcases hkv with rfl | rfl | rfl | rfl | rfl | rfl | rfl | rfl | rfl | rfl | rfl | rfl | rfl | rfl | rfl | rfl |
        rfl
      all_goals first
        | decide
        | (refine ⟨?_, ?_⟩; assumption; dsimp only; intro hh; exact absurd hh (by decide))
    · rcases hkv with rfl | rfl | rfl | rfl | rfl | rfl | rfl | rfl | rfl | rfl | rfl | rfl | rfl | rfl | rfl | rfl |
        rfl | rfl
      all_goals first
        | decide
        | (refine ⟨?_, ?_⟩; assumption; dsimp only; intro hh; exact absurd hh (by decide))
  have hlines : Tr.Lines (header p now hpl).str (headerLines p now hpl) := by
    refine ⟨by simp [headerLines], ?_, Tr.join_eq_intercalate _ _⟩
    rw [headerLines_eq]
    intro l hl
    rcases List.mem_append.mp hl with hl | hl
    · obtain ⟨kv, hkv, rfl⟩ := List.mem_map.mp hl
      have := (headerKeys p now hpl kv hkv).1
      have := (hvals kv hkv).1
      simp [*]
    · simp at hl; simp [hl]
  have hfield : ∀ l ∈ headerLines p now hpl, ∀ v, Tr.FieldLine l b!"Plural-Forms" v →
      hpl = true ∧ v = b!"nplurals=INTEGER; plural=EXPRESSION;" := by
    intro l hl v hf
    rw [headerLines_eq] at hl
    rw [Tr.fieldLine_iff] at hf
    obtain ⟨a, b, hc, hk, rfl⟩ := hf
    rcases List.mem_append.mp hl with hl | hl
    · obtain ⟨kv, hkv, rfl⟩ := List.mem_map.mp hl
      obtain ⟨-, h8, h9⟩ := headerKeys p now hpl kv hkv
      rw [Tr.cutHeader_complete _ _ h8] at hc
      simp only [Option.some.injEq, Prod.mk.injEq] at hc
      obtain ⟨rfl, rfl⟩ := hc
      obtain ⟨h10, h11⟩ := h9 hk.symm
      rw [(hvals kv hkv).2 h11]
      exact ⟨h10, by decide⟩
    · simp at hl
      subst hl
      simp [Tr.cutHeader] at hc
  constructor
  · rintro ⟨pre, l, post, hl, hf, -⟩
    rw [Tr.lines_iff] at hl hlines
    exact hfield l (by rw [← hlines, hl]; simp) v hf
  · rintro ⟨rfl, rfl⟩
    refine ⟨(headerLines p now true).take 11, b!"Plural-Forms: nplurals=INTEGER; plural=EXPRESSION;",
      (headerLines p now true).drop 12, ?_, ?_, ?_⟩
    · exact hlines
    · rw [Tr.fieldLine_iff]
      exact ⟨b!"Plural-Forms", b!"nplurals=INTEGER; plural=EXPRESSION;", by decide, by decide, by decide⟩
    · intro l hl v' hf
      rw [Tr.fieldLine_iff] at hf
      obtain ⟨a, b, hc, hk, rfl⟩ := hf
      have : l ∈ ((headerFields p now true).take 11).map fun kv => kv.1 ++ b!": " ++ kv.2 := hl
      obtain ⟨kv, hkv, rfl⟩ := List.mem_map.mp this
      obtain ⟨-, h8, -⟩ := headerKeys p now true kv (List.mem_of_mem_take hkv)
      rw [Tr.cutHeader_complete _ _ h8] at hc
      simp only [Option.some.injEq, Prod.mk.injEq] at hc
      obtain ⟨rfl, rfl⟩ := hc
      have h12 : ∀ k ∈ ((headerFields noParam [] true).take 11).map (·.1), b!"Plural-Forms" ≠ GoStr.trimSpace k := by
        decide +kernel
      have hm : kv.1 ∈ ((headerFields p now true).take 11).map (·.1) := List.mem_map.mpr ⟨kv, hkv, rfl⟩
      exact h12 kv.1 hm hk

/-- Example: the second use of a message adds its comments, a use without plural is reported, and the
header declares plural forms. -/
def exEntries : List Tr.Entry :=
  [{ cmts := [b!"#: a:1"], id := b!"one", id2 := b!"many", isPlural := true },
   { cmts := [b!"#: a:2"], id := b!"two" },
   { cmts := [b!"#: b:1"], id := b!"one" },
   { cmts := [b!"#: b:2"], id := b!"one", id2 := b!"lots", isPlural := true },
   { cmts := [b!"#: b:3"], ctxt := b!"c", id := b!"two" }]

example : NoEotIn exEntries ∧ SomePlural exEntries ∧
    merged exEntries [] b!"one" =
      some { cmts := [b!"#: a:1", b!"#: b:2"], id := b!"one", id2 := b!"many", isPlural := true } ∧
    (Ctx.addAll {} exEntries).2 = [{ cmts := [b!"#: b:1"], id := b!"one" }] ∧
    (Ctx.addAll {} exEntries).1.entries.vals.length = 3 := by
  refine ⟨by unfold NoEotIn; decide, ⟨[], b!"one", _, rfl, rfl⟩, by decide, by decide, by decide⟩

/-- Two messages whose contexts and texts differ only in where an EOT byte is are taken for one. -/
theorem C56_eot : ∃ a b : Tr.Entry, a.ctxt ≠ b.ctxt ∧ a.id ≠ b.id ∧
    (Ctx.addAll {} [a, b]).1.entries.vals.length = 1 :=
  ⟨{ ctxt := [97, 4, 98], id := [99] }, { ctxt := [97], id := [98, 4, 99] }, by decide, by decide, by decide⟩

/-! ## C57 -/

theorem set_absent {V : Type} (m : GMap V) (k : Str) (v : V) (h : k ∉ m.keys) : m.set k v = m ++ [(k, v)] := by
  induction m with
  | nil => rfl
  | cons p m ih =>
    obtain ⟨k', v'⟩ := p
    simp only [GMap.keys, List.map_cons, List.mem_cons, not_or] at h
    rw [GMap.set, if_neg (Ne.symm h.1), ih h.2]
    rfl

theorem addEntry_entries (f : Tr.File) (e : Tr.Entry) : (f.addEntry e).entries = f.entries.set e.key e := by
  unfold Tr.File.addEntry
  dsimp only
  split
  · rw [Tr.initPlural_entries, Tr.initHeader_entries]
  · rfl

/-- Adding entries with distinct keys. -/
theorem foldl_addEntry (m : GMap Tr.Entry) (hn : m.keys.Nodup) (hk : ∀ q ∈ m, q.1 = q.2.key) (f : Tr.File)
    (hf : f.entries.keys.Nodup) :
    (m.vals.foldl Tr.File.addEntry f).entries.keys.Nodup ∧
    ∀ q, q ∈ (m.vals.foldl Tr.File.addEntry f).entries ↔ q ∈ m ∨ (q ∈ f.entries ∧ q.1 ∉ m.keys) := by
  induction m generalizing f with
  | nil => simpa [GMap.vals, GMap.keys] using hf
  | cons p m ih =>
    obtain ⟨k, v⟩ := p
    simp only [GMap.keys, List.map_cons, List.nodup_cons] at hn
    have hkv : k = v.key := hk (k, v) (by simp)
    have hf' : (f.addEntry v).entries.keys.Nodup := by
      rw [addEntry_entries]; exact GMap.nodup_set _ _ _ hf
    obtain ⟨h1, h2⟩ := ih hn.2 (fun q hq => hk q (by simp [hq])) (f.addEntry v) hf'
    refine ⟨h1, fun q => ?_⟩
    show q ∈ (GMap.vals m |>.foldl Tr.File.addEntry (f.addEntry v)).entries ↔ _
    rw [h2, addEntry_entries, ← hkv, set_mem _ hf]
    simp only [GMap.keys, List.map_cons, List.mem_cons, not_or]
    constructor
    · rintro (h | ⟨rfl | ⟨h3, h4⟩, h5⟩)
      · exact .inl (.inr h)
      · exact .inl (.inl rfl)
      · exact .inr ⟨h3, h4, h5⟩
    · rintro ((rfl | h) | ⟨h3, h4, h5⟩)
      · exact .inr ⟨.inl rfl, hn.1⟩
      · exact .inl h
      · exact .inr ⟨.inr ⟨h3, h4⟩, h5⟩

theorem nodup_of_keys (m : GMap Tr.Entry) (h : m.keys.Nodup) : m.Nodup := List.Nodup.of_map _ h

/-- The entries of the POT: the collected ones, and the header unless a collected entry has its key. -/
theorem pot_entries (p : Param) (now : Str) (ctx : Ctx) (f : Tr.File) (h : Pot p now ctx f)
    (hn : ctx.entries.keys.Nodup) (hk : ∀ q ∈ ctx.entries, q.1 = q.2.key) :
    f.entries.Perm (if Tr.key [] [] ∈ ctx.entries.keys then ctx.entries
      else (Tr.key [] [], header p now ctx.hasPlural) :: ctx.entries) := by
  obtain ⟨m, hm, rfl⟩ := h
  have hmk : m.keys.Perm ctx.entries.keys := hm.map _
  have h0 : (Tr.File.addEntry {} (header p now ctx.hasPlural)).entries =
      [(Tr.key [] [], header p now ctx.hasPlural)] := by
    rw [addEntry_entries]; rfl
  obtain ⟨h1, h2⟩ := foldl_addEntry m (hmk.nodup_iff.mpr hn) (fun q hq => hk q (hm.mem_iff.mp hq))
    (Tr.File.addEntry {} (header p now ctx.hasPlural)) (by rw [h0]; simp [GMap.keys])
  split
  · rename_i hin
    refine (List.perm_ext_iff_of_nodup (nodup_of_keys _ h1) (nodup_of_keys _ hn)).mpr fun q => ?_
    rw [h2, h0, hm.mem_iff, hmk.mem_iff]
    constructor
    · rintro (h | ⟨h, h'⟩)
      · exact h
      · simp at h; subst h; exact absurd hin h'
    · exact .inl
  · rename_i hout
    have hn' : ((Tr.key [] [], header p now ctx.hasPlural) :: ctx.entries).Nodup :=
      List.nodup_cons.mpr ⟨fun h => hout (List.mem_map.mpr ⟨_, h, rfl⟩), nodup_of_keys _ hn⟩
    refine (List.perm_ext_iff_of_nodup (nodup_of_keys _ h1) hn').mpr fun q => ?_
    rw [h2, h0, hm.mem_iff, hmk.mem_iff]
    simp only [List.mem_cons, List.not_mem_nil, or_false]
    constructor
    · rintro (h | ⟨h, h'⟩)
      · exact .inr h
      · exact .inl h
    · rintro (rfl | h)
      · exact .inr ⟨rfl, hout⟩
      · exact .inl h

theorem empty_iff (es : List Tr.Entry) (h : NoEotIn es) :
    Tr.key [] [] ∈ (Ctx.addAll {} es).1.entries.keys ↔ HasEmpty es := by
  have hI := inv_addAll es h
  rw [← not_iff_not, ← GMap.get?_eq_none, hI.get [] [] (by simp)]
  unfold merged
  rw [Option.map_eq_none_iff]
  constructor
  · rintro hn ⟨e, he, h1, h2⟩
    exact firstOf_none es _ _ hn e he ⟨h1, h2⟩
  · intro hno
    unfold firstOf
    rw [List.find?_eq_none]
    intro e he
    simp only [decide_eq_true_eq]
    exact fun ⟨h1, h2⟩ => hno ⟨e, he, h1, h2⟩

open Classical in
/-- **C57**: the POT contains the header, unless a keyword call has an empty message and no context, and
every collected entry. -/
theorem C57_pot (P : Nat → Bool) (p : Param) (now : Str) (es : List Tr.Entry) (h : NoEotIn es) (text : Str)
    (ht : PotText P p now (Ctx.addAll {} es).1 text) : PotOf P p now es text := by
  obtain ⟨f, M, hf, ⟨hM, hs⟩, rfl⟩ := ht
  have hI := inv_addAll es h
  have hp := (pot_entries p now _ f hf hI.nodup fun q hq => (hI.keyed q hq).1).map (fun q : Str × Tr.Entry => q.2)
  have hpl : (Ctx.addAll {} es).1.hasPlural = decide (SomePlural es) := by
    rw [Bool.eq_iff_iff, hasPlural_iff es h, decide_eq_true_eq]
  refine ⟨(Ctx.addAll {} es).1.entries.vals, M, C56_merge es h, hM.trans (hp.trans ?_), hs, rfl⟩
  rw [← hpl]
  by_cases he : HasEmpty es
  · rw [if_pos he, if_pos ((empty_iff es h).mpr he)]
    exact .refl _
  · rw [if_neg he, if_neg fun hh => he ((empty_iff es h).mp hh)]
    exact .refl _

theorem exists_sorted (f : Tr.File) : ∃ M, Tr.SortedEntry f M := by
  let le : Tr.Entry → Tr.Entry → Bool := fun a b => !decide (b.sortKey < a.sortKey)
  refine ⟨f.entries.vals.mergeSort le, List.mergeSort_perm _ _, ?_⟩
  have := List.pairwise_mergeSort (le := le) ?_ ?_ f.entries.vals
  · exact this.imp fun {a b} h => by simpa [le] using h
  · intro a b c hab hbc
    simp only [le, Bool.not_eq_true', decide_eq_false_iff_not] at hab hbc ⊢
    intro hca
    by_cases hcb : b.sortKey < c.sortKey
    · exact hab (List.lt_trans hcb hca)
    · have := Tr.str_trichotomy _ _ hcb hbc
      rw [this] at hab
      exact hab hca
  · intro a b
    simp only [le, Bool.or_eq_true, Bool.not_eq_true', decide_eq_false_iff_not]
    by_cases h : b.sortKey < a.sortKey
    · exact .inr fun h' => List.lt_asymm h h'
    · exact .inl h

/-- **C57**: there is always a text to write. -/
theorem C57_exists (P : Nat → Bool) (p : Param) (now : Str) (ctx : Ctx) : ∃ text, PotText P p now ctx text := by
  obtain ⟨M, hM⟩ := exists_sorted
    (ctx.entries.vals.foldl Tr.File.addEntry (Tr.File.addEntry {} (header p now ctx.hasPlural)))
  exact ⟨_, _, M, ⟨ctx.entries, .refl _, rfl⟩, hM, rfl⟩

/-- **C57**: without empty messages the header comes first. -/
theorem C57_header_first (hd : Tr.Entry) (L M : List Tr.Entry) (hid : hd.id = []) (hL : ∀ e ∈ L, e.id ≠ [])
    (hM : M.Perm (hd :: L)) (hs : M.Pairwise fun a b => ¬ b.sortKey < a.sortKey) :
    ∃ rest, M = hd :: rest ∧ rest.Perm L := by
  cases M with
  | nil => simpa using hM.length_eq
  | cons x rest =>
    have hx : x = hd := by
      by_contra hne
      have h1 : hd ∈ rest := by
        have : hd ∈ x :: rest := hM.mem_iff.mpr (by simp)
        rcases List.mem_cons.mp this with h | h
        · exact absurd h.symm hne
        · exact h
      have h2 : x ∈ L := by
        have : x ∈ hd :: L := hM.mem_iff.mp (by simp)
        rcases List.mem_cons.mp this with h | h
        · exact absurd h hne
        · exact h
      have h3 := (List.pairwise_cons.mp hs).1 hd h1
      rw [(Tr.sortKey_nil hd).mpr hid] at h3
      cases hk : x.sortKey with
      | nil => exact hL x h2 ((Tr.sortKey_nil x).mp hk)
      | cons a b => rw [hk] at h3; exact h3 (List.nil_lt_cons a b)
    subst hx
    exact ⟨rest, rfl, (List.perm_cons _).mp hM⟩

/-- The claim of C57 without the proviso. -/
def C57_full : Prop := ∀ (p : Param) (now : Str) (es : List Tr.Entry), NoEotIn es →
  ∀ f M, Pot p now (Ctx.addAll {} es).1 f → Tr.SortedEntry f M →
    header p now (Ctx.addAll {} es).1.hasPlural ∈ M

/-- `{{ T "" }}` removes the header. -/
theorem C57_false : ¬ C57_full := by
  intro h
  let e : Tr.Entry := { cmts := [b!"#: a:1"] }
  have := h noParam [] [e] (by unfold NoEotIn; decide)
    ([e].foldl Tr.File.addEntry (Tr.File.addEntry {} (header noParam [] false))) [e]
    ⟨[(e.key, e)], .refl _, rfl⟩ ⟨by decide, by simp⟩
  revert this
  decide

end Verif.Xt
