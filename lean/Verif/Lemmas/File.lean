import Verif.Spec.File
import Verif.Lemmas.GMap
import Verif.Lemmas.Strings
import Mathlib.Data.List.Induction
/-! # Lemmas on translation files -/
namespace Verif.Tr
set_option linter.unusedSimpArgs false

theorem key_inj (c c' i i' : Str) (h : 4 ∉ c) (h' : 4 ∉ c') (heq : key c i = key c' i') :
    c = c' ∧ i = i' := by
  simp only [key, List.append_assoc, List.singleton_append] at heq
  exact GoStr.first_occurrence 4 c c' i i' h h' heq

theorem initHeader_entries (f : File) : f.initHeader.entries = f.entries := by
  unfold File.initHeader
  split
  · rfl
  · split <;> rfl

theorem initHeader_plural (f : File) : f.initHeader.plural = f.plural := by
  unfold File.initHeader
  split
  · rfl
  · split <;> rfl

theorem initPlural_entries (f : File) : f.initPlural.entries = f.entries := by
  unfold File.initPlural
  split
  · rfl
  · simp [File.getHeader, initHeader_entries]

variable {α : Type}

theorem added_append (cs ds : List (Call α)) : added (cs ++ ds) = added cs ++ added ds := by
  induction cs with
  | nil => rfl
  | cons c cs ih => cases c <;> simp [added, ih]

theorem lastAdded_snoc_add (cs : List (Call α)) (e : Entry) (c i : Str) :
    lastAdded (cs ++ [.add e]) c i =
      if e.ctxt = c ∧ e.id = i then some e else lastAdded cs c i := by
  simp only [lastAdded, added_append, added, List.reverse_append, List.reverse_cons,
    List.reverse_nil, List.nil_append, List.singleton_append, List.find?_cons]
  by_cases h : e.ctxt = c ∧ e.id = i
  · simp [h]
  · have : ¬ (e.ctxt = c ∧ e.id = i) := h
    simp [this]

theorem lastAdded_snoc_lookup (cs : List (Call α)) (c : Call α) (h : c.isLookup = true) (k i : Str) :
    lastAdded (cs ++ [c]) k i = lastAdded cs k i := by
  cases c <;> simp [Call.isLookup] at h <;> simp [lastAdded, added_append, added]

theorem exec_lookup_entries (E : Fmt.Env α) (dg : Plural.Diag) (f : File) (c : Call α)
    (h : c.isLookup = true) : (c.exec E dg f).2.entries = f.entries := by
  cases c with
  | add e => simp [Call.isLookup] at h
  | header k => simp [Call.exec, File.getHeader, initHeader_entries]
  | lang => simp [Call.exec, File.lang, File.getHeader, initHeader_entries]
  | x => rfl
  | xn ctxt id id2 n args =>
    simp only [Call.exec, File.xn]
    split
    · rfl
    · split
      · rfl
      · simp [initPlural_entries]

theorem exec_add_entries (E : Fmt.Env α) (dg : Plural.Diag) (f : File) (e : Entry) :
    ((Call.add e).exec E dg f).2.entries = f.entries.set e.key e := by
  simp only [Call.exec, File.addEntry]
  split
  · rw [initPlural_entries, initHeader_entries]
  · rfl

theorem execAll_snoc (E : Fmt.Env α) (dg : Plural.Diag) (f : File) (cs : List (Call α)) (c : Call α) :
    execAll E dg f (cs ++ [c]) = (c.exec E dg (execAll E dg f cs)).2 := by
  simp [execAll]

theorem execAll_append (E : Fmt.Env α) (dg : Plural.Diag) (f : File) (cs ds : List (Call α)) :
    execAll E dg f (cs ++ ds) = execAll E dg (execAll E dg f cs) ds := by
  simp [execAll]

/-- The stored entry is the one last added. -/
theorem entries_lastAdded (E : Fmt.Env α) (dg : Plural.Diag) (cs : List (Call α)) (hcs : NoEot cs)
    (c i : Str) (hc : 4 ∉ c) :
    (execAll E dg {} cs).entries.get? (key c i) = lastAdded cs c i := by
  induction cs using List.reverseRecOn with
  | nil => rfl
  | append_singleton cs op ih =>
    have hcs' : NoEot cs := by
      intro e he; exact hcs e (by rw [added_append]; simp [he])
    rw [execAll_snoc]
    cases hop : op.isLookup with
    | true => rw [exec_lookup_entries E dg _ op hop, lastAdded_snoc_lookup cs op hop, ih hcs']
    | false =>
      cases op with
      | add e =>
        rw [exec_add_entries, lastAdded_snoc_add, GMap.get?_set, ih hcs']
        have he : 4 ∉ e.ctxt := hcs e (by rw [added_append]; simp [added])
        by_cases h : e.ctxt = c ∧ e.id = i
        · obtain ⟨rfl, rfl⟩ := h; simp [Entry.key]
        · rw [if_neg h, if_neg]
          intro hk
          have := key_inj _ _ _ _ hc he hk
          exact h ⟨this.1.symm, this.2.symm⟩
      | _ => simp [Call.isLookup] at hop

/-- The headers a lookup would see now. -/
def File.heads (f : File) : GMap Str := f.initHeader.headers.getD []

theorem getHeader_eq (f : File) (k : Str) : (f.getHeader k).1 = f.heads.get? k := rfl

theorem initHeader_headers (f : File) : f.initHeader.headers = some f.heads := by
  unfold File.heads File.initHeader
  split
  · rename_i h; simp [h]
  · split <;> simp

theorem initHeader_of_some (f : File) (h : GMap Str) (hh : f.headers = some h) :
    f.initHeader = f := by
  unfold File.initHeader; rw [hh]

theorem initHeader_idem (f : File) : f.initHeader.initHeader = f.initHeader :=
  initHeader_of_some _ _ (initHeader_headers f)

theorem heads_of_some (f : File) (h : GMap Str) (hh : f.headers = some h) : f.heads = h := by
  unfold File.heads; rw [initHeader_of_some f h hh, hh]; rfl

theorem initPlural_headers (f : File) (h : f.plural = none) :
    f.initPlural.headers = some f.heads := by
  unfold File.initPlural
  rw [h]
  exact initHeader_headers f

/-- Once the headers are read, no call changes them. -/
theorem exec_headers_frozen (E : Fmt.Env α) (dg : Plural.Diag) (f : File) (h : GMap Str)
    (hf : f.headers = some h) (c : Call α) : (c.exec E dg f).2.headers = some h := by
  have hi : f.initHeader = f := initHeader_of_some f h hf
  have hp : ∀ g : File, g.headers = some h → g.initPlural.headers = some h := by
    intro g hg
    unfold File.initPlural
    split
    · exact hg
    · simp [File.getHeader, initHeader_of_some g h hg, hg]
  cases c with
  | add e =>
    simp only [Call.exec, File.addEntry]
    split
    · refine hp _ ?_
      have := initHeader_of_some { f with entries := f.entries.set e.key e } h hf
      rw [this]; exact hf
    · exact hf
  | header k => simp [Call.exec, File.getHeader, hi, hf]
  | lang => simp [Call.exec, File.lang, File.getHeader, hi, hf]
  | x => exact hf
  | xn ctxt id id2 n args =>
    simp only [Call.exec, File.xn]
    split
    · exact hf
    · split
      · exact hf
      · exact hp f hf

theorem execAll_headers_frozen (E : Fmt.Env α) (dg : Plural.Diag) (f : File) (h : GMap Str)
    (hf : f.headers = some h) (cs : List (Call α)) : (execAll E dg f cs).headers = some h := by
  induction cs using List.reverseRecOn with
  | nil => exact hf
  | append_singleton cs c ih =>
    rw [execAll_snoc]; exact exec_headers_frozen E dg _ h ih c

/-! Header texts -/

theorem lines_iff (text : Str) (ls : List Str) : Lines text ls ↔ GoStr.splitByte 10 text = ls := by
  constructor
  · rintro ⟨h1, h2, rfl⟩
    exact GoStr.splitByte_intercalate 10 ls h1 h2
  · rintro rfl
    exact ⟨GoStr.splitByte_ne_nil _ _, GoStr.splitByte_not_mem _ _,
      (GoStr.intercalate_splitByte _ _).symm⟩

theorem cutHeader_sound (l a b : Str) (h : cutHeader l = some (a, b)) :
    l = a ++ b!": " ++ b ∧ ¬ b!": " <:+: a ++ b!":" := by
  induction l using cutHeader.induct generalizing a with
  | case1 => simp [cutHeader] at h
  | case2 => simp [cutHeader] at h
  | case3 x y s hxy =>
    obtain ⟨rfl, rfl⟩ := hxy
    simp [cutHeader] at h
    obtain ⟨rfl, rfl⟩ := h
    refine ⟨by simp, ?_⟩
    intro hin
    have := hin.length_le
    simp at this
  | case4 x y s hxy ih =>
    rw [cutHeader, if_neg hxy] at h
    cases hc : cutHeader (y :: s) with
    | none => simp [hc] at h
    | some p =>
      obtain ⟨a', b'⟩ := p
      simp [hc] at h
      obtain ⟨rfl, rfl⟩ := h
      obtain ⟨h1, h2⟩ := ih a' hc
      refine ⟨by simp [h1], ?_⟩
      intro hin
      simp only [List.cons_append] at hin
      rcases List.infix_cons_iff.mp hin with hp | hp
      · have : ∃ t, x :: (a' ++ b!":") = b!": " ++ t := by
          obtain ⟨t, ht⟩ := hp; exact ⟨t, ht.symm⟩
        obtain ⟨t, ht⟩ := this
        simp only [List.cons_append, List.nil_append, List.cons.injEq] at ht
        apply hxy
        refine ⟨ht.1, ?_⟩
        cases a' with
        | nil => simp at ht
        | cons z a' =>
          simp at h1 ht
          rw [h1.1, ht.2.1]
      · exact h2 hp

theorem cutHeader_complete (a b : Str) (h : ¬ b!": " <:+: a ++ b!":") :
    cutHeader (a ++ b!": " ++ b) = some (a, b) := by
  induction a with
  | nil => simp [cutHeader]
  | cons x a ih =>
    have h' : ¬ b!": " <:+: a ++ b!":" := by
      intro hin; exact h (List.infix_cons hin)
    have hrec := ih h'
    cases a with
    | nil =>
      have : ¬ (x = 58 ∧ (58 : UInt8) = 32) := by rintro ⟨_, h⟩; cases h
      simp [cutHeader] at hrec ⊢
    | cons y a =>
      simp only [List.cons_append] at hrec ⊢
      rw [cutHeader, if_neg, hrec]
      · rfl
      · rintro ⟨rfl, rfl⟩
        exact h ⟨[], a ++ b!":", by simp⟩

theorem fieldLine_iff (l k v : Str) : FieldLine l k v ↔
    ∃ a b, cutHeader l = some (a, b) ∧ k = GoStr.trimSpace a ∧ v = GoStr.trimSpace b := by
  constructor
  · rintro ⟨a, b, rfl, h, rfl, rfl⟩
    exact ⟨a, b, cutHeader_complete a b h, rfl, rfl⟩
  · rintro ⟨a, b, h, rfl, rfl⟩
    obtain ⟨h1, h2⟩ := cutHeader_sound l a b h
    exact ⟨a, b, h1, h2, rfl, rfl⟩

theorem headerLine_get (h : GMap Str) (l k : Str) :
    (headerLine h l).get? k = match h.get? k with
      | some v => some v
      | none => match cutHeader l with
        | some (a, b) => if GoStr.trimSpace a = k then some (GoStr.trimSpace b) else none
        | none => none := by
  unfold headerLine
  by_cases hl : l = []
  · subst hl
    simp [cutHeader]
    cases h.get? k <;> rfl
  · rw [if_neg hl]
    cases hc : cutHeader l with
    | none => cases h.get? k <;> rfl
    | some p =>
      obtain ⟨a, b⟩ := p
      dsimp only
      cases hg : h.get? (GoStr.trimSpace a) with
      | some w =>
        dsimp only
        cases hk : h.get? k with
        | some v => rfl
        | none =>
          dsimp only
          rw [if_neg]
          rintro rfl
          rw [hg] at hk; cases hk
      | none =>
        dsimp only
        rw [GMap.get?_set]
        by_cases hk : k = GoStr.trimSpace a
        · subst hk; simp [hg]
        · rw [if_neg hk]
          cases hk2 : h.get? k with
          | some v => rfl
          | none => simp [Ne.symm hk]

theorem foldl_headerLine_get (ls : List Str) (h : GMap Str) (k v : Str) :
    (ls.foldl headerLine h).get? k = some v ↔
      h.get? k = some v ∨ (h.get? k = none ∧ ∃ pre l post, ls = pre ++ l :: post ∧ FieldLine l k v ∧
        ∀ l' ∈ pre, ∀ v', ¬ FieldLine l' k v') := by
  induction ls generalizing h with
  | nil => simp
  | cons l ls ih =>
    rw [List.foldl_cons, ih, headerLine_get]
    cases hg : h.get? k with
    | some w => simp
    | none =>
      have hnf : (∀ v, ¬ FieldLine l k v) ↔ (match cutHeader l with
        | some (a, b) => if GoStr.trimSpace a = k then some (GoStr.trimSpace b) else none
        | none => none) = none := by
        simp only [fieldLine_iff]
        cases hc : cutHeader l with
        | none => simp
        | some p =>
          obtain ⟨a, b⟩ := p
          by_cases hk : GoStr.trimSpace a = k
          · simp [hk]
          · simp [hk, Ne.symm hk]
      have hf : ∀ v, FieldLine l k v ↔ (match cutHeader l with
        | some (a, b) => if GoStr.trimSpace a = k then some (GoStr.trimSpace b) else none
        | none => none) = some v := by
        intro v
        simp only [fieldLine_iff]
        cases hc : cutHeader l with
        | none => simp
        | some p =>
          obtain ⟨a, b⟩ := p
          by_cases hk : GoStr.trimSpace a = k
          · simp [hk, eq_comm]
          · simp [hk, Ne.symm hk]
      constructor
      · rintro (h1 | ⟨h1, pre, l', post, rfl, h2, h3⟩)
        · exact Or.inr ⟨rfl, [], l, ls, rfl, (hf v).mpr h1, by simp⟩
        · refine Or.inr ⟨rfl, l :: pre, l', post, rfl, h2, ?_⟩
          intro l2 hl2
          rcases List.mem_cons.mp hl2 with rfl | hl2
          · exact hnf.mpr h1
          · exact h3 l2 hl2
      · rintro (h1 | ⟨_, pre, l', post, heq, h2, h3⟩)
        · cases h1
        · cases pre with
          | nil =>
            simp at heq
            obtain ⟨rfl, rfl⟩ := heq
            exact Or.inl ((hf v).mp h2)
          | cons p pre =>
            simp at heq
            obtain ⟨rfl, rfl⟩ := heq
            exact Or.inr ⟨hnf.mp (h3 l (by simp)), pre, l', post, rfl, h2,
              fun l2 hl2 => h3 l2 (by simp [hl2])⟩

theorem parseHeaders_get (text k v : Str) :
    (parseHeaders text).get? k = some v ↔ HeaderField text k v := by
  unfold parseHeaders
  rw [foldl_headerLine_get]
  simp only [GMap.get?, HeaderField, lines_iff]
  constructor
  · rintro (h | ⟨_, pre, l, post, h1, h2, h3⟩)
    · cases h
    · exact ⟨pre, l, post, h1, h2, h3⟩
  · rintro ⟨pre, l, post, h1, h2, h3⟩
    exact Or.inr ⟨trivial, pre, l, post, h1, h2, h3⟩

end Verif.Tr
