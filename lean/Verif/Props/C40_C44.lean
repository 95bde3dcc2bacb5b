import Verif.Props.C36_C39
import Verif.Props.C28_C29
/-! # C40-C44: which translator is used, and the lists of locales -/
namespace Verif.W
open Verif
variable {α : Type}

/-! ## C40 -/

mutual
theorem filesOf_complete : ∀ n : Node, complete n = true → filesOf n = allFiles n
  | .file _ _, _ => by rw [filesOf, allFiles]
  | .dir _ readable entries, h => by
    rw [complete, Bool.and_eq_true] at h
    rw [filesOf, allFiles, if_pos h.1]
    exact filesOfList_complete entries h.2
theorem filesOfList_complete : ∀ ns : List Node, completeList ns = true → filesOfList ns = allFilesList ns
  | [], _ => by rw [filesOfList, allFilesList]
  | n :: ns, h => by
    rw [completeList, Bool.and_eq_true] at h
    rw [filesOfList, allFilesList, if_pos h.1, filesOf_complete n h.1, filesOfList_complete ns h.2]
end

/-- The translator of a file that is loaded because of its extension. -/
def Provides (c : Cfg α) (ext lang : Str) (p : Str × Option Opened) (t : Tor α) : Prop :=
  ext <:+ p.1 ∧ (∃ o, p.2 = some o ∧ contentTor c o = some (some t)) ∧ t.lang ≠ [] ∧ c.norm t.lang = lang

/-- `t` comes from the last file that provides the language. -/
def LastFile (c : Cfg α) (ext lang : Str) (files : List (Str × Option Opened)) (t : Tor α) : Prop :=
  ∃ a p b, files = a ++ p :: b ∧ Provides c ext lang p t ∧ ∀ q ∈ b, ∀ t', ¬ Provides c ext lang q t'

theorem provides_iff (c : Cfg α) (ext lang : Str) (p : Str × Option Opened) :
    lastFor c lang ((loadable c ext [p]).filterMap id) = none ∧ (∀ t, ¬ Provides c ext lang p t) ∨
    ∃ t, lastFor c lang ((loadable c ext [p]).filterMap id) = some t ∧ Provides c ext lang p t ∧
      ∀ t', Provides c ext lang p t' → t' = t := by
  obtain ⟨name, o⟩ := p
  unfold loadable lastFor Provides
  by_cases hs : ext <:+ name
  · cases o with
    | none => left; simp [hs]
    | some o =>
      cases hc : contentTor c o with
      | none => left; simp [hs, hc]
      | some ot =>
        cases ot with
        | none => left; simp [hs, hc]
        | some t =>
          by_cases hl : t.lang ≠ [] ∧ c.norm t.lang = lang
          · right
            refine ⟨t, ?_, ⟨hs, ⟨o, rfl, hc⟩, hl⟩, ?_⟩
            · simp only [hs, if_true, List.filterMap_cons, Option.bind_some, hc, List.filterMap_nil, id_eq]
              rw [List.filter_cons, if_pos (decide_eq_true hl)]
              rfl
            · rintro t' ⟨_, ⟨o', ho, hc'⟩, _⟩
              simp only [Option.some.injEq] at ho
              subst ho
              rw [hc] at hc'
              simpa using hc'.symm
          · left
            refine ⟨?_, ?_⟩
            · simp only [hs, if_true, List.filterMap_cons, Option.bind_some, hc, List.filterMap_nil, id_eq]
              rw [List.filter_cons, if_neg (by simpa using hl)]
              rfl
            · rintro t' ⟨_, ⟨o', ho, hc'⟩, hl'⟩
              simp only [Option.some.injEq] at ho
              subst ho
              rw [hc] at hc'
              simp only [Option.some.injEq] at hc'
              subst hc'
              exact hl hl'
  · left; simp [hs]

theorem lastFor_files (c : Cfg α) (ext lang : Str) (files : List (Str × Option Opened)) (t : Tor α) :
    lastFor c lang ((loadable c ext files).filterMap id) = some t ↔ LastFile c ext lang files t := by
  induction files with
  | nil =>
    constructor
    · intro h; simp [loadable, lastFor] at h
    · rintro ⟨a, p, b, he, _⟩; simp at he
  | cons p fs ih =>
    rw [show p :: fs = [p] ++ fs from rfl, loadable_append, List.filterMap_append, lastFor_append]
    constructor
    · intro h
      rw [Option.or_eq_some_iff] at h
      rcases h with h | ⟨hn, h⟩
      · obtain ⟨a, q, b, he, hp, hb⟩ := ih.mp h
        exact ⟨p :: a, q, b, by rw [he]; rfl, hp, hb⟩
      · rcases provides_iff c ext lang p with ⟨hnone, _⟩ | ⟨t', ht', hp, _⟩
        · rw [hnone] at h; cases h
        · rw [ht'] at h
          cases h
          refine ⟨[], p, fs, rfl, hp, ?_⟩
          intro q hq t' hpq
          obtain ⟨hs, ⟨o, ho, hc⟩, hl, hn'⟩ := hpq
          have : (lastFor c lang ((loadable c ext fs).filterMap id)).isSome = true := by
            rw [lastFor_isSome]
            refine ⟨t', ?_, hl, hn'⟩
            simp only [List.mem_filterMap, id_eq, exists_eq_right, loadable]
            exact ⟨q, hq, by rw [if_pos hs, ho]; exact hc⟩
          rw [hn] at this
          simp at this
    · rintro ⟨a, q, b, he, hp, hb⟩
      rw [Option.or_eq_some_iff]
      cases a with
      | nil =>
        simp only [List.nil_append, List.singleton_append, List.cons.injEq] at he
        obtain ⟨rfl, rfl⟩ := he
        refine .inr ⟨?_, ?_⟩
        · rw [← Option.not_isSome_iff_eq_none, lastFor_isSome]
          rintro ⟨t', ht', hl, hn⟩
          simp only [List.mem_filterMap, id_eq, exists_eq_right, loadable] at ht'
          obtain ⟨q, hq, he⟩ := ht'
          split at he
          · rename_i hs
            cases ho : q.2 with
            | none => rw [ho] at he; simp at he
            | some o =>
              rw [ho] at he
              exact hb q hq t' ⟨hs, ⟨o, ho, he⟩, hl, hn⟩
          · cases he
        · rcases provides_iff c ext lang p with ⟨_, hno⟩ | ⟨t', ht', _, hu⟩
          · exact absurd hp (hno t)
          · rw [ht', hu t hp]
      | cons p' a =>
        simp only [List.cons_append, List.nil_append, List.cons.injEq] at he
        exact .inl (ih.mpr ⟨a, q, b, he.2, hp, hb⟩)

/-- After loading a tree into a domain, the translator of a language is that of the last `.po` file
providing it, else of the last `.mo` file, else what the domain had before.  The files are taken in walk
order; the walk ends at the first directory that cannot be read. -/
theorem C40_po_wins (c : Cfg α) (tr : Translation α) (fsys : Option Node) (lang : Str) (t : Tor α) :
    (tr.loadFS c fsys).2.get lang = some t ↔
      LastFile c b!".po" lang (filesFrom fsys) t ∨
      ((∀ t', ¬ LastFile c b!".po" lang (filesFrom fsys) t') ∧
        (LastFile c b!".mo" lang (filesFrom fsys) t ∨
          ((∀ t', ¬ LastFile c b!".mo" lang (filesFrom fsys) t') ∧ tr.get lang = some t))) := by
  unfold Translation.get
  rw [loadFS_eq, addAll_get, lastFor_append]
  have hpo := fun t => lastFor_files c b!".po" lang (filesFrom fsys) t
  have hmo := fun t => lastFor_files c b!".mo" lang (filesFrom fsys) t
  rw [show extPo = b!".po" from rfl, show extMo = b!".mo" from rfl]
  cases h1 : lastFor c lang ((loadable c b!".po" (filesFrom fsys)).filterMap id) with
  | some t1 =>
    rw [h1] at hpo
    simp only [Option.some_or]
    rw [hpo]
    constructor
    · exact fun h => .inl h
    · rintro (h | ⟨h, _⟩)
      · exact h
      · exact absurd ((hpo t1).mp rfl) (h t1)
  | none =>
    rw [h1] at hpo
    have no : ∀ t', ¬ LastFile c b!".po" lang (filesFrom fsys) t' := fun t' ht' => by cases (hpo t').mpr ht'
    simp only [Option.none_or]
    cases h2 : lastFor c lang ((loadable c b!".mo" (filesFrom fsys)).filterMap id) with
    | some t2 =>
      rw [h2] at hmo
      simp only [Option.some_or]
      rw [hmo]
      constructor
      · exact fun h => .inr ⟨no, .inl h⟩
      · rintro (h | ⟨_, h | ⟨h, _⟩⟩)
        · exact absurd h (no t)
        · exact h
        · exact absurd ((hmo t2).mp rfl) (h t2)
    | none =>
      rw [h2] at hmo
      have nom : ∀ t', ¬ LastFile c b!".mo" lang (filesFrom fsys) t' := fun t' ht' => by cases (hmo t').mpr ht'
      simp only [Option.none_or]
      constructor
      · exact fun h => .inr ⟨no, .inr ⟨nom, h⟩⟩
      · rintro (h | ⟨_, h | ⟨_, h⟩⟩)
        · exact absurd h (no t)
        · exact absurd h (nom t)
        · exact h

/-- If every directory can be read these are all the files of the tree. -/
theorem C40_all_files (n : Node) (h : complete n = true) : filesFrom (some n) = allFiles n := filesOf_complete n h

/-! ## C41 -/

/-- After any calls of `AddOrReplace`, the translator of a normalized language is the last one added
whose non-empty language normalizes to it, else the one there was. -/
theorem C41_last_added (c : Cfg α) (tr : Translation α) (tors : List (Tor α)) (lang : Str) (t : Tor α) :
    (tors.foldl (fun tr tor => (tr.addOrReplace c tor).2) tr).get lang = some t ↔
      (∃ a b, tors = a ++ t :: b ∧ t.lang ≠ [] ∧ c.norm t.lang = lang ∧
        ∀ t' ∈ b, ¬ (t'.lang ≠ [] ∧ c.norm t'.lang = lang)) ∨
      ((∀ t' ∈ tors, ¬ (t'.lang ≠ [] ∧ c.norm t'.lang = lang)) ∧ tr.get lang = some t) := by
  unfold Translation.get
  induction tors generalizing tr with
  | nil => simp
  | cons x tors ih =>
    rw [List.foldl_cons, ih, addOrReplace_get]
    constructor
    · rintro (⟨a, b, he, h1, h2, hb⟩ | ⟨hall, hg⟩)
      · exact .inl ⟨x :: a, b, by rw [he]; rfl, h1, h2, hb⟩
      · split at hg
        · rename_i hx
          simp only [Option.some.injEq] at hg
          subst hg
          exact .inl ⟨[], tors, rfl, hx.1, hx.2, hall⟩
        · rename_i hx
          refine .inr ⟨?_, hg⟩
          intro t' ht'
          rcases List.mem_cons.mp ht' with rfl | ht'
          · exact hx
          · exact hall t' ht'
    · rintro (⟨a, b, he, h1, h2, hb⟩ | ⟨hall, hg⟩)
      · cases a with
        | nil =>
          simp only [List.nil_append, List.cons.injEq] at he
          obtain ⟨rfl, rfl⟩ := he
          exact .inr ⟨hb, by rw [if_pos ⟨h1, h2⟩]⟩
        | cons y a =>
          simp only [List.cons_append, List.cons.injEq] at he
          exact .inl ⟨a, b, he.2, h1, h2, hb⟩
      · refine .inr ⟨fun t' ht' => hall t' (List.mem_cons_of_mem _ ht'), ?_⟩
        rw [if_neg (hall x List.mem_cons_self)]
        exact hg

/-- `AddOrReplace` returns the translator it replaced, or nil. -/
theorem C41_returns (c : Cfg α) (tr : Translation α) (t : Tor α) :
    (tr.addOrReplace c t).1 = if t.lang = [] then none else tr.get (c.norm t.lang) := by
  unfold Translation.addOrReplace Translation.get
  split
  · rfl
  · dsimp only
    cases tr.langs.get? (c.norm t.lang) <;> rfl

/-! ## C42 -/

/-- A translator is filed under its normalized language. -/
def Filed (c : Cfg α) (tr : Translation α) : Prop :=
  ∀ k t, tr.langs.get? k = some t → t.lang ≠ [] ∧ c.norm t.lang = k

theorem filed_addAll (c : Cfg α) (tr : Translation α) (h : Filed c tr) (tors : List (Tor α)) : Filed c (addAll c tr tors) := by
  induction tors generalizing tr with
  | nil => exact h
  | cons x tors ih =>
    refine ih (tr.addOrReplace c x).2 ?_
    intro k t hg
    rw [addOrReplace_get] at hg
    split at hg
    · rename_i hx
      simp only [Option.some.injEq] at hg
      subst hg
      exact hx
    · exact h k t hg

theorem filed_empty (c : Cfg α) (d : Str) : Filed c ({ domain := d, langs := [] } : Translation α) := by
  intro k t hg; simp [GMap.get?] at hg

theorem filed_loadFS (c : Cfg α) (tr : Translation α) (h : Filed c tr) (fsys : Option Node) :
    Filed c (tr.loadFS c fsys).2 := by
  rw [loadFS_eq]; exact filed_addAll c tr h _

theorem filed_new (c : Cfg α) (d : Str) (tors : List (Tor α)) : Filed c (newTranslation c d tors) :=
  filed_addAll c _ (filed_empty c d) tors

theorem filed_exec (c : Cfg α) (w : World α) (hw : WF w) (h : ∀ p, Filed c (w.tr p)) (o : Op α) (p : Nat) :
    Filed c ((o.exec c w).tr p) := by
  have snoc : ∀ t : Translation α, Filed c t → ∀ l, l = w.trs ++ [t] →
      Filed c (l.getD p { domain := [], langs := [] }) := by
    rintro t ht l rfl
    rw [getD_snoc_or]
    split
    · exact ht
    · exact h p
  have set : ∀ q, ∀ t : Translation α, Filed c t →
      Filed c ((w.trs.set q t).getD p { domain := [], langs := [] }) := by
    intro q t ht
    rw [getD_set]
    split
    · exact ht
    · exact h p
  have frame : (o.exec c w).trs = w.trs → Filed c ((o.exec c w).tr p) := by
    intro e; unfold World.tr; rw [e]; exact h p
  cases o with
  | newTranslation domain tors => exact snoc _ (filed_new c domain tors) _ rfl
  | withContext ctx dflt => exact frame (withContext_facts c w hw ctx dflt).trs
  | bindFS i domain fsys => exact snoc _ (filed_loadFS c _ (filed_new c domain []) fsys) _ (bindFS_trs c w i domain fsys)
  | removeDomain i domain => exact frame (removeDomain_frame w i domain).1
  | addOrReplace q tor => exact set q _ (filed_addAll c _ (h q) [tor])
  | loadFS q fsys => exact set q _ (filed_loadFS c _ (h q) fsys)
  | _ => exact frame rfl

theorem filed_reach (c : Cfg α) (w : World α) (h : Reach c w) (p : Nat) : Filed c (w.tr p) := by
  induction h generalizing p with
  | init dflt =>
    intro k t hg
    have : ((World.init c dflt).tr p).langs = [] := by
      cases p with
      | zero => rfl
      | succ p => rfl
    rw [this] at hg; simp [GMap.get?] at hg
  | step w o hr hv ih => exact filed_exec c w (reach_wf c w hr) ih o p

/-- The translators of the current domain of a `Translations` value. -/
def Holds (w : World α) (i : Nat) (t : Tor α) : Prop :=
  ∃ p k, w.get i (w.domain i) = some p ∧ (w.tr p).get k = some t

/-- Lookups use this translator. -/
def Answers (c : Cfg α) (w : World α) (i : Nat) (t : Tor α) : Prop :=
  (∀ ctxt id args, w.x c i ctxt id args = t.x ctxt id args) ∧
  (∀ ctxt id id2 n args, w.xn64 c i ctxt id id2 n args = t.xn ctxt id id2 n args)

/-- Lookups return the formatted source text. -/
def SourceText (c : Cfg α) (w : World α) (i : Nat) : Prop :=
  (∀ ctxt id args, w.x c i ctxt id args = .ok (Fmt.format c.fmt id args)) ∧
  (∀ ctxt id id2 n args, w.xn64 c i ctxt id id2 n args = .ok (Fmt.defaultPlural c.fmt id id2 n args))

theorem answers_of (c : Cfg α) (w : World α) (i p : Nat) (t : Tor α) (hp : w.get i (w.domain i) = some p)
    (ht : (w.tr p).get (w.locale i) = some t) : Answers c w i t := by
  have hg : w.getOrNoop i (w.ts i).domain = p := by
    unfold World.getOrNoop
    rw [show (w.doms i).get? (w.ts i).domain = some p from hp]
  have ht : (w.tr p).langs.get? (w.ts i).locale = some t := ht
  constructor
  · intro ctxt id args
    unfold World.x
    rw [hg]
    unfold Translation.getOrNoop
    rw [ht]
  · intro ctxt id id2 n args
    unfold World.xn64
    rw [hg]
    unfold Translation.getOrNoop
    rw [ht]

theorem source_of (c : Cfg α) (w : World α) (i p : Nat) (hp : w.getOrNoop i (w.domain i) = p)
    (ht : (w.tr p).get (w.locale i) = none) : SourceText c w i := by
  have hp : w.getOrNoop i (w.ts i).domain = p := hp
  have ht : (w.tr p).langs.get? (w.ts i).locale = none := ht
  constructor
  · intro ctxt id args
    unfold World.x
    rw [hp]
    unfold Translation.getOrNoop
    rw [ht]
    rfl
  · intro ctxt id id2 n args
    unfold World.xn64
    rw [hp]
    unfold Translation.getOrNoop
    rw [ht]
    rfl

/-- After `SetLocale(lang)`: if the current domain is loaded and holds a translator whose language
normalizes like `lang`, lookups use it (there is exactly one); if it is loaded but holds none, lookups
return the source text.  The locale `""` stands for the default one.  The same for `L` through
`C36_copies`; the domain not being loaded is C46. -/
theorem C42_locale (c : Cfg α) (w : World α) (h : Reach c w) (i : Nat) (hi : i < w.tss.length) (lang dflt : Str) :
    (∀ t, Holds w i t → c.norm t.lang = (if lang = [] then dflt else c.norm lang) →
      Answers c (w.setLocale c i lang dflt) i t) ∧
    (∀ p, w.get i (w.domain i) = some p → (∀ t, Holds w i t → c.norm t.lang ≠ (if lang = [] then dflt else c.norm lang)) →
      SourceText c (w.setLocale c i lang dflt) i) := by
  have hv := view_setLocale_self c w i hi lang dflt
  have hloc : (w.setLocale c i lang dflt).locale i = (if lang = [] then dflt else c.norm lang) := congrArg View.locale hv
  have hdom : (w.setLocale c i lang dflt).domain i = w.domain i := congrArg View.domain hv
  have hget : ∀ d, (w.setLocale c i lang dflt).get i d = w.get i d := fun d => congrFun (congrArg View.doms hv) d
  have htr : ∀ p, (w.setLocale c i lang dflt).tr p = w.tr p := fun _ => rfl
  constructor
  · rintro t ⟨p, k, hp, hk⟩ hn
    refine answers_of c _ i p t (by rw [hdom, hget]; exact hp) ?_
    rw [hloc, htr, ← hn, (filed_reach c w h p k t hk).2]
    exact hk
  · intro p hp hno
    refine source_of c _ i p ?_ ?_
    · unfold World.getOrNoop
      have := (hget (w.domain i)).trans hp
      unfold World.get at this
      rw [hdom, this]
    · rw [hloc, htr]
      cases hg : (w.tr p).get (if lang = [] then dflt else c.norm lang) with
      | none => rfl
      | some t => exact absurd (filed_reach c w h p _ t hg).2 (hno t ⟨p, _, hp, hg⟩)

/-! ## C43 -/

/-- `UsedLocale` is the locale if the current domain has a translator for it, the source-code locale
otherwise.  In the first case lookups use that translator, in the second they return the source text
(if the domain is not loaded, as long as the shared object of unknown domains has no translator). -/
theorem C43_used_locale (c : Cfg α) (w : World α) (i : Nat) :
    (∀ p t, w.get i (w.domain i) = some p → (w.tr p).get (w.locale i) = some t →
      w.usedLocale i = w.locale i ∧ Answers c w i t) ∧
    ((∀ p, w.get i (w.domain i) = some p → (w.tr p).get (w.locale i) = none) →
      w.usedLocale i = w.sourceCodeLocale i ∧ ((w.tr 0).langs = [] → SourceText c w i)) := by
  constructor
  · intro p t hp ht
    refine ⟨?_, answers_of c w i p t hp ht⟩
    unfold World.usedLocale
    rw [show w.get i (w.ts i).domain = some p from hp]
    dsimp only
    rw [show (w.tr p).get (w.ts i).locale = some t from ht]
    rfl
  · intro hno
    constructor
    · unfold World.usedLocale
      cases hp : w.get i (w.ts i).domain with
      | none => rfl
      | some p =>
        dsimp only
        rw [show (w.tr p).get (w.ts i).locale = none from hno p hp]
        rfl
    · intro h0
      cases hp : w.get i (w.domain i) with
      | none =>
        refine source_of c w i 0 ?_ ?_
        · unfold World.getOrNoop
          rw [show (w.doms i).get? (w.domain i) = none from hp]
        · unfold Translation.get; rw [h0]; rfl
      | some p =>
        refine source_of c w i p ?_ (hno p hp)
        unfold World.getOrNoop
        rw [show (w.doms i).get? (w.domain i) = some p from hp]

/-! ## C44 -/

theorem collect_spec (c : Cfg α) (langs acc : List Str) (hn : acc.Nodup) :
    let r := langs.foldl (fun locales lang =>
      let lang := c.norm lang
      if lang ∈ locales then locales else locales ++ [lang]) acc
    r.Nodup ∧ ∀ l, l ∈ r ↔ l ∈ acc ∨ ∃ k ∈ langs, c.norm k = l := by
  induction langs generalizing acc with
  | nil => exact ⟨hn, by simp⟩
  | cons x langs ih =>
    rw [List.foldl_cons]
    dsimp only
    by_cases h : c.norm x ∈ acc
    · rw [if_pos h]
      obtain ⟨h1, h2⟩ := ih acc hn
      refine ⟨h1, fun l => ?_⟩
      rw [h2]
      constructor
      · rintro (hl | ⟨k, hk, he⟩)
        · exact .inl hl
        · exact .inr ⟨k, List.mem_cons_of_mem _ hk, he⟩
      · rintro (hl | ⟨k, hk, he⟩)
        · exact .inl hl
        · rcases List.mem_cons.mp hk with rfl | hk
          · exact .inl (he ▸ h)
          · exact .inr ⟨k, hk, he⟩
    · rw [if_neg h]
      obtain ⟨h1, h2⟩ := ih (acc ++ [c.norm x]) (by
        rw [List.nodup_append]
        refine ⟨hn, by simp, ?_⟩
        intro a ha b hb
        simp only [List.mem_singleton] at hb
        subst hb
        rintro rfl
        exact h ha)
      refine ⟨h1, fun l => ?_⟩
      rw [h2]
      simp only [List.mem_append, List.mem_singleton]
      constructor
      · rintro ((hl | rfl) | ⟨k, hk, he⟩)
        · exact .inl hl
        · exact .inr ⟨x, List.mem_cons_self, rfl⟩
        · exact .inr ⟨k, List.mem_cons_of_mem _ hk, he⟩
      · rintro (hl | ⟨k, hk, he⟩)
        · exact .inl (.inl hl)
        · rcases List.mem_cons.mp hk with rfl | hk
          · exact .inl (.inr he.symm)
          · exact .inr ⟨k, hk, he⟩

theorem tor_mem_keys (tr : Translation α) (k : Str) : k ∈ tr.langs.keys ↔ ∃ t, tr.get k = some t := by
  unfold Translation.get
  cases hg : tr.langs.get? k with
  | none => simp [(GMap.get?_eq_none _ _).mp hg]
  | some t =>
    simp only [Option.some.injEq, exists_eq', iff_true]
    by_contra hn
    rw [(GMap.get?_eq_none _ _).mpr hn] at hg
    cases hg

/-- Whatever the iteration order and the sorting algorithm, `Locales()` is strictly increasing (so
without duplicates) and has exactly the source-code locale and the languages of the translators of the
current domain, each under the name `Normalize(Normalize(lang))`.  The domain not being loaded, there
are only those of the shared object of unknown domains. -/
theorem C44_locales (c : Cfg α) (w : World α) (h : Reach c w) (i : Nat) (ls : List Str) (hl : w.Locales c i ls) :
    ls.Pairwise (· < ·) ∧
    ∀ l, l ∈ ls ↔ l = w.sourceCodeLocale i ∨
      ∃ k t, (w.tr (w.getOrNoop i (w.domain i))).get k = some t ∧ c.norm (c.norm t.lang) = l := by
  obtain ⟨order, hp, hperm, hs⟩ := hl
  obtain ⟨hnd, hmem⟩ := collect_spec c order [(w.ts i).src] (by simp)
  have hnd : ls.Nodup := hperm.nodup_iff.mpr hnd
  refine ⟨?_, ?_⟩
  · refine (hs.and hnd).imp ?_
    rintro a b ⟨h1, h2⟩
    by_contra h3
    exact h2 (Tr.str_trichotomy a b h3 h1)
  · intro l
    rw [hperm.mem_iff]
    unfold World.collectLocales
    rw [hmem]
    simp only [List.mem_singleton]
    refine or_congr Iff.rfl ?_
    constructor
    · rintro ⟨k, hk, he⟩
      obtain ⟨t, ht⟩ := (tor_mem_keys _ k).mp (hp.mem_iff.mp hk)
      exact ⟨k, t, ht, by rw [(filed_reach c w h _ k t ht).2]; exact he⟩
    · rintro ⟨k, t, ht, he⟩
      exact ⟨k, hp.mem_iff.mpr ((tor_mem_keys _ k).mpr ⟨t, ht⟩), by rw [← (filed_reach c w h _ k t ht).2]; exact he⟩

/-- With a normalization that is idempotent, these are the normalized languages. -/
theorem C44_idempotent (c : Cfg α) (w : World α) (h : Reach c w) (hn : ∀ s, c.norm (c.norm s) = c.norm s) (i : Nat)
    (ls : List Str) (hl : w.Locales c i ls) (l : Str) : l ∈ ls ↔ l = w.sourceCodeLocale i ∨
      ∃ k t, (w.tr (w.getOrNoop i (w.domain i))).get k = some t ∧ c.norm t.lang = l := by
  rw [(C44_locales c w h i ls hl).2 l]
  simp only [hn]

/-- So the result does not depend on the iteration order or the sorting algorithm. -/
theorem C44_deterministic (c : Cfg α) (w : World α) (h : Reach c w) (i : Nat) (ls ls' : List Str)
    (hl : w.Locales c i ls) (hl' : w.Locales c i ls') : ls = ls' := by
  obtain ⟨s1, m1⟩ := C44_locales c w h i ls hl
  obtain ⟨s2, m2⟩ := C44_locales c w h i ls' hl'
  have irr : ∀ a b : Str, a < b → a ≠ b := by
    rintro a b hab rfl
    exact List.lt_irrefl a hab
  have hp : ls.Perm ls' := by
    refine (List.perm_ext_iff_of_nodup (s1.imp (irr _ _)) (s2.imp (irr _ _))).mpr ?_
    intro l; rw [m1, m2]
  exact hp.eq_of_pairwise (fun a b _ _ hab hba => absurd (List.lt_trans hab hba) (List.lt_irrefl a)) s1 s2

/-- There is a result. -/
theorem C44_exists (c : Cfg α) (w : World α) (i : Nat) : ∃ ls, w.Locales c i ls := by
  let l := World.collectLocales c (w.ts i).src (w.tr (w.getOrNoop i (w.ts i).domain)).langs.keys
  refine ⟨l.mergeSort (fun a b => decide (¬ b < a)), _, List.Perm.refl _, List.mergeSort_perm _ _, ?_⟩
  have := List.pairwise_mergeSort (le := fun a b : Str => decide (¬ b < a)) ?_ ?_ l
  · exact this.imp (fun h => by simpa using h)
  · intro a b c hab hbc
    simp only [decide_eq_true_eq] at *
    intro hca
    rcases Classical.em (b < c) with h | h
    · exact hab (List.lt_trans h hca)
    · have := Tr.str_trichotomy b c h hbc
      subst this
      exact hab hca
  · intro a b
    simp only [Bool.or_eq_true, decide_eq_true_eq]
    by_contra hc
    simp only [not_or, not_not] at hc
    exact List.lt_irrefl a (List.lt_trans hc.2 hc.1)

end Verif.W
