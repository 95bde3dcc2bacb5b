import Verif.Lemmas.WorldOps
/-!
# C36-C39: Translations values are independent; domains, current domain, binding

Every theorem is about all histories: `Reach c w` are the heaps a program can reach by any sequence of
valid calls on any number of `Translations` and `Translation` values.  Concrete cases meeting the
hypotheses of C36-C49 are in `Verif.Props.WorldExamples`.
-/
namespace Verif.W
open Verif
variable {α : Type}

theorem keys_mem_iff (m : GMap Nat) (d : Str) : d ∈ m.keys ↔ (m.get? d).isSome = true := by
  constructor
  · intro h
    cases hg : m.get? d with
    | none => exact absurd h ((GMap.get?_eq_none _ _).mp hg)
    | some p => rfl
  · intro h
    by_contra hn
    rw [(GMap.get?_eq_none _ _).mpr hn] at h
    simp at h

theorem same_of (c : Cfg α) (w w' : World α) (h : WF w) (h' : WF w') (i j : Nat) (hv : w'.view j = w.view i)
    (ht : ∀ p, Uses w i p → w'.tr p = w.tr p) : SameAnswers c w i w' j := by
  have hl : (w'.ts j).locale = (w.ts i).locale := congrArg View.locale hv
  have hd : (w'.ts j).domain = (w.ts i).domain := congrArg View.domain hv
  have hs : (w'.ts j).src = (w.ts i).src := congrArg View.src hv
  have hg : ∀ d, (w'.doms j).get? d = (w.doms i).get? d := fun d => congrFun (congrArg View.doms hv) d
  have hn : w'.getOrNoop j (w'.ts j).domain = w.getOrNoop i (w.ts i).domain := by
    unfold World.getOrNoop; rw [hd, hg]
  have hu : Uses w i (w.getOrNoop i (w.ts i).domain) := by
    unfold World.getOrNoop Uses
    cases hc : (w.doms i).get? (w.ts i).domain with
    | none => exact .inl rfl
    | some p => exact .inr ⟨_, hc⟩
  have htr := ht _ hu
  have hp : (w'.doms j).keys.Perm (w.doms i).keys := by
    refine (List.perm_ext_iff_of_nodup (h'.keys _) (h.keys _)).mpr ?_
    intro d
    have a := keys_mem_iff (w'.doms j) d
    have b := keys_mem_iff (w.doms i) d
    rw [hg] at a
    exact a.trans b.symm
  have hx : (w'.tr (w'.getOrNoop j (w'.ts j).domain)).getOrNoop c (w'.ts j).locale =
      (w.tr (w.getOrNoop i (w.ts i).domain)).getOrNoop c (w.ts i).locale := by
    rw [hn, htr, hl]
  refine ⟨hl, hd, hs, ?_, ?_, ?_, hg, ?_, ?_, ?_⟩
  · unfold World.usedLocale World.get
    rw [hd, hg, hs, hl]
    cases hc : (w.doms i).get? (w.ts i).domain with
    | none => rfl
    | some p => dsimp only; rw [ht p (.inr ⟨_, hc⟩)]
  · intro d
    have a := hasDomain_iff w' j d
    have b := hasDomain_iff w i d
    rw [show w'.get j d = w.get i d from hg d] at a
    exact Bool.eq_iff_iff.mpr (a.trans b.symm)
  · intro ds
    exact ⟨fun q => q.trans hp, fun q => q.trans hp.symm⟩
  · intro ls
    unfold World.Locales
    rw [hn, htr, hs]
  · intro ctxt id args
    unfold World.x; rw [hx]
  · intro ctxt id id2 n args
    unfold World.xn64; rw [hx]

/-! ## C36 -/

/-- No call changes the answers of a `Translations` value, except the setters called on that very value
and changes of a `Translation` object it uses. -/
theorem C36_frame (c : Cfg α) (w : World α) (h : Reach c w) (o : Op α) (hv : o.Valid w) (j : Nat)
    (hj : j < w.tss.length) (ht : o.target ≠ some j) (hc : ∀ p, Uses w j p → o.changes ≠ some p) :
    SameAnswers c w j (o.exec c w) j := by
  have hw := reach_wf c w h
  refine same_of c w _ hw (exec_wf c w hw o hv) j j (exec_view c w hw o hv j hj ht) ?_
  intro p hu
  refine exec_tr c w hw o p ?_ (hc p hu)
  rcases hu with rfl | ⟨d, hd⟩
  · exact hw.noop
  · exact hw.ptr _ _ _ hd

theorem SameAnswers.trans {c : Cfg α} {w w1 w2 : World α} {i j k : Nat} (a : SameAnswers c w i w1 j)
    (b : SameAnswers c w1 j w2 k) : SameAnswers c w i w2 k where
  locale := b.locale.trans a.locale
  domain := b.domain.trans a.domain
  sourceCodeLocale := b.sourceCodeLocale.trans a.sourceCodeLocale
  usedLocale := b.usedLocale.trans a.usedLocale
  hasDomain d := (b.hasDomain d).trans (a.hasDomain d)
  domains ds := (b.domains ds).trans (a.domains ds)
  get d := (b.get d).trans (a.get d)
  locales ls := (b.locales ls).trans (a.locales ls)
  x ctxt id args := (b.x ctxt id args).trans (a.x ctxt id args)
  xn64 ctxt id id2 n args := (b.xn64 ctxt id id2 n args).trans (a.xn64 ctxt id id2 n args)

theorem SameAnswers.refl (c : Cfg α) (w : World α) (i : Nat) : SameAnswers c w i w i where
  locale := rfl
  domain := rfl
  sourceCodeLocale := rfl
  usedLocale := rfl
  hasDomain _ := rfl
  domains _ := Iff.rfl
  get _ := rfl
  locales _ := Iff.rfl
  x _ _ _ := rfl
  xn64 _ _ _ _ _ := rfl

/-- The same for any number of calls: whatever is done to all the other `Translations` values, this one
gives the same answers. -/
theorem C36_independent (c : Cfg α) (w w' : World α) (h : Reach c w) (ops : List (Op α)) (r : Run c w ops w') (j : Nat)
    (hj : j < w.tss.length) (ht : ∀ o ∈ ops, o.target ≠ some j)
    (hc : ∀ o ∈ ops, ∀ p, Uses w j p → o.changes ≠ some p) : SameAnswers c w j w' j := by
  induction r with
  | nil w => exact SameAnswers.refl c w j
  | cons w o os w' hv _ ih =>
    have one := C36_frame c w h o hv j hj (ht o List.mem_cons_self) (hc o List.mem_cons_self)
    refine one.trans (ih (Reach.step w o h hv) (Nat.lt_of_lt_of_le hj (exec_tss c w (reach_wf c w h) o))
      (fun o ho => ht o (List.mem_cons_of_mem _ ho)) ?_)
    intro o' ho' p hu
    refine hc o' (List.mem_cons_of_mem _ ho') p ?_
    rcases hu with rfl | ⟨d, hd⟩
    · exact .inl rfl
    · exact .inr ⟨d, by rw [← one.get d]; exact hd⟩

/-- What the copies are when they are made: `D` answers as the original after `SetDomain`, `L` as the
original after `SetLocale`, `Global` as the global value, and they are new values.  `withContext` is
C49. -/
theorem C36_copies (c : Cfg α) (w : World α) (h : Reach c w) (i : Nat) (hi : i < w.tss.length) (x dflt : Str) :
    ((w.d i x).2 = w.tss.length ∧ SameAnswers c (w.setDomain i x) i (w.d i x).1 (w.d i x).2) ∧
    ((w.l c i x dflt).2 = w.tss.length ∧ SameAnswers c (w.setLocale c i x dflt) i (w.l c i x dflt).1 (w.l c i x dflt).2) ∧
    (w.global.2 = w.tss.length ∧ SameAnswers c w w.glob w.global.1 w.global.2) := by
  have hw := reach_wf c w h
  refine ⟨⟨rfl, ?_⟩, ⟨rfl, ?_⟩, ⟨rfl, ?_⟩⟩
  · refine same_of c _ _ (exec_wf c w hw (.setDomain i x) hi) (wf_d w hw i x) _ _ ?_ (fun _ _ => rfl)
    exact (view_d_new w hw i x).trans (view_setDomain_self w i hi x).symm
  · refine same_of c _ _ (exec_wf c w hw (.setLocale i x dflt) hi) (wf_l c w hw i x dflt) _ _ ?_ (fun _ _ => rfl)
    exact (view_l_new c w hw i x dflt).trans (view_setLocale_self c w i hi x dflt).symm
  · exact same_of c _ _ hw (wf_clone w hw _) _ _ (view_clone_new w hw _) (fun _ _ => rfl)

/-! ## C37 -/

/-- One call and one domain. -/
theorem get_exec (c : Cfg α) (w : World α) (h : Reach c w) (o : Op α) (hv : o.Valid w) (i : Nat) (hi : i < w.tss.length)
    (d : Str) : ((o.exec c w).get i d).isSome = true ↔
      (∃ fsys, o = .bindFS i d fsys ∧ Loads c fsys) ∨ ((w.get i d).isSome = true ∧ ¬ Drops i d o) := by
  have hw := reach_wf c w h
  by_cases ht : o.target = some i
  · cases o with
    | bindFS j e fsys =>
      simp only [Op.target, Option.some.injEq] at ht
      subst ht
      by_cases hl : Loads c fsys
      · have := congrFun (congrArg View.doms (view_bindFS_self c w hw j hi e fsys hl)) d
        change (w.bindFS c j e fsys).get j d = _ at this
        rw [show ((Op.bindFS j e fsys).exec c w).get j d = _ from this]
        by_cases hd : d = e
        · subst hd; simp [hl]
        · dsimp only
          rw [if_neg hd]
          constructor
          · intro hs; exact .inr ⟨hs, by simp [Drops]⟩
          · rintro (⟨f, hf, _⟩ | ⟨hs, _⟩)
            · simp only [Op.bindFS.injEq] at hf; exact absurd hf.2.1.symm hd
            · exact hs
      · have := congrFun (congrArg View.doms (view_bindFS_fail c w j e fsys hl j)) d
        rw [show ((Op.bindFS j e fsys).exec c w).get j d = w.get j d from this]
        constructor
        · intro hs; exact .inr ⟨hs, by simp [Drops]⟩
        · rintro (⟨f, hf, hl'⟩ | ⟨hs, _⟩)
          · simp only [Op.bindFS.injEq] at hf
            rw [← hf.2.2] at hl'
            exact absurd hl' hl
          · exact hs
    | removeDomain j e =>
      simp only [Op.target, Option.some.injEq] at ht
      subst ht
      have := congrFun (congrArg View.doms (view_removeDomain_self w hw j hi e)) d
      rw [show ((Op.removeDomain j e).exec c w).get j d = _ from this]
      simp only [reduceCtorEq, false_and, exists_false, false_or]
      have hD : Drops (α := α) j d (.removeDomain j e) ↔ e = d ∧ d ≠ [] := by simp [Drops]
      rw [hD]
      by_cases hc : e ≠ [] ∧ w.hasDomain j e = true
      · rw [if_pos hc]
        dsimp only
        by_cases hd : d = e
        · subst hd; simp [hc.1]
        · rw [if_neg hd]
          exact ⟨fun hs => ⟨hs, fun hc2 => hd hc2.1.symm⟩, fun hs => hs.1⟩
      · rw [if_neg hc]
        change (w.get j d).isSome = true ↔ _
        constructor
        · intro hs
          refine ⟨hs, ?_⟩
          rintro ⟨rfl, hne⟩
          exact hc ⟨hne, (hasDomain_iff w j e).mpr hs⟩
        · exact fun hs => hs.1
    | clearDomains j =>
      simp only [Op.target, Option.some.injEq] at ht
      subst ht
      have := congrFun (congrArg View.doms (view_clear_self w j hi)) d
      rw [show ((Op.clearDomains j).exec c w).get j d = _ from this]
      simp [Drops]
    | setDomain j e =>
      simp only [Op.target, Option.some.injEq] at ht
      subst ht
      have := congrFun (congrArg View.doms (view_setDomain_self w j hi e)) d
      rw [show ((Op.setDomain j e).exec c w).get j d = w.get j d from this]
      simp [Drops]
    | setLocale j lang dflt =>
      simp only [Op.target, Option.some.injEq] at ht
      subst ht
      have := congrFun (congrArg View.doms (view_setLocale_self c w j hi lang dflt)) d
      rw [show ((Op.setLocale j lang dflt).exec c w).get j d = w.get j d from this]
      simp [Drops]
    | setSourceCodeLocale j lang =>
      simp only [Op.target, Option.some.injEq] at ht
      subst ht
      have := congrFun (congrArg View.doms (view_setSrc_self c w j hi lang)) d
      rw [show ((Op.setSourceCodeLocale j lang).exec c w).get j d = w.get j d from this]
      simp [Drops]
    | _ => simp [Op.target] at ht
  · have := congrFun (congrArg View.doms (exec_view c w hw o hv i hi ht)) d
    rw [show (o.exec c w).get i d = w.get i d from this]
    constructor
    · intro hs
      refine .inr ⟨hs, ?_⟩
      rintro (⟨rfl, _⟩ | rfl) <;> exact ht rfl
    · rintro (⟨f, rfl, _⟩ | ⟨hs, _⟩)
      · exact absurd rfl ht
      · exact hs

/-- After any history a domain is there iff some bind of it loaded something and was not followed by a
removal, or it was there at the start and was not removed. -/
theorem C37_hasDomain (c : Cfg α) (w w' : World α) (h : Reach c w) (ops : List (Op α)) (r : Run c w ops w') (i : Nat)
    (hi : i < w.tss.length) (d : Str) : w'.hasDomain i d = true ↔
      (∃ a fsys b, ops = a ++ .bindFS i d fsys :: b ∧ Loads c fsys ∧ ∀ o ∈ b, ¬ Drops i d o) ∨
      (w.hasDomain i d = true ∧ ∀ o ∈ ops, ¬ Drops i d o) := by
  rw [hasDomain_iff, hasDomain_iff]
  induction r with
  | nil w =>
    constructor
    · intro hs; exact .inr ⟨hs, by simp⟩
    · rintro (⟨a, f, b, he, _⟩ | ⟨hs, _⟩)
      · simp at he
      · exact hs
  | cons w o os w' hv _ ih =>
    have hi' := Nat.lt_of_lt_of_le hi (exec_tss c w (reach_wf c w h) o)
    rw [ih (Reach.step w o h hv) hi', get_exec c w h o hv i hi d]
    constructor
    · rintro (⟨a, f, b, he, hl, hb⟩ | ⟨⟨f, rfl, hl⟩ | ⟨hs, hnd⟩, hall⟩)
      · exact .inl ⟨o :: a, f, b, by rw [he]; rfl, hl, hb⟩
      · exact .inl ⟨[], f, os, rfl, hl, hall⟩
      · refine .inr ⟨hs, ?_⟩
        intro o' ho'
        rcases List.mem_cons.mp ho' with rfl | ho'
        · exact hnd
        · exact hall o' ho'
    · rintro (⟨a, f, b, he, hl, hb⟩ | ⟨hs, hall⟩)
      · cases a with
        | nil =>
          simp only [List.nil_append, List.cons.injEq] at he
          obtain ⟨rfl, rfl⟩ := he
          exact .inr ⟨.inl ⟨f, rfl, hl⟩, hb⟩
        | cons o' a =>
          simp only [List.cons_append, List.cons.injEq] at he
          exact .inl ⟨a, f, b, he.2, hl, hb⟩
      · exact .inr ⟨.inr ⟨hs, hall o List.mem_cons_self⟩, fun o' ho' => hall o' (List.mem_cons_of_mem _ ho')⟩

/-- `Domains()` lists the domains there are, once each. -/
theorem C37_domains (c : Cfg α) (w : World α) (h : Reach c w) (i : Nat) (ds : List Str) (hd : w.Domains i ds) :
    ds.Nodup ∧ ∀ d, d ∈ ds ↔ w.hasDomain i d = true := by
  refine ⟨hd.nodup_iff.mpr ((reach_wf c w h).keys _), fun d => ?_⟩
  rw [hd.mem_iff, hasDomain_iff]
  exact keys_mem_iff (w.doms i) d

/-- `RemoveDomain` returns true iff it removed something; the domain `""` is never removed. -/
theorem C37_remove (c : Cfg α) (w : World α) (h : Reach c w) (i : Nat) (hi : i < w.tss.length) (d : Str) :
    ((w.removeDomain i d).1 = true ↔ (w.removeDomain i d).2.hasDomain i d ≠ w.hasDomain i d) ∧
    ((w.removeDomain i d).1 = true ↔ w.hasDomain i d = true ∧ d ≠ []) ∧
    ((w.removeDomain i d).1 = false → (w.removeDomain i d).2 = w) := by
  have hst := get_exec c w h (.removeDomain i d) hi i hi d
  rw [← hasDomain_iff, ← hasDomain_iff] at hst
  have hD : Drops (α := α) i d (.removeDomain i d) ↔ d ≠ [] := by simp [Drops]
  rw [hD] at hst
  simp only [reduceCtorEq, false_and, exists_false, false_or] at hst
  change (w.removeDomain i d).2.hasDomain i d = true ↔ _ at hst
  have hr : (w.removeDomain i d).1 = true ↔ w.hasDomain i d = true ∧ d ≠ [] := by
    rw [removeDomain_eq]
    split
    · rename_i hc; simp [hc.1, hc.2]
    · rename_i hc; simp only [Bool.false_eq_true, false_iff]; exact fun hx => hc ⟨hx.2, hx.1⟩
  refine ⟨?_, hr, ?_⟩
  · rw [hr]
    cases hx : w.hasDomain i d <;> cases hy : (w.removeDomain i d).2.hasDomain i d
    · simp
    · rw [hx, hy] at hst; simp at hst
    · rw [hx, hy] at hst; simpa using hst
    · rw [hx, hy] at hst; simpa using hst
  · rw [removeDomain_eq]
    split
    · intro hf; cases hf
    · intro _; rfl

/-- A fresh `Translations` value has no domain. -/
theorem C37_fresh (w : World α) (dflt d : Str) :
    (w.newTranslations dflt).1.hasDomain (w.newTranslations dflt).2 d = false := by
  have : ¬ (w.newTranslations dflt).1.hasDomain (w.newTranslations dflt).2 d = true := by
    rw [hasDomain_iff]
    have := congrFun (congrArg View.doms (view_alloc_new w [] dflt defaultDomain defaultSrc)) d
    rw [show (w.newTranslations dflt).1.get (w.newTranslations dflt).2 d = none from this]
    simp
  simpa using this

/-! ## C38 -/

theorem domain_exec (c : Cfg α) (w : World α) (h : Reach c w) (o : Op α) (hv : o.Valid w) (i : Nat)
    (hi : i < w.tss.length) : (o.exec c w).domain i = (newDomain w i o).getD (w.domain i) := by
  have hw := reach_wf c w h
  by_cases ht : o.target = some i
  · cases o with
    | bindFS j e fsys =>
      simp only [Op.target, Option.some.injEq] at ht
      subst ht
      by_cases hl : Loads c fsys
      · exact congrArg View.domain (view_bindFS_self c w hw j hi e fsys hl)
      · exact congrArg View.domain (view_bindFS_fail c w j e fsys hl j)
    | removeDomain j e =>
      simp only [Op.target, Option.some.injEq] at ht
      subst ht
      refine (congrArg View.domain (view_removeDomain_self w hw j hi e)).trans ?_
      unfold newDomain
      by_cases hc : e ≠ [] ∧ w.hasDomain j e = true
      · rw [if_pos hc]
        dsimp only
        by_cases hd : w.domain j = e
        · rw [if_pos hd, if_pos ⟨rfl, hc.1, hc.2, hd.symm⟩]; rfl
        · rw [if_neg hd, if_neg (fun hx => hd hx.2.2.2.symm)]; rfl
      · rw [if_neg hc]
        dsimp only
        rw [if_neg (fun hx => hc ⟨hx.2.1, hx.2.2.1⟩)]; rfl
    | clearDomains j =>
      simp only [Op.target, Option.some.injEq] at ht
      subst ht
      refine (congrArg View.domain (view_clear_self w j hi)).trans ?_
      simp [newDomain, defaultDomain]
    | setDomain j e =>
      simp only [Op.target, Option.some.injEq] at ht
      subst ht
      refine (congrArg View.domain (view_setDomain_self w j hi e)).trans ?_
      simp [newDomain]
    | setLocale j lang dflt =>
      simp only [Op.target, Option.some.injEq] at ht
      subst ht
      exact congrArg View.domain (view_setLocale_self c w j hi lang dflt)
    | setSourceCodeLocale j lang =>
      simp only [Op.target, Option.some.injEq] at ht
      subst ht
      exact congrArg View.domain (view_setSrc_self c w j hi lang)
    | _ => simp [Op.target] at ht
  · refine (congrArg View.domain (exec_view c w hw o hv i hi ht)).trans ?_
    have : newDomain w i o = none := by
      cases o <;> first
        | rfl
        | (simp only [Op.target, Option.some.injEq] at ht; simp [newDomain, ht])
    rw [this]
    rfl

/-- The locales after one call. -/
theorem C38_locales (c : Cfg α) (w : World α) (h : Reach c w) (o : Op α) (hv : o.Valid w) (i : Nat)
    (hi : i < w.tss.length) : (o.exec c w).locale i = (newLocale c i o).getD (w.locale i) ∧
      (o.exec c w).sourceCodeLocale i = (newSrc c i o).getD (w.sourceCodeLocale i) := by
  have hw := reach_wf c w h
  have of : ∀ v : View, (o.exec c w).view i = v → v.locale = (newLocale c i o).getD (w.locale i) →
      v.src = (newSrc c i o).getD (w.sourceCodeLocale i) →
      (o.exec c w).locale i = (newLocale c i o).getD (w.locale i) ∧
      (o.exec c w).sourceCodeLocale i = (newSrc c i o).getD (w.sourceCodeLocale i) := by
    rintro v rfl h1 h2; exact ⟨h1, h2⟩
  by_cases ht : o.target = some i
  · cases o with
    | bindFS j e fsys =>
      simp only [Op.target, Option.some.injEq] at ht
      subst ht
      by_cases hl : Loads c fsys
      · exact of _ (view_bindFS_self c w hw j hi e fsys hl) rfl rfl
      · exact of _ (view_bindFS_fail c w j e fsys hl j) rfl rfl
    | removeDomain j e =>
      simp only [Op.target, Option.some.injEq] at ht
      subst ht
      refine of _ (view_removeDomain_self w hw j hi e) ?_ ?_ <;> split <;> rfl
    | clearDomains j =>
      simp only [Op.target, Option.some.injEq] at ht
      subst ht
      exact of _ (view_clear_self w j hi) rfl rfl
    | setDomain j e =>
      simp only [Op.target, Option.some.injEq] at ht
      subst ht
      exact of _ (view_setDomain_self w j hi e) rfl rfl
    | setLocale j lang dflt =>
      simp only [Op.target, Option.some.injEq] at ht
      subst ht
      exact of _ (view_setLocale_self c w j hi lang dflt) (by simp [newLocale, chosen]) rfl
    | setSourceCodeLocale j lang =>
      simp only [Op.target, Option.some.injEq] at ht
      subst ht
      exact of _ (view_setSrc_self c w j hi lang) rfl (by simp [newSrc])
    | _ => simp [Op.target] at ht
  · refine of _ (exec_view c w hw o hv i hi ht) ?_ ?_
    · have : newLocale c i o = none := by
        cases o <;> first
          | rfl
          | (simp only [Op.target, Option.some.injEq] at ht; simp [newLocale, ht])
      rw [this]; rfl
    · have : newSrc c i o = none := by
        cases o <;> first
          | rfl
          | (simp only [Op.target, Option.some.injEq] at ht; simp [newSrc, ht])
      rw [this]; rfl

/-- The current domain after any history is the one given by the last call that changes it (setting,
clearing, removing the current domain), and without such a call the one at the start. -/
theorem C38_domain (c : Cfg α) (w w' : World α) (h : Reach c w) (ops : List (Op α)) (r : Run c w ops w') (i : Nat)
    (hi : i < w.tss.length) :
    (∃ a o b w1 d, ops = a ++ o :: b ∧ Run c w a w1 ∧ newDomain w1 i o = some d ∧ w'.domain i = d ∧
      ∀ b1 o' b2 w2, b = b1 ++ o' :: b2 → Run c (o.exec c w1) b1 w2 → newDomain w2 i o' = none) ∨
    (w'.domain i = w.domain i ∧
      ∀ b1 o' b2 w2, ops = b1 ++ o' :: b2 → Run c w b1 w2 → newDomain w2 i o' = none) := by
  induction r with
  | nil w => exact .inr ⟨rfl, by intro b1 o' b2 w2 he; simp at he⟩
  | cons w o os w' hv hr ih =>
    have hi' := Nat.lt_of_lt_of_le hi (exec_tss c w (reach_wf c w h) o)
    have hd := domain_exec c w h o hv i hi
    rcases ih (Reach.step w o h hv) hi' with ⟨a, o1, b, w1, d, he, ra, hn, hd', hb⟩ | ⟨hd', hb⟩
    · exact .inl ⟨o :: a, o1, b, w1, d, by rw [he]; rfl, Run.cons w o a w1 hv ra, hn, hd', hb⟩
    · cases hn : newDomain w i o with
      | some d =>
        rw [hn] at hd
        exact .inl ⟨[], o, os, w, d, rfl, Run.nil w, hn, by rw [hd', hd]; rfl, hb⟩
      | none =>
        rw [hn] at hd
        refine .inr ⟨by rw [hd', hd]; rfl, ?_⟩
        intro b1 o' b2 w2 he rr
        cases rr with
        | nil =>
          simp only [List.nil_append, List.cons.injEq] at he
          rw [← he.1]; exact hn
        | cons _ o'' os'' _ hv' rr =>
          simp only [List.cons_append, List.cons.injEq] at he
          obtain ⟨rfl, he⟩ := he
          exact hb _ _ _ _ he rr

/-! ## C39 -/

/-- A bind from which no file loads changes no answer of any value. -/
theorem C39_failed (c : Cfg α) (w : World α) (h : Reach c w) (i : Nat) (hi : i < w.tss.length) (d : Str)
    (fsys : Option Node) (hl : ¬ Loads c fsys) (j : Nat) :
    SameAnswers c w j (w.bindFS c i d fsys) j := by
  have hw := reach_wf c w h
  refine same_of c w _ hw (wf_bindFS c w hw i hi d fsys) j j (view_bindFS_fail c w i d fsys hl j) ?_
  intro p hu
  refine exec_tr c w hw (.bindFS i d fsys) p ?_ (by simp [Op.changes])
  rcases hu with rfl | ⟨d, hd⟩
  · exact hw.noop
  · exact hw.ptr _ _ _ hd

/-- The translators of the loaded files. -/
def torsOf (c : Cfg α) (ext : Str) (fsys : Option Node) : List (Tor α) := (loadable c ext (filesFrom fsys)).filterMap id

theorem bound_get (c : Cfg α) (d : Str) (fsys : Option Node) (lang : Str) :
    (bound c d fsys).langs.get? lang = (lastFor c lang (torsOf c extPo fsys)).or (lastFor c lang (torsOf c extMo fsys)) := by
  unfold bound
  rw [loadFS_eq, addAll_get, lastFor_append]
  simp only [newTranslation, List.foldl_nil, GMap.get?, Option.or_none]
  rfl

theorem mem_torsOf (c : Cfg α) (ext : Str) (fsys : Option Node) (t : Tor α) :
    t ∈ torsOf c ext fsys ↔ ∃ name o, (name, some o) ∈ filesFrom fsys ∧ ext <:+ name ∧ contentTor c o = some (some t) := by
  unfold torsOf loadable
  simp only [List.mem_filterMap, id_eq, exists_eq_right]
  constructor
  · rintro ⟨⟨name, op⟩, hp, he⟩
    split at he
    · rename_i hs
      cases op with
      | none => simp at he
      | some o => exact ⟨name, o, hp, hs, he⟩
    · cases he
  · rintro ⟨name, o, hp, hs, he⟩
    exact ⟨(name, some o), hp, by simp only [if_pos hs, Option.bind_some]; exact he⟩

theorem lastFor_isSome (c : Cfg α) (lang : Str) (ts : List (Tor α)) :
    (lastFor c lang ts).isSome = true ↔ ∃ t ∈ ts, t.lang ≠ [] ∧ c.norm t.lang = lang := by
  unfold lastFor
  rw [List.getLast?_isSome, ne_nil_iff]
  simp only [List.mem_filter, decide_eq_true_eq]

/-- A bind from which some file loads gives the domain a new `Translation` object, which has a
translator for exactly the (normalized, non-empty) languages of the loaded files, each being one of
theirs; the other domains, the current domain and the locales stay, and no older `Translation` object
changes. -/
theorem C39_bound (c : Cfg α) (w : World α) (h : Reach c w) (i : Nat) (hi : i < w.tss.length) (d : Str)
    (fsys : Option Node) (hl : Loads c fsys) :
    (w.bindFS c i d fsys).get i d = some w.trs.length ∧
    (∀ d', d' ≠ d → (w.bindFS c i d fsys).get i d' = w.get i d') ∧
    (w.bindFS c i d fsys).domain i = w.domain i ∧ (w.bindFS c i d fsys).locale i = w.locale i ∧
    (w.bindFS c i d fsys).sourceCodeLocale i = w.sourceCodeLocale i ∧
    (∀ p < w.trs.length, (w.bindFS c i d fsys).tr p = w.tr p) ∧
    (∀ lang, (((w.bindFS c i d fsys).tr w.trs.length).get lang).isSome = true ↔
      ∃ name o t, (name, some o) ∈ filesFrom fsys ∧ (b!".po" <:+ name ∨ b!".mo" <:+ name) ∧
        contentTor c o = some (some t) ∧ t.lang ≠ [] ∧ c.norm t.lang = lang) ∧
    (∀ lang t, ((w.bindFS c i d fsys).tr w.trs.length).get lang = some t →
      ∃ name o, (name, some o) ∈ filesFrom fsys ∧ (b!".po" <:+ name ∨ b!".mo" <:+ name) ∧
        contentTor c o = some (some t) ∧ c.norm t.lang = lang) := by
  have hw := reach_wf c w h
  have hv := view_bindFS_self c w hw i hi d fsys hl
  have hd := fun x => congrFun (congrArg View.doms hv) x
  have htr : (w.bindFS c i d fsys).tr w.trs.length = bound c d fsys := by
    unfold World.tr; rw [bindFS_trs]; exact getD_snoc _ _ _
  refine ⟨?_, ?_, ?_, ?_, ?_, ?_, ?_, ?_⟩
  · exact (hd d).trans (if_pos rfl)
  · intro d' hne; exact (hd d').trans (if_neg hne)
  · exact congrArg View.domain hv
  · exact congrArg View.locale hv
  · exact congrArg View.src hv
  · intro p hp
    exact exec_tr c w hw (.bindFS i d fsys) p hp (by simp [Op.changes])
  · intro lang
    rw [htr]
    unfold Translation.get
    rw [bound_get, Option.isSome_or, Bool.or_eq_true, lastFor_isSome, lastFor_isSome]
    constructor
    · rintro (⟨t, ht, h1, h2⟩ | ⟨t, ht, h1, h2⟩)
      · obtain ⟨name, o, hp, hs, he⟩ := (mem_torsOf c _ _ t).mp ht
        exact ⟨name, o, t, hp, .inl hs, he, h1, h2⟩
      · obtain ⟨name, o, hp, hs, he⟩ := (mem_torsOf c _ _ t).mp ht
        exact ⟨name, o, t, hp, .inr hs, he, h1, h2⟩
    · rintro ⟨name, o, t, hp, hs | hs, he, h1, h2⟩
      · exact .inl ⟨t, (mem_torsOf c _ _ t).mpr ⟨name, o, hp, hs, he⟩, h1, h2⟩
      · exact .inr ⟨t, (mem_torsOf c _ _ t).mpr ⟨name, o, hp, hs, he⟩, h1, h2⟩
  · intro lang t
    rw [htr]
    unfold Translation.get
    rw [bound_get, Option.or_eq_some_iff]
    have key : ∀ ts : List (Tor α), lastFor c lang ts = some t → t ∈ ts ∧ c.norm t.lang = lang := by
      intro ts hts
      have := List.mem_of_getLast? hts
      simp only [List.mem_filter, decide_eq_true_eq] at this
      exact ⟨this.1, this.2.2⟩
    rintro (ht | ⟨_, ht⟩)
    · obtain ⟨hm, hn⟩ := key _ ht
      obtain ⟨name, o, hp, hs, he⟩ := (mem_torsOf c _ _ t).mp hm
      exact ⟨name, o, hp, .inl hs, he, hn⟩
    · obtain ⟨hm, hn⟩ := key _ ht
      obtain ⟨name, o, hp, hs, he⟩ := (mem_torsOf c _ _ t).mp hm
      exact ⟨name, o, hp, .inr hs, he, hn⟩

end Verif.W
