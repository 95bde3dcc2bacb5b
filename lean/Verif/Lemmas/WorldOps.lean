import Verif.Lemmas.World
/-! # What each call does to each Translations value -/
namespace Verif.W
open Verif
variable {α : Type}

theorem hasDomain_iff (w : World α) (i : Nat) (d : Str) : w.hasDomain i d = true ↔ (w.get i d).isSome = true := by
  unfold World.hasDomain World.get
  rw [List.any_eq_true]
  constructor
  · rintro ⟨k, hk, he⟩
    have he := of_decide_eq_true he
    subst he
    cases hg : (w.doms i).get? k with
    | none => exact absurd hk ((GMap.get?_eq_none _ _).mp hg)
    | some p => rfl
  · intro h
    refine ⟨d, ?_, by simp⟩
    by_contra hn
    rw [(GMap.get?_eq_none _ _).mpr hn] at h
    simp at h

theorem ne_nil_iff {β : Type} (l : List β) : l ≠ [] ↔ ∃ x, x ∈ l := by
  cases l with
  | nil => simp
  | cons a l => simp only [ne_eq, reduceCtorEq, not_false_eq_true, true_iff]; exact ⟨a, List.mem_cons_self⟩

theorem loads_iff (c : Cfg α) (fsys : Option Node) (tr : Translation α) :
    (tr.loadFS c fsys).1 = true ↔ Loads c fsys := by
  rw [loadFS_eq]
  have key : ∀ ext, (!(loadable c ext (filesFrom fsys)).isEmpty) = true ↔
      ∃ p ∈ filesFrom fsys, ext <:+ p.1 ∧ ∃ o, p.2 = some o ∧ (contentTor c o).isSome := by
    intro ext
    rw [Bool.not_eq_true', List.isEmpty_eq_false_iff]
    unfold loadable
    rw [ne_nil_iff]
    constructor
    · rintro ⟨t, ht⟩
      obtain ⟨p, hp, he⟩ := List.mem_filterMap.mp ht
      split at he
      · rename_i hs
        cases hp2 : p.2 with
        | none => rw [hp2] at he; simp at he
        | some o =>
          rw [hp2] at he
          simp only [Option.bind_some] at he
          exact ⟨p, hp, hs, o, hp2, by rw [he]; rfl⟩
      · simp at he
    · rintro ⟨p, hp, hs, o, ho, hc⟩
      obtain ⟨t, ht⟩ := Option.isSome_iff_exists.mp hc
      exact ⟨t, List.mem_filterMap.mpr ⟨p, hp, by rw [if_pos hs, ho]; exact ht⟩⟩
  simp only [Bool.or_eq_true, key]
  unfold Loads
  constructor
  · rintro (⟨p, hp, hs, o⟩ | ⟨p, hp, hs, o⟩)
    · exact ⟨p, hp, .inr hs, o⟩
    · exact ⟨p, hp, .inl hs, o⟩
  · rintro ⟨p, hp, hs | hs, o⟩
    · exact .inr ⟨p, hp, hs, o⟩
    · exact .inl ⟨p, hp, hs, o⟩

/-! ## BindFS -/

/-- The object a successful `BindFS` creates. -/
def bound (c : Cfg α) (domain : Str) (fsys : Option Node) : Translation α := ((newTranslation c domain []).loadFS c fsys).2

theorem bindFS_eq (c : Cfg α) (w : World α) (i : Nat) (d : Str) (fsys : Option Node) :
    w.bindFS c i d fsys =
      let w' : World α := { w with trs := w.trs ++ [bound c d fsys] }
      if ((newTranslation c d []).loadFS c fsys).1 then w'.setDoms i ((w.doms i).set d w.trs.length) else w' := by
  unfold World.bindFS bound
  simp only [List.length_append, List.length_cons, List.length_nil, Nat.zero_add, Nat.add_sub_cancel]
  rfl

theorem wf_bindFS (c : Cfg α) (w : World α) (h : WF w) (i : Nat) (hi : i < w.tss.length) (d : Str) (fsys : Option Node) :
    WF (w.bindFS c i d fsys) := by
  rw [bindFS_eq]
  have h1 : WF ({ w with trs := w.trs ++ [bound c d fsys] } : World α) :=
    wf_snoc w h _ (loadFS_nodup _ _ _ (newTranslation_nodup _ _ _))
  dsimp only
  split
  · refine wf_setDoms _ h1 i hi _ (GMap.nodup_set _ _ _ (h.keys _)) ?_
    intro d' p hg
    rw [GMap.get?_set] at hg
    simp only [List.length_append, List.length_cons, List.length_nil]
    split at hg
    · simp only [Option.some.injEq] at hg; omega
    · have := h.ptr _ _ _ hg; omega
  · exact h1

theorem view_snoc (w : World α) (t : Translation α) (j : Nat) :
    ({ w with trs := w.trs ++ [t] } : World α).view j = w.view j := rfl

theorem view_bindFS_other (c : Cfg α) (w : World α) (h : WF w) (i j : Nat) (hi : i < w.tss.length) (hj : j < w.tss.length)
    (hne : j ≠ i) (d : Str) (fsys : Option Node) : (w.bindFS c i d fsys).view j = w.view j := by
  rw [bindFS_eq]
  have h1 : WF ({ w with trs := w.trs ++ [bound c d fsys] } : World α) :=
    wf_snoc w h _ (loadFS_nodup _ _ _ (newTranslation_nodup _ _ _))
  dsimp only
  split
  · rw [view_setDoms_other _ h1 i hi _ j hj hne]; rfl
  · rfl

theorem view_bindFS_self (c : Cfg α) (w : World α) (h : WF w) (i : Nat) (hi : i < w.tss.length) (d : Str)
    (fsys : Option Node) (hl : Loads c fsys) : (w.bindFS c i d fsys).view i =
      { w.view i with doms := fun x => if x = d then some w.trs.length else w.get i x } := by
  rw [bindFS_eq]
  have h1 : WF ({ w with trs := w.trs ++ [bound c d fsys] } : World α) :=
    wf_snoc w h _ (loadFS_nodup _ _ _ (newTranslation_nodup _ _ _))
  dsimp only
  rw [if_pos ((loads_iff c fsys _).mpr hl), view_setDoms_self _ h1 i hi]
  apply View.ext'
  · rfl
  · rfl
  · rfl
  · intro d'; exact GMap.get?_set _ _ _ _

theorem view_bindFS_fail (c : Cfg α) (w : World α) (i : Nat) (d : Str)
    (fsys : Option Node) (hl : ¬ Loads c fsys) (j : Nat) : (w.bindFS c i d fsys).view j = w.view j := by
  rw [bindFS_eq]
  dsimp only
  rw [if_neg (fun hc => hl ((loads_iff c fsys _).mp hc))]
  rfl

theorem bindFS_trs (c : Cfg α) (w : World α) (i : Nat) (d : Str) (fsys : Option Node) :
    (w.bindFS c i d fsys).trs = w.trs ++ [bound c d fsys] := by
  rw [bindFS_eq]; dsimp only; split <;> rfl

theorem bindFS_tss (c : Cfg α) (w : World α) (i : Nat) (d : Str) (fsys : Option Node) :
    (w.bindFS c i d fsys).tss = w.tss := by
  rw [bindFS_eq]; dsimp only; split <;> rfl

theorem bindFS_glob (c : Cfg α) (w : World α) (i : Nat) (d : Str) (fsys : Option Node) :
    (w.bindFS c i d fsys).glob = w.glob := by
  rw [bindFS_eq]; dsimp only; split <;> rfl

/-! ## RemoveDomain -/

theorem removeDomain_eq (w : World α) (i : Nat) (d : Str) : w.removeDomain i d =
    if d ≠ [] ∧ w.hasDomain i d = true then
      (true, let w' := w.setDoms i ((w.doms i).erase d)
        if (w.ts i).domain = d then w'.setTs i { w.ts i with domain := defaultDomain } else w')
    else (false, w) := by
  unfold World.removeDomain
  by_cases h : d = []
  · simp [h]
  · cases h2 : w.hasDomain i d with
    | false => simp [h]
    | true =>
      simp only [h, if_false, ne_eq, not_false_eq_true, and_self, if_true, Bool.not_true, Bool.false_eq_true]
      rfl

theorem wf_removeDomain (w : World α) (h : WF w) (i : Nat) (hi : i < w.tss.length) (d : Str) :
    WF (w.removeDomain i d).2 := by
  rw [removeDomain_eq]
  have h1 : WF (w.setDoms i ((w.doms i).erase d)) := by
    refine wf_setDoms w h i hi _ (erase_nodup _ (h.keys _) _) ?_
    intro d' p hg
    rw [erase_get (w.doms i) (h.keys _)] at hg
    split at hg
    · cases hg
    · exact h.ptr _ _ _ hg
  split
  · dsimp only
    split
    · exact wf_setTs _ h1 i _ rfl
    · exact h1
  · exact h

theorem view_removeDomain_other (w : World α) (h : WF w) (i j : Nat) (hi : i < w.tss.length) (hj : j < w.tss.length)
    (hne : j ≠ i) (d : Str) : (w.removeDomain i d).2.view j = w.view j := by
  rw [removeDomain_eq]
  split
  · dsimp only
    split
    · rw [view_setTs_other _ _ _ _ hne, view_setDoms_other w h i hi _ j hj hne]
    · rw [view_setDoms_other w h i hi _ j hj hne]
  · rfl

theorem view_removeDomain_self (w : World α) (h : WF w) (i : Nat) (hi : i < w.tss.length) (d : Str) :
    (w.removeDomain i d).2.view i = if d ≠ [] ∧ w.hasDomain i d = true then
      { w.view i with domain := if w.domain i = d then defaultDomain else w.domain i,
                      doms := fun x => if x = d then none else w.get i x }
    else w.view i := by
  rw [removeDomain_eq]
  split
  · have hd : ∀ x, (w.setDoms i ((w.doms i).erase d)).get i x = if x = d then none else w.get i x := by
      intro x
      have := view_setDoms_self w h i hi ((w.doms i).erase d)
      have := congrArg (fun v => v.doms x) this
      dsimp only [World.view] at this
      rw [this, erase_get (w.doms i) (h.keys _)]
      rfl
    dsimp only
    by_cases hc : (w.ts i).domain = d
    · rw [if_pos hc]
      refine (view_setTs_self (w.setDoms i ((w.doms i).erase d)) i _ hi ?_).trans ?_
      · rfl
      apply View.ext'
      · rfl
      · exact (if_pos hc).symm
      · rfl
      · exact hd
    · rw [if_neg hc]
      apply View.ext'
      · rfl
      · exact (if_neg hc).symm
      · rfl
      · exact hd
  · rfl

theorem removeDomain_frame (w : World α) (i : Nat) (d : Str) : (w.removeDomain i d).2.trs = w.trs ∧
    (w.removeDomain i d).2.tss.length = w.tss.length ∧ (w.removeDomain i d).2.glob = w.glob := by
  rw [removeDomain_eq]
  split
  · dsimp only
    split
    · exact ⟨rfl, by simp [World.setTs, World.setDoms], rfl⟩
    · exact ⟨rfl, rfl, rfl⟩
  · exact ⟨rfl, rfl, rfl⟩

theorem clearDomains_frame (w : World α) (i : Nat) : (w.clearDomains i).trs = w.trs ∧
    (w.clearDomains i).tss.length = w.tss.length ∧ (w.clearDomains i).glob = w.glob :=
  ⟨rfl, by simp [World.clearDomains, World.setTs], rfl⟩

/-! ## Field setters -/

theorem view_setDomain_self (w : World α) (i : Nat) (hi : i < w.tss.length) (d : Str) :
    (w.setDomain i d).view i = { w.view i with domain := d } := by
  refine (view_setTs_self w i _ hi ?_).trans ?_ <;> rfl

/-- The locale `SetLocale` and `L` choose. -/
def chosen (c : Cfg α) (lang dflt : Str) : Str := if lang = [] then dflt else c.norm lang

theorem view_setLocale_self (c : Cfg α) (w : World α) (i : Nat) (hi : i < w.tss.length) (lang dflt : Str) :
    (w.setLocale c i lang dflt).view i = { w.view i with locale := chosen c lang dflt } := by
  refine (view_setTs_self w i _ hi ?_).trans ?_ <;> rfl

theorem view_setSrc_self (c : Cfg α) (w : World α) (i : Nat) (hi : i < w.tss.length) (lang : Str) :
    (w.setSourceCodeLocale c i lang).view i = { w.view i with src := c.norm lang } := by
  refine (view_setTs_self w i _ hi ?_).trans ?_ <;> rfl

/-! ## Copies -/

theorem d_eq (w : World α) (i : Nat) (d : Str) : w.d i d = ((w.clone i).1.setDomain w.tss.length d, w.tss.length) := rfl
theorem l_eq (c : Cfg α) (w : World α) (i : Nat) (lang dflt : Str) :
    w.l c i lang dflt = ((w.clone i).1.setLocale c w.tss.length lang dflt, w.tss.length) := rfl

theorem wf_d (w : World α) (h : WF w) (i : Nat) (d : Str) : WF (w.d i d).1 :=
  wf_setTs _ (wf_clone w h i) _ _ rfl
theorem wf_l (c : Cfg α) (w : World α) (h : WF w) (i : Nat) (lang dflt : Str) : WF (w.l c i lang dflt).1 :=
  wf_setTs _ (wf_clone w h i) _ _ rfl

theorem d_length (w : World α) (i : Nat) (d : Str) : (w.d i d).1.tss.length = w.tss.length + 1 := by
  simp [d_eq, World.setDomain, World.setTs, clone_length]
theorem l_length (c : Cfg α) (w : World α) (i : Nat) (lang dflt : Str) :
    (w.l c i lang dflt).1.tss.length = w.tss.length + 1 := by
  simp [l_eq, World.setLocale, World.setTs, clone_length]

theorem view_d_old (w : World α) (h : WF w) (i : Nat) (d : Str) (j : Nat) (hj : j < w.tss.length) :
    (w.d i d).1.view j = w.view j := by
  rw [d_eq]
  exact (view_setTs_other _ _ _ j (by omega)).trans (view_clone_old w h i j hj)
theorem view_l_old (c : Cfg α) (w : World α) (h : WF w) (i : Nat) (lang dflt : Str) (j : Nat) (hj : j < w.tss.length) :
    (w.l c i lang dflt).1.view j = w.view j := by
  rw [l_eq]
  exact (view_setTs_other _ _ _ j (by omega)).trans (view_clone_old w h i j hj)

theorem view_d_new (w : World α) (h : WF w) (i : Nat) (d : Str) :
    (w.d i d).1.view (w.d i d).2 = { w.view i with domain := d } := by
  rw [d_eq]
  dsimp only
  rw [view_setDomain_self _ _ (by simp [clone_length])]
  exact congrArg (fun v : View => { v with domain := d }) (view_clone_new w h i)

theorem view_l_new (c : Cfg α) (w : World α) (h : WF w) (i : Nat) (lang dflt : Str) :
    (w.l c i lang dflt).1.view (w.l c i lang dflt).2 = { w.view i with locale := chosen c lang dflt } := by
  rw [l_eq]
  dsimp only
  rw [view_setLocale_self _ _ _ (by simp [clone_length])]
  exact congrArg (fun v : View => { v with locale := chosen c lang dflt }) (view_clone_new w h i)

/-- The intermediate values of `WithContext`. -/
structure CtxFacts (c : Cfg α) (w : World α) (ctx : Ctx) (dflt : Str) (r : World α × Nat) : Prop where
  wf : WF r.1
  grow : w.tss.length < r.1.tss.length
  fresh : w.tss.length ≤ r.2 ∧ r.2 < r.1.tss.length
  trs : r.1.trs = w.trs
  glob : r.1.glob = w.glob
  old : ∀ j < w.tss.length, r.1.view j = w.view j
  new : r.1.view r.2 =
    { w.view w.glob with
      locale := match ctx.getLocale with | some lang => chosen c lang dflt | none => w.locale w.glob
      domain := match ctx.getDomain with | some d => d | none => w.domain w.glob }

theorem withContext_facts (c : Cfg α) (w : World α) (h : WF w) (ctx : Ctx) (dflt : Str) :
    CtxFacts c w ctx dflt (w.withContext c ctx dflt) := by
  have hg : WF (w.clone w.glob).1 := wf_clone w h _
  have gl := clone_length w w.glob
  have gn : (w.clone w.glob).2 = w.tss.length := rfl
  have gv := view_clone_new w h w.glob
  have go := fun j hj => view_clone_old w h w.glob j hj
  unfold World.withContext World.global
  generalize hg0 : w.clone w.glob = g at *
  have gtrs : g.1.trs = w.trs := by rw [← hg0]; rfl
  have gglob : g.1.glob = w.glob := by rw [← hg0]; rfl
  obtain ⟨w1, t1⟩ := g
  simp only at *
  subst gn
  cases hL : ctx.getLocale with
  | none =>
    dsimp only
    cases hD : ctx.getDomain with
    | none =>
      exact ⟨hg, by dsimp only; omega, by dsimp only; omega, gtrs, gglob, go, by dsimp only; rw [gv, hL, hD]; rfl⟩
    | some d =>
      dsimp only
      refine ⟨wf_d w1 hg _ d, by rw [d_length]; omega, ?_, gtrs, gglob, ?_, ?_⟩
      · rw [d_length, d_eq]; dsimp only; omega
      · intro j hj; rw [view_d_old w1 hg _ _ j (by omega)]; exact go j hj
      · rw [view_d_new w1 hg, gv, hL, hD]; rfl
  | some lang =>
    have lw := wf_l c w1 hg w.tss.length lang dflt
    have ll := l_length c w1 w.tss.length lang dflt
    have lv := view_l_new c w1 hg w.tss.length lang dflt
    have lo := fun j hj => view_l_old c w1 hg w.tss.length lang dflt j hj
    have ln : (w1.l c w.tss.length lang dflt).2 = w1.tss.length := rfl
    have ltrs : (w1.l c w.tss.length lang dflt).1.trs = w1.trs := rfl
    have lglob : (w1.l c w.tss.length lang dflt).1.glob = w1.glob := rfl
    dsimp only
    generalize w1.l c w.tss.length lang dflt = q at *
    obtain ⟨w2, t2⟩ := q
    simp only at *
    subst ln
    rw [gv] at lv
    cases hD : ctx.getDomain with
    | none =>
      exact ⟨lw, by dsimp only; omega, by dsimp only; omega, ltrs.trans gtrs, lglob.trans gglob,
        fun j hj => (lo j (by omega)).trans (go j hj), by dsimp only; rw [lv, hL, hD]; rfl⟩
    | some d =>
      dsimp only
      refine ⟨wf_d w2 lw _ d, by rw [d_length]; omega, ?_, ltrs.trans gtrs, lglob.trans gglob, ?_, ?_⟩
      · rw [d_length, d_eq]; dsimp only; omega
      · intro j hj; rw [view_d_old w2 lw _ _ j (by omega), lo j (by omega)]; exact go j hj
      · rw [view_d_new w2 lw, lv, hL, hD]

/-! ## Every call -/

theorem exec_wf (c : Cfg α) (w : World α) (h : WF w) (o : Op α) (hv : o.Valid w) : WF (o.exec c w) := by
  cases o with
  | newTranslations dflt =>
    exact wf_alloc w h [] _ _ _ (by simp [GMap.keys]) (by intro d p hg; simp [GMap.get?] at hg)
  | newTranslation domain tors => exact wf_snoc w h _ (newTranslation_nodup _ _ _)
  | global => exact wf_clone w h _
  | d i domain => exact wf_d w h i domain
  | l i lang dflt => exact wf_l c w h i lang dflt
  | withContext ctx dflt => exact (withContext_facts c w h ctx dflt).wf
  | setGlobal i => exact ⟨h.mapLt, h.mapInj, h.keys, h.ptr, h.noop, hv, h.langs⟩
  | bindFS i domain fsys => exact wf_bindFS c w h i hv domain fsys
  | removeDomain i domain => exact wf_removeDomain w h i hv domain
  | clearDomains i => exact wf_clear w h i
  | setDomain i domain => exact wf_setTs w h i _ rfl
  | setLocale i lang dflt => exact wf_setTs w h i _ rfl
  | setSourceCodeLocale i lang => exact wf_setTs w h i _ rfl
  | addOrReplace p tor => exact wf_setTr w h p _ (addAll_nodup c (w.tr p) [tor] (h.langs p))
  | loadFS p fsys => exact wf_setTr w h p _ (loadFS_nodup c _ _ (h.langs p))

theorem exec_tss (c : Cfg α) (w : World α) (h : WF w) (o : Op α) : w.tss.length ≤ (o.exec c w).tss.length := by
  cases o with
  | newTranslations dflt => simp [Op.exec, World.newTranslations]
  | newTranslation domain tors => exact Nat.le_refl _
  | global => simp [Op.exec, World.global, clone_length]
  | d i domain => simp [Op.exec, d_length]
  | l i lang dflt => simp [Op.exec, l_length]
  | withContext ctx dflt => exact Nat.le_of_lt (withContext_facts c w h ctx dflt).grow
  | setGlobal i => exact Nat.le_refl _
  | bindFS i domain fsys => simp [Op.exec, bindFS_tss]
  | removeDomain i domain => simp [Op.exec, removeDomain_frame]
  | clearDomains i => simp [Op.exec, clearDomains_frame]
  | setDomain i domain => simp [Op.exec, World.setDomain, World.setTs]
  | setLocale i lang dflt => simp [Op.exec, World.setLocale, World.setTs]
  | setSourceCodeLocale i lang => simp [Op.exec, World.setSourceCodeLocale, World.setTs]
  | addOrReplace p tor => exact Nat.le_refl _
  | loadFS p fsys => exact Nat.le_refl _

theorem exec_trs_length (c : Cfg α) (w : World α) (h : WF w) (o : Op α) : w.trs.length ≤ (o.exec c w).trs.length := by
  cases o with
  | newTranslation domain tors => simp [Op.exec]
  | withContext ctx dflt => simp [Op.exec, (withContext_facts c w h ctx dflt).trs]
  | bindFS i domain fsys => simp [Op.exec, bindFS_trs]
  | removeDomain i domain => simp [Op.exec, removeDomain_frame]
  | addOrReplace p tor => simp [Op.exec]
  | loadFS p fsys => simp [Op.exec]
  | _ => exact Nat.le_refl _

theorem exec_tr (c : Cfg α) (w : World α) (h : WF w) (o : Op α) (p : Nat) (hp : p < w.trs.length) (hc : o.changes ≠ some p) :
    (o.exec c w).tr p = w.tr p := by
  have frame : (o.exec c w).trs = w.trs → (o.exec c w).tr p = w.tr p := by
    intro e; unfold World.tr; rw [e]
  cases o with
  | newTranslation domain tors => exact tr_snoc w _ p hp
  | withContext ctx dflt => exact frame (withContext_facts c w h ctx dflt).trs
  | bindFS i domain fsys =>
    unfold World.tr
    rw [show (Op.exec c w (.bindFS i domain fsys)).trs = _ from bindFS_trs c w i domain fsys]
    exact getD_append _ _ _ _ hp
  | removeDomain i domain => exact frame (removeDomain_frame w i domain).1
  | addOrReplace q tor =>
    have hq : p ≠ q := by rintro rfl; exact hc rfl
    exact (getD_set _ _ _ _ _).trans (if_neg (by simp [hq]))
  | loadFS q fsys =>
    have hq : p ≠ q := by rintro rfl; exact hc rfl
    exact (getD_set _ _ _ _ _).trans (if_neg (by simp [hq]))
  | _ => exact frame rfl

theorem exec_view (c : Cfg α) (w : World α) (h : WF w) (o : Op α) (hv : o.Valid w) (j : Nat) (hj : j < w.tss.length)
    (ht : o.target ≠ some j) : (o.exec c w).view j = w.view j := by
  cases o with
  | newTranslations dflt => exact view_alloc_old w h _ _ _ _ j hj
  | newTranslation domain tors => rfl
  | global => exact view_clone_old w h _ j hj
  | d i domain => exact view_d_old w h i domain j hj
  | l i lang dflt => exact view_l_old c w h i lang dflt j hj
  | withContext ctx dflt => exact (withContext_facts c w h ctx dflt).old j hj
  | setGlobal i => rfl
  | bindFS i domain fsys =>
    exact view_bindFS_other c w h i j hv hj (by rintro rfl; exact ht rfl) domain fsys
  | removeDomain i domain =>
    exact view_removeDomain_other w h i j hv hj (by rintro rfl; exact ht rfl) domain
  | clearDomains i => exact view_clear_other w h i j hj (by rintro rfl; exact ht rfl)
  | setDomain i domain => exact view_setTs_other w i _ j (by rintro rfl; exact ht rfl)
  | setLocale i lang dflt => exact view_setTs_other w i _ j (by rintro rfl; exact ht rfl)
  | setSourceCodeLocale i lang => exact view_setTs_other w i _ j (by rintro rfl; exact ht rfl)
  | addOrReplace p tor => rfl
  | loadFS p fsys => rfl

theorem wf_init (c : Cfg α) (dflt : Str) : WF (World.init c dflt) := by
  constructor
  · intro i hi
    have hi : i < 1 := hi
    have : i = 0 := by omega
    subst this; exact Nat.zero_lt_one
  · intro i j hi hj _
    have hi : i < 1 := hi
    have hj : j < 1 := hj
    omega
  · intro r
    have : (World.init c dflt).mapAt r = [] := by
      cases r with
      | zero => rfl
      | succ r => rfl
    rw [this]; simp [GMap.keys]
  · intro r d p hg
    have : (World.init c dflt).mapAt r = [] := by
      cases r with
      | zero => rfl
      | succ r => rfl
    rw [this] at hg; simp [GMap.get?] at hg
  · exact Nat.zero_lt_one
  · exact Nat.zero_lt_one
  · intro p
    have : ((World.init c dflt).tr p).langs = [] := by
      cases p with
      | zero => rfl
      | succ p => rfl
    rw [this]; simp [GMap.keys]

theorem reach_wf (c : Cfg α) (w : World α) (h : Reach c w) : WF w := by
  induction h with
  | init dflt => exact wf_init c dflt
  | step w o _ hv ih => exact exec_wf c w ih o hv

theorem run_reach (c : Cfg α) (w : World α) (ops : List (Op α)) (w' : World α) (h : Reach c w) (r : Run c w ops w') :
    Reach c w' := by
  induction r with
  | nil => exact h
  | cons w o os w' hv _ ih => exact ih (Reach.step w o h hv)

theorem run_append (c : Cfg α) (w w1 w2 : World α) (a b : List (Op α)) (r1 : Run c w a w1) (r2 : Run c w1 b w2) :
    Run c w (a ++ b) w2 := by
  induction r1 with
  | nil => exact r2
  | cons w o os w' hv _ ih => exact Run.cons w o _ _ hv (ih r2)

theorem run_split (c : Cfg α) (w w2 : World α) (a b : List (Op α)) (r : Run c w (a ++ b) w2) :
    ∃ w1, Run c w a w1 ∧ Run c w1 b w2 := by
  induction a generalizing w with
  | nil => exact ⟨w, Run.nil w, r⟩
  | cons o a ih =>
    cases r with
    | cons _ _ _ _ hv r =>
      obtain ⟨w1, h1, h2⟩ := ih _ r
      exact ⟨w1, Run.cons w o a w1 hv h1, h2⟩

end Verif.W
