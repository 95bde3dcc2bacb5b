import Verif.Spec.Package
import Verif.Props.C45_C49
import Verif.Props.WorldExamples
/-! # C90: the package is the abstract machine of `Spec/Package.lean` -/
namespace Verif.W
open Verif
variable {α : Type}

/-- The record a `Translations` object is. -/
def recordOf (w : World α) (i : Nat) : Record α where
  locale := w.locale i
  domain := w.domain i
  src := w.sourceCodeLocale i
  doms d := (w.get i d).map fun p => (w.tr p).get

theorem record_ext {a b : Record α} (h1 : a.locale = b.locale) (h2 : a.domain = b.domain) (h3 : a.src = b.src)
    (h4 : ∀ d, a.doms d = b.doms d) : a = b := by
  cases a; cases b
  simp only [Record.mk.injEq] at *
  exact ⟨h1, h2, h3, funext h4⟩

/-- The record of a view. -/
def recordAt (w : World α) (v : View) : Record α where
  locale := v.locale
  domain := v.domain
  src := v.src
  doms d := (v.doms d).map fun p => (w.tr p).get

theorem recordOf_eq (w : World α) (i : Nat) : recordOf w i = recordAt w (w.view i) := rfl

/-- The views of well-formed worlds point at existing objects. -/
theorem recordAt_congr (w w' : World α) (v : View) (hp : ∀ d p, v.doms d = some p → p < w.trs.length)
    (ht : ∀ p < w.trs.length, w'.tr p = w.tr p) : recordAt w' v = recordAt w v := by
  refine record_ext rfl rfl rfl fun d => ?_
  show (v.doms d).map _ = (v.doms d).map _
  cases h : v.doms d with
  | none => rfl
  | some p => simp only [Option.map_some, ht p (hp d p h)]

/-- The program and the machine are in step. -/
structure InStep (c : Cfg α) (p : Prog α) (s : Plain α) : Prop where
  reach : Reach c p.w
  noop : (p.w.tr 0).langs = []
  len : s.vals.length = p.made.length
  lt : ∀ k < p.made.length, p.addr k < p.w.tss.length
  inj : ∀ j k, j < p.made.length → k < p.made.length → p.addr j = p.addr k → j = k
  vals : ∀ k < p.made.length, s.vals.getD k (Record.fresh []) = recordOf p.w (p.addr k)
  globLt : s.glob < p.made.length
  glob : p.w.glob = p.addr s.glob

theorem inStep_start (c : Cfg α) (dflt : Str) : InStep c (Prog.start c dflt) (Plain.start α dflt) where
  reach := Reach.init dflt
  noop := rfl
  len := rfl
  lt := fun k hk => by
    have hk : k < 1 := hk
    have : k = 0 := by omega
    subst this; exact Nat.zero_lt_one
  inj := fun j k hj hk _ => by
    have hj : j < 1 := hj
    have hk : k < 1 := hk
    omega
  vals := fun k hk => by
    have hk : k < 1 := hk
    have : k = 0 := by omega
    subst this; exact record_ext rfl rfl rfl fun _ => rfl
  globLt := Nat.zero_lt_one
  glob := rfl

/-- The address of a value. -/
def Prog.at (p : Prog α) : Who → Nat
  | .pkg => p.w.glob
  | .val k => p.addr k

theorem InStep.no_lt {c : Cfg α} {p : Prog α} {s : Plain α} (h : InStep c p s) (on : Who) (hk : on.Known s.vals.length) :
    s.no on < p.made.length := by
  cases on with
  | pkg => exact h.globLt
  | val k => exact h.len ▸ hk

theorem InStep.addr {c : Cfg α} {p : Prog α} {s : Plain α} (h : InStep c p s) (on : Who) : p.at on = p.addr (s.no on) := by
  cases on with
  | pkg => exact h.glob
  | val k => rfl

theorem InStep.at_lt {c : Cfg α} {p : Prog α} {s : Plain α} (h : InStep c p s) (on : Who) (hk : on.Known s.vals.length) :
    p.at on < p.w.tss.length := by
  rw [h.addr on]; exact h.lt _ (h.no_lt on hk)

theorem InStep.val {c : Cfg α} {p : Prog α} {s : Plain α} (h : InStep c p s) (on : Who) (hk : on.Known s.vals.length) :
    s.val on = recordOf p.w (p.at on) := by
  rw [h.addr on]; exact h.vals _ (h.no_lt on hk)

/-- A call that makes a value. -/
theorem inStep_made (c : Cfg α) (p : Prog α) (s : Plain α) (h : InStep c p s) (o : Op α) (hv : o.Valid p.w)
    (ht : o.target = none) (hch : o.changes = none) (hglob : (o.exec c p.w).glob = p.w.glob)
    (a : Nat) (ha : p.w.tss.length ≤ a ∧ a < (o.exec c p.w).tss.length)
    (v : Record α) (hnew : recordOf (o.exec c p.w) a = v) :
    InStep c { w := o.exec c p.w, made := p.made ++ [a] } (s.make v) := by
  have hw := reach_wf c p.w h.reach
  have hold : ∀ k < p.made.length, (p.made ++ [a]).getD k 0 = p.addr k := fun k hk => getD_append _ _ _ _ hk
  have hnewa : (p.made ++ [a]).getD p.made.length 0 = a := getD_snoc _ _ _
  have hrec : ∀ i < p.w.tss.length, recordOf (o.exec c p.w) i = recordOf p.w i := fun i hi => by
    rw [recordOf_eq, recordOf_eq, exec_view c p.w hw o hv i hi (by rw [ht]; exact nofun)]
    exact recordAt_congr _ _ _ (fun d q hq => hw.ptr _ _ _ hq)
      (fun q hq => exec_tr c p.w hw o q hq (by rw [hch]; exact nofun))
  have hgrow := exec_tss c p.w hw o
  have hcase : ∀ k < p.made.length + 1, k < p.made.length ∨ k = p.made.length := fun k hk => by omega
  have hlen : (p.made ++ [a]).length = p.made.length + 1 := by simp
  refine ⟨Reach.step _ o h.reach hv, ?_, ?_, ?_, ?_, ?_, ?_, ?_⟩
  · dsimp only
    rw [exec_tr c p.w hw o 0 hw.noop (by rw [hch]; exact nofun)]; exact h.noop
  · simp only [Plain.make, List.length_append, h.len, List.length_cons, List.length_nil]
  · intro k hk
    dsimp only at hk
    rw [hlen] at hk
    show (p.made ++ [a]).getD k 0 < _
    rcases hcase k hk with hk | rfl
    · rw [hold k hk]; exact Nat.lt_of_lt_of_le (h.lt k hk) hgrow
    · rw [hnewa]; exact ha.2
  · intro j k hj hk he
    dsimp only at hj hk
    rw [hlen] at hj hk
    have he : (p.made ++ [a]).getD j 0 = (p.made ++ [a]).getD k 0 := he
    rcases hcase j hj with hj | rfl <;> rcases hcase k hk with hk | rfl
    · rw [hold j hj, hold k hk] at he; exact h.inj j k hj hk he
    · rw [hold j hj, hnewa] at he; have := h.lt j hj; omega
    · rw [hold k hk, hnewa] at he; have := h.lt k hk; omega
    · rfl
  · intro k hk
    dsimp only at hk
    rw [hlen] at hk
    show (s.vals ++ [v]).getD k _ = recordOf _ ((p.made ++ [a]).getD k 0)
    rcases hcase k hk with hk | rfl
    · rw [hold k hk, getD_append _ _ _ _ (h.len ▸ hk), hrec _ (h.lt k hk)]; exact h.vals k hk
    · rw [hnewa, ← h.len, getD_snoc]; exact hnew.symm
  · dsimp only [Plain.make]
    rw [hlen]; exact Nat.lt_succ_of_lt h.globLt
  · dsimp only [Plain.make]
    rw [hglob]
    exact h.glob.trans (hold _ h.globLt).symm

/-- A call that changes a value. -/
theorem inStep_put (c : Cfg α) (p : Prog α) (s : Plain α) (h : InStep c p s) (on : Who) (hk : on.Known s.vals.length)
    (o : Op α) (hv : o.Valid p.w) (ht : ∀ j, o.target = some j → j = p.at on) (hch : o.changes = none)
    (hglob : (o.exec c p.w).glob = p.w.glob) (htss : (o.exec c p.w).tss.length = p.w.tss.length)
    (v : Record α) (hnew : recordOf (o.exec c p.w) (p.at on) = v) :
    InStep c { p with w := o.exec c p.w } (s.put on v) := by
  have hw := reach_wf c p.w h.reach
  refine ⟨Reach.step _ o h.reach hv, ?_, ?_, ?_, h.inj, ?_, h.globLt, ?_⟩
  · dsimp only
    rw [exec_tr c p.w hw o 0 hw.noop (by rw [hch]; exact nofun)]; exact h.noop
  · simp only [Plain.put, List.length_set, h.len]
  · intro k hk
    dsimp only
    rw [htss]; exact h.lt k hk
  · intro k hkm
    show (s.vals.set (s.no on) v).getD k _ = recordOf (o.exec c p.w) (p.addr k)
    rw [getD_set]
    by_cases he : k = s.no on
    · subst he
      rw [if_pos ⟨rfl, h.len ▸ h.no_lt on hk⟩, ← h.addr on]; exact hnew.symm
    · rw [if_neg (fun a => he a.1), h.vals k hkm, recordOf_eq, recordOf_eq,
        exec_view c p.w hw o hv _ (h.lt k hkm) (fun hj => he (by
          have := ht _ hj
          rw [h.addr on] at this
          exact h.inj k _ hkm (h.no_lt on hk) this))]
      exact (recordAt_congr _ _ _ (fun d q hq => hw.ptr _ _ _ hq)
        (fun q hq => exec_tr c p.w hw o q hq (by rw [hch]; exact nofun))).symm
  · exact hglob.trans h.glob

theorem domainOf_none (c : Cfg α) (fsys : Option Node) : domainOf c fsys = none ↔ ¬ Loads c fsys := by
  have := loads_iff c fsys (newTranslation c [] [])
  rw [loadFS_eq] at this
  rw [← this]
  unfold domainOf
  rw [show extPo = b!".po" from rfl, show extMo = b!".mo" from rfl]
  dsimp only
  cases loadable c b!".po" (filesFrom fsys) <;> cases loadable c b!".mo" (filesFrom fsys) <;> simp

theorem domainOf_some (c : Cfg α) (fsys : Option Node) (d : Str) (hl : Loads c fsys) :
    domainOf c fsys = some (bound c d fsys).get := by
  cases h : domainOf c fsys with
  | none => exact absurd hl ((domainOf_none c fsys).mp h)
  | some f =>
    rw [Option.some.injEq]
    funext lang
    unfold Translation.get
    rw [bound_get]
    unfold domainOf at h
    dsimp only at h
    split at h
    · cases h
    · cases h; rfl

theorem record_bind (c : Cfg α) (w : World α) (h : WF w) (i : Nat) (hi : i < w.tss.length) (d : Str) (fsys : Option Node) :
    recordOf (w.bindFS c i d fsys) i = (recordOf w i).bind c d fsys := by
  unfold Record.bind
  by_cases hl : Loads c fsys
  · rw [domainOf_some c fsys d hl]
    have hv := view_bindFS_self c w h i hi d fsys hl
    rw [recordOf_eq, hv]
    refine record_ext rfl rfl rfl fun x => ?_
    show Option.map _ (if x = d then some w.trs.length else w.get i x) = if x = d then _ else _
    by_cases hx : x = d
    · rw [if_pos hx, if_pos hx]
      have htr : (w.bindFS c i d fsys).tr w.trs.length = bound c d fsys := by
        unfold World.tr; rw [bindFS_trs]; exact getD_snoc _ _ _
      simp only [Option.map_some, htr]
    · rw [if_neg hx, if_neg hx]
      show _ = Option.map _ (w.get i x)
      cases hg : w.get i x with
      | none => rfl
      | some q =>
        simp only [Option.map_some]
        rw [show (w.bindFS c i d fsys).tr q = w.tr q from
          exec_tr c w h (.bindFS i d fsys) q (h.ptr _ _ _ hg) (by simp [Op.changes])]
  · rw [(domainOf_none c fsys).mpr hl]
    rw [recordOf_eq, view_bindFS_fail c w i d fsys hl i]
    exact recordAt_congr _ _ _ (fun d q hq => h.ptr _ _ _ hq)
      (fun q hq => exec_tr c w h (.bindFS i d fsys) q hq (by simp [Op.changes]))

/-- Each call keeps program and machine in step and returns the same. -/
theorem call_inStep (c : Cfg α) (p : Prog α) (s : Plain α) (h : InStep c p s) (o : Call) (hk : o.Known s.vals.length) :
    InStep c (o.real c p).1 (o.plain c s).1 ∧ (o.real c p).2 = (o.plain c s).2 := by
  have hw := reach_wf c p.w h.reach
  have hpk : Who.pkg.Known s.vals.length := trivial
  have makeD : ∀ on : Who, on.Known s.vals.length → ∀ dom : Str,
      InStep c (p.returns (p.w.d (p.at on) dom)).1 (s.make { s.val on with domain := dom }) := fun on hk dom => by
    refine inStep_made c p s h (.d (p.at on) dom) (h.at_lt on hk) rfl rfl rfl _ ⟨Nat.le_refl _, ?_⟩ _ ?_
    · simp only [Op.exec, d_length]; exact Nat.lt_succ_self _
    · rw [h.val on hk, recordOf_eq]
      exact congrArg _ (view_d_new p.w hw (p.at on) dom)
  have makeL : ∀ on : Who, on.Known s.vals.length → ∀ lang dflt : Str,
      InStep c (p.returns (p.w.l c (p.at on) lang dflt)).1 (s.make ((s.val on).inLocale c lang dflt)) := fun on hk lang dflt => by
    refine inStep_made c p s h (.l (p.at on) lang dflt) (h.at_lt on hk) rfl rfl rfl _ ⟨Nat.le_refl _, ?_⟩ _ ?_
    · simp only [Op.exec, l_length]; exact Nat.lt_succ_self _
    · rw [h.val on hk, recordOf_eq]
      exact congrArg _ (view_l_new c p.w hw (p.at on) lang dflt)
  have putLocale : ∀ on : Who, on.Known s.vals.length → ∀ lang dflt : Str,
      InStep c (p.does (p.w.setLocale c (p.at on) lang dflt)).1 (s.put on ((s.val on).inLocale c lang dflt)) :=
    fun on hk lang dflt => by
    refine inStep_put c p s h on hk (.setLocale (p.at on) lang dflt) (h.at_lt on hk) ?_ rfl rfl ?_ _ ?_
    · intro j hj; cases hj; rfl
    · exact List.length_set
    · rw [h.val on hk, recordOf_eq]
      exact congrArg _ (view_setLocale_self c p.w (p.at on) (h.at_lt on hk) lang dflt)
  have putDomain : ∀ on : Who, on.Known s.vals.length → ∀ dom : Str,
      InStep c (p.does (p.w.setDomain (p.at on) dom)).1 (s.put on { s.val on with domain := dom }) := fun on hk dom => by
    refine inStep_put c p s h on hk (.setDomain (p.at on) dom) (h.at_lt on hk) ?_ rfl rfl ?_ _ ?_
    · intro j hj; cases hj; rfl
    · exact List.length_set
    · rw [h.val on hk, recordOf_eq]
      exact congrArg _ (view_setDomain_self p.w (p.at on) (h.at_lt on hk) dom)
  have putSrc : ∀ on : Who, on.Known s.vals.length → ∀ lang : Str,
      InStep c (p.does (p.w.setSourceCodeLocale c (p.at on) lang)).1 (s.put on { s.val on with src := c.norm lang }) :=
    fun on hk lang => by
    refine inStep_put c p s h on hk (.setSourceCodeLocale (p.at on) lang) (h.at_lt on hk) ?_ rfl rfl ?_ _ ?_
    · intro j hj; cases hj; rfl
    · exact List.length_set
    · rw [h.val on hk, recordOf_eq]
      exact congrArg _ (view_setSrc_self c p.w (p.at on) (h.at_lt on hk) lang)
  have putBind : ∀ on : Who, on.Known s.vals.length → ∀ (dom : Str) (fsys : Option Node),
      InStep c (p.does (p.w.bindFS c (p.at on) dom fsys)).1 (s.put on ((s.val on).bind c dom fsys)) :=
    fun on hk dom fsys => by
    refine inStep_put c p s h on hk (.bindFS (p.at on) dom fsys) (h.at_lt on hk) ?_ rfl ?_ ?_ _ ?_
    · intro j hj; cases hj; rfl
    · exact bindFS_glob c p.w _ dom fsys
    · exact congrArg List.length (bindFS_tss c p.w _ dom fsys)
    · rw [h.val on hk]
      exact record_bind c p.w hw (p.at on) (h.at_lt on hk) dom fsys
  have putClear : ∀ on : Who, on.Known s.vals.length →
      InStep c (p.does (p.w.clearDomains (p.at on))).1 (s.put on { s.val on with domain := b!"default", doms := fun _ => none }) :=
    fun on hk => by
    refine inStep_put c p s h on hk (.clearDomains (p.at on)) (h.at_lt on hk) ?_ rfl rfl ?_ _ ?_
    · intro j hj; cases hj; rfl
    · exact (clearDomains_frame p.w _).2.1
    · rw [h.val on hk, recordOf_eq]
      exact congrArg _ (view_clear_self p.w (p.at on) (h.at_lt on hk))
  have remove : ∀ on : Who, on.Known s.vals.length → ∀ dom : Str,
      InStep c { p with w := (p.w.removeDomain (p.at on) dom).2 } ((Call.removeDomain on dom).plain c s).1 ∧
      some (p.w.removeDomain (p.at on) dom).1 = ((Call.removeDomain on dom).plain c s).2 := fun on hk dom => by
    have hval := h.val on hk
    have hhas : (s.val on).doms dom = none ↔ p.w.hasDomain (p.at on) dom = false := by
      rw [← Bool.not_eq_true, hasDomain_iff, hval]
      show Option.map _ (p.w.get (p.at on) dom) = none ↔ _
      cases p.w.get (p.at on) dom <;> simp
    by_cases hc : dom = [] ∨ (s.val on).doms dom = none
    · have hr : p.w.removeDomain (p.at on) dom = (false, p.w) := by
        rw [removeDomain_eq, if_neg]
        rintro ⟨h1, h2⟩
        rcases hc with hc | hc
        · exact h1 hc
        · rw [hhas.mp hc] at h2; cases h2
      have hp : (Call.removeDomain on dom).plain c s = (s, some false) := by
        unfold Call.plain
        exact if_pos hc
      rw [hr, hp]
      exact ⟨h, rfl⟩
    · have hcond : dom ≠ [] ∧ p.w.hasDomain (p.at on) dom = true := by
        refine ⟨fun e => hc (.inl e), ?_⟩
        cases hb : p.w.hasDomain (p.at on) dom with
        | true => rfl
        | false => exact absurd (.inr (hhas.mpr hb)) hc
      have hp : (Call.removeDomain on dom).plain c s = (s.put on { s.val on with
          domain := if (s.val on).domain = dom then b!"default" else (s.val on).domain
          doms := fun d => if d = dom then none else (s.val on).doms d }, some true) := by
        unfold Call.plain
        exact if_neg hc
      have fr := removeDomain_frame p.w (p.at on) dom
      rw [hp]
      refine ⟨inStep_put c p s h on hk (.removeDomain (p.at on) dom) (h.at_lt on hk) ?_ rfl fr.2.2 fr.2.1 _ ?_, ?_⟩
      · intro j hj; cases hj; rfl
      · rw [hval, recordOf_eq]
        show recordAt (p.w.removeDomain (p.at on) dom).2 ((p.w.removeDomain (p.at on) dom).2.view _) = _
        rw [view_removeDomain_self p.w hw (p.at on) (h.at_lt on hk) dom, if_pos hcond]
        refine record_ext rfl rfl rfl fun x => ?_
        show Option.map _ (if x = dom then none else p.w.get (p.at on) x) = if x = dom then none else Option.map _ (p.w.get (p.at on) x)
        have htr : ∀ q, (p.w.removeDomain (p.at on) dom).2.tr q = p.w.tr q := fun q => by
          unfold World.tr; rw [fr.1]
        by_cases hx : x = dom
        · rw [if_pos hx, if_pos hx]; rfl
        · rw [if_neg hx, if_neg hx]
          simp only [htr]
      · rw [removeDomain_eq, if_pos hcond]
  cases o with
  | newTranslations dflt =>
    refine ⟨inStep_made c p s h (.newTranslations dflt) trivial rfl rfl rfl _ ⟨Nat.le_refl _, ?_⟩ _ ?_, rfl⟩
    · simp [Op.exec, World.newTranslations]
    · rw [recordOf_eq]
      have := view_alloc_new p.w [] dflt defaultDomain defaultSrc
      exact (congrArg _ this).trans (record_ext rfl rfl rfl fun _ => rfl)
  | global =>
    refine ⟨inStep_made c p s h .global trivial rfl rfl rfl _ ⟨Nat.le_refl _, ?_⟩ _ ?_, rfl⟩
    · simp [Op.exec, World.global, clone_length]
    · rw [h.val .pkg hpk, recordOf_eq]
      exact congrArg _ (view_clone_new p.w hw p.w.glob)
  | setGlobal k =>
    have hk : k < p.made.length := h.len ▸ hk
    exact ⟨⟨Reach.step _ (.setGlobal (p.addr k)) h.reach (h.lt k hk), h.noop, h.len, h.lt, h.inj, h.vals, hk, rfl⟩, rfl⟩
  | d on dom =>
    cases on with
    | pkg => exact ⟨makeD .pkg trivial dom, rfl⟩
    | val k => exact ⟨makeD (.val k) hk dom, rfl⟩
  | l on lang dflt =>
    cases on with
    | pkg => exact ⟨makeL .pkg trivial lang dflt, rfl⟩
    | val k => exact ⟨makeL (.val k) hk lang dflt, rfl⟩
  | withContext ctx dflt =>
    have f := withContext_facts c p.w hw ctx dflt
    refine ⟨inStep_made c p s h (.withContext ctx dflt) trivial rfl rfl f.glob _ f.fresh _ ?_, rfl⟩
    rw [h.val .pkg hpk, recordOf_eq]
    refine (congrArg _ f.new).trans ?_
    have htr : ∀ q, (Op.exec c p.w (.withContext ctx dflt)).tr q = p.w.tr q := fun q => by
      show ((p.w.withContext c ctx dflt).1).tr q = _
      unfold World.tr; rw [f.trs]
    unfold recordAt recordOf Record.inLocale
    simp only [htr]
    cases ctx.getLocale <;> cases ctx.getDomain <;> rfl
  | setLocale on lang dflt =>
    cases on with
    | pkg => exact ⟨putLocale .pkg trivial lang dflt, rfl⟩
    | val k => exact ⟨putLocale (.val k) hk lang dflt, rfl⟩
  | setDomain on dom =>
    cases on with
    | pkg => exact ⟨putDomain .pkg trivial dom, rfl⟩
    | val k => exact ⟨putDomain (.val k) hk dom, rfl⟩
  | setSourceCodeLocale on lang =>
    cases on with
    | pkg => exact ⟨putSrc .pkg trivial lang, rfl⟩
    | val k => exact ⟨putSrc (.val k) hk lang, rfl⟩
  | bindFS on dom fsys =>
    cases on with
    | pkg => exact ⟨putBind .pkg trivial dom fsys, rfl⟩
    | val k => exact ⟨putBind (.val k) hk dom fsys, rfl⟩
  | loadFS fsys =>
    refine ⟨?_, rfl⟩
    have := putBind .pkg trivial (p.w.domain p.w.glob) fsys
    have hd : (s.val .pkg).domain = p.w.domain p.w.glob := by rw [h.val .pkg hpk]; rfl
    show InStep c _ (s.put .pkg ((s.val .pkg).bind c (s.val .pkg).domain fsys))
    rw [hd]
    exact this
  | removeDomain on dom =>
    cases on with
    | pkg => exact remove .pkg trivial dom
    | val k => exact remove (.val k) hk dom
  | clearDomains on =>
    cases on with
    | pkg => exact ⟨putClear .pkg trivial, rfl⟩
    | val k => exact ⟨putClear (.val k) hk, rfl⟩

theorem plain_length (c : Cfg α) (s : Plain α) (o : Call) : (o.plain c s).1.vals.length = s.vals.length + o.makes := by
  cases o
  case removeDomain on dom =>
    unfold Call.plain
    dsimp only
    split
    · rfl
    · simp [Plain.put, Call.makes]
  all_goals simp [Call.plain, Plain.make, Plain.put, Call.makes]

theorem play_inStep (c : Cfg α) (os : List Call) (p : Prog α) (s : Plain α) (h : InStep c p s)
    (hk : AllKnown s.vals.length os) :
    InStep c (playReal c p os).1 (playPlain c s os).1 ∧ (playReal c p os).2 = (playPlain c s os).2 := by
  induction os generalizing p s with
  | nil => exact ⟨h, rfl⟩
  | cons o os ih =>
    obtain ⟨h1, h2⟩ := call_inStep c p s h o hk.1
    have := ih _ _ h1 (by rw [plain_length]; exact hk.2)
    exact ⟨this.1, by unfold playReal playPlain; rw [h2, this.2]⟩

/-! ## Questions -/

theorem sorted_unique (a b : List Str) (ha : a.Pairwise (· < ·)) (hb : b.Pairwise (· < ·)) (hm : ∀ l, l ∈ a ↔ l ∈ b) : a = b := by
  have irr : ∀ a b : Str, a < b → a ≠ b := by
    rintro a b hab rfl
    exact List.lt_irrefl a hab
  exact ((List.perm_ext_iff_of_nodup (ha.imp (irr _ _)) (hb.imp (irr _ _))).mpr hm).eq_of_pairwise
    (fun a b _ _ hab hba => absurd (List.lt_trans hab hba) (List.lt_irrefl a)) ha hb

theorem record_tor (w : World α) (i : Nat) : (recordOf w i).tor = (w.get i (w.domain i)).bind fun p => (w.tr p).get (w.locale i) := by
  show (Option.map _ (w.get i (w.domain i))).bind _ = _
  cases w.get i (w.domain i) <;> rfl

theorem used_record (c : Cfg α) (w : World α) (i : Nat) :
    w.usedLocale i = if (recordOf w i).tor.isSome then (recordOf w i).locale else (recordOf w i).src := by
  rw [record_tor]
  obtain ⟨h1, h2⟩ := C43_used_locale c w i
  cases hg : w.get i (w.domain i) with
  | none => exact (h2 fun p hp => by rw [hg] at hp; cases hp).1
  | some p =>
    cases ht : (w.tr p).get (w.locale i) with
    | none =>
      rw [Option.bind_some, ht]
      exact (h2 fun q hq => by rw [hg] at hq; cases hq; exact ht).1
    | some t =>
      rw [Option.bind_some, ht]
      exact (h1 p t hg ht).1

theorem domains_record (c : Cfg α) (w : World α) (h : Reach c w) (i : Nat) (ds : List Str) :
    w.Domains i ds ↔ ds.Nodup ∧ ∀ d, d ∈ ds ↔ ((recordOf w i).doms d).isSome = true := by
  have hk := (reach_wf c w h).keys (w.ts i).domains
  have hm : ∀ d, d ∈ (w.doms i).keys ↔ ((recordOf w i).doms d).isSome = true := fun d => by
    rw [keys_mem_iff]
    show _ ↔ (Option.map _ (w.get i d)).isSome = true
    rw [Option.isSome_map]; rfl
  unfold World.Domains
  constructor
  · intro hp
    exact ⟨hp.nodup_iff.mpr hk, fun d => hp.mem_iff.trans (hm d)⟩
  · rintro ⟨hn, hd⟩
    exact (List.perm_ext_iff_of_nodup hn hk).mpr fun d => (hd d).trans (hm d).symm

theorem locales_record (c : Cfg α) (w : World α) (h : Reach c w) (h0 : (w.tr 0).langs = []) (i : Nat) (ls : List Str) :
    w.Locales c i ls ↔ ls.Pairwise (· < ·) ∧ ∀ l, l ∈ ls ↔ l = (recordOf w i).src ∨
      ∃ dom k, (recordOf w i).doms (recordOf w i).domain = some dom ∧ (dom k).isSome = true ∧ c.norm k = l := by
  have key : ∀ l, (∃ k t, (w.tr (w.getOrNoop i (w.domain i))).get k = some t ∧ c.norm (c.norm t.lang) = l) ↔
      ∃ dom k, (recordOf w i).doms (recordOf w i).domain = some dom ∧ (dom k).isSome = true ∧ c.norm k = l := fun l => by
    show _ ↔ ∃ dom k, Option.map _ (w.get i (w.domain i)) = some dom ∧ _
    unfold World.getOrNoop World.get
    cases (w.doms i).get? (w.domain i) with
    | none =>
      constructor
      · rintro ⟨k, t, ht, _⟩
        dsimp only at ht
        unfold Translation.get at ht
        rw [h0] at ht; cases ht
      · rintro ⟨_, _, hd, _⟩; cases hd
    | some p =>
      constructor
      · rintro ⟨k, t, ht, hl⟩
        exact ⟨_, k, rfl, Option.isSome_iff_exists.mpr ⟨t, ht⟩, by rw [← (filed_reach c w h p k t ht).2]; exact hl⟩
      · rintro ⟨_, k, hd, hs, hl⟩
        cases hd
        obtain ⟨t, ht⟩ := Option.isSome_iff_exists.mp hs
        exact ⟨k, t, ht, by rw [(filed_reach c w h p k t ht).2]; exact hl⟩
  constructor
  · intro hl
    obtain ⟨h1, h2⟩ := C44_locales c w h i ls hl
    exact ⟨h1, fun l => (h2 l).trans (or_congr Iff.rfl (key l))⟩
  · rintro ⟨h1, h2⟩
    obtain ⟨ls', hl'⟩ := C44_exists c w i
    obtain ⟨h1', h2'⟩ := C44_locales c w h i ls' hl'
    rw [sorted_unique ls ls' h1 h1' fun l => (h2 l).trans ((h2' l).trans (or_congr Iff.rfl (key l))).symm]
    exact hl'

theorem tor_record (c : Cfg α) (w : World α) (h0 : (w.tr 0).langs = []) (i : Nat) :
    (w.tr (w.getOrNoop i (w.ts i).domain)).getOrNoop c (w.ts i).locale = (recordOf w i).tor.getD (noopTor c) := by
  rw [record_tor]
  unfold World.getOrNoop
  show (w.tr (match w.get i (w.domain i) with | some p => p | none => 0)).getOrNoop c (w.locale i) = _
  cases w.get i (w.domain i) with
  | none =>
    unfold Translation.getOrNoop
    dsimp only
    rw [h0]; rfl
  | some p =>
    unfold Translation.getOrNoop
    dsimp only [Option.bind_some]
    show (match (w.tr p).get (w.locale i) with | some t => t | none => _) = _
    cases (w.tr p).get (w.locale i) <;> rfl

theorem x_record (c : Cfg α) (w : World α) (h0 : (w.tr 0).langs = []) (i : Nat) (ctxt id : Str) (args : List α) :
    w.x c i ctxt id args = (recordOf w i).lookup c (.x ctxt id args) := by
  unfold World.x Record.lookup Lookup.message
  rw [tor_record c w h0 i]
  cases (recordOf w i).tor <;> rfl

theorem xn_record (c : Cfg α) (w : World α) (h0 : (w.tr 0).langs = []) (i : Nat) (ctxt id id2 : Str) (n : Int64) (args : List α) :
    w.xn64 c i ctxt id id2 n args = (recordOf w i).lookup c (.xn64 ctxt id id2 n args) := by
  unfold World.xn64 Record.lookup Lookup.message
  rw [tor_record c w h0 i]
  cases (recordOf w i).tor <;> rfl

theorem inStep_says (c : Cfg α) (p : Prog α) (s : Plain α) (h : InStep c p s) (on : Who) (hk : on.Known s.vals.length) :
    Says c p on (s.val on) := by
  rw [h.val on hk]
  have hx := x_record c p.w h.noop (p.at on)
  have hxn := xn_record c p.w h.noop (p.at on)
  have hh : ∀ d, p.w.hasDomain (p.at on) d = ((recordOf p.w (p.at on)).doms d).isSome := fun d => by
    rw [Bool.eq_iff_iff, hasDomain_iff]
    show _ ↔ (Option.map _ (p.w.get (p.at on) d)).isSome = true
    rw [Option.isSome_map]
  have hu := used_record c p.w (p.at on)
  have hd := domains_record c p.w h.reach (p.at on)
  have hl := locales_record c p.w h.reach h.noop (p.at on)
  cases on with
  | pkg =>
    exact ⟨rfl, rfl, rfl, hu, hh, hd, hl, fun q => by
      cases q
      case t => exact hx _ _ _
      case x => exact hx _ _ _
      all_goals exact hxn _ _ _ _ _⟩
  | val k =>
    exact ⟨rfl, rfl, rfl, hu, hh, hd, hl, fun q => by
      cases q
      case t => exact hx _ _ _
      case x => exact hx _ _ _
      all_goals exact hxn _ _ _ _ _⟩

/-- **C90**: whatever the program calls, `RemoveDomain` answers what the machine answers, and afterwards
the package and every value of the program answer each question as the machine's records say. -/
theorem C90_machine (c : Cfg α) (dflt : Str) (os : List Call) (hk : AllKnown 1 os) :
    (playReal c (Prog.start c dflt) os).2 = (playPlain c (Plain.start α dflt) os).2 ∧
    ∀ on : Who, on.Known (playPlain c (Plain.start α dflt) os).1.vals.length →
      Says c (playReal c (Prog.start c dflt) os).1 on ((playPlain c (Plain.start α dflt) os).1.val on) := by
  have h := play_inStep c os _ _ (inStep_start c dflt) hk
  exact ⟨h.2, fun on hon => inStep_says c _ _ h.1 on hon⟩

/-- A history: the package loads a tree, takes a locale, a copy (1) is made for another domain and cleared, a
new value (2) loads the other tree, and becomes the package's value. -/
def exCalls : List Call :=
  [.loadFS (some exTree), .setLocale .pkg b!"fr-CA" [], .d .pkg b!"other", .clearDomains (.val 1),
   .newTranslations b!"fr", .bindFS (.val 2) b!"x" (some exTree2), .setDomain (.val 2) b!"x",
   .removeDomain .pkg b!"x", .setGlobal 2, .setSourceCodeLocale .pkg b!"de-AT", .removeDomain (.val 1) b!"default"]

theorem exCalls_known : AllKnown 1 exCalls := by
  refine ⟨trivial, trivial, trivial, ?_, trivial, ?_, ?_, trivial, ?_, trivial, ?_, trivial⟩
  · show 1 < 1 + 0 + 0 + 1; decide
  · show 2 < 1 + 0 + 0 + 1 + 0 + 1; decide
  · show 2 < 1 + 0 + 0 + 1 + 0 + 1 + 0; decide
  · show 2 < 1 + 0 + 0 + 1 + 0 + 1 + 0 + 0 + 0; decide
  · show 1 < 1 + 0 + 0 + 1 + 0 + 1 + 0 + 0 + 0 + 0 + 0; decide

/-- The machine and the program agree, and the answers are what one expects. -/
example :
    let p := playReal exCfg (Prog.start exCfg b!"en") exCalls
    let s := playPlain exCfg (Plain.start Str b!"en") exCalls
    p.2 = s.2 ∧ p.2 = [none, none, none, none, none, none, none, some false, none, none, some false] ∧
    (Lookup.t b!"a" []).real exCfg p.1 .pkg = .ok b!"po" ∧ (s.1.val .pkg).lookup exCfg (.t b!"a" []) = .ok b!"po" ∧
    (Lookup.t b!"a" []).real exCfg p.1 (.val 0) = .ok b!"po2" ∧
    (Lookup.n b!"a" b!"b" 2 []).real exCfg p.1 (.val 1) = .ok b!"b" ∧
    p.1.sourceCodeLocale (.val 2) = b!"de" ∧ p.1.sourceCodeLocale (.val 0) = b!"en_US" ∧
    p.1.usedLocale (.val 1) = b!"en_US" ∧ p.1.usedLocale (.val 2) = b!"fr" ∧
    p.1.hasDomain b!"x" .pkg = true ∧ p.1.hasDomain b!"x" (.val 0) = false := by decide +kernel

end Verif.W
