import Verif.Lemmas.Serve
/-! # Goroutines that use Translations values: every call does what it should -/
namespace Verif.Serve
open Verif Verif.W
variable {α : Type}

/-- The call has ended as it would if nobody else were there. -/
def Done (c : Cfg α) (b : Base) (regs : List Nat) (s : Known α) (call : Call α) : Post α := fun o w made a =>
  Rel b o w (regs ++ made.toList) (call.plain c s).1 ∧ a = (call.plain c s).2

theorem Rel.agree {b : Base} {o : Owns} {w w2 : World α} {regs : List Nat} {s : Known α} (h : Rel b o w regs s)
    (ha : Agree b o w w2) : Rel b o w2 regs s :=
  h.ext ⟨ha, ⟨fun _ hi => hi, fun _ hi => hi⟩, h.inW.agree ha⟩

theorem safe_deref {b : Base} {Q : Post α} {o : Owns} {w : World α} {regs : List Nat} {s : Known α} (h : Rel b o w regs s)
    {r : Ref} (hr : r.Made regs.length) {k : Nat → Prog α} (hk : ∀ i, Obj b o w i (s.value r) → Safe b Q (k i) o w) :
    Safe b Q (deref regs r k) o w := by
  cases r with
  | global => exact ⟨trivial, hk _ h.glob⟩
  | own j => exact hk _ (h.obj j hr)

theorem safe_setLocale_new {b : Base} {Q : Post α} (c : Cfg α) {o o2 : Owns} {w w2 : World α} {t : Nat} {v : Value α}
    (n : New b o w o2 w2 t v) (lang dflt : Str) (k : Prog α)
    (hk : ∀ w3, New b o w o2 w3 t (v.inLocale c lang dflt) → Safe b Q k o2 w3) :
    Safe b Q (setLocaleP c t lang dflt k) o2 w2 := by
  refine ⟨n.own, hk _ ?_⟩
  have := n.setTs (if lang = [] then dflt else c.norm lang) (w2.ts t).domain (w2.ts t).src
  have e : v.inLocale c lang dflt = ⟨if lang = [] then dflt else c.norm lang, (w2.ts t).domain, (w2.ts t).src, v.doms⟩ := by
    rw [n.obj.domain, n.obj.src]; rfl
  rw [e]
  exact this

theorem safe_setDomain_new {b : Base} {Q : Post α} {o o2 : Owns} {w w2 : World α} {t : Nat} {v : Value α}
    (n : New b o w o2 w2 t v) (dom : Str) (k : Prog α)
    (hk : ∀ w3, New b o w o2 w3 t { v with domain := dom } → Safe b Q k o2 w3) :
    Safe b Q (.store (.domain t) (.str dom) k) o2 w2 := by
  refine ⟨n.own, hk _ ?_⟩
  have := n.setTs (w2.ts t).locale dom (w2.ts t).src
  have e : ({ v with domain := dom } : Value α) = ⟨(w2.ts t).locale, dom, (w2.ts t).src, v.doms⟩ := by
    rw [n.obj.locale, n.obj.src]
  rw [e]
  exact this

theorem any_keys (m : GMap Nat) (d : Str) : (m.keys.any fun e => e = d) = (m.get? d).isSome := by
  induction m with
  | nil => rfl
  | cons p m ih =>
    obtain ⟨a, v⟩ := p
    simp only [GMap.keys, List.map_cons, List.any_cons, GMap.get?] at *
    by_cases h : a = d
    · simp [h]
    · simp [h, ih]

theorem str_toStr (s : Str) : (Val.str s : Val α).toStr = s := rfl
theorem addr_toAddr (n : Nat) : (Val.addr n : Val α).toAddr = n := rfl
theorem map_toMap (m : GMap Nat) : (Val.map m : Val α).toMap = m := rfl

theorem change_eq (s : Known α) (k : Nat) (f : Value α → Value α) :
    s.change (.own k) f = { s with made := s.made.set k (f (s.made.getD k s.glob)) } := by
  simp only [Known.change]
  congr 1
  apply List.ext_getElem?
  intro i
  rw [List.getElem?_modify, List.getElem?_set]
  by_cases h : k = i
  · subst h
    by_cases hl : k < s.made.length
    · simp [hl]
    · simp [hl]
  · simp [h]

/-- Every polite call goes as it would if nobody else were there. -/
theorem safe_prog (c : Cfg α) {b : Base} {o : Owns} {w : World α} {regs : List Nat} {s : Known α} (h : Rel b o w regs s)
    (call : Call α) (hc : call.Polite regs.length) : Safe b (Done c b regs s call) (call.prog c regs) o w := by
  have keep : ∀ (o : Owns) (w : World α) (s : Known α), Rel b o w regs s → Rel b o w (regs ++ (none : Option Nat).toList) s := fun o w s h => by simpa using h
  cases call with
  | newTranslations dflt =>
    intro w2 h2 w3 h3
    refine ⟨h.new (new_alloc h.inW [] dflt defaultDomain defaultSrc (fun _ => none) h2 h3 (by simp [GMap.keys]) ?_ ?_), rfl⟩
    · intro d p hp; simp [GMap.get?] at hp
    · intro d; rfl
  | global => exact ⟨trivial, safe_clone h.inW h.glob fun o2 w2 t n => ⟨h.new n, rfl⟩⟩
  | d r dom =>
    simp only [Call.prog]
    refine safe_deref h (r := r) hc fun i hi => ?_
    exact safe_clone h.inW hi fun o2 w2 t n => safe_setDomain_new n dom _ fun w3 n3 => ⟨h.new n3, rfl⟩
  | l r lang dflt =>
    simp only [Call.prog]
    refine safe_deref h (r := r) hc fun i hi => ?_
    exact safe_clone h.inW hi fun o2 w2 t n => safe_setLocale_new c n lang dflt _ fun w3 n3 => ⟨h.new n3, rfl⟩
  | withContext ctx dflt =>
    refine ⟨trivial, safe_clone h.inW h.glob fun o2 w2 t n => ?_⟩
    have key : ∀ (v : Value α) o2 w2 t, New b o w o2 w2 t v →
        (ctx.getDomain = none → ((Call.withContext ctx dflt).plain c s).1 = s.make v) →
        (∀ dom, ctx.getDomain = some dom → ((Call.withContext ctx dflt).plain c s).1 = s.make { v with domain := dom }) →
        Safe b (Done c b regs s (.withContext ctx dflt)) (match ctx.getDomain with
          | some dom => cloneP t fun u => .store (.domain u) (.str dom) (.ret (some u) .done)
          | none => .ret (some t) .done) o2 w2 := by
      intro v o2 w2 t n h1 h2
      cases hd : ctx.getDomain with
      | none =>
        exact ⟨by rw [h1 hd]; exact h.new n, rfl⟩
      | some dom =>
        exact safe_clone n.ext.inW n.obj fun o3 w3 u n3 => safe_setDomain_new n3 dom _ fun w4 n4 =>
          ⟨by rw [h2 dom hd]; exact h.new (New.trans n.ext n4), rfl⟩
    cases hl : ctx.getLocale with
    | none =>
      exact key _ _ _ _ n (fun h => by simp only [Call.plain, hl, h]) (fun dom h => by simp only [Call.plain, hl, h])
    | some lang =>
      exact safe_clone n.ext.inW n.obj fun o3 w3 u n3 => safe_setLocale_new c n3 lang dflt _ fun w4 n4 =>
        key _ _ _ _ (New.trans n.ext n4) (fun h => by simp only [Call.plain, hl, h]) (fun dom h => by simp only [Call.plain, hl, h])
  | setDomain r dom =>
    cases r with
    | global => exact absurd hc id
    | own k =>
      have hk : k < regs.length := hc
      have ho := h.obj k hk
      refine ⟨(h.own k hk).1, ?_, rfl⟩
      have := h.setTs hk (fun v => { v with domain := dom }) { w.ts (regs.getD k 0) with domain := dom }
        ⟨ho.locale, rfl, ho.src, rfl⟩ rfl
      exact keep _ _ _ this
  | setLocale r lang dflt =>
    cases r with
    | global => exact absurd hc id
    | own k =>
      have hk : k < regs.length := hc
      have ho := h.obj k hk
      refine ⟨(h.own k hk).1, ?_, rfl⟩
      have := h.setTs hk (fun v => v.inLocale c lang dflt)
        { w.ts (regs.getD k 0) with locale := if lang = [] then dflt else c.norm lang } ⟨rfl, ho.domain, ho.src, rfl⟩ rfl
      exact keep _ _ _ this
  | setSourceCodeLocale r lang =>
    cases r with
    | global => exact absurd hc id
    | own k =>
      have hk : k < regs.length := hc
      have ho := h.obj k hk
      refine ⟨(h.own k hk).1, ?_, rfl⟩
      have := h.setTs hk (fun v => { v with src := c.norm lang }) { w.ts (regs.getD k 0) with src := c.norm lang }
        ⟨ho.locale, ho.domain, rfl, rfl⟩ rfl
      exact keep _ _ _ this
  | bindFS r dom fsys =>
    cases r with
    | global => exact absurd hc id
    | own k =>
      have hk : k < regs.length := hc
      intro w2 h2
      have hr2 := h.agree h2
      have hr3 := hr2.agree (newTr_agree (b := b) (o := o) (w := w2) ((newTranslation c dom []).loadFS c fsys).2)
      have ho := hr3.obj k hk
      cases hl : ((newTranslation c dom []).loadFS c fsys).1 with
      | false =>
        simp only [Bool.false_eq_true, if_false]
        refine ⟨?_, by simp only [Call.plain]⟩
        simp only [Call.plain, hl, Bool.false_eq_true, if_false]
        exact keep _ _ _ hr3
      | true =>
        simp only [if_true]
        refine ⟨ho.read, ho.map, (hr3.own k hk).2, ?_, by simp only [Call.plain]⟩
        simp only [Call.plain, hl, if_true]
        have := hr3.setMap hk
          (fun v => { v with doms := fun d => if d = dom then some ((newTranslation c dom []).loadFS c fsys).2 else v.doms d })
          ((w2.mapAt (w2.ts (regs.getD k 0)).domains).set dom w2.trs.length) ⟨rfl, rfl, rfl⟩ ?_ ?_ ?_
        · exact keep _ _ _ this
        · exact GMap.nodup_set _ _ _ ho.keys
        · intro d p hp
          rw [GMap.get?_set] at hp
          split at hp
          · simp only [Option.some.injEq] at hp
            subst hp
            simp
          · exact ho.ptr d p hp
        · intro d
          rw [GMap.get?_set]
          by_cases hdd : d = dom
          · simp only [hdd, if_true, Option.map_some, World.tr, getD_snoc]
          · simp only [hdd, if_false]; exact ho.doms d
  | removeDomain r dom =>
    cases r with
    | global => exact absurd hc id
    | own k =>
      have hk : k < regs.length := hc
      have ho := h.obj k hk
      simp only [Call.prog, deref]
      by_cases hd : dom = []
      · rw [if_pos hd]
        refine ⟨?_, ?_⟩
        · simp only [Call.plain, hd, true_or, if_true]; exact keep _ _ _ h
        · simp only [Call.plain, hd, true_or, if_true]
      · rw [if_neg hd]
        refine ⟨ho.read, ho.map, ?_⟩
        simp only [load, addr_toAddr, map_toMap, any_keys]
        have hdd := ho.doms dom
        cases hg : (w.mapAt (w.ts (regs.getD k 0)).domains).get? dom with
        | none =>
          rw [hg] at hdd
          have e : (s.value (.own k)).doms dom = none := hdd.symm
          simp only [Option.isSome_none, Bool.not_false, if_true]
          refine ⟨?_, ?_⟩
          · simp only [Call.plain, e, or_true, if_true]; exact keep _ _ _ h
          · simp only [Call.plain, e, or_true, if_true]
        | some p =>
          rw [hg] at hdd
          have e : (s.value (.own k)).doms dom ≠ none := by
            have e' : (s.value (.own k)).doms dom = some (w.tr p) := hdd.symm
            rw [e']; exact Option.some_ne_none _
          simp only [Option.isSome_some, Bool.not_true, Bool.false_eq_true, if_false]
          refine ⟨ho.read, ho.map, (h.own k hk).2, ho.read, ?_⟩
          have hm := h.setMap hk (fun v => { v with doms := fun d => if d = dom then none else v.doms d })
            ((w.mapAt (w.ts (regs.getD k 0)).domains).erase dom) ⟨rfl, rfl, rfl⟩ (erase_nodup _ ho.keys dom) ?_ ?_
          · have hkm := hm.obj k hk
            simp only [load, store, str_toStr, addr_toAddr, map_toMap, ts_maps]
            have hplain : (Call.removeDomain (.own k) dom : Call α).plain c s = (s.change (.own k) fun v =>
                ⟨v.locale, if v.domain = dom then b!"default" else v.domain, v.src,
                  fun d => if d = dom then none else v.doms d⟩, .bool true) := by
              simp only [Call.plain]
              rw [if_neg (by rintro (h | h); exacts [hd h, e h])]
            by_cases hcur : (w.ts (regs.getD k 0)).domain = dom
            · simp only [hcur, if_true]
              refine ⟨(h.own k hk).1, ?_, by rw [hplain]⟩
              rw [hplain]
              have h2 := hm.setTs hk (fun v => { v with domain := b!"default" }) { w.ts (regs.getD k 0) with domain := defaultDomain }
                ⟨hkm.locale, rfl, hkm.src, rfl⟩ rfl
              rw [change_eq, change_eq] at h2
              rw [change_eq]
              refine keep _ _ _ ?_
              have hcur' : (s.made.getD k s.glob).domain = dom := ho.domain ▸ hcur
              have hlen : k < s.made.length := by rw [← h.len]; exact hk
              simp only [getD_set, hlen, and_self, if_true, List.set_set] at h2
              simp only [hcur', if_true]
              exact h2
            · simp only [hcur, if_false]
              refine ⟨?_, by rw [hplain]⟩
              rw [hplain]
              refine keep _ _ _ ?_
              have hcur' : ¬ (s.made.getD k s.glob).domain = dom := fun e => hcur (ho.domain.trans e)
              rw [change_eq] at hm ⊢
              simp only [hcur', if_false]
              exact hm
          · intro d p hp
            rw [erase_get _ ho.keys] at hp
            split at hp
            · simp at hp
            · exact ho.ptr d p hp
          · intro d
            rw [erase_get _ ho.keys]
            split
            · simp [*]
            · simp only [*, if_false]; exact ho.doms d
  | clearDomains r =>
    cases r with
    | global => exact absurd hc id
    | own k =>
      have hk : k < regs.length := hc
      intro w2 h2
      have hr2 := h.agree h2
      have ho := hr2.obj k hk
      have hown := (hr2.own k hk).1
      have hlt := (hr2.inW.tss _ hown).2
      refine ⟨hown, hown, ?_, rfl⟩
      refine keep _ _ _ ?_
      have e : ∀ i, (store (store ({ w2 with maps := w2.maps ++ [[]] } : World α) (.domains (regs.getD k 0)) (.addr w2.maps.length))
          (.domain (regs.getD k 0)) (.str defaultDomain)).ts i = if i = regs.getD k 0 then
            ⟨(w2.ts i).locale, defaultDomain, w2.maps.length, (w2.ts i).src⟩ else w2.ts i := by
        intro i
        simp only [store]
        rw [ts_setTs, ts_setTs, ts_setTs]
        simp only [tssLen_setTs, ts_maps, hlt, and_true, if_true]
        by_cases hi : i = regs.getD k 0
        · simp only [hi, if_true]
        · simp only [hi, if_false]
      have em : ∀ r, (store (store ({ w2 with maps := w2.maps ++ [[]] } : World α) (.domains (regs.getD k 0)) (.addr w2.maps.length))
          (.domain (regs.getD k 0)) (.str defaultDomain)).mapAt r = if r = w2.maps.length then [] else w2.mapAt r := by
        intro r
        simp only [store, mapAt_setTs]
        exact mapAt_snoc _ _ _
      have hin3 := store_inW (store_inW (newMap_inW hr2.inW []) (.domains (regs.getD k 0)) (.addr w2.maps.length : Val α))
        (.domain (regs.getD k 0)) (.str defaultDomain)
      have hmem : w2.maps.length ∈ (o.addMap w2.maps.length).maps := by simp [Owns.addMap]
      refine hr2.change hk _ ?_ ⟨fun i hi => hi, fun i hi => List.mem_cons_of_mem _ hi⟩ hin3 ?_ ?_ ?_
      · refine ⟨fun j hj => ?_, fun q hq => ?_, fun p hp => rfl, by simp [store], by simp [store], Nat.le_refl _, rfl⟩
        · rw [e, if_neg]
          rintro rfl
          rcases hj with hj | hj
          · have := (hr2.inW.tss _ hown).1; omega
          · simp [Owns.without] at hj
        · rw [em, if_neg]
          rintro rfl
          rcases hq with hq | hq
          · have := hr2.inW.baseMaps; omega
          · have := (hr2.inW.maps _ (List.mem_filter.mp hq).1).2
            omega
      · rw [e, if_pos rfl]; exact hmem
      · intro j hj hne
        rw [e, if_pos rfl]
        have := (hr2.inW.maps _ (hr2.own j hj).2).2
        simp only
        omega
      · refine ⟨Or.inr hown, ?_, ?_, ?_, ?_, ?_, ?_, ?_⟩
        · rw [e, if_pos rfl]; exact Or.inr hmem
        · rw [e, if_pos rfl, em, if_pos rfl]; simp [GMap.keys]
        · rw [e, if_pos rfl, em, if_pos rfl]; intro d p hp; simp [GMap.get?] at hp
        · rw [e, if_pos rfl]; exact ho.locale
        · rw [e, if_pos rfl]; rfl
        · rw [e, if_pos rfl]; exact ho.src
        · rw [e, if_pos rfl, em, if_pos rfl]; intro d; rfl
  | setGlobal k => exact absurd hc id
  | locale r =>
    simp only [Call.prog]
    refine safe_deref h (r := r) hc fun i hi => ?_
    exact ⟨hi.read, keep _ _ _ h, congrArg Answer.str hi.locale⟩
  | domain r =>
    simp only [Call.prog]
    refine safe_deref h (r := r) hc fun i hi => ?_
    exact ⟨hi.read, keep _ _ _ h, congrArg Answer.str hi.domain⟩
  | sourceCodeLocale r =>
    simp only [Call.prog]
    refine safe_deref h (r := r) hc fun i hi => ?_
    exact ⟨hi.read, keep _ _ _ h, congrArg Answer.str hi.src⟩
  | usedLocale r =>
    simp only [Call.prog]
    refine safe_deref h (r := r) hc fun i hi => ?_
    refine ⟨hi.read, hi.read, hi.map, ?_⟩
    simp only [load, Val.toStr, Val.toAddr, Val.toMap, hi.domain]
    have hd := hi.doms (s.value r).domain
    cases hp : (w.mapAt (w.ts i).domains).get? (s.value r).domain with
    | none =>
      rw [hp] at hd
      refine ⟨hi.read, keep _ _ _ h, ?_⟩
      simp only [Call.plain, ← hd, load, hi.src, Option.map_none]
    | some p =>
      rw [hp] at hd
      refine ⟨hi.read, hi.ptr _ _ hp, ?_⟩
      simp only [load, Val.toTr, hi.locale]
      cases hg : (w.tr p).get (s.value r).locale with
      | none =>
        refine ⟨hi.read, keep _ _ _ h, ?_⟩
        simp [Call.plain, ← hd, load, hi.src, hg]
      | some _ =>
        refine ⟨hi.read, keep _ _ _ h, ?_⟩
        simp [Call.plain, ← hd, load, hi.locale, hg]
  | hasDomain r dom =>
    simp only [Call.prog]
    refine safe_deref h (r := r) hc fun i hi => ?_
    refine ⟨hi.read, hi.map, keep _ _ _ h, ?_⟩
    simp only [load, Val.toAddr, Val.toMap, Call.plain, any_keys, ← hi.doms dom, Option.isSome_map]
  | locales r order sort =>
    simp only [Call.prog]
    refine safe_deref h (r := r) hc fun i hi => ?_
    exact safe_locales hi h.pos h.noop ⟨keep _ _ _ h, rfl⟩
  | mostMatchLocale order sort pick =>
    refine ⟨trivial, safe_locales h.glob h.pos h.noop ⟨trivial, h.glob.read, keep _ _ _ h, ?_⟩⟩
    simp only [load, Val.toStr, Val.toAddr, h.glob.locale, Call.plain]
  | x r ctxt id args =>
    simp only [Call.prog]
    refine safe_deref h (r := r) hc fun i hi => ?_
    exact safe_tor hi h.pos h.noop ⟨keep _ _ _ h, rfl⟩
  | xn64 r ctxt id id2 n args =>
    simp only [Call.prog]
    refine safe_deref h (r := r) hc fun i hi => ?_
    exact safe_tor hi h.pos h.noop ⟨keep _ _ _ h, rfl⟩

/-! ## All goroutines -/

theorem safe_mono {b : Base} {Q Q' : Post α} (hQ : ∀ o w made a, Q o w made a → Q' o w made a) :
    ∀ (p : Prog α) (o : Owns) (w : World α), Safe b Q p o w → Safe b Q' p o w
  | .ret _ _, o, w, h => hQ o w _ _ h
  | .load _ _, o, w, h => ⟨h.1, safe_mono hQ _ o w h.2⟩
  | .store _ _ _, o, _, h => ⟨h.1, safe_mono hQ _ o _ h.2⟩
  | .newMap _ _, _, _, h => fun w3 h3 => safe_mono hQ _ _ _ (h w3 h3)
  | .newTs _ _, _, _, h => fun w3 h3 => safe_mono hQ _ _ _ (h w3 h3)
  | .newTr _ _, _, _, h => fun w3 h3 => safe_mono hQ _ _ _ (h w3 h3)

theorem safe_done {b : Base} {Q : Post α} : ∀ (p : Prog α) (o : Owns) (w : World α), Safe b Q p o w →
    ∃ o w made a, Q o w made a
  | .ret _ _, o, w, h => ⟨o, w, _, _, h⟩
  | .load _ _, o, w, h => safe_done _ o w h.2
  | .store _ _ _, o, _, h => safe_done _ o _ h.2
  | .newMap _ _, _, w, h => safe_done _ _ _ (h w (Agree.refl _ _ _))
  | .newTs _ _, _, w, h => safe_done _ _ _ (h w (Agree.refl _ _ _))
  | .newTr _ _, _, w, h => safe_done _ _ _ (h w (Agree.refl _ _ _))

theorem plain_len (c : Cfg α) (s : Known α) (call : Call α) (n : Nat) (hc : call.Polite n) :
    (call.plain c s).1.made.length = s.made.length + call.makes := by
  have hch : ∀ r (f : Value α → Value α), (s.change r f).made.length = s.made.length := by
    intro r f; cases r <;> simp [Known.change]
  cases call <;> simp only [Call.plain, Call.makes, Known.make, List.length_append, List.length_singleton, hch, Nat.add_zero]
  · split <;> simp [hch]
  · split <;> simp [hch]

/-- The goroutine is on the way to the answers. -/
def After (c : Cfg α) (b : Base) (total said : List Answer) (regs : List Nat) (k : Answer → Code α) : Post α :=
  fun o w made a => ∃ s, Rel b o w (regs ++ made.toList) s ∧ Polite (regs ++ made.toList).length (k a) ∧
    total = said ++ a :: alone c (k a) s

def ThreadOk (c : Cfg α) (b : Base) (total : List Answer) (o : Owns) (w : World α) (t : Thread α) : Prop :=
  match t.pc with
  | .idle h => ∃ s, Rel b o w t.regs s ∧ Polite t.regs.length h ∧ total = t.said ++ alone c h s
  | .within p k => Safe b (After c b total t.said t.regs k) p o w

theorem after_stable (c : Cfg α) (b : Base) (total said : List Answer) (regs : List Nat) (k : Answer → Code α) :
    Stable b (After c b total said regs k) := by
  rintro o w w2 made a ha ⟨s, h1, h2, h3⟩
  exact ⟨s, h1.agree ha, h2, h3⟩

theorem ThreadOk.agree {c : Cfg α} {b : Base} {total : List Answer} {o : Owns} {w w2 : World α} {t : Thread α}
    (h : ThreadOk c b total o w t) (hin : InW b o w) (ha : Agree b o w w2) : ThreadOk c b total o w2 t := by
  obtain ⟨regs, pc, said⟩ := t
  cases pc with
  | idle h' =>
    obtain ⟨s, h1, h2, h3⟩ := h
    exact ⟨s, h1.agree ha, h2, h3⟩
  | within p k => exact safe_agree (after_stable c b total said regs k) p o w w2 hin ha h

/-- What one step does: the goroutine goes on, and to everybody else nothing has happened. -/
theorem step_ok {c : Cfg α} {b : Base} {total : List Answer} {o : Owns} {w w' : World α} {t t' : Thread α}
    (hin : InW b o w) (h : ThreadOk c b total o w t) (st : TStep c w t w' t') :
    ∃ o', InW b o' w' ∧ ThreadOk c b total o' w' t' ∧
      (∀ x, InW b x w → Apart o x → Agree b x w w' ∧ Apart o' x) := by
  cases st with
  | @call regs call k said =>
    obtain ⟨s, h1, h2, h3⟩ := h
    cases h2 with
    | call hp hk =>
    refine ⟨o, hin, ?_, fun x _ ha => ⟨Agree.refl _ _ _, ha⟩⟩
    refine safe_mono ?_ _ _ _ (safe_prog c h1 call hp)
    rintro o2 w2 made a ⟨h4, rfl⟩
    refine ⟨_, h4, ?_, h3⟩
    have e : (regs ++ made.toList).length = regs.length + call.makes := by
      rw [h4.len, plain_len c s call _ hp, h1.len]
    rw [e]
    exact hk _
  | ret =>
    obtain ⟨s, h1, h2, h3⟩ := h
    exact ⟨o, hin, ⟨s, h1, h2, by rw [h3]; simp⟩, fun x _ ha => ⟨Agree.refl _ _ _, ha⟩⟩
  | load => exact ⟨o, hin, h.2, fun x _ ha => ⟨Agree.refl _ _ _, ha⟩⟩
  | store => exact ⟨o, store_inW hin _ _, h.2, fun x _ ha => ⟨store_other hin ha _ h.1 _, ha⟩⟩
  | newMap =>
    refine ⟨_, newMap_inW hin _, h w (Agree.refl _ _ _), fun x hx ha => ⟨newMap_agree hx _, ha.tss, ?_⟩⟩
    intro r hr
    rcases List.mem_cons.mp hr with rfl | hr
    · intro hr; exact absurd (hx.maps _ hr).2 (by omega)
    · exact ha.maps r hr
  | newTs =>
    refine ⟨_, newTs_inW hin _, h w (Agree.refl _ _ _), fun x hx ha => ⟨newTs_agree hx _, ?_, ha.maps⟩⟩
    intro r hr
    rcases List.mem_cons.mp hr with rfl | hr
    · intro hr; exact absurd (hx.tss _ hr).2 (by omega)
    · exact ha.tss r hr
  | newTr => exact ⟨o, hin.agree (newTr_agree _ (o := o)), h w (Agree.refl _ _ _), fun x _ ha => ⟨newTr_agree _, ha⟩⟩

/-- What holds however the goroutines are interleaved. -/
structure Inv (c : Cfg α) (b : Base) (w : World α) (totals : List (List Answer)) (os : Nat → Owns) (s : Sys α) : Prop where
  inW : ∀ g, InW b (os g) s.w
  apart : ∀ g g', g ≠ g' → Apart (os g) (os g')
  base : Agree b ⟨[], []⟩ w s.w
  len : s.threads.length = totals.length
  ok : ∀ g t total, s.threads[g]? = some t → totals[g]? = some total → ThreadOk c b total (os g) s.w t

theorem inv_step {c : Cfg α} {b : Base} {w : World α} {totals : List (List Answer)} {os : Nat → Owns} {s s' : Sys α}
    (h : Inv c b w totals os s) (st : Step c s s') : ∃ os', Inv c b w totals os' s' := by
  cases st with
  | @mk g t t' w' hg st =>
  have hlt : g < totals.length := by
    rw [← h.len]; exact (List.getElem?_eq_some_iff.mp hg).1
  obtain ⟨o', h1, h2, h3⟩ := step_ok (h.inW g) (h.ok g t totals[g] hg (List.getElem?_eq_getElem hlt)) st
  refine ⟨fun j => if j = g then o' else os j, ?_, ?_, ?_, by simpa using h.len, ?_⟩
  · intro j
    by_cases hj : j = g
    · simp only [hj, if_true]; exact h1
    · simp only [hj, if_false]
      exact (h.inW j).agree (h3 (os j) (h.inW j) (h.apart g j (Ne.symm hj))).1
  · intro i j hij
    by_cases hi : i = g
    · have hj : ¬ j = g := fun e => hij (hi.trans e.symm)
      simp only [hi, hj, if_true, if_false]
      exact (h3 (os j) (h.inW j) (h.apart g j (Ne.symm hj))).2
    · by_cases hj : j = g
      · simp only [hi, hj, if_true, if_false]
        exact (h3 (os i) (h.inW i) (h.apart g i (Ne.symm hi))).2.symm
      · simp only [hi, hj, if_false]; exact h.apart i j hij
  · have hb := (h.inW g)
    exact h.base.trans (h3 ⟨[], []⟩ ⟨hb.baseTss, hb.baseMaps, by simp, by simp⟩ ⟨by simp, by simp⟩).1
  · intro j u total hu ht
    by_cases hj : j = g
    · subst hj
      have e : u = t' := by
        have hl : j < s.threads.length := by rw [h.len]; exact hlt
        simp only [List.getElem?_set_self hl, Option.some.injEq] at hu
        exact hu.symm
      have e2 : totals[j] = total := by
        rw [List.getElem?_eq_getElem hlt] at ht; simpa using ht
      simp only [if_true]
      rw [e, ← e2]
      exact h2
    · simp only [hj, if_false]
      rw [List.getElem?_set_ne (Ne.symm hj)] at hu
      exact (h.ok j u total hu ht).agree (h.inW j) (h3 (os j) (h.inW j) (h.apart g j (Ne.symm hj))).1

end Verif.Serve
