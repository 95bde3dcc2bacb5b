import Verif.Lemmas.Domain
/-! # The heap of Translations values -/
namespace Verif.W
open Verif
variable {α : Type}

/-- What holds of every reachable heap: maps are not shared, addresses are valid. -/
structure WF (w : World α) : Prop where
  mapLt : ∀ i < w.tss.length, (w.ts i).domains < w.maps.length
  mapInj : ∀ i j, i < w.tss.length → j < w.tss.length → (w.ts i).domains = (w.ts j).domains → i = j
  keys : ∀ r, (w.mapAt r).keys.Nodup
  ptr : ∀ r d p, (w.mapAt r).get? d = some p → p < w.trs.length
  noop : 0 < w.trs.length
  glob : w.glob < w.tss.length
  langs : ∀ p, (w.tr p).langs.keys.Nodup

theorem getD_append {β : Type} (l m : List β) (i : Nat) (d : β) (h : i < l.length) : (l ++ m).getD i d = l.getD i d := by
  simp only [List.getD_eq_getElem?_getD, List.getElem?_append_left h]

theorem getD_snoc {β : Type} (l : List β) (x d : β) : (l ++ [x]).getD l.length d = x := by
  simp [List.getD_eq_getElem?_getD]

theorem getD_snoc_or {β : Type} (l : List β) (x d : β) (i : Nat) :
    (l ++ [x]).getD i d = if i = l.length then x else l.getD i d := by
  by_cases h : i < l.length
  · rw [getD_append _ _ _ _ h, if_neg (by omega)]
  · by_cases h2 : i = l.length
    · subst h2; rw [getD_snoc, if_pos rfl]
    · rw [if_neg h2]
      simp [List.getD_eq_getElem?_getD, List.getElem?_eq_none (by simp; omega : (l ++ [x]).length ≤ i),
        List.getElem?_eq_none (by omega : l.length ≤ i)]

theorem getD_set {β : Type} (l : List β) (x d : β) (i j : Nat) :
    (l.set i x).getD j d = if j = i ∧ i < l.length then x else l.getD j d := by
  simp only [List.getD_eq_getElem?_getD, List.getElem?_set]
  by_cases h : i = j
  · subst h
    by_cases hl : i < l.length
    · simp [hl]
    · simp [hl]
  · simp [h, Ne.symm h]

/-! ## Primitive heap changes -/

/-- Allocate a map and a `Translations` value with it. -/
def World.alloc (w : World α) (m : GMap Nat) (locale domain src : Str) : World α :=
  { w with
    maps := w.maps ++ [m]
    tss := w.tss ++ [{ locale := locale, domain := domain, domains := w.maps.length, src := src }] }

/-- The copying loop of `clone`. -/
def copyMap (a m : GMap Nat) : GMap Nat := m.foldl (fun a p => a.set p.1 p.2) a

theorem clone_eq (w : World α) (i : Nat) : w.clone i =
    (w.alloc (copyMap [] (w.doms i)) (w.ts i).locale (w.ts i).domain (w.ts i).src,
     w.tss.length) := rfl

theorem newTranslations_eq (w : World α) (dflt : Str) : w.newTranslations dflt =
    (w.alloc [] dflt defaultDomain defaultSrc, w.tss.length) := rfl

theorem ts_alloc (w : World α) (m : GMap Nat) (lo d s : Str) (i : Nat) : (w.alloc m lo d s).ts i =
    if i = w.tss.length then { locale := lo, domain := d, domains := w.maps.length, src := s } else w.ts i :=
  getD_snoc_or _ _ _ _

theorem mapAt_alloc (w : World α) (m : GMap Nat) (lo d s : Str) (r : Nat) : (w.alloc m lo d s).mapAt r =
    if r = w.maps.length then m else w.mapAt r := getD_snoc_or _ _ _ _

theorem wf_alloc (w : World α) (h : WF w) (m : GMap Nat) (lo d s : Str) (hk : m.keys.Nodup)
    (hp : ∀ d p, m.get? d = some p → p < w.trs.length) : WF (w.alloc m lo d s) := by
  have hl : (w.alloc m lo d s).tss.length = w.tss.length + 1 := by simp [World.alloc]
  have hm : (w.alloc m lo d s).maps.length = w.maps.length + 1 := by simp [World.alloc]
  constructor
  · intro i hi
    rw [ts_alloc, hm]
    split
    · simp
    · have := h.mapLt i (by omega); omega
  · intro i j hi hj heq
    rw [ts_alloc, ts_alloc] at heq
    rw [hl] at hi hj
    split at heq <;> split at heq
    · omega
    · have := h.mapLt j (by omega); simp at heq; omega
    · have := h.mapLt i (by omega); simp at heq; omega
    · exact h.mapInj i j (by omega) (by omega) heq
  · intro r
    rw [mapAt_alloc]
    split
    · exact hk
    · exact h.keys r
  · intro r d p hg
    rw [mapAt_alloc] at hg
    split at hg
    · exact hp d p hg
    · exact h.ptr r d p hg
  · exact h.noop
  · have := h.glob
    have e : (w.alloc m lo d s).glob = w.glob := rfl
    rw [e, hl]; omega
  · exact h.langs

theorem view_alloc_old (w : World α) (h : WF w) (m : GMap Nat) (lo d s : Str) (j : Nat) (hj : j < w.tss.length) :
    (w.alloc m lo d s).view j = w.view j := by
  have hts : (w.alloc m lo d s).ts j = w.ts j := by rw [ts_alloc, if_neg (by omega)]
  have hm : (w.alloc m lo d s).mapAt (w.ts j).domains = w.mapAt (w.ts j).domains := by
    rw [mapAt_alloc, if_neg (by have := h.mapLt j hj; omega)]
  apply View.ext'
  · simp only [World.view, World.locale, hts]
  · simp only [World.view, World.domain, hts]
  · simp only [World.view, World.sourceCodeLocale, hts]
  · intro d'; simp only [World.view, World.get, World.doms, hts, hm]

theorem view_alloc_new (w : World α) (m : GMap Nat) (lo d s : Str) :
    (w.alloc m lo d s).view w.tss.length = { locale := lo, domain := d, src := s, doms := fun d => m.get? d } := by
  have hts : (w.alloc m lo d s).ts w.tss.length = { locale := lo, domain := d, domains := w.maps.length, src := s } := by
    rw [ts_alloc, if_pos rfl]
  have hm : (w.alloc m lo d s).mapAt w.maps.length = m := by
    rw [mapAt_alloc, if_pos rfl]
  apply View.ext'
  · simp only [World.view, World.locale, hts]
  · simp only [World.view, World.domain, hts]
  · simp only [World.view, World.sourceCodeLocale, hts]
  · intro d'; simp only [World.view, World.get, World.doms, hts, hm]

theorem copy_get (m : GMap Nat) (h : m.keys.Nodup) (d : Str) :
    (copyMap [] m).get? d = m.get? d := by
  suffices ∀ a : GMap Nat, (copyMap a m).get? d = (m.get? d).or (a.get? d) by
    rw [this]; cases m.get? d <;> rfl
  induction m with
  | nil => intro a; rfl
  | cons p m ih =>
    intro a
    obtain ⟨k, v⟩ := p
    simp only [GMap.keys, List.map_cons, List.nodup_cons] at h
    rw [show copyMap a ((k, v) :: m) = copyMap (a.set k v) m from rfl, ih h.2, GMap.get?_set]
    by_cases hk : k = d
    · subst hk
      have : GMap.get? m k = none := (GMap.get?_eq_none m k).mpr h.1
      simp [GMap.get?, this]
    · simp [GMap.get?, hk, Ne.symm hk]

theorem copy_nodup (m : GMap Nat) : (copyMap [] m).keys.Nodup := by
  suffices ∀ a : GMap Nat, a.keys.Nodup → (copyMap a m).keys.Nodup from
    this [] (by simp [GMap.keys])
  induction m with
  | nil => intro a ha; exact ha
  | cons p m ih => intro a ha; exact ih _ (GMap.nodup_set _ _ _ ha)

theorem wf_clone (w : World α) (h : WF w) (i : Nat) : WF (w.clone i).1 := by
  rw [clone_eq]
  refine wf_alloc w h _ _ _ _ (copy_nodup _) ?_
  intro d p hg
  rw [copy_get (w.doms i) (h.keys _)] at hg
  exact h.ptr _ _ _ hg

theorem view_clone_old (w : World α) (h : WF w) (i j : Nat) (hj : j < w.tss.length) :
    (w.clone i).1.view j = w.view j := by
  rw [clone_eq]; exact view_alloc_old w h _ _ _ _ j hj

theorem view_clone_new (w : World α) (h : WF w) (i : Nat) : (w.clone i).1.view (w.clone i).2 = w.view i := by
  rw [clone_eq]
  dsimp only
  rw [view_alloc_new]
  apply View.ext'
  · rfl
  · rfl
  · rfl
  · intro d; exact copy_get (w.doms i) (h.keys _) d

theorem clone_length (w : World α) (i : Nat) : (w.clone i).1.tss.length = w.tss.length + 1 := by
  simp [World.clone]

/-! ### Field assignment -/

theorem ts_setTs (w : World α) (i : Nat) (t : Translations) (j : Nat) : (w.setTs i t).ts j =
    if j = i ∧ i < w.tss.length then t else w.ts j := getD_set _ _ _ _ _

theorem wf_setTs (w : World α) (h : WF w) (i : Nat) (t : Translations) (ht : t.domains = (w.ts i).domains) :
    WF (w.setTs i t) := by
  have hd : ∀ j, ((w.setTs i t).ts j).domains = (w.ts j).domains := by
    intro j
    rw [ts_setTs]
    split
    · rename_i hc; rw [hc.1]; exact ht
    · rfl
  have hl : (w.setTs i t).tss.length = w.tss.length := by simp [World.setTs]
  constructor
  · intro j hj; rw [hd]; exact h.mapLt j (by omega)
  · intro j k hj hk heq; rw [hd, hd] at heq; exact h.mapInj j k (by omega) (by omega) heq
  · exact h.keys
  · exact h.ptr
  · exact h.noop
  · rw [hl]; exact h.glob
  · exact h.langs

theorem view_setTs_other (w : World α) (i : Nat) (t : Translations) (j : Nat) (hj : j ≠ i) :
    (w.setTs i t).view j = w.view j := by
  have hts : (w.setTs i t).ts j = w.ts j := by rw [ts_setTs, if_neg (by simp [hj])]
  apply View.ext'
  · simp only [World.view, World.locale, hts]
  · simp only [World.view, World.domain, hts]
  · simp only [World.view, World.sourceCodeLocale, hts]
  · intro d'
    simp only [World.view, World.get, World.doms, hts]
    rfl

theorem view_setTs_self (w : World α) (i : Nat) (t : Translations) (hi : i < w.tss.length)
    (ht : t.domains = (w.ts i).domains) :
    (w.setTs i t).view i = { locale := t.locale, domain := t.domain, src := t.src, doms := w.get i } := by
  have hts : (w.setTs i t).ts i = t := by rw [ts_setTs, if_pos ⟨rfl, hi⟩]
  apply View.ext'
  · simp only [World.view, World.locale, hts]
  · simp only [World.view, World.domain, hts]
  · simp only [World.view, World.sourceCodeLocale, hts]
  · intro d'
    simp only [World.view, World.get, World.doms, hts, ht]
    rfl

/-! ### Changing a map in place -/

theorem mapAt_setDoms (w : World α) (h : WF w) (i : Nat) (hi : i < w.tss.length) (m : GMap Nat) (r : Nat) :
    (w.setDoms i m).mapAt r = if r = (w.ts i).domains then m else w.mapAt r := by
  have := getD_set w.maps m [] (w.ts i).domains r
  have hlt := h.mapLt i hi
  simp only [hlt, and_true] at this
  exact this

theorem wf_setDoms (w : World α) (h : WF w) (i : Nat) (hi : i < w.tss.length) (m : GMap Nat) (hk : m.keys.Nodup)
    (hp : ∀ d p, m.get? d = some p → p < w.trs.length) : WF (w.setDoms i m) := by
  have hl : (w.setDoms i m).maps.length = w.maps.length := by simp [World.setDoms]
  constructor
  · intro j hj; rw [hl]; exact h.mapLt j hj
  · exact h.mapInj
  · intro r
    rw [mapAt_setDoms w h i hi]
    split
    · exact hk
    · exact h.keys r
  · intro r d p hg
    rw [mapAt_setDoms w h i hi] at hg
    split at hg
    · exact hp d p hg
    · exact h.ptr r d p hg
  · exact h.noop
  · exact h.glob
  · exact h.langs

theorem view_setDoms_other (w : World α) (h : WF w) (i : Nat) (hi : i < w.tss.length) (m : GMap Nat) (j : Nat)
    (hj : j < w.tss.length) (hne : j ≠ i) : (w.setDoms i m).view j = w.view j := by
  have hts : (w.setDoms i m).ts j = w.ts j := rfl
  have hm : (w.setDoms i m).mapAt (w.ts j).domains = w.mapAt (w.ts j).domains := by
    rw [mapAt_setDoms w h i hi, if_neg]
    intro heq
    exact hne (h.mapInj j i hj hi heq)
  apply View.ext'
  · rfl
  · rfl
  · rfl
  · intro d'
    simp only [World.view, World.get, World.doms, hts, hm]

theorem view_setDoms_self (w : World α) (h : WF w) (i : Nat) (hi : i < w.tss.length) (m : GMap Nat) :
    (w.setDoms i m).view i = { w.view i with doms := fun d => m.get? d } := by
  have hts : (w.setDoms i m).ts i = w.ts i := rfl
  have hm : (w.setDoms i m).mapAt (w.ts i).domains = m := by
    rw [mapAt_setDoms w h i hi, if_pos rfl]
  apply View.ext'
  · rfl
  · rfl
  · rfl
  · intro d'
    simp only [World.view, World.get, World.doms, hts, hm]

theorem erase_get (m : GMap Nat) (h : m.keys.Nodup) (k d : Str) :
    (m.erase k).get? d = if d = k then none else m.get? d := by
  induction m with
  | nil => simp [GMap.erase, GMap.get?]
  | cons p m ih =>
    obtain ⟨k', v⟩ := p
    simp only [GMap.keys, List.map_cons, List.nodup_cons] at h
    have ih := ih h.2
    by_cases h1 : k' = k
    · subst h1
      by_cases h2 : d = k'
      · subst h2; simpa [GMap.erase] using ih
      · simpa [GMap.erase, GMap.get?, h2, Ne.symm h2] using ih
    · by_cases h2 : k' = d
      · subst h2; simp [GMap.erase, GMap.get?, h1]
      · simp [GMap.erase, GMap.get?, h1, h2, ih]

theorem erase_keys_subset (m : GMap Nat) (k : Str) : ∀ d ∈ (m.erase k).keys, d ∈ m.keys := by
  induction m with
  | nil => simp [GMap.erase]
  | cons p m ih =>
    obtain ⟨k', v⟩ := p
    intro d hd
    by_cases h1 : k' = k
    · simp only [GMap.erase, h1, if_true] at hd
      simp only [GMap.keys, List.map_cons, List.mem_cons]
      exact .inr (ih d hd)
    · simp only [GMap.erase, h1, if_false, GMap.keys, List.map_cons, List.mem_cons] at hd ⊢
      rcases hd with hd | hd
      · exact .inl hd
      · exact .inr (ih d hd)

theorem erase_nodup (m : GMap Nat) (h : m.keys.Nodup) (k : Str) : (m.erase k).keys.Nodup := by
  induction m with
  | nil => exact h
  | cons p m ih =>
    obtain ⟨k', v⟩ := p
    simp only [GMap.keys, List.map_cons, List.nodup_cons] at h
    by_cases h1 : k' = k
    · simp only [GMap.erase, h1, if_true]; exact ih h.2
    · simp only [GMap.erase, h1, if_false, GMap.keys, List.map_cons, List.nodup_cons]
      exact ⟨fun hc => h.1 (erase_keys_subset m k k' hc), ih h.2⟩

/-! ### A new map -/

theorem ts_clear (w : World α) (i : Nat) (j : Nat) : (w.clearDomains i).ts j =
    if j = i ∧ i < w.tss.length then { w.ts i with domains := w.maps.length, domain := defaultDomain } else w.ts j := by
  have : (w.clearDomains i) =
      ({ w with maps := w.maps ++ [[]] } : World α).setTs i { w.ts i with domains := w.maps.length, domain := defaultDomain } := by
    simp [World.clearDomains, World.ts]
  rw [this, ts_setTs]
  rfl

theorem mapAt_clear (w : World α) (i : Nat) (r : Nat) : (w.clearDomains i).mapAt r =
    if r = w.maps.length then [] else w.mapAt r := getD_snoc_or _ _ _ _

theorem wf_clear (w : World α) (h : WF w) (i : Nat) : WF (w.clearDomains i) := by
  have hl : (w.clearDomains i).tss.length = w.tss.length := by simp [World.clearDomains, World.setTs]
  have hm : (w.clearDomains i).maps.length = w.maps.length + 1 := by simp [World.clearDomains, World.setTs]
  constructor
  · intro j hj
    rw [ts_clear, hm]
    split
    · simp
    · have := h.mapLt j (by omega); omega
  · intro j k hj hk heq
    rw [hl] at hj hk
    rw [ts_clear, ts_clear] at heq
    split at heq <;> split at heq
    · omega
    · have := h.mapLt k hk; simp at heq; omega
    · have := h.mapLt j hj; simp at heq; omega
    · exact h.mapInj j k hj hk heq
  · intro r
    rw [mapAt_clear]
    split
    · simp [GMap.keys]
    · exact h.keys r
  · intro r d p hg
    rw [mapAt_clear] at hg
    split at hg
    · simp [GMap.get?] at hg
    · exact h.ptr r d p hg
  · exact h.noop
  · rw [hl]; exact h.glob
  · exact h.langs

theorem view_clear_other (w : World α) (h : WF w) (i j : Nat) (hj : j < w.tss.length) (hne : j ≠ i) :
    (w.clearDomains i).view j = w.view j := by
  have hts : (w.clearDomains i).ts j = w.ts j := by rw [ts_clear, if_neg (by simp [hne])]
  have hm : (w.clearDomains i).mapAt (w.ts j).domains = w.mapAt (w.ts j).domains := by
    rw [mapAt_clear, if_neg (by have := h.mapLt j hj; omega)]
  apply View.ext'
  · simp only [World.view, World.locale, hts]
  · simp only [World.view, World.domain, hts]
  · simp only [World.view, World.sourceCodeLocale, hts]
  · intro d'; simp only [World.view, World.get, World.doms, hts, hm]

theorem view_clear_self (w : World α) (i : Nat) (hi : i < w.tss.length) :
    (w.clearDomains i).view i =
      { locale := w.locale i, domain := defaultDomain, src := w.sourceCodeLocale i, doms := fun _ => none } := by
  have hts : (w.clearDomains i).ts i = { w.ts i with domains := w.maps.length, domain := defaultDomain } := by
    rw [ts_clear, if_pos ⟨rfl, hi⟩]
  have hm : (w.clearDomains i).mapAt w.maps.length = [] := by
    rw [mapAt_clear, if_pos rfl]
  apply View.ext'
  · simp only [World.view, World.locale, hts]
  · simp only [World.view, World.domain, hts]
  · simp only [World.view, World.sourceCodeLocale, hts]
  · intro d'; simp only [World.view, World.get, World.doms, hts, hm]; rfl

/-! ### Translation objects -/

theorem tr_snoc (w : World α) (t : Translation α) (p : Nat) (hp : p < w.trs.length) :
    ({ w with trs := w.trs ++ [t] } : World α).tr p = w.tr p := getD_append _ _ _ _ hp

theorem wf_snoc (w : World α) (h : WF w) (t : Translation α) (ht : t.langs.keys.Nodup) :
    WF { w with trs := w.trs ++ [t] } := by
  refine ⟨h.mapLt, h.mapInj, h.keys, ?_, ?_, h.glob, ?_⟩
  · intro r d p hg
    have := h.ptr r d p hg
    simp; omega
  · simp
  · intro p
    have : ({ w with trs := w.trs ++ [t] } : World α).tr p = if p = w.trs.length then t else w.tr p :=
      getD_snoc_or _ _ _ _
    rw [this]
    split
    · exact ht
    · exact h.langs p

theorem wf_setTr (w : World α) (h : WF w) (q : Nat) (t : Translation α) (ht : t.langs.keys.Nodup) :
    WF { w with trs := w.trs.set q t } := by
  refine ⟨h.mapLt, h.mapInj, h.keys, ?_, ?_, h.glob, ?_⟩
  · intro r d p hg
    have := h.ptr r d p hg
    simp; omega
  · simpa using h.noop
  · intro p
    have : ({ w with trs := w.trs.set q t } : World α).tr p = if p = q ∧ q < w.trs.length then t else w.tr p :=
      getD_set _ _ _ _ _
    rw [this]
    split
    · exact ht
    · exact h.langs p

theorem newTranslation_nodup (c : Cfg α) (d : Str) (tors : List (Tor α)) :
    (newTranslation c d tors).langs.keys.Nodup :=
  addAll_nodup c { domain := d, langs := [] } tors (by simp [GMap.keys])

theorem loadFS_nodup (c : Cfg α) (tr : Translation α) (root : Option Node) (h : tr.langs.keys.Nodup) :
    (tr.loadFS c root).2.langs.keys.Nodup := by
  rw [loadFS_eq]; exact addAll_nodup _ _ _ h

end Verif.W
