import Verif.Spec.Locale
import Verif.Props.C45_C49
import Verif.Props.WorldExamples
/-!
# C83: names of languages; C84: the languages that can be used
-/
namespace Verif.W
open Verif Verif.Locale
variable {α : Type}

/-- The normal form of a name. -/
theorem C83_form (E : Fmt.Env Str) (hE : Prints E) (p : Pkg) (lang : Str) :
    normalize E p lang = p.base (p.make lang) ++ b!"_" ++ p.region (p.make lang) ∧
    getDefault E p = p.base p.detected ++ b!"_" ++ p.region p.detected := by
  have h : ∀ t, normalizeTag E p t = p.base t ++ b!"_" ++ p.region t := by
    intro t
    have : normalizeTag E p t = E.render {} b!"v" (p.base t) ++ b!"_" ++ E.render {} b!"v" (p.region t) := by
      generalize hb : p.base t = x
      generalize hr : p.region t = y
      simp only [normalizeTag, hb, hr]
      have hpieces : Fmt.pieces E b!"%v_%v" [x, y] = ([.arg {} b!"v" x, .lit 95, .arg {} b!"v" y],
          { argNum := 2, reordered := false, good := true, after := false, inRange := true }) := by
        rfl
      simp [Fmt.sprintf, hpieces, Fmt.Piece.text]
    rw [this, hE, hE]
  exact ⟨h _, h _⟩

/-- Two names are the same to the package iff they are of the same language in the same region: scripts,
variants and extensions do not count. -/
theorem C83_same (E : Fmt.Env Str) (hE : Prints E) (p : Pkg) (hp : Letters p) (a b : Str) :
    normalize E p a = normalize E p b ↔ SameLanguage p a b := by
  rw [(C83_form E hE p a).1, (C83_form E hE p b).1]
  constructor
  · intro h
    have key : ∀ (x y x' y' : Str), 95 ∉ x → 95 ∉ x' → x ++ b!"_" ++ y = x' ++ b!"_" ++ y' → x = x' ∧ y = y' := by
      intro x
      induction x with
      | nil =>
        intro y x' y' _ h2 h
        cases x' with
        | nil => simpa using h
        | cons c x' =>
          simp only [List.nil_append, List.cons_append, List.cons.injEq] at h
          exact absurd (by rw [← h.1]; simp) h2
      | cons c x ih =>
        intro y x' y' h1 h2 h
        cases x' with
        | nil =>
          simp only [List.nil_append, List.cons_append, List.cons.injEq] at h
          exact absurd (by rw [h.1]; simp) h1
        | cons c' x' =>
          simp only [List.cons_append, List.cons.injEq] at h
          obtain ⟨h3, h4⟩ := ih y x' y' (fun m => h1 (List.mem_cons_of_mem _ m)) (fun m => h2 (List.mem_cons_of_mem _ m)) h.2
          exact ⟨by rw [h.1, h3], h4⟩
    exact key _ _ _ _ (hp _) (hp _) h
  · rintro ⟨h1, h2⟩
    rw [h1, h2]

/-- Normal names stay as they are; that of the system is one. -/
theorem C83_idempotent (E : Fmt.Env Str) (hE : Prints E) (p : Pkg) (hp : Faithful p) :
    (∀ s, normalize E p (normalize E p s) = normalize E p s) ∧ normalize E p (getDefault E p) = getDefault E p ∧
    (∀ s, normalize E p s ≠ []) ∧ getDefault E p ≠ [] := by
  have h : ∀ t, normalize E p (p.base t ++ b!"_" ++ p.region t) = p.base t ++ b!"_" ++ p.region t := by
    intro t
    rw [(C83_form E hE p _).1, (hp t).1, (hp t).2]
  refine ⟨fun s => ?_, ?_, fun s => ?_, ?_⟩
  · rw [(C83_form E hE p s).1]; exact h _
  · rw [(C83_form E hE p []).2]; exact h _
  · rw [(C83_form E hE p s).1]; simp
  · rw [(C83_form E hE p []).2]; simp

/-- Choosing again what `Locale` returns changes nothing. -/
theorem C83_settled (E : Fmt.Env Str) (hE : Prints E) (p : Pkg) (hp : Faithful p) (c : Cfg α) (hc : c.norm = normalize E p)
    (w : World α) (i : Nat) (hi : i < w.tss.length) (lang : Str) :
    let w1 := w.setLocale c i lang (getDefault E p)
    w1.setLocale c i (w1.locale i) (getDefault E p) = w1 := by
  obtain ⟨h1, h2, h3, h4⟩ := C83_idempotent E hE p hp
  have key : ∀ s, s ≠ [] → c.norm s = s → ∀ d,
      (w.setTs i { w.ts i with locale := s }).setLocale c i s d = w.setTs i { w.ts i with locale := s } := by
    intro s hs hn d
    have e : (w.setTs i { w.ts i with locale := s }).ts i = { w.ts i with locale := s } := by
      rw [ts_setTs, if_pos ⟨rfl, hi⟩]
    simp only [World.setLocale, if_neg hs, hn, e]
    simp [World.setTs]
  have hl : (w.setLocale c i lang (getDefault E p)).locale i = if lang = [] then getDefault E p else c.norm lang := by
    simp only [World.locale, World.setLocale]
    rw [ts_setTs, if_pos ⟨rfl, hi⟩]
  simp only [hl]
  by_cases h : lang = []
  · simp only [h, if_true, World.setLocale]
    exact key _ h4 (by rw [hc]; exact h2) _
  · simp only [h, if_false]
    have := key (c.norm lang) (by rw [hc]; exact h3 _) (by rw [hc]; exact h1 _) (getDefault E p)
    simp only [World.setLocale, h, if_false] at this ⊢
    exact this

/-- A translator is replaced by one for the same language and region, also if it is for another script. -/
theorem C83_scripts (E : Fmt.Env Str) (hE : Prints E) (p : Pkg) (c : Cfg α) (hc : c.norm = normalize E p) (tr : Translation α)
    (a b : Tor α) (ha : a.lang ≠ []) (hb : b.lang ≠ []) (h : SameLanguage p a.lang b.lang) (lang : Str) :
    (((tr.addOrReplace c a).2.addOrReplace c b).2).get lang = if lang = c.norm b.lang then some b else tr.get lang := by
  have hn : c.norm a.lang = c.norm b.lang := by
    rw [hc, (C83_form E hE p _).1, (C83_form E hE p _).1, h.1, h.2]
  unfold Translation.get
  rw [addOrReplace_get, addOrReplace_get, hn]
  simp only [ne_eq, ha, hb, not_false_eq_true, true_and]
  by_cases hl : lang = c.norm b.lang
  · simp [hl]
  · simp [hl, Ne.symm hl]

/-! ## C84 -/

/-- A `Translations` value has a domain that is loaded, or nothing was added to what stands for unknown
domains. -/
def Usual (w : World α) (i : Nat) : Prop := (∃ p, w.get i (w.domain i) = some p) ∨ (w.tr 0).langs = []

/-- The locale that is used after `SetLocale`: the chosen one if `Locales` lists it, otherwise the language
of the source code. -/
theorem C84_used (c : Cfg α) (hn : ∀ s, c.norm (c.norm s) = c.norm s) (w : World α) (hw : Reach c w) (i : Nat)
    (hi : i < w.tss.length) (hu : Usual w i) (ls : List Str) (hl : w.Locales c i ls) (lang dflt : Str) :
    let chosen := if lang = [] then dflt else c.norm lang
    (w.setLocale c i lang dflt).usedLocale i = if chosen ∈ ls then chosen else w.sourceCodeLocale i := by
  intro chosen
  have hv := view_setLocale_self c w i hi lang dflt
  have hloc : ((w.setLocale c i lang dflt).ts i).locale = chosen := congrArg View.locale hv
  have hdom : ((w.setLocale c i lang dflt).ts i).domain = w.domain i := congrArg View.domain hv
  have hsrc : ((w.setLocale c i lang dflt).ts i).src = w.sourceCodeLocale i := congrArg View.src hv
  have hget : ∀ d, (w.setLocale c i lang dflt).get i d = w.get i d := fun d => congrFun (congrArg View.doms hv) d
  have htr : ∀ p, (w.setLocale c i lang dflt).tr p = w.tr p := fun _ => rfl
  have hm := C44_idempotent c w hw hn i ls hl chosen
  unfold World.usedLocale
  simp only [hget, hdom, hloc, hsrc, htr]
  cases hg : w.get i (w.domain i) with
  | none =>
    simp only []
    by_cases hc : chosen ∈ ls
    · simp only [hc, if_true]
      rcases hm.mp hc with h | ⟨k, t, ht, _⟩
      · exact h.symm
      · have h0 : w.getOrNoop i (w.domain i) = 0 := by
          unfold World.getOrNoop
          rw [show (w.doms i).get? (w.domain i) = none from hg]
        rcases hu with ⟨p, hp⟩ | hz
        · rw [hp] at hg; exact absurd hg (by simp)
        · rw [h0] at ht
          unfold Translation.get at ht
          rw [hz] at ht
          simp [GMap.get?] at ht
    · simp only [hc, if_false]
  | some p =>
    have h0 : w.getOrNoop i (w.domain i) = p := by
      unfold World.getOrNoop
      rw [show (w.doms i).get? (w.domain i) = some p from hg]
    rw [h0] at hm
    simp only []
    cases ht : (w.tr p).get chosen with
    | none =>
      simp only []
      by_cases hc : chosen ∈ ls
      · simp only [hc, if_true]
        rcases hm.mp hc with h | ⟨k, t, hk, hl⟩
        · exact h.symm
        · have := (filed_reach c w hw p k t hk).2
          rw [hl] at this
          rw [this, hk] at ht
          exact absurd ht (by simp)
      · simp only [hc, if_false]
    | some t =>
      have := (filed_reach c w hw p chosen t ht).2
      simp only [hm.mpr (.inr ⟨chosen, t, ht, this⟩), if_true]

/-- The locale every `Translations` value has for the source code is a normal name. -/
theorem src_normal (c : Cfg α) (hn : ∀ s, c.norm (c.norm s) = c.norm s) (he : c.norm b!"en_US" = b!"en_US") (w : World α)
    (hw : Reach c w) : ∀ t ∈ w.tss, c.norm t.src = t.src := by
  have get : ∀ {w : World α}, (∀ t ∈ w.tss, c.norm t.src = t.src) → ∀ {i}, i < w.tss.length → c.norm (w.ts i).src = (w.ts i).src := by
    intro w h i hi
    unfold World.ts
    rw [List.getD_eq_getElem?_getD, List.getElem?_eq_getElem hi]
    exact h _ (List.getElem_mem hi)
  have snoc : ∀ {l : List Translations} {t}, (∀ t ∈ l, c.norm t.src = t.src) → c.norm t.src = t.src →
      ∀ u ∈ l ++ [t], c.norm u.src = u.src := by
    intro l t h ht u hu
    rcases List.mem_append.mp hu with hu | hu
    · exact h u hu
    · rw [List.mem_singleton.mp hu]; exact ht
  have set : ∀ {w : World α} {i t}, (∀ t ∈ w.tss, c.norm t.src = t.src) → c.norm t.src = t.src →
      ∀ u ∈ (w.setTs i t).tss, c.norm u.src = u.src := by
    intro w i t h ht u hu
    rcases List.mem_or_eq_of_mem_set hu with hu | hu
    · exact h u hu
    · rw [hu]; exact ht
  have clone : ∀ {w : World α} {i}, (∀ t ∈ w.tss, c.norm t.src = t.src) → i < w.tss.length →
      (∀ t ∈ (w.clone i).1.tss, c.norm t.src = t.src) ∧ (w.clone i).2 < (w.clone i).1.tss.length := by
    intro w i h hi
    exact ⟨snoc h (get h hi), by simp [World.clone]⟩
  have d : ∀ {w : World α} {i x}, (∀ t ∈ w.tss, c.norm t.src = t.src) → i < w.tss.length →
      (∀ t ∈ (w.d i x).1.tss, c.norm t.src = t.src) ∧ (w.d i x).2 < (w.d i x).1.tss.length := by
    intro w i x h hi
    obtain ⟨h1, h2⟩ := clone h hi
    exact ⟨set h1 (get h1 h2), by simp [World.d, World.clone, World.setDomain, World.setTs]⟩
  have l : ∀ {w : World α} {i x y}, (∀ t ∈ w.tss, c.norm t.src = t.src) → i < w.tss.length →
      (∀ t ∈ (w.l c i x y).1.tss, c.norm t.src = t.src) ∧ (w.l c i x y).2 < (w.l c i x y).1.tss.length := by
    intro w i x y h hi
    obtain ⟨h1, h2⟩ := clone h hi
    exact ⟨set h1 (get h1 h2), by simp [World.l, World.clone, World.setLocale, World.setTs]⟩
  induction hw with
  | init dflt =>
    intro t ht
    simp only [World.init, World.newTranslations, List.nil_append, List.mem_singleton] at ht
    rw [ht]; exact he
  | step w o hr hv ih =>
    cases o with
    | newTranslations dflt => exact snoc ih he
    | newTranslation domain tors => exact ih
    | global => exact (clone ih (reach_wf c w hr).glob).1
    | d i x => exact (d ih hv).1
    | l i x y => exact (l ih hv).1
    | setGlobal i => exact ih
    | setDomain i x => exact set ih (get ih hv)
    | setLocale i x y => exact set ih (get ih hv)
    | setSourceCodeLocale i x => exact set ih (hn x)
    | clearDomains i => exact set (w := { w with maps := w.maps ++ [[]] }) ih (get ih hv)
    | addOrReplace p t => exact ih
    | loadFS p t => exact ih
    | bindFS i x f =>
      simp only [Op.exec, World.bindFS]
      split
      · exact ih
      · exact ih
    | removeDomain i x =>
      simp only [Op.exec, World.removeDomain]
      split
      · exact ih
      · split
        · exact ih
        · simp only []
          split
          · exact set (w := w.setDoms i _) ih (get (w := w.setDoms i _) ih hv)
          · exact ih
    | withContext ctx y =>
      obtain ⟨h1, h2⟩ := clone ih (reach_wf c w hr).glob
      simp only [Op.exec, World.withContext, World.global]
      cases ctx.getLocale with
      | none =>
        cases ctx.getDomain with
        | none => exact h1
        | some x => exact (d h1 h2).1
      | some lang =>
        obtain ⟨h3, h4⟩ := l (x := lang) (y := y) h1 h2
        cases ctx.getDomain with
        | none => exact h3
        | some x => exact (d h3 h4).1

/-- All that `Locales` lists can be chosen: after `SetLocale` with one of them, that is the locale that is
used. -/
theorem C84_choice (c : Cfg α) (hn : ∀ s, c.norm (c.norm s) = c.norm s) (h0 : c.norm [] ≠ [])
    (he : c.norm b!"en_US" = b!"en_US") (w : World α) (hw : Reach c w) (i : Nat) (hi : i < w.tss.length) (hu : Usual w i)
    (ls : List Str) (hl : w.Locales c i ls) (s : Str) (hs : s ∈ ls) (dflt : Str) :
    (w.setLocale c i s dflt).usedLocale i = s := by
  have hns : c.norm s = s := by
    rcases (C44_idempotent c w hw hn i ls hl s).mp hs with h | ⟨k, t, _, h⟩
    · rw [h]
      refine src_normal c hn he w hw _ ?_
      unfold World.ts
      rw [List.getD_eq_getElem?_getD, List.getElem?_eq_getElem hi]
      exact List.getElem_mem hi
    · rw [← h]; exact hn _
  have hne : s ≠ [] := by
    rintro rfl
    exact h0 hns
  have := C84_used c hn w hw i hi hu ls hl s dflt
  simpa only [hne, if_false, hns, hs, if_true] using this

/-- So with what `GetUserLang` finds for a request without the cookie, and with what `MostMatchLocale`
finds. -/
theorem C84_request (g : Lang) (hg : g.InRange) (c : Cfg α) (hn : ∀ s, c.norm (c.norm s) = c.norm s) (h0 : c.norm [] ≠ [])
    (he : c.norm b!"en_US" = b!"en_US") (w : World α) (hw : Reach c w) (hu : Usual w w.glob) (dflt s : Str) :
    (∀ req opts, req.cookie (cookieName opts) = none → w.GetUserLang g c req opts (.ok s) →
      (w.setLocale c w.glob s dflt).usedLocale w.glob = s) ∧
    (∀ i, w.MostMatchLocale g c i (.ok s) → (w.setLocale c w.glob s dflt).usedLocale w.glob = s) := by
  have hgl := (reach_wf c w hw).glob
  constructor
  · intro req opts hc hr
    obtain ⟨ls, hl, _, s', hs, e⟩ := (C48_user_lang g c w hg req opts _ hr).2 hc
    simp only [Res.ok.injEq] at e
    subst e
    exact C84_choice c hn h0 he w hw _ hgl hu ls hl s hs dflt
  · intro i hr
    obtain ⟨ls, hl, s', hm, e⟩ := C47_global g c w hg _ hr
    simp only [Res.ok.injEq] at e
    subst e
    exact C84_choice c hn h0 he w hw _ hgl hu ls hl s (List.mem_of_getElem? hm) dflt

/-! ## Concrete cases -/

/-- A package of languages: the base language is what stands before the first `-` or `_`, the region what
stands behind the last one. -/
def exPkg : Pkg where
  Tag := Str
  make s := s
  base s := s.takeWhile fun b => b ≠ 45 ∧ b ≠ 95
  region s := (s.reverse.takeWhile fun b => b ≠ 45 ∧ b ≠ 95).reverse
  detected := b!"de_AT"

theorem mem_upTo (l : Str) (b : UInt8) (h : b ∈ l.takeWhile fun b => b ≠ 45 ∧ b ≠ 95) : b ≠ 45 ∧ b ≠ 95 := by
  induction l with
  | nil => simp at h
  | cons a l ih =>
    rw [List.takeWhile_cons] at h
    split at h
    · rename_i ha
      rcases List.mem_cons.mp h with rfl | h
      · simpa using ha
      · exact ih h
    · simp at h

theorem exPkg_letters : Letters exPkg := fun t h => (mem_upTo t 95 h).2 rfl

theorem exPkg_prints : Prints Fmt.exEnv := fun _ => rfl

theorem exPkg_faithful : Faithful exPkg := by
  intro t
  constructor
  · simp only [exPkg]
    rw [List.append_assoc, List.takeWhile_append_of_pos (fun b h => decide_eq_true (mem_upTo t b h))]
    simp
  · simp only [exPkg]
    rw [List.reverse_append, List.reverse_append, List.reverse_reverse,
      List.takeWhile_append_of_pos (fun b h => decide_eq_true (mem_upTo t.reverse b h))]
    simp

/-- Scripts are not told apart, regions are. -/
example : normalize Fmt.exEnv exPkg b!"sr-Latn-RS" = b!"sr_RS" ∧ normalize Fmt.exEnv exPkg b!"sr-Cyrl-RS" = b!"sr_RS" ∧
    normalize Fmt.exEnv exPkg b!"sr_ME" = b!"sr_ME" ∧ getDefault Fmt.exEnv exPkg = b!"de_AT" ∧
    SameLanguage exPkg b!"sr-Latn-RS" b!"sr-Cyrl-RS" ∧ ¬ SameLanguage exPkg b!"sr-RS" b!"sr-ME" := by
  refine ⟨by decide +kernel, by decide +kernel, by decide +kernel, by decide +kernel, ⟨by decide, by decide⟩, ?_⟩
  rintro ⟨_, h⟩
  revert h
  decide

/-- The packages of this example, as a program uses them. -/
def exCfg2 : Cfg Str where
  fmt := Fmt.exEnv
  diag := fun _ => false
  norm := normalize Fmt.exEnv exPkg

def poLatn : Str := b!"msgid \"\"\nmsgstr \"Language: sr-Latn-RS\\n\"\n\nmsgid \"a\"\nmsgstr \"latin\"\n"
def poCyrl : Str := b!"msgid \"\"\nmsgstr \"Language: sr-Cyrl-RS\\n\"\n\nmsgid \"a\"\nmsgstr \"cyrillic\"\n"

/-- With the translations for both scripts the one of the later file is used for both. -/
def exWorld2 : World Str :=
  (World.init exCfg2 b!"en_US").bindFS exCfg2 0 b!"default"
    (some (.dir b!"." true [file b!"cyrl.po" poCyrl, file b!"latn.po" poLatn]))

theorem exReach2 : Reach exCfg2 exWorld2 := Reach.step _ (.bindFS 0 _ _) (Reach.init _) (by show 0 < 1; decide)

example : (exWorld2.setLocale exCfg2 0 b!"sr-Cyrl-RS" []).x exCfg2 0 [] b!"a" [] = .ok b!"latin" ∧
    (exWorld2.setLocale exCfg2 0 b!"sr-Latn-RS" []).x exCfg2 0 [] b!"a" [] = .ok b!"latin" ∧
    (exWorld2.setLocale exCfg2 0 b!"sr-RS" []).x exCfg2 0 [] b!"a" [] = .ok b!"latin" := by decide +kernel

/-- What `C84_choice` assumes. -/
example : (∀ s, exCfg2.norm (exCfg2.norm s) = exCfg2.norm s) ∧ exCfg2.norm [] ≠ [] ∧ exCfg2.norm b!"en_US" = b!"en_US" ∧
    Usual exWorld2 0 ∧ exWorld2.Locales exCfg2 0 [b!"en_US", b!"sr_RS"] :=
  ⟨(C83_idempotent _ exPkg_prints _ exPkg_faithful).1, by decide +kernel, by decide +kernel,
   .inr (by decide +kernel), [b!"sr_RS"], by decide +kernel, by decide +kernel, by
    simp only [List.pairwise_cons, List.mem_cons, List.not_mem_nil, or_false, forall_eq,
      IsEmpty.forall_iff, implies_true, and_true, List.Pairwise.nil]
    decide⟩

/-- One of the list, and one that is not on it. -/
example : (exWorld2.setLocale exCfg2 0 b!"sr_RS" []).usedLocale 0 = b!"sr_RS" ∧
    (exWorld2.setLocale exCfg2 0 b!"en_US" []).usedLocale 0 = b!"en_US" ∧
    (exWorld2.setLocale exCfg2 0 b!"sr_ME" []).usedLocale 0 = b!"en_US" := by decide +kernel

end Verif.W
