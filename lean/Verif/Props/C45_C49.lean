import Verif.Props.C40_C44
/-! # C45-C49, C52: the package functions, fallbacks, matching, contexts, marks -/
namespace Verif.W
open Verif
variable {α : Type}

/-! ## C45 -/

/-- Each short name is `X` or `XN64` with the empty context and/or the empty plural. -/
theorem C45_short_names (c : Cfg α) (w : World α) (i : Nat) (ctxt id id2 : Str) (n : Int64) (args : List α) :
    w.t c i id args = w.x c i [] id args ∧
    w.n c i id id2 n args = w.xn64 c i [] id id2 n args ∧
    w.n64 c i id id2 n args = w.xn64 c i [] id id2 n args ∧
    w.n1 c i id n args = w.xn64 c i [] id [] n args ∧
    w.n1_64 c i id n args = w.xn64 c i [] id [] n args ∧
    w.xn c i ctxt id id2 n args = w.xn64 c i ctxt id id2 n args ∧
    w.xn1 c i ctxt id n args = w.xn64 c i ctxt id [] n args ∧
    w.xn1_64 c i ctxt id n args = w.xn64 c i ctxt id [] n args :=
  ⟨rfl, rfl, rfl, rfl, rfl, rfl, rfl, rfl⟩

/-- The package functions are the methods of the global value. -/
theorem C45_package (c : Cfg α) (w : World α) (ctxt id id2 : Str) (n : Int64) (args : List α) :
    w.gT c id args = w.t c w.glob id args ∧
    w.gN c id id2 n args = w.n c w.glob id id2 n args ∧
    w.gN64 c id id2 n args = w.n64 c w.glob id id2 n args ∧
    w.gN1 c id n args = w.n1 c w.glob id n args ∧
    w.gN1_64 c id n args = w.n1_64 c w.glob id n args ∧
    w.gX c ctxt id args = w.x c w.glob ctxt id args ∧
    w.gXN c ctxt id id2 n args = w.xn c w.glob ctxt id id2 n args ∧
    w.gXN64 c ctxt id id2 n args = w.xn64 c w.glob ctxt id id2 n args ∧
    w.gXN1 c ctxt id n args = w.xn1 c w.glob ctxt id n args ∧
    w.gXN1_64 c ctxt id n args = w.xn1_64 c w.glob ctxt id n args :=
  ⟨rfl, rfl, rfl, rfl, rfl, rfl, rfl, rfl, rfl, rfl⟩

/-! ## C46 -/

theorem noop_run (c : Cfg α) (w w' : World α) (h : Reach c w) (ops : List (Op α)) (r : Run c w ops w')
    (hc : ∀ o ∈ ops, o.changes ≠ some 0) : w'.tr 0 = w.tr 0 := by
  induction r with
  | nil w => rfl
  | cons w o os w' hv _ ih =>
    have hw := reach_wf c w h
    rw [ih (Reach.step w o h hv) (fun o ho => hc o (List.mem_cons_of_mem _ ho))]
    exact exec_tr c w hw o 0 hw.noop (hc o List.mem_cons_self)

/-- After any history in which nobody adds translators to the shared object of unknown domains, a
`Translations` value whose current domain is not loaded, or is loaded without its locale, returns the
source text. -/
theorem C46_fallback (c : Cfg α) (dflt : Str) (ops : List (Op α)) (w : World α) (r : Run c (World.init c dflt) ops w)
    (hc : ∀ o ∈ ops, o.changes ≠ some 0) (i : Nat)
    (hu : ∀ p, w.get i (w.domain i) = some p → (w.tr p).get (w.locale i) = none) : SourceText c w i := by
  have h0 := noop_run c _ w (Reach.init dflt) ops r hc
  exact ((C43_used_locale c w i).2 hu).2 (by rw [h0]; rfl)

/-- In a loaded domain without the locale this needs no assumption on the history. -/
theorem C46_unknown_locale (c : Cfg α) (w : World α) (i p : Nat) (hp : w.get i (w.domain i) = some p)
    (hu : (w.tr p).get (w.locale i) = none) : SourceText c w i := by
  refine source_of c w i p ?_ hu
  unfold World.getOrNoop
  rw [show (w.doms i).get? (w.domain i) = some p from hp]

/-! ## C47 -/

/-- The locale at the index the matcher chooses. -/
def Matched (g : Lang) (ls : List Str) (wanted : List g.Tag) (r : Res Str) : Prop :=
  ∃ s, ls[g.index (ls.map g.make) wanted]? = some s ∧ r = .ok s

/-- The full claim: `ts.MostMatchLocale()` is the locale of `ts` that matches `ts.Locale()`. -/
def C47_full (α : Type) : Prop :=
  ∀ (g : Lang) (c : Cfg α) (w : World α), g.InRange → Reach c w → ∀ i < w.tss.length, ∀ r,
    w.MostMatchLocale g c i r → ∃ ls, w.Locales c i ls ∧ Matched g ls [g.make (w.locale i)] r

theorem locales_ne_nil (c : Cfg α) (w : World α) (i : Nat) (ls : List Str) (hl : w.Locales c i ls) : ls ≠ [] := by
  obtain ⟨order, hp, hperm, hs⟩ := hl
  obtain ⟨_, hmem⟩ := collect_spec c order [(w.ts i).src] (by simp)
  rintro rfl
  have : (w.ts i).src ∈ ([] : List Str) := hperm.mem_iff.mpr ((hmem _).mpr (.inl (by simp)))
  simp at this

theorem matched_of (g : Lang) (hg : g.InRange) (ls : List Str) (hne : ls ≠ []) (wanted : List g.Tag) :
    ∃ s, ls[g.index (ls.map g.make) wanted]? = some s := by
  have := hg (ls.map g.make) wanted (by simpa using hne)
  rw [List.length_map] at this
  exact ⟨_, List.getElem?_eq_getElem this⟩

/-- For the global value the claim holds; in particular there is no panic. -/
theorem C47_global (g : Lang) (c : Cfg α) (w : World α) (hg : g.InRange) (r : Res Str)
    (h : w.MostMatchLocale g c w.glob r) :
    ∃ ls, w.Locales c w.glob ls ∧ Matched g ls [g.make (w.locale w.glob)] r := by
  obtain ⟨ls, hl, rfl⟩ := h
  obtain ⟨s, hs⟩ := matched_of g hg ls (locales_ne_nil c w _ ls hl) [g.make w.gLocale]
  refine ⟨ls, hl, s, hs, ?_⟩
  unfold World.mostMatch
  rw [hs]

/-- Whatever the receiver, the answer is the one for the global value. -/
theorem C47_receiver_ignored (g : Lang) (c : Cfg α) (w : World α) (i : Nat) (r : Res Str) :
    w.MostMatchLocale g c i r ↔ w.MostMatchLocale g c w.glob r := Iff.rfl

/-- A matcher that chooses the first supported tag. -/
def firstLang : Lang where
  Tag := Str
  make s := s
  index _ _ := 0
  parseAccept _ := []

/-- The claim is false of the code. -/
theorem C47_false (c : Cfg α) (hn : ∃ l, c.norm l ≠ b!"en_US") : ¬ C47_full α := by
  intro h
  obtain ⟨lang, hne⟩ := hn
  let w1 : World α := (Op.newTranslations (α := α) []).exec c (World.init c [])
  let w2 : World α := (Op.setSourceCodeLocale (α := α) 1 lang).exec c w1
  have r2 : Reach c w2 := Reach.step _ _ (Reach.step _ _ (Reach.init []) trivial) (by show 1 < 2; decide)
  have hr : w2.MostMatchLocale firstLang c 1 (.ok b!"en_US") :=
    ⟨[b!"en_US"], ⟨[], List.Perm.refl _, List.Perm.refl _, by simp⟩, rfl⟩
  obtain ⟨ls, hl, s, hs, he⟩ := h firstLang c w2 (by intro s _ hne; exact List.length_pos_of_ne_nil hne) r2 1
    (by show 1 < 2; decide) _ hr
  have hmem := (C44_locales c w2 r2 1 ls hl).2 s
  have : s ∈ ls := List.mem_of_getElem? hs
  rcases hmem.mp this with h1 | ⟨k, t, ht, _⟩
  · simp only [Res.ok.injEq] at he
    rw [← he] at h1
    exact hne h1.symm
  · have : (w2.tr (w2.getOrNoop 1 (w2.domain 1))).langs = [] := rfl
    unfold Translation.get at ht
    rw [this] at ht
    simp [GMap.get?] at ht

/-! ## C48 -/

/-- The name of the cookie: that of the last option, `lang` without options. -/
theorem C48_last_option (opts : List Str) (o : Str) : cookieName [] = b!"lang" ∧ cookieName (opts ++ [o]) = o := by
  refine ⟨rfl, ?_⟩
  unfold cookieName
  rw [List.foldl_append]
  rfl

/-- `GetUserLang` returns the value of the configured cookie if the request has it, otherwise a supported
locale; it does not panic. -/
theorem C48_user_lang (g : Lang) (c : Cfg α) (w : World α) (hg : g.InRange) (req : Request) (opts : List Str) (r : Res Str)
    (h : w.GetUserLang g c req opts r) :
    (∀ v, req.cookie (cookieName opts) = some v → r = .ok v) ∧
    (req.cookie (cookieName opts) = none → ∃ ls, w.GLocales c ls ∧ Matched g ls (g.parseAccept req.accept) r ∧
      ∃ s ∈ ls, r = .ok s) := by
  unfold World.GetUserLang at h
  constructor
  · intro v hv
    rw [hv] at h
    exact h
  · intro hv
    rw [hv] at h
    obtain ⟨ls, hl, rfl⟩ := h
    obtain ⟨s, hs⟩ := matched_of g hg ls (locales_ne_nil c w _ ls hl) (g.parseAccept req.accept)
    rw [hs]
    exact ⟨ls, hl, ⟨s, hs, rfl⟩, s, List.mem_of_getElem? hs, rfl⟩

/-- There is a result. -/
theorem C48_exists (g : Lang) (c : Cfg α) (w : World α) (req : Request) (opts : List Str) :
    ∃ r, w.GetUserLang g c req opts r := by
  unfold World.GetUserLang
  cases req.cookie (cookieName opts) with
  | some v => exact ⟨_, rfl⟩
  | none =>
    obtain ⟨ls, hl⟩ := C44_exists c w w.glob
    exact ⟨_, ls, hl, rfl⟩

/-! ## C49 -/

theorem ctxOf_snoc (ss : List Setting) (s : Setting) : ctxOf (ss ++ [s]) = match s with
    | .other => .other (ctxOf ss)
    | .locale l => .lang (ctxOf ss) l
    | .domain d => .domain (ctxOf ss) d := by
  unfold ctxOf
  rw [List.foldl_append]
  rfl

theorem ctx_last (ss : List Setting) :
    (ctxOf ss).getLocale = lastLocale ss ∧ (ctxOf ss).getDomain = lastDomain ss := by
  induction ss using List.reverseRecOn with
  | nil => exact ⟨rfl, rfl⟩
  | append_singleton ss s ih =>
    rw [ctxOf_snoc]
    unfold lastLocale lastDomain
    rw [List.filterMap_append, List.filterMap_append, List.getLast?_append, List.getLast?_append]
    cases s with
    | other => exact ⟨ih.1, ih.2⟩
    | locale l => exact ⟨rfl, ih.2⟩
    | domain d => exact ⟨ih.1, rfl⟩

/-- `WithContext` of a context built by any settings is a new value: the global one with the locale set
last (normalized, the default one for `""`) and the domain set last, in whatever order; the global value
and all others give the same answers as before. -/
theorem C49_with_context (c : Cfg α) (w : World α) (h : Reach c w) (ss : List Setting) (dflt : Str) :
    let r := w.withContext c (ctxOf ss) dflt
    w.tss.length ≤ r.2 ∧ r.2 < r.1.tss.length ∧ r.1.glob = w.glob ∧
    r.1.locale r.2 = (match lastLocale ss with
      | some l => if l = [] then dflt else c.norm l
      | none => w.locale w.glob) ∧
    r.1.domain r.2 = (lastDomain ss).getD (w.domain w.glob) ∧
    r.1.sourceCodeLocale r.2 = w.sourceCodeLocale w.glob ∧
    (∀ d, r.1.get r.2 d = w.get w.glob d) ∧
    (∀ p, r.1.tr p = w.tr p) ∧
    ∀ j < w.tss.length, SameAnswers c w j r.1 j := by
  have hw := reach_wf c w h
  obtain ⟨hL, hD⟩ := ctx_last ss
  have f := withContext_facts c w hw (ctxOf ss) dflt
  have hn := f.new
  rw [hL, hD] at hn
  have htr : ∀ p, (w.withContext c (ctxOf ss) dflt).1.tr p = w.tr p := by
    intro p; unfold World.tr; rw [f.trs]
  refine ⟨f.fresh.1, f.fresh.2, f.glob, ?_, ?_, ?_, ?_, htr, ?_⟩
  · refine (congrArg View.locale hn).trans ?_
    dsimp only
    cases lastLocale ss <;> rfl
  · refine (congrArg View.domain hn).trans ?_
    dsimp only
    cases lastDomain ss <;> rfl
  · exact congrArg View.src hn
  · intro d; exact congrFun (congrArg View.doms hn) d
  · intro j hj
    exact same_of c w _ hw f.wf j j (f.old j hj) (fun p _ => htr p)

/-! ## C52 -/

/-- Marking functions return their arguments. -/
theorem C52_marks (ctxt id id2 : Str) :
    markT id = id ∧ markN id id2 = (id, id2) ∧ markX ctxt id = (ctxt, id) ∧ markXN ctxt id id2 = (ctxt, id, id2) :=
  ⟨rfl, rfl, rfl, rfl⟩

end Verif.W
