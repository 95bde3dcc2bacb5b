import Verif.Props.C40_C44
import Verif.Props.WorldExamples
/-! # C78: who sees a translator that is added to a domain

`ts.Get(d)` and `ts.GetOrNoop(d)` hand out the `*Translation` object itself, so a program can add
translators to it at any time (translations.go:118-130, translaton.go:66-80). -/
namespace Verif.W
open Verif
variable {α : Type}

theorem getOrNoop_lt (w : World α) (h : WF w) (i : Nat) (d : Str) : w.getOrNoop i d < w.trs.length := by
  unfold World.getOrNoop
  cases hg : (w.doms i).get? d with
  | none => exact h.noop
  | some p => exact h.ptr _ _ _ hg

theorem getOrNoop_view {w w' : World α} {i j : Nat} (hv : ∀ d, w'.get j d = w.get i d) (d : Str) :
    w'.getOrNoop j d = w.getOrNoop i d := by
  have := hv d
  unfold World.getOrNoop
  unfold World.get at this
  rw [this]

theorem added_tr (c : Cfg α) (w : World α) (p q : Nat) (hp : p < w.trs.length) (tor : Tor α) :
    ((Op.addOrReplace p tor).exec c w).tr q = if q = p then ((w.tr p).addOrReplace c tor).2 else w.tr q := by
  refine (getD_set _ _ _ _ _).trans ?_
  by_cases hq : q = p
  · subst hq; rw [if_pos ⟨rfl, hp⟩, if_pos rfl]
  · rw [if_neg (fun a => hq a.1), if_neg hq]; rfl

theorem added_tor (c : Cfg α) (w : World α) (p : Nat) (hp : p < w.trs.length) (tor : Tor α) (j : Nat) :
    (((Op.addOrReplace p tor).exec c w).tr (w.getOrNoop j (w.domain j))).getOrNoop c (w.locale j) =
      if w.getOrNoop j (w.domain j) = p ∧ tor.lang ≠ [] ∧ c.norm tor.lang = w.locale j then tor
      else (w.tr (w.getOrNoop j (w.domain j))).getOrNoop c (w.locale j) := by
  rw [added_tr c w p _ hp]
  by_cases hq : w.getOrNoop j (w.domain j) = p
  · rw [if_pos hq]
    unfold Translation.getOrNoop
    rw [addOrReplace_get]
    by_cases hl : tor.lang ≠ [] ∧ c.norm tor.lang = w.locale j
    · rw [if_pos hl, if_pos ⟨hq, hl⟩]
    · rw [if_neg hl, if_neg (fun a => hl a.2), hq]
  · rw [if_neg hq, if_neg (fun a => hq a.1)]

/-- Adding a translator changes no locale, no current domain and no set of domains. -/
theorem C78_settings (c : Cfg α) (w : World α) (p : Nat) (tor : Tor α) (j : Nat) (d : Str) :
    ((Op.addOrReplace p tor).exec c w).locale j = w.locale j ∧
    ((Op.addOrReplace p tor).exec c w).domain j = w.domain j ∧
    ((Op.addOrReplace p tor).exec c w).sourceCodeLocale j = w.sourceCodeLocale j ∧
    ((Op.addOrReplace p tor).exec c w).get j d = w.get j d := ⟨rfl, rfl, rfl, rfl⟩

/-- The translator speaks for every `Translations` value whose current domain is this object and whose
locale is the translator's language in canonical form. -/
theorem C78_seen (c : Cfg α) (w : World α) (p : Nat) (hp : p < w.trs.length) (tor : Tor α)
    (hl : tor.lang ≠ []) (j : Nat) (hj : w.getOrNoop j (w.domain j) = p) (hlj : w.locale j = c.norm tor.lang)
    (ctxt id id2 : Str) (n : Int64) (args : List α) :
    ((Op.addOrReplace p tor).exec c w).x c j ctxt id args = tor.x ctxt id args ∧
    ((Op.addOrReplace p tor).exec c w).xn64 c j ctxt id id2 n args = tor.xn ctxt id id2 n args := by
  have := added_tor c w p hp tor j
  rw [if_pos ⟨hj, hl, hlj.symm⟩] at this
  constructor
  · exact congrArg (fun t : Tor α => t.x ctxt id args) this
  · exact congrArg (fun t : Tor α => t.xn ctxt id id2 n args) this

/-- Everybody else says what they said before. -/
theorem C78_unseen (c : Cfg α) (w : World α) (p : Nat) (hp : p < w.trs.length) (tor : Tor α) (j : Nat)
    (hn : tor.lang = [] ∨ w.getOrNoop j (w.domain j) ≠ p ∨ w.locale j ≠ c.norm tor.lang)
    (ctxt id id2 : Str) (n : Int64) (args : List α) :
    ((Op.addOrReplace p tor).exec c w).x c j ctxt id args = w.x c j ctxt id args ∧
    ((Op.addOrReplace p tor).exec c w).xn64 c j ctxt id id2 n args = w.xn64 c j ctxt id id2 n args := by
  have := added_tor c w p hp tor j
  rw [if_neg (by
    rintro ⟨h1, h2, h3⟩
    rcases hn with h | h | h
    · exact h2 h
    · exact h h1
    · exact h h3.symm)] at this
  constructor
  · exact congrArg (fun t : Tor α => t.x ctxt id args) this
  · exact congrArg (fun t : Tor α => t.xn ctxt id id2 n args) this

/-- `D`, `L`, `Global` and `WithContext` copy the map of domains, not the domains: the copy's domains are
the very objects of the original. -/
theorem C78_copies_share (c : Cfg α) (w : World α) (h : Reach c w) (i : Nat) (x dflt : Str) (ctx : Ctx) (e : Str) :
    (w.d i x).1.getOrNoop (w.d i x).2 e = w.getOrNoop i e ∧
    (w.l c i x dflt).1.getOrNoop (w.l c i x dflt).2 e = w.getOrNoop i e ∧
    w.global.1.getOrNoop w.global.2 e = w.getOrNoop w.glob e ∧
    (w.withContext c ctx dflt).1.getOrNoop (w.withContext c ctx dflt).2 e = w.getOrNoop w.glob e := by
  have hw := reach_wf c w h
  refine ⟨getOrNoop_view (fun d => ?_) e, getOrNoop_view (fun d => ?_) e, getOrNoop_view (fun d => ?_) e,
    getOrNoop_view (fun d => ?_) e⟩
  · exact congrFun (congrArg View.doms (view_d_new w hw i x)) d
  · exact congrFun (congrArg View.doms (view_l_new c w hw i x dflt)) d
  · exact congrFun (congrArg View.doms (view_clone_new w hw w.glob)) d
  · exact congrFun (congrArg View.doms (withContext_facts c w hw ctx dflt).new) d

/-- So a translator added through a copy made with `L` (say, for one request) speaks for the original. -/
theorem C78_through_copy (c : Cfg α) (w : World α) (h : Reach c w) (i : Nat) (hi : i < w.tss.length) (x dflt : Str)
    (tor : Tor α) (hl : tor.lang ≠ []) (hli : w.locale i = c.norm tor.lang)
    (ctxt id id2 : Str) (n : Int64) (args : List α) :
    let w1 := (w.l c i x dflt).1
    let w2 := (Op.addOrReplace (w1.getOrNoop (w.l c i x dflt).2 (w.domain i)) tor).exec c w1
    w2.x c i ctxt id args = tor.x ctxt id args ∧ w2.xn64 c i ctxt id id2 n args = tor.xn ctxt id id2 n args := by
  have hw := reach_wf c w h
  have hv := view_l_old c w hw i x dflt i hi
  have hd : (w.l c i x dflt).1.domain i = w.domain i := congrArg View.domain hv
  have hg := getOrNoop_view (w := w) (w' := (w.l c i x dflt).1) (i := i) (j := i)
    (fun d => congrFun (congrArg View.doms hv) d) (w.domain i)
  dsimp only
  refine C78_seen c _ _ (getOrNoop_lt _ (wf_l c w hw i x dflt) _ _) tor hl i ?_ ?_ ctxt id id2 n args
  · rw [hd, hg]; exact ((C78_copies_share c w h i x dflt (ctxOf []) (w.domain i)).2.1).symm
  · exact (congrArg View.locale hv).trans hli

/-- `GetOrNoop` of an unknown domain hands out one object shared by the whole program: a translator added
to it speaks for every `Translations` value, related or not, whose current domain is unknown. -/
theorem C78_unknown_shared (c : Cfg α) (w : World α) (h : Reach c w) (i j : Nat) (d : Str) (hd : w.get i d = none)
    (hj : w.get j (w.domain j) = none) (tor : Tor α) (hl : tor.lang ≠ []) (hlj : w.locale j = c.norm tor.lang)
    (ctxt id id2 : Str) (n : Int64) (args : List α) :
    ((Op.addOrReplace (w.getOrNoop i d) tor).exec c w).x c j ctxt id args = tor.x ctxt id args ∧
    ((Op.addOrReplace (w.getOrNoop i d) tor).exec c w).xn64 c j ctxt id id2 n args = tor.xn ctxt id id2 n args := by
  refine C78_seen c w _ (getOrNoop_lt w (reach_wf c w h) i d) tor hl j ?_ hlj ctxt id id2 n args
  unfold World.getOrNoop
  rw [show (w.doms i).get? d = none from hd, show (w.doms j).get? (w.domain j) = none from hj]

/-- The domain a successful `BindFS` makes is held by nobody else, and under no other name: until the
value is copied, a translator added to it speaks for nobody else. -/
theorem C78_bound_private (c : Cfg α) (w : World α) (h : Reach c w) (i : Nat) (hi : i < w.tss.length) (d : Str)
    (fsys : Option Node) (hl : Loads c fsys) (j : Nat) (hj : j < w.tss.length) (e : Str) :
    (w.bindFS c i d fsys).getOrNoop j e = (w.bindFS c i d fsys).getOrNoop i d ↔ j = i ∧ e = d := by
  have hw := reach_wf c w h
  have hnew : (w.bindFS c i d fsys).getOrNoop i d = w.trs.length := by
    have := congrFun (congrArg View.doms (view_bindFS_self c w hw i hi d fsys hl)) d
    dsimp only at this
    rw [if_pos rfl] at this
    unfold World.getOrNoop
    rw [show ((w.bindFS c i d fsys).doms i).get? d = some w.trs.length from this]
  constructor
  · intro he
    rw [hnew] at he
    by_cases hji : j = i
    · subst hji
      refine ⟨rfl, ?_⟩
      by_contra hne
      have := congrFun (congrArg View.doms (view_bindFS_self c w hw j hi d fsys hl)) e
      dsimp only at this
      rw [if_neg hne] at this
      have hg : (w.bindFS c j d fsys).getOrNoop j e = w.getOrNoop j e := by
        unfold World.getOrNoop
        rw [show ((w.bindFS c j d fsys).doms j).get? e = (w.doms j).get? e from this]
      have := getOrNoop_lt w hw j e
      omega
    · have hv := view_bindFS_other c w hw i j hi hj hji d fsys
      have hg := getOrNoop_view (w := w) (w' := w.bindFS c i d fsys) (i := j) (j := j)
        (fun d => congrFun (congrArg View.doms hv) d) e
      have := getOrNoop_lt w hw j e
      omega
  · rintro ⟨rfl, rfl⟩; rfl

/-! ## Cases that meet the hypotheses -/

/-- A translator of French that says "new". -/
def exNew : Tor Str := { lang := b!"fr-CH", x := fun _ _ _ => .ok b!"new", xn := fun _ _ _ _ _ => .ok b!"new" }

/-- Value 0 and its copy 1 share the object 1 of the domain `default`; value 2 does not. -/
example : exNew.lang ≠ [] ∧ exWorld.getOrNoop 0 (exWorld.domain 0) = 1 ∧ exWorld.getOrNoop 1 (exWorld.domain 1) = 1 ∧
    1 < exWorld.trs.length ∧ exWorld.getOrNoop 2 (exWorld.domain 2) ≠ 1 ∧ exWorld.locale 0 = exCfg.norm exNew.lang ∧
    exWorld.x exCfg 0 [] b!"a" [] = .ok b!"po2" := by decide +kernel

/-- A copy in German for a request: what is added to its domain is what the French original says. -/
example : let w1 := (exWorld.l exCfg 0 b!"de" []).1
    let w2 := (Op.addOrReplace (w1.getOrNoop (exWorld.l exCfg 0 b!"de" []).2 (exWorld.domain 0)) exNew).exec exCfg w1
    w2.x exCfg 0 [] b!"a" [] = .ok b!"new" :=
  (C78_through_copy exCfg exWorld exReach 0 (by decide +kernel) b!"de" [] exNew (by decide) (by decide +kernel)
    [] b!"a" [] 0 []).1

/-- The same through an unknown domain of an unrelated value. -/
example : exWorld.get 2 b!"nope" = none ∧ (exWorld.setDomain 0 b!"other").get 0 b!"other" = none ∧
    (exWorld.setDomain 0 b!"other").locale 0 = exCfg.norm exNew.lang := by decide +kernel

example : Loads exCfg (some exTree) := exTree_loads

end Verif.W
