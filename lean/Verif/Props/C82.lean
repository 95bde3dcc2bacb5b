import Verif.Lemmas.ServeCalls
import Verif.Props.WorldExamples
/-!
# C82: goroutines that change only their own Translations values do not disturb each other
-/
namespace Verif.Serve
open Verif Verif.W
variable {α : Type}

def baseOf (w : World α) : Base := ⟨w.tss.length, w.maps.length⟩

theorem obj_start (w : World α) (h : WF w) (i : Nat) (hi : i < w.tss.length) :
    Obj (baseOf w) ⟨[], []⟩ w i (valueOf w i) :=
  ⟨Or.inl hi, Or.inl (h.mapLt i hi), h.keys _, h.ptr _, rfl, rfl, rfl, fun _ => rfl⟩

theorem inv_start (c : Cfg α) (w : World α) (h : WF w) (hs : List (Code α)) (hp : ∀ h ∈ hs, Polite 0 h) :
    Inv c (baseOf w) w (hs.map fun h => alone c h (atStart w)) (fun _ => ⟨[], []⟩) (start w hs) := by
  have hin : InW (baseOf w) ⟨[], []⟩ w := ⟨Nat.le_refl _, Nat.le_refl _, by simp, by simp⟩
  refine ⟨fun _ => hin, fun _ _ _ => ⟨by simp, by simp⟩, Agree.refl _ _ _, by simp [start], ?_⟩
  intro g t total ht htot
  simp only [start, List.getElem?_map, Option.map_eq_some_iff] at ht htot
  obtain ⟨x, hx, rfl⟩ := ht
  obtain ⟨y, hy, rfl⟩ := htot
  rw [hx] at hy
  cases hy
  refine ⟨atStart w, ⟨hin, rfl, h.noop, rfl, h.glob, h.mapLt _ h.glob, obj_start w h _ h.glob, ?_, ?_, ?_⟩,
    hp x (List.mem_of_getElem? hx), rfl⟩
  · intro k hk; simp at hk
  · intro k hk; simp at hk
  · intro j k hk; simp at hk

theorem inv_run (c : Cfg α) (w : World α) (h : Reach c w) (hs : List (Code α)) (hp : ∀ h ∈ hs, Polite 0 h) (s : Sys α)
    (r : Steps c (start w hs) s) : ∃ os, Inv c (baseOf w) w (hs.map fun h => alone c h (atStart w)) os s := by
  generalize e : start w hs = s0 at r
  induction r with
  | refl => subst e; exact ⟨_, inv_start c w (reach_wf c w h) hs hp⟩
  | tail _ st ih =>
    obtain ⟨os, ih⟩ := ih
    exact inv_step ih st

/-- Any number of goroutines with any code that changes only `Translations` values it has made itself, in
any order of their accesses to memory: what each of them has been told so far is the beginning of what it
would be told if it were alone and values were plain values; all of it when it has ended. -/
theorem C82_alone (c : Cfg α) (w : World α) (hw : Reach c w) (hs : List (Code α)) (hp : ∀ h ∈ hs, Polite 0 h) (s : Sys α)
    (r : Steps c (start w hs) s) (g : Nat) (t : Thread α) (h : Code α) (ht : s.threads[g]? = some t) (hh : hs[g]? = some h) :
    t.said <+: alone c h (atStart w) ∧ (t.pc = .idle .stop → t.said = alone c h (atStart w)) := by
  obtain ⟨os, inv⟩ := inv_run c w hw hs hp s r
  have hok := inv.ok g t (alone c h (atStart w)) ht (by simp [hh])
  obtain ⟨regs, pc, said⟩ := t
  cases pc with
  | idle h' =>
    obtain ⟨s', _, _, h3⟩ := hok
    refine ⟨⟨_, h3.symm⟩, fun e => ?_⟩
    simp only [Pc.idle.injEq] at e
    subst e
    rw [h3]
    simp [alone]
  | within p k =>
    obtain ⟨_, _, _, _, s', _, _, h3⟩ := safe_done p _ _ hok
    exact ⟨⟨_, h3.symm⟩, fun e => by simp at e⟩

/-- No two of them are ever about to access the same variable while one of the accesses is a write. -/
theorem C82_no_race (c : Cfg α) (w : World α) (hw : Reach c w) (hs : List (Code α)) (hp : ∀ h ∈ hs, Polite 0 h) (s : Sys α)
    (r : Steps c (start w hs) s) : ¬ Race s := by
  obtain ⟨os, inv⟩ := inv_run c w hw hs hp s r
  rintro ⟨i, j, a, b, v, e, hij, ha, hb, h1, h2⟩
  have get : ∀ g (t : Thread α), s.threads[g]? = some t →
      ∃ total, ThreadOk c (baseOf w) total (os g) s.w t := by
    intro g t ht
    have hlt : g < (hs.map fun h => alone c h (atStart w)).length := by
      rw [← inv.len]; exact (List.getElem?_eq_some_iff.mp ht).1
    exact ⟨_, inv.ok g t _ ht (List.getElem?_eq_getElem hlt)⟩
  obtain ⟨ta, oka⟩ := get i a ha
  obtain ⟨tb, okb⟩ := get j b hb
  have hwr : Writable (os i) v := by
    obtain ⟨regs, pc, said⟩ := a
    simp only [Thread.access] at h1
    split at h1
    · simp at h1
    · next l v' p k =>
      simp only [Option.some.injEq, Prod.mk.injEq, and_true] at h1
      subst h1
      exact oka.1
    · simp at h1
  have hrd : Readable (baseOf w) (os j) s.w v := by
    obtain ⟨regs, pc, said⟩ := b
    simp only [Thread.access] at h2
    split at h2
    · next l p k =>
      simp only [Option.some.injEq, Prod.mk.injEq] at h2
      obtain ⟨rfl, _⟩ := h2
      exact okb.1
    · next l v' p k =>
      simp only [Option.some.injEq, Prod.mk.injEq] at h2
      obtain ⟨rfl, _⟩ := h2
      have h3 : Writable (os j) l := okb.1
      cases l <;> simp only [Writable, Readable] at * <;> exact Or.inr h3
    · simp at h2
  have ap := inv.apart i j hij
  have hin := inv.inW i
  cases v <;> simp only [Writable, Readable] at hwr hrd
  case map r =>
    rcases hrd with h | h
    · have := (hin.maps r hwr).1; omega
    · exact ap.maps r hwr h
  all_goals
    rename_i x
    rcases hrd with h | h
    · have := (hin.tss x hwr).1; omega
    · exact ap.tss x hwr h

/-- The global value and all others that were there at the start stay as they are. -/
theorem C82_unchanged (c : Cfg α) (w : World α) (hw : Reach c w) (hs : List (Code α)) (hp : ∀ h ∈ hs, Polite 0 h) (s : Sys α)
    (r : Steps c (start w hs) s) : s.w.glob = w.glob ∧ ∀ i < w.tss.length, valueOf s.w i = valueOf w i := by
  obtain ⟨os, inv⟩ := inv_run c w hw hs hp s r
  refine ⟨inv.base.glob, fun i hi => ?_⟩
  have ho := (obj_start w (reach_wf c w hw) i hi).agree inv.base
  simp only [valueOf, World.locale, World.domain, World.sourceCodeLocale, World.get, World.doms, ho.locale, ho.domain, ho.src]
  congr 1
  funext d
  rw [ho.doms d]
  rfl

/-- Wherever it is, a goroutine can go on to its end, whatever the others do meanwhile, as there is nothing it waits for. -/
theorem C82_ends (c : Cfg α) (s : Sys α) (g : Nat) (t : Thread α) (ht : s.threads[g]? = some t) :
    ∃ s' t', Steps c s s' ∧ s'.threads[g]? = some t' ∧ t'.pc = .idle .stop ∧ ∀ j ≠ g, s'.threads[j]? = s.threads[j]? := by
  have one : ∀ (s : Sys α) (t t' : Thread α) (w' : World α), s.threads[g]? = some t → TStep c s.w t w' t' →
      (∀ s : Sys α, s.w = w' → s.threads[g]? = some t' →
        ∃ s' t'', Steps c s s' ∧ s'.threads[g]? = some t'' ∧ t''.pc = .idle .stop ∧ ∀ j ≠ g, s'.threads[j]? = s.threads[j]?) →
      ∃ s' t'', Steps c s s' ∧ s'.threads[g]? = some t'' ∧ t''.pc = .idle .stop ∧ ∀ j ≠ g, s'.threads[j]? = s.threads[j]? := by
    intro s t t' w' ht st ih
    have hl := (List.getElem?_eq_some_iff.mp ht).1
    obtain ⟨s', t'', h1, h2, h3, h4⟩ := ih ⟨w', s.threads.set g t'⟩ rfl (by simp [hl])
    refine ⟨s', t'', ?_, h2, h3, fun j hj => by rw [h4 j hj]; simp [Ne.symm hj]⟩
    have key : ∀ a b : Sys α, Steps c a b → ∀ z, Step c z a → Steps c z b := by
      intro a b hab
      induction hab with
      | refl => exact fun z hz => .tail (.refl z) hz
      | tail _ st ih => exact fun z hz => .tail (ih z hz) st
    exact key _ _ h1 _ (.mk ht st)
  have prog : ∀ (p : Prog α) (k : Answer → Code α),
      (∀ a regs said (s : Sys α), s.threads[g]? = some ⟨regs, .idle (k a), said⟩ →
        ∃ s' t'', Steps c s s' ∧ s'.threads[g]? = some t'' ∧ t''.pc = .idle .stop ∧ ∀ j ≠ g, s'.threads[j]? = s.threads[j]?) →
      ∀ regs said (s : Sys α), s.threads[g]? = some ⟨regs, .within p k, said⟩ →
        ∃ s' t'', Steps c s s' ∧ s'.threads[g]? = some t'' ∧ t''.pc = .idle .stop ∧ ∀ j ≠ g, s'.threads[j]? = s.threads[j]? := by
    intro p k ih
    induction p with
    | ret made a => exact fun regs said s hs => one s _ _ _ hs .ret fun s' _ h' => ih a _ _ s' h'
    | load l p ihp => exact fun regs said s hs => one s _ _ _ hs .load fun s' _ h' => ihp _ _ _ s' h'
    | store l v p ihp => exact fun regs said s hs => one s _ _ _ hs .store fun s' _ h' => ihp _ _ s' h'
    | newMap m p ihp => exact fun regs said s hs => one s _ _ _ hs .newMap fun s' _ h' => ihp _ _ _ s' h'
    | newTs m p ihp => exact fun regs said s hs => one s _ _ _ hs .newTs fun s' _ h' => ihp _ _ _ s' h'
    | newTr m p ihp => exact fun regs said s hs => one s _ _ _ hs .newTr fun s' _ h' => ihp _ _ _ s' h'
  have code : ∀ (h : Code α) regs said (s : Sys α), s.threads[g]? = some ⟨regs, .idle h, said⟩ →
        ∃ s' t'', Steps c s s' ∧ s'.threads[g]? = some t'' ∧ t''.pc = .idle .stop ∧ ∀ j ≠ g, s'.threads[j]? = s.threads[j]? := by
    intro h
    induction h with
    | stop => exact fun regs said s hs => ⟨s, _, .refl s, hs, rfl, fun _ _ => rfl⟩
    | call o k ih =>
      exact fun regs said s hs => one s _ _ _ hs .call fun s' _ h' => prog _ k (fun a regs said s => ih a regs said s) _ _ s' h'
  obtain ⟨regs, pc, said⟩ := t
  cases pc with
  | idle h => exact code h regs said s ht
  | within p k => exact prog p k (fun a regs said s => code (k a) regs said s) regs said s ht

/-- The accesses of a call, made in one go, are the call as `Model/World.lean` has it. -/
theorem C82_calls (c : Cfg α) (w : World α) (regs : List Nat) (call : Call α) :
    (call.prog c regs).run w = call.whole c w regs := by
  have hd : ∀ (r : Ref) (k : Nat → Prog α), (deref regs r k).run w = (k (r.addr w regs)).run w := by
    intro r k; cases r <;> rfl
  have clone : ∀ (w : World α) i (k : Nat → Prog α), (cloneP i k).run w = (k (w.clone i).2).run (w.clone i).1 := fun _ _ _ => rfl
  have cur : ∀ (w : World α) i (k : Nat → Prog α), (currentP i k).run w = (k (w.getOrNoop i (w.ts i).domain)).run w :=
    fun _ _ _ => rfl
  cases call with
  | newTranslations dflt => rfl
  | global => rfl
  | withContext ctx dflt =>
    simp only [Call.prog, Prog.run, clone, Call.whole, World.withContext]
    cases hl : ctx.getLocale <;> cases hm : ctx.getDomain <;> rfl
  | bindFS r dom fsys =>
    simp only [Call.prog, hd, Call.whole, Prog.run, World.bindFS]
    split
    · simp [Prog.run, World.setDoms, World.doms, World.mapAt, World.ts, load, store, Val.toAddr, Val.toMap]
    · rfl
  | removeDomain r dom =>
    simp only [Call.prog, hd, Call.whole, World.removeDomain]
    by_cases h1 : dom = []
    · simp only [h1, if_true, Prog.run]
    · simp only [h1, if_false, Prog.run]
      simp only [load, addr_toAddr, map_toMap, World.hasDomain, World.doms]
      rcases Bool.eq_false_or_eq_true ((w.mapAt (w.ts (r.addr w regs)).domains).keys.any fun e => decide (e = dom)) with hb | hb
      case inr => simp only [hb, Bool.not_false, if_true, Prog.run]
      case inl =>
        simp only [hb, Bool.not_true, Bool.false_eq_true, if_false, Prog.run, World.setDoms, load, store, addr_toAddr, map_toMap,
          str_toStr, ts_maps]
        by_cases h3 : (w.ts (r.addr w regs)).domain = dom
        · simp only [h3, if_true, Prog.run, store, ts_maps]
        · simp only [h3, if_false, Prog.run]
  | clearDomains r =>
    simp only [Call.prog, hd, Call.whole, World.clearDomains, Prog.run, store, ts_maps]
    by_cases h : r.addr w regs < w.tss.length
    · simp [World.setTs, World.ts, h]
    · simp [World.setTs, List.set_eq_of_length_le, Nat.le_of_not_lt h]
  | usedLocale r =>
    simp only [Call.prog, hd, Call.whole, World.usedLocale, Prog.run, load, Val.toStr, Val.toAddr, Val.toMap, World.get, World.doms]
    split
    · simp [*, Prog.run, load]
    · simp only [*, Prog.run, load, Val.toTr]
      split
      · simp [*, Prog.run, load]
      · simp [*, Prog.run, load]
  | d r dom => cases r <;> rfl
  | l r lang dflt => cases r <;> rfl
  | setDomain r dom => cases r <;> rfl
  | setLocale r lang dflt => cases r <;> rfl
  | setSourceCodeLocale r lang => cases r <;> rfl
  | setGlobal k => rfl
  | locale r => cases r <;> rfl
  | domain r => cases r <;> rfl
  | sourceCodeLocale r => cases r <;> rfl
  | hasDomain r dom => cases r <;> rfl
  | locales r order sort => cases r <;> rfl
  | mostMatchLocale order sort pick => rfl
  | x r ctxt id args => cases r <;> rfl
  | xn64 r ctxt id id2 n args => cases r <;> rfl

/-- The answer of `Locales` and that of the matcher's list are possible ones of `Model/World.lean`. -/
theorem C82_locales (c : Cfg α) (w : World α) (i : Nat) (order sort : List Str → List Str) (h : SortsLocales order sort) :
    w.Locales c i (sort (World.collectLocales c (w.ts i).src (order (w.tr (w.getOrNoop i (w.ts i).domain)).langs.keys))) :=
  ⟨_, h.1 _, (h.2 _).1, (h.2 _).2⟩

/-- A request: a message in the language and the domain of the request's context. -/
def request (ctx : Ctx) (dflt id : Str) : Code α :=
  .call (.withContext ctx dflt) fun _ => .call (.x (.own 0) [] id []) fun _ => .stop

/-- Any number of requests at the same time, each with a context of its own: each gets the message in the
language and the domain of its context (or the global ones if it has none). -/
theorem C82_requests (c : Cfg α) (w : World α) (hw : Reach c w) (rs : List (Ctx × Str × Str)) (s : Sys α)
    (r : Steps c (start w (rs.map fun r => request r.1 r.2.1 r.2.2)) s) (g : Nat) (t : Thread α) (ctx : Ctx) (dflt id : Str)
    (ht : s.threads[g]? = some t) (hr : rs[g]? = some (ctx, dflt, id)) (hend : t.pc = .idle .stop) :
    let lang := match ctx.getLocale with
      | some l => if l = [] then dflt else c.norm l
      | none => w.gLocale
    let domain := ctx.getDomain.getD w.gDomain
    ∃ first, t.said = [first, .text (((w.tr (w.getOrNoop w.glob domain)).getOrNoop c lang).x [] id [])] := by
  have hp : ∀ h ∈ rs.map fun r => (request r.1 r.2.1 r.2.2 : Code α), Polite 0 h := by
    intro h hh
    obtain ⟨r, _, rfl⟩ := List.mem_map.mp hh
    exact .call trivial fun _ => .call (by simp [Call.Polite, Ref.Made, Call.makes]) fun _ => .stop
  have h := (C82_alone c w hw _ hp s r g t (request ctx dflt id) ht (by simp [hr])).2 hend
  refine ⟨.done, ?_⟩
  rw [h]
  have noop : ∀ d, ((w.get w.glob d).map w.tr).getD (w.tr 0) = w.tr (w.getOrNoop w.glob d) := by
    intro d
    simp only [World.get, World.getOrNoop]
    cases (w.doms w.glob).get? d <;> rfl
  cases hl : ctx.getLocale <;> cases hd : ctx.getDomain <;>
    simp only [alone, request, Call.plain, hl, hd, Known.make, atStart, List.nil_append, Known.value, Value.inLocale,
      Value.current, valueOf, List.getD_cons_zero, Option.getD_none, Option.getD_some, noop] <;> rfl

/-- Why each goroutine must change only its own values: with the package's `SetLocale` in one goroutine,
another is told what it would not be told alone, and the two race. -/
theorem C82_shared (c : Cfg α) (a b : Str) (hab : a ≠ b) :
    let hs : List (Code α) := [.call (.setLocale .global [] b) fun _ => .stop, .call (.locale .global) fun _ => .stop]
    let w := World.init c a
    (∃ s t, Steps c (start w hs) s ∧ s.threads[1]? = some t ∧ t.pc = .idle .stop ∧
      t.said ≠ alone c (.call (.locale .global) fun _ => .stop) (atStart w)) ∧
    ∃ s, Steps c (start w hs) s ∧ Race s := by
  intro hs w
  have s0 := Steps.refl (c := c) (start w hs)
  have s1 := s0.tail (.mk (g := 0) rfl .call)
  have s2 := s1.tail (.mk (g := 0) rfl .load)
  have r1 := s2.tail (.mk (g := 1) rfl .call)
  have r2 := r1.tail (.mk (g := 1) rfl .load)
  have s3 := r2.tail (.mk (g := 0) rfl .store)
  have s4 := s3.tail (.mk (g := 1) rfl .load)
  have s5 := s4.tail (.mk (g := 1) rfl .ret)
  refine ⟨⟨_, _, s5, rfl, rfl, ?_⟩, _, r2, 0, 1, _, _, .locale 0, false, by decide, rfl, rfl, rfl, rfl⟩
  intro h
  have h' : [Answer.str b] = [Answer.str a] := h
  simp only [List.cons.injEq, Answer.str.injEq, and_true] at h'
  exact hab h'.symm

/-- A goroutine that makes a value, asks it, and according to the answer gives it another language or
binds a tree to it, and asks again. -/
def picky : Code Str :=
  .call (.d .global b!"x") fun _ => .call (.hasDomain (.own 0) b!"x") fun a =>
    match a with
    | .bool true => .stop
    | _ => .call (.bindFS (.own 0) b!"x" (some exTree2)) fun _ => .call (.removeDomain (.own 0) b!"default") fun _ =>
      .call (.l (.own 0) b!"fr-CH" []) fun _ => .call (.clearDomains (.own 0)) fun _ => .call (.x (.own 1) [] b!"a" []) fun _ =>
      .call (.x (.own 0) [] b!"a" []) fun _ => .call (.usedLocale (.own 1)) fun _ => .stop

theorem picky_polite : Polite 0 picky := by
  refine .call (by simp [Call.Polite, Ref.Made]) fun _ => .call (by simp [Call.Polite, Ref.Made, Call.makes]) fun a => ?_
  have rest : Polite 1 (.call (.bindFS (.own 0) b!"x" (some exTree2)) fun _ => .call (.removeDomain (.own 0) b!"default") fun _ =>
      .call (.l (.own 0) b!"fr-CH" []) fun _ => .call (.clearDomains (.own 0)) fun _ => .call (.x (.own 1) [] b!"a" []) fun _ =>
      .call (.x (.own 0) [] b!"a" []) fun _ => .call (.usedLocale (.own 1)) fun _ => .stop : Code Str) := by
    repeat refine .call (by simp [Call.Polite, Ref.Made, Ref.Own, Call.makes]) fun _ => ?_
    exact .stop
  match a with
  | .bool true => exact .stop
  | .bool false => exact rest
  | .done => exact rest
  | .str _ => exact rest
  | .strs _ => exact rest
  | .text _ => exact rest

/-- Requests in French, in German and without a language, and the picky goroutine, beside a loaded
global value: the hypotheses hold, and these are the answers in every interleaving. -/
example : let hs : List (Code Str) := [request (.lang .base b!"fr-BE") [] b!"a", request (.lang .base b!"de") [] b!"a",
      request .base [] b!"a", picky]
    Reach exCfg exWorld ∧ (∀ h ∈ hs, Polite 0 h) ∧
    hs.map (fun h => alone exCfg h (atStart exWorld)) = [[.done, .text (.ok b!"po2")], [.done, .text (.ok b!"a")],
      [.done, .text (.ok b!"po2")],
      [.done, .bool false, .done, .bool true, .done, .done, .text (.ok b!"po"), .text (.ok b!"a"), .str b!"fr"]] := by
  refine ⟨exReach, ?_, by decide +kernel⟩
  intro h hh
  simp only [List.mem_cons, List.not_mem_nil, or_false] at hh
  have req : ∀ ctx dflt id, Polite 0 (request ctx dflt id : Code Str) := fun _ _ _ =>
    .call trivial fun _ => .call (by simp [Call.Polite, Ref.Made, Call.makes]) fun _ => .stop
  rcases hh with rfl | rfl | rfl | rfl
  · exact req _ _ _
  · exact req _ _ _
  · exact req _ _ _
  · exact picky_polite

/-- C82_ends: from the start, every one of them can end. -/
example : ∃ s t, Steps exCfg (start exWorld [picky, request .base [] b!"a"]) s ∧ s.threads[1]? = some t ∧ t.pc = .idle .stop ∧
    t.said = [.done, .text (.ok b!"po2")] := by
  obtain ⟨s, t, h1, h2, h3, _⟩ := C82_ends exCfg (start exWorld [picky, request .base [] b!"a"]) 1 _ rfl
  refine ⟨s, t, h1, h2, h3, ?_⟩
  have hp : ∀ h ∈ [picky, request .base [] b!"a"], Polite 0 h := by
    intro h hh
    simp only [List.mem_cons, List.not_mem_nil, or_false] at hh
    rcases hh with rfl | rfl
    · exact picky_polite
    · exact .call trivial fun _ => .call (by simp [Call.Polite, Ref.Made, Call.makes]) fun _ => .stop
  rw [(C82_alone exCfg exWorld exReach _ hp s h1 1 t _ h2 rfl).2 h3]
  decide +kernel

end Verif.Serve
