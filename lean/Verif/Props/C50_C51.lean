import Verif.Model.Conc
import Verif.Lemmas.GMap
import Verif.Props.C09_C11
/-! # C50, C51: goroutines -/
namespace Verif.Conc
open Verif

/-! ## C50 -/

/-- What holds of every goroutine. -/
def TagOk {T : Type} (mk : Str → T) (t : TagThread T) : Prop :=
  t.acc ++ t.todo.map mk = t.args.map mk ∧
    ∀ tag, t.pc = .store tag → ∀ l rest, t.todo = l :: rest → tag = mk l

theorem tag_step {T : Type} (mk : Str → T) (cache : GMap T) (hc : ∀ k v, cache.get? k = some v → v = mk k)
    (t : TagThread T) (ht : TagOk mk t) :
    (∀ k v, (t.step mk cache).1.get? k = some v → v = mk k) ∧ TagOk mk (t.step mk cache).2 := by
  obtain ⟨args, todo, pc, acc⟩ := t
  obtain ⟨h1, h2⟩ := ht
  simp only at h1 h2
  unfold TagThread.step
  cases todo with
  | nil => exact ⟨hc, h1, h2⟩
  | cons l rest =>
    dsimp only
    cases pc with
    | load =>
      dsimp only
      cases hg : cache.get? l with
      | none =>
        refine ⟨hc, h1, ?_⟩
        intro tag hp; cases hp
      | some v =>
        refine ⟨hc, ?_, ?_⟩
        · rw [← h1, hc l v hg]
          simp
        · intro tag hp; cases hp
    | make =>
      refine ⟨hc, h1, ?_⟩
      intro tag hp l' rest' he
      simp only [TagPc.store.injEq] at hp
      simp only [List.cons.injEq] at he
      rw [← hp, he.1]
    | store tag =>
      have htag := h2 tag rfl l rest rfl
      refine ⟨?_, ?_, ?_⟩
      · intro k v hg
        dsimp only at hg
        rw [GMap.get?_set] at hg
        split at hg
        · rename_i hk
          simp only [Option.some.injEq] at hg
          rw [← hg, hk, htag]
        · exact hc k v hg
      · rw [← h1, htag]
        simp
      · intro tag' hp; cases hp

theorem tag_reach {T : Type} (mk : Str → T) (s : TagSys T) (h : TagSys.Reach mk s) :
    (∀ k v, s.cache.get? k = some v → v = mk k) ∧ ∀ t ∈ s.threads, TagOk mk t := by
  induction h with
  | init => exact ⟨by intro k v hg; simp [GMap.get?] at hg, by simp⟩
  | step s s' _ hs ih =>
    cases hs with
    | call args =>
      refine ⟨ih.1, ?_⟩
      intro t ht
      rcases List.mem_append.mp ht with ht | ht
      · exact ih.2 t ht
      · simp only [List.mem_singleton] at ht
        subst ht
        refine ⟨rfl, ?_⟩
        intro tag hp; cases hp
    | run i t hi =>
      have hm := ih.2 t (List.mem_of_getElem? hi)
      obtain ⟨h1, h2⟩ := tag_step mk s.cache ih.1 t hm
      refine ⟨h1, ?_⟩
      intro t' ht'
      rcases List.mem_or_eq_of_mem_set ht' with ht' | rfl
      · exact ih.2 t' ht'
      · exact h2

/-- Under every interleaving of any number of calls, a call that has returned returned
`language.Make` of each of its arguments. -/
theorem C50_tags {T : Type} (mk : Str → T) (s : TagSys T) (h : TagSys.Reach mk s) (t : TagThread T) (ht : t ∈ s.threads)
    (hd : t.todo = []) : t.acc = t.args.map mk := by
  have := ((tag_reach mk s h).2 t ht).1
  rw [hd] at this
  simpa using this

/-- Steps left of a call, whatever the others do in between. -/
def TagThread.left {T : Type} (t : TagThread T) : Nat :=
  3 * t.todo.length - (match t.todo, t.pc with | [], _ => 0 | _, .load => 0 | _, .make => 1 | _, .store _ => 2)

/-- Every step of a call that has not returned brings it closer to returning. -/
theorem C50_progress {T : Type} (mk : Str → T) (cache : GMap T) (t : TagThread T) (h : t.todo ≠ []) :
    (t.step mk cache).2.left < t.left := by
  obtain ⟨args, todo, pc, acc⟩ := t
  cases todo with
  | nil => exact absurd rfl h
  | cons l rest =>
    unfold TagThread.step TagThread.left
    cases pc with
    | load =>
      dsimp only
      cases cache.get? l with
      | none => simp only [List.length_cons]; omega
      | some v =>
        dsimp only
        cases rest <;> simp only [List.length_cons, List.length_nil] <;> omega
    | make => simp only [List.length_cons]; omega
    | store tag =>
      dsimp only
      cases rest <;> simp only [List.length_cons, List.length_nil] <;> omega

/-- Two goroutines that both miss the cache, both store, and both return. -/
example : ∃ s : TagSys Str, TagSys.Reach (fun l => l ++ b!"!") s ∧ s.threads.length = 2 ∧
    ∀ t ∈ s.threads, t.todo = [] ∧ t.args = [b!"zh"] ∧ t.acc = [b!"zh!"] := by
  let mk : Str → Str := fun l => l ++ b!"!"
  let n (todo : List Str) (pc : TagPc Str) (acc : List Str) : TagThread Str := { args := [b!"zh"], todo, pc, acc }
  have s0 := TagSys.Reach.init (mk := mk)
  have s1 := TagSys.Reach.step _ _ s0 (.call _ [b!"zh"])
  have s2 := TagSys.Reach.step _ _ s1 (.call _ [b!"zh"])
  have s3 := TagSys.Reach.step _ _ s2 (.run _ 0 _ rfl)
  have s4 := TagSys.Reach.step _ _ s3 (.run _ 1 _ rfl)
  have s5 := TagSys.Reach.step _ _ s4 (.run _ 0 _ rfl)
  have s6 := TagSys.Reach.step _ _ s5 (.run _ 1 _ rfl)
  have s7 := TagSys.Reach.step _ _ s6 (.run _ 1 _ rfl)
  have s8 := TagSys.Reach.step _ _ s7 (.run _ 0 _ rfl)
  exact ⟨_, s8, rfl, by decide⟩

/-! ## C51 -/

variable {α : Type}

/-- The headers and the plural rule a call alone would set up. -/
def headersOf (f : Tr.File) : GMap Str := f.initHeader.headers.getD []
def pluralOf (f : Tr.File) : Tr.Plural := f.initPlural.plural.getD { totalForms := 0, expr := none }

theorem headersOf_none (f : Tr.File) (h : f.headers = none) : headersOf f = localHeaders f := by
  unfold headersOf Tr.File.initHeader localHeaders
  rw [h]
  dsimp only
  cases f.entries.get? (Tr.key [] []) <;> rfl

theorem headersOf_some (f : Tr.File) (h : GMap Str) (hh : f.headers = some h) : headersOf f = h := by
  unfold headersOf Tr.File.initHeader
  rw [hh]
  simp [hh]

theorem pluralOf_none (f : Tr.File) (h : f.plural = none) :
    pluralOf f = Tr.parsePlural (((headersOf f).get? Tr.hPluralForms).getD []) := by
  unfold pluralOf Tr.File.initPlural
  rw [h]
  rfl

theorem pluralOf_some (f : Tr.File) (p : Tr.Plural) (h : f.plural = some p) : pluralOf f = p := by
  unfold pluralOf Tr.File.initPlural
  rw [h]
  simp [h]

/-- The shared file at any time. -/
structure FileOk (f g : Tr.File) : Prop where
  entries : g.entries = f.entries
  headers : ∀ h, g.headers = some h → h = headersOf f
  headersNone : g.headers = none → f.headers = none
  plural : ∀ p, g.plural = some p → p = pluralOf f
  pluralNone : g.plural = none → f.plural = none

/-- What the rest of `XN64` returns. -/
def formRet (E : Fmt.Env α) (dg : Plural.Diag) (f : Tr.File) (e : Tr.Entry) (id id2 : Str) (n : Int64) (args : List α) : Ret :=
  .str (Tr.chooseForm E dg (pluralOf f) e id id2 n args)

/-- The result of what waits for the headers. -/
def waitRet (E : Fmt.Env α) (dg : Plural.Diag) (f : Tr.File) : Wait α → Ret
  | .header key => .header ((headersOf f).get? key)
  | .lang => .str (.ok (((headersOf f).get? Tr.hLanguage).getD []))
  | .plural e id id2 n args => formRet E dg f e id id2 n args

/-- `initPlural` waits only if there was no rule at the start. -/
def waitOk (f : Tr.File) : Wait α → Prop
  | .plural _ _ _ _ _ => f.plural = none
  | _ => True

/-- Where a goroutine may be, given the shared file, and that it will return `r`. -/
def PcOk (E : Fmt.Env α) (dg : Plural.Diag) (f g : Tr.File) (r : Ret) : Pc α → Prop
  | .start c => r = alone E dg f c
  | .hCheck k => r = waitRet E dg f k ∧ waitOk f k
  | .hWrite h k => r = waitRet E dg f k ∧ waitOk f k ∧ h = headersOf f
  | .hRead k => r = waitRet E dg f k ∧ waitOk f k ∧ g.headers = some (headersOf f)
  | .pCheck e id id2 n args => r = formRet E dg f e id id2 n args
  | .pWrite p e id id2 n args => r = formRet E dg f e id id2 n args ∧ p = pluralOf f
  | .pRead e id id2 n args => r = formRet E dg f e id id2 n args ∧ g.plural = some (pluralOf f)
  | .done r' => r' = r

/-- The shared file only gains. -/
def Grows (g g' : Tr.File) : Prop :=
  (∀ h, g.headers = some h → g'.headers = some h) ∧ (∀ p, g.plural = some p → g'.plural = some p)

theorem pcOk_grows (E : Fmt.Env α) (dg : Plural.Diag) (f g g' : Tr.File) (hg : Grows g g') (r : Ret) (pc : Pc α)
    (h : PcOk E dg f g r pc) : PcOk E dg f g' r pc := by
  cases pc with
  | hRead k => exact ⟨h.1, h.2.1, hg.1 _ h.2.2⟩
  | pRead e id id2 n args => exact ⟨h.1, hg.2 _ h.2⟩
  | _ => exact h

theorem alone_xn_none (E : Fmt.Env α) (dg : Plural.Diag) (f : Tr.File) (ctxt id id2 : Str) (n : Int64) (args : List α)
    (h : f.entries.get? (Tr.key ctxt id) = none) :
    alone E dg f (.xn ctxt id id2 n args) = .str (.ok (Fmt.defaultPlural E id id2 n args)) := by
  simp only [alone, Tr.File.xn, h]

theorem alone_xn_some (E : Fmt.Env α) (dg : Plural.Diag) (f : Tr.File) (ctxt id id2 : Str) (n : Int64) (args : List α)
    (e : Tr.Entry) (h : f.entries.get? (Tr.key ctxt id) = some e) :
    alone E dg f (.xn ctxt id id2 n args) =
      if e.id2 = [] ∧ e.strN.length = 0 then
        .str (.ok (if e.str ≠ [] then Fmt.format E e.str args else Fmt.format E id args))
      else formRet E dg f e id id2 n args := by
  simp only [alone, Tr.File.xn, h]
  split <;> rfl

theorem step_ok (E : Fmt.Env α) (dg : Plural.Diag) (f g : Tr.File) (hf : FileOk f g) (r : Ret) (pc : Pc α)
    (h : PcOk E dg f g r pc) : FileOk f (step E dg g pc).1 ∧ Grows g (step E dg g pc).1 ∧
      PcOk E dg f (step E dg g pc).1 r (step E dg g pc).2 := by
  have same : Grows g g := ⟨fun _ h => h, fun _ h => h⟩
  cases pc with
  | start c =>
    have h : r = alone E dg f c := h
    cases c with
    | x ctxt id args =>
      refine ⟨hf, same, ?_⟩
      rw [h]
      show Ret.str (.ok (g.x E ctxt id args)) = Ret.str (.ok (f.x E ctxt id args))
      unfold Tr.File.x
      rw [hf.entries]
    | xn ctxt id id2 n args =>
      cases hg : f.entries.get? (Tr.key ctxt id) with
      | none =>
        have hs : step E dg g (.start (.xn ctxt id id2 n args)) =
            (g, .done (.str (.ok (Fmt.defaultPlural E id id2 n args)))) := by simp only [step, hf.entries, hg]
        rw [hs]
        exact ⟨hf, same, by rw [h, alone_xn_none E dg f ctxt id id2 n args hg]; rfl⟩
      | some e =>
        rw [alone_xn_some E dg f ctxt id id2 n args e hg] at h
        by_cases hc : e.id2 = [] ∧ e.strN.length = 0
        · have hs : step E dg g (.start (.xn ctxt id id2 n args)) =
              (g, .done (.str (.ok (if e.str ≠ [] then Fmt.format E e.str args else Fmt.format E id args)))) := by
            simp only [step, hf.entries, hg]; rw [if_pos hc]
          rw [hs]
          rw [if_pos hc] at h
          exact ⟨hf, same, h.symm⟩
        · have hs : step E dg g (.start (.xn ctxt id id2 n args)) = (g, .pCheck e id id2 n args) := by
            simp only [step, hf.entries, hg]; rw [if_neg hc]
          rw [hs]
          rw [if_neg hc] at h
          exact ⟨hf, same, h⟩
    | getHeader key => exact ⟨hf, same, h, trivial⟩
    | lang => exact ⟨hf, same, h, trivial⟩
  | hCheck k =>
    cases hh : g.headers with
    | none =>
      rw [show step E dg g (.hCheck k) = (g, .hWrite (localHeaders g) k) by simp only [step, hh]]
      refine ⟨hf, same, h.1, h.2, ?_⟩
      rw [headersOf_none f (hf.headersNone hh)]
      unfold localHeaders
      rw [hf.entries]
    | some x =>
      rw [show step E dg g (.hCheck k) = (g, .hRead k) by simp only [step, hh]]
      refine ⟨hf, same, h.1, h.2, ?_⟩
      rw [← hf.headers x hh]; exact hh
  | hWrite hd k =>
    obtain ⟨h1, h2, rfl⟩ := h
    refine ⟨⟨hf.entries, ?_, ?_, hf.plural, hf.pluralNone⟩, ⟨?_, fun _ h => h⟩, h1, h2, rfl⟩
    · intro x hx; simp only [step, Option.some.injEq] at hx; exact hx.symm
    · intro hx; cases hx
    · intro x hx; rw [hf.headers x hx]; rfl
  | hRead k =>
    obtain ⟨h1, h2, h3⟩ := h
    cases k with
    | header key => exact ⟨hf, same, by rw [h1]; simp only [step, h3]; rfl⟩
    | lang => exact ⟨hf, same, by rw [h1]; simp only [step, h3]; rfl⟩
    | plural e id id2 n args =>
      refine ⟨hf, same, h1, ?_⟩
      rw [h3, pluralOf_none f h2]
      rfl
  | pCheck e id id2 n args =>
    cases hp : g.plural with
    | none =>
      rw [show step E dg g (.pCheck e id id2 n args) = (g, .hCheck (.plural e id id2 n args)) by simp only [step, hp]]
      exact ⟨hf, same, h, hf.pluralNone hp⟩
    | some x =>
      rw [show step E dg g (.pCheck e id id2 n args) = (g, .pRead e id id2 n args) by simp only [step, hp]]
      exact ⟨hf, same, h, by rw [← hf.plural x hp]; exact hp⟩
  | pWrite p e id id2 n args =>
    obtain ⟨h1, rfl⟩ := h
    refine ⟨⟨hf.entries, hf.headers, hf.headersNone, ?_, ?_⟩, ⟨fun _ h => h, ?_⟩, h1, rfl⟩
    · intro x hx; simp only [step, Option.some.injEq] at hx; exact hx.symm
    · intro hx; cases hx
    · intro x hx; rw [hf.plural x hx]; rfl
  | pRead e id id2 n args =>
    refine ⟨hf, same, ?_⟩
    rw [h.1]
    simp only [step, h.2, formRet]
    rfl
  | done r' => exact ⟨hf, same, h⟩

theorem reach_ok (E : Fmt.Env α) (dg : Plural.Diag) (f : Tr.File) (s : Sys α) (h : Sys.Reach E dg f s) :
    FileOk f s.file ∧ ∀ t ∈ s.threads, PcOk E dg f s.file (alone E dg f t.1) t.2 := by
  induction h with
  | init =>
    refine ⟨⟨rfl, ?_, fun h => h, ?_, fun h => h⟩, by simp⟩
    · intro h hh; exact (headersOf_some f h hh).symm
    · intro p hp; exact (pluralOf_some f p hp).symm
  | step s s' _ hs ih =>
    cases hs with
    | call c =>
      refine ⟨ih.1, ?_⟩
      intro t ht
      rcases List.mem_append.mp ht with ht | ht
      · exact ih.2 t ht
      · simp only [List.mem_singleton] at ht
        subst ht
        exact rfl
    | run i c pc hi =>
      have hm := ih.2 (c, pc) (List.mem_of_getElem? hi)
      obtain ⟨h1, h2, h3⟩ := step_ok E dg f s.file ih.1 _ pc hm
      refine ⟨h1, ?_⟩
      intro t ht
      rcases List.mem_or_eq_of_mem_set ht with ht | rfl
      · exact pcOk_grows E dg f _ _ h2 _ _ (ih.2 t ht)
      · exact h3

/-- Under every interleaving of any number of calls on one file (whatever part of the lazy
initialization was done before), a call that has returned returned what it returns alone. -/
theorem C51_agree (E : Fmt.Env α) (dg : Plural.Diag) (f : Tr.File) (s : Sys α) (h : Sys.Reach E dg f s) (c : Call α)
    (r : Ret) (ht : (c, Pc.done r) ∈ s.threads) : r = alone E dg f c :=
  (reach_ok E dg f s h).2 _ ht

/-- Steps left. -/
def Pc.left : Pc α → Nat
  | .start _ => 8
  | .pCheck _ _ _ _ _ => 7
  | .hCheck (.plural _ _ _ _ _) => 6
  | .hWrite _ (.plural _ _ _ _ _) => 5
  | .hRead (.plural _ _ _ _ _) => 4
  | .pWrite _ _ _ _ _ _ => 3
  | .pRead _ _ _ _ _ => 2
  | .hCheck _ => 6
  | .hWrite _ _ => 5
  | .hRead _ => 4
  | .done _ => 0

/-- Whatever the others do, each of its own steps brings a call closer to returning: no call needs more
than eight. -/
theorem C51_progress (E : Fmt.Env α) (dg : Plural.Diag) (g : Tr.File) (pc : Pc α) :
    (∃ r, pc = .done r) ∨ (step E dg g pc).2.left < pc.left := by
  cases pc with
  | start c =>
    right
    cases c with
    | xn ctxt id id2 n args =>
      cases hg : g.entries.get? (Tr.key ctxt id) with
      | none => simp [step, hg, Pc.left]
      | some e =>
        simp only [step, hg]
        split <;> simp [Pc.left]
    | _ => simp [step, Pc.left]
  | hCheck k =>
    right
    cases hh : g.headers <;> cases k <;> simp [step, hh, Pc.left]
  | hWrite h k => right; cases k <;> simp [step, Pc.left]
  | hRead k => right; cases k <;> simp [step, Pc.left]
  | pCheck e id id2 n args =>
    right
    cases hp : g.plural <;> simp [step, hp, Pc.left]
  | pWrite p e id id2 n args => right; simp [step, Pc.left]
  | pRead e id id2 n args => right; simp [step, Pc.left]
  | done r => left; exact ⟨r, rfl⟩

/-- Two goroutines that both find the headers missing and both build them, one for `Lang` and one for a
plural lookup. -/
example : let e0 : Tr.Entry := { str := b!"Language: fr\nPlural-Forms: nplurals=2; plural=n>1;\n" }
    let e1 : Tr.Entry := { id := b!"one", isPlural := true, id2 := b!"many", strN := [b!"un", b!"des"] }
    let f : Tr.File := { entries := [(e0.key, e0), (e1.key, e1)] }
    ∃ s : Sys Str, Sys.Reach Fmt.exEnv (fun _ => false) f s ∧
      (Call.lang, Pc.done (.str (.ok b!"fr"))) ∈ s.threads ∧
      (Call.xn [] b!"one" b!"many" 2 [], Pc.done (.str (.ok b!"des"))) ∈ s.threads := by
  intro e0 e1 f
  have s0 := Sys.Reach.init (E := Fmt.exEnv) (dg := fun _ => false) (f := f)
  have s1 := Sys.Reach.step _ _ s0 (.call _ .lang)
  have s2 := Sys.Reach.step _ _ s1 (.call _ (.xn [] b!"one" b!"many" 2 []))
  have s3 := Sys.Reach.step _ _ s2 (.run _ 0 _ _ rfl)
  have s4 := Sys.Reach.step _ _ s3 (.run _ 1 _ _ rfl)
  have s5 := Sys.Reach.step _ _ s4 (.run _ 1 _ _ rfl)
  have s6 := Sys.Reach.step _ _ s5 (.run _ 1 _ _ rfl)
  have s7 := Sys.Reach.step _ _ s6 (.run _ 0 _ _ rfl)
  have s8 := Sys.Reach.step _ _ s7 (.run _ 1 _ _ rfl)
  have s9 := Sys.Reach.step _ _ s8 (.run _ 0 _ _ rfl)
  have s10 := Sys.Reach.step _ _ s9 (.run _ 1 _ _ rfl)
  have s11 := Sys.Reach.step _ _ s10 (.run _ 0 _ _ rfl)
  have s12 := Sys.Reach.step _ _ s11 (.run _ 1 _ _ rfl)
  have s13 := Sys.Reach.step _ _ s12 (.run _ 1 _ _ rfl)
  exact ⟨_, s13, List.mem_cons_self, List.mem_cons_of_mem _ List.mem_cons_self⟩

end Verif.Conc
