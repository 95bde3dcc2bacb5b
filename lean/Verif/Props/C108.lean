import Verif.Props.C50_C51
import Mathlib.Data.List.Dedup
/-!
# C108 What the tag cache holds

`Match` (matcher.go:5-7) calls `Tags` twice; `GetUserLang` (http.go:29-33) calls `language.Make` itself and leaves the cache alone.
-/
namespace Verif.Conc
open Verif

theorem mem_keys_set {V : Type} (m : GMap V) (k k' : Str) (v : V) : k' ∈ (m.set k v).keys ↔ k' = k ∨ k' ∈ m.keys := by
  have h := GMap.get?_set m k k' v
  rw [← not_iff_not, ← GMap.get?_eq_none, h, not_or, ← GMap.get?_eq_none]
  split <;> simp_all

theorem step_keys {T : Type} (mk : Str → T) (cache : GMap T) (t : TagThread T) : ∀ k ∈ cache.keys, k ∈ (t.step mk cache).1.keys := by
  intro k hk
  unfold TagThread.step
  split
  · exact hk
  · split
    · split <;> exact hk
    · exact hk
    · exact (mem_keys_set ..).2 (.inr hk)

/-- What a goroutine has gone through is in the cache. -/
def Went {T : Type} (cache : GMap T) (t : TagThread T) : Prop :=
  ∃ past, t.args = past ++ t.todo ∧ past.length = t.acc.length ∧ ∀ l ∈ past, l ∈ cache.keys

theorem went_step {T : Type} (mk : Str → T) (cache : GMap T) (t : TagThread T) (h : Went cache t) :
    Went (t.step mk cache).1 (t.step mk cache).2 ∧ (t.step mk cache).2.args = t.args ∧
      (cache.keys.Nodup → (t.step mk cache).1.keys.Nodup) ∧ ∀ k ∈ (t.step mk cache).1.keys, k ∈ cache.keys ∨ k ∈ t.args := by
  obtain ⟨args, todo, pc, acc⟩ := t
  obtain ⟨past, h1, h2, h3⟩ := h
  simp only at h1 h2 h3
  subst h1
  unfold TagThread.step
  cases todo with
  | nil => exact ⟨⟨past, rfl, h2, h3⟩, rfl, id, fun k hk => .inl hk⟩
  | cons l rest =>
    dsimp only
    cases pc with
    | load =>
      dsimp only
      cases hg : cache.get? l with
      | none => exact ⟨⟨past, rfl, h2, h3⟩, rfl, id, fun k hk => .inl hk⟩
      | some v =>
        refine ⟨⟨past ++ [l], by simp, by simp [h2], ?_⟩, rfl, id, fun k hk => .inl hk⟩
        intro k hk
        rcases List.mem_append.1 hk with hk | hk
        · exact h3 k hk
        · rw [List.mem_singleton] at hk
          subst hk
          by_contra hn
          rw [(GMap.get?_eq_none ..).2 hn] at hg
          cases hg
    | make => exact ⟨⟨past, rfl, h2, h3⟩, rfl, id, fun k hk => .inl hk⟩
    | store tag =>
      refine ⟨⟨past ++ [l], by simp, by simp [h2], ?_⟩, rfl, GMap.nodup_set _ _ _, ?_⟩
      · intro k hk
        rcases List.mem_append.1 hk with hk | hk
        · exact (mem_keys_set ..).2 (.inr (h3 k hk))
        · exact (mem_keys_set ..).2 (.inl (List.mem_singleton.1 hk))
      · intro k hk
        rcases (mem_keys_set ..).1 hk with rfl | hk
        · exact .inr (by simp)
        · exact .inl hk

theorem went_reach {T : Type} (mk : Str → T) (s : TagSys T) (h : TagSys.Reach mk s) :
    s.cache.keys.Nodup ∧ (∀ t ∈ s.threads, Went s.cache t) ∧ ∀ k ∈ s.cache.keys, ∃ t ∈ s.threads, k ∈ t.args := by
  induction h with
  | init => exact ⟨List.nodup_nil, by simp, by simp [GMap.keys]⟩
  | step s s' _ hs ih =>
    obtain ⟨i1, i2, i3⟩ := ih
    cases hs with
    | call args =>
      refine ⟨i1, ?_, ?_⟩
      · intro t ht
        rcases List.mem_append.mp ht with ht | ht
        · exact i2 t ht
        · rw [List.mem_singleton.1 ht]
          exact ⟨[], rfl, rfl, by simp⟩
      · intro k hk
        obtain ⟨t, ht, hka⟩ := i3 k hk
        exact ⟨t, List.mem_append_left _ ht, hka⟩
    | run i t hi =>
      have hm := List.mem_of_getElem? hi
      obtain ⟨w1, w2, w3, w4⟩ := went_step mk s.cache t (i2 t hm)
      refine ⟨w3 i1, ?_, ?_⟩
      · intro t' ht'
        rcases List.mem_or_eq_of_mem_set ht' with ht' | rfl
        · obtain ⟨past, p1, p2, p3⟩ := i2 t' ht'
          exact ⟨past, p1, p2, fun l hl => step_keys mk s.cache t l (p3 l hl)⟩
        · exact w1
      · intro k hk
        obtain ⟨hlt, rfl⟩ := List.getElem?_eq_some_iff.1 hi
        have self : (s.threads[i].step mk s.cache).2 ∈ s.threads.set i (s.threads[i].step mk s.cache).2 := List.mem_set hlt _
        rcases w4 k hk with hk | hk
        · obtain ⟨t, ht, hka⟩ := i3 k hk
          obtain ⟨j, hj, rfl⟩ := List.getElem_of_mem ht
          by_cases hij : i = j
          · subst hij
            exact ⟨_, self, by rw [w2]; exact hka⟩
          · refine ⟨s.threads[j], ?_, hka⟩
            exact List.mem_iff_getElem.2 ⟨j, by simpa using hj, by simp [hij]⟩
        · exact ⟨_, self, by rw [w2]; exact hk⟩

/-- **C108** At any time, under any interleaving: a name is in the cache at most once, with `language.Make` of it; it is the argument of some
call; and a call that has got this far has put there, or found there, all the names before. -/
theorem C108_holds {T : Type} (mk : Str → T) (s : TagSys T) (h : TagSys.Reach mk s) :
    s.cache.keys.Nodup ∧ (∀ k v, s.cache.get? k = some v → v = mk k) ∧ (∀ k ∈ s.cache.keys, ∃ t ∈ s.threads, k ∈ t.args) ∧
    ∀ t ∈ s.threads, ∀ k ∈ t.args.take t.acc.length, k ∈ s.cache.keys := by
  obtain ⟨h1, h2, h3⟩ := went_reach mk s h
  refine ⟨h1, (tag_reach mk s h).1, h3, ?_⟩
  intro t ht k hk
  obtain ⟨past, p1, p2, p3⟩ := h2 t ht
  rw [p1, ← p2, List.take_left'] at hk
  · exact p3 k hk
  · rfl

/-- **C108** When all calls have returned the cache holds exactly the names asked for, each once: its size is the number of different names,
however often and in whatever order they were asked for. -/
theorem C108_quiet {T : Type} (mk : Str → T) (s : TagSys T) (h : TagSys.Reach mk s) (hq : ∀ t ∈ s.threads, t.todo = []) :
    s.cache.keys.Perm (s.threads.flatMap TagThread.args).dedup ∧ s.cache.length = (s.threads.flatMap TagThread.args).dedup.length := by
  obtain ⟨h1, h2, h3⟩ := went_reach mk s h
  have hp : s.cache.keys.Perm (s.threads.flatMap TagThread.args).dedup := by
    refine (List.perm_ext_iff_of_nodup h1 (List.nodup_dedup _)).2 fun k => ?_
    rw [List.mem_dedup, List.mem_flatMap]
    constructor
    · exact h3 k
    · rintro ⟨t, ht, hk⟩
      obtain ⟨past, p1, p2, p3⟩ := h2 t ht
      rw [hq t ht, List.append_nil] at p1
      exact p3 k (p1 ▸ hk)
  refine ⟨hp, ?_⟩
  have := hp.length_eq
  rwa [GMap.keys, List.length_map] at this

/-- **C108** Nothing ever leaves the cache, and what is in it stays as it is. -/
theorem C108_stays {T : Type} (mk : Str → T) (s s' : TagSys T) (h : TagSys.Reach mk s) (hs : TagSys.Step mk s s') (k : Str) (v : T)
    (hk : s.cache.get? k = some v) : s'.cache.get? k = some v := by
  have hv := (tag_reach mk s h).1 k v hk
  have hv' := (tag_reach mk s' (.step s s' h hs)).1 k
  have hm : k ∈ s.cache.keys := by
    by_contra hn
    rw [(GMap.get?_eq_none ..).2 hn] at hk
    cases hk
  have hm' : k ∈ s'.cache.keys := by
    cases hs with
    | call args => exact hm
    | run i t hi => exact step_keys mk s.cache t k hm
  cases hg : s'.cache.get? k with
  | none => exact absurd hm' ((GMap.get?_eq_none ..).1 hg)
  | some v' => rw [hv' v' hg, hv]

theorem reach_quiet {T : Type} (mk : Str → T) (n : Nat) : ∀ (c : GMap T) (t : TagThread T), t.left = n →
    TagSys.Reach mk { cache := c, threads := [t] } →
    ∃ c' t', TagSys.Reach mk { cache := c', threads := [t'] } ∧ t'.args = t.args ∧ t'.todo = [] := by
  induction n using Nat.strongRecOn with
  | ind n ih =>
    intro c t hn hr
    by_cases ht : t.todo = []
    · exact ⟨c, t, hr, rfl, ht⟩
    · have hp := C50_progress mk c t ht
      have ha : (t.step mk c).2.args = t.args :=
        (went_step mk c t ((went_reach mk _ hr).2.1 t (List.mem_singleton.2 rfl))).2.1
      obtain ⟨c', t', r, e, q⟩ := ih _ (hn ▸ hp) (t.step mk c).1 (t.step mk c).2 rfl
        (.step _ _ hr (.run { cache := c, threads := [t] } 0 t rfl))
      exact ⟨c', t', r, e.trans ha, q⟩

/-- **C108** So nothing bounds the cache: any list of names can be asked for, and then the cache has as many entries as there are different
names in it; there is a list with `n` of them for every `n`. -/
theorem C108_unbounded {T : Type} (mk : Str → T) : (∀ names : List Str, ∃ s : TagSys T, TagSys.Reach mk s ∧
      (∀ t ∈ s.threads, t.todo = []) ∧ s.threads.map TagThread.args = [names] ∧ s.cache.length = names.dedup.length) ∧
    ∀ n, ∃ s : TagSys T, TagSys.Reach mk s ∧ s.cache.length = n := by
  have all : ∀ names : List Str, ∃ s : TagSys T, TagSys.Reach mk s ∧
      (∀ t ∈ s.threads, t.todo = []) ∧ s.threads.map TagThread.args = [names] ∧ s.cache.length = names.dedup.length := by
    intro names
    obtain ⟨c, t, r, e, q⟩ := reach_quiet mk _ [] (TagThread.call names) rfl (.step _ _ .init (.call _ names))
    have hq : ∀ t' ∈ [t], t'.todo = [] := fun t' ht' => by rw [List.mem_singleton.1 ht']; exact q
    have hl := (C108_quiet mk _ r hq).2
    refine ⟨_, r, hq, by simp [e]; rfl, ?_⟩
    rw [hl]
    simp only [List.flatMap_cons, List.flatMap_nil, List.append_nil, e]
    rfl
  refine ⟨all, fun n => ?_⟩
  obtain ⟨s, r, -, -, hl⟩ := all ((List.range n).map fun i => List.replicate i 97)
  refine ⟨s, r, ?_⟩
  rw [hl, List.Nodup.dedup, List.length_map, List.length_range]
  refine List.Nodup.map (fun i j h => ?_) List.nodup_range
  simpa using congrArg List.length h

/-- Two spellings of one language are two entries. -/
example : ∃ s : TagSys Nat, TagSys.Reach List.length s ∧ s.cache.length = 2 := by
  obtain ⟨s, r, -, -, hl⟩ := (C108_unbounded (List.length : Str → Nat)).1 [b!"zh_CN", b!"zh-CN", b!"zh_CN"]
  exact ⟨s, r, by rw [hl]; decide⟩

end Verif.Conc
