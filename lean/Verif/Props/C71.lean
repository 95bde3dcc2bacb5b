import Verif.Spec.Regexp
import Verif.Spec.File
import Verif.Spec.Run
import Verif.Lemmas.Regexp
import Verif.Lemmas.File
import Verif.Props.C59
/-! # C71: the regular expressions -/
namespace Verif.Re
open Verif

theorem reach_iff {whole : Str} {c : Cls} {g : Bool} {ops : List Op} : ∀ {s e : Str},
    Matches whole (.star c g :: ops) s e ↔ ∃ s' ∈ reach c s, Matches whole ops s' e := by
  intro s e
  induction hn : s.length using Nat.strongRecOn generalizing s with
  | ind n ih =>
    cases hs : step s with
    | none =>
      rw [reach_none hs]
      constructor
      · intro h
        cases h with
        | starNone h => exact ⟨s, by simp, h⟩
        | starMore h => rw [hs] at h; cases h
      · rintro ⟨s', h1, h2⟩
        rw [List.mem_singleton.1 h1] at h2
        exact .starNone h2
    | some x =>
      obtain ⟨r, s'⟩ := x
      have hlt := step_shorter hs
      have ih' := ih s'.length (by omega) (s := s') rfl
      rw [reach_some hs]
      constructor
      · intro h
        cases h with
        | starNone h => exact ⟨s, by simp, h⟩
        | starMore h h1 h2 =>
          rw [hs] at h; cases h
          obtain ⟨t, h3, h4⟩ := ih'.1 h2
          exact ⟨t, by rw [if_pos h1]; simp [h3], h4⟩
      · rintro ⟨t, h1, h2⟩
        rcases List.mem_cons.1 h1 with rfl | h1
        · exact .starNone h2
        · by_cases hc : c.has r = true
          · rw [if_pos hc] at h1
            exact .starMore hs hc (ih'.2 ⟨t, h1, h2⟩)
          · rw [if_neg hc] at h1; cases h1

/-- The matcher finds every match of the pattern and nothing else. -/
theorem C71_runs (whole : Str) : ∀ (ops : List Op) (s e : Str) (m : Slots),
    (∃ m', (e, m') ∈ runs whole ops s m) ↔ Matches whole ops s e := by
  intro ops
  induction ops with
  | nil =>
    intro s e m
    constructor
    · rintro ⟨m', h⟩
      rw [runs, List.mem_singleton] at h
      cases h; exact .nil s
    · intro h; cases h; exact ⟨m, by rw [runs]; simp⟩
  | cons o ops ih =>
    intro s e m
    cases o with
    | one c =>
      rw [runs]
      constructor
      · rintro ⟨m', h⟩
        cases hs : step s with
        | none => rw [hs] at h; cases h
        | some x =>
          obtain ⟨r, s'⟩ := x
          rw [hs] at h
          dsimp only at h
          by_cases hc : c.has r = true
          · rw [if_pos hc] at h
            exact .one hs hc ((ih s' e m).1 ⟨m', h⟩)
          · rw [if_neg hc] at h; cases h
      · intro h
        cases h with
        | one hs hc h =>
          rw [hs]
          dsimp only
          rw [if_pos hc]
          exact (ih _ e m).2 h
    | star c g =>
      have hr : (∃ m', (e, m') ∈ runs whole (.star c g :: ops) s m) ↔ ∃ s' ∈ reach c s, ∃ m', (e, m') ∈ runs whole ops s' m := by
        rw [runs]
        constructor
        · rintro ⟨m', h⟩
          obtain ⟨s', h1, h2⟩ := List.mem_flatMap.1 h
          refine ⟨s', ?_, m', h2⟩
          cases g with
          | true => exact List.mem_reverse.1 h1
          | false => exact h1
        · rintro ⟨s', h1, m', h2⟩
          refine ⟨m', List.mem_flatMap.2 ⟨s', ?_, h2⟩⟩
          cases g with
          | true => exact List.mem_reverse.2 h1
          | false => exact h1
      rw [hr, reach_iff]
      exact exists_congr fun s' => and_congr_right fun _ => ih s' e m
    | save k =>
      rw [runs, ih]
      exact ⟨.save, fun h => by cases h; assumption⟩
    | bot =>
      rw [runs]
      by_cases hl : s.length = whole.length
      · rw [if_pos hl, ih]
        exact ⟨.bot hl, fun h => by cases h; assumption⟩
      · rw [if_neg hl]
        exact ⟨fun ⟨_, h⟩ => (by cases h), fun h => by cases h; contradiction⟩
    | eot =>
      rw [runs]
      by_cases hl : s = []
      · subst hl
        rw [if_pos rfl, ih]
        exact ⟨.eot, fun h => by cases h; assumption⟩
      · rw [if_neg hl]
        exact ⟨fun ⟨_, h⟩ => (by cases h), fun h => by cases h; contradiction⟩

theorem head_none_iff (whole : Str) (ops : List Op) (s : Str) :
    (runs whole ops s []).head? = none ↔ ∀ e, ¬ Matches whole ops s e := by
  rw [List.head?_eq_none_iff]
  constructor
  · intro h e hm
    obtain ⟨m', hm⟩ := (C71_runs whole ops s e []).2 hm
    rw [h] at hm; cases hm
  · intro h
    cases hr : runs whole ops s [] with
    | nil => rfl
    | cons x l => exact absurd ((C71_runs whole ops s x.1 []).1 ⟨x.2, by rw [hr]; simp⟩) (h x.1)

/-- **C71** The search finds a match exactly if there is one, and none begins before it. -/
theorem C71_leftmost (ops : List Op) (s : Str) :
    (search s ops s.length s = none ↔ ∀ n b e, Behind n s b → ¬ Matches s ops b e) ∧
    ∀ b e m, search s ops s.length s = some (b, e, m) → Matches s ops b e ∧
      ∃ n, Behind n s b ∧ ∀ k < n, ∀ b' e', Behind k s b' → ¬ Matches s ops b' e' := by
  have key : ∀ (whole t : Str),
      (leftmost whole ops t = none ↔ ∀ n b e, Behind n t b → ¬ Matches whole ops b e) ∧
      ∀ b e m, leftmost whole ops t = some (b, e, m) → Matches whole ops b e ∧
        ∃ n, Behind n t b ∧ ∀ k < n, ∀ b' e', Behind k t b' → ¬ Matches whole ops b' e' := by
    intro whole t
    induction hn : t.length using Nat.strongRecOn generalizing t with
    | ind n ih =>
      cases hr : (runs whole ops t []).head? with
      | some x =>
        obtain ⟨e, m⟩ := x
        rw [leftmost_here hr]
        have hm : Matches whole ops t e := (C71_runs whole ops t e []).1 ⟨m, by
          cases hl : runs whole ops t [] with
          | nil => rw [hl] at hr; cases hr
          | cons y l => rw [hl] at hr; cases hr; simp⟩
        refine ⟨⟨fun h => (by cases h), fun h => absurd hm (h 0 t e (.here t))⟩, ?_⟩
        intro b e' m' h
        cases h
        exact ⟨hm, 0, .here t, fun k hk => absurd hk (by omega)⟩
      | none =>
        have hno := (head_none_iff whole ops t).1 hr
        cases hs : step t with
        | none =>
          cases t with
          | cons c t => cases hs
          | nil =>
            rw [leftmost_end hr]
            refine ⟨⟨fun _ n b e hb => ?_, fun _ => rfl⟩, fun b e m h => by cases h⟩
            cases hb with
            | here => exact hno e
            | there h => cases h
        | some x =>
          obtain ⟨r, t'⟩ := x
          have hlt := step_shorter hs
          rw [leftmost_step hr hs]
          obtain ⟨h1, h2⟩ := ih t'.length (by omega) t' rfl
          constructor
          · rw [h1]
            constructor
            · intro h n b e hb
              cases hb with
              | here => exact hno e
              | there hs' hb => rw [hs] at hs'; cases hs'; exact h _ b e hb
            · intro h n b e hb
              exact h (n + 1) b e (.there hs hb)
          · intro b e m h
            obtain ⟨h3, n, h4, h5⟩ := h2 b e m h
            refine ⟨h3, n + 1, .there hs h4, fun k hk b' e' hb => ?_⟩
            cases hb with
            | here => exact hno e'
            | there hs' hb => rw [hs] at hs'; cases hs'; exact h5 _ (by omega) b' e' hb
  exact key s s

/-- **C71** `reHeader` on a line: the text before and behind the first `": "`, or nothing. -/
theorem C71_header (ops : List Op) (ho : reHeader = some ops) (kv : Str) (h10 : 10 ∉ kv) :
    (∀ k v, ¬ b!": " <:+: k ++ b!":" → kv = k ++ b!": " ++ v → findAllSubmatch ops kv = [[kv, k, v]]) ∧
    ((∀ k v, kv ≠ k ++ b!": " ++ v) → findAllSubmatch ops kv = []) := by
  have h := header_all kv h10 ho
  constructor
  · intro k v hk hkv
    have hc : Tr.cutHeader kv = some (k, v) := by rw [hkv]; exact Tr.cutHeader_complete k v hk
    rw [hc] at h; exact h
  · intro hne
    cases hc : Tr.cutHeader kv with
    | none => rw [hc] at h; exact h
    | some p => exact absurd (Tr.cutHeader_sound kv p.1 p.2 hc).1 (hne p.1 p.2)

/-- **C71** `rePlurals`: the digit and the expression of the Plural-Forms syntax, or nothing. -/
theorem C71_plurals (ops : List Op) (ho : rePlurals = some ops) (s : Str) :
    (∀ d e, Tr.PluralForms s d e → findAllSubmatch ops s = [[s, [d], e]]) ∧
    ((∀ d e, ¬ Tr.PluralForms s d e) → findAllSubmatch ops s = []) := by
  have h := plurals_all s ho
  constructor
  · intro d e hp
    rw [(Tr.C18_syntax s d e).2 hp] at h; exact h
  · intro hne
    cases hc : Tr.matchPlurals s with
    | none => rw [hc] at h; exact h
    | some p => exact absurd ((Tr.C18_syntax s p.1 p.2).1 hc) (hne p.1 p.2)

/-- **C71** `identPattern`: the identifiers of a text. -/
theorem C71_idents (ops : List Op) (ho : identPattern = some ops) (src : Str) :
    findAll ops src = Xt.findIdents src ∧ ∀ n, n ∈ findAll ops src ↔ Xt.OccursIn n src := by
  have h : findAll ops src = Xt.findIdents src := by
    rw [ident_ops] at ho
    cases ho
    unfold findAll findAllSubmatch
    rw [ident_all src _ src none (by omega), List.map_map]
    conv => rhs; rw [← List.map_id (Xt.findIdents src)]
    rfl
  exact ⟨h, fun n => by rw [h]; exact Xt.find_iff src n⟩

/-- **C71** The three patterns compile. -/
theorem C71_compile : reHeader.isSome ∧ rePlurals.isSome ∧ identPattern.isSome := by
  rw [header_ops, plurals_ops, ident_ops]; exact ⟨rfl, rfl, rfl⟩

/-- **C71** The lines of a header, read with the pattern. -/
theorem C71_headerLine (h : GMap Str) (kv : Str) (h10 : 10 ∉ kv) : headerLine h kv = some (Tr.headerLine h kv) := by
  unfold headerLine
  obtain ⟨ops, ho⟩ := Option.isSome_iff_exists.1 C71_compile.1
  rw [ho, Option.map_some, Tr.headerLine]
  congr 1
  by_cases hk : kv = []
  · rw [if_pos hk, if_pos hk]
  · rw [if_neg hk, if_neg hk, header_all kv h10 ho]
    cases Tr.cutHeader kv <;> rfl

/-- **C71** A whole header text, read with the pattern. -/
theorem C71_headers (text : Str) :
    (GoStr.splitByte 10 text).foldlM headerLine [] = some (Tr.parseHeaders text) := by
  have key : ∀ (ls : List Str) (h : GMap Str), (∀ l ∈ ls, 10 ∉ l) →
      ls.foldlM headerLine h = some (ls.foldl Tr.headerLine h) := by
    intro ls
    induction ls with
    | nil => intro h _; rfl
    | cons l ls ih =>
      intro h hl
      rw [List.foldlM_cons, C71_headerLine h l (hl l (by simp))]
      exact ih _ fun x hx => hl x (by simp [hx])
  exact key _ [] (GoStr.splitByte_not_mem 10 text)

/-- **C71** `parsePlural` with the pattern. -/
theorem C71_parsePlural (forms : Str) : parsePlural forms = some (Tr.parsePlural forms) := by
  unfold parsePlural
  obtain ⟨ops, ho⟩ := Option.isSome_iff_exists.1 C71_compile.2.1
  rw [ho, Option.map_some, Tr.parsePlural]
  congr 1
  by_cases hk : forms = []
  · rw [if_pos hk, if_pos hk]
  · rw [if_neg hk, if_neg hk, plurals_all forms ho]
    cases Tr.matchPlurals forms <;> rfl

/-- **C71** `scanFuncNames` with the pattern. -/
theorem C71_scan (src : Str) : scanFuncNames src = some (Xt.scanFuncNames src) := by
  unfold scanFuncNames
  obtain ⟨ops, ho⟩ := Option.isSome_iff_exists.1 C71_compile.2.2
  rw [ho, Option.map_some, (C71_idents ops ho src).1]
  rfl

/-! Cases. -/
example : reHeader.map (findAllSubmatch · b!"Language: zh: CN") = some [[b!"Language: zh: CN", b!"Language", b!"zh: CN"]] := by
  decide +kernel

example : rePlurals.map (findAllSubmatch · b!" nplurals = 2; plural=n != 1 ;") =
    some [[b!" nplurals = 2; plural=n != 1 ;", b!"2", b!"n != 1 "]] := by decide +kernel

example : identPattern.map (findAll · b!"{{ 2x é_a1 .T }}") = some [b!"x", b!"_a1", b!"T"] := by decide +kernel

example : (compile b!"b*").map (findAll · b!"abbc") = some [b!"", b!"bb", b!""] := by decide +kernel

example : Matches b!"ab" [.one (chr 97), .star wordCls true] b!"ab" [] :=
  .one (step_low (by decide) _) (by decide) (.starMore (step_low (by decide) _) (by decide) (.starNone (.nil _)))

end Verif.Re
