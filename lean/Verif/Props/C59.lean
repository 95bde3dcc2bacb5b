import Verif.Spec.Run
import Verif.Lemmas.TrimSpec
import Verif.Lemmas.Bytes
import Verif.Lemmas.Strings
import Verif.Lemmas.Utf8
/-!
# C59: the functions a template may call
-/
namespace Verif.Xt
open Verif

theorem identStart_iff (c : UInt8) : isIdentStart c = true ↔ LetterByte c := by
  unfold LetterByte
  revert c; apply u8; decide +kernel

theorem word_iff (c : UInt8) : isWordByte c = true ↔ LetterByte c ∨ DigitByte c := by
  unfold LetterByte DigitByte
  revert c; apply u8; decide +kernel

theorem letter_not_digit (c : UInt8) : LetterByte c → ¬ DigitByte c := by
  unfold LetterByte DigitByte
  revert c; apply u8; decide +kernel

theorem takeWhile_all (s : Str) : ∀ x ∈ s.takeWhile isWordByte, LetterByte x ∨ DigitByte x := by
  intro x hx
  exact (word_iff x).mp (List.all_eq_true.mp (List.all_takeWhile (p := isWordByte) (l := s)) x hx)

theorem dropWhile_head (s : Str) (x : UInt8) (t : Str) (h : s.dropWhile isWordByte = x :: t) :
    ¬ (LetterByte x ∨ DigitByte x) := by
  rw [← word_iff]
  have := List.head?_dropWhile_not isWordByte s
  rw [h] at this
  simpa using this

/-- A run of word bytes is the whole run if what follows is not a word byte. -/
theorem takeWhile_run (r b : Str) (hr : ∀ x ∈ r, LetterByte x ∨ DigitByte x)
    (hb : ∀ x b', b = x :: b' → ¬ (LetterByte x ∨ DigitByte x)) :
    (r ++ b).takeWhile isWordByte = r ∧ (r ++ b).dropWhile isWordByte = b := by
  have h1 : ∀ x ∈ r, isWordByte x = true := fun x hx => (word_iff x).mpr (hr x hx)
  have h2 : b.takeWhile isWordByte = [] ∧ b.dropWhile isWordByte = b := by
    cases b with
    | nil => simp
    | cons x b' =>
      have : isWordByte x = false := by
        rw [← Bool.not_eq_true, word_iff]; exact hb x b' rfl
      simp [this]
  constructor
  · rw [List.takeWhile_append_of_pos h1, h2.1, List.append_nil]
  · rw [List.dropWhile_append_of_pos h1, h2.2]

/-- The identifier occurs at a place that is not inside a longer word. -/
def Occ (n src : Str) : Prop :=
  ∃ a d b, src = a ++ d ++ n ++ b ∧ (∀ x ∈ d, DigitByte x) ∧
    (∀ a' x, a = a' ++ [x] → ¬ (LetterByte x ∨ DigitByte x)) ∧
    (∀ x b', b = x :: b' → ¬ (LetterByte x ∨ DigitByte x))

theorem find_iff (src : Str) : ∀ n, n ∈ findIdents src ↔ Ident n ∧ Occ n src := by
  induction src using findIdents.induct with
  | case1 =>
    intro n
    simp only [findIdents, List.not_mem_nil, false_iff]
    rintro ⟨⟨c, r, rfl, -⟩, a, d, b, h, -⟩
    have := congrArg List.length h
    simp at this
  | case2 c s hc ih =>
    intro n
    rw [findIdents, if_pos hc, List.mem_cons, ih]
    have hcl := (identStart_iff c).mp hc
    constructor
    · rintro (rfl | ⟨hi, a, d, b, h, hd, ha, hb⟩)
      · refine ⟨⟨c, _, rfl, hcl, takeWhile_all s⟩, [], [], s.dropWhile isWordByte, by simp, by simp, by simp, ?_⟩
        exact fun x b' h => dropWhile_head s x b' h
      · refine ⟨hi, c :: s.takeWhile isWordByte ++ a, d, b, ?_, hd, ?_, hb⟩
        · rw [List.append_assoc, List.append_assoc, List.append_assoc, ← List.append_assoc d,
            ← List.append_assoc a, ← List.append_assoc a, ← h]
          simp
        · intro a' x hx
          cases a using List.reverseRecOn with
          | nil =>
            exfalso
            obtain ⟨c', r, rfl, h1, h2⟩ := hi
            cases d with
            | nil => exact dropWhile_head s c' (r ++ b) (by simpa using h) (.inl h1)
            | cons y d =>
              exact dropWhile_head s y (d ++ (c' :: r) ++ b) (by simpa using h) (.inr (hd y (by simp)))
          | append_singleton a y _ =>
            rw [← List.append_assoc] at hx
            have := List.append_inj_right' hx rfl
            simp at this
            exact this ▸ ha a y rfl
    · rintro ⟨hi, a, d, b, h, hd, ha, hb⟩
      cases a with
      | nil =>
        left
        obtain ⟨c', r, rfl, h1, h2⟩ := hi
        cases d with
        | cons y d =>
          simp at h
          exact absurd (hd y (by simp)) (h.1 ▸ letter_not_digit c hcl)
        | nil =>
          simp at h
          obtain ⟨rfl, rfl⟩ := h
          rw [(takeWhile_run r b h2 hb).1]
      | cons y a =>
        right
        refine ⟨hi, ?_⟩
        simp only [List.cons_append, List.cons.injEq] at h
        obtain ⟨rfl, h⟩ := h
        -- the run of word bytes lies within `a`
        have hsplit : ∃ a2, a = s.takeWhile isWordByte ++ a2 := by
          have hp1 : a <+: s := ⟨d ++ n ++ b, by rw [h]; simp⟩
          have hp2 : s.takeWhile isWordByte <+: s := List.takeWhile_prefix _
          rcases List.prefix_or_prefix_of_prefix hp2 hp1 with hp | hp
          · obtain ⟨a2, rfl⟩ := hp; exact ⟨a2, rfl⟩
          · cases a using List.reverseRecOn with
            | nil => exact absurd (.inl hcl) (ha [] c rfl)
            | append_singleton a z _ =>
              exact absurd (takeWhile_all s z (hp.subset (by simp))) (ha (c :: a) z rfl)
        obtain ⟨a2, rfl⟩ := hsplit
        refine ⟨a2, d, b, ?_, hd, ?_, hb⟩
        · have h3 := List.takeWhile_append_dropWhile (p := isWordByte) (l := s)
          have h4 : s.takeWhile isWordByte ++ s.dropWhile isWordByte =
              s.takeWhile isWordByte ++ (a2 ++ d ++ n ++ b) := by
            rw [h3]; simpa using h
          exact List.append_cancel_left h4
        · intro a' x hx
          exact ha (c :: (s.takeWhile isWordByte ++ a')) x (by rw [hx]; simp)
  | case3 c s hc ih =>
    intro n
    rw [findIdents, if_neg hc, ih]
    have hcl : ¬ LetterByte c := fun h => hc ((identStart_iff c).mpr h)
    refine and_congr_right fun hi => ?_
    obtain ⟨c', r, hn, h1, h2⟩ := hi
    constructor
    · rintro ⟨a, d, b, h, hd, ha, hb⟩
      cases a with
      | nil =>
        by_cases hdig : DigitByte c
        · refine ⟨[], c :: d, b, by simp [h], ?_, by simp, hb⟩
          intro x hx
          rcases List.mem_cons.mp hx with rfl | hx
          · exact hdig
          · exact hd x hx
        · refine ⟨[c], d, b, by simp [h], hd, ?_, hb⟩
          intro a' x hx
          cases a' with
          | nil =>
            simp at hx; subst hx
            exact fun h => h.elim hcl hdig
          | cons y a' => simp at hx
      | cons y a =>
        refine ⟨c :: y :: a, d, b, by simp [h], hd, ?_, hb⟩
        intro a' x hx
        cases a' with
        | nil => simp at hx
        | cons z a' =>
          simp only [List.cons_append, List.cons.injEq] at hx
          exact ha a' x hx.2
    · rintro ⟨a, d, b, h, hd, ha, hb⟩
      cases a with
      | nil =>
        cases d with
        | nil =>
          subst hn
          simp at h
          exact absurd h1 (h.1 ▸ hcl)
        | cons y d =>
          simp at h
          exact ⟨[], d, b, by simp [h.2], fun x hx => hd x (by simp [hx]), by simp, hb⟩
      | cons y a =>
        simp at h
        refine ⟨a, d, b, by simp [h.2], hd, ?_, hb⟩
        intro a' x hx
        exact ha (y :: a') x (by simp [hx])

/-- **C59**: the scan finds exactly the ASCII identifiers of the text that are not keywords of the
template language. -/
theorem C59_scan (src n : Str) : n ∈ scanFuncNames src ↔ OccursIn n src ∧ ¬ TemplateKeyword n := by
  unfold scanFuncNames OccursIn
  rw [List.mem_filter, find_iff]
  refine and_congr Iff.rfl ?_
  simp only [templateBuiltins, TemplateKeyword, List.contains_eq_mem, Bool.not_eq_true',
    decide_eq_false_iff_not, List.mem_cons, List.not_mem_nil, or_false]

theorem functionNames_iff (function n : Str) : n ∈ functionNames function ↔ FunctionName function n := by
  unfold functionNames FunctionName
  simp only [List.mem_filter, List.mem_map, decide_eq_true_eq]
  constructor
  · rintro ⟨⟨t, ht, rfl⟩, hne⟩
    exact ⟨_, GoStr.splitByte_ne_nil 44 function, GoStr.splitByte_not_mem 44 function,
      (GoStr.intercalate_splitByte 44 function).symm, t, ht, (GoStr.trims_iff _ _).mpr rfl, hne⟩
  · rintro ⟨items, h1, h2, rfl, t, ht, htr, hne⟩
    rw [GoStr.splitByte_intercalate 44 items h1 h2]
    exact ⟨⟨t, ht, (GoStr.trims_iff _ _).mp htr⟩, hne⟩

theorem ctxFunctions_iff (kws : List Keyword) (p : Param) (n : Str) : n ∈ ctxFunctions kws p ↔ Given kws p n := by
  unfold ctxFunctions Given
  rw [List.mem_append, functionNames_iff, List.mem_map]

/-- **C59**: the functions registered for a template are the extraction keywords, those given by `-f`
and the identifiers of its text other than the keywords of the template language. -/
theorem C59_registered (kws : List Keyword) (p : Param) (src n : Str) :
    n ∈ funcsFor kws p src ↔ Callable kws p src n := by
  unfold funcsFor Callable
  rw [List.mem_append, ctxFunctions_iff, C59_scan]

/-- **C59**: no keyword of the template language is registered by the scan. -/
theorem C59_no_keyword (src n : Str) (h : TemplateKeyword n) : n ∉ scanFuncNames src := by
  rw [C59_scan]; exact fun ⟨_, h'⟩ => h' h

/-- Example: `{{ if 9lives.foo_1 }}é`. -/
example : OccursIn b!"foo_1" b!"{{ if 9lives.foo_1 }}é" ∧ OccursIn b!"lives" b!"{{ if 9lives.foo_1 }}é" ∧
    ¬ OccursIn b!"foo" b!"{{ if 9lives.foo_1 }}é" ∧ OccursIn b!"if" b!"{{ if 9lives.foo_1 }}é" ∧
    scanFuncNames b!"{{ if 9lives.foo_1 }}é" = [b!"lives", b!"foo_1"] := by
  have h := fun n => (find_iff b!"{{ if 9lives.foo_1 }}é" n).symm
  exact ⟨(h _).mpr (by decide +kernel), (h _).mpr (by decide +kernel),
    fun hh => absurd ((h _).mp hh) (by decide +kernel), (h _).mpr (by decide +kernel), by decide +kernel⟩

end Verif.Xt
