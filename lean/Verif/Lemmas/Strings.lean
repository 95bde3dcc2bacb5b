import Verif.Model.GoStr
/-! # Lemmas on string functions -/
namespace Verif.GoStr

theorem splitByte_ne_nil (c : UInt8) (s : Str) : splitByte c s ≠ [] := by
  cases s with
  | nil => simp [splitByte]
  | cons x xs =>
    simp only [splitByte]
    split
    · simp
    · split <;> simp

theorem splitByte_cons_ne (c x : UInt8) (xs : Str) (h : x ≠ c) :
    ∃ p ps, splitByte c xs = p :: ps ∧ splitByte c (x :: xs) = (x :: p) :: ps := by
  cases hs : splitByte c xs with
  | nil => exact absurd hs (splitByte_ne_nil c xs)
  | cons p ps => exact ⟨p, ps, rfl, by simp [splitByte, h, hs]⟩

theorem splitByte_not_mem (c : UInt8) (s : Str) : ∀ l ∈ splitByte c s, c ∉ l := by
  induction s with
  | nil => simp [splitByte]
  | cons x xs ih =>
    by_cases h : x = c
    · subst h
      intro l hl
      simp [splitByte] at hl
      rcases hl with rfl | hl
      · simp
      · exact ih l hl
    · obtain ⟨p, ps, h1, h2⟩ := splitByte_cons_ne c x xs h
      rw [h2]
      rw [h1] at ih
      intro l hl
      rcases List.mem_cons.mp hl with rfl | hl
      · have := ih p (by simp)
        simp [this, Ne.symm h]
      · exact ih l (by simp [hl])

theorem intercalate_cons_cons (c : UInt8) (a b : Str) (l : List Str) :
    List.intercalate [c] (a :: b :: l) = a ++ c :: List.intercalate [c] (b :: l) := by
  simp [List.intercalate, List.intersperse]

theorem intercalate_single (c : UInt8) (a : Str) : List.intercalate [c] [a] = a := by
  simp [List.intercalate, List.intersperse]

theorem intercalate_splitByte (c : UInt8) (s : Str) : List.intercalate [c] (splitByte c s) = s := by
  induction s with
  | nil => rfl
  | cons x xs ih =>
    by_cases h : x = c
    · subst h
      simp only [splitByte, if_true]
      cases hs : splitByte x xs with
      | nil => exact absurd hs (splitByte_ne_nil x xs)
      | cons p ps =>
        rw [intercalate_cons_cons, ← hs, ih]; rfl
    · obtain ⟨p, ps, h1, h2⟩ := splitByte_cons_ne c x xs h
      rw [h2]; rw [h1] at ih
      cases ps with
      | nil => rw [intercalate_single] at ih ⊢; simp [ih]
      | cons q qs =>
        rw [intercalate_cons_cons] at ih ⊢
        simp [ih]

theorem splitByte_append_sep (c : UInt8) (a s : Str) (h : c ∉ a) :
    splitByte c (a ++ c :: s) = a :: splitByte c s := by
  induction a with
  | nil => simp [splitByte]
  | cons x a ih =>
    simp at h
    have := ih h.2
    simp [splitByte, Ne.symm h.1, this]

theorem splitByte_no_sep (c : UInt8) (a : Str) (h : c ∉ a) : splitByte c a = [a] := by
  induction a with
  | nil => rfl
  | cons x a ih =>
    simp at h
    simp [splitByte, Ne.symm h.1, ih h.2]

theorem splitByte_intercalate (c : UInt8) (ls : List Str) (h0 : ls ≠ []) (h : ∀ l ∈ ls, c ∉ l) :
    splitByte c (List.intercalate [c] ls) = ls := by
  induction ls with
  | nil => exact absurd rfl h0
  | cons a ls ih =>
    cases ls with
    | nil => rw [intercalate_single]; exact splitByte_no_sep c a (h a (by simp))
    | cons b ls =>
      rw [intercalate_cons_cons, splitByte_append_sep c a _ (h a (by simp)),
        ih (by simp) (fun l hl => h l (by simp [hl]))]

/-- Two strings cut at the first occurrence of a byte. -/
theorem first_occurrence (c : UInt8) (a a' s s' : Str) (h : c ∉ a) (h' : c ∉ a')
    (heq : a ++ c :: s = a' ++ c :: s') : a = a' ∧ s = s' := by
  induction a generalizing a' with
  | nil =>
    cases a' with
    | nil => simpa using heq
    | cons x a' =>
      simp at heq h'
      exact absurd heq.1 h'.1
  | cons y a ih =>
    cases a' with
    | nil => simp at heq h; exact absurd heq.1.symm h.1
    | cons x a' =>
      simp at heq h h'
      obtain ⟨rfl, heq⟩ := heq
      obtain ⟨r1, r2⟩ := ih a' h.2 h'.2 heq
      exact ⟨by rw [r1], r2⟩

theorem indexByte_none (c : UInt8) (s : Str) (h : c ∉ s) : indexByte c s = none := by
  induction s with
  | nil => rfl
  | cons x s ih => simp at h; simp [indexByte, Ne.symm h.1, ih h.2]

theorem indexByte_append (c : UInt8) (a s : Str) (h : c ∉ a) :
    indexByte c (a ++ c :: s) = some a.length := by
  induction a with
  | nil => simp [indexByte]
  | cons x a ih => simp at h; simp [indexByte, Ne.symm h.1, ih h.2]

end Verif.GoStr
