import Verif.Model.GoStr
import Verif.Lemmas.Bytes
/-! # Facts about `TrimSpace` and prefixes -/
namespace Verif.GoStr
open Verif
set_option linter.unusedSimpArgs false

theorem hasPrefix_iff (s p : Str) : hasPrefix s p = true ↔ ∃ t, s = p ++ t := by
  unfold hasPrefix
  rw [List.isPrefixOf_iff_prefix]
  constructor
  · rintro ⟨t, h⟩; exact ⟨t, h.symm⟩
  · rintro ⟨t, h⟩; exact ⟨t, h.symm⟩

theorem hasPrefix_append (p t : Str) : hasPrefix (p ++ t) p = true := (hasPrefix_iff _ _).mpr ⟨t, rfl⟩

theorem trimPrefix_append (p t : Str) : trimPrefix (p ++ t) p = t := by
  simp [trimPrefix, hasPrefix_append]

/-- A printable ASCII byte is no part of a white space rune. -/
def Solid (c : UInt8) : Prop := isAsciiSpace c = false ∧ c.toNat < 0x80

theorem Solid.sp (c : UInt8) (h : Solid c) : isAsciiSpace c = false := h.1

theorem solid_ne (c : UInt8) (h : Solid c) (k : UInt8) (hk : 128 ≤ k.toNat) : (c == k) = false := by
  simp only [beq_eq_false_iff_ne, ne_eq]
  rintro rfl
  have := h.2
  omega

theorem solid_ge (c : UInt8) (h : Solid c) (k : UInt8) (hk : 128 ≤ k.toNat) :
    decide (k ≤ c) = false := by
  have := h.2
  simp only [decide_eq_false_iff_not, UInt8.le_iff_toNat_le]
  omega

theorem sp2l (c : UInt8) (h : Solid c) (a : UInt8) : isSpace2 c a = false := by
  simp [isSpace2, solid_ne c h 0xC2 (by decide)]
theorem sp2r (c : UInt8) (h : Solid c) (a : UInt8) : isSpace2 a c = false := by
  simp [isSpace2, solid_ne c h 0x85 (by decide), solid_ne c h 0xA0 (by decide)]
theorem sp3l (c : UInt8) (h : Solid c) (a b : UInt8) : isSpace3 c a b = false := by
  simp [isSpace3, solid_ne c h 0xE1 (by decide), solid_ne c h 0xE2 (by decide),
    solid_ne c h 0xE3 (by decide)]
theorem sp3r (c : UInt8) (h : Solid c) (a b : UInt8) : isSpace3 a b c = false := by
  have h1 := solid_ge c h 0x80 (by decide)
  simp only [isSpace3, solid_ne c h 0x80 (by decide), solid_ne c h 0xA8 (by decide),
    solid_ne c h 0xA9 (by decide), solid_ne c h 0xAF (by decide), solid_ne c h 0x9F (by decide), h1]
  simp

theorem trimLeft_solid (c : UInt8) (t : Str) (h : Solid c) : trimLeft (c :: t) = c :: t := by
  match t with
  | [] => simp [trimLeft, h.1]
  | [a] => simp [trimLeft, h.1, sp2l c h, sp2r c h, sp3l c h, sp3r c h]
  | a :: b :: t => simp [trimLeft, h.1, sp2l c h, sp2r c h, sp3l c h, sp3r c h]

theorem trimRev_solid (c : UInt8) (t : Str) (h : Solid c) : trimRev (c :: t) = c :: t := by
  match t with
  | [] => simp [trimRev, h.1]
  | [a] => simp [trimRev, h.1, sp2l c h, sp2r c h, sp3l c h, sp3r c h]
  | a :: b :: t => simp [trimRev, h.1, sp2l c h, sp2r c h, sp3l c h, sp3r c h]

theorem trimRev_end (c : UInt8) (h : Solid c) (n : Nat) (r : Str) (hn : r.length ≤ n) :
    trimRev (r ++ [c]) ≠ [] := by
  induction n generalizing r with
  | zero =>
    have : r = [] := by simpa using hn
    subst this
    simp [trimRev, h.1]
  | succ n ih =>
    match r, hn with
    | [], _ => simp [trimRev, h.1]
    | [b], _ =>
      simp only [List.cons_append, List.nil_append, trimRev]
      split
      · simp [h.1]
      · simp [sp2l c h, sp2r c h, sp3l c h, sp3r c h]
    | b :: a :: r, hn =>
      cases r with
      | nil =>
        simp only [List.cons_append, List.nil_append, trimRev]
        split
        · have := ih [a] (by simp at hn ⊢; omega)
          simpa [trimRev] using this
        · split
          · simp [h.1]
          · simp [sp2l c h, sp2r c h, sp3l c h, sp3r c h]
      | cons a' r =>
        simp only [List.cons_append, trimRev]
        split
        · exact ih (a :: a' :: r) (by simp at hn ⊢; omega)
        · split
          · exact ih (a' :: r) (by simp at hn ⊢; omega)
          · split
            · exact ih r (by simp at hn ⊢; omega)
            · simp

theorem trimSpace_ne_nil (c : UInt8) (t : Str) (h : Solid c) : trimSpace (c :: t) ≠ [] := by
  unfold trimSpace trimRight
  rw [trimLeft_solid c t h]
  simp only [List.reverse_cons, ne_eq, List.reverse_eq_nil_iff]
  exact trimRev_end c h _ _ (Nat.le_refl _)

theorem trimSpace_solid (c d : UInt8) (t : Str) (hc : Solid c) (hd : Solid d) :
    trimSpace (c :: t ++ [d]) = c :: t ++ [d] := by
  unfold trimSpace trimRight
  rw [List.cons_append, trimLeft_solid c _ hc]
  have : (c :: (t ++ [d])).reverse = d :: (t.reverse ++ [c]) := by simp
  rw [this, trimRev_solid d _ hd]
  simp

theorem solid_quote : Solid 34 := ⟨by decide, by decide⟩
theorem solid_hash : Solid 35 := ⟨by decide, by decide⟩
theorem solid_m : Solid 109 := ⟨by decide, by decide⟩

end Verif.GoStr
