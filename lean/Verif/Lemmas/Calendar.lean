import Verif.Spec.Calendar
import Verif.Model.Time
import Mathlib.Tactic.IntervalCases
/-! # The number of a day -/
namespace Verif.Time
open Verif

/-- Days from 1970 to the beginning of a year. -/
def yearStart (y : Int) : Int := 365 * (y - 1970) + ((y - 1) / 4 - 492) - ((y - 1) / 100 - 19) + ((y - 1) / 400 - 4)

/-- Days from the beginning of a year to that of a month. -/
def monthStart (leap : Bool) (m : Nat) : Nat :=
  (if leap && decide (2 < m) then 1 else 0) + daysBefore.getD (m - 1) 0

theorem isLeap_iff (y : Int) : isLeap y = true ↔ Leap y := by
  unfold isLeap Leap
  simp only [Bool.and_eq_true, beq_iff_eq, Bool.or_eq_true, bne_iff_ne]
  omega

theorem monthLength_eq (y : Int) (m : Nat) : monthLength y m =
    if m = 2 then (if isLeap y then 29 else 28) else if m = 4 ∨ m = 6 ∨ m = 9 ∨ m = 11 then 30 else 31 := by
  unfold monthLength
  simp only [isLeap_iff]

theorem yearStart_succ (y : Int) : yearStart (y + 1) = yearStart y + 365 + (if isLeap y then 1 else 0) := by
  unfold yearStart
  split
  · next h => rw [isLeap_iff] at h; unfold Leap at h; omega
  · next h => rw [isLeap_iff] at h; unfold Leap at h; omega

/-- The number of a day. -/
def dayNumber (D : Date) : Int := yearStart D.year + monthStart (isLeap D.year) D.month + (D.day - 1 : Int)

theorem month_bounds : ∀ leap : Bool, ∀ m, 1 ≤ m → m < 12 → monthStart leap (m + 1) = monthStart leap m +
    (if m = 2 then (if leap then 29 else 28) else if m = 4 ∨ m = 6 ∨ m = 9 ∨ m = 11 then 30 else 31) := by
  intro leap m h1 h2
  interval_cases m <;> cases leap <;> rfl

theorem month_last (leap : Bool) : monthStart leap 12 + 31 = 365 + (if leap then 1 else 0) := by cases leap <;> rfl

theorem next_valid {D : Date} (h : D.Valid) : D.next.Valid := by
  obtain ⟨h1, h2, h3, h4⟩ := h
  unfold Date.next
  split
  · exact ⟨h1, h2, by simp, by simp; omega⟩
  · split
    · refine ⟨by simp, by simp; omega, by simp, ?_⟩
      simp only [monthLength]
      split <;> split <;> omega
    · exact ⟨by simp, by simp, by simp, by simp [monthLength]⟩

theorem next_number {D : Date} (h : D.Valid) : dayNumber D.next = dayNumber D + 1 := by
  obtain ⟨h1, h2, h3, h4⟩ := h
  unfold Date.next
  split
  · unfold dayNumber
    simp only
    omega
  · next hd =>
    have he : D.day = monthLength D.year D.month := by omega
    split
    · next hm =>
      have := month_bounds (isLeap D.year) D.month h1 hm
      rw [← monthLength_eq] at this
      unfold dayNumber
      simp only
      omega
    · next hm =>
      have hm : D.month = 12 := by omega
      have hl := month_last (isLeap D.year)
      have hy := yearStart_succ D.year
      have h31 : monthLength D.year 12 = 31 := rfl
      have h0 : monthStart (isLeap (D.year + 1)) 1 = 0 := by cases isLeap (D.year + 1) <;> rfl
      unfold dayNumber
      simp only
      rw [hm] at he ⊢
      rw [h0]
      split at hy <;> simp_all <;> omega

theorem month_end (y : Int) (m : Nat) (h1 : 1 ≤ m) (h2 : m ≤ 12) :
    monthStart (isLeap y) m + monthLength y m ≤ 365 + (if isLeap y then 1 else 0) := by
  rw [monthLength_eq]
  cases isLeap y <;> interval_cases m <;> decide

theorem month_mono (leap : Bool) (m m' : Nat) (h1 : 1 ≤ m) (h : m < m') (h2 : m' ≤ 12) : monthStart leap m +
    (if m = 2 then (if leap then 29 else 28) else if m = 4 ∨ m = 6 ∨ m = 9 ∨ m = 11 then 30 else 31) ≤ monthStart leap m' := by
  rw [← month_bounds leap m h1 (by omega)]
  generalize hk : m + 1 = k
  have hle : k ≤ m' := by omega
  have h1k : 1 ≤ k := by omega
  clear hk h h1
  cases leap <;> interval_cases m' <;> interval_cases k <;> decide

theorem year_mono {y y' : Int} (h : y < y') : yearStart y + 365 + (if isLeap y then 1 else 0) ≤ yearStart y' := by
  rw [← yearStart_succ]
  have : y + 1 ≤ y' := h
  generalize y + 1 = k at this
  unfold yearStart
  omega

/-- Earlier as dates are written: by year, then month, then day. -/
def Before (D D' : Date) : Prop := D.year < D'.year ∨ (D.year = D'.year ∧ (D.month < D'.month ∨ (D.month = D'.month ∧ D.day < D'.day)))

theorem before_number {D D' : Date} (h : D.Valid) (h' : D'.Valid) (hb : Before D D') : dayNumber D < dayNumber D' := by
  obtain ⟨y, m, d⟩ := D
  obtain ⟨y', m', d'⟩ := D'
  obtain ⟨h1, h2, h3, h4⟩ := h
  obtain ⟨k1, k2, k3, k4⟩ := h'
  unfold dayNumber
  simp only at *
  rcases hb with hy | ⟨hy, hm | ⟨hm, hd⟩⟩
  · simp only at hy
    have := year_mono hy
    have := month_end y m h1 h2
    split at this <;> simp_all <;> omega
  · simp only at hy hm
    subst hy
    have := month_mono (isLeap y) m m' h1 hm k2
    rw [← monthLength_eq] at this
    omega
  · simp only at hy hm hd
    subst hy hm
    omega

theorem before_total (D D' : Date) : Before D D' ∨ D = D' ∨ Before D' D := by
  obtain ⟨y, m, d⟩ := D
  obtain ⟨y', m', d'⟩ := D'
  unfold Before
  simp only [Date.mk.injEq]
  omega

theorem number_inj {D D' : Date} (h : D.Valid) (h' : D'.Valid) (he : dayNumber D = dayNumber D') : D = D' := by
  rcases before_total D D' with hb | hb | hb
  · have := before_number h h' hb; omega
  · exact hb
  · have := before_number h' h hb; omega

theorem dayNo_valid {n : Int} {D : Date} (h : DayNo n D) : D.Valid ∧ dayNumber D = n := by
  induction h with
  | epoch => exact ⟨⟨by decide, by decide, by decide, by decide⟩, by decide⟩
  | next h ih => exact ⟨next_valid ih.1, by rw [next_number ih.1, ih.2]⟩
  | prev hv h ih => exact ⟨hv, by have := next_number hv; omega⟩

/-! ## The algorithm -/

theorem cut_hundreds (d1 : Nat) (h1 : d1 < 146097) : ∃ b d2, d1 / 36524 - d1 / 36524 / 4 = b ∧ d1 - 36524 * b = d2 ∧ b ≤ 3 ∧
    d1 = 36524 * b + d2 ∧ (d2 < 36524 ∨ (b = 3 ∧ d2 = 36524)) := ⟨_, _, rfl, rfl, by omega, by omega, by omega⟩

theorem cut_ones (d3 : Nat) (h3 : d3 < 1461) : ∃ e d4, d3 / 365 - d3 / 365 / 4 = e ∧ d3 - 365 * e = d4 ∧ e ≤ 3 ∧
    d3 = 365 * e + d4 ∧ (d4 < 365 ∨ (e = 3 ∧ d4 = 365)) := ⟨_, _, rfl, rfl, by omega, by omega, by omega⟩

theorem yearDay_parts (d : Nat) : ∃ a b c e k : Nat, yearDay d = (400 * a + 100 * b + 4 * c + e, k) ∧ b ≤ 3 ∧ c ≤ 24 ∧ e ≤ 3 ∧
    d = 146097 * a + 36524 * b + 1461 * c + 365 * e + k ∧ (k < 365 ∨ (k = 365 ∧ e = 3 ∧ (c < 24 ∨ b = 3))) := by
  obtain ⟨b, d2, hb, hd2, b3, e1, l1⟩ := cut_hundreds (d - 146097 * (d / 146097)) (by omega)
  obtain ⟨e, k, he, hk, e3, e2, l2⟩ := cut_ones (d2 - 1461 * (d2 / 1461)) (by omega)
  refine ⟨d / 146097, b, d2 / 1461, e, k, ?_, b3, ?_, e3, ?_, ?_⟩
  · unfold yearDay
    simp only
    rw [hb, hd2, he, hk]
  · omega
  · omega
  · omega

theorem yearDay_eq (d : Nat) : (d : Int) = 365 * (yearDay d).1 + (yearDay d).1 / 4 - (yearDay d).1 / 100 + (yearDay d).1 / 400 + (yearDay d).2 ∧
    (yearDay d).2 < 365 + (if isLeap ((yearDay d).1 + 1) then 1 else 0) := by
  obtain ⟨a, b, c, e, k, h, hb, hc, he, hd, hk⟩ := yearDay_parts d
  rw [h]
  simp only
  have q4 : ((400 * a + 100 * b + 4 * c + e : Nat) : Int) / 4 = 100 * a + 25 * b + c := by omega
  have q100 : ((400 * a + 100 * b + 4 * c + e : Nat) : Int) / 100 = 4 * a + b := by omega
  have q400 : ((400 * a + 100 * b + 4 * c + e : Nat) : Int) / 400 = a := by omega
  rw [q4, q100, q400]
  refine ⟨by omega, ?_⟩
  split
  · omega
  · next hl =>
    rw [isLeap_iff] at hl
    unfold Leap at hl
    rcases hk with hk | ⟨hk, rfl, hcb⟩
    · omega
    · exfalso
      apply hl
      rcases hcb with hcb | rfl
      · right
        omega
      · by_cases h24 : c = 24
        · left; omega
        · right; omega

theorem monthDay_eq : ∀ leap : Bool, ∀ yday < 365 + (if leap then 1 else 0), 1 ≤ (monthDay leap yday).1 ∧ (monthDay leap yday).1 ≤ 12 ∧
    1 ≤ (monthDay leap yday).2 ∧ monthStart leap (monthDay leap yday).1 + (monthDay leap yday).2 = yday + 1 ∧
    (monthDay leap yday).2 ≤ (if (monthDay leap yday).1 = 2 then (if leap then 29 else 28)
      else if (monthDay leap yday).1 = 4 ∨ (monthDay leap yday).1 = 6 ∨ (monthDay leap yday).1 = 9 ∨ (monthDay leap yday).1 = 11 then 30 else 31) := by
  decide +kernel

/-- The date `absDate` finds. -/
def dateOf (abs : Nat) : Date := ⟨(absDate abs).1, (absDate abs).2.1, (absDate abs).2.2⟩

theorem isLeap_shift (y : Int) : isLeap (y - 292277022400) = isLeap y := by
  rw [Bool.eq_iff_iff, isLeap_iff, isLeap_iff]
  unfold Leap
  omega

theorem dateOf_valid (abs : Nat) : (dateOf abs).Valid ∧ dayNumber (dateOf abs) = (abs / 86400 : Nat) - 106751991073094 := by
  obtain ⟨h1, h2⟩ := yearDay_eq (abs / 86400)
  unfold dateOf absDate Date.Valid dayNumber
  simp only
  rw [monthLength_eq]
  generalize yearDay (abs / 86400) = yd at h1 h2
  obtain ⟨Y, k⟩ := yd
  simp only at h1 h2 ⊢
  have hs := isLeap_shift ((Y : Int) + 1)
  rw [show (Y : Int) + 1 - 292277022400 = Y - 292277022399 by omega] at hs
  rw [hs]
  obtain ⟨m1, m2, m3, m4, m5⟩ := monthDay_eq (isLeap ((Y : Int) + 1)) k h2
  refine ⟨⟨m1, m2, m3, m5⟩, ?_⟩
  unfold yearStart
  omega

end Verif.Time
