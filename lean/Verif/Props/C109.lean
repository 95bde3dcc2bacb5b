import Verif.Lemmas.Calendar
import Verif.Model.Layout
import Verif.Props.C56_C57
/-!
# C109 The date in the header of a POT
-/
namespace Verif.Time
open Verif

theorem dayNo_of_nat (k : Nat) : ∀ D : Date, D.Valid → dayNumber D = k → DayNo k D := by
  induction k with
  | zero =>
    intro D hv hn
    have : D = ⟨1970, 1, 1⟩ := number_inj hv (dayNo_valid .epoch).1 (by rw [(dayNo_valid .epoch).2, hn]; rfl)
    rw [this]
    exact .epoch
  | succ k ih =>
    intro D hv hn
    obtain ⟨v, e⟩ := dateOf_valid ((k + 106751991073094) * 86400)
    have hk : dayNumber (dateOf ((k + 106751991073094) * 86400)) = k := by rw [e]; omega
    have h1 := ih _ v hk
    have h2 := next_number v
    have : D = (dateOf ((k + 106751991073094) * 86400)).next := number_inj hv (next_valid v) (by rw [h2, hk, hn]; rfl)
    rw [this]
    exact .next h1

theorem dayNo_of_neg (k : Nat) : ∀ D : Date, D.Valid → dayNumber D = -(k : Int) → DayNo (-(k : Int)) D := by
  induction k with
  | zero => intro D hv hn; exact dayNo_of_nat 0 D hv (by simpa using hn)
  | succ k ih =>
    intro D hv hn
    have := ih D.next (next_valid hv) (by rw [next_number hv, hn]; omega)
    refine .prev hv ?_
    rw [show -((k + 1 : Nat) : Int) + 1 = -(k : Int) by omega]
    exact this

/-- Every date is some day, and its number is what `dayNumber` says. -/
theorem dayNo_iff (n : Int) (D : Date) : DayNo n D ↔ D.Valid ∧ dayNumber D = n := by
  refine ⟨dayNo_valid, fun ⟨hv, hn⟩ => ?_⟩
  rcases Int.eq_nat_or_neg n with ⟨k, rfl | rfl⟩
  · exact dayNo_of_nat k D hv hn
  · exact dayNo_of_neg k D hv hn

/-- **C109** The calendar has one date for every day and one day for every date, and later days are written as later dates. -/
theorem C109_calendar : (∀ n, ∃ D, DayNo n D) ∧ (∀ D, D.Valid → ∃ n, DayNo n D) ∧
    ∀ n n' D D', DayNo n D → DayNo n' D' → (D = D' ↔ n = n') ∧ (Before D D' ↔ n < n') := by
  refine ⟨fun n => ?_, fun D hv => ⟨_, (dayNo_iff _ D).2 ⟨hv, rfl⟩⟩, fun n n' D D' h h' => ?_⟩
  · have up : ∀ k : Nat, ∃ D, DayNo k D := fun k => by
      induction k with
      | zero => exact ⟨_, .epoch⟩
      | succ k ih => obtain ⟨D, h⟩ := ih; exact ⟨_, .next h⟩
    -- the calendar repeats after 400 years
    have back : ∀ k D, DayNo k D → DayNo (k - 146097) { D with year := D.year - 400 } := fun k D h => by
      rw [dayNo_iff] at h ⊢
      obtain ⟨⟨h1, h2, h3, h4⟩, h5⟩ := h
      have hl : isLeap (D.year - 400) = isLeap D.year := by
        rw [Bool.eq_iff_iff, isLeap_iff, isLeap_iff]
        unfold Leap
        omega
      refine ⟨⟨h1, h2, h3, ?_⟩, ?_⟩
      · rw [monthLength_eq] at h4 ⊢
        simp only [hl]
        exact h4
      · rw [← h5]
        unfold dayNumber
        simp only [hl]
        unfold yearStart
        omega
    have many : ∀ j : Nat, ∀ k D, DayNo k D → ∃ D', DayNo (k - 146097 * j) D' := fun j => by
      induction j with
      | zero => intro k D h; exact ⟨D, by simpa using h⟩
      | succ j ih =>
        intro k D h
        obtain ⟨D', h'⟩ := ih _ _ (back k D h)
        exact ⟨D', by rw [show k - 146097 * ((j + 1 : Nat) : Int) = k - 146097 - 146097 * j by omega]; exact h'⟩
    obtain ⟨D, hD⟩ := up (n + 146097 * n.natAbs).toNat
    obtain ⟨D', h'⟩ := many n.natAbs _ _ hD
    exact ⟨D', by rw [show n = ((n + 146097 * n.natAbs).toNat : Int) - 146097 * n.natAbs by omega]; exact h'⟩
  · obtain ⟨v, e⟩ := dayNo_valid h
    obtain ⟨v', e'⟩ := dayNo_valid h'
    refine ⟨⟨fun hd => by rw [← e, ← e', hd], fun hn => number_inj v v' (by omega)⟩, fun hb => by have := before_number v v' hb; omega, fun hn => ?_⟩
    rcases before_total D D' with hb | hb | hb
    · exact hb
    · subst hb; omega
    · have := before_number v' v hb; omega

/-! ## The text -/

theorem decVal_snoc (s : Str) (c : UInt8) : decVal (s ++ [c]) = 10 * decVal s + (c.toNat - 48) := by
  unfold decVal
  rw [List.foldl_append]
  rfl

theorem utod_digit (u : Nat) (h : u < 10) : 48 ≤ utod u ∧ utod u ≤ 57 ∧ (utod u).toNat - 48 = u := by
  interval_cases u <;> decide

theorem digits_spec (u : Nat) : (∀ c ∈ digits u, 48 ≤ c ∧ c ≤ 57) ∧ decVal (digits u) = u ∧ ∀ w, u < 10 ^ (w + 1) → (digits u).length ≤ w + 1 := by
  induction u using Nat.strongRecOn with
  | ind u ih =>
    unfold digits
    split
    · next h =>
      obtain ⟨a, b, c⟩ := utod_digit u h
      refine ⟨fun x hx => by rw [List.mem_singleton.1 hx]; exact ⟨a, b⟩, ?_, fun w _ => by simp⟩
      have := decVal_snoc [] (utod u)
      rw [List.nil_append] at this
      rw [this, c]
      simp [decVal]
    · next h =>
      obtain ⟨i1, i2, i3⟩ := ih (u / 10) (by omega)
      obtain ⟨a, b, c⟩ := utod_digit (u % 10) (by omega)
      refine ⟨fun x hx => ?_, ?_, fun w hw => ?_⟩
      · rcases List.mem_append.1 hx with hx | hx
        · exact i1 x hx
        · rw [List.mem_singleton.1 hx]; exact ⟨a, b⟩
      · rw [decVal_snoc, i2, c]; omega
      · cases w with
        | zero => simp at hw; omega
        | succ w =>
          have := i3 w (by rw [Nat.pow_succ] at hw; omega)
          rw [List.length_append]
          simp
          omega

theorem decVal_zeros (k : Nat) (s : Str) : decVal (List.replicate k 48 ++ s) = decVal s := by
  unfold decVal
  rw [List.foldl_append]
  congr 1
  induction k with
  | zero => rfl
  | succ k ih => rw [List.replicate_succ, List.foldl_cons]; exact ih

theorem appendInt_digits (n w : Nat) (h : n < 10 ^ (w + 1)) : Digits (w + 1) n (appendInt n (w + 1)) := by
  obtain ⟨h1, h2, h3⟩ := digits_spec n
  have hl := h3 w h
  unfold appendInt
  simp only [Int.natAbs_natCast]
  rw [if_neg (by omega), List.nil_append]
  refine ⟨by simp; omega, fun c hc => ?_, by rw [decVal_zeros, h2]⟩
  rcases List.mem_append.1 hc with hc | hc
  · rw [List.eq_of_mem_replicate hc]; decide
  · exact h1 c hc

theorem decVal_cons (c : UInt8) (s : Str) : decVal (c :: s) = (c.toNat - 48) * 10 ^ s.length + decVal s := by
  induction s using List.reverseRecOn with
  | nil => simp [decVal]
  | append_singleton s d ih =>
    rw [← List.cons_append, decVal_snoc, ih, decVal_snoc, List.length_append, List.length_singleton, Nat.pow_succ]
    ring

theorem digits_lt {w n : Nat} {s : Str} (h : Digits w n s) : n < 10 ^ w := by
  induction w generalizing n s with
  | zero =>
    obtain ⟨h1, -, h3⟩ := h
    rw [List.length_eq_zero_iff] at h1
    subst h1
    simp [decVal] at h3
    omega
  | succ w ih =>
    obtain ⟨h1, h2, h3⟩ := h
    match s, h1 with
    | c :: s, h1 =>
      simp at h1
      have hs := ih (n := decVal s) (s := s) ⟨h1, fun d hd => h2 d (List.mem_cons_of_mem _ hd), rfl⟩
      rw [decVal_cons, h1] at h3
      have hc := (h2 c List.mem_cons_self).2
      have hc : c.toNat ≤ 57 := UInt8.le_iff_toNat_le.1 hc
      have : (c.toNat - 48) * 10 ^ w ≤ 9 * 10 ^ w := Nat.mul_le_mul_right _ (by omega)
      rw [Nat.pow_succ]
      omega

/-- Digits in one width are ordered as the numbers. -/
theorem digits_order {w n n' : Nat} {s s' : Str} (h : Digits w n s) (h' : Digits w n' s') :
    (n = n' → s = s') ∧ (n < n' → ∀ t t', s ++ t < s' ++ t') := by
  induction w generalizing n n' s s' with
  | zero =>
    obtain ⟨h1, -, h3⟩ := h
    obtain ⟨h1', -, h3'⟩ := h'
    rw [List.length_eq_zero_iff] at h1 h1'
    subst h1 h1'
    exact ⟨fun _ => rfl, fun hn => by omega⟩
  | succ w ih =>
    obtain ⟨h1, h2, h3⟩ := h
    obtain ⟨h1', h2', h3'⟩ := h'
    match s, h1, s', h1' with
    | c :: s, h1, c' :: s', h1' =>
      simp at h1 h1'
      have hs : Digits w (decVal s) s := ⟨h1, fun d hd => h2 d (List.mem_cons_of_mem _ hd), rfl⟩
      have hs' : Digits w (decVal s') s' := ⟨h1', fun d hd => h2' d (List.mem_cons_of_mem _ hd), rfl⟩
      have l := digits_lt hs
      have l' := digits_lt hs'
      have hc : 48 ≤ c.toNat := UInt8.le_iff_toNat_le.1 (h2 c List.mem_cons_self).1
      have hc' : 48 ≤ c'.toNat := UInt8.le_iff_toNat_le.1 (h2' c' List.mem_cons_self).1
      rw [decVal_cons, h1] at h3
      rw [decVal_cons, h1'] at h3'
      have key : ∀ x y : Nat, x < y → x * 10 ^ w + 10 ^ w ≤ y * 10 ^ w := fun x y hxy => by
        rw [← Nat.succ_mul]
        exact Nat.mul_le_mul_right _ hxy
      obtain ⟨i1, i2⟩ := ih hs hs'
      rcases Nat.lt_trichotomy c.toNat c'.toNat with hlt | heq | hgt
      · have := key (c.toNat - 48) (c'.toNat - 48) (by omega)
        refine ⟨fun _ => by omega, fun _ t t' => ?_⟩
        exact List.cons_lt_cons_iff.2 (.inl (UInt8.lt_iff_toNat_lt.2 hlt))
      · have heq := UInt8.toNat_inj.1 heq
        subst heq
        refine ⟨fun hn => by rw [i1 (by omega)], fun hn t t' => ?_⟩
        exact List.cons_lt_cons_iff.2 (.inr ⟨rfl, i2 (by omega) t t'⟩)
      · have := key (c'.toNat - 48) (c.toNat - 48) (by omega)
        exact ⟨fun _ => by omega, fun _ => by omega⟩

theorem locabs_eq (u z : Int) (h1 : -9223372028715321600 ≤ u + z) (h2 : u + z < 2 ^ 63) :
    (locabs u z : Int) = u + z + 9223372028715321600 := by
  unfold locabs unixToAbsolute
  omega

/-- **C109** The date and the time of day found for an instant are those of the calendar, for every instant an int64 can hold from the year
-292277022399 on. -/
theorem C109_civil (u z : Int) (h1 : -9223372028715321600 ≤ u + z) (h2 : u + z < 2 ^ 63) :
    Local u z ⟨(absDate (locabs u z)).1, (absDate (locabs u z)).2.1, (absDate (locabs u z)).2.2⟩
      (absClock (locabs u z)).1 (absClock (locabs u z)).2.1 (absClock (locabs u z)).2.2 := by
  have he := locabs_eq u z h1 h2
  generalize locabs u z = abs at he
  refine ⟨(abs / 86400 : Nat) - 106751991073094, (dayNo_iff _ _).2 (dateOf_valid abs), ?_, ?_, ?_, ?_⟩ <;> unfold absClock <;> simp only <;> omega

theorem year_bounds {n : Int} {D : Date} (h : DayNo n D) (h1 : -719528 ≤ n) (h2 : n < 2932897) : 0 ≤ D.year ∧ D.year ≤ 9999 := by
  obtain ⟨v, hn⟩ := dayNo_valid h
  constructor
  · by_contra hy
    have := before_number v (D' := ⟨0, 1, 1⟩) ⟨by decide, by decide, by decide, by decide⟩ (.inl (by simpa using hy))
    have e : dayNumber ⟨0, 1, 1⟩ = -719528 := by decide
    omega
  · by_contra hy
    have := before_number (D := ⟨9999, 12, 31⟩) ⟨by decide, by decide, by decide, by decide⟩ v (.inl (by simpa using hy))
    have e : dayNumber ⟨9999, 12, 31⟩ = 2932896 := by decide
    omega

theorem zone_eq (z : Int) : zoneText z = (if z ≤ -60 then b!"-" else b!"+") ++
    (appendInt (z.natAbs / 60 / 60 : Nat) 2 ++ appendInt (z.natAbs / 60 % 60 : Nat) 2) := by
  have ha : (z.tdiv 60).natAbs = z.natAbs / 60 := by rw [Int.natAbs_tdiv]; rfl
  have hs : z.tdiv 60 < 0 ↔ z ≤ -60 := by
    rcases Int.eq_nat_or_neg z with ⟨k, rfl | rfl⟩
    · rw [Int.tdiv_eq_ediv_of_nonneg (by omega)]; omega
    · rw [Int.neg_tdiv, Int.tdiv_eq_ediv_of_nonneg (by omega)]; omega
  unfold zoneText
  simp only [ha, hs]

/-- **C109** From the year 0 to the year 9999 the text is `YYYY-MM-DD hh:mm:ss+hhmm`, the local time and its distance from UTC in whole
minutes. -/
theorem C109_stamp (u z : Int) (h1 : -62167219200 ≤ u + z) (h2 : u + z < 253402300800) (hz : z.natAbs < 360000) : Stamped u z (stamp u z) := by
  have hl := C109_civil u z (by omega) (by omega)
  have hl' := hl
  obtain ⟨day, hd, he, lh, lm, ls⟩ := hl'
  obtain ⟨y0, y9⟩ := year_bounds hd (by omega) (by omega)
  obtain ⟨⟨m1, m2, d1, d2⟩, -⟩ := dayNo_valid hd
  simp only at y0 y9 m1 m2 d1 d2
  have d31 : (absDate (locabs u z)).2.2 ≤ 31 := by
    rw [monthLength_eq] at d2
    split at d2
    · split at d2 <;> omega
    · split at d2 <;> omega
  refine ⟨_, _, _, _, hl, (absDate (locabs u z)).1.toNat, z.natAbs / 60 / 60, z.natAbs / 60 % 60, by simp only; omega, by omega, by omega,
    _, _, _, _, _, _, _, _, appendInt_digits _ 3 (by omega), appendInt_digits _ 1 (by simp only; omega), appendInt_digits _ 1 (by simp only; omega),
    appendInt_digits _ 1 (by omega), appendInt_digits _ 1 (by omega), appendInt_digits _ 1 (by omega), appendInt_digits _ 1 (by omega),
    appendInt_digits _ 1 (by omega), ?_⟩
  unfold stamp
  rw [zone_eq, Int.toNat_of_nonneg y0]
  simp


/-! ## Reading it back -/

theorem part {w n n' : Nat} {a a' b b' : Str} (h : Digits w n a) (h' : Digits w n' a') (he : a ++ b = a' ++ b') : n = n' ∧ b = b' := by
  obtain ⟨rfl, rfl⟩ := List.append_inj he (h.1.trans h'.1.symm)
  exact ⟨h.2.2.symm.trans h'.2.2, rfl⟩

/-- **C109** A text stands for at most one instant and offset in whole minutes. -/
theorem C109_unique (u z u' z' : Int) (text : Str) (h : Stamped u z text) (h' : Stamped u' z' text) (hz : 60 ∣ z) (hz' : 60 ∣ z') :
    u = u' ∧ z = z' := by
  obtain ⟨D, h, m, s, ⟨day, hd, he, -⟩, y, zh, zm, hy, hzm, hzz, ty, tm, td, th, tmi, ts, tzh, tzm, a1, a2, a3, a4, a5, a6, a7, a8, rfl⟩ := h
  obtain ⟨D', h', m', s', ⟨day', hd', he', -⟩, y', zh', zm', hy', hzm', hzz', ty', tm', td', th', tmi', ts', tzh', tzm',
    b1, b2, b3, b4, b5, b6, b7, b8, heq⟩ := h'
  simp only [List.append_assoc] at heq
  obtain ⟨e1, heq⟩ := part a1 b1 heq
  obtain ⟨e2, heq⟩ := part a2 b2 (List.append_cancel_left heq)
  obtain ⟨e3, heq⟩ := part a3 b3 (List.append_cancel_left heq)
  obtain ⟨e4, heq⟩ := part a4 b4 (List.append_cancel_left heq)
  obtain ⟨e5, heq⟩ := part a5 b5 (List.append_cancel_left heq)
  obtain ⟨e6, heq⟩ := part a6 b6 (List.append_cancel_left heq)
  have hsl : (if z ≤ -60 then b!"-" else b!"+").length = (if z' ≤ -60 then b!"-" else b!"+").length := by split <;> split <;> rfl
  obtain ⟨hsg, heq⟩ := List.append_inj heq hsl
  obtain ⟨e7, heq⟩ := part a7 b7 heq
  have e8 : zm = zm' := by
    have := part (b := []) (b' := []) a8 b8 (by simpa using heq)
    exact this.1
  have hsgn : z ≤ -60 ↔ z' ≤ -60 := by
    by_cases c : z ≤ -60 <;> by_cases c' : z' ≤ -60 <;> simp [c, c'] at hsg ⊢
  have hD : D = D' := by
    obtain ⟨_, _, _⟩ := D
    obtain ⟨_, _, _⟩ := D'
    simp only at hy hy' e2 e3
    subst hy hy' e1 e2 e3
    rfl
  subst hD
  have hday := ((C109_calendar.2.2 _ _ _ _ hd hd').1).1 rfl
  have hzeq : z = z' := by omega
  exact ⟨by omega, hzeq⟩

/-- **C109** So two runs have the same text only if they were in the same second and at the same offset. -/
theorem C109_back (u z u' z' : Int) (h1 : -62167219200 ≤ u + z) (h2 : u + z < 253402300800) (hz : z.natAbs < 360000) (hm : 60 ∣ z)
    (h1' : -62167219200 ≤ u' + z') (h2' : u' + z' < 253402300800) (hz' : z'.natAbs < 360000) (hm' : 60 ∣ z') (he : stamp u z = stamp u' z') :
    u = u' ∧ z = z' :=
  C109_unique u z u' z' _ (C109_stamp u z h1 h2 hz) (he ▸ C109_stamp u' z' h1' h2' hz') hm hm'

/-- Of an offset that is not in whole minutes, such as those before standard time, only the minutes are shown: the text then stands for another
instant. -/
theorem C109_seconds : ∃ u z u' z' : Int, stamp u z = stamp u' z' ∧ u ≠ u' :=
  ⟨0, 1050, 30, 1020, by decide +kernel, by decide⟩

/-! ## Order -/

theorem lt_step {w n n' : Nat} {a a' b b' : Str} (h : Digits w n a) (h' : Digits w n' a') (hc : n < n' ∨ (n = n' ∧ b < b')) : a ++ b < a' ++ b' := by
  obtain ⟨o1, o2⟩ := digits_order h h'
  rcases hc with hc | ⟨hn, hc⟩
  · exact o2 hc b b'
  · rw [o1 hn]
    clear o1 o2 h h'
    induction a' with
    | nil => exact hc
    | cons x a' ih => exact List.cons_lt_cons_iff.2 (.inr ⟨rfl, ih⟩)

theorem lt_same (x : UInt8) {b b' : Str} (h : b < b') : [x] ++ b < [x] ++ b' := List.cons_lt_cons_iff.2 (.inr ⟨rfl, h⟩)

/-- **C109** At one offset, of two instants the later has the greater text. -/
theorem C109_order (u u' z : Int) (h1 : -62167219200 ≤ u + z) (hlt : u < u') (h2 : u' + z < 253402300800) (hz : z.natAbs < 360000) :
    stamp u z < stamp u' z := by
  obtain ⟨D, h, m, s, ⟨day, hd, he, l1, l2, l3⟩, y, zh, zm, hy, hzm, hzz, ty, tm, td, th, tmi, ts, tzh, tzm, a1, a2, a3, a4, a5, a6, a7, a8, et⟩ :=
    C109_stamp u z h1 (by omega) hz
  obtain ⟨D', h', m', s', ⟨day', hd', he', l1', l2', l3'⟩, y', zh', zm', hy', hzm', hzz', ty', tm', td', th', tmi', ts', tzh', tzm',
    b1, b2, b3, b4, b5, b6, b7, b8, et'⟩ := C109_stamp u' z (by omega) h2 hz
  rw [et, et']
  simp only [List.append_assoc]
  obtain ⟨c1, c2⟩ := C109_calendar.2.2 _ _ _ _ hd hd'
  have clock : D = D' → th ++ (b!":" ++ (tmi ++ (b!":" ++ (ts ++ ((if z ≤ -60 then b!"-" else b!"+") ++ (tzh ++ tzm)))))) <
      th' ++ (b!":" ++ (tmi' ++ (b!":" ++ (ts' ++ ((if z ≤ -60 then b!"-" else b!"+") ++ (tzh' ++ tzm')))))) := by
    intro hD
    have := c1.1 hD
    by_cases q1 : h < h'
    · exact lt_step a4 b4 (.inl q1)
    · refine lt_step a4 b4 (.inr ⟨by omega, lt_same _ ?_⟩)
      by_cases q2 : m < m'
      · exact lt_step a5 b5 (.inl q2)
      · exact lt_step a5 b5 (.inr ⟨by omega, lt_same _ (lt_step a6 b6 (.inl (by omega)))⟩)
  by_cases hb : Before D D'
  · rcases hb with hb | ⟨hb, hb' | ⟨hb', hb''⟩⟩
    · exact lt_step a1 b1 (.inl (by omega))
    · exact lt_step a1 b1 (.inr ⟨by omega, lt_same _ (lt_step a2 b2 (.inl hb'))⟩)
    · exact lt_step a1 b1 (.inr ⟨by omega, lt_same _ (lt_step a2 b2 (.inr ⟨hb', lt_same _ (lt_step a3 b3 (.inl hb''))⟩))⟩)
  · have hD : D = D' := c1.2 (by have : ¬ day < day' := fun h => hb (c2.2 h); omega)
    subst hD
    exact lt_step a1 b1 (.inr ⟨by omega, lt_same _ (lt_step a2 b2 (.inr ⟨rfl, lt_same _ (lt_step a3 b3 (.inr ⟨rfl, lt_same _ (clock rfl)⟩))⟩))⟩)

/-! ## In the header -/

theorem stamp_bytes {u z : Int} {text : Str} (h : Stamped u z text) : text.length = 24 ∧ (∀ c ∈ text, c = 32 ∨ (43 ≤ c ∧ c ≤ 58)) ∧
    ∃ a t b, text = a :: t ++ [b] ∧ (48 ≤ a ∧ a ≤ 57) ∧ (48 ≤ b ∧ b ≤ 57) := by
  obtain ⟨D, h, m, s, -, y, zh, zm, hy, hzm, hzz, ty, tm, td, th, tmi, ts, tzh, tzm, a1, a2, a3, a4, a5, a6, a7, a8, rfl⟩ := h
  have hsl : (if z ≤ -60 then b!"-" else b!"+").length = 1 := by split <;> rfl
  have dig : ∀ c : UInt8, 48 ≤ c ∧ c ≤ 57 → c = 32 ∨ (43 ≤ c ∧ c ≤ 58) := fun c ⟨x, y⟩ =>
    .inr ⟨UInt8.le_trans (by decide) x, UInt8.le_trans y (by decide)⟩
  have sgn : ∀ c ∈ (if z ≤ -60 then b!"-" else b!"+"), c = 32 ∨ (43 ≤ c ∧ c ≤ 58) := by split <;> decide
  refine ⟨?_, ?_, ?_⟩
  · simp only [List.length_append, a1.1, a2.1, a3.1, a4.1, a5.1, a6.1, a7.1, a8.1, hsl]
    rfl
  · intro c hc
    simp only [List.mem_append] at hc
    rcases hc with ((((((((((((hc | hc) | hc) | hc) | hc) | hc) | hc) | hc) | hc) | hc) | hc) | hc) | hc) | hc
    · exact dig c (a1.2.1 c hc)
    · rw [List.mem_singleton.1 hc]; decide
    · exact dig c (a2.2.1 c hc)
    · rw [List.mem_singleton.1 hc]; decide
    · exact dig c (a3.2.1 c hc)
    · rw [List.mem_singleton.1 hc]; decide
    · exact dig c (a4.2.1 c hc)
    · rw [List.mem_singleton.1 hc]; decide
    · exact dig c (a5.2.1 c hc)
    · rw [List.mem_singleton.1 hc]; decide
    · exact dig c (a6.2.1 c hc)
    · exact sgn c hc
    · exact dig c (a7.2.1 c hc)
    · exact dig c (a8.2.1 c hc)
  · match ty, a1, tzm, a8 with
    | c :: ty, a1, [x, y], a8 =>
      exact ⟨c, ty ++ b!"-" ++ tm ++ b!"-" ++ td ++ b!" " ++ th ++ b!":" ++ tmi ++ b!":" ++ ts ++ (if z ≤ -60 then b!"-" else b!"+") ++ tzh ++ [x], y,
        by simp, a1.2.1 c List.mem_cons_self, a8.2.1 y (by simp)⟩

theorem digit_solid (c : UInt8) (h : 48 ≤ c ∧ c ≤ 57) : GoStr.Solid c := by
  revert h
  revert c
  unfold GoStr.Solid
  apply u8
  decide +kernel

/-- **C109** The header of the POT of a run has the date as its creation date, whatever the parameters of the run are. -/
theorem C109_header (p : Xt.Param) (hasPlural : Bool) (u z : Int) (h1 : -62167219200 ≤ u + z) (h2 : u + z < 253402300800) (hz : z.natAbs < 360000) :
    Tr.HeaderField (Xt.header p (stamp u z) hasPlural).str b!"POT-Creation-Date" (stamp u z) := by
  obtain ⟨-, hb, a, t, b, ht, ha, hbb⟩ := stamp_bytes (C109_stamp u z h1 h2 hz)
  have hn : 10 ∉ stamp u z := fun h => by
    have := hb 10 h
    revert this
    decide
  have htrim : GoStr.trimSpace (stamp u z) = stamp u z := by
    rw [ht]
    exact GoStr.trimSpace_solid a b t (digit_solid a ha) (digit_solid b hbb)
  generalize stamp u z = now at hn htrim
  obtain ⟨l, ls, hls⟩ : ∃ l ls, (Xt.headerLines p now hasPlural).drop 3 = l :: ls := by cases hasPlural <;> exact ⟨_, _, rfl⟩
  have hcut : Xt.headerLines p now hasPlural = [b!"Project-Id-Version: PACKAGE VERSION", b!"Report-Msgid-Bugs-To: "] ++
      (b!"POT-Creation-Date: " ++ now) :: l :: ls := by
    rw [← hls]
    cases hasPlural <;> rfl
  have hlines : Tr.Lines (Xt.header p now hasPlural).str ([b!"Project-Id-Version: PACKAGE VERSION", b!"Report-Msgid-Bugs-To: "] ++
      (b!"POT-Creation-Date: " ++ now) :: GoStr.splitByte 10 (List.intercalate [10] (l :: ls))) := by
    obtain ⟨s1, s2, s3⟩ := (Tr.lines_iff (List.intercalate [10] (l :: ls)) _).2 rfl
    refine ⟨by simp, ?_, ?_⟩
    · intro x hx
      simp only [List.cons_append, List.nil_append, List.mem_cons] at hx
      rcases hx with rfl | rfl | rfl | hx
      · decide
      · decide
      · intro h
        have h : 10 ∈ b!"POT-Creation-Date: " ++ now := h
        rcases List.mem_append.1 h with h | h
        · revert h; decide
        · exact hn h
      · exact s2 x hx
    · show GoStr.join [10] (Xt.headerLines p now hasPlural) = _
      rw [Tr.join_eq_intercalate, hcut]
      generalize GoStr.splitByte 10 (List.intercalate [10] (l :: ls)) = q at s1 s3
      cases q with
      | nil => exact absurd rfl s1
      | cons q qs =>
        simp only [List.cons_append, List.nil_append, List.intercalate_cons_cons]
        rw [s3]
  refine ⟨_, _, _, hlines, ?_, ?_⟩
  · rw [Tr.fieldLine_iff]
    exact ⟨b!"POT-Creation-Date", now, Tr.cutHeader_complete b!"POT-Creation-Date" now (by decide), by decide, htrim.symm⟩
  · intro x hx v' hf
    rw [Tr.fieldLine_iff] at hf
    obtain ⟨c, d, hc, hk, -⟩ := hf
    rw [List.mem_cons, List.mem_singleton] at hx
    rcases hx with rfl | rfl
    · have e : Tr.cutHeader b!"Project-Id-Version: PACKAGE VERSION" = some (b!"Project-Id-Version", b!"PACKAGE VERSION") := by decide +kernel
      rw [e] at hc
      cases hc
      revert hk
      decide +kernel
    · have e : Tr.cutHeader b!"Report-Msgid-Bugs-To: " = some (b!"Report-Msgid-Bugs-To", []) := by decide +kernel
      rw [e] at hc
      cases hc
      revert hk
      decide +kernel

/-- Leap days, the turn of a century that is no leap year, an instant before 1970 and offsets on both sides. -/
example : stamp 1709208000 28800 = b!"2024-02-29 20:00:00+0800" ∧ stamp 951782400 0 = b!"2000-02-29 00:00:00+0000" ∧
    stamp 4107542400 0 = b!"2100-03-01 00:00:00+0000" ∧ stamp (-1) (-12600) = b!"1969-12-31 20:29:59-0330" ∧
    stamp 253402300799 0 = b!"9999-12-31 23:59:59+0000" := by
  decide +kernel

/-- The bounds are sharp: one second later the year has five digits. -/
example : stamp 253402300800 0 = b!"10000-01-01 00:00:00+0000" ∧ stamp (-62167219201) 0 = b!"-0001-12-31 23:59:59+0000" := by decide +kernel


/-! ## The layout -/

/-- **C109** This text is what `Format` makes of the layout of the program, whatever it writes for the parts of layouts that are not modelled. -/
theorem C109_layout (other : Std → Str) (u z : Int) : format other u z b!"2006-01-02 15:04:05-0700" = stamp u z := by
  have c1 : nextStdChunk b!"2006-01-02 15:04:05-0700" = ([], some (.longYear, b!"-01-02 15:04:05-0700")) := by decide +kernel
  have c2 : nextStdChunk b!"-01-02 15:04:05-0700" = (b!"-", some (.zeroMonth, b!"-02 15:04:05-0700")) := by decide +kernel
  have c3 : nextStdChunk b!"-02 15:04:05-0700" = (b!"-", some (.zeroDay, b!" 15:04:05-0700")) := by decide +kernel
  have c4 : nextStdChunk b!" 15:04:05-0700" = (b!" ", some (.hour, b!":04:05-0700")) := by decide +kernel
  have c5 : nextStdChunk b!":04:05-0700" = (b!":", some (.zeroMinute, b!":05-0700")) := by decide +kernel
  have c6 : nextStdChunk b!":05-0700" = (b!":", some (.zeroSecond, b!"-0700")) := by decide +kernel
  have c7 : nextStdChunk b!"-0700" = ([], some (.numTz, [])) := by decide +kernel
  have c8 : nextStdChunk [] = ([], none) := rfl
  have hl : (b!"2006-01-02 15:04:05-0700" : Str).length = 24 := by decide
  have step : ∀ n s pre std rest, nextStdChunk s = (pre, some (std, rest)) →
      formatN other u z (n + 1) s = pre ++ (appendPart other u z std ++ formatN other u z n rest) := fun n s pre std rest h => by
    rw [formatN, h]
  have last : ∀ n, formatN other u z (n + 1) [] = [] := fun n => by rw [formatN, c8]
  unfold format
  rw [hl, step _ _ _ _ _ c1, step _ _ _ _ _ c2, step _ _ _ _ _ c3, step _ _ _ _ _ c4, step _ _ _ _ _ c5, step _ _ _ _ _ c6,
    step _ _ _ _ _ c7, last]
  simp only [appendPart, stamp, List.nil_append, List.append_nil, List.cons_append]

/-- A layout with other parts: `Jan` is one, but not in `Janet`; `_2006` is a year behind an underscore; `.000` is
no fraction before another digit. -/
example : nextStdChunk b!"at Jan 2" = (b!"at ", some (.month, b!" 2")) ∧ nextStdChunk b!"Janet 2" = (b!"Janet ", some (.day, [])) ∧
    nextStdChunk b!"x_2006" = (b!"x_", some (.longYear, [])) ∧ nextStdChunk b!".0001" =
    (b!".00", some (.zeroMonth, [])) := by
  decide +kernel

end Verif.Time
