import Verif.Model.Utf8
import Verif.Lemmas.Bytes
/-! # Facts about UTF-8 -/
namespace Verif.Utf8
set_option linter.unusedSimpArgs false

theorem ofNat_toNat (n : Nat) (h : n < 256) : (UInt8.ofNat n).toNat = n := by
  simp [Nat.mod_eq_of_lt h]

/-- The table `lead` as a check on numbers. -/
def leadCheck (b : UInt8) : Bool :=
  let n := b.toNat
  match lead b with
  | none => n < 0xC2 || n > 0xF4
  | some (k, lo, hi) =>
    (k == 2 && 0xC2 ≤ n && n ≤ 0xDF && lo == 0x80 && hi == 0xBF) ||
    (k == 3 && 0xE0 ≤ n && n ≤ 0xEF && lo == (if n == 0xE0 then 0xA0 else 0x80) &&
      hi == (if n == 0xED then 0x9F else 0xBF)) ||
    (k == 4 && 0xF0 ≤ n && n ≤ 0xF4 && lo == (if n == 0xF0 then 0x90 else 0x80) &&
      hi == (if n == 0xF4 then 0x8F else 0xBF))

theorem leadCheck_all (b : UInt8) : leadCheck b = true := by
  revert b; apply u8; decide +kernel

theorem lead_cases (b : UInt8) :
    (lead b = none ∧ (b.toNat < 0xC2 ∨ 0xF4 < b.toNat)) ∨
    (lead b = some (2, 0x80, 0xBF) ∧ 0xC2 ≤ b.toNat ∧ b.toNat ≤ 0xDF) ∨
    (∃ lo hi, lead b = some (3, lo, hi) ∧ 0xE0 ≤ b.toNat ∧ b.toNat ≤ 0xEF ∧
      lo = (if b.toNat = 0xE0 then 0xA0 else 0x80) ∧ hi = (if b.toNat = 0xED then 0x9F else 0xBF)) ∨
    (∃ lo hi, lead b = some (4, lo, hi) ∧ 0xF0 ≤ b.toNat ∧ b.toNat ≤ 0xF4 ∧
      lo = (if b.toNat = 0xF0 then 0x90 else 0x80) ∧ hi = (if b.toNat = 0xF4 then 0x8F else 0xBF)) := by
  have h := leadCheck_all b
  unfold leadCheck at h
  cases hl : lead b with
  | none => rw [hl] at h; left; simpa using h
  | some p =>
    obtain ⟨k, lo, hi⟩ := p
    rw [hl] at h
    simp only [Bool.or_eq_true, Bool.and_eq_true, beq_iff_eq, decide_eq_true_eq] at h
    right
    rcases h with (h | h) | h
    · obtain ⟨⟨⟨⟨rfl, h1⟩, h2⟩, rfl⟩, rfl⟩ := h
      exact Or.inl ⟨rfl, h1, h2⟩
    · obtain ⟨⟨⟨⟨rfl, h1⟩, h2⟩, h3⟩, h4⟩ := h
      exact Or.inr (Or.inl ⟨lo, hi, rfl, h1, h2, h3, h4⟩)
    · obtain ⟨⟨⟨⟨rfl, h1⟩, h2⟩, h3⟩, h4⟩ := h
      exact Or.inr (Or.inr ⟨lo, hi, rfl, h1, h2, h3, h4⟩)

/-- Bounds on the second byte, as numbers. -/
theorem lohi (c : Prop) [Decidable c] (x y : UInt8) (b : UInt8) :
    ((if c then x else y) ≤ b ↔ (c → x.toNat ≤ b.toNat) ∧ (¬ c → y.toNat ≤ b.toNat)) ∧
    (b ≤ (if c then x else y) ↔ (c → b.toNat ≤ x.toNat) ∧ (¬ c → b.toNat ≤ y.toNat)) := by
  by_cases h : c <;> simp [h, UInt8.le_iff_toNat_le]

/-- A successfully decoded rune encodes to the bytes it was decoded from. -/
theorem encode_decode (s : Str) (hs : s ≠ [])
    (h : ¬ ((decode s).2 = 1 ∧ (decode s).1 = runeError)) :
    validRune (decode s).1 = true ∧ 0 < (decode s).2 ∧ (decode s).2 ≤ s.length ∧
      encode (decode s).1 = s.take (decode s).2 ∧
      ((decode s).1 < 0x80 ∨ ∃ b t, s = b :: t ∧ ¬ b < 0x80 ∧ 0x80 ≤ (decode s).1) := by
  match s, hs with
  | b0 :: t, _ =>
    by_cases hb : b0 < 0x80
    · have hn : b0.toNat < 0x80 := by simpa [UInt8.lt_iff_toNat_lt] using hb
      have : decode (b0 :: t) = (b0.toNat, 1) := by simp [decode, hb]
      rw [this]
      refine ⟨?_, by simp, by simp, ?_, Or.inl hn⟩
      · simp [validRune]; omega
      · simp [encode, hn]
    · rcases lead_cases b0 with ⟨hl, -⟩ | ⟨hl, h1, h2⟩ | ⟨lo, hi, hl, h1, h2, h3, h4⟩ |
        ⟨lo, hi, hl, h1, h2, h3, h4⟩
      · exfalso; apply h; simp [decode, hb, hl]
      · match t with
        | [] => exfalso; apply h; simp [decode, hb, hl]
        | b1 :: t =>
          by_cases hc : (0x80 : UInt8) ≤ b1 && b1 ≤ 0xBF
          · have hd : decode (b0 :: b1 :: t) = ((b0.toNat - 0xC0) * 64 + (b1.toNat - 0x80), 2) := by
              simp only [decode, hb, hl, hc, if_true, if_false]
            rw [hd]
            simp [UInt8.le_iff_toNat_le] at hc
            refine ⟨?_, by simp, by simp, ?_, Or.inr ⟨b0, _, rfl, hb, ?_⟩⟩
            · simp [validRune]; omega
            · unfold encode
              rw [if_neg (by simp; omega), if_pos (by simp; omega)]
              simp only [List.take_succ_cons, List.take_zero]
              refine List.cons_eq_cons.mpr ⟨?_, ?_⟩
              · rw [← UInt8.toNat_inj, ofNat_toNat _ (by omega)]; omega
              · refine List.cons_eq_cons.mpr ⟨?_, rfl⟩
                rw [← UInt8.toNat_inj, ofNat_toNat _ (by omega)]; omega
            · simp; omega
          · exfalso; apply h; simp only [decode, hb, hl, hc, if_false]; simp
      · match t with
        | [] => exfalso; apply h; simp [decode, hb, hl]
        | [_] => exfalso; apply h; simp [decode, hb, hl]
        | b1 :: b2 :: t =>
          by_cases hc : (lo ≤ b1 && b1 ≤ hi) && isCont b2
          · have hd : decode (b0 :: b1 :: b2 :: t) =
                ((b0.toNat - 0xE0) * 4096 + (b1.toNat - 0x80) * 64 + (b2.toNat - 0x80), 3) := by
              simp only [decode, hb, hl, hc, if_true, if_false]
            rw [hd]
            subst h3; subst h4
            simp only [isCont, lohi, Bool.and_eq_true, decide_eq_true_eq] at hc
            simp [UInt8.le_iff_toNat_le] at hc
            have hv : validRune ((b0.toNat - 0xE0) * 4096 + (b1.toNat - 0x80) * 64 + (b2.toNat - 0x80))
                = true := by simp [validRune]; omega
            refine ⟨hv, by simp, by simp, ?_, Or.inr ⟨b0, _, rfl, hb, ?_⟩⟩
            · unfold encode
              rw [if_neg (by simp; omega), if_neg (by simp; omega), if_neg (by simp [hv]),
                if_pos (by simp; omega)]
              simp only [List.take_succ_cons, List.take_zero]
              refine List.cons_eq_cons.mpr ⟨?_, ?_⟩
              · rw [← UInt8.toNat_inj, ofNat_toNat _ (by omega)]; omega
              · refine List.cons_eq_cons.mpr ⟨?_, ?_⟩
                · rw [← UInt8.toNat_inj, ofNat_toNat _ (by omega)]; omega
                · refine List.cons_eq_cons.mpr ⟨?_, rfl⟩
                  rw [← UInt8.toNat_inj, ofNat_toNat _ (by omega)]; omega
            · simp; omega
          · exfalso; apply h; simp only [decode, hb, hl, hc, if_false]; simp
      · match t with
        | [] => exfalso; apply h; simp [decode, hb, hl]
        | [_] => exfalso; apply h; simp [decode, hb, hl]
        | [_, _] => exfalso; apply h; simp [decode, hb, hl]
        | b1 :: b2 :: b3 :: t =>
          by_cases hc : (lo ≤ b1 && b1 ≤ hi) && isCont b2 && isCont b3
          · have hd : decode (b0 :: b1 :: b2 :: b3 :: t) =
                ((b0.toNat - 0xF0) * 262144 + (b1.toNat - 0x80) * 4096 + (b2.toNat - 0x80) * 64
                  + (b3.toNat - 0x80), 4) := by
              simp only [decode, hb, hl, hc, if_true, if_false]
            rw [hd]
            subst h3; subst h4
            simp only [isCont, lohi, Bool.and_eq_true, decide_eq_true_eq] at hc
            simp [UInt8.le_iff_toNat_le] at hc
            have hv : validRune ((b0.toNat - 0xF0) * 262144 + (b1.toNat - 0x80) * 4096 +
                (b2.toNat - 0x80) * 64 + (b3.toNat - 0x80)) = true := by simp [validRune]; omega
            refine ⟨hv, by simp, by simp, ?_, Or.inr ⟨b0, _, rfl, hb, ?_⟩⟩
            · unfold encode
              rw [if_neg (by simp; omega), if_neg (by simp; omega), if_neg (by simp [hv]),
                if_neg (by simp; omega)]
              simp only [List.take_succ_cons, List.take_zero]
              refine List.cons_eq_cons.mpr ⟨?_, ?_⟩
              · rw [← UInt8.toNat_inj, ofNat_toNat _ (by omega)]; omega
              · refine List.cons_eq_cons.mpr ⟨?_, ?_⟩
                · rw [← UInt8.toNat_inj, ofNat_toNat _ (by omega)]; omega
                · refine List.cons_eq_cons.mpr ⟨?_, ?_⟩
                  · rw [← UInt8.toNat_inj, ofNat_toNat _ (by omega)]; omega
                  · refine List.cons_eq_cons.mpr ⟨?_, rfl⟩
                    rw [← UInt8.toNat_inj, ofNat_toNat _ (by omega)]; omega
            · simp; omega
          · exfalso; apply h; simp only [decode, hb, hl, hc, if_false]; simp

/-- Lead byte ranges by number. -/
theorem lead2 (b : UInt8) (h1 : 0xC2 ≤ b.toNat) (h2 : b.toNat ≤ 0xDF) :
    lead b = some (2, 0x80, 0xBF) := by
  rcases lead_cases b with ⟨_, h⟩ | ⟨h, _⟩ | ⟨_, _, _, h, _⟩ | ⟨_, _, _, h, _⟩
  · omega
  · exact h
  · omega
  · omega

/-- See `lead2`. -/
theorem lead3 (b : UInt8) (h1 : 0xE0 ≤ b.toNat) (h2 : b.toNat ≤ 0xEF) :
    lead b = some (3, (if b.toNat = 0xE0 then 0xA0 else 0x80), (if b.toNat = 0xED then 0x9F else 0xBF)) := by
  rcases lead_cases b with ⟨_, h⟩ | ⟨_, _, h⟩ | ⟨_, _, h, _, _, rfl, rfl⟩ | ⟨_, _, _, h, _⟩
  · omega
  · omega
  · exact h
  · omega

/-- See `lead2`. -/
theorem lead4 (b : UInt8) (h1 : 0xF0 ≤ b.toNat) (h2 : b.toNat ≤ 0xF4) :
    lead b = some (4, (if b.toNat = 0xF0 then 0x90 else 0x80), (if b.toNat = 0xF4 then 0x8F else 0xBF)) := by
  rcases lead_cases b with ⟨_, h⟩ | ⟨_, _, h⟩ | ⟨_, _, _, _, h, _⟩ | ⟨_, _, h, _, _, rfl, rfl⟩
  · omega
  · omega
  · omega
  · exact h

/-- Decoding what was encoded. -/
theorem decode_encode (r : Nat) (hr : validRune r = true) (t : Str) :
    decode (encode r ++ t) = (r, (encode r).length) := by
  have hr' : r < 0xD800 ∨ (0xE000 ≤ r ∧ r < 0x110000) := by simpa [validRune] using hr
  unfold encode
  by_cases h1 : r < 0x80
  · rw [if_pos h1]
    have h2 : UInt8.ofNat r < 0x80 := by
      rw [UInt8.lt_iff_toNat_lt, ofNat_toNat _ (by omega)]; simpa using h1
    simp only [decode, List.cons_append, List.nil_append, h2, if_true, ofNat_toNat r (by omega)]
    rfl
  rw [if_neg h1]
  by_cases h2 : r < 0x800
  · rw [if_pos h2]
    have hb : ¬ UInt8.ofNat (0xC0 + r / 64) < 0x80 := by
      rw [UInt8.lt_iff_toNat_lt, ofNat_toNat _ (by omega)]; simp; omega
    have hl := lead2 (UInt8.ofNat (0xC0 + r / 64))
      (by rw [ofNat_toNat _ (by omega)]; omega) (by rw [ofNat_toNat _ (by omega)]; omega)
    have hc : (0x80 ≤ UInt8.ofNat (0x80 + r % 64) && UInt8.ofNat (0x80 + r % 64) ≤ 0xBF) = true := by
      simp only [Bool.and_eq_true, decide_eq_true_eq, UInt8.le_iff_toNat_le, ofNat_toNat _ (show 0x80 + r % 64 < 256 by omega)]
      simp; omega
    simp only [decode, List.cons_append, List.nil_append, hb, if_false, hl, hc, if_true]
    rw [ofNat_toNat _ (by omega), ofNat_toNat _ (by omega)]
    simp; omega
  rw [if_neg h2, if_neg (by simp [hr])]
  by_cases h3 : r < 0x10000
  · rw [if_pos h3]
    have hb0 : (UInt8.ofNat (0xE0 + r / 4096)).toNat = 0xE0 + r / 4096 := ofNat_toNat _ (by omega)
    have hb1 : (UInt8.ofNat (0x80 + r / 64 % 64)).toNat = 0x80 + r / 64 % 64 := ofNat_toNat _ (by omega)
    have hb2 : (UInt8.ofNat (0x80 + r % 64)).toNat = 0x80 + r % 64 := ofNat_toNat _ (by omega)
    generalize UInt8.ofNat (0xE0 + r / 4096) = b0 at *
    generalize UInt8.ofNat (0x80 + r / 64 % 64) = b1 at *
    generalize UInt8.ofNat (0x80 + r % 64) = b2 at *
    have hb : ¬ b0 < 0x80 := by rw [UInt8.lt_iff_toNat_lt]; simp; omega
    have hl := lead3 b0 (by omega) (by omega)
    have hc : (((if b0.toNat = 0xE0 then (0xA0 : UInt8) else 0x80) ≤ b1 &&
        b1 ≤ (if b0.toNat = 0xED then (0x9F : UInt8) else 0xBF)) && isCont b2) = true := by
      simp only [isCont, lohi, Bool.and_eq_true, decide_eq_true_eq]
      simp [UInt8.le_iff_toNat_le]; omega
    simp only [decode, List.cons_append, List.nil_append, hb, if_false, hl, hc, if_true]
    simp; omega
  · rw [if_neg h3]
    have hb0 : (UInt8.ofNat (0xF0 + r / 262144)).toNat = 0xF0 + r / 262144 := ofNat_toNat _ (by omega)
    have hb1 : (UInt8.ofNat (0x80 + r / 4096 % 64)).toNat = 0x80 + r / 4096 % 64 := ofNat_toNat _ (by omega)
    have hb2 : (UInt8.ofNat (0x80 + r / 64 % 64)).toNat = 0x80 + r / 64 % 64 := ofNat_toNat _ (by omega)
    have hb3 : (UInt8.ofNat (0x80 + r % 64)).toNat = 0x80 + r % 64 := ofNat_toNat _ (by omega)
    generalize UInt8.ofNat (0xF0 + r / 262144) = b0 at *
    generalize UInt8.ofNat (0x80 + r / 4096 % 64) = b1 at *
    generalize UInt8.ofNat (0x80 + r / 64 % 64) = b2 at *
    generalize UInt8.ofNat (0x80 + r % 64) = b3 at *
    have hb : ¬ b0 < 0x80 := by rw [UInt8.lt_iff_toNat_lt]; simp; omega
    have hl := lead4 b0 (by omega) (by omega)
    have hc : (((if b0.toNat = 0xF0 then (0x90 : UInt8) else 0x80) ≤ b1 &&
        b1 ≤ (if b0.toNat = 0xF4 then (0x8F : UInt8) else 0xBF)) && isCont b2 && isCont b3) = true := by
      simp only [isCont, lohi, Bool.and_eq_true, decide_eq_true_eq]
      simp [UInt8.le_iff_toNat_le]; omega
    simp only [decode, List.cons_append, List.nil_append, hb, if_false, hl, hc, if_true]
    simp; omega

/-- The bytes of a multi-byte rune are all at least 0x80. -/
theorem encode_high (r : Nat) (h : 0x80 ≤ r) : ∀ b ∈ encode r, 0x80 ≤ b.toNat := by
  have hr : r < 0x110000 ∨ validRune r = false := by
    by_cases hr : r < 0x110000
    · exact Or.inl hr
    · right; simp [validRune]; omega
  unfold encode
  rw [if_neg (by omega)]
  intro b hb
  split at hb
  · simp only [List.mem_cons, List.not_mem_nil, or_false] at hb
    rcases hb with rfl | rfl <;> rw [ofNat_toNat _ (by omega)] <;> omega
  · split at hb
    · simp only [List.mem_cons, List.not_mem_nil, or_false] at hb
      rcases hb with rfl | rfl | rfl <;> decide
    · split at hb
      · simp only [List.mem_cons, List.not_mem_nil, or_false] at hb
        rcases hb with rfl | rfl | rfl <;> rw [ofNat_toNat _ (by omega)] <;> omega
      · have : r < 0x110000 := by
          rcases hr with hr | hr
          · exact hr
          · rename_i hv _; simp [hr] at hv
        simp only [List.mem_cons, List.not_mem_nil, or_false] at hb
        rcases hb with rfl | rfl | rfl | rfl <;> rw [ofNat_toNat _ (by omega)] <;> omega

theorem decode_width (s : Str) (hs : s ≠ []) : 0 < (decode s).2 ∧ (decode s).2 ≤ s.length := by
  by_cases h : (decode s).2 = 1 ∧ (decode s).1 = runeError
  · rw [h.1]
    refine ⟨by simp, ?_⟩
    cases s with
    | nil => exact absurd rfl hs
    | cons => simp
  · obtain ⟨-, h1, h2, -⟩ := encode_decode s hs h
    exact ⟨h1, h2⟩

end Verif.Utf8
