import Verif.Model.Quote
import Verif.Lemmas.Utf8
import Verif.Lemmas.Strings
import Mathlib.Tactic.Ring
/-! # Quoting and unquoting -/
namespace Verif.Quote
open Verif
set_option linter.unusedSimpArgs false

theorem unhex_hexDigit (n : Nat) (h : n < 16) : unhex (hexDigit n) = some n := by
  have : ∀ i : Fin 16, unhex (hexDigit i.val) = some i.val := by decide
  exact this ⟨n, h⟩

theorem hexDigit_safe (n : Nat) (h : n < 16) :
    hexDigit n ≠ 10 ∧ hexDigit n ≠ 13 ∧ hexDigit n ≠ 34 ∧ hexDigit n ≠ 92 ∧ (hexDigit n).toNat < 0x80 := by
  have : ∀ i : Fin 16, hexDigit i.val ≠ 10 ∧ hexDigit i.val ≠ 13 ∧ hexDigit i.val ≠ 34 ∧
      hexDigit i.val ≠ 92 ∧ (hexDigit i.val).toNat < 0x80 := by decide
  exact this ⟨n, h⟩

theorem readHex_hexN (k v r : Nat) (t : Str) :
    readHex k v (hexN k r ++ t) = some (v * 16 ^ k + r % 16 ^ k, t) := by
  induction k generalizing v with
  | zero => simp [hexN, readHex, Nat.mod_one]
  | succ k ih =>
    simp only [hexN, List.cons_append, readHex]
    rw [unhex_hexDigit _ (Nat.mod_lt _ (by decide))]
    simp only [ih]
    congr 2
    rw [Nat.pow_succ, Nat.mod_mul]
    ring_nf

theorem hexN_safe (k r : Nat) : ∀ b ∈ hexN k r, b ≠ 10 ∧ b ≠ 13 ∧ b ≠ 34 ∧ b.toNat < 0x80 := by
  induction k with
  | zero => simp [hexN]
  | succ k ih =>
    intro b hb
    simp only [hexN, List.mem_cons] at hb
    rcases hb with rfl | hb
    · obtain ⟨h1, h2, h3, _, h5⟩ := hexDigit_safe (r / 16 ^ k % 16) (Nat.mod_lt _ (by decide))
      exact ⟨h1, h2, h3, h5⟩
    · exact ih b hb

theorem letterEsc_spec (r : Nat) (c : UInt8) (h : letterEsc r = some c) :
    letterVal c = some r ∧ r < 0x80 ∧ c ≠ 10 ∧ c ≠ 13 := by
  unfold letterEsc at h
  split at h
  · cases h; subst_vars; decide
  split at h
  · cases h; subst_vars; decide
  split at h
  · cases h; subst_vars; decide
  split at h
  · cases h; subst_vars; decide
  split at h
  · cases h; subst_vars; decide
  split at h
  · cases h; subst_vars; decide
  split at h
  · cases h; subst_vars; decide
  · cases h

/-- After a backslash the character is read by `unquoteEsc`. -/
theorem unquoteChar_esc (c : UInt8) (s : Str) : unquoteChar 34 (92 :: c :: s) = unquoteEsc 34 c s := by
  have h1 : ¬ ((92 : UInt8) = 34) := by decide
  have h2 : ¬ ((0x80 : UInt8) ≤ 92) := by decide
  rw [unquoteChar, if_neg h1, if_neg h2, if_neg (by simp)]

theorem esc_hex2 (n : Nat) (t : Str) :
    unquoteEsc 34 120 (hexN 2 n ++ t) = some (n % 256, false, t) := by
  have h : letterVal 120 = none := by decide
  unfold unquoteEsc
  rw [h]
  simp [readHex_hexN]

theorem esc_hex4 (r : Nat) (h1 : r < 0x10000) (h2 : Utf8.validRune r = true) (t : Str) :
    unquoteEsc 34 117 (hexN 4 r ++ t) = some (r, true, t) := by
  have h : letterVal 117 = none := by decide
  unfold unquoteEsc
  rw [h]
  have : r % 65536 = r := Nat.mod_eq_of_lt h1
  simp [readHex_hexN, this, h2]

theorem esc_hex8 (r : Nat) (h1 : r < 4294967296) (h2 : Utf8.validRune r = true) (t : Str) :
    unquoteEsc 34 85 (hexN 8 r ++ t) = some (r, true, t) := by
  have h : letterVal 85 = none := by decide
  unfold unquoteEsc
  rw [h]
  have : r % 4294967296 = r := Nat.mod_eq_of_lt h1
  simp [readHex_hexN, this, h2]

theorem charBytes_low (r : Nat) (mb : Bool) (h : r < 0x80) : charBytes r mb = Utf8.encode r := by
  simp [charBytes, Utf8.encode, h]

theorem charBytes_mb (r : Nat) : charBytes r true = Utf8.encode r := by
  unfold charBytes
  split
  · rename_i h
    have : r < 0x80 := by simpa using h
    simp [Utf8.encode, this]
  · rfl

/-- What one escaped rune looks like to the reader. -/
theorem escRune_read (P : Nat → Bool) (hP : P 10 = false) (r : Nat) (hr : Utf8.validRune r = true) (t : Str) :
    ∃ c q v mb, escRune P r = c :: q ∧ c ≠ 34 ∧ c ≠ 10 ∧
      unquoteChar 34 (escRune P r ++ t) = some (v, mb, t) ∧ charBytes v mb = Utf8.encode r := by
  have hr' : r < 0xD800 ∨ (0xE000 ≤ r ∧ r < 0x110000) := by simpa [Utf8.validRune] using hr
  unfold escRune
  split
  · rename_i h
    refine ⟨92, _, r, false, rfl, by decide, by decide, ?_, ?_⟩
    · simp only [List.cons_append, List.nil_append, unquoteChar_esc]
      rcases h with rfl | rfl <;> rfl
    · apply charBytes_low; omega
  rename_i hq
  split
  · rename_i hp
    by_cases h80 : r < 0x80
    · have he : Utf8.encode r = [UInt8.ofNat r] := by simp [Utf8.encode, h80]
      have hn : (UInt8.ofNat r).toNat = r := Utf8.ofNat_toNat r (by omega)
      refine ⟨UInt8.ofNat r, [], r, false, he, ?_, ?_, ?_, charBytes_low r false h80⟩
      · intro h; have := congrArg UInt8.toNat h; rw [hn] at this; simp at this; omega
      · intro h; have := congrArg UInt8.toNat h; rw [hn] at this; simp at this
        subst this; rw [hP] at hp; cases hp
      · rw [he]
        simp only [List.cons_append, List.nil_append, unquoteChar]
        rw [if_neg, if_neg, if_pos, hn]
        · intro h; have := congrArg UInt8.toNat h; rw [hn] at this; simp at this; omega
        · rw [UInt8.le_iff_toNat_le, hn]; simp; omega
        · intro h; have := congrArg UInt8.toNat h; rw [hn] at this; simp at this; omega
    · have hh := Utf8.encode_high r (by omega)
      have hd := Utf8.decode_encode r hr t
      cases he : Utf8.encode r with
      | nil =>
        exfalso
        rw [he] at hd
        have := (Utf8.decode_width t)
        cases t with
        | nil => simp [Utf8.decode] at hd; subst hd; simp [Utf8.encode, Utf8.runeError, Utf8.validRune] at he
        | cons a t => have := this (by simp); rw [show ([] : Str) ++ a :: t = a :: t from rfl] at hd
                      rw [hd] at this; simp at this
      | cons c q =>
        have hc : 0x80 ≤ c.toNat := hh c (by rw [he]; simp)
        refine ⟨c, q, r, true, rfl, ?_, ?_, ?_, by rw [charBytes_mb, he]⟩
        · rintro rfl; simp at hc
        · rintro rfl; simp at hc
        · rw [he] at hd
          simp only [List.cons_append] at hd ⊢
          rw [unquoteChar.eq_def]; dsimp only
          rw [if_neg, if_pos, hd]
          · simp
          · rw [UInt8.le_iff_toNat_le]; simpa using hc
          · rintro rfl; simp at hc
  · rename_i hp
    split
    · rename_i c hc
      obtain ⟨h1, h2, _⟩ := letterEsc_spec r c hc
      refine ⟨92, _, r, false, rfl, by decide, by decide, ?_, charBytes_low r false h2⟩
      simp only [List.cons_append, List.nil_append, unquoteChar_esc]
      unfold unquoteEsc
      rw [h1]
    · split
      · rename_i h
        refine ⟨92, _, r % 256, false, rfl, by decide, by decide, ?_, ?_⟩
        · simp only [List.cons_append, List.nil_append, unquoteChar_esc, esc_hex2]
        · rw [Nat.mod_eq_of_lt (by omega)]
          apply charBytes_low; omega
      · split
        · rename_i h; simp [hr] at h
        · split
          · rename_i h
            refine ⟨92, _, r, true, rfl, by decide, by decide, ?_, charBytes_mb r⟩
            simp only [List.cons_append, List.nil_append, unquoteChar_esc, esc_hex4 r h hr]
          · refine ⟨92, _, r, true, rfl, by decide, by decide, ?_, charBytes_mb r⟩
            simp only [List.cons_append, List.nil_append, unquoteChar_esc,
              esc_hex8 r (by omega) hr]

/-- The rune and width the quoting loop works with. -/
theorem decodeStep (b : UInt8) (t : Str) :
    (if b < 0x80 then (b.toNat, 1) else Utf8.decode (b :: t)) = Utf8.decode (b :: t) := by
  split
  · rename_i h; simp [Utf8.decode, h]
  · rfl

/-- One round of the quoting loop as seen by the reader: `chunk` is the quoted form of the first
bytes `x` of the text. -/
theorem quoteLoop_step (P : Nat → Bool) (hP : P 10 = false) (k : Nat) (b : UInt8) (t : Str) :
    ∃ chunk x y, b :: t = x ++ y ∧ x ≠ [] ∧
      quoteLoop P (k + 1) (b :: t) = chunk ++ quoteLoop P k y ∧
      ∀ rest, ∃ c q v mb, chunk = c :: q ∧ c ≠ 34 ∧ c ≠ 10 ∧
        unquoteChar 34 (chunk ++ rest) = some (v, mb, rest) ∧ charBytes v mb = x := by
  rw [quoteLoop, decodeStep]
  obtain ⟨hw1, hw2⟩ := Utf8.decode_width (b :: t) (by simp)
  dsimp only
  by_cases h : (Utf8.decode (b :: t)).2 = 1 ∧ (Utf8.decode (b :: t)).1 = Utf8.runeError
  · rw [if_pos h, h.1]
    refine ⟨_, [b], t, rfl, by simp, rfl, ?_⟩
    intro rest
    refine ⟨92, _, b.toNat % 256, false, rfl, by decide, by decide, ?_, ?_⟩
    · simp only [List.cons_append, List.nil_append, unquoteChar_esc, esc_hex2]
    · have : b.toNat < 256 := b.toNat_lt
      rw [Nat.mod_eq_of_lt this]
      simp [charBytes]
  · rw [if_neg h]
    obtain ⟨h1, h2, h3, h4, -⟩ := Utf8.encode_decode (b :: t) (by simp) h
    refine ⟨_, (b :: t).take (Utf8.decode (b :: t)).2, (b :: t).drop (Utf8.decode (b :: t)).2,
      (List.take_append_drop _ _).symm, ?_, rfl, ?_⟩
    · intro he
      have := congrArg List.length he
      rw [List.length_take] at this
      simp at this
      omega
    · intro rest
      rw [← h4]
      exact escRune_read P hP _ h1 rest

/-- Reading back the quoted text. -/
theorem unquoteLoop_quoteLoop (P : Nat → Bool) (hP : P 10 = false) (n k : Nat) (s : Str)
    (hn : s.length ≤ n) (hk : (quoteLoop P n s).length ≤ k) (rest : Str) :
    unquoteLoop 34 k (quoteLoop P n s ++ 34 :: rest) = some (s, 34 :: rest) := by
  induction n generalizing s k with
  | zero =>
    have : s = [] := by simpa using hn
    subst this
    cases k <;> simp [quoteLoop, unquoteLoop]
  | succ n ih =>
    cases s with
    | nil => cases k <;> simp [quoteLoop, unquoteLoop]
    | cons b t =>
      obtain ⟨chunk, x, y, hxy, hx, hq, hread⟩ := quoteLoop_step P hP n b t
      obtain ⟨c, q, v, mb, hc, hc34, hc10, hu, hb⟩ := hread (quoteLoop P n y ++ 34 :: rest)
      rw [hq] at hk ⊢
      have hlen : (b :: t).length = x.length + y.length := by rw [hxy]; simp
      have hxl : 0 < x.length := List.length_pos_iff.mpr hx
      cases k with
      | zero => rw [hc] at hk; simp at hk
      | succ k =>
        rw [List.append_assoc]
        have hstep : unquoteLoop 34 (k + 1) (chunk ++ (quoteLoop P n y ++ 34 :: rest)) =
            (unquoteLoop 34 k (quoteLoop P n y ++ 34 :: rest)).map fun p =>
              (charBytes v mb ++ p.1, p.2) := by
          rw [hc] at hu ⊢
          simp only [List.cons_append] at hu ⊢
          rw [unquoteLoop, if_neg hc34, hu]
          dsimp only
          rw [if_neg hc10, if_neg (by decide)]
        rw [hstep, ih k y (by rw [hlen] at hn; omega) (by rw [hc] at hk; simp at hk; omega)]
        simp [hb, hxy]

/-- The fast path of `unquote` agrees with the loop. -/
theorem unquoteLoop_plain (n k : Nat) (s : Str) (hn : s.length ≤ n) (hk : s.length ≤ k) (rest : Str)
    (h92 : (92 : UInt8) ∉ s) (h10 : (10 : UInt8) ∉ s) (h34 : (34 : UInt8) ∉ s)
    (hv : validString n s = true) : unquoteLoop 34 k (s ++ 34 :: rest) = some (s, 34 :: rest) := by
  induction n generalizing s k with
  | zero =>
    have : s = [] := by simpa using hn
    subst this
    cases k <;> simp [unquoteLoop]
  | succ n ih =>
    cases s with
    | nil => cases k <;> simp [unquoteLoop]
    | cons b t =>
      cases k with
      | zero => simp at hk
      | succ k =>
      rw [validString] at hv
      dsimp only at hv
      split at hv
      · cases hv
      · rename_i h
        obtain ⟨h1, h2, h3, h4, h5⟩ := Utf8.encode_decode (b :: t) (by simp) h
        have hsplit := List.take_append_drop (Utf8.decode (b :: t)).2 (b :: t)
        generalize hw : (Utf8.decode (b :: t)).2 = w at *
        generalize hr : (Utf8.decode (b :: t)).1 = r at *
        have hb34 : b ≠ 34 := fun e => h34 (by simp [e])
        have hb10 : b ≠ 10 := fun e => h10 (by simp [e])
        have hb92 : b ≠ 92 := fun e => h92 (by simp [e])
        have hsub : ∀ c, c ∈ (b :: t).drop w → c ∈ b :: t := fun c hc => List.mem_of_mem_drop hc
        have hrec := ih k ((b :: t).drop w) (by simp at hn ⊢; omega) (by simp at hk ⊢; omega)
          (fun hc => h92 (hsub _ hc)) (fun hc => h10 (hsub _ hc)) (fun hc => h34 (hsub _ hc)) hv
        have hu : ∃ mb, unquoteChar 34 ((b :: t) ++ 34 :: rest) =
            some (r, mb, (b :: t).drop w ++ 34 :: rest) ∧ charBytes r mb = (b :: t).take w := by
          by_cases hb : b < 0x80
          · have hd : Utf8.decode (b :: t) = (b.toNat, 1) := by simp [Utf8.decode, hb]
            rw [hd] at hw hr
            simp only at hw hr
            subst hw; subst hr
            refine ⟨false, ?_, ?_⟩
            · simp only [List.cons_append, unquoteChar]
              rw [if_neg hb34, if_neg (by rw [UInt8.not_le]; exact hb), if_pos hb92]
              simp
            · simp [charBytes]
          · have hdec : Utf8.decode ((b :: t) ++ 34 :: rest) = (r, w) := by
              have := Utf8.decode_encode r h1 ((b :: t).drop w ++ 34 :: rest)
              rw [h4, ← List.append_assoc, hsplit] at this
              rw [this, List.length_take]
              simp only [Prod.mk.injEq, true_and]
              omega
            refine ⟨true, ?_, by rw [charBytes_mb, h4]⟩
            simp only [List.cons_append] at hdec ⊢
            rw [unquoteChar.eq_def]; dsimp only
            rw [if_neg hb34, if_pos (by rwa [UInt8.not_lt] at hb), hdec]
            dsimp only
            rw [← List.cons_append, List.drop_append_of_le_length h3]
        obtain ⟨mb, hu, hcb⟩ := hu
        simp only [List.cons_append] at hu ⊢
        rw [unquoteLoop, if_neg hb34, hu]
        dsimp only
        rw [if_neg hb10, if_neg (by decide), hrec]
        simp [hcb]

theorem contains_eq (s : Str) (c : UInt8) : s.contains c = decide (c ∈ s) := by
  simp [List.contains_eq_mem]

/-- For double-quoted text, `unquote` is the loop. -/
theorem unquote0_slow (body : Str) (he : 34 ∈ body) :
    unquote0 (34 :: body) = unquoteSlow 34 body := by
  have hidx : ∃ inner rem, body = inner ++ 34 :: rem ∧ (34 : UInt8) ∉ inner := by
    induction body with
    | nil => simp at he
    | cons c body ih =>
      by_cases hc : c = 34
      · exact ⟨[], body, by simp [hc], by simp⟩
      · obtain ⟨i, r, h1, h2⟩ := ih (by simpa [Ne.symm hc] using he)
        exact ⟨c :: i, r, by simp [h1], by simp [Ne.symm hc, h2]⟩
  obtain ⟨inner, rem, rfl, hno⟩ := hidx
  unfold unquote0
  dsimp only
  rw [GoStr.indexByte_append 34 inner _ hno]
  dsimp only
  rw [if_neg (by decide), if_pos (by decide)]
  simp only [List.take_left, if_pos]
  split
  · rename_i hf
    simp only [Bool.and_eq_true, Bool.not_eq_true', contains_eq, decide_eq_false_iff_not] at hf
    obtain ⟨⟨h1, h2⟩, h3⟩ := hf
    unfold unquoteSlow
    rw [unquoteLoop_plain inner.length _ inner (Nat.le_refl _) (by simp) rem
      (fun h => h1 (by simp [h])) (fun h => h2 (by simp [h])) hno h3]
    simp
  · rfl

theorem unquote_quote (P : Nat → Bool) (hP : P 10 = false) (s : Str) :
    unquote (quote P s) = some s := by
  unfold unquote quote
  rw [List.cons_append, unquote0_slow _ (by simp)]
  unfold unquoteSlow
  rw [unquoteLoop_quoteLoop P hP _ _ s (Nat.le_refl _) (by simp)]
  simp

theorem escRune_safe (P : Nat → Bool) (h10 : P 10 = false) (h13 : P 13 = false) (r : Nat) :
    ∀ b ∈ escRune P r, b ≠ 10 ∧ b ≠ 13 := by
  intro b hb
  unfold escRune at hb
  split at hb
  · rename_i h
    simp only [List.mem_cons, List.not_mem_nil, or_false] at hb
    rcases h with rfl | rfl <;> rcases hb with rfl | rfl <;> decide
  split at hb
  · rename_i hq hp
    by_cases h80 : r < 0x80
    · have he : Utf8.encode r = [UInt8.ofNat r] := by simp [Utf8.encode, h80]
      rw [he] at hb
      simp only [List.mem_cons, List.not_mem_nil, or_false] at hb
      subst hb
      have hn : (UInt8.ofNat r).toNat = r := Utf8.ofNat_toNat r (by omega)
      constructor
      · intro h; have := congrArg UInt8.toNat h; rw [hn] at this; simp at this
        subst this; rw [h10] at hp; cases hp
      · intro h; have := congrArg UInt8.toNat h; rw [hn] at this; simp at this
        subst this; rw [h13] at hp; cases hp
    · have := Utf8.encode_high r (by omega) b hb
      constructor <;> (rintro rfl; simp at this)
  have hx : ∀ k r', ∀ c : UInt8, c ≠ 10 → c ≠ 13 → b ∈ [92, c] ++ hexN k r' → b ≠ 10 ∧ b ≠ 13 := by
    intro k r' c hc1 hc2 hb
    simp only [List.mem_append, List.mem_cons, List.not_mem_nil, or_false] at hb
    rcases hb with (rfl | rfl) | hb
    · decide
    · exact ⟨hc1, hc2⟩
    · obtain ⟨h1, h2, _⟩ := hexN_safe _ _ b hb; exact ⟨h1, h2⟩
  split at hb
  · rename_i c hc
    obtain ⟨_, _, h1, h2⟩ := letterEsc_spec r c hc
    simp only [List.mem_cons, List.not_mem_nil, or_false] at hb
    rcases hb with rfl | rfl
    · decide
    · exact ⟨h1, h2⟩
  · split at hb
    · exact hx _ _ _ (by decide) (by decide) hb
    · split at hb
      · exact hx _ _ _ (by decide) (by decide) hb
      · split at hb <;> exact hx _ _ _ (by decide) (by decide) hb

theorem quoteLoop_safe (P : Nat → Bool) (h10 : P 10 = false) (h13 : P 13 = false) (n : Nat) (s : Str) :
    ∀ b ∈ quoteLoop P n s, b ≠ 10 ∧ b ≠ 13 := by
  induction n generalizing s with
  | zero => simp [quoteLoop]
  | succ n ih =>
    cases s with
    | nil => simp [quoteLoop]
    | cons c t =>
      rw [quoteLoop, decodeStep]
      dsimp only
      intro b hb
      rw [List.mem_append] at hb
      rcases hb with hb | hb
      · split at hb
        · simp only [List.mem_append, List.mem_cons, List.not_mem_nil, or_false] at hb
          rcases hb with (rfl | rfl) | hb
          · decide
          · decide
          · obtain ⟨h1, h2, _⟩ := hexN_safe _ _ b hb; exact ⟨h1, h2⟩
        · exact escRune_safe P h10 h13 _ b hb
      · exact ih _ b hb

end Verif.Quote
