import Verif.Spec.Literal
import Verif.Spec.Trim
import Verif.Lemmas.Quote
import Verif.Lemmas.TrimSpec
import Verif.Props.C22_C26
import Verif.Props.C09_C11
/-! # C91: which quoted strings are read, and as what -/
namespace Verif.Literal
open Verif

theorem encode_char (ch : Char) : Utf8.encode ch.toNat = utf8 ch := by
  have hv : ch.toNat.isValidChar := ch.valid
  have hr : ch.toNat < 0xD800 ∨ (0xE000 ≤ ch.toNat ∧ ch.toNat < 0x110000) := by
    rcases hv with h | h
    · exact .inl h
    · exact .inr ⟨by omega, h.2⟩
  have hvr : Utf8.validRune ch.toNat = true := by simpa [Utf8.validRune] using hr
  have hc : ch.val.toNat = ch.toNat := rfl
  unfold utf8 String.utf8EncodeChar Utf8.encode
  rw [hvr, hc]
  generalize ch.toNat = n at *
  dsimp only
  by_cases h1 : n < 0x80
  · rw [if_pos h1, if_pos (show n ≤ 0x7f by omega)]
  rw [if_neg h1, if_neg (show ¬ n ≤ 0x7f by omega)]
  by_cases h2 : n < 0x800
  · rw [if_pos h2, if_pos (show n ≤ 0x7ff by omega)]
    have e1 : 0xC0 + n / 64 = n / 64 % 0x20 + 0xc0 := by omega
    have e2 : 0x80 + n % 64 = n % 0x40 + 0x80 := by omega
    rw [e1, e2]
  rw [if_neg h2, if_neg (show ¬ n ≤ 0x7ff by omega), if_neg (show ¬ (!true) = true by simp)]
  by_cases h3 : n < 0x10000
  · rw [if_pos h3, if_pos (show n ≤ 0xffff by omega)]
    have e1 : 0xE0 + n / 4096 = n / 4096 % 0x10 + 0xe0 := by omega
    have e2 : 0x80 + n / 64 % 64 = n / 64 % 0x40 + 0x80 := by omega
    have e3 : 0x80 + n % 64 = n % 0x40 + 0x80 := by omega
    rw [e1, e2, e3]
  rw [if_neg h3, if_neg (show ¬ n ≤ 0xffff by omega)]
  have e1 : 0xF0 + n / 262144 = n / 262144 % 0x08 + 0xf0 := by omega
  have e2 : 0x80 + n / 4096 % 64 = n / 4096 % 0x40 + 0x80 := by omega
  have e3 : 0x80 + n / 64 % 64 = n / 64 % 0x40 + 0x80 := by omega
  have e4 : 0x80 + n % 64 = n % 0x40 + 0x80 := by omega
  rw [e1, e2, e3, e4]

theorem char_valid (ch : Char) : Utf8.validRune ch.toNat = true := by
  have hv : ch.toNat.isValidChar := ch.valid
  rcases hv with h | h
  · simp [Utf8.validRune, h]
  · simp only [Utf8.validRune, Bool.or_eq_true, Bool.and_eq_true, decide_eq_true_eq]
    exact .inr ⟨by omega, h.2⟩

theorem exists_char (r : Nat) (h : Utf8.validRune r = true) : ∃ ch : Char, ch.toNat = r := by
  have hr : r < 0xD800 ∨ (0xE000 ≤ r ∧ r < 0x110000) := by simpa [Utf8.validRune] using h
  have hv : r.isValidChar := by
    rcases hr with h | h
    · exact .inl h
    · exact .inr ⟨by omega, h.2⟩
  exact ⟨Char.ofNatAux r hv, by simp [Char.ofNatAux, Char.toNat]⟩

theorem decode_char (ch : Char) (t : Str) : Utf8.decode (utf8 ch ++ t) = (ch.toNat, (utf8 ch).length) := by
  rw [← encode_char, Utf8.decode_encode _ (char_valid ch)]

/-! Digits -/

theorem unhex_iff (c : UInt8) (v : Nat) : Quote.unhex c = some v ↔ IsDigit 16 c v := by
  have h1 : ∀ v : Fin 16, Quote.unhex c = some v.val ↔
      b!"0123456789abcdef"[v.val]? = some c ∨ b!"0123456789ABCDEF"[v.val]? = some c := by
    revert c; apply u8; decide +kernel
  have h2 : ∀ w, Quote.unhex c = some w → w < 16 := by
    have : (Quote.unhex c).all (· < 16) = true := by revert c; apply u8; decide +kernel
    intro w hw
    rw [hw] at this
    simpa using this
  constructor
  · intro h
    exact ⟨h2 v h, (h1 ⟨v, h2 v h⟩).mp h⟩
  · rintro ⟨h, h'⟩
    exact (h1 ⟨v, h⟩).mpr h'

theorem unoct_iff (c : UInt8) (v : Nat) : Quote.unoct c = some v ↔ IsDigit 8 c v := by
  have h1 : ∀ v : Fin 8, Quote.unoct c = some v.val ↔
      b!"0123456789abcdef"[v.val]? = some c ∨ b!"0123456789ABCDEF"[v.val]? = some c := by
    revert c; apply u8; decide +kernel
  have h2 : ∀ w, Quote.unoct c = some w → w < 8 := by
    have : (Quote.unoct c).all (· < 8) = true := by revert c; apply u8; decide +kernel
    intro w hw
    rw [hw] at this
    simpa using this
  constructor
  · intro h
    exact ⟨h2 v h, (h1 ⟨v, h2 v h⟩).mp h⟩
  · rintro ⟨h, h'⟩
    exact (h1 ⟨v, h⟩).mpr h'

theorem readHex_iff (n : Nat) : ∀ (acc : Nat) (s : Str) (v : Nat) (rem : Str),
    Quote.readHex n acc s = some (v, rem) ↔ ∃ ds, s = ds ++ rem ∧ ds.length = n ∧ Digits 16 acc ds v := by
  induction n with
  | zero =>
    intro acc s v rem
    simp only [Quote.readHex]
    constructor
    · intro h; cases h; exact ⟨[], rfl, rfl, .nil _⟩
    · rintro ⟨ds, rfl, hl, hd⟩
      have : ds = [] := by simpa using hl
      subst this
      cases hd; rfl
  | succ n ih =>
    intro acc s v rem
    cases s with
    | nil =>
      simp only [Quote.readHex]
      constructor
      · intro h; cases h
      · rintro ⟨ds, hs, hl, _⟩
        have : ds = [] := by simp at hs; exact hs.1
        subst this; cases hl
    | cons c s =>
      simp only [Quote.readHex]
      constructor
      · intro h
        cases hu : Quote.unhex c with
        | none => rw [hu] at h; cases h
        | some x =>
          rw [hu] at h
          obtain ⟨ds, rfl, hl, hd⟩ := (ih _ _ _ _).mp h
          exact ⟨c :: ds, rfl, by simp [hl], .cons ((unhex_iff c x).mp hu) hd⟩
      · rintro ⟨ds, hs, hl, hd⟩
        cases hd with
        | nil => cases hl
        | @cons _ c' d ds v h1 h2 =>
          simp only [List.cons_append, List.cons.injEq] at hs
          obtain ⟨rfl, rfl⟩ := hs
          rw [(unhex_iff _ _).mpr h1]
          exact (ih _ _ _ _).mpr ⟨ds, rfl, by simpa using hl, h2⟩

theorem digits8_three (ds : Str) (v : Nat) (hl : ds.length = 3) : Digits 8 0 ds v ↔
    ∃ c0 c1 c2 v0 v1 v2, ds = [c0, c1, c2] ∧ Quote.unoct c0 = some v0 ∧ Quote.unoct c1 = some v1 ∧
      Quote.unoct c2 = some v2 ∧ v = (v0 * 8 + v1) * 8 + v2 := by
  constructor
  · intro h
    cases h with
    | nil => cases hl
    | cons h0 h =>
    cases h with
    | nil => simp at hl
    | cons h1 h =>
    cases h with
    | nil => simp at hl
    | cons h2 h =>
    cases h with
    | nil =>
      refine ⟨_, _, _, _, _, _, rfl, (unoct_iff _ _).mpr h0, (unoct_iff _ _).mpr h1, (unoct_iff _ _).mpr h2, by simp⟩
    | cons h3 h => simp at hl
  · rintro ⟨c0, c1, c2, v0, v1, v2, rfl, h0, h1, h2, rfl⟩
    have := Digits.cons (acc := 0) ((unoct_iff _ _).mp h0) (.cons ((unoct_iff _ _).mp h1) (.cons ((unoct_iff _ _).mp h2) (.nil _)))
    simpa using this

/-! One character -/

/-- One round of the loop: the bytes of the next character and the rest. -/
def charStep (q : UInt8) (s : Str) : Option (Str × Str) :=
  if s.head? = some q ∨ s.head? = some 10 then none
  else (Quote.unquoteChar q s).map fun p => (Quote.charBytes p.1 p.2.1, p.2.2)

theorem escStep_iff (q c : UInt8) (s d rem : Str) (hq : q = 34 ∨ q = 39) :
    (∃ v mb, Quote.unquoteEsc q c s = some (v, mb, rem) ∧ d = Quote.charBytes v mb) ↔
    ∃ t, 92 :: c :: s = t ++ rem ∧ OneChar q t rem d ∧ t.head? = some 92 := by
  constructor
  · rintro ⟨v, mb, h, rfl⟩
    unfold Quote.unquoteEsc at h
    split at h
    · rename_i v' hv
      cases h
      refine ⟨[92, c], rfl, ?_, rfl⟩
      have hcb : Quote.charBytes v false = [UInt8.ofNat v] := by simp [Quote.charBytes]
      rw [hcb]
      apply OneChar.letter
      have : ∀ c : UInt8, (Quote.letterVal c).all (fun v => decide ((c, UInt8.ofNat v) ∈ letters)) = true := by
        apply u8; decide +kernel
      have := this c
      rw [hv] at this
      simpa using this
    · rename_i hl
      split at h
      · rename_i hc
        subst hc
        rw [Option.map_eq_some_iff] at h
        obtain ⟨⟨v', rem'⟩, h, he⟩ := h
        cases he
        obtain ⟨ds, rfl, hlen, hd⟩ := (readHex_iff _ _ _ _ _).mp h
        refine ⟨92 :: 120 :: ds, rfl, ?_, rfl⟩
        have hcb : Quote.charBytes v' false = [UInt8.ofNat v'] := by simp [Quote.charBytes]
        rw [hcb]
        exact .hex ds _ _ hlen hd
      split at h
      · rename_i hc
        subst hc
        rw [Option.bind_eq_some_iff] at h
        obtain ⟨⟨v', rem'⟩, h, he⟩ := h
        dsimp only at he
        split at he
        · rename_i hv
          cases he
          obtain ⟨ds, rfl, hlen, hd⟩ := (readHex_iff _ _ _ _ _).mp h
          obtain ⟨ch, rfl⟩ := exists_char v hv
          refine ⟨92 :: 117 :: ds, rfl, ?_, rfl⟩
          rw [Quote.charBytes_mb, encode_char]
          exact .short ds ch rem hlen hd
        · cases he
      split at h
      · rename_i hc
        subst hc
        rw [Option.bind_eq_some_iff] at h
        obtain ⟨⟨v', rem'⟩, h, he⟩ := h
        dsimp only at he
        split at he
        · rename_i hv
          cases he
          obtain ⟨ds, rfl, hlen, hd⟩ := (readHex_iff _ _ _ _ _).mp h
          obtain ⟨ch, rfl⟩ := exists_char v hv
          refine ⟨92 :: 85 :: ds, rfl, ?_, rfl⟩
          rw [Quote.charBytes_mb, encode_char]
          exact .long ds ch rem hlen hd
        · cases he
      split at h
      · rename_i v0 h0
        split at h
        · rename_i c1 c2 s'
          rw [Option.bind_eq_some_iff] at h
          obtain ⟨v1, h1, h⟩ := h
          rw [Option.bind_eq_some_iff] at h
          obtain ⟨v2, h2, h⟩ := h
          dsimp only at h
          split at h
          · cases h
          · rename_i hle
            cases h
            refine ⟨[92, c, c1, c2], rfl, ?_, rfl⟩
            have hcb : ∀ v, Quote.charBytes v false = [UInt8.ofNat v] := by intro v; simp [Quote.charBytes]
            rw [hcb]
            exact .octal [c, c1, c2] _ rem rfl ((digits8_three _ _ rfl).mpr ⟨_, _, _, _, _, _, rfl, h0, h1, h2, rfl⟩) (by omega)
        · cases h
      · split at h
        · rename_i hc
          cases h; subst hc
          exact ⟨[92, 92], rfl, .letter 92 92 _ (by decide), rfl⟩
        split at h
        · split at h
          · rename_i hcq
            cases h; subst hcq
            refine ⟨[92, c], rfl, ?_, rfl⟩
            have hcb : Quote.charBytes c.toNat false = [c] := by simp [Quote.charBytes]
            rw [hcb]
            exact .quote _
          · cases h
        · cases h
  · rintro ⟨t, ht, ho, hh⟩
    cases ho with
    | char ch _ h1 h2 h3 =>
      exfalso
      apply h2
      have := decode_char ch rem
      rw [← ht] at this
      simp [Utf8.decode] at this
      exact this.1.symm
    | bad b _ hb _ =>
      simp at hh
      subst hh
      exact absurd hb (by decide)
    | letter c' v _ hm =>
      simp only [List.cons_append, List.nil_append, List.cons.injEq, true_and] at ht
      obtain ⟨rfl, rfl⟩ := ht
      simp only [letters, List.mem_cons, Prod.mk.injEq, List.not_mem_nil, or_false] at hm
      rcases hm with ⟨rfl, rfl⟩ | ⟨rfl, rfl⟩ | ⟨rfl, rfl⟩ | ⟨rfl, rfl⟩ | ⟨rfl, rfl⟩ | ⟨rfl, rfl⟩ | ⟨rfl, rfl⟩ | ⟨rfl, rfl⟩ <;>
        exact ⟨_, _, rfl, rfl⟩
    | quote _ =>
      simp only [List.cons_append, List.nil_append, List.cons.injEq, true_and] at ht
      obtain ⟨rfl, rfl⟩ := ht
      rcases hq with rfl | rfl <;> exact ⟨_, _, rfl, rfl⟩
    | octal ds v _ hl hd hle =>
      obtain ⟨c0, c1, c2, v0, v1, v2, rfl, h0, h1, h2, rfl⟩ := (digits8_three _ _ hl).mp hd
      simp only [List.cons_append, List.nil_append, List.cons.injEq, true_and] at ht
      obtain ⟨rfl, rfl⟩ := ht
      refine ⟨(v0 * 8 + v1) * 8 + v2, false, ?_, by simp [Quote.charBytes]⟩
      have hno : ∀ c : UInt8, (Quote.unoct c).isSome → Quote.letterVal c = none ∧ c ≠ 120 ∧ c ≠ 117 ∧ c ≠ 85 := by
        apply u8; decide +kernel
      obtain ⟨g1, g2, g3, g4⟩ := hno c (by rw [h0]; rfl)
      unfold Quote.unquoteEsc
      rw [g1]
      dsimp only
      rw [if_neg g2, if_neg g3, if_neg g4, h0]
      dsimp only
      rw [h1, h2]
      simp only [Option.bind_some]
      rw [if_neg (by omega)]
    | hex ds v _ hl hd =>
      simp only [List.cons_append, List.cons.injEq, true_and] at ht
      obtain ⟨rfl, rfl⟩ := ht
      refine ⟨v, false, ?_, by simp [Quote.charBytes]⟩
      show (Quote.readHex 2 0 (ds ++ rem)).map _ = _
      rw [(readHex_iff 2 0 _ v rem).mpr ⟨ds, rfl, hl, hd⟩]
      rfl
    | short ds ch _ hl hd =>
      simp only [List.cons_append, List.cons.injEq, true_and] at ht
      obtain ⟨rfl, rfl⟩ := ht
      refine ⟨ch.toNat, true, ?_, by rw [Quote.charBytes_mb, encode_char]⟩
      show (Quote.readHex 4 0 (ds ++ rem)).bind _ = _
      rw [(readHex_iff 4 0 _ _ rem).mpr ⟨ds, rfl, hl, hd⟩]
      simp only [Option.bind_some]
      rw [if_pos (char_valid ch)]
    | long ds ch _ hl hd =>
      simp only [List.cons_append, List.cons.injEq, true_and] at ht
      obtain ⟨rfl, rfl⟩ := ht
      refine ⟨ch.toNat, true, ?_, by rw [Quote.charBytes_mb, encode_char]⟩
      show (Quote.readHex 8 0 (ds ++ rem)).bind _ = _
      rw [(readHex_iff 8 0 _ _ rem).mpr ⟨ds, rfl, hl, hd⟩]
      simp only [Option.bind_some]
      rw [if_pos (char_valid ch)]

theorem utf8_ne_nil (ch : Char) : utf8 ch ≠ [] := String.utf8EncodeChar_ne_nil

theorem utf8_low (ch : Char) (b : UInt8) (t : Str) (h : utf8 ch = b :: t) (hb : b < 0x80) :
    ch.toNat = b.toNat ∧ t = [] := by
  have := decode_char ch []
  rw [h] at this
  simp only [Utf8.decode, List.append_nil, if_pos hb, Prod.mk.injEq, List.length_cons] at this
  exact ⟨this.1.symm, List.eq_nil_of_length_eq_zero (by omega)⟩

theorem utf8_high (ch : Char) (b : UInt8) (t : Str) (h : utf8 ch = b :: t) (hb : 0x80 ≤ b) :
    0x80 ≤ ch.toNat ∧ ∀ c ∈ utf8 ch, 0x80 ≤ c.toNat := by
  have h80 : 0x80 ≤ ch.toNat := by
    by_cases hc : 0x80 ≤ ch.toNat
    · exact hc
    · exfalso
      have he := encode_char ch
      rw [h, Utf8.encode, if_pos (by omega)] at he
      cases he
      rw [UInt8.le_iff_toNat_le] at hb
      simp at hb
      omega
  refine ⟨h80, ?_⟩
  rw [← encode_char]
  exact Utf8.encode_high _ h80

theorem oneChar_head {q : UInt8} (hq : q = 34 ∨ q = 39) {t rest d : Str} (h : OneChar q t rest d) :
    ∃ c u, t = c :: u ∧ c ≠ q ∧ c ≠ 10 := by
  have h92 : (92 : UInt8) ≠ q ∧ (92 : UInt8) ≠ 10 := by rcases hq with rfl | rfl <;> decide
  cases h with
  | char ch _ h1 h2 h3 =>
    cases ht : utf8 ch with
    | nil => exact absurd ht (utf8_ne_nil ch)
    | cons c u =>
      refine ⟨c, u, rfl, ?_, ?_⟩
      · rintro rfl
        exact h3 (utf8_low ch c u ht (by rcases hq with rfl | rfl <;> decide)).1
      · rintro rfl
        exact h1 (utf8_low ch 10 u ht (by decide)).1
  | bad b _ hb _ =>
    refine ⟨b, [], rfl, ?_, ?_⟩
    · rintro rfl
      rcases hq with rfl | rfl <;> exact absurd hb (by decide)
    · rintro rfl
      exact absurd hb (by decide)
  | letter => exact ⟨_, _, rfl, h92⟩
  | quote => exact ⟨_, _, rfl, h92⟩
  | octal => exact ⟨_, _, rfl, h92⟩
  | hex => exact ⟨_, _, rfl, h92⟩
  | short => exact ⟨_, _, rfl, h92⟩
  | long => exact ⟨_, _, rfl, h92⟩

/-- What follows the quote at the end does not matter. -/
theorem oneChar_ext {q : UInt8} (hq : q = 34 ∨ q = 39) {t s d : Str} (r : Str) :
    OneChar q t (s ++ q :: r) d ↔ OneChar q t s d := by
  have hq80 : q < 0x80 := by rcases hq with rfl | rfl <;> decide
  constructor
  · intro h
    cases h with
    | char ch _ h1 h2 h3 => exact .char ch _ h1 h2 h3
    | bad b _ hb hn =>
      refine .bad b _ hb ?_
      intro ch u he
      exact hn ch (u ++ q :: r) (by rw [← List.cons_append, he, List.append_assoc])
    | letter _ _ _ h => exact .letter _ _ _ h
    | quote => exact .quote _
    | octal _ _ _ h1 h2 h3 => exact .octal _ _ _ h1 h2 h3
    | hex _ _ _ h1 h2 => exact .hex _ _ _ h1 h2
    | short _ _ _ h1 h2 => exact .short _ _ _ h1 h2
    | long _ _ _ h1 h2 => exact .long _ _ _ h1 h2
  · intro h
    cases h with
    | char ch _ h1 h2 h3 => exact .char ch _ h1 h2 h3
    | bad b _ hb hn =>
      refine .bad b _ hb ?_
      intro ch u he
      have he' : (b :: s) ++ q :: r = utf8 ch ++ u := he
      rw [List.append_eq_append_iff] at he'
      rcases he' with ⟨a, h1, h2⟩ | ⟨a, h1, h2⟩
      · cases a with
        | nil => exact hn ch [] (by simpa using h1.symm)
        | cons x a =>
          simp only [List.cons_append, List.cons.injEq] at h2
          have := (utf8_high ch b _ h1 hb).2 q (by rw [h1, h2.1]; simp)
          rw [UInt8.lt_iff_toNat_lt] at hq80
          simp at hq80
          omega
      · exact hn ch a h1
    | letter _ _ _ h => exact .letter _ _ _ h
    | quote => exact .quote _
    | octal _ _ _ h1 h2 h3 => exact .octal _ _ _ h1 h2 h3
    | hex _ _ _ h1 h2 => exact .hex _ _ _ h1 h2
    | short _ _ _ h1 h2 => exact .short _ _ _ h1 h2
    | long _ _ _ h1 h2 => exact .long _ _ _ h1 h2

theorem charStep_iff (q : UInt8) (hq : q = 34 ∨ q = 39) (s d rem : Str) :
    charStep q s = some (d, rem) ↔ ∃ t, s = t ++ rem ∧ OneChar q t rem d := by
  have hq80 : q < 0x80 := by rcases hq with rfl | rfl <;> decide
  have hq92 : q ≠ 92 := by rcases hq with rfl | rfl <;> decide
  cases s with
  | nil =>
    constructor
    · intro h; simp [charStep, Quote.unquoteChar] at h
    · rintro ⟨t, ht, ho⟩
      obtain ⟨c, u, rfl, _⟩ := oneChar_head hq ho
      cases ht
  | cons c s =>
    by_cases hc : c = q ∨ c = 10
    · have : charStep q (c :: s) = none := by
        unfold charStep
        rw [if_pos (by simpa using hc)]
      rw [this]
      constructor
      · intro h; cases h
      · rintro ⟨t, ht, ho⟩
        obtain ⟨c', u, rfl, h1, h2⟩ := oneChar_head hq ho
        simp only [List.cons_append, List.cons.injEq] at ht
        rcases hc with hc | hc
        · exact absurd (ht.1.symm.trans hc) h1
        · exact absurd (ht.1.symm.trans hc) h2
    · have hcq : c ≠ q := fun h => hc (.inl h)
      have hc10 : c ≠ 10 := fun h => hc (.inr h)
      have hstep : charStep q (c :: s) = some (d, rem) ↔
          ∃ v mb, Quote.unquoteChar q (c :: s) = some (v, mb, rem) ∧ d = Quote.charBytes v mb := by
        unfold charStep
        rw [if_neg (by simpa using hc), Option.map_eq_some_iff]
        constructor
        · rintro ⟨⟨v, mb, r⟩, h1, h2⟩
          cases h2
          exact ⟨v, mb, h1, rfl⟩
        · rintro ⟨v, mb, h1, rfl⟩
          exact ⟨_, h1, rfl⟩
      rw [hstep]
      by_cases hhi : 0x80 ≤ c
      · have hu : Quote.unquoteChar q (c :: s) = some ((Utf8.decode (c :: s)).1, true, (c :: s).drop (Utf8.decode (c :: s)).2) := by
          rw [Quote.unquoteChar.eq_def]
          dsimp only
          rw [if_neg hcq, if_pos hhi]
        rw [hu]
        by_cases hbad : (Utf8.decode (c :: s)).2 = 1 ∧ (Utf8.decode (c :: s)).1 = Utf8.runeError
        · rw [hbad.1, hbad.2]
          constructor
          · rintro ⟨v, mb, h, rfl⟩
            cases h
            refine ⟨[c], rfl, ?_⟩
            rw [Quote.charBytes_mb]
            refine .bad c s hhi ?_
            intro ch u he
            rw [he, decode_char] at hbad
            have h1 : (utf8 ch).length = 1 := hbad.1
            have h2 : ch.toNat = Utf8.runeError := hbad.2
            rw [← encode_char, h2] at h1
            revert h1; decide
          · rintro ⟨t, ht, ho⟩
            have key : t = [c] ∧ rem = s ∧ d = utf8 '\uFFFD' := by
              obtain ⟨c', u, rfl, -, -⟩ := oneChar_head hq ho
              simp only [List.cons_append, List.cons.injEq] at ht
              obtain ⟨rfl, rfl⟩ := ht
              generalize hcu : c :: u = cu at ho
              cases ho with
              | char ch _ h1 h2 h3 =>
                exfalso
                rw [show c :: (u ++ rem) = utf8 ch ++ rem by rw [← hcu]; rfl, decode_char] at hbad
                have h1 : (utf8 ch).length = 1 := hbad.1
                have h2 : ch.toNat = Utf8.runeError := hbad.2
                rw [← encode_char, h2] at h1
                revert h1; decide
              | bad b _ hb _ => cases hcu; exact ⟨rfl, rfl, rfl⟩
              | _ => cases hcu; exact absurd hhi (by decide)
            obtain ⟨rfl, rfl, rfl⟩ := key
            refine ⟨_, _, rfl, ?_⟩
            rw [Quote.charBytes_mb]
            rfl
        · obtain ⟨h1, h2, h3, h4, h5⟩ := Utf8.encode_decode (c :: s) (by simp) hbad
          have hsplit := List.take_append_drop (Utf8.decode (c :: s)).2 (c :: s)
          obtain ⟨ch, hch⟩ := exists_char _ h1
          rw [← hch, encode_char] at h4
          have hge : 0x80 ≤ ch.toNat := by
            rw [hch]
            rcases h5 with h5 | ⟨b, t, hbt, _, h5⟩
            · exfalso
              rw [← hch] at h5
              cases hu8 : utf8 ch with
              | nil => exact utf8_ne_nil ch hu8
              | cons x y =>
                have hx : x = c := by
                  rw [← h4, hu8] at hsplit
                  simp only [List.cons_append, List.cons.injEq] at hsplit
                  exact hsplit.1
                subst hx
                have := (utf8_high ch x y hu8 hhi).1
                omega
            · exact h5
          constructor
          · rintro ⟨v, mb, h, rfl⟩
            cases h
            refine ⟨utf8 ch, by rw [h4]; exact hsplit.symm, ?_⟩
            rw [Quote.charBytes_mb, ← hch, encode_char]
            refine .char ch _ (by omega) (by omega) ?_
            rw [UInt8.lt_iff_toNat_lt] at hq80
            simp at hq80
            omega
          · rintro ⟨t, ht, ho⟩
            have key : t = utf8 ch ∧ d = utf8 ch := by
              cases ho with
              | char ch' _ g1 g2 g3 =>
                rw [ht, decode_char] at hch
                have : ch = ch' := Char.toNat_inj.mp hch
                subst this
                exact ⟨rfl, rfl⟩
              | bad b _ hb hn =>
                exfalso
                rw [← h4] at hsplit
                exact hn ch _ (ht.symm.trans hsplit.symm)
              | _ =>
                exfalso
                simp only [List.cons_append, List.cons.injEq] at ht
                rw [ht.1] at hhi
                exact absurd hhi (by decide)
            obtain ⟨rfl, rfl⟩ := key
            refine ⟨(Utf8.decode (c :: s)).1, true, ?_, ?_⟩
            · rw [ht, decode_char]
              simp
            · rw [Quote.charBytes_mb, ← hch, encode_char]
      · have hlo : c < 0x80 := by rwa [UInt8.not_le] at hhi
        by_cases h92 : c = 92
        · subst h92
          cases s with
          | nil =>
            constructor
            · rintro ⟨v, mb, h, _⟩
              rcases hq with rfl | rfl <;> simp [Quote.unquoteChar] at h
            · rintro ⟨t, ht, ho⟩
              exfalso
              cases ho with
              | char ch _ g1 g2 g3 =>
                cases hu8 : utf8 ch with
                | nil => exact utf8_ne_nil ch hu8
                | cons x y =>
                  rw [hu8] at ht
                  simp only [List.cons_append, List.cons.injEq] at ht
                  obtain ⟨rfl, _⟩ := ht
                  exact g2 (utf8_low ch _ y hu8 (by decide)).1
              | bad b _ hb _ =>
                simp only [List.cons_append, List.cons.injEq] at ht
                rw [← ht.1] at hb
                exact absurd hb (by decide)
              | letter => simp at ht
              | quote => simp at ht
              | octal ds _ _ hl => cases ds <;> simp at ht hl
              | hex => simp at ht
              | short => simp at ht
              | long => simp at ht
          | cons c s =>
            have hu : Quote.unquoteChar q (92 :: c :: s) = Quote.unquoteEsc q c s := by
              rcases hq with rfl | rfl <;> rfl
            rw [hu, escStep_iff q c s d rem hq]
            constructor
            · rintro ⟨t, h1, h2, _⟩
              exact ⟨t, h1, h2⟩
            · rintro ⟨t, h1, h2⟩
              refine ⟨t, h1, h2, ?_⟩
              obtain ⟨c', u, rfl, -, -⟩ := oneChar_head hq h2
              simp only [List.cons_append, List.cons.injEq] at h1
              simp [h1.1]
        · have hu : Quote.unquoteChar q (c :: s) = some (c.toNat, false, s) := by
            rw [Quote.unquoteChar.eq_def]
            dsimp only
            rw [if_neg hcq, if_neg hhi, if_pos h92]
          rw [hu]
          have hcb : Quote.charBytes c.toNat false = [c] := by simp [Quote.charBytes]
          have hlt : c.toNat < 0x80 := by rw [UInt8.lt_iff_toNat_lt] at hlo; exact hlo
          obtain ⟨ch, hch⟩ := exists_char c.toNat (by simp [Utf8.validRune]; omega)
          have hu8 : utf8 ch = [c] := by
            rw [← encode_char, hch, Utf8.encode, if_pos hlt]
            simp
          constructor
          · rintro ⟨v, mb, h, rfl⟩
            cases h
            refine ⟨[c], rfl, ?_⟩
            rw [hcb, ← hu8]
            refine .char ch _ ?_ ?_ ?_
            · rw [hch]; exact fun h => hc10 (UInt8.toNat_inj.mp h)
            · rw [hch]; exact fun h => h92 (UInt8.toNat_inj.mp h)
            · rw [hch]; exact fun h => hcq (UInt8.toNat_inj.mp h)
          · rintro ⟨t, ht, ho⟩
            have key : t = [c] ∧ d = [c] := by
              cases ho with
              | char ch' _ g1 g2 g3 =>
                cases hx : utf8 ch' with
                | nil => exact absurd hx (utf8_ne_nil ch')
                | cons x y =>
                  rw [hx] at ht
                  simp only [List.cons_append, List.cons.injEq] at ht
                  obtain ⟨rfl, _⟩ := ht
                  obtain ⟨_, rfl⟩ := utf8_low ch' c y hx hlo
                  exact ⟨rfl, rfl⟩
              | bad b _ hb _ =>
                exfalso
                simp only [List.cons_append, List.cons.injEq] at ht
                exact hhi (by rw [ht.1]; exact hb)
              | _ =>
                exfalso
                simp only [List.cons_append, List.cons.injEq] at ht
                exact h92 ht.1
            obtain ⟨rfl, rfl⟩ := key
            simp only [List.cons_append, List.nil_append, List.cons.injEq, true_and] at ht
            exact ⟨c.toNat, false, by rw [ht], hcb.symm⟩

/-! Whole literals -/

theorem loop_step (q : UInt8) (k : Nat) (c : UInt8) (s : Str) (hc : c ≠ q) :
    Quote.unquoteLoop q (k + 1) (c :: s) =
      (charStep q (c :: s)).bind fun p =>
        if q = 39 then some p else (Quote.unquoteLoop q k p.2).map fun r => (p.1 ++ r.1, r.2) := by
  rw [Quote.unquoteLoop, if_neg hc]
  unfold charStep
  by_cases h10 : c = 10
  · rw [if_pos (by simp [h10])]
    cases Quote.unquoteChar q (c :: s) with
    | none => rfl
    | some p => simp [h10]
  · rw [if_neg (by simp [h10, hc])]
    cases Quote.unquoteChar q (c :: s) with
    | none => rfl
    | some p =>
      simp only [Option.map_some, Option.bind_some]
      rw [if_neg h10]

theorem loop_iff (k : Nat) : ∀ (s d rem : Str), s.length ≤ k →
    (Quote.unquoteLoop 34 k s = some (d, 34 :: rem) ↔ ∃ t, s = t ++ 34 :: rem ∧ Body t d) := by
  induction k with
  | zero =>
    intro s d rem hs
    have : s = [] := by simpa using hs
    subst this
    simp [Quote.unquoteLoop]
  | succ k ih =>
    intro s d rem hs
    cases s with
    | nil => simp [Quote.unquoteLoop]
    | cons c s =>
      by_cases hc : c = 34
      · subst hc
        rw [Quote.unquoteLoop, if_pos rfl]
        constructor
        · intro h
          cases h
          exact ⟨[], rfl, .nil⟩
        · rintro ⟨t, ht, hb⟩
          cases hb with
          | nil =>
            simp only [List.nil_append, List.cons.injEq, true_and] at ht
            rw [ht]
          | cons ho _ =>
            obtain ⟨c', u, rfl, h1, _⟩ := oneChar_head (.inl rfl) ho
            simp only [List.cons_append, List.cons.injEq] at ht
            exact absurd ht.1.symm h1
      · rw [loop_step 34 k c s hc, Option.bind_eq_some_iff]
        simp only [show ¬ ((34 : UInt8) = 39) by decide, if_false, Option.map_eq_some_iff]
        constructor
        · rintro ⟨⟨d1, r1⟩, h1, ⟨d2, r2⟩, h2, he⟩
          cases he
          obtain ⟨t1, ht, ho⟩ := (charStep_iff 34 (.inl rfl) _ _ _).mp h1
          obtain ⟨_, u, rfl, -, -⟩ := oneChar_head (.inl rfl) ho
          have hl := congrArg List.length ht
          simp only [List.length_cons, List.length_append] at hl hs
          obtain ⟨t2, rfl, hb⟩ := (ih r1 d2 rem (by omega)).mp h2
          exact ⟨_, by rw [ht, List.append_assoc], .cons ((oneChar_ext (.inl rfl) rem).mp ho) hb⟩
        · rintro ⟨t, ht, hb⟩
          cases hb with
          | nil =>
            simp only [List.nil_append, List.cons.injEq] at ht
            exact absurd ht.1 hc
          | @cons t1 t2 d1 d2 ho hb =>
            rw [List.append_assoc] at ht
            have h1 := (charStep_iff 34 (.inl rfl) (c :: s) d1 (t2 ++ 34 :: rem)).mpr
              ⟨t1, ht, (oneChar_ext (.inl rfl) rem).mpr ho⟩
            obtain ⟨_, u, rfl, -, -⟩ := oneChar_head (.inl rfl) ho
            have hl := congrArg List.length ht
            simp only [List.length_cons, List.length_append] at hl hs
            refine ⟨_, h1, (d2, 34 :: rem), (ih _ _ _ ?_).mpr ⟨t2, rfl, hb⟩, rfl⟩
            simp only [List.length_cons, List.length_append]
            omega

theorem unquote_slow (q : UInt8) (body d : Str) (h : Quote.unquote0 (q :: body) = Quote.unquoteSlow q body) :
    Quote.unquote (q :: body) = some d ↔ Quote.unquoteLoop q body.length body = some (d, [q]) := by
  unfold Quote.unquote
  rw [h]
  unfold Quote.unquoteSlow
  cases Quote.unquoteLoop q body.length body with
  | none => simp
  | some p =>
    obtain ⟨out, rem⟩ := p
    cases rem with
    | nil => simp
    | cons c rem =>
      by_cases hc : c = q
      · subst hc
        dsimp only
        rw [if_pos rfl]
        cases rem with
        | nil => simp
        | cons x y => simp
      · dsimp only
        rw [if_neg hc]
        simp [hc]

theorem unquote_none (q : UInt8) (body : Str) (h : q ∉ body) : Quote.unquote (q :: body) = none := by
  have : GoStr.indexByte q body = none := by
    induction body with
    | nil => rfl
    | cons c body ih =>
      simp only [List.mem_cons, not_or] at h
      simp only [GoStr.indexByte]
      rw [if_neg (fun e => h.1 e.symm), ih h.2]
      rfl
  unfold Quote.unquote Quote.unquote0
  dsimp only
  rw [this]

theorem split_first (q : UInt8) (body : Str) (h : q ∈ body) :
    ∃ inner rem, body = inner ++ q :: rem ∧ q ∉ inner := by
  induction body with
  | nil => simp at h
  | cons c body ih =>
    by_cases hc : c = q
    · exact ⟨[], body, by simp [hc], by simp⟩
    · obtain ⟨i, r, h1, h2⟩ := ih (by simpa [Ne.symm hc] using h)
      exact ⟨c :: i, r, by simp [h1], by simp [Ne.symm hc, h2]⟩

theorem unquote_double (body d : Str) :
    Quote.unquote (34 :: body) = some d ↔ ∃ t, body = t ++ [34] ∧ Body t d := by
  by_cases h : 34 ∈ body
  · rw [unquote_slow 34 body d (Quote.unquote0_slow body h), loop_iff _ _ _ _ (Nat.le_refl _)]
  · rw [unquote_none 34 body h]
    constructor
    · intro h; cases h
    · rintro ⟨t, rfl, _⟩
      simp at h

theorem loop39 (body d rem : Str) (hb : body ≠ []) : Quote.unquoteLoop 39 body.length body = some (d, 39 :: rem) ↔
    (body = 39 :: rem ∧ d = []) ∨ charStep 39 body = some (d, 39 :: rem) := by
  cases body with
  | nil => exact absurd rfl hb
  | cons c s =>
    by_cases hc : c = 39
    · subst hc
      have : charStep 39 (39 :: s) = none := by simp [charStep]
      rw [List.length_cons, Quote.unquoteLoop, if_pos rfl, this]
      simp [eq_comm]
      tauto
    · rw [List.length_cons, loop_step 39 s.length c s hc]
      simp [hc]

theorem fast39 (inner rem : Str) (hno : 39 ∉ inner) (h92 : 92 ∉ inner) (h10 : 10 ∉ inner)
    (hd : (Utf8.decode inner).2 = inner.length) (hv : ¬ ((Utf8.decode inner).2 = 1 ∧ (Utf8.decode inner).1 = Utf8.runeError))
    (hne : inner ≠ []) : charStep 39 (inner ++ 39 :: rem) = some (inner, 39 :: rem) := by
  rw [charStep_iff 39 (.inr rfl)]
  refine ⟨inner, rfl, ?_⟩
  obtain ⟨h1, h2, h3, h4, h5⟩ := Utf8.encode_decode inner hne hv
  obtain ⟨ch, hch⟩ := exists_char _ h1
  rw [← hch, encode_char, hd, List.take_length] at h4
  rw [← h4]
  have low : ∀ x : UInt8, x.toNat < 0x80 → x ∉ inner → ch.toNat ≠ x.toNat := by
    intro x hx hm he
    apply hm
    rw [← h4, ← encode_char, he, Utf8.encode, if_pos hx]
    simp
  exact .char ch _ (low 10 (by decide) h10) (low 92 (by decide) h92) (low 39 (by decide) hno)

theorem unquote0_slow39 (body : Str) (he : 39 ∈ body) :
    Quote.unquote0 (39 :: body) = Quote.unquoteSlow 39 body := by
  obtain ⟨inner, rem, rfl, hno⟩ := split_first 39 body he
  unfold Quote.unquote0
  dsimp only
  rw [GoStr.indexByte_append 39 inner _ hno]
  dsimp only
  rw [if_neg (by decide), if_pos (by decide)]
  simp only [List.take_left, show ¬ ((39 : UInt8) = 34) by decide, if_false]
  split
  · rename_i hf
    simp only [Bool.and_eq_true, Bool.not_eq_true', Quote.contains_eq, decide_eq_false_iff_not] at hf
    obtain ⟨⟨h1, h2⟩, h3⟩ := hf
    simp only [beq_iff_eq, Bool.and_eq_false_iff, beq_eq_false_iff_ne] at h3
    unfold Quote.unquoteSlow
    by_cases hne : inner = []
    · subst hne
      rw [(loop39 ([] ++ 39 :: rem) [] rem (by simp)).mpr (.inl ⟨rfl, rfl⟩)]
      simp
    · rw [(loop39 (inner ++ 39 :: rem) inner rem (by simp)).mpr (.inr (fast39 inner rem hno
        (fun h => h1 (by simp [h])) (fun h => h2 (by simp [h])) h3.1 (by tauto) hne))]
      simp
  · rfl

theorem unquote_single (body d : Str) : Quote.unquote (39 :: body) = some d ↔
    (body = [39] ∧ d = []) ∨ ∃ t, body = t ++ [39] ∧ OneChar 39 t [] d := by
  by_cases h : 39 ∈ body
  · rw [unquote_slow 39 body d (unquote0_slow39 body h), loop39 body d [] (by rintro rfl; simp at h),
      charStep_iff 39 (.inr rfl)]
    have hx : ∀ t, OneChar 39 t [39] d ↔ OneChar 39 t [] d := fun t =>
      oneChar_ext (q := 39) (.inr rfl) (t := t) (s := []) (d := d) []
    simp only [hx]
  · rw [unquote_none 39 body h]
    constructor
    · intro h; cases h
    · rintro (⟨rfl, _⟩ | ⟨t, rfl, _⟩) <;> simp at h

theorem unquote_raw (body d : Str) : Quote.unquote (96 :: body) = some d ↔
    ∃ t, body = t ++ [96] ∧ 96 ∉ t ∧ d = t.filter (· ≠ 13) := by
  by_cases h : 96 ∈ body
  · obtain ⟨inner, rem, rfl, hno⟩ := split_first 96 body h
    unfold Quote.unquote Quote.unquote0
    dsimp only
    rw [GoStr.indexByte_append 96 inner _ hno]
    dsimp only
    rw [if_pos rfl, List.take_left]
    have hdrop : (inner ++ 96 :: rem).drop (inner.length + 1) = rem := by simp
    have hfil : inner.filter (· != 13) = inner.filter (· ≠ 13) := by
      apply List.filter_congr; intro x _; by_cases hx : x = 13 <;> simp [hx]
    rw [hdrop, hfil]
    constructor
    · intro h
      cases rem with
      | nil => cases h; exact ⟨inner, rfl, hno, rfl⟩
      | cons x y => cases h
    · rintro ⟨t, ht, hn, rfl⟩
      obtain ⟨rfl, h2⟩ := GoStr.first_occurrence 96 inner t rem [] hno hn ht
      subst h2
      rfl
  · rw [unquote_none 96 body h]
    constructor
    · intro h; cases h
    · rintro ⟨t, rfl, _⟩; simp at h

/-- **C91** `strconv.Unquote` as it is modelled accepts exactly the quoted strings of the Go language
(and `''`), with the meaning they have there. -/
theorem C91_unquote (s d : Str) : Quote.unquote s = some d ↔ Literal s d := by
  constructor
  · intro h
    cases s with
    | nil => cases h
    | cons q body =>
      by_cases h34 : q = 34
      · subst h34
        obtain ⟨t, rfl, hb⟩ := (unquote_double body d).mp h
        exact .interpreted hb
      by_cases h39 : q = 39
      · subst h39
        rcases (unquote_single body d).mp h with ⟨rfl, rfl⟩ | ⟨t, rfl, ho⟩
        · exact .noCharacter
        · exact .character ho
      by_cases h96 : q = 96
      · subst h96
        obtain ⟨t, rfl, hn, rfl⟩ := (unquote_raw body d).mp h
        exact .raw hn
      · exfalso
        unfold Quote.unquote Quote.unquote0 at h
        dsimp only at h
        cases hi : GoStr.indexByte q body with
        | none => rw [hi] at h; cases h
        | some e =>
          rw [hi] at h
          dsimp only at h
          rw [if_neg h96, if_neg (by tauto)] at h
          cases h
  · intro h
    cases h with
    | interpreted hb => exact (unquote_double _ d).mpr ⟨_, rfl, hb⟩
    | character ho => exact (unquote_single _ d).mpr (.inr ⟨_, rfl, ho⟩)
    | noCharacter => rfl
    | raw hn => exact (unquote_raw _ _).mpr ⟨_, rfl, hn, rfl⟩

/-- A quoted string with white space around it. -/
def Spaced (q d : Str) : Prop :=
  ∃ w1 lit w2, GoStr.White w1 ∧ GoStr.White w2 ∧ q = w1 ++ lit ++ w2 ∧ Literal lit d

theorem literal_ends {lit d : Str} (h : Literal lit d) : ∃ c ∈ ([34, 39, 96] : Str),
    lit.head? = some c ∧ lit.getLast? = some c := by
  cases h with
  | interpreted h => exact ⟨34, by simp, by simp, by rw [List.getLast?_append]; rfl⟩
  | character h => exact ⟨39, by simp, by simp, by rw [List.getLast?_append]; rfl⟩
  | noCharacter => exact ⟨39, by simp, rfl, rfl⟩
  | raw h => exact ⟨96, by simp, by simp, by rw [List.getLast?_append]; rfl⟩

/-- **C91** What follows the keyword of a PO line is accepted exactly if it is a quoted string of the
Go language with white space around it. -/
theorem C91_quotes (q d : Str) : Tr.Quotes q d ↔ Spaced q d := by
  unfold Tr.Quotes
  rw [C91_unquote]
  constructor
  · intro h
    obtain ⟨w1, w2, h1, h2, he, _⟩ := GoStr.trims_trimSpace q
    exact ⟨w1, _, w2, h1, h2, he, h⟩
  · rintro ⟨w1, lit, w2, h1, h2, he, h⟩
    have ht : GoStr.Trims q lit := by
      refine ⟨w1, w2, h1, h2, he, ?_⟩
      intro r hr
      obtain ⟨c, hc, hh, hl⟩ := literal_ends h
      have hx : ∀ r ∈ GoStr.whiteSpace, ∀ c ∈ ([34, 39, 96] : Str),
          r ≠ [] ∧ r.head? ≠ some c ∧ r.getLast? ≠ some c := by decide +kernel
      obtain ⟨g0, g1, g2⟩ := hx r hr c hc
      constructor
      · rintro ⟨u, rfl⟩
        cases r with
        | nil => exact g0 rfl
        | cons a r => exact g1 hh
      · rintro ⟨u, rfl⟩
        rw [List.getLast?_append] at hl
        cases hr' : r.getLast? with
        | none => exact g0 (List.getLast?_eq_none_iff.mp hr')
        | some a => rw [hr'] at hl g2; exact g2 hl
    rw [(GoStr.trims_iff q lit).mp ht]
    exact h

/-- The text of a file with one message. -/
def oneMessage (q1 q2 : Str) : Str := b!"msgid " ++ q1 ++ 10 :: (b!"msgstr " ++ q2)

theorem lowBytes : ∀ c ∈ b!"msgid " ++ b!"msgstr ", c ≠ 10 ∧ c ≠ 13 := by decide

theorem oneMessage_lines (q1 q2 : Str) (h1 : ∀ c ∈ q1, c ≠ 10 ∧ c ≠ 13) (h2 : ∀ c ∈ q2, c ≠ 10 ∧ c ≠ 13) :
    Tr.meaningfulLines (oneMessage q1 q2) = [b!"msgid " ++ q1, b!"msgstr " ++ q2] := by
  have e1 : ∀ c ∈ b!"msgid " ++ q1, c ≠ 10 ∧ c ≠ 13 := by
    intro c hc
    rcases List.mem_append.mp hc with hc | hc
    · exact lowBytes c (by simp only [List.mem_append]; tauto)
    · exact h1 c hc
  have e2 : ∀ c ∈ b!"msgstr " ++ q2, c ≠ 10 ∧ c ≠ 13 := by
    intro c hc
    rcases List.mem_append.mp hc with hc | hc
    · exact lowBytes c (by simp only [List.mem_append]; tauto)
    · exact h2 c hc
  have f1 : (b!"msgid " ++ q1).filter (· != 13) = b!"msgid " ++ q1 := by
    rw [List.filter_eq_self]; intro c hc; simpa using (e1 c hc).2
  have f2 : (b!"msgstr " ++ q2).filter (· != 13) = b!"msgstr " ++ q2 := by
    rw [List.filter_eq_self]; intro c hc; simpa using (e2 c hc).2
  have b1 : ¬ Tr.Blank (b!"msgid " ++ q1) := GoStr.trimSpace_ne_nil _ _ GoStr.solid_m
  have b2 : ¬ Tr.Blank (b!"msgstr " ++ q2) := GoStr.trimSpace_ne_nil _ _ GoStr.solid_m
  unfold Tr.meaningfulLines oneMessage
  rw [List.filter_append, List.filter_cons_of_pos (by decide), f1, f2,
    GoStr.splitByte_append_sep 10 _ _ (fun h => (e1 10 h).1 rfl),
    GoStr.splitByte_no_sep 10 _ (fun h => (e2 10 h).1 rfl)]
  rw [List.filter_cons_of_pos (by simpa using b1), List.filter_cons_of_pos (by simpa using b2)]
  rfl

/-- **C91** A file of one message is read exactly if both texts are quoted strings with white space
around them; then the message is shown as the second one, if that is not empty. -/
theorem C91_message (q1 q2 : Str) (h1 : ∀ c ∈ q1, c ≠ 10 ∧ c ≠ 13) (h2 : ∀ c ∈ q2, c ≠ 10 ∧ c ≠ 13) :
    (∀ d1 d2, Spaced q1 d1 → Spaced q2 d2 → ∃ f, Tr.readPo (oneMessage q1 q2) = .ok f ∧
      ∀ (α : Type) (E : Fmt.Env α), f.x E [] d1 [] = if d2 = [] then d1 else d2) ∧
    ((∀ d, ¬ Spaced q1 d) ∨ (∀ d, ¬ Spaced q2 d) → Tr.readPo (oneMessage q1 q2) = .err) := by
  have hl := oneMessage_lines q1 q2 h1 h2
  have i1 : ∀ d, Spaced q1 d → Tr.IsItem 0 (b!"msgid " ++ q1) (.field .id d) := by
    intro d hd
    exact Tr.IsItem.field .id q1 d ((C91_quotes q1 d).mpr hd)
  constructor
  · intro d1 d2 hd1 hd2
    have p1 := Tr.Parse.same .nil (i1 d1 hd1) (by simp [Tr.Starts, Tr.lastField])
    have p2 := Tr.Parse.same p1 (Tr.IsItem.field .str q2 d2 ((C91_quotes q2 d2).mpr hd2))
      (by simp [Tr.Starts, Tr.lastField])
    have ht : Tr.PoText (oneMessage q1 q2) [{ id := d1, str := d2 }] := by
      refine ⟨[], [.field .id d1, .field .str d2], ?_, ?_⟩
      · rw [hl]; exact p2
      · simp [Tr.entryOf, Tr.texts, Tr.comments, Tr.moreText]
    refine ⟨_, (Tr.C26_ok_iff _ _).mpr ⟨by simp [oneMessage], _, ht, rfl⟩, ?_⟩
    intro α E
    by_cases hd : d2 = []
    · subst hd
      simp [Tr.Translated, Tr.File.x, GMap.get?, Fmt.C09_no_args]
    · have hf : ([{ id := d1, str := d2 }] : List Tr.Entry).filter (fun e => Tr.Translated e) =
          [{ id := d1, str := d2 }] := by simp [Tr.Translated, hd]
      rw [hf]
      unfold Tr.File.x
      rw [Tr.foldl_addEntry_entries]
      simp [Tr.Entry.key, hd, Fmt.C09_no_args]
  · intro hno
    rw [Tr.C26_error_iff]
    refine .inr ?_
    have inv : ∀ n f q x, Tr.IsItem n (Tr.Field.word n f ++ 32 :: q) x → ∃ d, Spaced q d := by
      intro n f q x hx
      generalize hline : Tr.Field.word n f ++ 32 :: q = line at hx
      cases hx with
      | comment t => obtain ⟨t', ht⟩ := Tr.word_head n f; rw [ht] at hline; cases hline
      | more t d hq => obtain ⟨t', ht⟩ := Tr.word_head n f; rw [ht] at hline; cases hline
      | field f' q' d hq =>
        obtain ⟨-, h⟩ := Tr.word_inj _ _ _ _ _ _ hline
        subst h
        exact ⟨d, (C91_quotes _ _).mp hq⟩
    by_cases hs1 : ∃ d, Spaced q1 d
    · obtain ⟨d1, hd1⟩ := hs1
      have hno2 : ∀ d, ¬ Spaced q2 d := by
        rcases hno with h | h
        · exact absurd hd1 (h d1)
        · exact h
      have p1 := Tr.Parse.same .nil (i1 d1 hd1) (by simp [Tr.Starts, Tr.lastField])
      refine ⟨[b!"msgid " ++ q1], b!"msgstr " ++ q2, [], _, _, hl, p1, ?_, ?_⟩
      · intro x hx
        obtain ⟨d, hd⟩ := inv 0 .str q2 x hx
        exact absurd hd (hno2 d)
      · intro x hx
        obtain ⟨d, hd⟩ := inv 0 .str q2 x hx
        exact absurd hd (hno2 d)
    · refine ⟨[], b!"msgid " ++ q1, [b!"msgstr " ++ q2], _, _, hl, .nil, ?_, ?_⟩
      · intro x hx
        exact absurd (inv 0 .id q1 x hx) hs1
      · intro x hx
        exact absurd (inv 0 .id q1 x hx) hs1

/-- Escapes, a byte that is no UTF-8, a character literal and a raw string. -/
example : Literal (b!"\"a\\n\\x41\\101\\u00e9" ++ [0xFF, 34]) (b!"a\nAAé" ++ [0xEF, 0xBF, 0xBD]) ∧
    Literal b!"'é'" b!"é" ∧ Literal b!"`a\\n`" b!"a\\n" ∧
    Spaced b!"  \"a\"\t" b!"a" := by
  refine ⟨(C91_unquote _ _).mp (by decide +kernel), (C91_unquote _ _).mp (by decide +kernel),
    (C91_unquote _ _).mp (by decide +kernel), (C91_quotes _ _).mp (by unfold Tr.Quotes; decide +kernel)⟩

/-- No quoted strings: an octal number above 255, text behind the quote, two characters between single
quotes, half of a surrogate pair, an escaped single quote between double quotes. -/
example : ∀ s ∈ [b!"\"\\400\"", b!"\"a\"b\"", b!"'ab'", b!"\"\\ud83d\"", b!"\"\\'\"", b!"\"a"],
    ∀ d, ¬ Literal s d := by
  intro s hs d h
  have hn : ∀ s ∈ [b!"\"\\400\"", b!"\"a\"b\"", b!"'ab'", b!"\"\\ud83d\"", b!"\"\\'\"", b!"\"a"],
    Quote.unquote s = none := by decide +kernel
  rw [← C91_unquote, hn s hs] at h
  cases h

end Verif.Literal
