import Verif.Spec.Render
import Verif.Lemmas.Fmt
import Verif.Lemmas.Bytes
import Verif.Props.C91
import Verif.Props.C94
/-!
# C101: how numbers, texts and truth values look in a message
-/
namespace Verif.Fmt
open Verif

/-! ## Characters -/

theorem verbLen_pos (s : Str) (h : s ≠ []) : 0 < verbLen s := by
  cases s with
  | nil => exact absurd rfl h
  | cons b t =>
    have : ∀ p q r : Bool, 0 < if p = true then 2 else if q = true then 3 else if r = true then 4 else 1 := by decide
    exact this _ _ _

/-- The characters of a text. -/
def charsLoop : Nat → Str → List Str
  | 0, _ => []
  | _ + 1, [] => []
  | k + 1, s => s.take (verbLen s) :: charsLoop k (s.drop (verbLen s))

theorem charsLoop_cons (k : Nat) (b : UInt8) (t : Str) :
    charsLoop (k + 1) (b :: t) = (b :: t).take (verbLen (b :: t)) :: charsLoop k ((b :: t).drop (verbLen (b :: t))) := rfl

theorem runeCount_cons (k : Nat) (b : UInt8) (t : Str) :
    runeCount (k + 1) (b :: t) = 1 + runeCount k ((b :: t).drop (Utf8.decode (b :: t)).2) := rfl

theorem truncLoop_cons (k n : Nat) (b : UInt8) (t : Str) : truncLoop (k + 1) n (b :: t) = if n = 0 then [] else
    (b :: t).take (Utf8.decode (b :: t)).2 ++ truncLoop k (n - 1) ((b :: t).drop (Utf8.decode (b :: t)).2) := rfl

def chars (s : Str) : List Str := charsLoop s.length s

theorem runes_loop (k : Nat) (s : Str) (h : s.length ≤ k) (cs : List Str) : Runes s cs ↔ cs = charsLoop k s := by
  induction k generalizing s cs with
  | zero =>
    have : s = [] := List.eq_nil_of_length_eq_zero (by omega)
    subst this
    constructor
    · intro h
      cases h with
      | nil => rfl
      | cons h _ => exact absurd rfl h
    · rintro rfl
      exact .nil
  | succ k ih =>
    cases s with
    | nil =>
      constructor
      · intro h
        cases h with
        | nil => rfl
        | cons h _ => exact absurd rfl h
      · rintro rfl
        exact .nil
    | cons b t =>
      have hl : ((b :: t).drop (verbLen (b :: t))).length ≤ k := by
        have := verbLen_pos (b :: t) (by simp)
        simp only [List.length_drop, List.length_cons] at *
        omega
      constructor
      · intro h
        cases h with
        | cons _ h => rw [charsLoop_cons, (ih _ hl _).mp h]
      · rintro rfl
        rw [charsLoop_cons]
        exact .cons (by simp) ((ih _ hl _).mpr rfl)

theorem runes_iff (s : Str) (cs : List Str) : Runes s cs ↔ cs = chars s := runes_loop _ s (Nat.le_refl _) cs

theorem runeCount_eq (k : Nat) (s : Str) : runeCount k s = (charsLoop k s).length := by
  induction k generalizing s with
  | zero => rfl
  | succ k ih =>
    cases s with
    | nil => rfl
    | cons b t =>
      rw [runeCount_cons, charsLoop_cons, decode_size, ih, List.length_cons]
      omega

theorem truncLoop_eq (k n : Nat) (s : Str) : truncLoop k n s = ((charsLoop k s).take n).flatten := by
  induction k generalizing s n with
  | zero => simp [truncLoop, charsLoop]
  | succ k ih =>
    cases s with
    | nil => simp [truncLoop, charsLoop]
    | cons b t =>
      rw [truncLoop_cons, charsLoop_cons, decode_size]
      cases n with
      | zero => simp
      | succ n =>
        rw [if_neg (by omega), ih]
        simp

theorem chars_flatten (k : Nat) (s : Str) (h : s.length ≤ k) : (charsLoop k s).flatten = s := by
  induction k generalizing s with
  | zero =>
    have : s = [] := List.eq_nil_of_length_eq_zero (by omega)
    subst this
    rfl
  | succ k ih =>
    cases s with
    | nil => rfl
    | cons b t =>
      have hl : ((b :: t).drop (verbLen (b :: t))).length ≤ k := by
        have := verbLen_pos (b :: t) (by simp)
        simp only [List.length_drop, List.length_cons] at *
        omega
      rw [charsLoop_cons, List.flatten_cons, ih _ hl, List.take_append_drop]

theorem cut_iff (o : Opts) (s t : Str) : Cut o s t ↔ t = truncate o s := by
  unfold Cut truncate
  simp only [runes_iff]
  constructor
  · rintro ⟨cs, rfl, rfl⟩
    cases o.prec with
    | none => exact chars_flatten _ _ (Nat.le_refl _)
    | some p => exact (truncLoop_eq _ _ _).symm
  · rintro rfl
    refine ⟨_, rfl, ?_⟩
    cases o.prec with
    | none => exact (chars_flatten _ _ (Nat.le_refl _)).symm
    | some p => exact truncLoop_eq _ _ _

/-! ## Filling -/

def fillTo (o : Opts) (c : UInt8) (s : Str) : Str :=
  if o.minus then s ++ List.replicate (o.wid.getD 0 - (chars s).length) c else List.replicate (o.wid.getD 0 - (chars s).length) c ++ s

theorem filled_iff (o : Opts) (c : UInt8) (body out : Str) : Filled o c body out ↔ out = fillTo o c body := by
  unfold Filled fillTo
  simp only [runes_iff]
  constructor
  · rintro ⟨cs, n, rfl, hn, rfl⟩
    have : n = o.wid.getD 0 - (chars body).length := by omega
    rw [this]
  · rintro rfl
    exact ⟨_, _, rfl, by omega, rfl⟩

theorem pad_eq (o : Opts) (s : Str) : pad o s = fillTo o o.fill s := by
  have hc : runeCount s.length s = (chars s).length := runeCount_eq _ _
  unfold pad fillTo writePadding Opts.fill
  cases o.wid with
  | none => simp
  | some w =>
    dsimp only [Option.getD]
    rw [hc]
    have hf : (if (o.zero && !o.minus) = true then (48 : UInt8) else 32) = if o.zero = true ∧ ¬ o.minus = true then 48 else 32 := by
      cases o.zero <;> cases o.minus <;> rfl
    rw [hf]
    by_cases hw : w = 0
    · subst hw; simp
    · rw [if_neg hw]
      cases o.minus <;> simp

theorem pad_blank (o : Opts) (s : Str) : pad { o with zero := false } s = fillTo o 32 s := by
  rw [pad_eq]
  simp [fillTo, Opts.fill]

/-! ## Digits -/

theorem digit_eq (upper : Bool) (d : Nat) (h : d < 16) : digit upper d = (digitBytes upper).getD d 0 := by
  revert h
  cases upper
  · revert d; decide
  · revert d; decide

/-- The digits as numbers, from the right. -/
theorem writes_snoc (base : Nat) (ds : List Nat) (d : Nat) :
    (ds ++ [d]).foldl (fun v d => v * base + d) 0 = ds.foldl (fun v d => v * base + d) 0 * base + d := by
  rw [List.foldl_append]
  rfl

theorem digitLoop_acc (base : Nat) (upper : Bool) (k u : Nat) (acc : Str) :
    digitLoop base upper k u acc = digitLoop base upper k u [] ++ acc := by
  induction k generalizing u acc with
  | zero => rfl
  | succ k ih =>
    rw [digitLoop, digitLoop]
    split
    · rfl
    · rw [ih, ih _ [_], List.append_assoc]
      rfl

theorem writes_loop (base : Nat) (hb : 2 ≤ base) (hb' : base ≤ 16) (upper : Bool) (k n : Nat) (hk : n < base ^ k) (hk0 : 0 < k) (s : Str) :
    Writes base upper n s ↔ s = digitLoop base upper k n [] := by
  induction k generalizing n s with
  | zero => omega
  | succ k ih =>
    rw [digitLoop]
    by_cases hn : n < base
    · rw [if_pos hn, digit_eq _ _ (by omega)]
      constructor
      · rintro ⟨ds, rfl, h1, h2, h3, h4⟩
        rcases List.eq_nil_or_concat ds with rfl | ⟨ds', d, rfl⟩
        · exact absurd rfl h3
        · rw [List.concat_eq_append] at *
          rw [writes_snoc] at h2
          have h0 : ds'.foldl (fun v d => v * base + d) 0 = 0 := by
            rcases Nat.eq_zero_or_pos (ds'.foldl (fun v d => v * base + d) 0) with h | h
            · exact h
            · have := Nat.le_mul_of_pos_left base h
              omega
          cases ds' with
          | nil => simp at h2; subst h2; rfl
          | cons x xs =>
            exfalso
            have hx : x ≠ 0 := by
              intro hx
              subst hx
              have := h4 rfl
              simp at this
            have hge : ∀ (l : List Nat) (v : Nat), 0 < v → 0 < l.foldl (fun v d => v * base + d) v := by
              intro l
              induction l with
              | nil => exact fun v h => h
              | cons y ys ih =>
                intro v hv
                rw [List.foldl_cons]
                exact ih _ (by have := Nat.le_mul_of_pos_left base hv; omega)
            have := hge xs (0 * base + x) (by omega)
            rw [List.foldl_cons] at h0
            omega
      · rintro rfl
        exact ⟨[n], rfl, by simpa using hn, by simp, by simp, fun h => by simp at h; rw [h]⟩
    · rw [if_neg hn, digitLoop_acc, digit_eq _ _ (by have := Nat.mod_lt n (show 0 < base by omega); omega)]
      have hk1 : 0 < k := by
        rcases Nat.eq_zero_or_pos k with rfl | h
        · simp at hk; omega
        · exact h
      have hdiv : n / base < base ^ k := by
        rw [Nat.div_lt_iff_lt_mul (by omega), ← Nat.pow_succ]
        exact hk
      have hdm := Nat.div_add_mod n base
      have hpos : 0 < n / base := Nat.div_pos (by omega) (by omega)
      have hmod := Nat.mod_lt n (show 0 < base by omega)
      constructor
      · rintro ⟨ds, rfl, h1, h2, h3, h4⟩
        rcases List.eq_nil_or_concat ds with rfl | ⟨ds', d, rfl⟩
        · exact absurd rfl h3
        · rw [List.concat_eq_append] at *
          rw [writes_snoc] at h2
          have hd : d < base := h1 d (by simp)
          have e1 : ds'.foldl (fun v d => v * base + d) 0 = n / base := by
            rw [← h2, Nat.mul_comm, Nat.mul_add_div (by omega), Nat.div_eq_of_lt hd]
            omega
          have e2 : d = n % base := by
            rw [← h2, Nat.mul_comm, Nat.mul_add_mod, Nat.mod_eq_of_lt hd]
          have hw : Writes base upper (n / base) (ds'.map fun d => (digitBytes upper).getD d 0) := by
            refine ⟨ds', rfl, fun x hx => h1 x (List.mem_append_left _ hx), e1, ?_, ?_⟩
            · rintro rfl
              simp at e1
              omega
            · intro h
              cases ds' with
              | nil => simp at h
              | cons x xs =>
                have := h4 (by simpa using h)
                simp at this
          rw [List.map_append, (ih _ hdiv hk1 _).mp hw, e2]
          rfl
      · rintro rfl
        obtain ⟨ds, h0, h1, h2, h3, h4⟩ := (ih _ hdiv hk1 _).mpr rfl
        refine ⟨ds ++ [n % base], by rw [h0, List.map_append]; rfl, ?_, ?_, by simp, ?_⟩
        · intro x hx
          rcases List.mem_append.mp hx with hx | hx
          · exact h1 x hx
          · simp at hx; omega
        · rw [writes_snoc, h2, Nat.mul_comm]
          exact hdm
        · intro h
          cases ds with
          | nil => exact absurd rfl h3
          | cons x xs =>
            have := h4 (by simpa using h)
            rw [this] at h2
            simp at h2
            omega

theorem writes_iff (base : Nat) (hb : 2 ≤ base) (hb' : base ≤ 16) (upper : Bool) (n : Nat) (hn : n < 2 ^ 64) (s : Str) :
    Writes base upper n s ↔ s = digitLoop base upper 64 n [] :=
  writes_loop base hb hb' upper 64 n (Nat.lt_of_lt_of_le hn (Nat.pow_le_pow_left hb 64)) (by omega) s

/-! ## Numbers -/

theorem int_bits (i : Int64) : (2 ^ 63 ≤ i.toUInt64.toNat ↔ i.toInt < 0) ∧
    (if i.toInt < 0 then 0 - i.toUInt64 else i.toUInt64).toNat = i.toInt.natAbs ∧
    i.toUInt64.toNat = bits (i.toInt < 0) i.toInt.natAbs := by
  have h : i.toInt = if 2 * i.toUInt64.toNat < 2 ^ 64 then (i.toUInt64.toNat : Int) else (i.toUInt64.toNat : Int) - (2 ^ 64 : Nat) :=
    BitVec.toInt_eq_toNat_cond i.toBitVec
  have hlt : i.toUInt64.toNat < 2 ^ 64 := i.toUInt64.toNat_lt
  have hs : (0 - i.toUInt64).toNat = (2 ^ 64 - i.toUInt64.toNat) % 2 ^ 64 := by
    rw [UInt64.toNat_sub]
    simp
  unfold bits
  split at h
  · refine ⟨by omega, ?_, ?_⟩
    · rw [if_neg (by omega)]; omega
    · rw [if_neg (by simp; omega)]; omega
  · refine ⟨by omega, ?_, ?_⟩
    · rw [if_pos (by omega), hs]; omega
    · rw [if_pos (by simp; omega)]; omega

theorem numeric_iff (o : Opts) (base : Nat) (hb : base ∈ [2, 8, 10, 16]) (upper octal signed neg : Bool) (u : UInt64) (n : Nat)
    (hneg : neg = (signed && 2 ^ 63 ≤ u.toNat)) (hn : n = (if neg then 0 - u else u).toNat) (out : Str) :
    Numeric o base upper (if octal then b!"0o" else []) neg n out ↔ out = fmtInteger o u base signed octal upper := by
  have hb2 : 2 ≤ base ∧ base ≤ 16 := by
    simp at hb
    omega
  have hlt : n < 2 ^ 64 := by rw [hn]; exact UInt64.toNat_lt _
  have hz : ((if neg then 0 - u else u) = 0) ↔ n = 0 := by
    rw [hn, ← UInt64.toNat_inj]
    rfl
  unfold Numeric fmtInteger
  rw [← hneg]
  dsimp only
  by_cases h0 : o.prec = some 0 ∧ n = 0
  · rw [if_pos (show o.prec = some 0 ∧ (if neg then 0 - u else u) = 0 from ⟨h0.1, hz.mpr h0.2⟩)]
    simp only [h0, not_true, false_implies, and_true, true_implies, and_self]
    simp [writePadding]
  · rw [if_neg (show ¬ (o.prec = some 0 ∧ (if neg then 0 - u else u) = 0) from fun h => h0 ⟨h.1, hz.mp h.2⟩)]
    simp only [h0, false_implies, true_and, not_false_eq_true, true_implies]
    simp only [writes_iff base hb2.1 hb2.2 upper n hlt, filled_iff, pad_blank, ← hn]
    generalize hds : digitLoop base upper 64 n [] = ds
    have hp : intPrec o neg = o.digits neg := by
      unfold intPrec Opts.digits Opts.sign
      cases o.prec with
      | some p => rfl
      | none =>
        cases o.wid with
        | none => rfl
        | some w => cases o.zero <;> cases o.minus <;> cases neg <;> cases o.plus <;> cases o.space <;> rfl
    rw [hp]
    generalize hz' : o.digits neg - ds.length = z
    have key : ∀ b : Str, (if neg = true then b!"-" ++ b else if o.plus = true then b!"+" ++ b else if o.space = true then b!" " ++ b else b) =
        o.sign neg ++ b := by
      intro b
      unfold Opts.sign
      cases neg <;> cases o.plus <;> cases o.space <;> rfl
    have key2 : ∀ b : Str, (if octal = true then b!"0o" ++ b else b) = (if octal then b!"0o" else []) ++ b := by
      intro b
      cases octal <;> rfl
    have key3 : ∀ b : Str, (if o.sharp = true then
        if base = 2 then b!"0b" ++ b
        else if base = 8 then (if b.head? ≠ some 48 then b!"0" ++ b else b)
        else if base = 16 then b!"0" ++ (if upper = true then b!"X" else b!"x") ++ b
        else b
      else b) = o.before base upper b ++ b := by
      intro b
      unfold Opts.before
      simp only [List.mem_cons, List.not_mem_nil, or_false] at hb
      rcases hb with rfl | rfl | rfl | rfl <;> cases o.sharp <;> cases upper <;> simp
      all_goals split <;> rfl
    rw [key, key2, key3]
    constructor
    · rintro ⟨ds', z', rfl, h1, rfl⟩
      have : z' = z := by omega
      subst this
      simp [List.append_assoc]
    · rintro rfl
      exact ⟨ds, z, rfl, by omega, by simp [List.append_assoc]⟩

/-- The 64 bits of a number, and whether its type has a sign. -/
theorem number_bits {v : Val} {neg : Bool} {n : Nat} (h : v.number = some (neg, n)) : ∃ u signed,
    (∀ L o go verb, printKnown L o go verb v = ppInteger L o go u signed verb) ∧ neg = (signed && 2 ^ 63 ≤ u.toNat) ∧
    n = (if neg then 0 - u else u).toNat ∧ u.toNat = bits neg n ∧ (signed = false ↔ v.type = some b!"uint") ∧
    v.type = some v.typeName ∧ v ≠ .nil := by
  cases v with
  | int i =>
    simp only [Val.number, Option.some.injEq, Prod.mk.injEq] at h
    obtain ⟨rfl, rfl⟩ := h
    obtain ⟨h1, h2, h3⟩ := int_bits i
    refine ⟨i.toUInt64, true, fun _ _ _ _ => rfl, ?_, ?_, h3, by simp [Val.type], rfl, by simp⟩
    · rw [Bool.true_and]; exact (decide_eq_decide.mpr h1).symm
    · rw [← h2]; simp
  | uint u =>
    simp only [Val.number, Option.some.injEq, Prod.mk.injEq] at h
    obtain ⟨rfl, rfl⟩ := h
    exact ⟨u, false, fun _ _ _ _ => rfl, rfl, rfl, rfl, by simp [Val.type], rfl, by simp⟩
  | str s => cases h
  | bool b => cases h
  | nil => cases h

theorem bits_of {neg : Bool} {n : Nat} {u : UInt64} (h : u.toNat = bits neg n) : UInt64.ofNat (bits neg n) = u := by
  rw [← h, UInt64.ofNat_toNat]

theorem charOf_eq {neg : Bool} {n : Nat} {u : UInt64} {signed : Bool} (hneg : neg = (signed && 2 ^ 63 ≤ u.toNat))
    (hn : n = (if neg then 0 - u else u).toNat) :
    Utf8.encode (if 0x10FFFF < u.toNat then Utf8.runeError else u.toNat) = charOf neg n := by
  unfold charOf
  cases neg with
  | true =>
    have : 2 ^ 63 ≤ u.toNat := by
      have := hneg.symm
      simp only [Bool.and_eq_true, decide_eq_true_eq] at this
      exact this.2
    rw [if_pos (by omega), if_neg (by simp)]
    decide
  | false =>
    have hn : n = u.toNat := hn
    rw [← hn]
    by_cases h1 : 0x10FFFF < n
    · rw [if_pos h1, if_neg (by omega)]
      decide
    · rw [if_neg h1]
      by_cases h2 : n < 0xD800 ∨ 0xE000 ≤ n ∧ n ≤ 0x10FFFF
      · rw [if_pos ⟨rfl, h2⟩]
      · rw [if_neg (fun h => h2 h.2)]
        have hv : Utf8.validRune n = false := by
          unfold Utf8.validRune
          simp
          omega
        unfold Utf8.encode
        rw [if_neg (by omega), if_neg (by omega), hv]
        rfl

/-! ## Texts -/

theorem ascii_verbLen (b : UInt8) (t : Str) (h : b < 0x80) : verbLen (b :: t) = 1 := by
  rw [← decode_size]
  simp only [Utf8.decode, if_pos h]

theorem chars_ascii (k : Nat) (s : Str) (hk : s.length ≤ k) (h : ∀ c ∈ s, c < 0x80) : (charsLoop k s).length = s.length := by
  induction k generalizing s with
  | zero => have := List.eq_nil_of_length_eq_zero (Nat.le_zero.mp hk); subst this; rfl
  | succ k ih =>
    cases s with
    | nil => rfl
    | cons b t =>
      rw [charsLoop_cons, ascii_verbLen b t (h b (by simp)), List.length_cons, List.length_cons]
      rw [show (b :: t).drop 1 = t from rfl, ih t (by simpa using hk) fun c hc => h c (by simp [hc])]

/-- A character between back quotes. -/
def okChar (c : Str) : Prop := c ≠ [0xEF, 0xBB, 0xBF] ∧ ∀ b, c = [b] → (32 ≤ b ∧ b < 127 ∨ b = 9) ∧ b ≠ 96

theorem ok_byte (b : UInt8) : b < 0x80 → (((b.toNat < 32 ∧ b.toNat ≠ 9) ∨ b.toNat = 96 ∨ b.toNat = 127) ↔
    ¬ ((32 ≤ b ∧ b < 127 ∨ b = 9) ∧ b ≠ 96)) := by
  revert b; apply u8; decide +kernel

theorem bom_iff (s : Str) (h : 1 < (Utf8.decode s).2) : (Utf8.decode s).1 = 0xFEFF ↔ s.take (Utf8.decode s).2 = [0xEF, 0xBB, 0xBF] := by
  have hs : s ≠ [] := by rintro rfl; simp [Utf8.decode] at h
  have he := Utf8.encode_decode s hs (by rintro ⟨h1, _⟩; omega)
  constructor
  · intro hr
    rw [hr] at he
    rw [← he.2.2.2.1]
    decide
  · intro ht
    have hv : (s.take (Utf8.decode s).2 ++ s.drop (Utf8.decode s).2) = s := List.take_append_drop _ _
    rw [ht] at hv
    rw [← hv]
    rfl

theorem high_error (b : UInt8) (t : Str) (hb : ¬ b < 0x80) (h : ¬ 1 < (Utf8.decode (b :: t)).2) : (Utf8.decode (b :: t)).1 = Utf8.runeError := by
  revert h
  unfold Utf8.decode
  dsimp only
  rw [if_neg hb]
  repeat' split
  all_goals intro h
  all_goals first
    | exact absurd (show 1 < 2 by omega) h
    | exact absurd (show 1 < 3 by omega) h
    | exact absurd (show 1 < 4 by omega) h
    | rfl

theorem canBackquote_iff (k : Nat) (s : Str) (hk : s.length ≤ k) : canBackquote k s = true ↔ ∀ c ∈ charsLoop k s, okChar c := by
  induction k generalizing s with
  | zero => have := List.eq_nil_of_length_eq_zero (Nat.le_zero.mp hk); subst this; simp [canBackquote, charsLoop]
  | succ k ih =>
    cases s with
    | nil => simp [canBackquote, charsLoop]
    | cons b t =>
      have hl : ((b :: t).drop (verbLen (b :: t))).length ≤ k := by
        have := verbLen_pos (b :: t) (by simp)
        simp only [List.length_drop, List.length_cons] at *
        omega
      have e : canBackquote (k + 1) (b :: t) = if 1 < (Utf8.decode (b :: t)).2 then
          if (Utf8.decode (b :: t)).1 = 0xFEFF then false else canBackquote k ((b :: t).drop (Utf8.decode (b :: t)).2)
        else if (Utf8.decode (b :: t)).1 = Utf8.runeError then false
        else if ((Utf8.decode (b :: t)).1 < 32 ∧ (Utf8.decode (b :: t)).1 ≠ 9) ∨ (Utf8.decode (b :: t)).1 = 96 ∨
          (Utf8.decode (b :: t)).1 = 127 then false
        else canBackquote k ((b :: t).drop (Utf8.decode (b :: t)).2) := rfl
      rw [e, charsLoop_cons, List.forall_mem_cons]
      by_cases h1 : 1 < (Utf8.decode (b :: t)).2
      · rw [if_pos h1]
        have hb := bom_iff _ h1
        rw [decode_size] at hb
        have hlen : ((b :: t).take (verbLen (b :: t))).length = verbLen (b :: t) := by
          rw [List.length_take]
          have := verbLen_le (b :: t)
          omega
        have hok : okChar ((b :: t).take (verbLen (b :: t))) ↔ (Utf8.decode (b :: t)).1 ≠ 0xFEFF := by
          unfold okChar
          rw [Ne, Ne, hb]
          constructor
          · exact fun h => h.1
          · intro h
            refine ⟨h, fun x hx => ?_⟩
            rw [hx] at hlen
            rw [decode_size, ← hlen] at h1
            simp at h1
        rw [hok]
        by_cases h2 : (Utf8.decode (b :: t)).1 = 0xFEFF
        · simp [h2]
        · rw [if_neg h2, decode_size, ih _ hl]
          simp [h2]
      · rw [if_neg h1]
        have h1' : verbLen (b :: t) = 1 := by
          have := verbLen_pos (b :: t) (by simp)
          rw [decode_size] at h1
          omega
        by_cases hb : b < 0x80
        · have hd : (Utf8.decode (b :: t)).1 = b.toNat := by simp only [Utf8.decode, if_pos hb]
          have hne : b.toNat ≠ Utf8.runeError := by
            have : b.toNat < 256 := b.toNat_lt
            unfold Utf8.runeError
            omega
          rw [hd, if_neg hne]
          have hok : okChar ((b :: t).take (verbLen (b :: t))) ↔ ((32 ≤ b ∧ b < 127 ∨ b = 9) ∧ b ≠ 96) := by
            rw [h1']
            unfold okChar
            simp
          rw [hok]
          have hx := ok_byte b hb
          by_cases hc : (b.toNat < 32 ∧ b.toNat ≠ 9) ∨ b.toNat = 96 ∨ b.toNat = 127
          · rw [if_pos hc]
            have := hx.mp hc
            simp only [Bool.false_eq_true, false_iff]
            exact fun h => this h.1
          · rw [if_neg hc, decode_size, ih _ hl]
            have : ((32 ≤ b ∧ b < 127 ∨ b = 9) ∧ b ≠ 96) := Classical.byContradiction fun h => hc (hx.mpr h)
            exact (and_iff_right this).symm
        · rw [if_pos (high_error b t hb h1)]
          simp only [Bool.false_eq_true, false_iff]
          rintro ⟨h, _⟩
          rw [h1'] at h
          have := (h.2 b rfl).1
          rcases this with h | h
          · exact hb (by
              have := h.2
              rw [UInt8.lt_iff_toNat_lt] at this ⊢
              simp at this ⊢
              omega)
          · exact hb (by rw [h]; decide)

theorem backquotable_iff (s : Str) : Backquotable s ↔ canBackquote s.length s = true := by
  rw [canBackquote_iff _ _ (Nat.le_refl _)]
  unfold Backquotable
  constructor
  · exact fun h => h _ ((runes_iff _ _).mpr rfl)
  · intro h cs hcs
    rw [runes_iff] at hcs
    subst hcs
    exact h

theorem literally_iff (L : Lib) (o : Opts) (s t : Str) : Literally L o s t ↔ t = if o.sharp = true ∧ canBackquote s.length s = true then
    b!"`" ++ s ++ b!"`" else if o.plus = true then Quote.quote (fun r => r < 128 && L.isPrint r) s else Quote.quote L.isPrint s := by
  have e : (if o.plus = true then Quote.quote (fun r => r < 128 && L.isPrint r) s else Quote.quote L.isPrint s) =
      Quote.quote (fun r => (!o.plus || r < 128) && L.isPrint r) s := by
    cases o.plus <;> simp
  unfold Literally
  rw [backquotable_iff, e]
  by_cases h : o.sharp = true ∧ canBackquote s.length s = true
  · simp [h]
  · rw [if_neg h]
    constructor
    · rintro (⟨h1, h2, _⟩ | ⟨_, h⟩)
      · exact absurd ⟨h1, h2⟩ h
      · exact h
    · exact fun h' => .inr ⟨h, h'⟩

/-! ## Bytes in base 16 -/

theorem hexByte_eq (upper : Bool) (c : UInt8) : [digit upper (c.toNat / 16), digit upper (c.toNat % 16)] = hexByte upper c := by
  have : c.toNat < 256 := c.toNat_lt
  unfold hexByte
  rw [digit_eq _ _ (by omega), digit_eq _ _ (by omega)]

theorem hexByte_ascii (upper : Bool) (c : UInt8) : ∀ x ∈ hexByte upper c, x < 0x80 := by
  revert c
  cases upper <;> (apply u8; decide +kernel)

theorem intercalate_cons (x : Str) (l : List Str) : b!" ".intercalate (x :: l) = x ++ l.flatMap (b!" " ++ ·) := by
  induction l generalizing x with
  | nil => simp [List.intercalate]
  | cons y l ih =>
    have : b!" ".intercalate (x :: y :: l) = x ++ b!" " ++ b!" ".intercalate (y :: l) := by simp [List.intercalate]
    rw [this, ih]
    simp

theorem hexLoop_eq (o : Opts) (upper : Bool) (s : Str) : hexLoop o upper s = s.flatMap fun c =>
    (if o.space then b!" " ++ (if o.sharp then b!"0" ++ (if upper then b!"X" else b!"x") else []) else []) ++ hexByte upper c := by
  induction s with
  | nil => rfl
  | cons c s ih => rw [hexLoop, ih, List.flatMap_cons, hexByte_eq]

theorem pre_eq (sharp upper : Bool) : (if sharp = true then b!"0" ++ (if upper = true then b!"X" else b!"x") else []) =
    (if sharp = true then (if upper = true then b!"0X" else b!"0x") else [] : Str) := by
  cases sharp <;> cases upper <;> rfl

theorem flatMap_len {α : Type} (l : List α) (f : α → Str) (n : Nat) (h : ∀ x ∈ l, (f x).length = n) : (l.flatMap f).length = n * l.length := by
  induction l with
  | nil => simp
  | cons x l ih =>
    rw [List.flatMap_cons, List.length_append, h x (by simp), ih fun y hy => h y (by simp [hy]), List.length_cons, Nat.mul_succ]
    omega

theorem sbx_eq (o : Opts) (upper : Bool) (s : Str) : fmtSbx o upper s = fillTo o o.fill (hexBytes o upper s) := by
  have hw : ∀ n, writePadding o n = List.replicate n o.fill := by
    intro n
    unfold writePadding Opts.fill
    cases o.zero <;> cases o.minus <;> rfl
  have hlen : ∀ n, s.take (hexLength o s) = n → o.bytes s = n ∧ hexLength o s = n.length := by
    rintro n rfl
    unfold hexLength Opts.bytes
    cases o.prec with
    | none => simp
    | some p =>
      dsimp only
      split
      · simp; omega
      · simp; omega
  unfold fmtSbx hexBytes
  dsimp only
  split
  · rename_i h
    rw [(hlen _ h).1, if_pos rfl, hw]
    unfold fillTo
    cases o.minus <;> simp [chars, charsLoop]
  · rename_i c t h
    rw [(hlen _ h).1, (hlen _ h).2, if_neg (show ¬ (c :: t = []) by simp), hw, hexByte_eq, hexLoop_eq, pre_eq]
    generalize hpre : (if o.sharp = true then (if upper = true then b!"0X" else b!"0x") else [] : Str) = pre
    have hpa : ∀ x ∈ pre, x < 0x80 := by
      rw [← hpre]
      cases o.sharp <;> cases upper <;> decide
    have hpl : pre.length = if o.sharp then 2 else 0 := by
      rw [← hpre]
      cases o.sharp <;> cases upper <;> rfl
    have hbody : pre ++ hexByte upper c ++ (t.flatMap fun c => (if o.space = true then b!" " ++ pre else []) ++ hexByte upper c) =
        (if o.space = true then b!" ".intercalate ((c :: t).map fun c => pre ++ hexByte upper c) else pre ++ (c :: t).flatMap (hexByte upper)) := by
      cases o.space with
      | true =>
        simp only [if_true, List.map_cons]
        rw [intercalate_cons, List.flatMap_map]
        simp
      | false => simp
    rw [hbody]
    generalize hb : (if o.space = true then b!" ".intercalate ((c :: t).map fun c => pre ++ hexByte upper c)
      else pre ++ (c :: t).flatMap (hexByte upper)) = body at *
    have hasc : ∀ x ∈ body, x < 0x80 := by
      rw [← hbody]
      intro x hx
      rcases List.mem_append.mp hx with hx | hx
      · rcases List.mem_append.mp hx with hx | hx
        · exact hpa x hx
        · exact hexByte_ascii _ _ x hx
      · obtain ⟨c', _, hx⟩ := List.mem_flatMap.mp hx
        rcases List.mem_append.mp hx with hx | hx
        · split at hx
          · rcases List.mem_append.mp hx with hx | hx
            · simp at hx; subst hx; decide
            · exact hpa x hx
          · cases hx
        · exact hexByte_ascii _ _ x hx
    have hcount : (chars body).length = body.length := chars_ascii _ _ (Nat.le_refl _) hasc
    have hblen : body.length = if o.space = true then (if o.sharp = true then 2 * (c :: t).length * 2 else 2 * (c :: t).length) + ((c :: t).length - 1)
        else if o.sharp = true then 2 * (c :: t).length + 2 else 2 * (c :: t).length := by
      rw [← hbody, List.length_append, List.length_append, hpl,
        flatMap_len t _ ((if o.space = true then 1 + (if o.sharp = true then 2 else 0) else 0) + 2)]
      · have : (hexByte upper c).length = 2 := rfl
        rw [this, List.length_cons]
        cases o.space <;> cases o.sharp <;> simp <;> omega
      · intro x _
        rw [List.length_append]
        have : (hexByte upper x).length = 2 := rfl
        rw [this]
        split
        · rw [List.length_append, hpl]; rfl
        · rfl
    rw [← hblen]
    unfold fillTo
    rw [hcount]
    cases o.minus <;> rfl

/-! ## Arguments -/

theorem knows_iff (L : Lib) (o : Opts) (go : Bool) (verb : Str) (v : Val) :
    v.knows verb ↔ verb = b!"T" ∨ (printKnown L o go verb v).isSome = true := by
  unfold Val.knows
  apply or_congr Iff.rfl
  have hi : ∀ u signed, (verb ∈ [b!"v", b!"d", b!"b", b!"o", b!"O", b!"x", b!"X", b!"c", b!"q", b!"U"] ↔
      (ppInteger L o go u signed verb).isSome = true) := by
    intro u signed
    unfold ppInteger
    simp only [List.mem_cons, List.not_mem_nil, or_false]
    repeat' split
    all_goals simp_all
  cases v with
  | int i => exact hi _ _
  | uint u => exact hi _ _
  | str s =>
    simp only [printKnown, ppString, List.mem_cons, List.not_mem_nil, or_false]
    repeat' split
    all_goals simp_all
  | bool b =>
    simp only [printKnown, ppBool, List.mem_cons, List.not_mem_nil, or_false]
    split
    · rename_i h
      simp only [Option.isSome_some, iff_true]
      exact h.symm
    · rename_i h
      simp only [Option.isSome_none, Bool.false_eq_true, iff_false]
      exact fun h' => h h'.symm
  | nil =>
    simp only [printKnown]
    split <;> simp_all

theorem known_p (L : Lib) (o : Opts) (go : Bool) (v : Val) : printKnown L o go b!"p" v = none := by
  cases v <;> rfl

theorem printArg_known {L : Lib} {o : Opts} {go : Bool} {verb : Str} {v : Val} {out : Str} (h : printKnown L o go verb v = some out)
    (hT : verb ≠ b!"T") : printArg L o go verb v = out := by
  unfold printArg
  rw [if_neg hT]
  have : verb ≠ b!"p" := by
    rintro rfl
    rw [known_p] at h
    cases h
  rw [if_neg this, h]

theorem printArg_unknown {L : Lib} {o : Opts} {go : Bool} {verb : Str} {v : Val} (h : ¬ v.knows verb) :
    printArg L o go verb v = badVerb L o go verb v := by
  rw [knows_iff L o go] at h
  unfold printArg
  rw [if_neg (fun h' => h (.inl h'))]
  split
  · rfl
  · cases hk : printKnown L o go verb v with
    | none => rfl
    | some s => exact absurd (.inr (by rw [hk]; rfl)) h

theorem type_iff (v : Val) (n : Str) : v.type = some n ↔ v ≠ .nil ∧ n = v.typeName := by
  cases v <;> simp [Val.type, Val.typeName, eq_comm]

theorem v_known (L : Lib) (o : Opts) (go : Bool) (v : Val) : printKnown L o go b!"v" v = some (printArg L o go b!"v" v) := by
  have h : (printKnown L o go b!"v" v).isSome = true := by
    have := (knows_iff L o go b!"v" v).mp (by cases v <;> simp [Val.knows])
    exact this.resolve_left (by decide)
  obtain ⟨s, hs⟩ := Option.isSome_iff_exists.mp h
  rw [hs, printArg_known hs (by decide)]

theorem badVerb_eq (L : Lib) (o : Opts) (go : Bool) (verb : Str) (v : Val) (h : v ≠ .nil) : badVerb L o go verb v =
    b!"%!" ++ verb ++ b!"(" ++ v.typeName ++ b!"=" ++ printArg L o go b!"v" v ++ b!")" := by
  have := v_known L o go v
  cases v with
  | nil => exact absurd rfl h
  | _ => simp only [badVerb, this, Option.getD_some]

/-- The verbs for numbers. -/
theorem pp_number (L : Lib) (o : Opts) (go : Bool) (u : UInt64) (signed : Bool) (verb : Str) (base : Nat) (upper : Bool) (mark : Str)
    (h : numVerb verb = some (base, upper, mark)) (hgo : ¬ (go = true ∧ verb = b!"v" ∧ signed = false)) :
    base ∈ [2, 8, 10, 16] ∧ ∃ octal : Bool, mark = (if octal then b!"0o" else []) ∧
      ppInteger L o go u signed verb = some (fmtInteger o u base signed octal upper) := by
  unfold numVerb at h
  split at h
  · rename_i hv
    cases h
    refine ⟨by decide, false, rfl, ?_⟩
    rcases hv with rfl | rfl
    · rfl
    · unfold ppInteger
      rw [if_pos rfl, if_neg]
      simp only [Bool.and_eq_true, Bool.not_eq_true']
      exact fun h => hgo ⟨h.1, rfl, h.2⟩
  split at h
  · rename_i hv; subst hv; cases h; exact ⟨by decide, false, rfl, rfl⟩
  split at h
  · rename_i hv; subst hv; cases h; exact ⟨by decide, false, rfl, rfl⟩
  split at h
  · rename_i hv; subst hv; cases h; exact ⟨by decide, true, rfl, rfl⟩
  split at h
  · rename_i hv; subst hv; cases h; exact ⟨by decide, false, rfl, rfl⟩
  split at h
  · rename_i hv; subst hv; cases h; exact ⟨by decide, false, rfl, rfl⟩
  · cases h

theorem numVerb_T (b : Nat × Bool × Str) (verb : Str) (h : numVerb verb = some b) : verb ≠ b!"T" := by
  rintro rfl
  rw [show numVerb b!"T" = none by decide] at h
  cases h

theorem unicode_eq (L : Lib) (o : Opts) (neg : Bool) (n : Nat) (u : UInt64) (hu : u.toNat = bits neg n) (out : Str) :
    (∃ z ds, Writes 16 true (bits neg n) ds ∧ z + ds.length = max (max 4 (o.prec.getD 0)) ds.length ∧
      Filled o 32 (b!"U+" ++ List.replicate z 48 ++ ds ++
        if o.sharp ∧ bits neg n ≤ 0x10FFFF ∧ L.isPrint (bits neg n) then b!" '" ++ Utf8.encode (bits neg n) ++ b!"'" else []) out) ↔
    out = fmtUnicode L o u := by
  rw [← hu]
  simp only [writes_iff 16 (by omega) (by omega) true u.toNat u.toNat_lt, filled_iff]
  have hp : unicodePrec o = max 4 (o.prec.getD 0) := by
    unfold unicodePrec
    cases o.prec with
    | none => rfl
    | some p => dsimp only [Option.getD]; split <;> omega
  unfold fmtUnicode
  dsimp only
  rw [pad_blank]
  constructor
  · rintro ⟨z, ds, rfl, hz, rfl⟩
    rw [← hp] at hz
    have : z = unicodePrec o - (digitLoop 16 true 64 u.toNat []).length := by omega
    rw [this]
  · rintro rfl
    refine ⟨_, _, rfl, ?_, rfl⟩
    rw [← hp]
    omega

theorem text_eq (o : Opts) (s out : Str) : (∃ t, Cut o s t ∧ Filled o o.fill t out) ↔ out = fmtS o s := by
  simp only [cut_iff, filled_iff]
  unfold fmtS
  rw [pad_eq]
  simp

theorem quoted_eq (L : Lib) (o : Opts) (s out : Str) : (∃ t q, Cut o s t ∧ Literally L o t q ∧ Filled o o.fill q out) ↔ out = fmtQ L o s := by
  simp only [cut_iff, filled_iff, literally_iff]
  unfold fmtQ
  simp only [pad_eq]
  constructor
  · rintro ⟨_, _, rfl, rfl, rfl⟩
    split
    · rfl
    · split <;> rfl
  · rintro rfl
    refine ⟨_, _, rfl, rfl, ?_⟩
    split
    · rfl
    · split <;> rfl

theorem looks_print (L : Lib) (o : Opts) (go : Bool) (verb : Str) (v : Val) (out : Str) (h : Looks L o go verb v out) :
    out = printArg L o go verb v := by
  induction h with
  | number h1 h2 h3 h4 =>
    obtain ⟨u, signed, e1, e2, e3, e4, e5, e6, e7⟩ := number_bits h1
    obtain ⟨hb, octal, rfl, he⟩ := pp_number L o go u signed _ _ _ _ h2 (fun h => h3 ⟨h.1, h.2.1, e5.mp h.2.2⟩)
    rw [numeric_iff o _ hb _ octal signed _ u _ e2 e3] at h4
    rw [h4, printArg_known ((e1 L o go _).trans he) (numVerb_T _ _ h2)]
  | @goUint u out h1 h2 =>
    have := (numeric_iff { o with sharp := true } 16 (by decide) false false false false u u.toNat rfl rfl out).mp h2
    subst h1
    rw [this]
    rfl
  | char h1 h2 =>
    obtain ⟨u, signed, e1, e2, e3, e4, e5, e6, e7⟩ := number_bits h1
    rw [filled_iff, ← charOf_eq e2 e3, ← pad_eq] at h2
    rw [printArg_known ((e1 L o go _).trans rfl) (by decide), h2]
    rfl
  | quotedChar h1 h2 =>
    obtain ⟨u, signed, e1, e2, e3, e4, e5, e6, e7⟩ := number_bits h1
    rw [filled_iff, bits_of e4, ← pad_eq] at h2
    rw [printArg_known ((e1 L o go _).trans rfl) (by decide), h2]
  | unicode h1 h2 h3 h4 =>
    obtain ⟨u, signed, e1, e2, e3, e4, e5, e6, e7⟩ := number_bits h1
    rw [(unicode_eq L o _ _ u e4 _).mp ⟨_, _, h2, h3, h4⟩, printArg_known ((e1 L o go _).trans rfl) (by decide)]
  | text h1 h2 h3 =>
    rw [(text_eq o _ _).mp ⟨_, h2, h3⟩]
    rcases h1 with rfl | ⟨rfl, rfl⟩ <;> rfl
  | quoted h1 h2 h3 h4 =>
    rw [(quoted_eq L o _ _).mp ⟨_, _, h2, h3, h4⟩]
    rcases h1 with rfl | ⟨rfl, rfl⟩ <;> rfl
  | @hex s verb out upper h1 h2 =>
    rw [filled_iff, ← sbx_eq] at h2
    subst h1
    rw [h2]
    cases upper <;> rfl
  | truth h1 h2 =>
    rw [filled_iff, ← pad_eq] at h2
    rw [h2]
    rcases h1 with rfl | rfl <;> rfl
  | nothing h1 h2 =>
    rw [filled_iff, ← pad_eq] at h2
    rw [h2]
    rcases h1 with rfl | rfl <;> rfl
  | type h1 h2 h3 =>
    obtain ⟨h4, rfl⟩ := (type_iff _ _).mp h1
    rw [(text_eq o _ _).mp ⟨_, h2, h3⟩]
    unfold printArg
    rw [if_pos rfl, if_neg h4]
  | unknown h1 h2 h3 ih =>
    obtain ⟨h4, rfl⟩ := (type_iff _ _).mp h1
    rw [printArg_unknown h2, badVerb_eq _ _ _ _ _ h4, ih]
  | unknownNil h1 => rw [printArg_unknown h1]; rfl

theorem print_known (L : Lib) (o : Opts) (go : Bool) (verb : Str) (v : Val) (s : Str) (h : printKnown L o go verb v = some s) :
    Looks L o go verb v s := by
  have hnum : ∀ neg n, v.number = some (neg, n) → Looks L o go verb v s := by
    intro neg n hn
    obtain ⟨u, signed, e1, e2, e3, e4, e5, e6, e7⟩ := number_bits hn
    rw [e1] at h
    by_cases hgo : go = true ∧ verb = b!"v" ∧ signed = false
    · obtain ⟨rfl, rfl, rfl⟩ := hgo
      cases v with
      | uint u' =>
        have : printKnown L o true b!"v" (.uint u') = some s := (e1 L o true b!"v").trans h
        cases this
        exact .goUint rfl ((numeric_iff { o with sharp := true } 16 (by decide) false false false false u' u'.toNat rfl rfl _).mpr rfl)
      | int i => exact absurd (e5.mp rfl) (by simp [Val.type])
      | _ => cases hn
    · cases hv : numVerb verb with
      | some b =>
        obtain ⟨base, upper, mark⟩ := b
        obtain ⟨hb, octal, rfl, he⟩ := pp_number L o go u signed _ _ _ _ hv hgo
        rw [he] at h
        cases h
        exact .number hn hv (fun h => hgo ⟨h.1, h.2.1, e5.mpr h.2.2⟩) ((numeric_iff o _ hb _ octal signed _ u _ e2 e3 _).mpr rfl)
      | none =>
        have hk := (knows_iff L o go verb (.uint u)).mpr
        unfold numVerb at hv
        unfold ppInteger at h
        repeat' split at hv
        all_goals try cases hv
        rename_i n1 n2 n3 n4 n5 n6
        rw [if_neg (fun h => n1 (.inr h)), if_neg (fun h => n1 (.inl h)), if_neg n2, if_neg n3, if_neg n4, if_neg n5, if_neg n6] at h
        split at h
        · rename_i hc
          subst hc
          cases h
          exact .char hn (by rw [filled_iff, ← charOf_eq e2 e3, ← pad_eq]; rfl)
        split at h
        · rename_i hc
          subst hc
          cases h
          exact .quotedChar hn (by rw [filled_iff, bits_of e4, ← pad_eq])
        split at h
        · rename_i hc
          subst hc
          cases h
          obtain ⟨z, ds, h1, h2, h3⟩ := (unicode_eq L o _ _ u e4 _).mpr rfl
          exact .unicode hn h1 h2 h3
        · cases h
  cases v with
  | int i => exact hnum _ _ rfl
  | uint u => exact hnum _ _ rfl
  | str t =>
    simp only [printKnown, ppString] at h
    have ht := fun out => (text_eq o t out).mpr
    have hq := fun out => (quoted_eq L o t out).mpr
    split at h
    · rename_i hc
      subst hc
      cases h
      cases go with
      | true =>
        obtain ⟨_, _, h1, h2, h3⟩ := hq _ rfl
        exact .quoted (.inr ⟨rfl, rfl⟩) h1 h2 h3
      | false =>
        obtain ⟨_, h1, h2⟩ := ht _ rfl
        exact .text (.inr ⟨rfl, rfl⟩) h1 h2
    split at h
    · rename_i hc
      subst hc
      cases h
      obtain ⟨_, h1, h2⟩ := ht _ rfl
      exact .text (.inl rfl) h1 h2
    split at h
    · rename_i hc
      subst hc
      cases h
      exact .hex (upper := false) rfl (by rw [filled_iff, ← sbx_eq])
    split at h
    · rename_i hc
      subst hc
      cases h
      exact .hex (upper := true) rfl (by rw [filled_iff, ← sbx_eq])
    split at h
    · rename_i hc
      subst hc
      cases h
      obtain ⟨_, _, h1, h2, h3⟩ := hq _ rfl
      exact .quoted (.inl rfl) h1 h2 h3
    · cases h
  | bool b =>
    simp only [printKnown, ppBool] at h
    split at h
    · rename_i hc
      cases h
      exact .truth hc (by rw [filled_iff, ← pad_eq])
    · cases h
  | nil =>
    simp only [printKnown] at h
    split at h
    · rename_i hc
      cases h
      exact .nothing (.inl hc) (by rw [filled_iff, ← pad_eq])
    · cases h

theorem looks_iff (L : Lib) (o : Opts) (go : Bool) (verb : Str) (v : Val) (out : Str) :
    Looks L o go verb v out ↔ out = printArg L o go verb v := by
  refine ⟨looks_print L o go verb v out, ?_⟩
  rintro rfl
  by_cases hk : v.knows verb
  · rcases (knows_iff L o go verb v).mp hk with rfl | h
    · unfold printArg
      rw [if_pos rfl]
      by_cases hv : v = .nil
      · subst hv
        rw [if_pos rfl]
        exact .nothing (.inr rfl) (by rw [filled_iff, ← pad_eq])
      · rw [if_neg hv]
        obtain ⟨_, h1, h2⟩ := (text_eq o v.typeName _).mpr rfl
        exact .type ((type_iff _ _).mpr ⟨hv, rfl⟩) h1 h2
    · obtain ⟨s, hs⟩ := Option.isSome_iff_exists.mp h
      by_cases hT : verb = b!"T"
      · subst hT
        have : printKnown L o go b!"T" v = none := by cases v <;> rfl
        rw [this] at hs
        cases hs
      · rw [printArg_known hs hT]
        exact print_known L o go verb v s hs
  · rw [printArg_unknown hk]
    by_cases hv : v = .nil
    · subst hv
      exact .unknownNil hk
    · rw [badVerb_eq _ _ _ _ _ hv]
      exact .unknown ((type_iff _ _).mpr ⟨hv, rfl⟩) hk (print_known L o go b!"v" v _ (v_known L o go v))

/-- **C101**: how an argument looks in a message is what `Shows` says, and nothing else. -/
theorem C101_shows (L : Lib) (o : Opts) (verb : Str) (v : Val) (out : Str) : Shows L o verb v out ↔ out = (goEnv L).render o verb v := by
  unfold Shows
  show _ ↔ out = render L o verb v
  unfold render
  split <;> exact looks_iff _ _ _ _ _ _

/-! ## Widths -/

theorem decode_ascii (s y : Str) (c : UInt8) (hc : c < 0x80) (h : s ≠ []) : Utf8.decode (s ++ c :: y) = Utf8.decode s := by
  cases s with
  | nil => exact absurd rfl h
  | cons b0 t =>
    simp only [Utf8.decode, List.cons_append]
    split
    · rfl
    · cases hl : Utf8.lead b0 with
      | none => simp
      | some p =>
        obtain ⟨n, lo, hi⟩ := p
        have hn : (n = 2 ∨ n = 3 ∨ n = 4) ∧ 0x80 ≤ lo := by
          simp only [Utf8.lead] at hl
          repeat' split at hl
          all_goals first | (cases hl; decide) | cases hl
        have hc' : c.toNat < 128 := by simpa [UInt8.lt_iff_toNat_lt] using hc
        have h37 : ¬ lo ≤ c := by
          have := hn.2
          simp only [UInt8.le_iff_toNat_le] at *
          have h2 : (0x80 : UInt8).toNat = 128 := rfl
          omega
        have hc : Utf8.isCont c = false := by
          unfold Utf8.isCont
          rw [Bool.and_eq_false_iff]
          left
          simp only [decide_eq_false_iff_not, UInt8.le_iff_toNat_le]
          have h2 : (0x80 : UInt8).toNat = 128 := rfl
          omega
        rcases hn.1 with rfl | rfl | rfl
        · rcases t with _ | ⟨a, t⟩ <;> simp [h37]
        · rcases t with _ | ⟨a, _ | ⟨b, t⟩⟩ <;> rcases y with _ | ⟨y, _⟩ <;> simp [h37, hc]
        · rcases t with _ | ⟨a, _ | ⟨b, _ | ⟨c, t⟩⟩⟩ <;> rcases y with _ | ⟨y, _ | ⟨y', _⟩⟩ <;>
            simp [h37, hc]

theorem runes_append {s : Str} {cs : List Str} (h : Runes s cs) (c : UInt8) (hc : c < 0x80) (y : Str) (ds : List Str)
    (hd : Runes (c :: y) ds) : Runes (s ++ c :: y) (cs ++ ds) := by
  induction h with
  | nil => exact hd
  | @cons s cs hs h ih =>
    have hv : verbLen (s ++ c :: y) = verbLen s := by rw [← decode_size, decode_ascii s y c hc hs, decode_size]
    have hle := verbLen_le s
    have := Runes.cons (s := s ++ c :: y) (by simp) (cs := cs ++ ds) (by rw [hv, List.drop_append_of_le_length hle]; exact ih)
    rw [hv, List.take_append_of_le_length hle] at this
    exact this

theorem runes_prepend (c : UInt8) (hc : c < 0x80) {s : Str} {cs : List Str} (h : Runes s cs) : Runes (c :: s) ([c] :: cs) := by
  have hv := ascii_verbLen c s hc
  have := Runes.cons (s := c :: s) (by simp) (cs := cs) (by rw [hv]; exact h)
  rw [hv] at this
  exact this

theorem runes_left (c : UInt8) (hc : c < 0x80) {s : Str} {cs : List Str} (h : Runes s cs) (n : Nat) :
    Runes (List.replicate n c ++ s) (List.replicate n [c] ++ cs) := by
  induction n with
  | zero => exact h
  | succ n ih => exact runes_prepend c hc ih

theorem runes_right (c : UInt8) (hc : c < 0x80) {s : Str} {cs : List Str} (h : Runes s cs) (n : Nat) :
    Runes (s ++ List.replicate n c) (cs ++ List.replicate n [c]) := by
  cases n with
  | zero => simpa using h
  | succ n =>
    have := runes_left c hc .nil (n + 1)
    simp only [List.append_nil] at this
    exact runes_append h c hc _ _ this

theorem filled_width {o : Opts} {c : UInt8} (hc : c < 0x80) {body out : Str} (h : Filled o c body out) :
    ∃ cs, Runes out cs ∧ o.wid.getD 0 ≤ cs.length := by
  obtain ⟨cs, n, h1, h2, rfl⟩ := h
  split
  · exact ⟨_, runes_right c hc h1 n, by simp; omega⟩
  · exact ⟨_, runes_left c hc h1 n, by simp; omega⟩

theorem fill_ascii (o : Opts) : o.fill < 0x80 := by
  unfold Opts.fill
  split <;> decide

theorem numeric_width {o : Opts} {base n : Nat} {upper neg : Bool} {mark out : Str} (h : Numeric o base upper mark neg n out) :
    ∃ cs, Runes out cs ∧ o.wid.getD 0 ≤ cs.length := by
  by_cases h0 : o.prec = some 0 ∧ n = 0
  · rw [h.1 h0]
    have := runes_left 32 (by decide) .nil (o.wid.getD 0)
    simp only [List.append_nil] at this
    exact ⟨_, this, by simp⟩
  · obtain ⟨_, _, _, _, h⟩ := h.2 h0
    exact filled_width (by decide) h

/-- **C101**: what is shown is at least as wide as wanted, counted in characters (unless the verb does not fit the argument). -/
theorem C101_width (L : Lib) (o : Opts) (verb : Str) (v : Val) (hk : v.knows verb) (w : Nat) (hw : o.wid = some w) :
    ∃ cs, Runes ((goEnv L).render o verb v) cs ∧ w ≤ cs.length := by
  have key : ∀ (o' : Opts) go, o'.wid = some w → ∀ out, Looks L o' go verb v out → ∃ cs, Runes out cs ∧ w ≤ cs.length := by
    intro o' go hw out h
    have hg : o'.wid.getD 0 = w := by rw [hw]; rfl
    rw [← hg]
    cases h with
    | number _ _ _ h => exact numeric_width h
    | goUint _ h => exact numeric_width (o := { o' with sharp := true }) h
    | char _ h => exact filled_width (fill_ascii _) h
    | quotedChar _ h => exact filled_width (fill_ascii _) h
    | unicode _ _ _ h => exact filled_width (by decide) h
    | text _ _ h => exact filled_width (fill_ascii _) h
    | quoted _ _ _ h => exact filled_width (fill_ascii _) h
    | hex _ h => exact filled_width (fill_ascii _) h
    | truth _ h => exact filled_width (fill_ascii _) h
    | nothing _ h => exact filled_width (fill_ascii _) h
    | type _ _ h => exact filled_width (fill_ascii _) h
    | unknown _ h _ => exact absurd hk h
    | unknownNil h => exact absurd hk h
  have hs := (C101_shows L o verb v _).mpr rfl
  unfold Shows at hs
  split at hs
  · exact key _ _ (by exact hw) _ hs
  · exact key _ _ hw _ hs

/-! ## Reading back -/

theorem digitsVal_eq (ds : List Nat) (h : ∀ d ∈ ds, d < 10) (acc : Nat) :
    Num.digitsVal acc (ds.map fun d => (digitBytes false).getD d 0) = some (ds.foldl (fun v d => v * 10 + d) acc) := by
  induction ds generalizing acc with
  | nil => rfl
  | cons d ds ih =>
    have hd : Num.isDigit ((digitBytes false).getD d 0) = true ∧ ((digitBytes false).getD d 0).toNat - 48 = d := by
      have := h d (by simp)
      clear ih h
      revert this
      revert d
      decide
    rw [List.map_cons, Num.digitsVal, if_pos hd.1, hd.2, ih fun x hx => h x (by simp [hx])]
    rfl

theorem digitsVal_zeros (z : Nat) (s : Str) : Num.digitsVal 0 (List.replicate z 48 ++ s) = Num.digitsVal 0 s := by
  induction z with
  | zero => rfl
  | succ z ih => rw [List.replicate_succ, List.cons_append, Num.digitsVal, if_pos (by decide)]; exact ih

theorem parse_signed (ds : Str) (n : Nat) (hval : Num.digitsVal 0 ds = some n) (hne : ds ≠ []) :
    (n ≤ 2 ^ 63 → Num.parseInt (45 :: ds) = some (-(n : Int))) ∧ (n < 2 ^ 63 → Num.parseInt (43 :: ds) = some (n : Int)) ∧
    (n < 2 ^ 63 → Num.parseInt ds = some (n : Int)) := by
  have hfirst : ∀ c r, ds = c :: r → c ≠ 43 ∧ c ≠ 45 := by
    rintro c r rfl
    rw [Num.digitsVal] at hval
    split at hval
    · rename_i h
      have : ∀ c : UInt8, Num.isDigit c = true → c ≠ 43 ∧ c ≠ 45 := by apply u8; decide +kernel
      exact this c h
    · cases hval
  have hemp : ds.isEmpty = false := by cases ds <;> simp_all
  have hpos : n < 2 ^ 63 → (if (decide (Num.minI64 ≤ (n : Int)) && decide ((n : Int) ≤ Num.maxI64)) = true then some (n : Int) else none) =
      some (n : Int) := by
    intro h
    rw [if_pos]
    unfold Num.minI64 Num.maxI64
    simp
    omega
  refine ⟨fun h => ?_, fun h => ?_, fun h => ?_⟩
  · simp only [Num.parseInt, hemp, hval, Bool.false_eq_true, if_false, if_true]
    rw [if_pos]
    unfold Num.minI64 Num.maxI64
    simp
    omega
  · simp only [Num.parseInt, hemp, hval, Bool.false_eq_true, if_false]
    exact hpos h
  · unfold Num.parseInt
    dsimp only
    split
    · exact absurd rfl (hfirst _ _ rfl).1
    · exact absurd rfl (hfirst _ _ rfl).2
    · simp only [hemp, hval, Bool.false_eq_true, if_false]
      exact hpos h

/-- **C101**: a number shown with `%d` reads back, whatever the flags, but a blank for the sign and the precision 0 for the number 0. -/
theorem C101_reads (L : Lib) (o : Opts) (i : Int64) (hs : o.space = false) (h0 : ¬ (o.prec = some 0 ∧ i = 0)) :
    ∃ l t r, (goEnv L).render o b!"d" (.int i) = l ++ t ++ r ∧ (∀ c ∈ l ++ r, c = 32) ∧ Num.parseInt t = some i.toInt := by
  have hl := (C101_shows L o b!"d" (.int i) _).mpr rfl
  unfold Shows at hl
  rw [if_neg (by decide)] at hl
  generalize (goEnv L).render o b!"d" (.int i) = out at *
  have hn : Numeric o 10 false [] (decide (i.toInt < 0)) i.toInt.natAbs out := by
    generalize hv : Val.int i = v at hl
    generalize hvb : b!"d" = verb at hl
    cases hl with
    | number h1 h2 h3 h4 =>
      subst hv hvb
      cases h1
      cases h2
      exact h4
    | text h => cases hv
    | quoted h => cases hv
    | hex h => cases hv
    | truth h => cases hv
    | nothing h => cases hv
    | unknown h1 h2 h3 =>
      subst hv hvb
      exact absurd (.inr (by simp)) h2
    | unknownNil h => cases hv
    | _ => cases hvb
  have hz : ¬ (o.prec = some 0 ∧ i.toInt.natAbs = 0) := fun h => h0 ⟨h.1, by
    have : i.toInt = 0 := by omega
    exact Int64.toInt_inj.mp this⟩
  obtain ⟨ds, z, ⟨nums, rfl, g1, g2, g3, _⟩, _, cs, n, _, _, rfl⟩ := hn.2 hz
  have hb : o.before 10 false (List.replicate z 48 ++ nums.map fun d => (digitBytes false).getD d 0) = [] := by
    unfold Opts.before
    simp
  rw [hb]
  generalize hd : List.replicate z 48 ++ (nums.map fun d => (digitBytes false).getD d 0) = digits
  have hval : Num.digitsVal 0 digits = some i.toInt.natAbs := by
    rw [← hd, digitsVal_zeros, digitsVal_eq nums g1, g2]
  have hne : digits ≠ [] := by
    rw [← hd]
    simp [g3]
  have hparse : Num.parseInt (o.sign (decide (i.toInt < 0)) ++ digits) = some i.toInt := by
    have h1 := i.le_toInt
    have h2 := i.toInt_lt
    obtain ⟨p1, p2, p3⟩ := parse_signed digits _ hval hne
    unfold Opts.sign
    rw [hs]
    by_cases hneg : i.toInt < 0
    · have hi : -(i.toInt.natAbs : Int) = i.toInt := by omega
      rw [if_pos (by simpa using hneg)]
      exact (p1 (by omega)).trans (by rw [hi])
    · have hi : (i.toInt.natAbs : Int) = i.toInt := by omega
      rw [if_neg (by simpa using hneg)]
      cases o.plus with
      | true => exact (p2 (by omega)).trans (by rw [hi])
      | false => exact (p3 (by omega)).trans (by rw [hi])
  subst hd
  split
  · exact ⟨[], _, List.replicate n 32, by simp only [List.append_assoc, List.nil_append], by simp, hparse⟩
  · exact ⟨List.replicate n 32, _, [], by simp only [List.append_assoc, List.append_nil], by simp, hparse⟩

theorem chars_high (k : Nat) (s : Str) (hk : s.length ≤ k) : ∀ ch ∈ charsLoop k s, (∃ b, ch = [b]) ∨ ∀ c ∈ ch, 0x80 ≤ c.toNat := by
  induction k generalizing s with
  | zero => simp [charsLoop]
  | succ k ih =>
    cases s with
    | nil => simp [charsLoop]
    | cons b t =>
      have hl : ((b :: t).drop (verbLen (b :: t))).length ≤ k := by
        have := verbLen_pos (b :: t) (by simp)
        simp only [List.length_drop, List.length_cons] at *
        omega
      rw [charsLoop_cons, List.forall_mem_cons]
      refine ⟨?_, ih _ hl⟩
      by_cases h1 : verbLen (b :: t) = 1
      · rw [h1]
        exact .inl ⟨b, rfl⟩
      · right
        obtain ⟨_, _, _, h2, h3⟩ := Utf8.encode_decode (b :: t) (by simp) (by rw [decode_size]; exact fun h => h1 h.1)
        rw [decode_size] at h2
        rw [← h2]
        rcases h3 with h3 | ⟨_, _, _, _, h3⟩
        · exfalso
          have he : (Utf8.encode (Utf8.decode (b :: t)).1).length = 1 := by
            unfold Utf8.encode
            rw [if_pos h3]
            rfl
          rw [h2, List.length_take] at he
          have := verbLen_le (b :: t)
          omega
        · exact Utf8.encode_high _ h3

/-- **C101**: a text shown with `%q`, or with `%#v`, is a Go literal for it. -/
theorem C101_quoted (L : Lib) (hL : L.isPrint 10 = false) (o : Opts) (hp : o.prec = none) (hw : o.wid = none) (s : Str) :
    Literal.Literal ((goEnv L).render o b!"q" (.str s)) s ∧
    (o.sharp = true → Literal.Literal ((goEnv L).render o b!"v" (.str s)) s) := by
  have key : ∀ (o' : Opts), o'.prec = none → o'.wid = none → Literal.Literal (fmtQ L o' s) s := by
    intro o' hp hw
    have ht : truncate o' s = s := by unfold truncate; rw [hp]
    have hpad : ∀ x, pad o' x = x := by intro x; unfold pad; rw [hw]
    unfold fmtQ
    simp only [ht, hpad]
    split
    · rename_i h
      have hb := (backquotable_iff s).mpr h.2
      have hall : ∀ c ∈ s, c ≠ 96 ∧ c ≠ 13 := by
        have hcs := hb _ ((runes_iff s _).mpr rfl)
        have hfl := chars_flatten s.length s (Nat.le_refl _)
        intro c hc
        rw [← hfl] at hc
        obtain ⟨ch, h1, h2⟩ := List.mem_flatten.mp hc
        rcases chars_high _ _ (Nat.le_refl _) ch h1 with ⟨b, rfl⟩ | h
        · have := (hcs _ h1).2 b rfl
          simp only [List.mem_singleton] at h2
          subst h2
          refine ⟨this.2, ?_⟩
          rintro rfl
          exact absurd this.1 (by decide)
        · have := h c h2
          constructor <;> (rintro rfl; exact absurd this (by decide))
      have h13 : s.filter (· ≠ 13) = s := List.filter_eq_self.mpr fun c hc => by simpa using (hall c hc).2
      have := Literal.Literal.raw (t := s) (fun h => (hall 96 h).1 rfl)
      rw [h13] at this
      exact this
    · split
      · rw [← Literal.C91_unquote]
        exact Quote.unquote_quote _ (by rw [hL, Bool.and_false]) s
      · rw [← Literal.C91_unquote]
        exact Quote.unquote_quote _ hL s
  constructor
  · exact key o hp hw
  · intro hs
    have e : (goEnv L).render o b!"v" (.str s) = fmtQ L { o with sharp := false, plus := false } s := by
      show render L o b!"v" (.str s) = _
      unfold render
      rw [if_pos (.inl rfl), hs]
      rfl
    rw [e]
    exact key _ hp hw

/-- **C101**: `%s` and `%v` without further wishes show a text as it is. -/
theorem C101_plain (L : Lib) (s : Str) : (goEnv L).render {} b!"s" (.str s) = s ∧ (goEnv L).render {} b!"v" (.str s) = s := ⟨rfl, rfl⟩

/-! ## Messages -/

/-- What the report of arguments left over says of one of them. -/
def Extra (L : Lib) (v : Val) (t : Str) : Prop :=
  v = .nil ∧ t = b!"<nil>" ∨ ∃ n x, v.type = some n ∧ Shows L {} b!"v" v x ∧ t = n ++ b!"=" ++ x

theorem extra_iff (L : Lib) (v : Val) (t : Str) : Extra L v t ↔ t = extraArg L v := by
  unfold Extra
  have hs : ∀ x, Shows L {} b!"v" v x ↔ x = printArg L {} false b!"v" v := by
    intro x
    rw [C101_shows]
    rfl
  simp only [hs, type_iff]
  cases v with
  | nil => simp [extraArg]
  | _ => simp [extraArg]

theorem extraLoop_eq (L : Lib) (vs : List Val) : extraLoop L false vs = (vs.map (extraArg L)).flatMap (b!", " ++ ·) := by
  induction vs with
  | nil => rfl
  | cons v vs ih => simp [extraLoop, ih]

theorem intercalate_comma (x : Str) (l : List Str) : b!", ".intercalate (x :: l) = x ++ l.flatMap (b!", " ++ ·) := by
  induction l generalizing x with
  | nil => simp [List.intercalate]
  | cons y l ih =>
    have : b!", ".intercalate (x :: y :: l) = x ++ b!", " ++ b!", ".intercalate (y :: l) := by simp [List.intercalate]
    rw [this, ih]
    simp

/-- **C101**: the report of arguments left over. -/
theorem C101_extra (L : Lib) (vs : List Val) (ts : List Str) (h : List.Forall₂ (Extra L) vs ts) :
    (goEnv L).extra vs = b!"%!(EXTRA " ++ b!", ".intercalate ts ++ b!")" := by
  have : ts = vs.map (extraArg L) := by
    induction h with
    | nil => rfl
    | cons h _ ih => rw [(extra_iff L _ _).mp h, ih]; rfl
  subst this
  show b!"%!(EXTRA " ++ extraLoop L true vs ++ b!")" = _
  congr 2
  cases vs with
  | nil => rfl
  | cons v vs => rw [List.map_cons, intercalate_comma, ← extraLoop_eq]; rfl

/-- **C101**: which arguments can be widths and precisions: numbers of either type up to a million. -/
theorem C101_star (L : Lib) (v : Val) (i : Int) : (goEnv L).asInt v = some i ↔
    ∃ neg n, v.number = some (neg, n) ∧ n ≤ 1000000 ∧ i = if neg then -(n : Int) else n := by
  show v.asInt = some i ↔ _
  cases v with
  | int j =>
    simp only [Val.asInt, Val.number, Option.some.injEq, Prod.mk.injEq]
    constructor
    · intro h
      split at h
      · cases h
      · cases h
        refine ⟨_, _, ⟨rfl, rfl⟩, by omega, ?_⟩
        split
        · rename_i h; simp at h; omega
        · rename_i h; simp at h; omega
    · rintro ⟨_, _, ⟨rfl, rfl⟩, h, rfl⟩
      rw [if_neg (by omega)]
      split
      · rename_i h; simp at h; congr 1; omega
      · rename_i h; simp at h; congr 1; omega
  | uint u =>
    simp only [Val.asInt, Val.number, Option.some.injEq, Prod.mk.injEq]
    constructor
    · intro h
      split at h
      · cases h
      · cases h
        exact ⟨_, _, ⟨rfl, rfl⟩, by omega, rfl⟩
    · rintro ⟨_, _, ⟨rfl, rfl⟩, h, rfl⟩
      rw [if_neg (by omega)]
      rfl
  | _ => simp [Val.asInt, Val.number]

/-- **C101**: `Format` with these arguments shows what C94 says, without any assumption on package fmt. -/
theorem C101_format (L : Lib) (m : List Part) (hm : ∀ i ∈ m, i.Wf) (args : List Val) (hargs : args ≠ []) (hlen : args.length < 1000000) :
    format (goEnv L) (writtenParts m) args = shownParts (goEnv L) (args ++ [.str []]) 0 m :=
  C94_format (goEnv L) rfl m hm args hargs hlen

/-! ## Concrete cases -/

def exLib : Lib where
  isPrint r := 32 ≤ r && r ≠ 127
  quoteRune _ u := b!"'" ++ Utf8.encode u.toNat ++ b!"'"

example : sprintf (goEnv exLib) b!"%d %s|%-6d|%06d|%+d|%#x|%8.1s|%v %v"
    [.int (-3), .str b!"文件", .uint 255, .int (-10), .int 7, .int 255, .str b!"文件", .bool true, .nil] =
    b!"-3 文件|255   |-00010|+7|0xff|       文|true <nil>" := by decide +kernel

example : sprintf (goEnv exLib) b!"%d|%z|%#v|%+v|%*d|% x|%#q|%U" [.str b!"a", .int 5, .uint 5, .int 5, .int (-4), .int 1, .str b!"ab",
    .str b!"a\"b", .int 0x4e2d, .nil, .bool false] =
    b!"%!d(string=a)|%!z(int=5)|0x5|5|1   |61 62|`a\"b`|U+4E2D%!(EXTRA <nil>, bool=false)" := by decide +kernel

example : (Val.int 5).knows b!"d" ∧ ¬ (Val.str b!"a").knows b!"d" := by simp [Val.knows]

example : ∃ l t r, (goEnv exLib).render { wid := some 6, plus := true } b!"d" (.int (-42)) = l ++ t ++ r ∧ (∀ c ∈ l ++ r, c = 32) ∧
    Num.parseInt t = some (-42 : Int64).toInt := C101_reads exLib _ _ rfl (by decide)

end Verif.Fmt
