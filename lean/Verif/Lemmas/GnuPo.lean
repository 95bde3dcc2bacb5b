import Verif.Spec.GnuPo
import Verif.Props.C91
/-!
# Lemmas about strings of GNU gettext
-/
namespace Verif.GnuPo
open Verif
open Verif.Literal (utf8 IsDigit Digits letters)

/-! ## Digits -/

theorem isDigit_unique {base : Nat} (hb : base ≤ 16) {c : UInt8} {v w : Nat} (h1 : IsDigit base c v) (h2 : IsDigit base c w) : v = w := by
  have e1 : Quote.unhex c = some v := (Literal.unhex_iff c v).2 ⟨by have := h1.1; omega, h1.2⟩
  have e2 : Quote.unhex c = some w := (Literal.unhex_iff c w).2 ⟨by have := h2.1; omega, h2.2⟩
  rw [e1] at e2
  cases e2
  rfl

theorem digits_unique {base : Nat} (hb : base ≤ 16) {ds : Str} : ∀ {acc v w : Nat}, Digits base acc ds v → Digits base acc ds w → v = w := by
  induction ds with
  | nil => intro acc v w h1 h2; cases h1; cases h2; rfl
  | cons c ds ih =>
    intro acc v w h1 h2
    cases h1 with
    | cons a1 b1 =>
      cases h2 with
      | cons a2 b2 =>
        cases isDigit_unique hb a1 a2
        exact ih b1 b2

theorem digits_all {base : Nat} {ds : Str} : ∀ {acc v : Nat}, Digits base acc ds v → ∀ c ∈ ds, ∃ x, IsDigit base c x := by
  induction ds with
  | nil => intro acc v _ c hc; cases hc
  | cons a ds ih =>
    intro acc v h c hc
    cases h with
    | cons h1 h2 =>
      rcases List.mem_cons.1 hc with rfl | hc
      · exact ⟨_, h1⟩
      · exact ih h2 c hc

/-- Digits up to where no further digit follows are determined. -/
theorem digits_maximal {base : Nat} : ∀ {a b x y : Str}, a ++ x = b ++ y → (∀ c ∈ a, ∃ v, IsDigit base c v) → (∀ c ∈ b, ∃ v, IsDigit base c v) →
    ¬ Starts base x → ¬ Starts base y → a = b ∧ x = y := by
  intro a
  induction a with
  | nil =>
    intro b x y h _ hb hx _
    cases b with
    | nil => exact ⟨rfl, h⟩
    | cons c b =>
      obtain ⟨v, hv⟩ := hb c (by simp)
      exact absurd ⟨c, b ++ y, v, h, hv⟩ hx
  | cons c a ih =>
    intro b x y h ha hb hx hy
    cases b with
    | nil =>
      obtain ⟨v, hv⟩ := ha c (by simp)
      exact absurd ⟨c, a ++ x, v, h.symm, hv⟩ hy
    | cons c' b =>
      simp only [List.cons_append, List.cons.injEq] at h
      obtain ⟨rfl, h⟩ := h
      obtain ⟨h1, h2⟩ := ih h (fun c hc => ha c (by simp [hc])) (fun c hc => hb c (by simp [hc])) hx hy
      exact ⟨by rw [h1], h2⟩

/-- What is no digit. -/
theorem not_digit {base : Nat} (hb : base ≤ 16) {c : UInt8} (h : Quote.unhex c = none) (v : Nat) : ¬ IsDigit base c v := by
  intro hd
  have := (Literal.unhex_iff c v).2 ⟨by have := hd.1; omega, hd.2⟩
  rw [h] at this
  cases this

theorem letters_octal : ∀ p ∈ (34, 34) :: letters, Quote.unoct p.1 = none ∧ p.1 ≠ 120 := by decide

theorem letters_unique : ∀ p ∈ (34, 34) :: letters, ∀ q ∈ (34, 34) :: letters, p.1 = q.1 → p.2 = q.2 := by decide

theorem not_octal {c : UInt8} (h : Quote.unoct c = none) (v : Nat) : ¬ IsDigit 8 c v := by
  intro hd
  rw [(Literal.unoct_iff c v).2 hd] at h
  cases h

/-! ## Reading -/

theorem body_nil {d : Str} (h : Body [] d) : d = [] := by
  generalize hz : ([] : Str) = z at h
  cases h with
  | nil => rfl
  | cons h1 h2 => cases h1 <;> cases hz

/-- A byte that stands for itself. -/
theorem body_byte {c : UInt8} (h34 : c ≠ 34) (h92 : c ≠ 92) (h10 : c ≠ 10) {y d : Str} :
    Body (c :: y) d ↔ ∃ e, d = c :: e ∧ Body y e := by
  constructor
  · intro h
    generalize hz : c :: y = z at h
    cases h with
    | nil => cases hz
    | cons h1 h2 =>
      cases h1 with
      | byte => cases hz; exact ⟨_, rfl, h2⟩
      | letter => cases hz; exact absurd rfl h92
      | octal => cases hz; exact absurd rfl h92
      | hex => cases hz; exact absurd rfl h92
  · rintro ⟨e, rfl, h⟩
    exact .cons (.byte c y h34 h92 h10) h

/-- Bytes that stand for themselves. -/
theorem body_plain {x : Str} (hx : ∀ c ∈ x, c ≠ 34 ∧ c ≠ 92 ∧ c ≠ 10) {y d : Str} : Body (x ++ y) d ↔ ∃ e, d = x ++ e ∧ Body y e := by
  induction x generalizing d with
  | nil => simp
  | cons c x ih =>
    have hc := hx c (by simp)
    rw [List.cons_append, body_byte hc.1 hc.2.1 hc.2.2]
    have ih := fun d => ih (fun c hc => hx c (by simp [hc])) (d := d)
    constructor
    · rintro ⟨e, rfl, h⟩
      obtain ⟨e', rfl, h'⟩ := (ih _).1 h
      exact ⟨e', rfl, h'⟩
    · rintro ⟨e, rfl, h⟩
      exact ⟨x ++ e, rfl, (ih _).2 ⟨e, rfl, h⟩⟩

/-- A one-letter escape. -/
theorem body_letter {c v : UInt8} (hc : (c, v) ∈ (34, 34) :: letters) {y d : Str} :
    Body (92 :: c :: y) d ↔ ∃ e, d = v :: e ∧ Body y e := by
  obtain ⟨o1, o2⟩ := letters_octal _ hc
  constructor
  · intro h
    generalize hz : 92 :: c :: y = z at h
    cases h with
    | nil => cases hz
    | cons h1 h2 =>
      cases h1 with
      | byte c' _ _ h92 => cases hz; exact absurd rfl h92
      | letter c' v' _ hm =>
        cases hz
        have := letters_unique _ hc _ hm rfl
        dsimp only at this
        subst this
        exact ⟨_, rfl, h2⟩
      | octal ds w _ hne _ hd _ =>
        cases hd with
        | nil => exact absurd rfl hne
        | cons hx _ => cases hz; exact absurd hx (not_octal o1 _)
      | hex => cases hz; exact absurd rfl o2
  · rintro ⟨e, rfl, h⟩
    exact .cons (.letter c v y hc) h

/-- An octal escape with three digits. -/
theorem body_octal {ds : Str} {v : Nat} (hl : ds.length = 3) (hd : Digits 8 0 ds v) {y d : Str} :
    Body (92 :: ds ++ y) d ↔ ∃ e, d = UInt8.ofNat v :: e ∧ Body y e := by
  constructor
  · intro h
    generalize hz : 92 :: ds ++ y = z at h
    cases h with
    | nil => cases hz
    | @cons t s d' e h1 h2 =>
      cases h1 with
      | byte c' _ _ h92 => cases hz; exact absurd rfl h92
      | letter c' v' _ hm =>
        cases ds with
        | nil => cases hl
        | cons c ds =>
          cases hz
          cases hd with
          | cons hx _ => exact absurd hx (not_octal (letters_octal _ hm).1 _)
      | octal ds' w _ hne hle hd' hs =>
        simp only [List.cons_append, List.cons.injEq, true_and] at hz
        by_cases h3 : ds'.length < 3
        · exfalso
          have hp : ds' <+: ds := by
            refine List.prefix_of_prefix_length_le (l₃ := ds ++ y) ?_ (List.prefix_append _ _) (by omega)
            rw [hz]; exact List.prefix_append _ _
          obtain ⟨r, rfl⟩ := hp
          rw [List.append_assoc] at hz
          have := List.append_cancel_left hz
          cases r with
          | nil => simp at hl; omega
          | cons c r =>
            obtain ⟨x, hx⟩ := digits_all hd c (by simp)
            exact hs h3 ⟨c, r ++ y, x, this.symm, hx⟩
        · have hh := List.append_inj hz (by omega)
          obtain ⟨rfl, rfl⟩ := hh
          cases digits_unique (by decide) hd hd'
          exact ⟨_, rfl, h2⟩
      | hex ds' w _ _ _ _ =>
        cases ds with
        | nil => cases hl
        | cons c ds =>
          simp only [List.cons_append, List.cons.injEq, true_and] at hz
          obtain ⟨rfl, -⟩ := hz
          cases hd with
          | cons hx _ => exact absurd hx (not_octal (by decide) _)
  · rintro ⟨e, rfl, h⟩
    exact .cons (.octal ds v y (by intro h; rw [h] at hl; cases hl) (by omega) hd (by omega)) h

/-- A hexadecimal escape, read as far as digits go. -/
theorem body_x {y d : Str} (h : Body (92 :: 120 :: y) d) : ∃ ds v r e, y = ds ++ r ∧ ds ≠ [] ∧ Digits 16 0 ds v ∧ ¬ Starts 16 r ∧
    d = UInt8.ofNat v :: e ∧ Body r e := by
  generalize hz : 92 :: 120 :: y = z at h
  cases h with
  | nil => cases hz
  | @cons t s d' e h1 h2 =>
    cases h1 with
    | byte c' _ _ h92 => cases hz; exact absurd rfl h92
    | letter c' v' _ hm => cases hz; exact absurd rfl (letters_octal _ hm).2
    | octal ds w _ hne _ hd _ =>
      cases hd with
      | nil => exact absurd rfl hne
      | cons hx _ => cases hz; exact absurd hx (not_octal (by decide) _)
    | hex ds' w _ hne hd hs =>
      cases hz
      exact ⟨ds', w, s, e, rfl, hne, hd, hs, rfl, h2⟩

/-- A hexadecimal escape that is not followed by a further digit. -/
theorem body_hex {ds : Str} {v : Nat} (hne : ds ≠ []) (hd : Digits 16 0 ds v) {y d : Str} (hy : ¬ Starts 16 y) :
    Body (92 :: 120 :: ds ++ y) d ↔ ∃ e, d = UInt8.ofNat v :: e ∧ Body y e := by
  constructor
  · intro h
    obtain ⟨ds', v', r, e, h1, -, h3, h4, rfl, h6⟩ := body_x h
    obtain ⟨rfl, rfl⟩ := digits_maximal h1 (digits_all hd) (digits_all h3) hy h4
    cases digits_unique (by decide) hd h3
    exact ⟨e, rfl, h6⟩
  · rintro ⟨e, rfl, h⟩
    exact .cons (.hex ds v y hne hd hy) h

/-- Other escapes are none. -/
theorem body_unknown {c : UInt8} (h1 : ∀ p ∈ (34, 34) :: letters, p.1 ≠ c) (h2 : Quote.unoct c = none) (h3 : c ≠ 120) {y d : Str} :
    ¬ Body (92 :: c :: y) d := by
  intro h
  generalize hz : 92 :: c :: y = z at h
  cases h with
  | nil => cases hz
  | cons g1 g2 =>
    cases g1 with
    | byte c' _ _ h92 => cases hz; exact absurd rfl h92
    | letter c' v' _ hm => cases hz; exact h1 _ hm rfl
    | octal ds w _ hne _ hd _ =>
      cases hd with
      | nil => exact absurd rfl hne
      | cons hx _ => cases hz; exact absurd hx (not_octal h2 _)
    | hex => cases hz; exact h3 rfl

/-! ## Characters -/

theorem utf8_cases (ch : Char) : (ch.toNat < 128 ∧ utf8 ch = [UInt8.ofNat ch.toNat]) ∨ (128 ≤ ch.toNat ∧ ∀ c ∈ utf8 ch, 128 ≤ c.toNat) := by
  by_cases h : ch.toNat < 128
  · refine .inl ⟨h, ?_⟩
    rw [← Literal.encode_char, Utf8.encode, if_pos h]
  · refine .inr ⟨by omega, ?_⟩
    rw [← Literal.encode_char]
    exact Utf8.encode_high _ (by omega)

theorem utf8_inj {ch ch' : Char} {t t' : Str} (h : utf8 ch ++ t = utf8 ch' ++ t') : ch = ch' ∧ t = t' := by
  have h1 := Literal.decode_char ch t
  have h2 := Literal.decode_char ch' t'
  rw [h, h2] at h1
  simp only [Prod.mk.injEq] at h1
  have : ch = ch' := by
    apply Char.ext
    apply UInt32.toNat_inj.1
    exact h1.1.symm
  subst this
  exact ⟨rfl, List.append_cancel_left h⟩

theorem valid_tail {ch : Char} {t : Str} (h : Valid (utf8 ch ++ t)) : Valid t := by
  generalize hz : utf8 ch ++ t = z at h
  cases h with
  | nil =>
    have := List.append_eq_nil_iff.1 hz
    exact absurd this.1 (Literal.utf8_ne_nil ch)
  | cons ch' h' =>
    obtain ⟨-, rfl⟩ := utf8_inj hz
    exact h'

theorem valid_ascii {c : UInt8} (hc : c.toNat < 128) {t : Str} (h : Valid (c :: t)) : Valid t := by
  have : utf8 (Char.ofNat c.toNat) = [c] := by
    have hn : (Char.ofNat c.toNat).toNat = c.toNat := by
      rw [Char.ofNat, dif_pos (.inl (by omega))]
      simp [Char.ofNatAux, Char.toNat]
    rcases utf8_cases (Char.ofNat c.toNat) with ⟨_, h⟩ | ⟨h, _⟩
    · rw [h, hn]; simp
    · omega
  have h' : Valid (utf8 (Char.ofNat c.toNat) ++ t) := by rw [this]; exact h
  exact valid_tail h'

theorem valid_asciis {a : Str} (ha : ∀ c ∈ a, c.toNat < 128) {t : Str} (h : Valid (a ++ t)) : Valid t := by
  induction a with
  | nil => exact h
  | cons c a ih => exact ih (fun c hc => ha c (by simp [hc])) (valid_ascii (ha c (by simp)) h)

theorem digit_ascii {base : Nat} (hb : base ≤ 16) {c : UInt8} {v : Nat} (h : IsDigit base c v) : c.toNat < 128 := by
  have : Quote.unhex c ≠ none := by rw [(Literal.unhex_iff c v).2 ⟨by have := h.1; omega, h.2⟩]; simp
  clear h
  revert c
  apply u8
  decide +kernel

end Verif.GnuPo
