import Verif.Model.TmplLex
import Verif.Lemmas.Regexp
import Verif.Props.C59
/-!
# Where the scanner of templates finds identifiers
-/
namespace Verif.Tmpl
open Verif Verif.Xt

/-- `letter` and `digit` are right for ASCII. -/
def Cfg.Ascii (C : Cfg) : Prop :=
  (∀ r, r < 128 → (C.letter r = true ↔ 65 ≤ r ∧ r ≤ 90 ∨ 97 ≤ r ∧ r ≤ 122)) ∧
  (∀ r, r < 128 → (C.digit r = true ↔ 48 ≤ r ∧ r ≤ 57))

/-- The text begins with a byte of an ASCII word. -/
def WordAt (s : Str) : Prop := ∃ x t, s = x :: t ∧ isWordByte x = true

/-- The text does not end with a byte of an ASCII word. -/
def EndsPlain (s : Str) : Prop := ∃ a x, s = a ++ [x] ∧ isWordByte x = false

theorem decode_low {c : UInt8} (h : c.toNat < 128) (s : Str) : Utf8.decode (c :: s) = (c.toNat, 1) := by
  have : c < 0x80 := by rw [UInt8.lt_iff_toNat_lt]; exact h
  simp [Utf8.decode, this]

theorem decode_high {c : UInt8} (h : 128 ≤ c.toNat) (s : Str) :
    128 ≤ (Utf8.decode (c :: s)).1 ∧ ∀ b ∈ (c :: s).take (Utf8.decode (c :: s)).2, 128 ≤ b.toNat := by
  obtain ⟨r, a, s', hs, hr, he, ha, hb⟩ := Re.step_high h s
  rw [Re.step, Option.some.injEq, Prod.mk.injEq] at hs
  obtain ⟨rfl, hd⟩ := hs
  refine ⟨hr, ?_⟩
  have : (c :: s).take (Utf8.decode (c :: s)).2 = a := by
    have h1 := List.take_append_drop (Utf8.decode (c :: s)).2 (c :: s)
    rw [hd] at h1
    conv at h1 => rhs; rw [he]
    exact List.append_cancel_right h1
  rw [this]; exact hb

variable {C : Cfg}

theorem keyword_iff (w : Str) : keyword w = none ↔ ¬ TemplateKeyword w := by
  unfold keyword TemplateKeyword
  repeat (split; next h => simp [h])
  simp_all

theorem word_low : ∀ x : UInt8, isWordByte x = true → x.toNat < 128 := by
  apply u8; decide +kernel

theorem word_nat : ∀ x : UInt8, isWordByte x = true ↔
    x.toNat = 95 ∨ (65 ≤ x.toNat ∧ x.toNat ≤ 90 ∨ 97 ≤ x.toNat ∧ x.toNat ≤ 122) ∨ 48 ≤ x.toNat ∧ x.toNat ≤ 57 := by
  apply u8; decide +kernel

theorem alnum_low (hC : C.Ascii) {x : UInt8} (h : x.toNat < 128) : C.alnum x.toNat = isWordByte x := by
  rw [Bool.eq_iff_iff, word_nat, Cfg.alnum, Bool.or_eq_true, Bool.or_eq_true, hC.1 _ h, hC.2 _ h, beq_iff_eq]
  tauto

theorem alnumAt_of_word (hC : C.Ascii) {s : Str} (h : WordAt s) : C.alnumAt s = true := by
  obtain ⟨x, t, rfl, hx⟩ := h
  have hl := word_low x hx
  simp [Cfg.alnumAt, decode_low hl, alnum_low hC hl, hx]

theorem not_word (hC : C.Ascii) {s : Str} (h : C.alnumAt s = false) : ¬WordAt s := by
  intro hw; rw [alnumAt_of_word hC hw] at h; cases h

theorem alnumAt_ne {s : Str} (h : C.alnumAt s = true) : s ≠ [] := by
  rintro rfl; simp [Cfg.alnumAt] at h

theorem spanN_spec (hC : C.Ascii) : ∀ (n : Nat) (s : Str), s.length ≤ n →
    s = (C.spanN n s).1 ++ (C.spanN n s).2 ∧ C.alnumAt (C.spanN n s).2 = false ∧
    (∀ x ∈ (C.spanN n s).1, x.toNat < 128 → isWordByte x = true) ∧
    (C.alnumAt s = true → (C.spanN n s).1 ≠ [])
  | 0, s, h => by
    have : s = [] := List.length_eq_zero_iff.mp (by omega)
    subst this; simp [Cfg.spanN, Cfg.alnumAt]
  | n + 1, s, h => by
    rw [Cfg.spanN]
    by_cases ha : C.alnumAt s = true
    · rw [if_pos ha]
      have hne := alnumAt_ne ha
      obtain ⟨hw1, hw2⟩ := Utf8.decode_width s hne
      obtain ⟨i1, i2, i3, -⟩ := spanN_spec hC n (s.drop (Utf8.decode s).2) (by rw [List.length_drop]; omega)
      dsimp only
      refine ⟨?_, i2, ?_, ?_⟩
      · rw [List.append_assoc, ← i1, List.take_append_drop]
      · intro x hx hl
        rcases List.mem_append.mp hx with hx | hx
        · cases s with
          | nil => exact absurd rfl hne
          | cons c t =>
            by_cases hc : c.toNat < 128
            · rw [decode_low hc] at hx
              have : x = c := by simpa using hx
              subst this
              rw [Cfg.alnumAt, decode_low hc, alnum_low hC hc] at ha
              simpa using ha
            · have := (decode_high (c := c) (by omega) t).2 x hx
              omega
        · exact i3 x hx hl
      · intro _ hnil
        have : s.take (Utf8.decode s).2 = [] := (List.append_eq_nil_iff.mp hnil).1
        have h2 : (s.take (Utf8.decode s).2).length = 0 := by rw [this]; rfl
        rw [List.length_take] at h2; omega
    · rw [if_neg ha]
      simp only [Bool.not_eq_true] at ha
      exact ⟨rfl, ha, by simp, by simp [ha]⟩

theorem span_spec (hC : C.Ascii) (s : Str) :
    s = (C.span s).1 ++ (C.span s).2 ∧ C.alnumAt (C.span s).2 = false ∧
    (∀ x ∈ (C.span s).1, x.toNat < 128 → isWordByte x = true) ∧
    (C.alnumAt s = true → (C.span s).1 ≠ []) := spanN_spec hC _ _ (Nat.le_refl _)

theorem hasPrefix_iff {s p : Str} : GoStr.hasPrefix s p = true ↔ ∃ t, s = p ++ t := by
  rw [GoStr.hasPrefix, List.isPrefixOf_iff_prefix]
  exact ⟨fun ⟨t, h⟩ => ⟨t, h.symm⟩, fun ⟨t, h⟩ => ⟨t, h.symm⟩⟩

theorem cut_spec {sub : Str} : ∀ {s a b : Str}, cut sub s = some (a, b) → s = a ++ sub ++ b
  | [], a, b, h => by
    rw [cut] at h
    split at h
    · next hs => subst hs; cases h; rfl
    · cases h
  | c :: s, a, b, h => by
    rw [cut] at h
    split at h
    · next hp =>
      obtain ⟨t, ht⟩ := hasPrefix_iff.mp hp
      cases h
      rw [ht]; simp
    · cases hc : cut sub s with
      | none => rw [hc] at h; cases h
      | some r =>
        rw [hc] at h; cases h
        have := cut_spec (a := r.1) (b := r.2) hc
        conv => lhs; rw [this]
        rfl

theorem space_plain : ∀ c : UInt8, isSpace c = true → isWordByte c = false := by
  apply u8; decide +kernel

theorem leftTrim_spec {s : Str} (h : leftTrim s = true) : ∃ c t, s = 45 :: c :: t ∧ isSpace c = true := by
  unfold leftTrim at h
  split at h
  · exact ⟨_, _, rfl, h⟩
  · cases h

/-- What an item is made of: a part of the text that, inside an action, ends or is followed by something
that is not part of a word. -/
structure Step (C : Cfg) (l : Lx) (i : Item) (l' : Lx) : Prop where
  split : ∃ mid, l.rest = mid ++ l'.rest ∧ (l'.inside = true → EndsPlain mid ∨ ¬WordAt l'.rest) ∧
    ∀ w k, i.tok = .ident w k → mid = w ∧ k = C.has w ∧ (keyword w = none ∨ k = true) ∧
      (∀ x ∈ w, x.toNat < 128 → isWordByte x = true) ∧ (∃ c t, w = c :: t ∧ (c.toNat < 128 → isIdentStart c = true)) ∧
      (EndsPlain w ∨ ¬WordAt l'.rest)

theorem step_nil {l l' : Lx} {i : Item} (hi : ∀ w k, i.tok ≠ .ident w k) (h : l'.rest = []) : Step C l i l' :=
  ⟨l.rest, by rw [h]; simp, fun _ => .inr (by rw [h]; rintro ⟨x, t, h, -⟩; cases h), fun w k h => absurd h (hi w k)⟩

theorem step_plain {l l' : Lx} {i : Item} (a : Str) (x : UInt8) (hi : ∀ w k, i.tok ≠ .ident w k)
    (h : l.rest = a ++ [x] ++ l'.rest) (hx : isWordByte x = false) : Step C l i l' :=
  ⟨a ++ [x], h, fun _ => .inl ⟨a, x, rfl, hx⟩, fun w k h => absurd h (hi w k)⟩

theorem step_out {l l' : Lx} {i : Item} (a : Str) (hi : ∀ w k, i.tok ≠ .ident w k)
    (h : l.rest = a ++ l'.rest) (hx : l'.inside = false) : Step C l i l' :=
  ⟨a, h, fun h => by (rw [hx] at h; cases h), fun w k h => absurd h (hi w k)⟩

theorem step_end {l l' : Lx} {i : Item} (a : Str) (hi : ∀ w k, i.tok ≠ .ident w k)
    (h : l.rest = a ++ l'.rest) (hx : ¬WordAt l'.rest) : Step C l i l' :=
  ⟨a, h, fun _ => .inr hx, fun w k h => absurd h (hi w k)⟩

theorem step_fail (l : Lx) : Step C l l.fail.1 l.fail.2 := step_nil (by intro w k h; cases h) rfl

theorem atRight_spec {s : Str} {b : Bool} (h : C.atRight s = some b) :
    ∃ m t, s = m ++ C.right ++ t ∧ m = (if b then s.take 2 else []) ∧ (b = true → m.length = 2) := by
  unfold Cfg.atRight at h
  split at h
  · next hc =>
    cases h
    rw [Bool.and_eq_true] at hc
    obtain ⟨t, ht⟩ := hasPrefix_iff.mp hc.2
    refine ⟨s.take 2, t, ?_, by simp, ?_⟩
    · rw [List.append_assoc, ← ht, List.take_append_drop]
    · intro _
      have := hc.1
      unfold rightTrim at this
      split at this
      · simp
      · cases this
  · split at h
    · next hp =>
      cases h
      obtain ⟨t, ht⟩ := hasPrefix_iff.mp hp
      exact ⟨[], t, by simpa using ht, by simp, by simp⟩
    · cases h

theorem takeDrop (p : UInt8 → Bool) (s : Str) : s.drop (s.takeWhile p).length = s.dropWhile p := by
  conv => lhs; rw [← List.takeWhile_append_dropWhile (p := p) (l := s)]
  rw [List.takeWhile_append_dropWhile (p := p) (l := s)]
  have : s.takeWhile p ++ s.dropWhile p = s := List.takeWhile_append_dropWhile
  conv => lhs; arg 2; rw [← this]
  rw [List.drop_left]

theorem step_right (l : Lx) (b : Bool) : Step C l (C.lexRight l b).1 (C.lexRight l b).2 := by
  refine step_out (upto l.rest (C.lexRight l b).2.rest) (by intro w k h; cases h) ?_ rfl
  have hs : ∃ k, (C.lexRight l b).2.rest = l.rest.drop k := by
    simp only [Cfg.lexRight, List.drop_drop]
    exact ⟨_, rfl⟩
  obtain ⟨k, hk⟩ := hs
  rw [hk, upto, List.length_drop]
  by_cases hle : k ≤ l.rest.length
  · rw [show l.rest.length - (l.rest.length - k) = k by omega, List.take_append_drop]
  · rw [List.drop_eq_nil_of_le (by omega), show l.rest.length - (l.rest.length - k) = l.rest.length by omega]
    simp

theorem suffix_split {s t : Str} (h : t <:+ s) : ∃ a, s = a ++ t := ⟨h.choose, h.choose_spec.symm⟩

theorem opening_spec (s : Str) : s = (opening s).1 ++ (opening s).2 ∧ ((opening s).1 = [] ∨ EndsPlain (opening s).1) := by
  unfold opening
  split
  · next h =>
    obtain ⟨c, t, rfl, hc⟩ := leftTrim_spec h
    exact ⟨by simp, .inr ⟨[45], c, rfl, space_plain c hc⟩⟩
  · exact ⟨rfl, .inl rfl⟩

theorem comment_suffix {s r : Str} {line line' : Nat} (h : C.comment s line = some (r, line')) : r <:+ s := by
  unfold Cfg.comment at h
  split at h
  · cases h
  · next text rest hc =>
    have hs := cut_spec hc
    have h0 : rest <:+ s := ⟨_, hs.symm⟩
    split at h
    · cases h
    · cases h; exact (List.drop_suffix _ _).trans h0
    · cases h; exact (List.dropWhile_suffix _).trans ((List.drop_suffix _ _).trans h0)

theorem step_text (hl : EndsPlain C.left) : ∀ (n : Nat) (l : Lx), l.inside = false →
    Step C l (C.lexText n l).1 (C.lexText n l).2 ∧ ∀ w k, (C.lexText n l).1.tok ≠ .ident w k
  | 0, l, _ => ⟨step_fail l, by intro w k h; cases h⟩
  | n + 1, l, hin => by
    rw [Cfg.lexText]
    cases hc : cut C.left l.rest with
    | none =>
      dsimp only
      by_cases h : l.rest = []
      · rw [if_pos h]; exact ⟨step_out [] (by intro w k h; cases h) rfl hin, by intro w k h; cases h⟩
      · rw [if_neg h]; exact ⟨step_nil (by intro w k h; cases h) rfl, by intro w k h; cases h⟩
    | some ba =>
      obtain ⟨before, after⟩ := ba
      have hr := cut_spec hc
      obtain ⟨ho1, ho2⟩ := opening_spec after
      dsimp only
      generalize (if leftTrim after = true then trimEnd before else before) = text
      by_cases ht : text ≠ []
      · rw [if_pos ht]
        exact ⟨step_out before (by intro w k h; cases h) (by rw [hr]; simp) hin, by intro w k h; cases h⟩
      · rw [if_neg ht]
        by_cases hp : GoStr.hasPrefix (opening after).2 b!"/*" = true
        · rw [if_pos hp]
          cases hcm : C.comment ((opening after).2.drop 2) (l.line + newlines before + newlines C.left + newlines (opening after).1) with
          | none => exact ⟨step_fail l, by intro w k h; cases h⟩
          | some rl =>
            obtain ⟨rest, line⟩ := rl
            dsimp only
            obtain ⟨⟨mid, h1, h2, h3⟩, h4⟩ := step_text hl n { l with rest, line } hin
            have hsuf : rest <:+ l.rest := by
              refine (comment_suffix hcm).trans ((List.drop_suffix _ _).trans ?_)
              exact ⟨before ++ C.left ++ (opening after).1, by rw [hr, List.append_assoc, ← ho1]⟩
            obtain ⟨a, ha⟩ := suffix_split hsuf
            refine ⟨⟨a ++ mid, ?_, ?_, fun w k h => absurd h (h4 w k)⟩, h4⟩
            · rw [ha, List.append_assoc, ← h1]
            · intro hi
              rcases h2 hi with ⟨b, x, hb, hx⟩ | h
              · exact .inl ⟨a ++ b, x, by rw [hb]; simp, hx⟩
              · exact .inr h
        · rw [if_neg hp]
          refine ⟨⟨before ++ C.left ++ (opening after).1, ?_, ?_, by intro w k h; cases h⟩, by intro w k h; cases h⟩
          · rw [hr, List.append_assoc]; dsimp only; rw [List.append_assoc, ← ho1]; simp
          · intro _
            left
            rcases ho2 with ho2 | ⟨a, x, ha, hx⟩
            · obtain ⟨a, x, ha, hx⟩ := hl
              exact ⟨before ++ a, x, by rw [ho2, ha]; simp, hx⟩
            · exact ⟨before ++ C.left ++ a, x, by rw [ha]; simp, hx⟩

/-! ## Inside an action -/

theorem upto_append {s r : Str} (h : r <:+ s) : upto s r ++ r = s := by
  obtain ⟨a, rfl⟩ := h
  simp [upto]

theorem accept_suffix {p : UInt8 → Bool} {s r : Str} (h : accept p s = some r) : r <:+ s := by
  unfold accept at h
  split at h
  · split at h
    · cases h; exact List.suffix_cons _ _
    · cases h
  · cases h

theorem acceptD_suffix (p : UInt8 → Bool) (s : Str) : (accept p s).getD s <:+ s := by
  cases h : accept p s with
  | none => exact List.suffix_rfl
  | some r => exact accept_suffix h

theorem scanBase_suffix (s : Str) : (scanBase s).2 <:+ s := by
  unfold scanBase
  split
  · exact List.suffix_rfl
  · next r h =>
    have h0 := accept_suffix h
    split
    · next h1 => exact (accept_suffix h1).trans h0
    · split
      · next h1 => exact (accept_suffix h1).trans h0
      · split
        · next h1 => exact (accept_suffix h1).trans h0
        · exact h0

theorem scanExp_suffix (a b : UInt8) (s : Str) : scanExp a b s <:+ s := by
  unfold scanExp
  split
  · exact List.suffix_rfl
  · next r h => exact (List.dropWhile_suffix _).trans ((acceptD_suffix _ _).trans (accept_suffix h))

theorem frac_suffix (base : Nat) (s : Str) : (match accept (· == 46) s with
    | some r => r.dropWhile (digitOf base)
    | none => s) <:+ s := by
  split
  · next r h => exact (List.dropWhile_suffix _).trans (accept_suffix h)
  · exact List.suffix_rfl

theorem ite_exp_suffix (c : Prop) [Decidable c] (a b : UInt8) (s : Str) : (if c then scanExp a b s else s) <:+ s := by
  split
  · exact scanExp_suffix a b s
  · exact List.suffix_rfl

theorem numEnd_suffix (s : Str) : numEnd s <:+ s := by
  unfold numEnd
  refine (acceptD_suffix _ _).trans ((ite_exp_suffix _ _ _ _).trans ((ite_exp_suffix _ _ _ _).trans ?_))
  exact (frac_suffix _ _).trans ((List.dropWhile_suffix _).trans ((scanBase_suffix _).trans (acceptD_suffix _ _)))

theorem scanNumber_spec {s r : Str} (h : C.scanNumber s = some r) : r <:+ s ∧ C.alnumAt r = false := by
  unfold Cfg.scanNumber at h
  split at h
  · cases h
  · next ha =>
    cases h
    exact ⟨numEnd_suffix s, by simpa using ha⟩

theorem step_emit {l : Lx} {t : Tok} {r : Str} (ht : ∀ w k, t ≠ .ident w k) (h : r <:+ l.rest) (hw : ¬WordAt r) :
    Step C l (l.emit t r).1 (l.emit t r).2 := by
  obtain ⟨a, ha⟩ := suffix_split h
  exact step_end a ht ha hw

theorem step_number (hC : C.Ascii) (l : Lx) : Step C l (C.lexNumber l).1 (C.lexNumber l).2 := by
  unfold Cfg.lexNumber
  split
  · exact step_fail l
  · next s hs =>
    obtain ⟨h1, h2⟩ := scanNumber_spec hs
    split
    · next c t =>
      split
      · split
        · exact step_fail l
        · next s' hs' =>
          obtain ⟨h3, h4⟩ := scanNumber_spec hs'
          split
          · exact step_emit (by intro w k h; cases h) (h3.trans h1) (not_word hC h4)
          · exact step_fail l
      · exact step_emit (by intro w k h; cases h) h1 (not_word hC h2)
    · exact step_nil (by intro w k h; cases h) rfl

theorem scanQuote_spec (q : UInt8) : ∀ (s : Str) {r : Str}, scanQuote q s = some r → ∃ a, s = a ++ [q] ++ r
  | [], r, h => by rw [scanQuote] at h; cases h
  | c :: s, r, h => by
    unfold scanQuote at h
    split at h
    · cases h
    · next c' s' heq =>
      cases heq
      split at h
      · cases h
      · obtain ⟨a, ha⟩ := scanQuote_spec q s' h
        exact ⟨92 :: c' :: a, by rw [ha]; simp⟩
    · next c' s' hne heq =>
      cases heq
      split at h
      · cases h
      · split at h
        · next hq => cases h; exact ⟨[], by rw [hq]; rfl⟩
        · obtain ⟨a, ha⟩ := scanQuote_spec q s h
          exact ⟨c :: a, by rw [ha]; simp⟩

theorem scanRaw_spec : ∀ (s : Str) {r : Str}, scanRaw s = some r → ∃ a, s = a ++ [96] ++ r
  | [], r, h => by rw [scanRaw] at h; cases h
  | c :: s, r, h => by
    rw [scanRaw] at h
    split at h
    · next hq => cases h; exact ⟨[], by rw [hq]; rfl⟩
    · obtain ⟨a, ha⟩ := scanRaw_spec s h
      exact ⟨c :: a, by rw [ha]; simp⟩

theorem step_name (hC : C.Ascii) (l : Lx) (d : UInt8) (hd : isWordByte d = false) (s : Str) (hs : l.rest = d :: s)
    (single : Tok) (named : Str → Tok) (h1 : ∀ w k, single ≠ .ident w k) (h2 : ∀ n w k, named n ≠ .ident w k) :
    Step C l (C.lexName l s single named).1 (C.lexName l s single named).2 := by
  unfold Cfg.lexName
  split
  · exact step_plain [] d h1 hs hd
  · obtain ⟨s1, s2, -, -⟩ := span_spec hC s
    dsimp only
    split
    · refine step_emit (h2 _) ?_ (not_word hC s2)
      rw [hs]
      exact List.IsSuffix.trans ⟨_, s1.symm⟩ (List.suffix_cons _ _)
    · exact step_fail l

theorem word_ident {w n : Str} {k : Bool} (h : C.word w = .ident n k) :
    n = w ∧ k = C.has w ∧ (keyword w = none ∨ k = true) := by
  unfold Cfg.word at h
  split at h
  · next hk =>
    split at h
    · next hb =>
      cases h
      have : w = b!"break" := by
        unfold keyword at hk
        repeat (split at hk; first | assumption | cases hk)
        cases hk
      exact ⟨rfl, by rw [this, hb], .inr rfl⟩
    · cases h
  · next hk =>
    split at h
    · next hb =>
      cases h
      have : w = b!"continue" := by
        unfold keyword at hk
        repeat (split at hk; first | assumption | cases hk)
        cases hk
      exact ⟨rfl, by rw [this, hb], .inr rfl⟩
    · cases h
  · cases h
  · next hk =>
    split at h
    · cases h
    · split at h
      · cases h
      · cases h; exact ⟨rfl, rfl, .inl hk⟩

theorem step_ident (hC : C.Ascii) (l : Lx) (ha : C.alnumAt l.rest = true)
    (hd : ∀ c s, l.rest = c :: s → ¬(48 ≤ c ∧ c ≤ 57)) : Step C l (C.lexIdent l).1 (C.lexIdent l).2 := by
  obtain ⟨s1, s2, s3, s4⟩ := span_spec hC l.rest
  unfold Cfg.lexIdent
  dsimp only
  split
  · refine ⟨(C.span l.rest).1, s1, fun _ => .inr (not_word hC s2), ?_⟩
    intro w k hw
    obtain ⟨rfl, h2, h3⟩ := word_ident hw
    refine ⟨rfl, h2, h3, s3, ?_, .inr (not_word hC s2)⟩
    cases hw : (C.span l.rest).1 with
    | nil => exact absurd hw (s4 ha)
    | cons c t =>
      refine ⟨c, t, rfl, fun hc => ?_⟩
      have h5 := s3 c (by rw [hw]; simp) hc
      have h7 : l.rest = c :: (t ++ (C.span l.rest).2) := by
        have := s1
        rw [hw] at this
        exact this
      have h6 := hd c _ h7
      simp only [isWordByte, Bool.or_eq_true, Bool.and_eq_true, decide_eq_true_eq] at h5
      tauto
  · exact step_fail l

theorem takeWhile_all (p : UInt8 → Bool) (s : Str) : ∀ x ∈ s.takeWhile p, p x = true := fun _ h => List.mem_takeWhile_imp h

theorem spaces_plain {a : Str} (h : ∀ x ∈ a, isSpace x = true) (hne : a ≠ []) : EndsPlain a := by
  refine ⟨a.dropLast, a.getLast hne, (List.dropLast_append_getLast hne).symm, space_plain _ (h _ (List.getLast_mem hne))⟩

theorem step_spaces {l l' : Lx} {i : Item} (a : Str) (hi : ∀ w k, i.tok ≠ .ident w k)
    (h : l.rest = a ++ l'.rest) (ha : ∀ x ∈ a, isSpace x = true) (hne : a ≠ []) : Step C l i l' :=
  ⟨a, h, fun _ => .inl (spaces_plain ha hne), fun w k h => absurd h (hi w k)⟩

theorem step_space (l : Lx) (c : UInt8) (s : Str) (hs : l.rest = c :: s) (hc : isSpace c = true) :
    Step C l (C.lexSpace l).1 (C.lexSpace l).2 := by
  have hsp : l.rest.takeWhile isSpace ++ l.rest.dropWhile isSpace = l.rest := List.takeWhile_append_dropWhile
  have hall := takeWhile_all isSpace l.rest
  have hne : l.rest.takeWhile isSpace ≠ [] := by rw [hs, List.takeWhile_cons, if_pos hc]; simp
  unfold Cfg.lexSpace
  dsimp only
  generalize C.marked (l.rest.dropWhile isSpace) = marked
  cases marked with
  | false => exact step_spaces _ (by intro w k h; cases h) hsp.symm hall hne
  | true =>
    rw [if_pos rfl]
    by_cases h1 : (l.rest.takeWhile isSpace).length = 1
    · rw [if_pos h1]; exact step_right l true
    · rw [if_neg h1]
      generalize hk : l.rest.takeWhile isSpace = sp at *
      have hlen : 2 ≤ sp.length := by
        have : sp.length ≠ 0 := fun h => hne (List.length_eq_zero_iff.mp h)
        omega
      refine step_spaces (sp.take (sp.length - 1)) (by intro w k h; cases h) ?_ (fun x hx => hall x (List.mem_of_mem_take hx)) ?_
      · dsimp only
        have : l.rest.take (sp.length - 1) = sp.take (sp.length - 1) := by
          conv => lhs; rw [← hsp]
          rw [List.take_append_of_le_length (by omega)]
        rw [← this, List.take_append_drop]
      · intro h
        have := congrArg List.length h
        rw [List.length_take, List.length_nil] at this
        omega

theorem step_one {l : Lx} {l' : Lx} {i : Item} {c : UInt8} {s : Str} (hs : l.rest = c :: s) (hi : ∀ w k, i.tok ≠ .ident w k)
    (h : l'.rest = s) (hc : isWordByte c = false) : Step C l i l' :=
  step_plain [] c hi (by rw [hs, h]; rfl) hc

theorem step_ite {l : Lx} {c : Prop} [Decidable c] {a b : Item × Lx} (h1 : c → Step C l a.1 a.2) (h2 : ¬c → Step C l b.1 b.2) :
    Step C l (if c then a else b).1 (if c then a else b).2 := by
  by_cases h : c
  · rw [if_pos h]; exact h1 h
  · rw [if_neg h]; exact h2 h

theorem step_inside (hC : C.Ascii) (l : Lx) : Step C l (C.lexInside l).1 (C.lexInside l).2 := by
  unfold Cfg.lexInside
  split
  · split
    · exact step_right l _
    · exact step_fail l
  · split
    · exact step_fail l
    · next c s hs =>
      refine step_ite (fun hc => step_space l c s hs hc) fun _ => ?_
      refine step_ite (fun h => ?_) fun _ => ?_
      · subst h; exact step_one hs (by intro w k h; cases h) rfl rfl
      refine step_ite (fun h => ?_) fun _ => ?_
      · subst h
        split
        · next s' => exact step_plain [58] 61 (by intro w k h; cases h) hs rfl
        · exact step_fail l
      refine step_ite (fun h => ?_) fun _ => ?_
      · subst h; exact step_one hs (by intro w k h; cases h) rfl rfl
      refine step_ite (fun h => ?_) fun _ => ?_
      · subst h
        split
        · next r hr =>
          obtain ⟨a, ha⟩ := scanQuote_spec _ _ hr
          exact step_plain (34 :: a) 34 (by intro w k h; cases h) (by rw [hs, ha]; rfl) rfl
        · exact step_fail l
      refine step_ite (fun h => ?_) fun _ => ?_
      · subst h
        split
        · next r hr =>
          obtain ⟨a, ha⟩ := scanRaw_spec _ hr
          exact step_plain (96 :: a) 96 (by intro w k h; cases h) (by rw [hs, ha]; rfl) rfl
        · exact step_fail l
      refine step_ite (fun h => ?_) fun _ => ?_
      · subst h
        exact step_name hC l 36 rfl s hs _ _ (by intro w k h; cases h) (by intro n w k h; cases h)
      refine step_ite (fun h => ?_) fun _ => ?_
      · subst h
        split
        · next r hr =>
          obtain ⟨a, ha⟩ := scanQuote_spec _ _ hr
          exact step_plain (39 :: a) 39 (by intro w k h; cases h) (by rw [hs, ha]; rfl) rfl
        · exact step_fail l
      refine step_ite (fun h => ?_) fun _ => ?_
      · subst h
        split
        · exact step_ite (fun _ => step_number hC l)
            fun _ => step_name hC l 46 rfl _ hs _ _ (by intro w k h; cases h) (by intro n w k h; cases h)
        · exact step_number hC l
      refine step_ite (fun _ => step_number hC l) fun hn => ?_
      refine step_ite (fun ha => ?_) fun ha => ?_
      · refine step_ident hC l ha ?_
        intro c' s' h' hd
        rw [hs] at h'
        cases h'
        exact hn (.inr (.inr hd))
      have hw : isWordByte c = false := by
        rw [Bool.eq_false_iff]
        intro hw
        exact ha (alnumAt_of_word hC ⟨c, s, hs, hw⟩)
      refine step_ite (fun _ => step_one hs (by intro w k h; cases h) rfl hw) fun _ => ?_
      refine step_ite (fun _ => ?_) fun _ => ?_
      · exact step_ite (fun _ => step_fail l) fun _ => step_one hs (by intro w k h; cases h) rfl hw
      exact step_ite (fun _ => step_one hs (by intro w k h; cases h) rfl hw) fun _ => step_fail l

theorem step_next (hC : C.Ascii) (hl : EndsPlain C.left) (l : Lx) : Step C l (C.next l).1 (C.next l).2 := by
  unfold Cfg.next
  split
  · exact step_inside hC l
  · next h => exact (step_text hl _ l (by simpa using h)).1

/-- The text before is no part of a word that goes on. -/
def Clear (pre : Str) (l : Lx) : Prop := l.inside = true → EndsPlain pre ∨ ¬WordAt l.rest

/-- The identifier is there in the text, and is no part of a longer word. -/
structure Found (C : Cfg) (src w : Str) (k : Bool) : Prop where
  known : k = C.has w
  free : keyword w = none ∨ k = true
  bytes : ∀ x ∈ w, x.toNat < 128 → isWordByte x = true
  first : ∃ c t, w = c :: t ∧ (c.toNat < 128 → isIdentStart c = true)
  place : ∃ a b, src = a ++ w ++ b ∧ (EndsPlain a ∨ ¬WordAt w) ∧ (EndsPlain w ∨ ¬WordAt b)

theorem next_ident (hl : EndsPlain C.left) {l : Lx} {w : Str} {k : Bool} (h : (C.next l).1.tok = .ident w k) : l.inside = true := by
  by_contra hc
  have hc : l.inside = false := by simpa using hc
  rw [Cfg.next, hc] at h
  exact (step_text hl _ l hc).2 w k h

theorem lexIdent_inside (l : Lx) : (C.lexIdent l).2.inside = l.inside := by
  unfold Cfg.lexIdent; dsimp only; split <;> rfl

theorem clear_after {pre mid : Str} {l l' : Lx} (h : l.rest = mid ++ l'.rest)
    (hin : l'.inside = true → EndsPlain mid ∨ ¬WordAt l'.rest) : Clear (pre ++ mid) l' := by
  intro hi
  rcases hin hi with ⟨a, x, rfl, hx⟩ | h
  · exact .inl ⟨pre ++ a, x, by simp, hx⟩
  · exact .inr h

/-- Where the identifiers of a text are. -/
theorem itemsN_ident (hC : C.Ascii) (hl : EndsPlain C.left) : ∀ (n : Nat) (pre : Str) (l : Lx), Clear pre l →
    ∀ i ∈ C.itemsN n l, ∀ w k, i.tok = .ident w k → Found C (pre ++ l.rest) w k
  | 0, _, _, _, i, hi => by rw [Cfg.itemsN] at hi; cases hi
  | n + 1, pre, l, hclear, i, hi => by
    intro w k hw
    obtain ⟨mid, hm, hin, hid⟩ := step_next hC hl l
    have hfirst : ∀ w k, (C.next l).1.tok = .ident w k → Found C (pre ++ l.rest) w k := by
      intro w k h
      obtain ⟨rfl, h2, h3, h4, h5, h6⟩ := hid w k h
      have hi := next_ident hl h
      refine ⟨h2, h3, h4, h5, pre, (C.next l).2.rest, by rw [hm]; simp, ?_, h6⟩
      rcases hclear hi with hp | hp
      · exact .inl hp
      · right
        rintro ⟨x, t, rfl, hx⟩
        exact hp ⟨x, t ++ (C.next l).2.rest, by rw [hm]; rfl, hx⟩
    rw [Cfg.itemsN] at hi
    dsimp only at hi
    split at hi
    · have : i = (C.next l).1 := by simpa using hi
      subst this
      exact hfirst w k hw
    · rcases List.mem_cons.mp hi with rfl | hi
      · exact hfirst w k hw
      · have := itemsN_ident hC hl n (pre ++ mid) (C.next l).2 (clear_after hm hin) i hi w k hw
        rw [hm, ← List.append_assoc]
        exact this

theorem items_ident (hC : C.Ascii) (hl : EndsPlain C.left) {src : Str} {i : Item} (hi : i ∈ C.items src)
    {w : Str} {k : Bool} (hw : i.tok = .ident w k) : Found C src w k :=
  itemsN_ident hC hl _ [] { rest := src } (by intro h; cases h) i hi w k hw

end Verif.Tmpl
