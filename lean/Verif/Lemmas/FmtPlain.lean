import Verif.Lemmas.Utf8
import Verif.Lemmas.Fmt
/-! # The directive loop without arguments -/
namespace Verif.Fmt
open Verif

theorem flagsLoop_suffix (s : Str) (o : Opts) : (flagsLoop o s).2 <:+ s := by
  induction s generalizing o with
  | nil => exact List.suffix_rfl
  | cons c s ih =>
    unfold flagsLoop
    repeat' split
    all_goals first | exact (ih _).trans (List.suffix_cons _ _) | exact List.suffix_rfl

theorem parsenum_suffix (s : Str) (n : Nat) (b : Bool) : (parsenum n b s).2 <:+ s := by
  induction s generalizing n b with
  | nil => exact List.suffix_rfl
  | cons c s ih =>
    unfold parsenum
    repeat' split
    all_goals first
      | exact List.nil_suffix
      | exact (ih _ _).trans (List.suffix_cons _ _)
      | exact List.suffix_rfl

theorem splitClose_suffix (t b r : Str) (h : splitClose t = some (b, r)) : r <:+ t := by
  induction t generalizing b r with
  | nil => cases h
  | cons c t ih =>
    unfold splitClose at h
    split at h
    · cases h; exact List.suffix_cons _ _
    · cases hs : splitClose t with
      | none => rw [hs] at h; cases h
      | some p =>
        rw [hs] at h
        simp only [Option.map_some, Option.some.injEq, Prod.mk.injEq] at h
        obtain ⟨-, rfl⟩ := h
        exact (ih p.1 p.2 hs).trans (List.suffix_cons _ _)

theorem parseArgNumber_suffix (t : Str) : (parseArgNumber t).2 <:+ t := by
  unfold parseArgNumber
  split
  · exact List.suffix_rfl
  · split
    · exact List.suffix_rfl
    · rename_i b r h
      have := splitClose_suffix _ _ _ h
      split <;> exact this

theorem argNumber_suffix (n : Nat) (st : St) (s : Str) : (argNumber n st s).2 <:+ s := by
  unfold argNumber
  split
  · rename_i t
    have h := parseArgNumber_suffix t
    split
    · rename_i m r e
      rw [e] at h
      split <;> exact h.trans (List.suffix_cons _ _)
    · rename_i r e
      rw [e] at h
      exact h.trans (List.suffix_cons _ _)
  · exact List.suffix_rfl

section
variable {α : Type} (E : Env α)

theorem widthPart_nil (o : Opts) (st : St) (s : Str) :
    (widthPart E [] o st s).2.2.2 <:+ s ∧
      ((widthPart E [] o st s).1 = [] ∨ (widthPart E [] o st s).1 = [.badWidth]) := by
  unfold widthPart
  split
  · exact ⟨List.suffix_cons _ _, .inr rfl⟩
  · exact ⟨parsenum_suffix _ _ _, .inl rfl⟩

theorem precPart_nil (o : Opts) (st : St) (s : Str) :
    (precPart E [] o st s).2.2.2 <:+ s ∧
      ((precPart E [] o st s).1 = [] ∨ (precPart E [] o st s).1 = [.badPrec]) := by
  unfold precPart
  split
  · rename_i r
    dsimp only
    have h := argNumber_suffix (([] : List α).length) (if st.after then { st with good := false } else st) r
    generalize argNumber _ _ r = q at h ⊢
    obtain ⟨st', r'⟩ := q
    dsimp only at h ⊢
    split
    · rename_i _ r2
      exact ⟨(List.suffix_cons _ _).trans (h.trans (List.suffix_cons _ _)), .inr rfl⟩
    · exact ⟨(parsenum_suffix _ _ _).trans (h.trans (List.suffix_cons _ _)), .inl rfl⟩
  · exact ⟨List.suffix_rfl, .inl rfl⟩

theorem encode_no_percent (r : Nat) (h : r ≠ 37) : (37 : UInt8) ∉ Utf8.encode r := by
  unfold Utf8.encode
  have key : ∀ n : Nat, 128 ≤ n → n < 256 → (37 : UInt8) ≠ UInt8.ofNat n := by
    intro n h1 h2 h3
    have := congrArg UInt8.toNat h3
    simp at this; omega
  repeat' split
  · rename_i hr
    simp only [List.mem_singleton]
    intro h3
    have := congrArg UInt8.toNat h3
    simp at this; omega
  · simp only [List.mem_cons, List.not_mem_nil, or_false, not_or]
    refine ⟨key _ (by omega) (by omega), key _ (by omega) (by omega)⟩
  · decide
  · simp only [List.mem_cons, List.not_mem_nil, or_false, not_or]
    refine ⟨key _ (by omega) (by omega), key _ (by omega) (by omega), key _ (by omega) (by omega)⟩
  · rename_i h1 h2 h3 h4
    have : r < 0x110000 := by
      unfold Utf8.validRune at h3
      simp at h3; omega
    simp only [List.mem_cons, List.not_mem_nil, or_false, not_or]
    refine ⟨key _ (by omega) (by omega), key _ (by omega) (by omega), key _ (by omega) (by omega), key _ (by omega) (by omega)⟩

/-- What a directive writes if there are no arguments, behind the first byte. -/
structure Tail (d' : Str) : Prop where
  head : d' = [] ∨ ∃ w, d' = 33 :: w
  inner : ∀ u w, d' = u ++ 37 :: w → w = [] ∨ ∃ w', w = 33 :: w'

theorem append_percent (x y u w : Str) (hx : (37 : UInt8) ∉ x) (h : x ++ y = u ++ 37 :: w) :
    ∃ u', u = x ++ u' ∧ y = u' ++ 37 :: w := by
  rcases List.append_eq_append_iff.1 h with ⟨a, h1, h2⟩ | ⟨a, h1, h2⟩
  · exact ⟨a, h1, h2⟩
  · cases a with
    | nil => exact ⟨[], by simpa using h1.symm, by simpa using h2.symm⟩
    | cons c a =>
      simp only [List.cons_append, List.cons.injEq] at h2
      exact absurd (by rw [h1, ← h2.1]; simp) hx

theorem tail_plain (x : Str) (hx : (37 : UInt8) ∉ x) : Tail (33 :: x) := by
  refine ⟨.inr ⟨x, rfl⟩, fun u w h => ?_⟩
  have : (37 : UInt8) ∈ (33 :: x) := by rw [h]; simp
  rcases List.mem_cons.1 this with h | h
  · exact absurd h (by decide)
  · exact absurd h hx

theorem tail_nil : Tail [] := ⟨.inl rfl, fun u w h => by simp at h⟩

theorem tail_more (x d' : Str) (hx : (37 : UInt8) ∉ x) (h : Tail d') : Tail (33 :: x ++ 37 :: d') := by
  refine ⟨.inr ⟨_, rfl⟩, fun u w e => ?_⟩
  obtain ⟨u', rfl, e'⟩ := append_percent (33 :: x) (37 :: d') u w (by simp [hx]) e
  cases u' with
  | nil =>
    simp only [List.nil_append, List.cons.injEq, true_and] at e'
    subst e'; exact h.head
  | cons c u' =>
    simp only [List.cons_append, List.cons.injEq] at e'
    exact h.inner _ _ e'.2

/-- Text of a list of pieces. -/
abbrev texts (ps : List (Piece α)) : Str := ps.flatMap (Piece.text E)

theorem verbPart_nil (o : Opts) (st : St) (s : Str) :
    (verbPart ([] : List α) o st s).2.2 <:+ s ∧ (s ≠ [] → (verbPart ([] : List α) o st s).2.2 ≠ s) ∧
      ∃ d', texts E (verbPart ([] : List α) o st s).1 = 37 :: d' ∧ Tail d' := by
  cases s with
  | nil => exact ⟨List.suffix_rfl, fun h => absurd rfl h, b!"!(NOVERB)", rfl, tail_plain _ (by decide)⟩
  | cons c s =>
    have hs : (Utf8.decode (c :: s)).2 ≠ 0 := by
      have := (Utf8.decode_width (c :: s) (by simp)).1
      omega
    have hv : verbPart ([] : List α) o st (c :: s) =
        (let rune := (Utf8.decode (c :: s)).1
        let r := (c :: s).drop (Utf8.decode (c :: s)).2
        if rune = 37 then ([.lit 37], st, r)
        else if !st.good then ([.badIndex (Utf8.encode rune)], st, r)
        else ([.missing (Utf8.encode rune)], { st with inRange := false }, r)) := rfl
    rw [hv]
    dsimp only
    generalize hk : (Utf8.decode (c :: s)).2 = k at hs
    have hsuf : (c :: s).drop k <:+ c :: s := List.drop_suffix _ _
    have hne : (c :: s).drop k ≠ c :: s := by
      intro h
      have := congrArg List.length h
      simp at this; omega
    split
    · exact ⟨hsuf, fun _ => hne, [], rfl, tail_nil⟩
    · rename_i h37
      have hn := encode_no_percent _ h37
      split
      · exact ⟨hsuf, fun _ => hne, 33 :: (Utf8.encode (Utf8.decode (c :: s)).1 ++ b!"(BADINDEX)"), by simp [Piece.text],
          tail_plain _ (by rw [List.mem_append]; exact fun h => h.elim hn (by decide))⟩
      · exact ⟨hsuf, fun _ => hne, 33 :: (Utf8.encode (Utf8.decode (c :: s)).1 ++ b!"(MISSING)"), by simp [Piece.text],
          tail_plain _ (by rw [List.mem_append]; exact fun h => h.elim hn (by decide))⟩

/-- What a directive consumes and writes if there are no arguments. -/
theorem directive_nil (st : St) (s : Str) :
    ∃ d r d', s = d ++ r ∧ (directive E [] st s).2.2 = r ∧ texts E (directive E [] st s).1 = 37 :: d' ∧ Tail d' ∧
      (d = [] → s = []) := by
  unfold directive
  dsimp only
  have h1 := flagsLoop_suffix s {}
  generalize flagsLoop {} s = q1 at h1 ⊢
  obtain ⟨o1, s1⟩ := q1
  dsimp only at h1 ⊢
  have h2 := argNumber_suffix (([] : List α).length) { st with good := true } s1
  generalize argNumber (([] : List α).length) { st with good := true } s1 = q2 at h2 ⊢
  obtain ⟨st2, s2⟩ := q2
  dsimp only at h2 ⊢
  have h3 := widthPart_nil E o1 st2 s2
  generalize widthPart E [] o1 st2 s2 = q3 at h3 ⊢
  obtain ⟨p1, o3, st3, s3⟩ := q3
  dsimp only at h3 ⊢
  have h4 := precPart_nil E o3 st3 s3
  generalize precPart E [] o3 st3 s3 = q4 at h4 ⊢
  obtain ⟨p2, o4, st4, s4⟩ := q4
  dsimp only at h4 ⊢
  have h5 : (if st4.after then (st4, s4) else argNumber (([] : List α).length) st4 s4).2 <:+ s4 := by
    split
    · exact List.suffix_rfl
    · exact argNumber_suffix _ _ _
  generalize (if st4.after then (st4, s4) else argNumber (([] : List α).length) st4 s4) = q5 at h5 ⊢
  obtain ⟨st5, s5⟩ := q5
  dsimp only at h5 ⊢
  have h6 := verbPart_nil E o4 st5 s5
  generalize verbPart ([] : List α) o4 st5 s5 = q6 at h6 ⊢
  obtain ⟨p3, st6, r⟩ := q6
  dsimp only at h6 ⊢
  obtain ⟨h6, h7, d', h8, h9⟩ := h6
  have hall5 : s5 <:+ s := h5.trans (h4.1.trans (h3.1.trans (h2.trans h1)))
  obtain ⟨d, hd⟩ := h6.trans hall5
  have hdn : d = [] → s = [] := by
    rintro rfl
    rw [List.nil_append] at hd
    subst hd
    by_cases hs5 : s5 = []
    · subst hs5; exact List.suffix_nil.1 h6
    · have := h6.eq_of_length (Nat.le_antisymm h6.length_le hall5.length_le)
      exact absurd this (h7 hs5)
  have hp : ∃ d'', texts E (p2 ++ p3) = 37 :: d'' ∧ Tail d'' := by
    rcases h4.2 with rfl | rfl
    · exact ⟨d', by simpa [texts] using h8, h9⟩
    · refine ⟨b!"!(BADPREC)" ++ 37 :: d', ?_, tail_more b!"(BADPREC)" d' (by decide) h9⟩
      rw [texts, List.flatMap_append, show p3.flatMap (Piece.text E) = 37 :: d' from h8]; rfl
  obtain ⟨d'', h10, h11⟩ := hp
  rcases h3.2 with rfl | rfl
  · exact ⟨d, r, d'', hd.symm, rfl, by simpa [texts] using h10, h11, hdn⟩
  · refine ⟨d, r, b!"!(BADWIDTH)" ++ 37 :: d'', hd.symm, rfl, ?_, tail_more b!"(BADWIDTH)" d'' (by decide) h11, hdn⟩
    rw [List.append_assoc, texts, List.flatMap_append, show (p2 ++ p3).flatMap (Piece.text E) = 37 :: d'' from h10]; rfl

/-- The directive `%!`. -/
theorem directive_bang (st : St) (t : Str) :
    (directive E [] st (33 :: t)).2.2 = t ∧ texts E (directive E [] st (33 :: t)).1 = b!"%!!(MISSING)" := by
  constructor <;> rfl

/-- What the loop writes without arguments. -/
def out (f : Nat) (st : St) (s : Str) : Str := texts E (run E [] f st s).1

theorem out_plain (f : Nat) (st : St) (a s : Str) (ha : (37 : UInt8) ∉ a) :
    out E (f + a.length) st (a ++ s) = a ++ out E f st s := by
  induction a with
  | nil => rfl
  | cons c a ih =>
    have hc : c ≠ 37 := fun h => ha (by simp [h])
    rw [List.length_cons, ← Nat.add_assoc, List.cons_append]
    simp only [out, run, if_neg hc, texts, List.flatMap_cons, Piece.text]
    have := ih (fun h => ha (by simp [h]))
    simp only [out, texts] at this
    rw [this]; rfl

theorem out_dir (f : Nat) (st : St) (s : Str) : out E (f + 1) st (37 :: s) =
    texts E (directive E [] st s).1 ++ out E f (directive E [] st s).2.1 (directive E [] st s).2.2 := by
  simp only [out, run, if_true, texts, List.flatMap_append]

theorem out_nil (f : Nat) (st : St) : out E f st [] = [] := by cases f <;> rfl

theorem first_percent (s : Str) (h : (37 : UInt8) ∈ s) : ∃ a t, s = a ++ 37 :: t ∧ (37 : UInt8) ∉ a := by
  induction s with
  | nil => cases h
  | cons c s ih =>
    by_cases hc : c = 37
    · exact ⟨[], s, by rw [hc]; rfl, by simp⟩
    · rcases List.mem_cons.1 h with h | h
      · exact absurd h.symm hc
      · obtain ⟨a, t, rfl, ha⟩ := ih h
        exact ⟨c :: a, t, rfl, by simp [ha, Ne.symm hc]⟩

theorem out_no (f : Nat) (st : St) (s : Str) (h : (37 : UInt8) ∉ s) (hf : s.length ≤ f) : out E f st s = s := by
  have := out_plain E (f - s.length) st s [] h
  rw [List.append_nil, out_nil, List.append_nil, Nat.sub_add_cancel hf] at this
  exact this

/-- The output from the first `%` on. -/
theorem out_first (f : Nat) (st : St) (a t : Str) (ha : (37 : UInt8) ∉ a) (hf : (a ++ 37 :: t).length ≤ f) :
    ∃ d r d' f' st', t = d ++ r ∧ out E f st (a ++ 37 :: t) = a ++ 37 :: (d' ++ out E f' st' r) ∧ r.length ≤ f' ∧ Tail d' ∧
      (d = [] → t = [] ∧ d' = b!"!(NOVERB)") ∧ (∀ x, d = 33 :: x → x = [] ∧ d' = b!"!!(MISSING)") := by
  simp only [List.length_append, List.length_cons] at hf
  obtain ⟨g, rfl⟩ : ∃ g, f = g + 1 + a.length := ⟨f - 1 - a.length, by omega⟩
  rw [out_plain E _ st a _ ha, out_dir]
  obtain ⟨d, r, d', h1, h2, h3, h4, h5⟩ := directive_nil E st t
  refine ⟨d, r, d', g, _, h1, by rw [h2, h3]; rfl, ?_, h4, ?_, ?_⟩
  · have := congrArg List.length h1
    simp at this; omega
  · intro hd
    have ht := h5 hd
    subst ht
    exact ⟨rfl, (List.cons.inj (h3.symm.trans (show _ = b!"%!(NOVERB)" from rfl))).2⟩
  · rintro x rfl
    obtain ⟨b1, b2⟩ := directive_bang E st (x ++ r)
    rw [List.cons_append] at h1
    rw [← h1, h2] at b1
    rw [← h1, h3] at b2
    refine ⟨?_, by injection b2⟩
    have := congrArg List.length b1
    simp at this
    exact this

/-- The output does not end with a longer text than the format that is the format itself. -/
theorem out_ne_append (n : Nat) : ∀ (r z : Str) (f : Nat) (st : St), r.length ≤ n → r.length ≤ f → z ≠ [] →
    out E f st r ≠ z ++ r := by
  induction n with
  | zero =>
    intro r z f st h1 h2 hz h
    have : r = [] := List.length_eq_zero_iff.1 (by omega)
    subst this
    rw [out_nil, List.append_nil] at h
    exact hz h.symm
  | succ n ih =>
    intro r z f st h1 h2 hz h
    by_cases hr : (37 : UInt8) ∈ r
    · obtain ⟨a, t, rfl, ha⟩ := first_percent r hr
      obtain ⟨d, r2, d', f', st', rfl, ho, hf', ht, hd, hbang⟩ := out_first E f st a t ha h2
      rw [ho] at h
      by_cases hz37 : (37 : UInt8) ∈ z
      · obtain ⟨b, z2, rfl, hb⟩ := first_percent z hz37
        have hab : a = b ∧ d' ++ out E f' st' r2 = z2 ++ (a ++ 37 :: (d ++ r2)) := by
          rw [List.append_assoc, List.cons_append] at h
          obtain ⟨u, hu, hu2⟩ := append_percent a _ b _ ha h
          cases u with
          | nil =>
            simp only [List.nil_append, List.cons.injEq, true_and] at hu2
            exact ⟨by simpa using hu.symm, hu2⟩
          | cons c u =>
            simp only [List.cons_append, List.cons.injEq] at hu2
            exact absurd (by rw [hu, ← hu2.1]; simp) hb
        obtain ⟨rfl, h3⟩ := hab
        have hlen : r2.length ≤ n := by simp at h1; omega
        have h' : d' ++ out E f' st' r2 = (z2 ++ a ++ 37 :: d) ++ r2 := by rw [h3]; simp
        have bad : ∀ y, d' ≠ z2 ++ a ++ 37 :: (d ++ y) := by
          intro y e
          have hmem : (37 : UInt8) ∈ d' := by rw [e]; simp
          cases d with
          | nil =>
            rw [(hd rfl).2] at hmem
            exact absurd hmem (by decide)
          | cons c d =>
            rcases ht.inner _ _ e with h6 | ⟨x, h6⟩
            · cases h6
            · simp only [List.cons_append, List.cons.injEq] at h6
              obtain ⟨rfl, -⟩ := h6
              rw [(hbang d rfl).2] at hmem
              exact absurd hmem (by decide)
        rcases List.append_eq_append_iff.1 h' with ⟨y, e1, e2⟩ | ⟨y, e1, e2⟩
        · by_cases hy : y = []
          · subst hy
            exact absurd (by rw [List.append_nil] at e1 ⊢; exact e1.symm) (bad [])
          · exact ih r2 y f' st' hlen hf' hy e2
        · exact absurd (by rw [e1]; simp) (bad y)
      · obtain ⟨u, hu, hu2⟩ := append_percent (z ++ a) (37 :: (d ++ r2)) a (d' ++ out E f' st' r2)
          (by rw [List.mem_append]; exact fun h => h.elim hz37 ha) (by rw [h]; simp)
        have := congrArg List.length hu
        rw [List.length_append, List.length_append] at this
        exact hz (List.length_eq_zero_iff.1 (by omega))
    · rw [out_no E f st r hr h2] at h
      have := congrArg List.length h
      simp at this
      exact hz this

/-- Without arguments the output is the format exactly if the format has no `%`. -/
theorem out_eq_iff (s : Str) (f : Nat) (st : St) (hf : s.length ≤ f) : out E f st s = s ↔ (37 : UInt8) ∉ s := by
  constructor
  · intro h hs
    obtain ⟨a, t, rfl, ha⟩ := first_percent s hs
    obtain ⟨d, r, d', f', st', rfl, ho, hf', ht, hd, hbang⟩ := out_first E f st a t ha hf
    rw [ho] at h
    have h := (List.cons.inj (List.append_cancel_left h)).2
    rcases List.append_eq_append_iff.1 h with ⟨y, e1, e2⟩ | ⟨y, e1, e2⟩
    · by_cases hy : y = []
      · subst hy
        rw [List.append_nil] at e1
        cases d with
        | nil => rw [(hd rfl).2] at e1; cases e1
        | cons c d =>
          rcases ht.head with h6 | ⟨x, h6⟩
          · rw [h6] at e1; cases e1
          · rw [h6] at e1
            injection e1 with e1 e3
            subst e1
            obtain ⟨rfl, h7⟩ := hbang d rfl
            rw [h6, ← e3] at h7; cases h7
      · exact out_ne_append E r.length r y f' st' (Nat.le_refl _) hf' hy e2
    · cases d with
      | nil =>
        have h8 := (hd rfl).1
        rw [List.nil_append] at h8
        subst h8
        rw [out_nil] at e2
        rw [(hd rfl).2] at e1
        rw [show y = [] by simpa using e2.symm] at e1
        cases e1
      | cons c d =>
        rcases ht.head with h6 | ⟨x, h6⟩
        · rw [h6] at e1; cases e1
        · have h7 : c = 33 := by
            rw [h6] at e1; injection e1 with e1 _; exact e1.symm
          subst h7
          obtain ⟨rfl, h7⟩ := hbang d rfl
          rw [h7] at e1
          have hy : y = b!"!(MISSING)" := by injection e1 with _ e1; exact e1.symm
          subst hy
          by_cases hr : (37 : UInt8) ∈ r
          · obtain ⟨a', t', rfl, ha'⟩ := first_percent r hr
            obtain ⟨_, _, _, _, _, _, ho', _⟩ := out_first E f' st' a' t' ha' hf'
            rw [ho'] at e2
            obtain ⟨u, hu, -⟩ := append_percent (b!"!(MISSING)" ++ a') _ a' t'
              (by rw [List.mem_append]; exact fun h => h.elim (by decide) ha') (by rw [e2, List.append_assoc])
            have := congrArg List.length hu
            simp at this
            omega
          · rw [out_no E f' st' r hr hf'] at e2
            have := congrArg List.length e2
            simp at this
            omega
  · intro h
    exact out_no E f st s h hf

theorem sprintf_nil (s : Str) : sprintf E s [] = s ↔ (37 : UInt8) ∉ s := by
  have := out_eq_iff E s (s.length + 1) st0 (by omega)
  rw [← this]
  unfold sprintf pieces out texts
  dsimp only
  rw [if_neg (by simp), List.append_nil]

end
end Verif.Fmt
