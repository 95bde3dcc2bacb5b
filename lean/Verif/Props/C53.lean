import Verif.Spec.Keyword
import Verif.Lemmas.TrimSpec
import Verif.Lemmas.Strings
import Mathlib.Data.Nat.Digits.Lemmas
/-! # C53: keyword declarations -/
namespace Verif.Xt
open Verif GoStr

/-! ## Numerals -/

theorem digit_iff (c : UInt8) : Num.isDigit c = true ↔ ∃ d < 10, c = UInt8.ofNat (48 + d) := by
  revert c; apply u8; decide +kernel

theorem digit_val (d : Nat) (h : d < 10) : (UInt8.ofNat (48 + d)).toNat - 48 = d := by
  simp; omega

theorem isDigit_ofNat (d : Nat) (h : d < 10) : Num.isDigit (UInt8.ofNat (48 + d)) = true :=
  (digit_iff _).mpr ⟨d, h, rfl⟩

theorem digitsVal_map (ds : List Nat) (h : ∀ d ∈ ds, d < 10) (acc : Nat) :
    Num.digitsVal acc (ds.map fun d => UInt8.ofNat (48 + d)) =
      some (acc * 10 ^ ds.length + decimal ds) := by
  unfold decimal
  induction ds generalizing acc with
  | nil => simp [Num.digitsVal]
  | cons d ds ih =>
    have hd := h d (by simp)
    simp only [List.map_cons, Num.digitsVal, isDigit_ofNat d hd, if_true, digit_val d hd]
    rw [ih (fun x hx => h x (by simp [hx]))]
    simp only [List.reverse_cons, Nat.ofDigits_append, Nat.ofDigits_singleton, List.length_cons,
      List.length_reverse, Option.some.injEq]
    ring

theorem digitsVal_some (s : Str) (acc v : Nat) (h : Num.digitsVal acc s = some v) :
    ∃ ds : List Nat, (∀ d ∈ ds, d < 10) ∧ s = ds.map fun d => UInt8.ofNat (48 + d) := by
  induction s generalizing acc with
  | nil => exact ⟨[], by simp, rfl⟩
  | cons c s ih =>
    simp only [Num.digitsVal] at h
    split at h
    · rename_i hc
      obtain ⟨d, hd, rfl⟩ := (digit_iff c).mp hc
      obtain ⟨ds, h1, rfl⟩ := ih _ h
      exact ⟨d :: ds, by simpa [hd] using h1, rfl⟩
    · simp at h

/-- The digits part of `ParseInt`. -/
def mkInt (neg : Bool) (ds : Str) : Option Int :=
  if ds.isEmpty then none
  else match Num.digitsVal 0 ds with
    | none => none
    | some v =>
      let i : Int := if neg then - (v : Int) else (v : Int)
      if Num.minI64 ≤ i && i ≤ Num.maxI64 then some i else none

theorem parseInt_eq (s : Str) : Num.parseInt s = match s with
    | 43 :: ds => mkInt false ds
    | 45 :: ds => mkInt true ds
    | ds => mkInt false ds := rfl

theorem mkInt_iff (neg : Bool) (s : Str) (i : Int) : mkInt neg s = some i ↔
    ∃ ds : List Nat, ds ≠ [] ∧ (∀ d ∈ ds, d < 10) ∧ s = ds.map (fun d => UInt8.ofNat (48 + d)) ∧
      i = (if neg then - (decimal ds : Int) else (decimal ds : Int)) ∧
      -2 ^ 63 ≤ i ∧ i < 2 ^ 63 := by
  unfold mkInt
  constructor
  · intro h
    split at h
    · simp at h
    · rename_i hne
      split at h
      · simp at h
      · rename_i v hv
        obtain ⟨ds, hds, rfl⟩ := digitsVal_some s 0 v hv
        rw [digitsVal_map ds hds] at hv
        simp only [Nat.zero_mul, Nat.zero_add, Option.some.injEq] at hv
        subst hv
        simp only [Option.ite_none_right_eq_some, Option.some.injEq, Bool.and_eq_true,
          decide_eq_true_eq] at h
        obtain ⟨⟨h1, h2⟩, rfl⟩ := h
        refine ⟨ds, ?_, hds, rfl, rfl, ?_, ?_⟩
        · rintro rfl; simp at hne
        · simp only [Num.minI64] at h1; omega
        · simp only [Num.maxI64] at h2; omega
  · rintro ⟨ds, hne, hds, rfl, rfl, h1, h2⟩
    have : (ds.map fun d => UInt8.ofNat (48 + d)).isEmpty = false := by
      cases ds with
      | nil => exact absurd rfl hne
      | cons => rfl
    rw [this, digitsVal_map ds hds]
    simp only [Bool.false_eq_true, if_false, Nat.zero_mul, Nat.zero_add]
    rw [if_pos]
    rw [Bool.and_eq_true]
    constructor
    · refine decide_eq_true ?_
      unfold Num.minI64; omega
    · refine decide_eq_true ?_
      unfold Num.maxI64; omega

theorem map_ne_sign (ds : List Nat) (hds : ∀ d ∈ ds, d < 10) (c : UInt8) (t : Str)
    (h : ds.map (fun d => UInt8.ofNat (48 + d)) = c :: t) : c ≠ 43 ∧ c ≠ 45 := by
  cases ds with
  | nil => simp at h
  | cons d ds =>
    simp only [List.map_cons, List.cons.injEq] at h
    have := isDigit_ofNat d (hds d (by simp))
    rw [h.1] at this
    constructor <;> rintro rfl <;> revert this <;> decide

theorem numeral_iff (s : Str) (i : Int) : Numeral s i ↔ Num.parseInt s = some i := by
  rw [parseInt_eq]
  constructor
  · rintro ⟨sign, ds, hne, hds, rfl, hs, h1, h2⟩
    rcases hs with ⟨rfl, hi⟩ | ⟨rfl, hi⟩ | ⟨rfl, hi⟩
    · split
      · rename_i t ht; exact absurd rfl (map_ne_sign ds hds _ _ ht).1
      · rename_i t ht; exact absurd rfl (map_ne_sign ds hds _ _ ht).2
      · exact (mkInt_iff false _ i).mpr ⟨ds, hne, hds, rfl, hi, h1, h2⟩
    · exact (mkInt_iff false _ i).mpr ⟨ds, hne, hds, rfl, hi, h1, h2⟩
    · exact (mkInt_iff true _ i).mpr ⟨ds, hne, hds, rfl, hi, h1, h2⟩
  · intro h
    split at h
    · obtain ⟨ds, hne, hds, rfl, hi, h1, h2⟩ := (mkInt_iff false _ i).mp h
      exact ⟨b!"+", ds, hne, hds, rfl, .inr (.inl ⟨rfl, hi⟩), h1, h2⟩
    · obtain ⟨ds, hne, hds, rfl, hi, h1, h2⟩ := (mkInt_iff true _ i).mp h
      exact ⟨b!"-", ds, hne, hds, rfl, .inr (.inr ⟨rfl, hi⟩), h1, h2⟩
    · obtain ⟨ds, hne, hds, rfl, hi, h1, h2⟩ := (mkInt_iff false _ i).mp h
      exact ⟨[], ds, hne, hds, rfl, .inl ⟨rfl, hi⟩, h1, h2⟩

/-! ## White space around an item -/

theorem trimSpace_left (w s : Str) (hw : White w) : trimSpace (w ++ s) = trimSpace s := by
  unfold trimSpace; rw [trimLeft_whites w s hw]

theorem trimSpace_right (w s : Str) (hw : White w) : trimSpace (s ++ w) = trimSpace s := by
  rw [← trims_iff]
  obtain ⟨w1, w2, h1, h2, hs, hst⟩ := trims_trimSpace s
  obtain ⟨rs, hrs, rfl⟩ := hw
  obtain ⟨rs2, hrs2, rfl⟩ := h2
  refine ⟨w1, rs2.flatten ++ rs.flatten, h1, ⟨rs2 ++ rs, ?_, by simp⟩, ?_, hst⟩
  · intro r hr
    rcases List.mem_append.mp hr with hr | hr
    · exact hrs2 r hr
    · exact hrs r hr
  · rw [← List.append_assoc, ← hs]

theorem white_no (c : UInt8) (hc : ∀ r ∈ whiteSpace, c ∉ r) (w : Str) (hw : White w) : c ∉ w := by
  obtain ⟨rs, hrs, rfl⟩ := hw
  intro h
  obtain ⟨r, hr, hcr⟩ := List.mem_flatten.mp h
  exact hc r (hrs r hr) hcr

theorem splitByte_prefix (c : UInt8) (w s : Str) (hw : c ∉ w) :
    ∃ p ps, splitByte c s = p :: ps ∧ splitByte c (w ++ s) = (w ++ p) :: ps := by
  induction w with
  | nil =>
    cases h : splitByte c s with
    | nil => exact absurd h (splitByte_ne_nil c s)
    | cons p ps => exact ⟨p, ps, rfl, h⟩
  | cons x w ih =>
    simp at hw
    obtain ⟨p, ps, h1, h2⟩ := ih hw.2
    exact ⟨p, ps, h1, by simp [splitByte, Ne.symm hw.1, h2]⟩

theorem splitByte_suffix (c : UInt8) (w s : Str) (hw : c ∉ w) :
    ∃ ps p, splitByte c s = ps ++ [p] ∧ splitByte c (s ++ w) = ps ++ [p ++ w] := by
  induction s with
  | nil => exact ⟨[], [], rfl, by simpa using splitByte_no_sep c w hw⟩
  | cons x s ih =>
    obtain ⟨ps, p, h1, h2⟩ := ih
    by_cases hx : x = c
    · exact ⟨[] :: ps, p, by simp [splitByte, hx, h1], by simp [splitByte, hx, h2]⟩
    · cases ps with
      | nil => exact ⟨[], x :: p, by simp [splitByte, hx, h1], by simp [splitByte, hx, h2]⟩
      | cons q ps => exact ⟨(x :: q) :: ps, p, by simp [splitByte, hx, h1], by simp [splitByte, hx, h2]⟩

theorem no_colon : ∀ r ∈ whiteSpace, (58 : UInt8) ∉ r := by decide
theorem no_comma : ∀ r ∈ whiteSpace, (44 : UInt8) ∉ r := by decide

/-- The trimmed positions do not depend on white space around the list of positions. -/
theorem positions_suffix (w s : Str) (hw : White w) :
    (splitByte 44 (s ++ w)).map trimSpace = (splitByte 44 s).map trimSpace := by
  obtain ⟨ps, p, h1, h2⟩ := splitByte_suffix 44 w s (white_no 44 no_comma w hw)
  rw [h1, h2]; simp [trimSpace_right w p hw]

/-- The body of `ParseKeywords` after the split at the colons. -/
def parseParts : List Str → Option Keyword
  | [n] => if trimSpace n = [] then none else some { name := trimSpace n, msgID := 1 }
  | [n, ps] => if trimSpace n = [] then none
    else parsePositions { name := trimSpace n } ((splitByte 44 ps).map trimSpace)
  | _ => none

theorem parseKeyword_parts (item : Str) : parseKeyword item = parseParts (splitByte 58 (trimSpace item)) := by
  unfold parseKeyword parseParts
  rfl

theorem parseParts_left (w p : Str) (ps : List Str) (hw : White w) :
    parseParts ((w ++ p) :: ps) = parseParts (p :: ps) := by
  match ps with
  | [] => simp [parseParts, trimSpace_left w p hw]
  | [a] => simp [parseParts, trimSpace_left w p hw]
  | _ :: _ :: _ => rfl

theorem parseParts_right (w p : Str) (ps : List Str) (hw : White w) :
    parseParts (ps ++ [p ++ w]) = parseParts (ps ++ [p]) := by
  match ps with
  | [] => simp [parseParts, trimSpace_right w p hw]
  | [a] => simp [parseParts, positions_suffix w p hw]
  | [_, _] => rfl
  | _ :: _ :: _ :: _ => rfl

theorem parseKeyword_eq (item : Str) : parseKeyword item = parseParts (splitByte 58 item) := by
  rw [parseKeyword_parts]
  obtain ⟨w1, w2, h1, h2, hs, -⟩ := trims_trimSpace item
  conv_rhs => rw [hs]
  obtain ⟨ps, p, e1, e2⟩ := splitByte_suffix 58 w2 (w1 ++ trimSpace item) (white_no 58 no_colon w2 h2)
  rw [e2, parseParts_right w2 p ps h2, ← e1]
  obtain ⟨q, qs, e3, e4⟩ := splitByte_prefix 58 w1 (trimSpace item) (white_no 58 no_colon w1 h1)
  rw [e4, parseParts_left w1 q qs h1, ← e3]

/-! ## One item -/

theorem nameText_iff (s name : Str) : NameText s name ↔ trimSpace s = name ∧ name ≠ [] := by
  unfold NameText; rw [trims_iff]

theorem position_iff (s : Str) (i : Int) : Position s i ↔ Num.parseInt (trimSpace s) = some i := by
  unfold Position
  simp only [trims_iff, numeral_iff]
  constructor
  · rintro ⟨_, rfl, h⟩; exact h
  · intro h; exact ⟨_, rfl, h⟩

theorem ctxtPosition_iff (s : Str) (i : Int) : CtxtPosition s i ↔
    hasSuffix (trimSpace s) b!"c" = true ∧
      Num.parseInt ((trimSpace s).take ((trimSpace s).length - 1)) = some i := by
  unfold CtxtPosition hasSuffix
  simp only [trims_iff, numeral_iff, List.isSuffixOf_iff_suffix]
  constructor
  · rintro ⟨t, h, ht⟩
    rw [h]
    exact ⟨⟨t, rfl⟩, by simpa using ht⟩
  · rintro ⟨⟨t, ht⟩, h⟩
    rw [← ht] at h ⊢
    exact ⟨t, rfl, by simpa using h⟩

/-- A numeral does not end in `c`. -/
theorem position_not_c (s : Str) (i : Int) (h : Position s i) : hasSuffix (trimSpace s) b!"c" = false := by
  rw [Bool.eq_false_iff]
  intro hc
  unfold hasSuffix at hc
  rw [List.isSuffixOf_iff_suffix] at hc
  obtain ⟨t, ht⟩ := hc
  obtain ⟨u, hu, sign, ds, hne, hds, rfl, -⟩ := h
  rw [trims_iff] at hu
  rw [hu] at ht
  obtain ⟨ds', d, rfl⟩ : ∃ ds' d, ds = ds' ++ [d] := ⟨_, _, (List.dropLast_concat_getLast hne).symm⟩
  rw [List.map_append, ← List.append_assoc] at ht
  have := (List.append_inj' ht rfl).2
  simp only [List.map_cons, List.map_nil, List.cons.injEq, and_true] at this
  have h2 := isDigit_ofNat d (hds d (by simp))
  rw [← this] at h2
  revert h2; decide

theorem split_iff1 (c : UInt8) (s a : Str) : splitByte c s = [a] ↔ c ∉ a ∧ s = a := by
  constructor
  · intro h
    have h1 := splitByte_not_mem c s a (by simp [h])
    have h2 := intercalate_splitByte c s
    rw [h, intercalate_single] at h2
    exact ⟨h1, h2.symm⟩
  · rintro ⟨h, rfl⟩; exact splitByte_no_sep c _ h

theorem split_iff2 (c : UInt8) (s a b : Str) : splitByte c s = [a, b] ↔ c ∉ a ∧ c ∉ b ∧ s = a ++ [c] ++ b := by
  constructor
  · intro h
    have h1 := splitByte_not_mem c s
    have h2 := intercalate_splitByte c s
    rw [h, intercalate_cons_cons, intercalate_single] at h2
    exact ⟨h1 a (by simp [h]), h1 b (by simp [h]), by simp [← h2]⟩
  · rintro ⟨h, h', rfl⟩
    rw [List.append_assoc]
    refine (splitByte_append_sep c a _ h).trans ?_
    exact congrArg (a :: ·) (splitByte_no_sep c b h')

theorem split_iff3 (c : UInt8) (s a b d : Str) : splitByte c s = [a, b, d] ↔
    c ∉ a ∧ c ∉ b ∧ c ∉ d ∧ s = a ++ [c] ++ b ++ [c] ++ d := by
  constructor
  · intro h
    have h1 := splitByte_not_mem c s
    have h2 := intercalate_splitByte c s
    rw [h, intercalate_cons_cons, intercalate_cons_cons, intercalate_single] at h2
    exact ⟨h1 a (by simp [h]), h1 b (by simp [h]), h1 d (by simp [h]), by simp [← h2]⟩
  · rintro ⟨h, h', h'', rfl⟩
    rw [List.append_assoc, List.append_assoc, List.append_assoc]
    refine (splitByte_append_sep c a _ h).trans ?_
    refine congrArg (a :: ·) ?_
    refine (splitByte_append_sep c b _ h').trans ?_
    exact congrArg (b :: ·) (splitByte_no_sep c d h'')

/-- Positions. -/
theorem parsePositions_iff (name ps : Str) (k : Keyword) :
    parsePositions { name := name } ((splitByte 44 ps).map trimSpace) = some k ↔
      (∃ i, 44 ∉ ps ∧ Position ps i ∧ k = ⟨name, 0, i, 0⟩) ∨
      (∃ a b i j, 44 ∉ a ∧ 44 ∉ b ∧ ps = a ++ b!"," ++ b ∧ Position a i ∧ Position b j ∧
        k = ⟨name, 0, i, j⟩) ∨
      (∃ a b c i, 44 ∉ a ∧ 44 ∉ b ∧ ps = a ++ b!"," ++ b ∧ CtxtPosition a c ∧ Position b i ∧
        k = ⟨name, c, i, 0⟩) ∨
      (∃ a b d c i j, 44 ∉ a ∧ 44 ∉ b ∧ 44 ∉ d ∧ ps = a ++ b!"," ++ b ++ b!"," ++ d ∧
        CtxtPosition a c ∧ Position b i ∧ Position d j ∧ k = ⟨name, c, i, j⟩) := by
  constructor
  · intro h
    match hs : splitByte 44 ps with
    | [] => exact absurd hs (splitByte_ne_nil _ _)
    | [a] =>
      obtain ⟨h1, rfl⟩ := (split_iff1 44 ps a).mp hs
      rw [hs] at h
      simp only [List.map_cons, List.map_nil, parsePositions] at h
      cases hp : Num.parseInt (trimSpace ps) with
      | none => simp [hp] at h
      | some i =>
        simp only [hp, Option.some.injEq] at h
        exact .inl ⟨i, h1, (position_iff _ _).mpr hp, h.symm⟩
    | [a, b] =>
      obtain ⟨h1, h2, rfl⟩ := (split_iff2 44 ps a b).mp hs
      rw [hs] at h
      simp only [List.map_cons, List.map_nil, parsePositions] at h
      by_cases hc : hasSuffix (trimSpace a) b!"c" = true
      · rw [if_pos hc] at h
        cases hp : Num.parseInt ((trimSpace a).take ((trimSpace a).length - 1)) with
        | none => simp [hp] at h
        | some c =>
          cases hq : Num.parseInt (trimSpace b) with
          | none => simp [hp, hq] at h
          | some i =>
            simp only [hp, hq, Option.some.injEq] at h
            exact .inr (.inr (.inl ⟨a, b, c, i, h1, h2, rfl, (ctxtPosition_iff _ _).mpr ⟨hc, hp⟩,
              (position_iff _ _).mpr hq, h.symm⟩))
      · rw [if_neg hc] at h
        cases hp : Num.parseInt (trimSpace a) with
        | none => simp [hp] at h
        | some i =>
          cases hq : Num.parseInt (trimSpace b) with
          | none => simp [hp, hq] at h
          | some j =>
            simp only [hp, hq, Option.some.injEq] at h
            exact .inr (.inl ⟨a, b, i, j, h1, h2, rfl, (position_iff _ _).mpr hp,
              (position_iff _ _).mpr hq, h.symm⟩)
    | [a, b, d] =>
      obtain ⟨h1, h2, h3, rfl⟩ := (split_iff3 44 ps a b d).mp hs
      rw [hs] at h
      simp only [List.map_cons, List.map_nil, parsePositions] at h
      by_cases hc : hasSuffix (trimSpace a) b!"c" = true
      · simp only [hc, Bool.not_true, Bool.false_eq_true, if_false] at h
        cases hp : Num.parseInt ((trimSpace a).take ((trimSpace a).length - 1)) with
        | none => simp [hp] at h
        | some c =>
          cases hq : Num.parseInt (trimSpace b) with
          | none => simp [hp, hq] at h
          | some i =>
            cases hr : Num.parseInt (trimSpace d) with
            | none => simp [hp, hq, hr] at h
            | some j =>
              simp only [hp, hq, hr, Option.some.injEq] at h
              exact .inr (.inr (.inr ⟨a, b, d, c, i, j, h1, h2, h3, rfl,
                (ctxtPosition_iff _ _).mpr ⟨hc, hp⟩,
                (position_iff _ _).mpr hq, (position_iff _ _).mpr hr, h.symm⟩))
      · simp [hc] at h
    | a :: b :: d :: e :: l =>
      rw [hs] at h
      simp [parsePositions] at h
  · rintro (⟨i, h1, hp, rfl⟩ | ⟨a, b, i, j, h1, h2, rfl, hp, hq, rfl⟩ | ⟨a, b, c, i, h1, h2, rfl, hp, hq, rfl⟩ |
      ⟨a, b, d, c, i, j, h1, h2, h3, rfl, hp, hq, hr, rfl⟩)
    · rw [splitByte_no_sep 44 ps h1]
      rw [position_iff] at hp
      simp [parsePositions, hp]
    · rw [(split_iff2 44 _ a b).mpr ⟨h1, h2, rfl⟩]
      have hc := position_not_c a i hp
      rw [position_iff] at hp hq
      simp [parsePositions, hp, hq, hc]
    · rw [(split_iff2 44 _ a b).mpr ⟨h1, h2, rfl⟩]
      rw [ctxtPosition_iff] at hp; rw [position_iff] at hq
      simp [parsePositions, hp.1, hp.2, hq]
    · rw [(split_iff3 44 _ a b d).mpr ⟨h1, h2, h3, rfl⟩]
      rw [ctxtPosition_iff] at hp; rw [position_iff] at hq hr
      simp [parsePositions, hp.1, hp.2, hq, hr]

/-- One item of the list. -/
theorem declares_iff (item : Str) (k : Keyword) : Declares item k ↔ parseKeyword item = some k := by
  rw [parseKeyword_eq]
  constructor
  · intro h
    cases h with
    | name h1 hn =>
      rw [nameText_iff] at hn
      rw [splitByte_no_sep 58 _ h1]
      simp [parseParts, hn.1, hn.2]
    | @id n name a i h1 h2 h3 hn hp =>
      rw [nameText_iff] at hn
      rw [(split_iff2 58 _ n a).mpr ⟨h1, h2, rfl⟩]
      simp only [parseParts, hn.1, hn.2, if_false]
      exact (parsePositions_iff _ _ _).mpr (.inl ⟨i, h3, hp, rfl⟩)
    | @plural n name a b i j h1 h2 h3 h4 h5 hn hp hq =>
      rw [nameText_iff] at hn
      rw [(split_iff2 58 _ n (a ++ b!"," ++ b)).mpr ⟨h1, by simp [h2, h4], by simp⟩]
      simp only [parseParts, hn.1, hn.2, if_false]
      exact (parsePositions_iff _ _ _).mpr (.inr (.inl ⟨a, b, i, j, h3, h5, rfl, hp, hq, rfl⟩))
    | @ctxt n name a b c i h1 h2 h3 h4 h5 hn hp hq =>
      rw [nameText_iff] at hn
      rw [(split_iff2 58 _ n (a ++ b!"," ++ b)).mpr ⟨h1, by simp [h2, h4], by simp⟩]
      simp only [parseParts, hn.1, hn.2, if_false]
      exact (parsePositions_iff _ _ _).mpr (.inr (.inr (.inl ⟨a, b, c, i, h3, h5, rfl, hp, hq, rfl⟩)))
    | @ctxtPlural n name a b d c i j h1 h2 h3 h4 h5 h6 h7 hn hp hq hr =>
      rw [nameText_iff] at hn
      rw [(split_iff2 58 _ n (a ++ b!"," ++ b ++ b!"," ++ d)).mpr ⟨h1, by simp [h2, h4, h6], by simp⟩]
      simp only [parseParts, hn.1, hn.2, if_false]
      exact (parsePositions_iff _ _ _).mpr
        (.inr (.inr (.inr ⟨a, b, d, c, i, j, h3, h5, h7, rfl, hp, hq, hr, rfl⟩)))
  · intro h
    match hs : splitByte 58 item with
    | [] => exact absurd hs (splitByte_ne_nil _ _)
    | [n] =>
      obtain ⟨h1, rfl⟩ := (split_iff1 58 _ _).mp hs
      rw [hs] at h
      simp only [parseParts] at h
      split at h
      · simp at h
      · rename_i hne
        simp only [Option.some.injEq] at h
        subst h
        exact .name h1 ((nameText_iff _ _).mpr ⟨rfl, hne⟩)
    | [n, ps] =>
      obtain ⟨h1, h2, rfl⟩ := (split_iff2 58 _ _ _).mp hs
      rw [hs] at h
      simp only [parseParts] at h
      split at h
      · simp at h
      · rename_i hne
        have hn : NameText n (trimSpace n) := (nameText_iff _ _).mpr ⟨rfl, hne⟩
        rcases (parsePositions_iff _ _ _).mp h with ⟨i, h3, hp, rfl⟩ | ⟨a, b, i, j, h3, h4, rfl, hp, hq, rfl⟩ |
          ⟨a, b, c, i, h3, h4, rfl, hp, hq, rfl⟩ | ⟨a, b, d, c, i, j, h3, h4, h5, rfl, hp, hq, hr, rfl⟩
        · exact .id h1 h2 h3 hn hp
        · simp only [List.mem_append, not_or] at h2
          have := Declares.plural h1 h2.1.1 h3 h2.2 h4 hn hp hq
          simpa using this
        · simp only [List.mem_append, not_or] at h2
          have := Declares.ctxt h1 h2.1.1 h3 h2.2 h4 hn hp hq
          simpa using this
        · simp only [List.mem_append, not_or] at h2
          have := Declares.ctxtPlural h1 h2.1.1.1.1 h3 h2.1.1.2 h4 h2.2 h5 hn hp hq hr
          simpa using this
    | a :: b :: d :: l =>
      rw [hs] at h
      simp [parseParts] at h

theorem parseItems_iff (items : List Str) (ks : List Keyword) :
    parseItems items = some ks ↔ List.Forall₂ Declares items ks := by
  induction items generalizing ks with
  | nil =>
    simp only [parseItems, Option.some.injEq, List.forall₂_nil_left_iff]
    exact eq_comm
  | cons item items ih =>
    simp only [parseItems]
    constructor
    · intro h
      cases hk : parseKeyword item with
      | none => simp [hk] at h
      | some k =>
        cases hr : parseItems items with
        | none => simp [hk, hr] at h
        | some r =>
          simp only [hk, hr, Option.some.injEq] at h
          subst h
          exact .cons ((declares_iff _ _).mpr hk) ((ih r).mp hr)
    · intro h
      cases h with
      | cons h1 h2 =>
        rw [declares_iff] at h1
        rw [← ih] at h2
        simp [h1, h2]

/-- **C53**: `ParseKeywords` returns exactly the keywords the text declares. -/
theorem C53_exact (s : Str) (ks : List Keyword) : parseKeywords s = some ks ↔ DeclaresAll s ks := by
  unfold parseKeywords DeclaresAll
  rw [parseItems_iff]
  constructor
  · intro h
    exact ⟨splitByte 59 s, splitByte_ne_nil _ _, splitByte_not_mem 59 s, (intercalate_splitByte 59 s).symm, h⟩
  · rintro ⟨items, h1, h2, rfl, h⟩
    rw [splitByte_intercalate 59 items h1 h2]
    exact h

/-- **C53**: everything else is rejected. -/
theorem C53_rejects (s : Str) : parseKeywords s = none ↔ ∀ ks, ¬ DeclaresAll s ks := by
  constructor
  · intro h ks hd
    rw [← C53_exact, h] at hd
    simp at hd
  · intro h
    cases hp : parseKeywords s with
    | none => rfl
    | some ks => exact absurd ((C53_exact s ks).mp hp) (h ks)

/-- A text declares at most one list of keywords. -/
theorem C53_unique (s : Str) (ks ks' : List Keyword) (h : DeclaresAll s ks) (h' : DeclaresAll s ks') :
    ks = ks' := by
  rw [← C53_exact] at h h'
  rw [h] at h'
  exact Option.some.inj h'

/-- Examples: the default declaration of xtemplate, with white space, and rejected texts. -/
example : DeclaresAll b!"gettext; T : 1;N:1, 2;X:1c,2;XN: 1c ,+2,3"
    [⟨b!"gettext", 0, 1, 0⟩, ⟨b!"T", 0, 1, 0⟩, ⟨b!"N", 0, 1, 2⟩, ⟨b!"X", 1, 2, 0⟩,
      ⟨b!"XN", 1, 2, 3⟩] := (C53_exact _ _).mp (by decide)
example : ∀ ks, ¬ DeclaresAll b!"T;" ks := (C53_rejects _).mp (by decide)
example : ∀ ks, ¬ DeclaresAll b!"T:1:2" ks := (C53_rejects _).mp (by decide)
example : ∀ ks, ¬ DeclaresAll b!"T:1,2,3" ks := (C53_rejects _).mp (by decide)
example : ∀ ks, ¬ DeclaresAll b!"T:9223372036854775808" ks := (C53_rejects _).mp (by decide)
example : ∀ ks, ¬ DeclaresAll b!"T:1 c,2" ks := (C53_rejects _).mp (by decide)
/-- Positions that no call can have are accepted. -/
example : DeclaresAll b!"T:0;N:-1,7" [⟨b!"T", 0, 0, 0⟩, ⟨b!"N", 0, -1, 7⟩] :=
  (C53_exact _ _).mp (by decide)

end Verif.Xt
