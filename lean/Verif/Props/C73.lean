import Verif.Model.KeywordError
import Verif.Spec.KeywordError
import Verif.Lemmas.FmtPlain
import Verif.Props.C53
/-! # C73: what the message about keyword declarations says -/
namespace Verif.Xt
open Verif GoStr

/-! ## Numbers -/

theorem digitsVal_ge (s : Str) (n v : Nat) (h : Num.digitsVal n s = some v) : n ≤ v := by
  induction s generalizing n with
  | nil => cases h; exact Nat.le_refl _
  | cons c s ih =>
    unfold Num.digitsVal at h
    split at h
    · have := ih _ h; omega
    · cases h

theorem uintLoop_ok (s : Str) (n : Nat) (i : Int) (hn : n < 2 ^ 64) : uintLoop n s = .ok i ↔
    ∃ v, Num.digitsVal n s = some v ∧ v < 2 ^ 64 ∧ i = v := by
  induction s generalizing n with
  | nil =>
    simp only [uintLoop, Num.digitsVal, IntRes.ok.injEq, Option.some.injEq]
    constructor
    · rintro rfl; exact ⟨n, rfl, hn, rfl⟩
    · rintro ⟨v, rfl, -, rfl⟩; rfl
  | cons c s ih =>
    simp only [uintLoop, Num.digitsVal]
    by_cases hc : Num.isDigit c = true
    · simp only [hc, Bool.not_true, Bool.false_eq_true, if_false, if_true]
      split
      · constructor
        · intro h; cases h
        · rintro ⟨v, h1, h2, -⟩
          have := digitsVal_ge _ _ _ h1; omega
      · split
        · constructor
          · intro h; cases h
          · rintro ⟨v, h1, h2, -⟩
            have := digitsVal_ge _ _ _ h1; omega
        · exact ih _ (by omega)
    · simp [hc]

theorem uintLoop_range (s : Str) (n : Nat) (hn : n < 2 ^ 64) : uintLoop n s = .range ↔
    ∃ p rest v, s = p ++ rest ∧ Num.digitsVal n p = some v ∧ 2 ^ 64 ≤ v := by
  induction s generalizing n with
  | nil =>
    simp only [uintLoop]
    constructor
    · intro h; cases h
    · rintro ⟨p, rest, v, h, h1, h2⟩
      have : p = [] := by cases p with | nil => rfl | cons => cases h
      subst this
      cases h1; omega
  | cons c s ih =>
    simp only [uintLoop]
    by_cases hc : Num.isDigit c = true
    · simp only [hc, Bool.not_true, Bool.false_eq_true, if_false]
      have hval : ∀ p, Num.digitsVal n (c :: p) = Num.digitsVal (n * 10 + (c.toNat - 48)) p := by
        intro p; simp [Num.digitsVal, hc]
      split
      · refine ⟨fun _ => ⟨[c], s, _, rfl, by rw [hval]; rfl, by omega⟩, fun _ => rfl⟩
      · split
        · refine ⟨fun _ => ⟨[c], s, _, rfl, by rw [hval]; rfl, by omega⟩, fun _ => rfl⟩
        · rw [ih _ (by omega)]
          constructor
          · rintro ⟨p, rest, v, rfl, h1, h2⟩
            exact ⟨c :: p, rest, v, rfl, by rw [hval]; exact h1, h2⟩
          · rintro ⟨p, rest, v, h, h1, h2⟩
            cases p with
            | nil => cases h1; omega
            | cons c' p =>
              simp only [List.cons_append, List.cons.injEq] at h
              obtain ⟨rfl, rfl⟩ := h
              exact ⟨p, rest, v, rfl, by rw [← hval]; exact h1, h2⟩
    · simp only [hc, Bool.not_false, if_true]
      constructor
      · intro h; cases h
      · rintro ⟨p, rest, v, h, h1, h2⟩
        cases p with
        | nil => cases h1; omega
        | cons c' p =>
          simp only [List.cons_append, List.cons.injEq] at h
          obtain ⟨rfl, rfl⟩ := h
          simp [Num.digitsVal, hc] at h1

/-- The digits are those of a number that is too big. -/
def Big (neg : Bool) (ds : Str) : Prop :=
  ∃ p rest v, ds = p ++ rest ∧ Num.digitsVal 0 p = some v ∧
    (2 ^ 64 ≤ v ∨ rest = [] ∧ neg = false ∧ 2 ^ 63 ≤ v ∨ rest = [] ∧ 2 ^ 63 < v)

theorem signedRes_ok (neg : Bool) (ds : Str) (i : Int) : signedRes neg ds = .ok i ↔ mkInt neg ds = some i := by
  unfold signedRes mkInt
  by_cases hds : ds = []
  · subst hds; simp
  · rw [if_neg hds, show ds.isEmpty = false by cases ds with | nil => exact absurd rfl hds | cons => rfl]
    simp only [Bool.false_eq_true, if_false]
    cases hd : Num.digitsVal 0 ds with
    | none =>
      have : ∀ i, uintLoop 0 ds ≠ .ok i := by
        intro i h
        obtain ⟨v, hv, -⟩ := (uintLoop_ok ds 0 i (by omega)).1 h
        rw [hd] at hv; cases hv
      cases hu : uintLoop 0 ds with
      | ok i => exact absurd hu (this i)
      | malformed => simp
      | range => simp
    | some v =>
      by_cases hv : v < 2 ^ 64
      · rw [(uintLoop_ok ds 0 v (by omega)).2 ⟨v, hd, hv, rfl⟩]
        dsimp only
        cases neg
        · simp only [Bool.not_false, Bool.true_and, Bool.false_and, Bool.false_eq_true, if_false]
          by_cases h : (9223372036854775808 : Int) ≤ v
          · rw [if_pos (by simpa using h), if_neg]
            · simp
            · simp [Num.minI64, Num.maxI64]; omega
          · rw [if_neg (by simpa using h), if_pos]
            · simp
            · simp [Num.minI64, Num.maxI64]; omega
        · simp only [Bool.not_true, Bool.true_and, Bool.false_and, Bool.false_eq_true, if_false, if_true]
          by_cases h : (9223372036854775808 : Int) < v
          · rw [if_pos (by simpa using h), if_neg]
            · simp
            · simp [Num.minI64, Num.maxI64]; omega
          · rw [if_neg (by simpa using h), if_pos]
            · simp
            · simp [Num.minI64, Num.maxI64]; omega
      · have hr : uintLoop 0 ds = .range := (uintLoop_range ds 0 (by omega)).2 ⟨ds, [], v, by simp, hd, by omega⟩
        rw [hr]
        dsimp only
        rw [if_neg]
        · simp
        · cases neg <;> simp [Num.minI64, Num.maxI64] <;> omega

theorem signedRes_range (neg : Bool) (ds : Str) : signedRes neg ds = .range ↔ Big neg ds := by
  unfold signedRes Big
  by_cases hds : ds = []
  · subst hds
    simp only [if_true]
    constructor
    · intro h; cases h
    · rintro ⟨p, rest, v, h, h1, h2⟩
      have : p = [] := by cases p with | nil => rfl | cons => cases h
      subst this
      cases h1; omega
  · rw [if_neg hds]
    cases hu : uintLoop 0 ds with
    | range =>
      obtain ⟨p, rest, v, h1, h2, h3⟩ := (uintLoop_range ds 0 (by omega)).1 hu
      exact ⟨fun _ => ⟨p, rest, v, h1, h2, .inl h3⟩, fun _ => rfl⟩
    | malformed =>
      dsimp only
      constructor
      · intro h; cases h
      · rintro ⟨p, rest, v, h1, h2, h3⟩
        by_cases hv : 2 ^ 64 ≤ v
        · rw [(uintLoop_range ds 0 (by omega)).2 ⟨p, rest, v, h1, h2, hv⟩] at hu; cases hu
        · have : rest = [] := by rcases h3 with h | ⟨h, -⟩ | ⟨h, -⟩ <;> first | exact h | omega
          subst this
          rw [List.append_nil] at h1
          subst h1
          rw [(uintLoop_ok ds 0 v (by omega)).2 ⟨v, h2, by omega, rfl⟩] at hu; cases hu
    | ok i =>
      obtain ⟨v, hv, hv2, rfl⟩ := (uintLoop_ok ds 0 i (by omega)).1 hu
      dsimp only
      have hbig : Big neg ds ↔ (neg = false ∧ 2 ^ 63 ≤ v ∨ 2 ^ 63 < v) := by
        constructor
        · rintro ⟨p, rest, w, h1, h2, h3⟩
          by_cases hw : 2 ^ 64 ≤ w
          · rw [(uintLoop_range ds 0 (by omega)).2 ⟨p, rest, w, h1, h2, hw⟩] at hu; cases hu
          · have hrest : rest = [] := by rcases h3 with h | ⟨h, -⟩ | ⟨h, -⟩ <;> first | exact h | omega
            subst hrest
            rw [List.append_nil] at h1
            subst h1
            rw [hv] at h2; cases h2
            rcases h3 with h | ⟨-, h⟩ | ⟨-, h⟩
            · omega
            · exact .inl h
            · exact .inr h
        · rintro (h | h)
          · exact ⟨ds, [], v, by simp, hv, .inr (.inl ⟨rfl, h⟩)⟩
          · exact ⟨ds, [], v, by simp, hv, .inr (.inr ⟨rfl, h⟩)⟩
      refine Iff.trans ?_ hbig.symm
      clear hbig
      cases neg
      · simp only [Bool.not_false, Bool.true_and, Bool.false_and, Bool.false_eq_true, if_false, true_and]
        by_cases h : (9223372036854775808 : Int) ≤ v
        · rw [if_pos (by simpa using h)]
          exact ⟨fun _ => by omega, fun _ => rfl⟩
        · rw [if_neg (by simpa using h)]
          exact ⟨fun h => (by cases h), fun _ => by omega⟩
      · simp only [Bool.not_true, Bool.true_and, Bool.false_and, Bool.false_eq_true, if_false, false_and, false_or, Bool.true_eq_false]
        by_cases h : (9223372036854775808 : Int) < v
        · rw [if_pos (by simpa using h)]
          exact ⟨fun _ => by omega, fun _ => rfl⟩
        · rw [if_neg (by simpa using h)]
          exact ⟨fun h => (by cases h), fun _ => by omega⟩

/-- The bytes of the digits. -/
theorem digits_str (p : Str) (v : Nat) : Num.digitsVal 0 p = some v ↔
    ∃ ds : List Nat, (∀ d ∈ ds, d < 10) ∧ p = ds.map (fun d => UInt8.ofNat (48 + d)) ∧ v = decimal ds := by
  constructor
  · intro h
    obtain ⟨ds, h1, rfl⟩ := digitsVal_some p 0 v h
    rw [digitsVal_map ds h1] at h
    exact ⟨ds, h1, rfl, by simpa using h.symm⟩
  · rintro ⟨ds, h1, rfl, rfl⟩
    rw [digitsVal_map ds h1]; simp

theorem tooBig_iff (t : Str) : TooBig t ↔
    (∃ ds, t = 43 :: ds ∧ Big false ds) ∨ (∃ ds, t = 45 :: ds ∧ Big true ds) ∨
      (∀ ds, t ≠ 43 :: ds) ∧ (∀ ds, t ≠ 45 :: ds) ∧ Big false t := by
  unfold TooBig Big
  constructor
  · rintro ⟨sign, ds, rest, hs, hds, rfl, hv⟩
    have hval := (digits_str _ (decimal ds)).2 ⟨ds, hds, rfl, rfl⟩
    rcases hs with rfl | rfl | rfl
    · right; right
      have hne : ds ≠ [] := by
        rintro rfl
        have : decimal [] = 0 := rfl
        rw [this] at hv; omega
      have key : ∀ c u, [] ++ ds.map (fun d => UInt8.ofNat (48 + d)) ++ rest = c :: u → c ≠ 43 ∧ c ≠ 45 := by
        intro c u h
        cases ds with
        | nil => exact absurd rfl hne
        | cons d ds =>
          simp only [List.nil_append, List.map_cons, List.cons_append, List.cons.injEq] at h
          exact map_ne_sign (d :: ds) hds c (ds.map fun d => UInt8.ofNat (48 + d)) (by rw [← h.1]; rfl)
      refine ⟨fun u h => (key _ _ h).1 rfl, fun u h => (key _ _ h).2 rfl, _, rest, decimal ds, rfl, hval, ?_⟩
      simpa using hv
    · left
      exact ⟨_, rfl, _, rest, decimal ds, rfl, hval, by simpa using hv⟩
    · right; left
      exact ⟨_, rfl, _, rest, decimal ds, rfl, hval, by simpa using hv⟩
  · rintro (⟨u, rfl, p, rest, v, rfl, h1, h2⟩ | ⟨u, rfl, p, rest, v, rfl, h1, h2⟩ | ⟨-, -, p, rest, v, rfl, h1, h2⟩)
    · obtain ⟨ds, hds, rfl, rfl⟩ := (digits_str p v).1 h1
      exact ⟨b!"+", ds, rest, .inr (.inl rfl), hds, rfl, by simpa using h2⟩
    · obtain ⟨ds, hds, rfl, rfl⟩ := (digits_str p v).1 h1
      exact ⟨b!"-", ds, rest, .inr (.inr rfl), hds, rfl, by simpa using h2⟩
    · obtain ⟨ds, hds, rfl, rfl⟩ := (digits_str p v).1 h1
      exact ⟨[], ds, rest, .inl rfl, hds, rfl, by simpa using h2⟩

theorem parseIntRes_ok (t : Str) (i : Int) : parseIntRes t = .ok i ↔ Numeral t i := by
  rw [numeral_iff, parseInt_eq]
  unfold parseIntRes
  cases t with
  | nil => simp [mkInt]
  | cons c ds =>
    dsimp only
    by_cases h1 : c = 43
    · subst h1; rw [if_pos rfl]; exact signedRes_ok _ _ _
    · by_cases h2 : c = 45
      · subst h2; rw [if_neg h1, if_pos rfl]; exact signedRes_ok _ _ _
      · rw [if_neg h1, if_neg h2]
        have : Num.parseInt (c :: ds) = mkInt false (c :: ds) := by
          rw [parseInt_eq]
          split
          · rename_i h; cases h; exact absurd rfl h1
          · rename_i h; cases h; exact absurd rfl h2
          · rfl
        rw [← parseInt_eq, this]
        exact signedRes_ok _ _ _

theorem parseIntRes_range (t : Str) : parseIntRes t = .range ↔ TooBig t := by
  rw [tooBig_iff]
  unfold parseIntRes
  cases t with
  | nil =>
    constructor
    · intro h; cases h
    · rintro (⟨_, h, _⟩ | ⟨_, h, _⟩ | ⟨-, -, h⟩)
      · cases h
      · cases h
      · rw [← signedRes_range] at h; cases h
  | cons c ds =>
    dsimp only
    by_cases h1 : c = 43
    · subst h1
      rw [if_pos rfl, signedRes_range]
      constructor
      · exact fun h => .inl ⟨ds, rfl, h⟩
      · rintro (⟨_, h, h'⟩ | ⟨_, h, _⟩ | ⟨h, -⟩)
        · cases h; exact h'
        · cases h
        · exact absurd rfl (h ds)
    · by_cases h2 : c = 45
      · subst h2
        rw [if_neg h1, if_pos rfl, signedRes_range]
        constructor
        · exact fun h => .inr (.inl ⟨ds, rfl, h⟩)
        · rintro (⟨_, h, _⟩ | ⟨_, h, h'⟩ | ⟨-, h, -⟩)
          · cases h
          · cases h; exact h'
          · exact absurd rfl (h ds)
      · rw [if_neg h1, if_neg h2, signedRes_range]
        constructor
        · intro h
          refine .inr (.inr ⟨?_, ?_, h⟩)
          · intro _ e; cases e; exact h1 rfl
          · intro _ e; cases e; exact h2 rfl
        · rintro (⟨_, h, _⟩ | ⟨_, h, _⟩ | ⟨-, -, h⟩)
          · cases h; exact absurd rfl h1
          · cases h; exact absurd rfl h2
          · exact h

theorem notNumeral_iff (P : Nat → Bool) (t e : Str) : NotNumeral P t e ↔ intError P t = some e := by
  unfold NotNumeral intError numError
  rw [← parseIntRes_range]
  cases h : parseIntRes t with
  | ok i =>
    constructor
    · rintro ⟨h1, -⟩; exact absurd ((parseIntRes_ok t i).1 h) (h1 i)
    · intro h; cases h
  | malformed =>
    constructor
    · rintro ⟨-, ⟨h1, -⟩ | ⟨-, rfl⟩⟩
      · cases h1
      · simp
    · intro he
      refine ⟨fun i hi => ?_, .inr ⟨by simp, ?_⟩⟩
      · rw [(parseIntRes_ok t i).2 hi] at h; cases h
      · simpa using (Option.some.inj he).symm
  | range =>
    constructor
    · rintro ⟨-, ⟨-, rfl⟩ | ⟨h1, -⟩⟩
      · simp
      · exact absurd rfl h1
    · intro he
      refine ⟨fun i hi => ?_, .inl ⟨rfl, ?_⟩⟩
      · rw [(parseIntRes_ok t i).2 hi] at h; cases h
      · simpa using (Option.some.inj he).symm

theorem intError_none (P : Nat → Bool) (t : Str) : intError P t = none ↔ ∃ i, Num.parseInt t = some i := by
  unfold intError
  simp only [← numeral_iff, ← parseIntRes_ok]
  cases parseIntRes t with
  | ok i => exact ⟨fun _ => ⟨i, rfl⟩, fun _ => rfl⟩
  | malformed => exact ⟨fun h => (by cases h), fun ⟨_, h⟩ => (by cases h)⟩
  | range => exact ⟨fun h => (by cases h), fun ⟨_, h⟩ => (by cases h)⟩

/-! ## One item -/

/-- What is wrong with the positions. -/
def blamePositions (P : Nat → Bool) (index : List Str) : Option (Option (Str × List Str) × Option Str) :=
  match index with
  | [i1] => (intError P i1).map fun e => (some (b!"msg id index is not a number", []), some e)
  | [i1, i2] =>
    if hasSuffix i1 b!"c" then
      match intError P (i1.take (i1.length - 1)) with
      | some e => some (some (b!"context index is not a number: %v", [i1.take (i1.length - 1)]), some e)
      | none => (intError P i2).map fun e => (some (b!"msg id index is not a number: %v", [i2]), some e)
    else
      match intError P i1 with
      | some e => some (some (b!"msg id index is not a number: %v", [i1]), some e)
      | none => (intError P i2).map fun e => (some (b!"msg plural index is not a number: %v", [i2]), some e)
  | [i1, i2, i3] =>
    if hasSuffix i1 b!"c" then
      match intError P (i1.take (i1.length - 1)) with
      | some e => some (some (b!"msg context index is not a number: %v", [i1.take (i1.length - 1)]), some e)
      | none =>
        match intError P i2 with
        | some e => some (some (b!"msg id index is not a number: %v", [i2]), some e)
        | none => (intError P i3).map fun e => (some (b!"msg id index is not a number: %v", [i3]), some e)
    else some (some (b!"context index must end with 'c': %v", [i1]), none)
  | _ => some (some (b!"too much keyword index", []), none)

/-- What is wrong with an item that was split at the colons. -/
def blameParts (P : Nat → Bool) : List Str → Option (Option (Str × List Str) × Option Str)
  | [n] => if trimSpace n = [] then some (none, none) else none
  | [n, ps] => if trimSpace n = [] then some (none, none) else blamePositions P ((splitByte 44 ps).map trimSpace)
  | _ => some (none, none)

theorem blameParts_left (P : Nat → Bool) (w p : Str) (ps : List Str) (hw : White w) :
    blameParts P ((w ++ p) :: ps) = blameParts P (p :: ps) := by
  match ps with
  | [] => simp [blameParts, trimSpace_left w p hw]
  | [a] => simp [blameParts, trimSpace_left w p hw]
  | _ :: _ :: _ => rfl

theorem blameParts_right (P : Nat → Bool) (w p : Str) (ps : List Str) (hw : White w) :
    blameParts P (ps ++ [p ++ w]) = blameParts P (ps ++ [p]) := by
  match ps with
  | [] => simp [blameParts, trimSpace_right w p hw]
  | [a] => simp [blameParts, positions_suffix w p hw]
  | [_, _] => rfl
  | _ :: _ :: _ :: _ => rfl

theorem blameParts_trim (P : Nat → Bool) (item : Str) :
    blameParts P (splitByte 58 (trimSpace item)) = blameParts P (splitByte 58 item) := by
  obtain ⟨w1, w2, h1, h2, hs, -⟩ := trims_trimSpace item
  conv_rhs => rw [hs]
  obtain ⟨ps, p, e1, e2⟩ := splitByte_suffix 58 w2 (w1 ++ trimSpace item) (white_no 58 no_colon w2 h2)
  rw [e2, blameParts_right P w2 p ps h2, ← e1]
  obtain ⟨q, qs, e3, e4⟩ := splitByte_prefix 58 w1 (trimSpace item) (white_no 58 no_colon w1 h1)
  rw [e4, blameParts_left P w1 q qs h1, ← e3]

/-- The text for what is wrong. -/
def textOf (E : Fmt.Env Str) (T : Str → List Str → Str) (msg : Str) : Option (Str × List Str) × Option Str → Str
  | (d, c) => Fmt.sprintf E (msg ++ (d.map fun x => T x.1 x.2).getD []) [] ++ (c.map (b!": " ++ ·)).getD []

theorem positionsText_eq (P : Nat → Bool) (E : Fmt.Env Str) (T : Str → List Str → Str) (msg : Str) (index : List Str) :
    positionsText P E T msg index = (blamePositions P index).map (textOf E T msg) := by
  match index with
  | [] => simp [positionsText, blamePositions, textOf, errorf]
  | [i1] =>
    simp only [positionsText, blamePositions]
    cases intError P i1 <;> simp [textOf, wrapf]
  | [i1, i2] =>
    simp only [positionsText, blamePositions]
    split
    · cases intError P (i1.take (i1.length - 1))
      · cases intError P i2 <;> simp [textOf, wrapf]
      · simp [textOf, wrapf]
    · cases intError P i1
      · cases intError P i2 <;> simp [textOf, wrapf]
      · simp [textOf, wrapf]
  | [i1, i2, i3] =>
    simp only [positionsText, blamePositions]
    by_cases hc : hasSuffix i1 b!"c" = true
    · simp only [hc, Bool.not_true, Bool.false_eq_true, if_false, if_true]
      cases intError P (i1.take (i1.length - 1))
      · cases intError P i2
        · cases intError P i3 <;> simp [textOf, wrapf]
        · simp [textOf, wrapf]
      · simp [textOf, wrapf]
    · simp [hc, textOf, errorf]
  | _ :: _ :: _ :: _ :: _ => simp [positionsText, blamePositions, textOf, errorf]

theorem keywordText_eq (P : Nat → Bool) (E : Fmt.Env Str) (T : Str → List Str → Str) (msg item : Str) :
    keywordText P E T msg item = (blameParts P (splitByte 58 item)).map (textOf E T msg) := by
  rw [← blameParts_trim]
  unfold keywordText
  match splitByte 58 (trimSpace item) with
  | [] => simp [blameParts, textOf, errorf]
  | [n] =>
    dsimp only [blameParts]
    split <;> simp [textOf, errorf]
  | [n, ps] =>
    dsimp only [blameParts]
    split
    · simp [textOf, errorf]
    · exact positionsText_eq P E T msg _
  | _ :: _ :: _ :: _ => simp [blameParts, textOf, errorf]

/-- An item is blamed exactly if it does not declare a keyword. -/
theorem blameParts_none (P : Nat → Bool) (item : Str) : blameParts P (splitByte 58 item) = none ↔
    ∃ k, parseKeyword item = some k := by
  rw [parseKeyword_eq]
  have hpos : ∀ k idx, blamePositions P idx = none ↔ ∃ k', parsePositions k idx = some k' := by
    intro k idx
    match idx with
    | [] => simp [blamePositions, parsePositions]
    | [i1] =>
      simp only [blamePositions, parsePositions, Option.map_eq_none_iff, intError_none]
      cases Num.parseInt i1 <;> simp
    | [i1, i2] =>
      simp only [blamePositions, parsePositions]
      split
      · cases h1 : intError P (i1.take (i1.length - 1)) with
        | none =>
          obtain ⟨i, hi⟩ := (intError_none P _).1 h1
          simp only [hi, Option.map_eq_none_iff, intError_none]
          cases Num.parseInt i2 <;> simp
        | some e =>
          have : Num.parseInt (i1.take (i1.length - 1)) = none := by
            cases hp : Num.parseInt (i1.take (i1.length - 1)) with
            | none => rfl
            | some i => rw [(intError_none P _).2 ⟨i, hp⟩] at h1; cases h1
          simp [this]
      · cases h1 : intError P i1 with
        | none =>
          obtain ⟨i, hi⟩ := (intError_none P _).1 h1
          simp only [hi, Option.map_eq_none_iff, intError_none]
          cases Num.parseInt i2 <;> simp
        | some e =>
          have : Num.parseInt i1 = none := by
            cases hp : Num.parseInt i1 with
            | none => rfl
            | some i => rw [(intError_none P _).2 ⟨i, hp⟩] at h1; cases h1
          simp [this]
    | [i1, i2, i3] =>
      simp only [blamePositions, parsePositions]
      by_cases hc : hasSuffix i1 b!"c" = true
      · simp only [hc, Bool.not_true, Bool.false_eq_true, if_false, if_true]
        cases h1 : intError P (i1.take (i1.length - 1)) with
        | none =>
          obtain ⟨i, hi⟩ := (intError_none P _).1 h1
          cases h2 : intError P i2 with
          | none =>
            obtain ⟨j, hj⟩ := (intError_none P _).1 h2
            simp only [hi, hj, Option.map_eq_none_iff, intError_none]
            cases Num.parseInt i3 <;> simp
          | some e =>
            have : Num.parseInt i2 = none := by
              cases hp : Num.parseInt i2 with
              | none => rfl
              | some i => rw [(intError_none P _).2 ⟨i, hp⟩] at h2; cases h2
            simp [hi, this]
        | some e =>
          have : Num.parseInt (i1.take (i1.length - 1)) = none := by
            cases hp : Num.parseInt (i1.take (i1.length - 1)) with
            | none => rfl
            | some i => rw [(intError_none P _).2 ⟨i, hp⟩] at h1; cases h1
          simp [this]
      · simp [hc]
    | _ :: _ :: _ :: _ :: _ => simp [blamePositions, parsePositions]
  match splitByte 58 item with
  | [] => simp [blameParts, parseParts]
  | [n] =>
    simp only [blameParts, parseParts]
    split <;> simp
  | [n, ps] =>
    simp only [blameParts, parseParts]
    split
    · simp
    · exact hpos _ _
  | _ :: _ :: _ :: _ => simp [blameParts, parseParts]

theorem split_length (c : UInt8) (s : Str) : (splitByte c s).length = s.count c + 1 := by
  induction s with
  | nil => rfl
  | cons x s ih =>
    by_cases hx : x = c
    · subst hx; simp [splitByte, ih]
    · have : splitByte c s ≠ [] := splitByte_ne_nil c s
      simp only [splitByte, if_neg hx, List.count_cons_of_ne hx]
      cases h : splitByte c s with
      | nil => exact absurd h this
      | cons p ps => rw [h] at ih; simpa using ih

theorem noC_iff (t : Str) : NoC t ↔ hasSuffix t b!"c" = false := by
  unfold NoC hasSuffix
  rw [Bool.eq_false_iff, Ne, List.isSuffixOf_iff_suffix]
  constructor
  · rintro h ⟨u, hu⟩; exact h u hu.symm
  · rintro h u rfl; exact h ⟨u, rfl⟩

theorem ends_c (t : Str) (h : hasSuffix t b!"c" = true) : t = t.take (t.length - 1) ++ b!"c" := by
  unfold hasSuffix at h
  rw [List.isSuffixOf_iff_suffix] at h
  obtain ⟨u, rfl⟩ := h
  simp

theorem ends_c' (t : Str) : hasSuffix (t ++ b!"c") b!"c" = true ∧ (t ++ b!"c").take ((t ++ b!"c").length - 1) = t := by
  unfold hasSuffix
  rw [List.isSuffixOf_iff_suffix]
  exact ⟨⟨t, rfl⟩, by simp⟩

theorem blames_iff (P : Nat → Bool) (item : Str) (d : Option (Str × List Str)) (c : Option Str) :
    Blames P item d c ↔ blameParts P (splitByte 58 item) = some (d, c) := by
  have hpos : ∀ (a : Str), (∃ i, Position a i) ↔ intError P (trimSpace a) = none := by
    intro a; rw [intError_none]; simp only [position_iff]
  have hctx : ∀ (a : Str), (∃ i, CtxtPosition a i) ↔ hasSuffix (trimSpace a) b!"c" = true ∧
      intError P ((trimSpace a).take ((trimSpace a).length - 1)) = none := by
    intro a; rw [intError_none]; simp only [ctxtPosition_iff, exists_and_left]
  constructor
  · intro h
    cases h with
    | empty h1 h2 =>
      rw [trims_iff] at h2
      rw [splitByte_no_sep 58 _ h1]
      simp [blameParts, h2]
    | colons h1 =>
      have := split_length 58 item
      match hs : splitByte 58 item with
      | [] => rw [hs] at this; simp at this
      | [_] => rw [hs] at this; simp at this; omega
      | [_, _] => rw [hs] at this; simp at this; omega
      | _ :: _ :: _ :: _ => rfl
    | @noName n a h1 h2 h3 =>
      rw [trims_iff] at h3
      rw [(split_iff2 58 _ n a).mpr ⟨h1, h2, rfl⟩]
      simp [blameParts, h3]
    | @id n name a t e h1 h2 h3 h4 h5 h6 =>
      rw [nameText_iff] at h2
      rw [trims_iff] at h5
      rw [notNumeral_iff] at h6
      rw [(split_iff2 58 _ n a).mpr ⟨h1, h3, rfl⟩]
      simp only [blameParts, h2.1, h2.2, if_false, splitByte_no_sep 44 _ h4, List.map_cons, List.map_nil, blamePositions,
        h5, h6, Option.map_some]
    | @ctxt n name a b t e h1 h2 h3 h4 h5 h6 h7 h8 =>
      rw [nameText_iff] at h2
      rw [trims_iff] at h7
      rw [notNumeral_iff] at h8
      rw [(split_iff2 58 _ n (a ++ b!"," ++ b)).mpr ⟨h1, by simp [h3, h5], by simp⟩]
      obtain ⟨e1, e2⟩ := ends_c' t
      simp only [blameParts, h2.1, h2.2, if_false, (split_iff2 44 _ a b).mpr ⟨h4, h6, rfl⟩, List.map_cons, List.map_nil,
        blamePositions, h7, e1, e2, if_true, h8]
    | @ctxtId n name a b t e i h1 h2 h3 h4 h5 h6 h7 h8 h9 =>
      rw [nameText_iff] at h2
      obtain ⟨e1, e2⟩ := (hctx a).1 ⟨i, h7⟩
      rw [trims_iff] at h8
      rw [notNumeral_iff] at h9
      rw [(split_iff2 58 _ n (a ++ b!"," ++ b)).mpr ⟨h1, by simp [h3, h5], by simp⟩]
      simp only [blameParts, h2.1, h2.2, if_false, (split_iff2 44 _ a b).mpr ⟨h4, h6, rfl⟩, List.map_cons, List.map_nil,
        blamePositions, e1, e2, if_true, h8, h9, Option.map_some]
    | @pluralId n name a b t e h1 h2 h3 h4 h5 h6 h7 h8 h9 =>
      rw [nameText_iff] at h2
      rw [trims_iff] at h7
      rw [noC_iff] at h8
      rw [notNumeral_iff] at h9
      rw [(split_iff2 58 _ n (a ++ b!"," ++ b)).mpr ⟨h1, by simp [h3, h5], by simp⟩]
      simp only [blameParts, h2.1, h2.2, if_false, (split_iff2 44 _ a b).mpr ⟨h4, h6, rfl⟩, List.map_cons, List.map_nil,
        blamePositions, h7, h8, Bool.false_eq_true, h9]
    | @plural n name a b t e i h1 h2 h3 h4 h5 h6 h7 h8 h9 =>
      rw [nameText_iff] at h2
      have hc := position_not_c a i h7
      have e1 := (hpos a).1 ⟨i, h7⟩
      rw [trims_iff] at h8
      rw [notNumeral_iff] at h9
      rw [(split_iff2 58 _ n (a ++ b!"," ++ b)).mpr ⟨h1, by simp [h3, h5], by simp⟩]
      simp only [blameParts, h2.1, h2.2, if_false, (split_iff2 44 _ a b).mpr ⟨h4, h6, rfl⟩, List.map_cons, List.map_nil,
        blamePositions, hc, e1, Bool.false_eq_true, h8, h9, Option.map_some]
    | @noC n name a b d t h1 h2 h3 h4 h5 h6 h7 h8 h9 h10 =>
      rw [nameText_iff] at h2
      rw [trims_iff] at h9
      rw [noC_iff] at h10
      rw [(split_iff2 58 _ n (a ++ b!"," ++ b ++ b!"," ++ d)).mpr ⟨h1, by simp [h3, h5, h7], by simp⟩]
      simp only [blameParts, h2.1, h2.2, if_false, (split_iff3 44 _ a b d).mpr ⟨h4, h6, h8, rfl⟩, List.map_cons,
        List.map_nil, blamePositions, h9, h10, Bool.false_eq_true]
    | @ctxt3 n name a b d t e h1 h2 h3 h4 h5 h6 h7 h8 h9 h10 =>
      rw [nameText_iff] at h2
      rw [trims_iff] at h9
      rw [notNumeral_iff] at h10
      obtain ⟨e1, e2⟩ := ends_c' t
      rw [(split_iff2 58 _ n (a ++ b!"," ++ b ++ b!"," ++ d)).mpr ⟨h1, by simp [h3, h5, h7], by simp⟩]
      simp only [blameParts, h2.1, h2.2, if_false, (split_iff3 44 _ a b d).mpr ⟨h4, h6, h8, rfl⟩, List.map_cons,
        List.map_nil, blamePositions, h9, e1, e2, if_true, h10]
    | @id3 n name a b d t e i h1 h2 h3 h4 h5 h6 h7 h8 h9 h10 h11 =>
      rw [nameText_iff] at h2
      obtain ⟨e1, e2⟩ := (hctx a).1 ⟨i, h9⟩
      rw [trims_iff] at h10
      rw [notNumeral_iff] at h11
      rw [(split_iff2 58 _ n (a ++ b!"," ++ b ++ b!"," ++ d)).mpr ⟨h1, by simp [h3, h5, h7], by simp⟩]
      simp only [blameParts, h2.1, h2.2, if_false, (split_iff3 44 _ a b d).mpr ⟨h4, h6, h8, rfl⟩, List.map_cons,
        List.map_nil, blamePositions, e1, e2, if_true, h10, h11]
    | @plural3 n name a b d t e i j h1 h2 h3 h4 h5 h6 h7 h8 h9 h10 h11 h12 =>
      rw [nameText_iff] at h2
      obtain ⟨e1, e2⟩ := (hctx a).1 ⟨i, h9⟩
      have e3 := (hpos b).1 ⟨j, h10⟩
      rw [trims_iff] at h11
      rw [notNumeral_iff] at h12
      rw [(split_iff2 58 _ n (a ++ b!"," ++ b ++ b!"," ++ d)).mpr ⟨h1, by simp [h3, h5, h7], by simp⟩]
      simp only [blameParts, h2.1, h2.2, if_false, (split_iff3 44 _ a b d).mpr ⟨h4, h6, h8, rfl⟩, List.map_cons,
        List.map_nil, blamePositions, e1, e2, e3, if_true, h11, h12, Option.map_some]
    | @many n name ps h1 h2 h3 h4 =>
      rw [nameText_iff] at h2
      rw [(split_iff2 58 _ n ps).mpr ⟨h1, h3, rfl⟩]
      have := split_length 44 ps
      match hs : splitByte 44 ps with
      | [] => rw [hs] at this; simp at this
      | [_] => rw [hs] at this; simp at this; omega
      | [_, _] => rw [hs] at this; simp at this; omega
      | [_, _, _] => rw [hs] at this; simp at this; omega
      | _ :: _ :: _ :: _ :: _ => simp [blameParts, h2.1, h2.2, blamePositions, hs]
  · intro h
    match hs : splitByte 58 item with
    | [] => exact absurd hs (splitByte_ne_nil _ _)
    | [n] =>
      obtain ⟨h1, rfl⟩ := (split_iff1 58 item n).mp hs
      rw [hs] at h
      simp only [blameParts] at h
      split at h
      · rename_i hn
        cases h
        exact .empty h1 ((trims_iff _ _).2 hn)
      · cases h
    | [n, ps] =>
      obtain ⟨h1, h2, rfl⟩ := (split_iff2 58 item n ps).mp hs
      rw [hs] at h
      simp only [blameParts] at h
      split at h
      · rename_i hn
        cases h
        exact .noName h1 h2 ((trims_iff _ _).2 hn)
      · rename_i hn
        have hname : NameText n (trimSpace n) := (nameText_iff _ _).2 ⟨rfl, hn⟩
        match hp : splitByte 44 ps with
        | [] => exact absurd hp (splitByte_ne_nil _ _)
        | [a] =>
          obtain ⟨h3, rfl⟩ := (split_iff1 44 ps a).mp hp
          rw [hp] at h
          simp only [List.map_cons, List.map_nil, blamePositions] at h
          cases he : intError P (trimSpace ps) with
          | none => rw [he] at h; cases h
          | some e =>
            rw [he] at h; cases h
            exact .id h1 hname h2 h3 ((trims_iff _ _).2 rfl) ((notNumeral_iff _ _ _).2 he)
        | [a, b] =>
          obtain ⟨h3, h4, rfl⟩ := (split_iff2 44 ps a b).mp hp
          rw [hp] at h
          simp only [List.map_cons, List.map_nil, blamePositions] at h
          simp only [List.mem_append, List.mem_singleton, not_or] at h2
          have hshape : n ++ [58] ++ (a ++ [44] ++ b) = n ++ b!":" ++ a ++ b!"," ++ b := by simp
          rw [hshape]
          by_cases hc : hasSuffix (trimSpace a) b!"c" = true
          · rw [if_pos hc] at h
            cases he : intError P ((trimSpace a).take ((trimSpace a).length - 1)) with
            | some e =>
              rw [he] at h; cases h
              exact .ctxt h1 hname h2.1.1 h3 h2.2 h4 ((trims_iff _ _).2 (ends_c _ hc)) ((notNumeral_iff _ _ _).2 he)
            | none =>
              rw [he] at h
              dsimp only at h
              obtain ⟨i, hi⟩ := (hctx a).2 ⟨hc, he⟩
              cases he2 : intError P (trimSpace b) with
              | none => rw [he2] at h; cases h
              | some e =>
                rw [he2] at h; cases h
                exact .ctxtId h1 hname h2.1.1 h3 h2.2 h4 hi ((trims_iff _ _).2 rfl) ((notNumeral_iff _ _ _).2 he2)
          · rw [if_neg hc] at h
            cases he : intError P (trimSpace a) with
            | some e =>
              rw [he] at h; cases h
              exact .pluralId h1 hname h2.1.1 h3 h2.2 h4 ((trims_iff _ _).2 rfl) ((noC_iff _).2 (by simpa using hc))
                ((notNumeral_iff _ _ _).2 he)
            | none =>
              rw [he] at h
              dsimp only at h
              obtain ⟨i, hi⟩ := (hpos a).2 he
              cases he2 : intError P (trimSpace b) with
              | none => rw [he2] at h; cases h
              | some e =>
                rw [he2] at h; cases h
                exact .plural h1 hname h2.1.1 h3 h2.2 h4 hi ((trims_iff _ _).2 rfl) ((notNumeral_iff _ _ _).2 he2)
        | [a, b, x] =>
          obtain ⟨h3, h4, h5, rfl⟩ := (split_iff3 44 ps a b x).mp hp
          rw [hp] at h
          simp only [List.map_cons, List.map_nil, blamePositions] at h
          simp only [List.mem_append, List.mem_singleton, not_or] at h2
          have hshape : n ++ [58] ++ (a ++ [44] ++ b ++ [44] ++ x) = n ++ b!":" ++ a ++ b!"," ++ b ++ b!"," ++ x := by simp
          rw [hshape]
          obtain ⟨⟨⟨⟨g1, -⟩, g2⟩, -⟩, g3⟩ := h2
          by_cases hc : hasSuffix (trimSpace a) b!"c" = true
          · rw [if_pos hc] at h
            cases he : intError P ((trimSpace a).take ((trimSpace a).length - 1)) with
            | some e =>
              rw [he] at h; cases h
              exact .ctxt3 h1 hname g1 h3 g2 h4 g3 h5 ((trims_iff _ _).2 (ends_c _ hc)) ((notNumeral_iff _ _ _).2 he)
            | none =>
              rw [he] at h
              dsimp only at h
              obtain ⟨i, hi⟩ := (hctx a).2 ⟨hc, he⟩
              cases he2 : intError P (trimSpace b) with
              | some e =>
                rw [he2] at h; cases h
                exact .id3 h1 hname g1 h3 g2 h4 g3 h5 hi ((trims_iff _ _).2 rfl) ((notNumeral_iff _ _ _).2 he2)
              | none =>
                rw [he2] at h
                dsimp only at h
                obtain ⟨j, hj⟩ := (hpos b).2 he2
                cases he3 : intError P (trimSpace x) with
                | none => rw [he3] at h; cases h
                | some e =>
                  rw [he3] at h; cases h
                  exact .plural3 h1 hname g1 h3 g2 h4 g3 h5 hi hj ((trims_iff _ _).2 rfl) ((notNumeral_iff _ _ _).2 he3)
          · rw [if_neg hc] at h
            cases h
            exact .noC h1 hname g1 h3 g2 h4 g3 h5 ((trims_iff _ _).2 rfl) ((noC_iff _).2 (by simpa using hc))
        | a :: b :: x :: y :: l =>
          rw [hp] at h
          simp only [List.map_cons, blamePositions, Option.some.injEq, Prod.mk.injEq] at h
          obtain ⟨rfl, rfl⟩ := h
          have := split_length 44 ps
          rw [hp] at this
          simp at this
          exact .many h1 hname h2 (by omega)
    | a :: b :: x :: l =>
      rw [hs] at h
      cases h
      have := split_length 58 item
      rw [hs] at this
      simp at this
      exact .colons (by omega)

/-! ## The list of items -/

theorem split_eq (s : Str) (items : List Str) : splitByte 59 s = items ↔
    items ≠ [] ∧ (∀ t ∈ items, 59 ∉ t) ∧ s = List.intercalate b!";" items := by
  constructor
  · rintro rfl
    exact ⟨splitByte_ne_nil _ _, splitByte_not_mem 59 s, (intercalate_splitByte 59 s).symm⟩
  · rintro ⟨h1, h2, rfl⟩
    exact splitByte_intercalate 59 items h1 h2

/-- `fmt.Sprintf` of a text without arguments gives the text itself exactly if there is no `%` in it. -/
theorem C73_plain {α : Type} (E : Fmt.Env α) (s : Str) : Fmt.sprintf E s [] = s ↔ 37 ∉ s := Fmt.sprintf_nil E s

/-- There is a message exactly if `ParseKeywords` fails. -/
theorem C73_exists (P : Nat → Bool) (E : Fmt.Env Str) (T : Str → List Str → Str) (s : Str) :
    (∃ m, keywordsText P E T s = some m) ↔ parseKeywords s = none := by
  unfold keywordsText parseKeywords
  generalize splitByte 59 s = items
  induction items with
  | nil => simp [parseItems]
  | cons item items ih =>
    rw [List.findSome?_cons, keywordText_eq, parseItems]
    cases hb : blameParts P (splitByte 58 item) with
    | none =>
      obtain ⟨k, hk⟩ := (blameParts_none P item).1 hb
      rw [hk]
      dsimp only [Option.map_none]
      rw [ih]
      cases parseItems items <;> simp
    | some x =>
      have : parseKeyword item = none := by
        cases hk : parseKeyword item with
        | none => rfl
        | some k => rw [(blameParts_none P item).2 ⟨k, hk⟩] at hb; cases hb
      rw [this]
      simp

/-- The message is about the first item that declares no keyword: the text of what is wrong with it, printed as a format,
and the cause. -/
theorem C73_message (P : Nat → Bool) (E : Fmt.Env Str) (T : Str → List Str → Str) (s m : Str) :
    keywordsText P E T s = some m ↔ ∃ pre item post d c,
      (∀ t ∈ pre ++ item :: post, 59 ∉ t) ∧ s = List.intercalate b!";" (pre ++ item :: post) ∧
      (∀ t ∈ pre, ∃ k, Declares t k) ∧ Blames P item d c ∧
      m = Fmt.sprintf E (T b!"invalid keywords: %s" [s] ++ (d.map fun x => T x.1 x.2).getD []) [] ++
        (c.map (b!": " ++ ·)).getD [] := by
  unfold keywordsText
  have key : ∀ (msg : Str) (items : List Str), items.findSome? (keywordText P E T msg) = some m ↔ ∃ pre item post d c,
      items = pre ++ item :: post ∧ (∀ t ∈ pre, ∃ k, Declares t k) ∧ Blames P item d c ∧ m = textOf E T msg (d, c) := by
    intro msg items
    induction items with
    | nil => simp
    | cons item items ih =>
      rw [List.findSome?_cons, keywordText_eq]
      cases hb : blameParts P (splitByte 58 item) with
      | none =>
        obtain ⟨k, hk⟩ := (blameParts_none P item).1 hb
        dsimp only [Option.map_none]
        rw [ih]
        constructor
        · rintro ⟨pre, it, post, d, c, rfl, h1, h2, h3⟩
          refine ⟨item :: pre, it, post, d, c, rfl, ?_, h2, h3⟩
          intro t ht
          rcases List.mem_cons.1 ht with rfl | ht
          · exact ⟨k, (declares_iff _ _).2 hk⟩
          · exact h1 t ht
        · rintro ⟨pre, it, post, d, c, h, h1, h2, h3⟩
          cases pre with
          | nil =>
            cases h
            rw [(blames_iff P _ d c).1 h2] at hb; cases hb
          | cons p pre =>
            cases h
            exact ⟨pre, it, post, d, c, rfl, fun t ht => h1 t (List.mem_cons_of_mem _ ht), h2, h3⟩
      | some x =>
        obtain ⟨d, c⟩ := x
        dsimp only [Option.map_some]
        constructor
        · intro h
          cases h
          exact ⟨[], item, items, d, c, rfl, by simp, (blames_iff P _ d c).2 hb, rfl⟩
        · rintro ⟨pre, it, post, d', c', h, h1, h2, h3⟩
          cases pre with
          | nil =>
            cases h
            rw [(blames_iff P _ d' c').1 h2] at hb; cases hb
            rw [h3]
          | cons p pre =>
            cases h
            obtain ⟨k, hk⟩ := h1 item (by simp)
            rw [(blameParts_none P item).2 ⟨k, (declares_iff _ _).1 hk⟩] at hb; cases hb
  rw [key]
  constructor
  · rintro ⟨pre, item, post, d, c, h, h1, h2, h3⟩
    obtain ⟨-, g1, g2⟩ := (split_eq s _).1 h
    exact ⟨pre, item, post, d, c, g1, g2, h1, h2, h3⟩
  · rintro ⟨pre, item, post, d, c, g1, g2, h1, h2, h3⟩
    exact ⟨pre, item, post, d, c, (split_eq s _).2 ⟨by simp, g1, g2⟩, h1, h2, h3⟩

/-- What is wrong with an item is determined by the item. -/
theorem C73_unique (P : Nat → Bool) (item : Str) (d d' : Option (Str × List Str)) (c c' : Option Str)
    (h : Blames P item d c) (h' : Blames P item d' c') : d = d' ∧ c = c' := by
  rw [blames_iff] at h h'
  rw [h] at h'
  cases h'; exact ⟨rfl, rfl⟩

/-- An item is blamed or declares a keyword, and not both. -/
theorem C73_exclusive (P : Nat → Bool) (item : Str) : (∃ d c, Blames P item d c) ↔ ∀ k, ¬ Declares item k := by
  simp only [blames_iff, declares_iff]
  constructor
  · rintro ⟨d, c, h⟩ k hk
    rw [(blameParts_none P item).2 ⟨k, hk⟩] at h; cases h
  · intro h
    cases hb : blameParts P (splitByte 58 item) with
    | none =>
      obtain ⟨k, hk⟩ := (blameParts_none P item).1 hb
      exact absurd hk (h k)
    | some x => exact ⟨x.1, x.2, rfl⟩

/-! ## The English message -/

/-- The text of a detail: its argument in place of the `%v` at its end. -/
def english : Str × List Str → Str
  | (f, [t]) => f.take (f.length - 2) ++ t
  | (f, _) => f

theorem untranslated_keywords (s : Str) : untranslated b!"invalid keywords: %s" [s] = b!"invalid keywords: " ++ s := by
  have : Fmt.sprintf strEnv b!"invalid keywords: %s%[2]s" [s, []] = b!"invalid keywords: " ++ ((s ++ []) ++ []) := rfl
  rw [List.append_nil, List.append_nil] at this
  exact this

/-- The details with an argument. -/
def details : List Str := [b!"context index is not a number: %v", b!"msg id index is not a number: %v",
  b!"msg plural index is not a number: %v", b!"context index must end with 'c': %v",
  b!"msg context index is not a number: %v"]

theorem untranslated_detail (f : Str) (hf : f ∈ details) (t : Str) : untranslated f [t] = english (f, [t]) := by
  have key : ∀ f ∈ details, Fmt.sprintf strEnv (f ++ b!"%[" ++ Num.natDigits 2 ++ b!"]s") [t, []] =
      f.take (f.length - 2) ++ ((t ++ []) ++ []) := by
    intro f hf
    simp only [details, List.mem_cons, List.not_mem_nil, or_false] at hf
    rcases hf with rfl | rfl | rfl | rfl | rfl <;> rfl
  have := key f hf
  rw [List.append_nil, List.append_nil] at this
  exact this

theorem trims_mem (a t : Str) (h : Trims a t) (x : UInt8) (hx : x ∈ t) : x ∈ a := by
  obtain ⟨w1, w2, -, -, rfl, -⟩ := h
  simp [hx]

/-- The details of the messages: the argument is part of the item. -/
theorem blames_detail (P : Nat → Bool) (item : Str) (d : Str × List Str) (c : Option Str) (h : Blames P item (some d) c) :
    (d.2 = [] ∧ (37 : UInt8) ∉ d.1) ∨ ∃ t, d.2 = [t] ∧ d.1 ∈ details ∧ ∀ x ∈ t, x ∈ item := by
  cases h with
  | id => exact .inl ⟨rfl, by decide⟩
  | ctxt _ _ _ _ _ _ h => exact .inr ⟨_, rfl, by simp [details], fun x hx => by simp [trims_mem _ _ h x (by simp [hx])]⟩
  | ctxtId _ _ _ _ _ _ _ h => exact .inr ⟨_, rfl, by simp [details], fun x hx => by simp [trims_mem _ _ h x hx]⟩
  | pluralId _ _ _ _ _ _ h => exact .inr ⟨_, rfl, by simp [details], fun x hx => by simp [trims_mem _ _ h x hx]⟩
  | plural _ _ _ _ _ _ _ h => exact .inr ⟨_, rfl, by simp [details], fun x hx => by simp [trims_mem _ _ h x hx]⟩
  | noC _ _ _ _ _ _ _ _ h => exact .inr ⟨_, rfl, by simp [details], fun x hx => by simp [trims_mem _ _ h x hx]⟩
  | ctxt3 _ _ _ _ _ _ _ _ h => exact .inr ⟨_, rfl, by simp [details], fun x hx => by simp [trims_mem _ _ h x (by simp [hx])]⟩
  | id3 _ _ _ _ _ _ _ _ _ h => exact .inr ⟨_, rfl, by simp [details], fun x hx => by simp [trims_mem _ _ h x hx]⟩
  | plural3 _ _ _ _ _ _ _ _ _ _ h => exact .inr ⟨_, rfl, by simp [details], fun x hx => by simp [trims_mem _ _ h x hx]⟩
  | many => exact .inl ⟨rfl, by decide⟩

theorem mem_intercalate (items : List Str) (t : Str) (ht : t ∈ items) (x : UInt8) (hx : x ∈ t) :
    x ∈ List.intercalate b!";" items := by
  induction items with
  | nil => cases ht
  | cons a items ih =>
    cases items with
    | nil =>
      rw [List.mem_singleton] at ht
      subst ht
      rw [intercalate_single]; exact hx
    | cons b items =>
      rw [intercalate_cons_cons]
      rcases List.mem_cons.1 ht with rfl | ht
      · simp [hx]
      · simp [ih ht]

/-- Without translations the message repeats the declarations and says what is wrong with the first bad one exactly if there
is no `%` in them: the text is used as a format. -/
theorem C73_faithful (P : Nat → Bool) (E : Fmt.Env Str) (s m item : Str) (pre post : List Str)
    (d : Option (Str × List Str)) (c : Option Str) (hno : ∀ t ∈ pre ++ item :: post, 59 ∉ t)
    (hs : s = List.intercalate b!";" (pre ++ item :: post)) (hpre : ∀ t ∈ pre, ∃ k, Declares t k) (hb : Blames P item d c)
    (hm : keywordsText P E untranslated s = some m) :
    m = b!"invalid keywords: " ++ s ++ (d.map english).getD [] ++ (c.map (b!": " ++ ·)).getD [] ↔ 37 ∉ s := by
  have h := (C73_message P E untranslated s _).2 ⟨pre, item, post, d, c, hno, hs, hpre, hb, rfl⟩
  rw [hm] at h
  have h := Option.some.inj h
  have hd : (d.map fun x => untranslated x.1 x.2).getD [] = (d.map english).getD [] ∧
      ((37 : UInt8) ∈ (d.map english).getD [] → (37 : UInt8) ∈ item) := by
    cases d with
    | none => exact ⟨rfl, fun h => (by cases h)⟩
    | some d =>
      obtain ⟨f, args⟩ := d
      rcases blames_detail P item (f, args) c hb with ⟨h1, h2⟩ | ⟨t, h1, h2, h3⟩
      · dsimp only at h1 h2
        subst h1
        exact ⟨rfl, fun h => absurd h h2⟩
      · dsimp only at h1 h2
        subst h1
        refine ⟨untranslated_detail f h2 t, fun h => h3 _ ?_⟩
        have key : ∀ f ∈ details, (37 : UInt8) ∉ f.take (f.length - 2) := by decide +kernel
        rcases List.mem_append.1 (show (37 : UInt8) ∈ f.take (f.length - 2) ++ t from h) with h | h
        · exact absurd h (key f h2)
        · exact h
  rw [h, untranslated_keywords, hd.1, List.append_left_inj, C73_plain]
  simp only [List.mem_append, not_or]
  constructor
  · exact fun h => h.1.2
  · intro h
    refine ⟨⟨by decide, h⟩, fun h' => h ?_⟩
    rw [hs]
    exact mem_intercalate _ item (by simp) _ (hd.2 h')

/-! ## Examples -/

/-- Printable ASCII. -/
def ascii (r : Nat) : Bool := 32 ≤ r && r < 127

example : keywordsText ascii strEnv untranslated b!"T;N:1,b" =
    some b!"invalid keywords: T;N:1,bmsg plural index is not a number: b: strconv.ParseInt: parsing \"b\": invalid syntax" := by
  decide +kernel
example : keywordsText ascii strEnv untranslated b!"T:99999999999999999999c,1" =
    some (b!"invalid keywords: T:99999999999999999999c,1context index is not a number: 99999999999999999999: " ++
      b!"strconv.ParseInt: parsing \"99999999999999999999\": value out of range") := by decide +kernel
example : keywordsText ascii strEnv untranslated b!"T;100%d" = none := by decide +kernel
example : keywordsText ascii strEnv untranslated b!"T;100%d;" =
    some b!"invalid keywords: T;100%!d(MISSING);" := by decide +kernel
example : keywordsText ascii strEnv untranslated b!"T:1,2,3" =
    some b!"invalid keywords: T:1,2,3context index must end with 'c': 1" := by decide +kernel
example (P : Nat → Bool) : Blames P b!"T:1,2,3" (some (b!"context index must end with 'c': %v", [b!"1"])) none :=
  (blames_iff _ _ _ _).2 (by rfl)
example : TooBig b!"99999999999999999999x" := (parseIntRes_range _).1 (by decide +kernel)
example : ¬ TooBig b!"9223372036854775807x" := fun h => absurd ((parseIntRes_range _).2 h) (by decide +kernel)

end Verif.Xt
