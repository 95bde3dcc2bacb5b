import Verif.Spec.LibintlPlural
import Verif.Spec.Served
import Verif.Props.C06
import Verif.Props.C07
import Verif.Props.C117
/-!
# C125 C programs and Go programs show the same plural form
-/
namespace Verif.Libintl
open Verif Verif.Plural

/-! ## Values -/

theorem int64_natural {x : Int64} (h : 0 ≤ x) : x.toBitVec.msb = false := by
  rw [Int64.le_iff_toInt_le] at h
  have h : 0 ≤ x.toBitVec.toInt := h
  rw [BitVec.msb_eq_toInt]
  simpa using h

theorem toInt_natural {x : Int64} (h : 0 ≤ x) : x.toInt = x.toUInt64.toNat :=
  BitVec.toInt_eq_toNat_of_msb (int64_natural h)

theorem u_add (x y : Int64) : (x + y).toUInt64 = x.toUInt64 + y.toUInt64 := rfl
theorem u_sub (x y : Int64) : (x - y).toUInt64 = x.toUInt64 - y.toUInt64 := rfl
theorem u_mul (x y : Int64) : (x * y).toUInt64 = x.toUInt64 * y.toUInt64 := rfl

theorem u_inj {x y : Int64} : x.toUInt64 = y.toUInt64 ↔ x = y := by
  constructor
  · intro h
    cases x; cases y
    simpa using h
  · rintro rfl; rfl

theorem u_div {x y : Int64} (hx : 0 ≤ x) (hy : 0 ≤ y) : (x / y).toUInt64 = x.toUInt64 / y.toUInt64 := by
  have : (x / y).toBitVec = x.toBitVec / y.toBitVec := by
    change x.toBitVec.sdiv y.toBitVec = _
    rw [BitVec.sdiv_eq, int64_natural hx, int64_natural hy]
    rfl
  exact congrArg UInt64.ofBitVec this

theorem u_mod {x y : Int64} (hx : 0 ≤ x) (hy : 0 ≤ y) : (x % y).toUInt64 = x.toUInt64 % y.toUInt64 := by
  have : (x % y).toBitVec = x.toBitVec % y.toBitVec := by
    change x.toBitVec.srem y.toBitVec = _
    rw [BitVec.srem_eq, int64_natural hx, int64_natural hy]
  exact congrArg UInt64.ofBitVec this

theorem u_lt {x y : Int64} (hx : 0 ≤ x) (hy : 0 ≤ y) : x.toUInt64 < y.toUInt64 ↔ x < y := by
  rw [Int64.lt_iff_toInt_lt, toInt_natural hx, toInt_natural hy, UInt64.lt_iff_toNat_lt]
  omega

theorem u_le {x y : Int64} (hx : 0 ≤ x) (hy : 0 ≤ y) : x.toUInt64 ≤ y.toUInt64 ↔ x ≤ y := by
  rw [Int64.le_iff_toInt_le, toInt_natural hx, toInt_natural hy, UInt64.le_iff_toNat_le]
  omega

theorem u_zero {x : Int64} : x.toUInt64 = 0 ↔ x = 0 := u_inj (y := 0)

theorem u_truth {P Q : Prop} [Decidable P] [Decidable Q] (h : Q ↔ P) : utruth Q = (truth P).toUInt64 := by
  unfold utruth truth
  by_cases hp : P
  · rw [if_pos hp, if_pos (h.2 hp)]; rfl
  · rw [if_neg hp, if_neg (fun x => hp (h.1 x))]; rfl

theorem u_lit {ds : Str} {v : Int64} (h : litVal ds = some v) :
    UInt64.ofNat (ds.foldl (fun a c => a * 10 + (c.toNat - 48)) 0) = v.toUInt64 := by
  unfold litVal at h
  split at h
  · dsimp only at h
    split at h
    · rw [← Option.some.inj h]; rfl
    · cases h
  · cases h

/-- Where C on signed numbers defines a value, libintl, with unsigned numbers, computes the same. -/
theorem uval_cval {n : Int64} (t : Exp) (hg : inGrammar t = true) (hs : signless n t = true) :
    ∀ v, cval n t = some v → uval n.toUInt64 t = some v.toUInt64 := by
  induction t with
  | n => intro v h; cases h; rfl
  | int ds => intro v h; rw [uval, u_lit h]
  | paren e ih => exact ih hg hs
  | post o e => cases hg
  | pre o e ih =>
    intro v h
    simp only [inGrammar, Bool.and_eq_true, beq_iff_eq] at hg
    obtain ⟨rfl, hg⟩ := hg
    simp only [cval, Option.map_eq_some_iff] at h
    obtain ⟨x, hx, rfl⟩ := h
    rw [uval, if_pos rfl, ih hg hs x hx, Option.map_some, u_truth u_zero]
  | bin o l r ihl ihr =>
    intro v h
    simp only [inGrammar, Bool.and_eq_true, bne_iff_ne, ne_eq] at hg
    obtain ⟨⟨⟨⟨⟨⟨h1, h2⟩, h3⟩, h4⟩, h5⟩, hgl⟩, hgr⟩ := hg
    simp only [signless, Bool.and_eq_true] at hs
    obtain ⟨⟨hsl, hsr⟩, hn⟩ := hs
    simp only [cval, Option.bind_eq_some_iff] at h
    obtain ⟨x, hx, h⟩ := h
    rw [uval, ihl hgl hsl x hx, Option.bind_some]
    have hnat : ∀ y, cval n r = some y → (o = .div ∨ o = .mod ∨ o = .gt ∨ o = .lt ∨ o = .ge ∨ o = .le) → 0 ≤ x ∧ 0 ≤ y := by
      intro y hy ho
      have : (o == .div || o == .mod || o == .gt || o == .lt || o == .ge || o == .le) = true := by
        rcases ho with rfl | rfl | rfl | rfl | rfl | rfl <;> rfl
      rw [this, hx, hy] at hn
      simpa [natural] using hn
    cases o
    case shr => exact absurd rfl h1
    case shl => exact absurd rfl h2
    case band => exact absurd rfl h3
    case bxor => exact absurd rfl h4
    case bor => exact absurd rfl h5
    case land =>
      dsimp only at h ⊢
      by_cases hx0 : x = 0
      · rw [if_pos hx0] at h
        rw [if_pos (u_zero.2 hx0), ← Option.some.inj h]; rfl
      · rw [if_neg hx0] at h
        obtain ⟨y, hy, rfl⟩ := Option.map_eq_some_iff.1 h
        rw [if_neg (fun h => hx0 (u_zero.1 h)), ihr hgr hsr y hy, Option.map_some, u_truth (not_congr u_zero)]
    case lor =>
      dsimp only at h ⊢
      by_cases hx0 : x ≠ 0
      · rw [if_pos hx0] at h
        rw [if_pos (fun h => hx0 (u_zero.1 h)), ← Option.some.inj h]; rfl
      · rw [if_neg hx0] at h
        obtain ⟨y, hy, rfl⟩ := Option.map_eq_some_iff.1 h
        rw [if_neg (fun h => hx0 (fun h' => h (u_zero.2 h'))), ihr hgr hsr y hy, Option.map_some, u_truth (not_congr u_zero)]
    all_goals
      dsimp only at h ⊢
      obtain ⟨y, hy, h⟩ := Option.bind_eq_some_iff.1 h
      rw [ihr hgr hsr y hy, Option.bind_some]
    case div =>
      obtain ⟨h1, h2⟩ := hnat y hy (by simp)
      split at h
      · cases h
      · rw [if_neg (fun h => by have := u_zero.1 h; contradiction), ← Option.some.inj h, u_div h1 h2]
    case mod =>
      obtain ⟨h1, h2⟩ := hnat y hy (by simp)
      split at h
      · cases h
      · rw [if_neg (fun h => by have := u_zero.1 h; contradiction), ← Option.some.inj h, u_mod h1 h2]
    case add => rw [← Option.some.inj h, u_add]
    case sub => rw [← Option.some.inj h, u_sub]
    case mul => rw [← Option.some.inj h, u_mul]
    case eq => rw [← Option.some.inj h, ← u_truth u_inj]
    case ne => rw [← Option.some.inj h, ← u_truth (not_congr u_inj)]
    case gt => obtain ⟨h1, h2⟩ := hnat y hy (by simp); rw [← Option.some.inj h, ← u_truth (u_lt h2 h1)]
    case lt => obtain ⟨h1, h2⟩ := hnat y hy (by simp); rw [← Option.some.inj h, ← u_truth (u_lt h1 h2)]
    case ge => obtain ⟨h1, h2⟩ := hnat y hy (by simp); rw [← Option.some.inj h, ← u_truth (u_le h2 h1)]
    case le => obtain ⟨h1, h2⟩ := hnat y hy (by simp); rw [← Option.some.inj h, ← u_truth (u_le h1 h2)]
  | tern c a b ihc iha ihb =>
    intro v h
    simp only [inGrammar, Bool.and_eq_true] at hg
    simp only [signless, Bool.and_eq_true] at hs
    simp only [cval, Option.bind_eq_some_iff] at h
    obtain ⟨x, hx, h⟩ := h
    rw [uval, ihc hg.1.1 hs.1.1 x hx, Option.bind_some]
    by_cases hx0 : x ≠ 0
    · rw [if_pos hx0] at h
      rw [if_pos (fun h => hx0 (u_zero.1 h)), iha hg.1.2 hs.1.2 v h]
    · rw [if_neg hx0] at h
      rw [if_neg (fun h => hx0 (fun h' => h (u_zero.2 h'))), ihb hg.2 hs.2 v h]

theorem natural_iff {x : Int64} : 0 ≤ x ↔ x.toUInt64.toNat < 2 ^ 63 := by
  constructor
  · intro h
    have h1 := toInt_natural h
    have := Int64.toInt_lt x
    omega
  · intro h
    rw [Int64.le_iff_toInt_le]
    change 0 ≤ x.toBitVec.toInt
    rw [BitVec.toInt_eq_toNat_of_lt (by change 2 * x.toUInt64.toNat < 2 ^ 64; omega)]
    omega

theorem natural_div {x y : Int64} (hx : 0 ≤ x) (hy : 0 ≤ y) : 0 ≤ x / y := by
  rw [natural_iff, u_div hx hy, UInt64.toNat_div]
  exact Nat.lt_of_le_of_lt (Nat.div_le_self _ _) (natural_iff.1 hx)

theorem natural_mod {x y : Int64} (hx : 0 ≤ x) (hy : 0 ≤ y) : 0 ≤ x % y := by
  rw [natural_iff, u_mod hx hy, UInt64.toNat_mod]
  exact Nat.lt_of_le_of_lt (Nat.mod_le _ _) (natural_iff.1 hx)

theorem natural_truth {P : Prop} [Decidable P] : 0 ≤ truth P := by
  unfold truth; split <;> decide

theorem natural_lit {ds : Str} {v : Int64} (h : litVal ds = some v) : 0 ≤ v := by
  have h1 := u_lit h
  unfold litVal at h
  split at h
  · dsimp only at h
    split at h
    · rename_i hlt
      rw [natural_iff, ← h1, UInt64.toNat_ofNat']
      exact Nat.lt_of_le_of_lt (Nat.mod_le _ _) hlt
    · cases h
  · cases h

/-- Without `+`, `-` and `*` no value is negative. -/
theorem natural_cval {n : Int64} (h0 : 0 ≤ n) (t : Exp) (hg : inGrammar t = true) (ha : noArith t = true) : ∀ v, cval n t = some v → 0 ≤ v := by
  induction t with
  | n => intro v h; cases h; exact h0
  | int ds => intro v h; exact natural_lit h
  | paren e ih => exact ih hg ha
  | post o e => cases hg
  | pre o e ih =>
    intro v h
    simp only [inGrammar, Bool.and_eq_true, beq_iff_eq] at hg
    obtain ⟨rfl, hg⟩ := hg
    simp only [cval, Option.map_eq_some_iff] at h
    obtain ⟨x, hx, rfl⟩ := h
    exact natural_truth
  | bin o l r ihl ihr =>
    intro v h
    simp only [inGrammar, Bool.and_eq_true, bne_iff_ne, ne_eq] at hg
    obtain ⟨⟨⟨⟨⟨⟨h1, h2⟩, h3⟩, h4⟩, h5⟩, hgl⟩, hgr⟩ := hg
    simp only [noArith, Bool.and_eq_true, bne_iff_ne, ne_eq] at ha
    obtain ⟨⟨⟨⟨g1, g2⟩, g3⟩, hal⟩, har⟩ := ha
    simp only [cval, Option.bind_eq_some_iff] at h
    obtain ⟨x, hx, h⟩ := h
    have hx0 := ihl hgl hal x hx
    cases o
    case shr => exact absurd rfl h1
    case shl => exact absurd rfl h2
    case band => exact absurd rfl h3
    case bxor => exact absurd rfl h4
    case bor => exact absurd rfl h5
    case add => exact absurd rfl g1
    case sub => exact absurd rfl g2
    case mul => exact absurd rfl g3
    case land =>
      dsimp only at h
      split at h
      · cases h; decide
      · obtain ⟨y, -, rfl⟩ := Option.map_eq_some_iff.1 h; exact natural_truth
    case lor =>
      dsimp only at h
      split at h
      · cases h; decide
      · obtain ⟨y, -, rfl⟩ := Option.map_eq_some_iff.1 h; exact natural_truth
    all_goals
      dsimp only at h
      obtain ⟨y, hy, h⟩ := Option.bind_eq_some_iff.1 h
      have hy0 := ihr hgr har y hy
    case div =>
      split at h
      · cases h
      · rw [← Option.some.inj h]; exact natural_div hx0 hy0
    case mod =>
      split at h
      · cases h
      · rw [← Option.some.inj h]; exact natural_mod hx0 hy0
    all_goals
      rw [← Option.some.inj h]; exact natural_truth
  | tern c a b ihc iha ihb =>
    intro v h
    simp only [inGrammar, Bool.and_eq_true] at hg
    simp only [noArith, Bool.and_eq_true] at ha
    simp only [cval, Option.bind_eq_some_iff] at h
    obtain ⟨x, hx, h⟩ := h
    split at h
    · exact iha hg.1.2 ha.1.2 v h
    · exact ihb hg.2 ha.2 v h

/-- Such expressions meet the condition on the operands of divisions and comparisons for every number. -/
theorem signless_of_noArith {n : Int64} (h0 : 0 ≤ n) (t : Exp) (hg : inGrammar t = true) (ha : noArith t = true) : signless n t = true := by
  have hn : ∀ t, inGrammar t = true → noArith t = true → natural (cval n t) = true := by
    intro t hg ha
    cases hc : cval n t with
    | none => rfl
    | some v => exact decide_eq_true (natural_cval h0 t hg ha v hc)
  induction t with
  | n => rfl
  | int ds => rfl
  | paren e ih => exact ih hg ha
  | post o e => cases hg
  | pre o e ih =>
    simp only [inGrammar, noArith, Bool.and_eq_true] at hg ha
    exact ih hg.2 ha.2
  | bin o l r ihl ihr =>
    simp only [inGrammar, noArith, Bool.and_eq_true] at hg ha
    rw [signless, ihl hg.1.2 ha.1.2, ihr hg.2 ha.2, hn l hg.1.2 ha.1.2, hn r hg.2 ha.2]
    simp
  | tern c a b ihc iha ihb =>
    simp only [inGrammar, noArith, Bool.and_eq_true] at hg ha
    rw [signless, ihc hg.1.1 ha.1.1, iha hg.1.2 ha.1.2, ihb hg.2 ha.2]
    rfl

/-! ## The scanner -/

/-- The tokens of the grammar. -/
def known : Tok → Bool
  | .n | .int _ | .lp | .rp | .quest | .colon | .bang => true
  | .op o => o != .shr && o != .shl && o != .band && o != .bxor && o != .bor
  | _ => false

theorem known_toks (t : Exp) (h : inGrammar t = true) : ∀ x ∈ toks t, known x = true := by
  induction t with
  | n => simp [toks, known]
  | int ds => simp [toks, known]
  | paren e ih =>
    have := ih h
    simp only [toks, List.cons_append, List.mem_cons, List.mem_append, List.not_mem_nil, or_false]
    rintro x (rfl | h | rfl)
    · rfl
    · exact this x h
    · rfl
  | post o e => cases h
  | pre o e ih =>
    simp only [inGrammar, Bool.and_eq_true, beq_iff_eq] at h
    obtain ⟨rfl, h⟩ := h
    simp only [toks, List.mem_cons]
    rintro x (rfl | hx)
    · rfl
    · exact ih h x hx
  | bin o l r ihl ihr =>
    simp only [inGrammar, Bool.and_eq_true] at h
    simp only [toks, List.mem_append, List.mem_cons]
    rintro x (hx | rfl | hx)
    · exact ihl h.1.2 x hx
    · simpa [known] using h.1.1
    · exact ihr h.2 x hx
  | tern c a b ihc iha ihb =>
    simp only [inGrammar, Bool.and_eq_true] at h
    simp only [toks, List.mem_append, List.mem_cons]
    rintro x ((hx | rfl | hx) | rfl | hx)
    · exact ihc h.1.1 x hx
    · rfl
    · exact iha h.1.2 x hx
    · rfl
    · exact ihb h.2 x hx

theorem scan_ws {w : Str} (hw : IsSep w) (k : Nat) (s : Str) : scan (w.length + k) (w ++ s) = scan k s := by
  induction w with
  | nil => rw [List.length_nil, Nat.zero_add, List.nil_append]
  | cons c w ih =>
    rw [List.length_cons, Nat.add_right_comm, List.cons_append, scan, if_pos (hw c (by simp)), ih (fun c hc => hw c (by simp [hc]))]

theorem digit_not {c : UInt8} (h : Num.isDigit c = true) : ¬ (c = 32 ∨ c = 9) ∧ ¬ (c = 0 ∨ c = 10 ∨ c = 59) := by
  constructor
  · rintro (rfl | rfl) <;> exact absurd h (by decide)
  · rintro (rfl | rfl | rfl) <;> exact absurd h (by decide)

theorem digits_cut {ds r : Str} (hd : ds.all Num.isDigit = true) (h : ∀ c ∈ r.head?, Num.isDigit c = false) :
    (ds ++ r).takeWhile Num.isDigit = ds ∧ (ds ++ r).dropWhile Num.isDigit = r := by
  induction ds with
  | nil =>
    cases r with
    | nil => exact ⟨rfl, rfl⟩
    | cons c r => simp [h c (by simp)]
  | cons d ds ih =>
    simp only [List.all_cons, Bool.and_eq_true] at hd
    have := ih hd.2
    simp [hd.1, this.1, this.2]

theorem head_ne {c d : UInt8} {r : Str} (t : Tok) (h : ∀ d ∈ r.head?, tok2 c d = none) (ht : tok2 c d = some t) : r.head? ≠ some d := by
  intro hh
  have := h d hh
  rw [this] at ht
  cases ht

theorem scan_tok {t : Tok} {r : Str} (ht : Writable t) (hk : known t = true) (h : CutOk t r) (k : Nat) :
    scan (k + 1) (t.text ++ r) = (scan k r).map (t :: ·) := by
  cases t
  case int ds =>
    obtain ⟨hne, hd⟩ := ht
    cases ds with
    | nil => exact absurd rfl hne
    | cons d ds =>
      simp only [List.all_cons, Bool.and_eq_true] at hd
      obtain ⟨h1, h2⟩ := digits_cut hd.2 h
      change scan (k + 1) (d :: (ds ++ r)) = _
      rw [scan, if_neg (digit_not hd.1).1, if_neg (digit_not hd.1).2, if_pos hd.1, h1, h2]
  case bad => exact absurd ht id
  case inc => cases hk
  case dec => cases hk
  case tilde => cases hk
  case bang =>
    have := head_ne (d := 61) _ h rfl
    simp [Tok.text, scan, Num.isDigit, this]
  case op o =>
    cases o
    case lt =>
      have := head_ne (d := 61) _ h rfl
      simp [Tok.text, Op.text, scan, Num.isDigit, this]
    case gt =>
      have := head_ne (d := 61) _ h rfl
      simp [Tok.text, Op.text, scan, Num.isDigit, this]
    case shr => cases hk
    case shl => cases hk
    case band => cases hk
    case bxor => cases hk
    case bor => cases hk
    all_goals simp [Tok.text, Op.text, scan, Num.isDigit]
  all_goals simp [Tok.text, scan, Num.isDigit]

theorem cutOk_semi {t : Tok} {r s : Str} (h : CutOk t r) : CutOk t (r ++ 59 :: s) := by
  cases r with
  | nil =>
    cases t
    case op o => cases o <;> simp [CutOk, Tok.text, Op.text, tok2]
    all_goals simp [CutOk, Tok.text, tok2, Num.isDigit]
  | cons c r => exact h

theorem scan_spaced (l : List (Tok × Str)) (h : Spaced l) (hk : ∀ x ∈ l.map (·.1), known x = true) (s : Str) :
    ∀ k, (textOf l).length < k → scan k (textOf l ++ 59 :: s) = some (l.map (·.1)) := by
  induction l with
  | nil =>
    intro k hlt
    obtain ⟨k, rfl⟩ : ∃ j, k = j + 1 := ⟨k - 1, by omega⟩
    simp [textOf, scan]
  | cons p l ih =>
    obtain ⟨t, w⟩ := p
    have hws : IsSep w := by
      cases l with
      | nil => exact h.2
      | cons p l => exact h.2.1
    have ht : Writable t := by
      cases l with
      | nil => exact h.1
      | cons p l => exact h.1
    have hl : Spaced l := by
      cases l with
      | nil => trivial
      | cons p l => exact h.2.2.2
    intro k hlt
    have hpos : 0 < t.text.length := List.length_pos_iff.2 (text_ne ht)
    simp only [textOf, List.append_assoc, List.length_append] at hlt ⊢
    obtain ⟨j, rfl⟩ : ∃ j, k = w.length + j + 1 := ⟨k - 1 - w.length, by omega⟩
    have hc := cutOk_semi (s := s) (spaced_cond h)
    rw [List.append_assoc] at hc
    rw [scan_tok ht (hk t (by simp)) hc, scan_ws hws, ih hl (fun x hx => hk x (by simp only [List.map_cons, List.mem_cons]; exact .inr hx)) j (by omega)]
    rfl


/-! ## The header -/

theorem after_skip {pat s : Str} {c : UInt8} (h : ¬ pat <+: c :: s) : after pat (c :: s) = after pat s := by
  rw [after, if_neg h]

theorem after_pre {pat pre s : Str} {c : UInt8} (hc : c ∉ pat) (h : ¬ pat <:+: pre) : after pat (pre ++ c :: s) = after pat (c :: s) := by
  induction pre with
  | nil => rfl
  | cons x pre ih =>
    rw [List.cons_append, after_skip, ih (fun hi => h (hi.trans (List.suffix_cons x pre).isInfix))]
    rintro ⟨y, hy⟩
    rw [← List.cons_append, List.append_eq_append_iff] at hy
    rcases hy with ⟨a, h1, -⟩ | ⟨a, h1, h2⟩
    · exact h ⟨[], a, h1.symm⟩
    · cases a with
      | nil => exact h ⟨[], [], by simpa using h1⟩
      | cons y a =>
        rw [List.cons_append, List.cons.injEq] at h2
        exact hc (by rw [h1, h2.1]; simp)

theorem after_sep {w s pat : Str} (hw : IsSep w) : after (112 :: pat) (w ++ s) = after (112 :: pat) s := by
  induction w with
  | nil => rfl
  | cons c w ih =>
    rw [List.cons_append, after_skip, ih (fun x hx => hw x (by simp [hx]))]
    rw [List.cons_prefix_cons]
    rintro ⟨rfl, -⟩
    exact absurd (hw 112 (by simp)) (by decide)

/-- The text of the header has the field Plural-Forms with the value `v`, written as usual, with one digit and the expression `t`, and nothing
like it before. -/
def Written (text v : Str) (d : UInt8) (t : Exp) : Prop :=
  ∃ pre gap w l post, text = pre ++ b!"Plural-Forms: " ++ v ++ 10 :: post ∧
    v = b!"nplurals=" ++ [d] ++ b!";" ++ gap ++ b!"plural=" ++ (w ++ textOf l) ++ b!";" ∧ 48 ≤ d ∧ d ≤ 57 ∧
    IsSep gap ∧ IsSep w ∧ Spaced l ∧ l.map (·.1) = toks t ∧ ¬ b!"plural=" <:+: pre ∧ ¬ b!"nplurals=" <:+: pre

theorem digit_range {d : UInt8} (h1 : 48 ≤ d) (h2 : d ≤ 57) : Num.isDigit d = true := by
  unfold Num.isDigit
  simp [h1, h2]

theorem rule_written {text v : Str} {d : UInt8} {t : Exp} (h : Written text v d t) (hw : Wf cTable 0 t) (hg : inGrammar t = true) :
    Rule text (d.toNat - 48) t := by
  obtain ⟨pre, gap, w, l, post, rfl, rfl, hd1, hd2, hgap, hws, hl, ht, h1, h2⟩ := h
  have hdig := digit_range hd1 hd2
  refine ⟨⟨d :: 59 :: (gap ++ b!"plural=" ++ (w ++ textOf l) ++ b!";" ++ 10 :: post), ?_, ?_⟩,
    (w ++ textOf l) ++ b!";" ++ 10 :: post, ?_, ?_, hw, hg⟩
  · simp only [List.append_assoc, List.cons_append, List.nil_append]
    rw [after_pre (by decide) h2]
    simp [after]
  · have h3 : ¬ (d = 32 ∨ 9 ≤ d ∧ d ≤ 13) := by
      rintro (rfl | ⟨-, h⟩)
      · exact absurd hd1 (by decide)
      · exact absurd (UInt8.le_trans hd1 h) (by decide)
    have h59 : Num.isDigit 59 = false := by decide
    rw [List.dropWhile_cons_of_neg (by simpa using h3), List.takeWhile_cons_of_pos hdig, List.takeWhile_cons_of_neg (by simp [h59])]
    exact ⟨by simp, by simp⟩
  · simp only [List.append_assoc, List.cons_append, List.nil_append]
    rw [after_pre (by decide) h1]
    have hd : d ≠ 112 := by rintro rfl; exact absurd hd2 (by decide)
    have : ∀ s, after b!"plural=" (gap ++ s) = after b!"plural=" s := fun s => after_sep hgap
    simp [after, hd.symm, this]
  · have := scan_spaced l hl (by rw [ht]; exact known_toks t hg) (10 :: post)
    simp only [List.append_assoc, List.cons_append, List.nil_append]
    rw [ht] at this
    rw [List.length_append, Nat.add_assoc, scan_ws hws, this _ (by simp; omega)]


/-! ## The expression as Go reads it -/

theorem ok_of_diag {diag : Diag} {e : Str} {n v : Int64} (h : eval diag e n = .ok v) : eval (fun _ => false) e n = .ok v := by
  unfold eval evalBody at h ⊢
  cases hc : commonsGet (GoStr.removeByte 32 e) with
  | some f => rw [hc] at h; exact h
  | none =>
    rw [hc] at h
    dsimp only at h ⊢
    unfold evalGeneral at h ⊢
    cases hp : parse goTable (lex e) with
    | none => rw [hp] at h; exact h
    | some p =>
      rw [hp] at h
      dsimp only at h ⊢
      cases hd : diag (lex e) with
      | true => rw [hd] at h; cases h
      | false => rw [hd] at h; exact h

theorem toks_ne (t : Exp) : toks t ≠ [] := by
  cases t <;> simp [toks]

theorem noShift_of_grammar (t : Exp) (h : inGrammar t = true) : noShift t = true := by
  induction t with
  | n => rfl
  | int ds => rfl
  | paren e ih => exact ih h
  | post o e => cases h
  | pre o e ih =>
    simp only [inGrammar, Bool.and_eq_true] at h
    exact ih h.2
  | bin o l r ihl ihr =>
    simp only [inGrammar, Bool.and_eq_true] at h
    rw [noShift, ihl h.1.2, ihr h.2, h.1.1.1.1.1.1, h.1.1.1.1.1.2]
    rfl
  | tern c a b ihc iha ihb =>
    simp only [inGrammar, Bool.and_eq_true] at h
    rw [noShift, ihc h.1.1, iha h.1.2, ihb h.2]
    rfl

/-- What Go computes for a text with the tokens of `t` is the value in C, and for libintl. -/
theorem uval_of_eval {diag : Diag} {n v : Int64} {t : Exp} {w : Str} {l : List (Tok × Str)} (hw : IsSep w) (hl : Spaced l)
    (ht : l.map (·.1) = toks t) (hwf : Wf g4Table 0 t) (hp : plain t = true) (hg : inGrammar t = true) (hr : regular n t = true)
    (hs : signless n t = true) (h : eval diag (w ++ textOf l) n = .ok v) : uval n.toUInt64 t = some v.toUInt64 := by
  have h := ok_of_diag h
  have hlex := C07_lex w l hw hl
  rw [eval_spaced _ n t w l hw hl ht rfl] at h
  rw [← goTable_eq_g4] at hwf
  have hparse : parse goTable (lex (w ++ textOf l)) = some (t, []) :=
    (parse_iff _ _ _).2 ⟨by rw [hlex, ht, List.append_nil], hwf, by simp [Ends]⟩
  have hgood := goodLits_of_lex ((parse_iff _ _ _).1 hparse).1
  have hden : den n t = some v := by
    simp only [evalGeneral, hparse, Bool.false_eq_true, if_false, C04_stack n t hgood] at h
    cases hd : den n t with
    | none => rw [hd] at h; cases h
    | some x =>
      rw [hd] at h
      exact congrArg some (Res.ok.inj h)
  exact uval_cval t hg hs v (cval_of_den t hp hr (noShift_of_grammar t hg) v hden)

theorem text_chars {t : Tok} (h : Writable t) : ∀ c ∈ t.text, ¬ Tr.Ws [c] := by
  intro c hc hws
  have hws : c = 9 ∨ c = 10 ∨ c = 12 ∨ c = 13 ∨ c = 32 := hws c (by simp)
  cases t
  case int ds =>
    have := List.all_eq_true.1 h.2 c hc
    rcases hws with rfl | rfl | rfl | rfl | rfl <;> exact absurd this (by decide)
  case op o => cases o <;> rcases hws with rfl | rfl | rfl | rfl | rfl <;> exact absurd hc (by decide)
  all_goals rcases hws with rfl | rfl | rfl | rfl | rfl <;> exact absurd hc (by decide)

theorem text_newline {l : List (Tok × Str)} (h : Spaced l) : 10 ∉ textOf l := by
  induction l with
  | nil => simp [textOf]
  | cons p l ih =>
    obtain ⟨t, w⟩ := p
    have hws : IsSep w := by
      cases l with
      | nil => exact h.2
      | cons p l => exact h.2.1
    have ht : Writable t := by
      cases l with
      | nil => exact h.1
      | cons p l => exact h.1
    have hl : Spaced l := by
      cases l with
      | nil => trivial
      | cons p l => exact h.2.2.2
    simp only [textOf, List.mem_append, not_or]
    exact ⟨⟨fun hc => text_chars ht 10 hc (by simp [Tr.Ws]), fun hc => absurd (hws 10 hc) (by decide)⟩, ih hl⟩

theorem sep_ws {w : Str} (h : IsSep w) : Tr.Ws w := fun c hc => by
  rcases h c hc with rfl | rfl <;> simp

/-- The rule of such a header, as Go reads it. -/
theorem forms_written {gap w : Str} {l : List (Tok × Str)} {d : UInt8} {t : Exp} (h1 : 48 ≤ d) (h2 : d ≤ 57) (hgap : IsSep gap) (hw : IsSep w)
    (hl : Spaced l) (ht : l.map (·.1) = toks t) :
    Tr.PluralForms (b!"nplurals=" ++ [d] ++ b!";" ++ gap ++ b!"plural=" ++ (w ++ textOf l) ++ b!";") d (textOf l) := by
  refine ⟨[], [], [], [], gap, [], w, [], by simp [Tr.Ws], by simp [Tr.Ws], by simp [Tr.Ws], by simp [Tr.Ws], sep_ws hgap, by simp [Tr.Ws], sep_ws hw,
    by simp [Tr.Ws], h1, h2, text_newline hl, by simp, ?_, by simp⟩
  intro c s hcs
  cases l with
  | nil => exact absurd ht.symm (toks_ne t)
  | cons p l =>
    obtain ⟨x, w'⟩ := p
    have hx : Writable x := by
      cases l with
      | nil => exact hl.1
      | cons p l => exact hl.1
    apply text_chars hx
    cases hxt : x.text with
    | nil => exact absurd hxt (text_ne hx)
    | cons y ys =>
      rw [textOf, hxt] at hcs
      simp only [List.cons_append, List.cons.injEq] at hcs
      simp [hcs.1]

theorem form_beyond (ss : List Str) (h0 : ∀ s ∈ ss, 0 ∉ s) : ∀ k, ss.length ≤ k → ss ≠ [] → form k (List.intercalate [0] ss) = none := by
  induction ss with
  | nil => intro k _ h; exact absurd rfl h
  | cons s ss ih =>
    intro k hk _
    obtain ⟨k, rfl⟩ : ∃ j, k = j + 1 := ⟨k - 1, by rw [List.length_cons] at hk; omega⟩
    have hs := h0 s (by simp)
    have hd : ∀ x : Str, s.dropWhile (· ≠ 0) ++ x = x := by
      intro x
      rw [List.dropWhile_eq_nil_iff.2 (by intro c hc; simpa using fun h : c = 0 => hs (h ▸ hc))]
      rfl
    cases ss with
    | nil =>
      have := hd []
      rw [List.append_nil] at this
      rw [List.intercalate_singleton, form, this]
    | cons t ts =>
      have e : List.intercalate [0] (s :: t :: ts) = s ++ 0 :: List.intercalate [0] (t :: ts) := by
        simp [List.intercalate, List.intersperse]
      rw [e, form, List.dropWhile_append_of_pos (by intro c hc; simpa using fun h : c = 0 => hs (h ▸ hc))]
      rw [List.dropWhile_cons_of_neg (by simp)]
      exact ih (fun s hs => h0 s (by simp [hs])) k (by simpa using hk) (by simp)

theorem cstr_first {s : Str} {ss : List Str} (h : 0 ∉ s) : cstr (List.intercalate [0] (s :: ss)) = s := by
  cases ss with
  | nil => rw [List.intercalate_singleton, cstr_self h]
  | cons t ts =>
    have e : List.intercalate [0] (s :: t :: ts) = s ++ 0 :: List.intercalate [0] (t :: ts) := by
      simp [List.intercalate, List.intersperse]
    rw [e, cstr, List.takeWhile_append_of_pos (by intro c hc; simpa using fun h' : c = 0 => h (h' ▸ hc))]
    simp

/-- The entry `h` is the header of the saved file, with this plural rule, whose expression both programs understand, and alike for the number `n`. -/
structure Agreed (es : List Tr.Entry) (h : Tr.Entry) (v : Str) (d : UInt8) (t : Exp) (n : Int64) : Prop where
  mem : h ∈ es
  header : h.ctxt = [] ∧ h.id = [] ∧ h.strN = []
  nul : 0 ∉ h.str
  written : Written h.str v d t
  grouped : Wf g4Table 0 t
  plain : plain t = true
  grammar : inGrammar t = true
  regular : regular n t = true
  signless : signless n t = true

theorem chosen {f : Tr.File} (hf : Tr.Consistent f) {es : List Tr.Entry} (hs : Tr.SortedEntry f es) (hlt : (Tr.saveMo es).length < 4294967296)
    (hnul : ∀ e ∈ es, 0 ∉ e.ctxt ∧ 0 ∉ e.id) (heot : ∀ e ∈ es, 4 ∉ e.ctxt ∧ 4 ∉ e.id) (hm : Tr.MoSorted es)
    {h : Tr.Entry} {v : Str} {d : UInt8} {t : Exp} {n : Int64} (ha : Agreed es h v d t n) {dg : Diag} {i : Nat} (hi : Tr.SelectsForm dg v n i)
    {e : Tr.Entry} (he : e ∈ es) :
    Ngettext (Tr.saveMo es) (question e) n.toUInt64 ((form i (Tr.transOf e)).getD (cstr (Tr.transOf e))) := by
  obtain ⟨hh, hid, hstr, hw, hwf, hp, hg, hr, hsl⟩ := ha
  have hfind := (C117_saved f hf es hs hlt hnul heot).2 hm
  have hc := wf_c t 0 0 hp (.inl rfl) (by rw [goTable_eq_g4]; exact hwf)
  have hrule := rule_written hw hc hg
  obtain ⟨pre, gap, w, l, post, -, rfl, hd1, hd2, hgap, hws, hl, ht, -, -⟩ := hw
  obtain ⟨d', e', r, hpf, hev, hri, hlt'⟩ := hi
  have hfw := forms_written hd1 hd2 hgap hws hl ht
  obtain ⟨rfl, rfl⟩ := Tr.C18_unique _ _ _ _ _ hfw hpf
  have hu := uval_of_eval (w := []) (by simp [IsSep]) hl ht hwf hp hg hr hsl hev
  have hri0 : 0 ≤ r := by rw [Int64.le_iff_toInt_le, hri]; simp
  have hrn : r.toUInt64.toNat = i := by
    have := toInt_natural hri0
    omega
  have hhead := hfind h hh
  rw [question, if_pos hid.1, hid.2.1, Tr.transOf, if_pos hid.2.2] at hhead
  refine ⟨_, _, _, hfind e he, .inl ⟨_, t, hhead, by rw [cstr_self hstr]; exact hrule, hu⟩, ?_⟩
  rw [hrn, if_pos (by unfold Tr.digitNum at hlt'; omega)]

theorem rule_unique {hd : Str} {N N' : Nat} {t t' : Exp} (h : Rule hd N t) (h' : Rule hd N' t') : N = N' ∧ t = t' := by
  obtain ⟨⟨r, ha, -, hN⟩, r2, hb, hsc, hwf, -⟩ := h
  obtain ⟨⟨r', ha', -, hN'⟩, r2', hb', hsc', hwf', -⟩ := h'
  rw [ha] at ha'
  obtain rfl := Option.some.inj ha'
  rw [hb] at hb'
  obtain rfl := Option.some.inj hb'
  have ht : toks t = toks t' := Option.some.inj (hsc.symm.trans hsc')
  have p1 := (parse_iff (T := cTable) (toks t) t []).2 ⟨by simp, hwf, by simp [Ends]⟩
  have p2 := (parse_iff (T := cTable) (toks t) t' []).2 ⟨by simp [ht], hwf', by simp [Ends]⟩
  rw [p1] at p2
  exact ⟨by rw [hN, hN'], congrArg Prod.fst (Option.some.inj p2)⟩

/-- A C program shows one text. -/
theorem C125_unique (c q : Str) (n : UInt64) (s s' : Str) (h : Ngettext c q n s) (h' : Ngettext c q n s') : s = s' := by
  obtain ⟨tr, N, i, h1, h2, rfl⟩ := h
  obtain ⟨tr', N', i', h1', h2', rfl⟩ := h'
  rw [h1] at h1'
  obtain rfl := Option.some.inj h1'
  have : N = N' ∧ i = i' := by
    rcases h2 with ⟨hd, t, a1, a2, a3⟩ | ⟨a1, a2, a3⟩ <;> rcases h2' with ⟨hd', t', b1, b2, b3⟩ | ⟨b1, b2, b3⟩
    · rw [a1] at b1
      obtain rfl := Option.some.inj b1
      obtain ⟨rfl, rfl⟩ := rule_unique a2 b2
      rw [a3] at b3
      exact ⟨rfl, Option.some.inj b3⟩
    · exact absurd a2 (b1 _ _ _ a1)
    · exact absurd b2 (a1 _ _ _ b1)
    · exact ⟨a2.trans b2.symm, a3.trans b3.symm⟩
  rw [this.1, this.2]

/-- **C125** The plural form that a Go program selects for a message of a saved file is the text that `ngettext` shows in a C program. -/
theorem C125_same (f : Tr.File) (hf : Tr.Consistent f) (es : List Tr.Entry) (hs : Tr.SortedEntry f es) (hlt : (Tr.saveMo es).length < 4294967296)
    (hnul : ∀ e ∈ es, 0 ∉ e.ctxt ∧ 0 ∉ e.id) (heot : ∀ e ∈ es, 4 ∉ e.ctxt ∧ 4 ∉ e.id) (hm : Tr.MoSorted es)
    (h : Tr.Entry) (v : Str) (d : UInt8) (t : Exp) (n : Int64) (ha : Agreed es h v d t n)
    (dg : Diag) (i : Nat) (hi : Tr.SelectsForm dg v n i)
    (e : Tr.Entry) (he : e ∈ es) (hN : ∀ s ∈ e.strN, 0 ∉ s) (s : Str) (hsi : e.strN[i]? = some s) :
    ∀ s', Ngettext (Tr.saveMo es) (if e.ctxt = [] then e.id else e.ctxt ++ 4 :: e.id) n.toUInt64 s' ↔ s' = s := by
  have hc := chosen hf hs hlt hnul heot hm ha hi he
  have hlen : i < e.strN.length := (List.getElem?_eq_some_iff.1 hsi).1
  have hne : e.strN ≠ [] := by rintro h0; rw [h0] at hlen; simp at hlen
  rw [Tr.transOf, if_neg hne, C117_form _ hN i hlen, Option.getD_some, (List.getElem?_eq_some_iff.1 hsi).2] at hc
  exact fun s' => ⟨fun h' => C125_unique _ _ _ _ _ h' hc, fun h' => h' ▸ hc⟩

/-- **C125** If the message has fewer forms than the rule wants, `ngettext` shows the first one. -/
theorem C125_beyond (f : Tr.File) (hf : Tr.Consistent f) (es : List Tr.Entry) (hs : Tr.SortedEntry f es) (hlt : (Tr.saveMo es).length < 4294967296)
    (hnul : ∀ e ∈ es, 0 ∉ e.ctxt ∧ 0 ∉ e.id) (heot : ∀ e ∈ es, 4 ∉ e.ctxt ∧ 4 ∉ e.id) (hm : Tr.MoSorted es)
    (h : Tr.Entry) (v : Str) (d : UInt8) (t : Exp) (n : Int64) (ha : Agreed es h v d t n)
    (dg : Diag) (i : Nat) (hi : Tr.SelectsForm dg v n i)
    (e : Tr.Entry) (he : e ∈ es) (hN : ∀ s ∈ e.strN, 0 ∉ s) (hlen : e.strN.length ≤ i) (s : Str) (hs0 : e.strN.head? = some s) :
    ∀ s', Ngettext (Tr.saveMo es) (if e.ctxt = [] then e.id else e.ctxt ++ 4 :: e.id) n.toUInt64 s' ↔ s' = s := by
  have hc := chosen hf hs hlt hnul heot hm ha hi he
  have hne : e.strN ≠ [] := by rintro h0; rw [h0] at hs0; cases hs0
  obtain ⟨ss, hss⟩ : ∃ ss, e.strN = s :: ss := by
    cases hl : e.strN with
    | nil => exact absurd hl hne
    | cons x ss => rw [hl] at hs0; cases hs0; exact ⟨ss, rfl⟩
  rw [Tr.transOf, if_neg hne, form_beyond _ hN i hlen hne, Option.getD_none, hss, cstr_first (hN s (by rw [hss]; simp))] at hc
  exact fun s' => ⟨fun h' => C125_unique _ _ _ _ _ h' hc, fun h' => h' ▸ hc⟩

/-- **C125** The usual expressions, in which the operands of `!`, `&&`, `||` and the conditions are truth values and there is no `+`, `-` or `*`, are
understood alike for every number. -/
theorem C125_usual (t : Exp) (n : Int64) (h0 : 0 ≤ n) (hg : inGrammar t = true) (hb : guarded t = true) (ha : noArith t = true) :
    regular n t = true ∧ signless n t = true :=
  ⟨regular_of_guarded t hb, signless_of_noArith h0 t hg ha⟩

/-- **C125** So a Go program that has loaded the file shows, before it fills in the arguments, the text that the C program shows. -/
theorem C125_programs {α : Type} (c : W.Cfg α) (f : Tr.File) (hf : Tr.Consistent f) (es : List Tr.Entry) (hs : Tr.SortedEntry f es)
    (hlt : (Tr.saveMo es).length < 4294967296)
    (hnul : ∀ e ∈ es, 0 ∉ e.ctxt ∧ 0 ∉ e.id) (heot : ∀ e ∈ es, 4 ∉ e.ctxt ∧ 4 ∉ e.id) (hm : Tr.MoSorted es)
    (h : Tr.Entry) (v : Str) (d : UInt8) (t : Exp) (n : Int64) (ha : Agreed es h v d t n)
    (x : Str → Str → List α → Res Str) (xn : Str → Str → Str → Int64 → List α → Res Str) (hgo : W.Shows c f.entries.vals v x xn)
    (i : Nat) (hi : Tr.SelectsForm c.diag v n i)
    (e : Tr.Entry) (he : e ∈ es) (hN : ∀ s ∈ e.strN, 0 ∉ s) (s : Str) (hsi : e.strN[i]? = some s) (hs0 : s ≠ []) (id2 : Str) (args : List α) :
    xn e.ctxt e.id id2 n args = .ok (Fmt.format c.fmt s args) ∧
      ∀ s', Ngettext (Tr.saveMo es) (if e.ctxt = [] then e.id else e.ctxt ++ 4 :: e.id) n.toUInt64 s' ↔ s' = s := by
  have hne : e.strN ≠ [] := by rintro h0; rw [h0] at hsi; simp at hsi
  exact ⟨(hgo.1 e (hs.1.subset he)).form id2 n args i s (.inr hne) hi hsi hs0,
    C125_same f hf es hs hlt hnul heot hm h v d t n ha c.diag i hi e he hN s hsi⟩

theorem after_none {pat s : Str} (h : ¬ pat <:+: s) : after pat s = none := by
  induction s with
  | nil => rw [after, if_neg (by rintro rfl; exact h (List.nil_infix))]
  | cons c s ih =>
    rw [after, if_neg (fun hp => h hp.isInfix), ih (fun hi => h (hi.trans (List.suffix_cons c s).isInfix))]

/-- **C125** Without a plural rule in the header a Go program shows the source texts of plural messages for all numbers, while a C program shows
their first form for 1 and the second form, if there is one, for all other numbers. -/
theorem C125_norule {α : Type} (c : W.Cfg α) (f : Tr.File) (hf : Tr.Consistent f) (es : List Tr.Entry) (hs : Tr.SortedEntry f es)
    (hlt : (Tr.saveMo es).length < 4294967296)
    (hnul : ∀ e ∈ es, 0 ∉ e.ctxt ∧ 0 ∉ e.id) (heot : ∀ e ∈ es, 4 ∉ e.ctxt ∧ 4 ∉ e.id) (hm : Tr.MoSorted es)
    (h : Tr.Entry) (hh : h ∈ es) (hid : h.ctxt = [] ∧ h.id = [] ∧ h.strN = []) (hno : ¬ b!"plural=" <:+: h.str) (hnulh : 0 ∉ h.str)
    (x : Str → Str → List α → Res Str) (xn : Str → Str → Str → Int64 → List α → Res Str) (hgo : W.Shows c f.entries.vals [] x xn)
    (e : Tr.Entry) (he : e ∈ es) (hN : ∀ s ∈ e.strN, 0 ∉ s) (s : Str) (ss : List Str) (hss : e.strN = s :: ss) (id2 : Str) (n : Int64) (args : List α) :
    xn e.ctxt e.id id2 n args = .ok (Fmt.defaultPlural c.fmt e.id id2 n args) ∧
      ∀ s', Ngettext (Tr.saveMo es) (if e.ctxt = [] then e.id else e.ctxt ++ 4 :: e.id) n.toUInt64 s' ↔
        s' = if n = 1 then s else ss.head?.getD s := by
  have hnone : ∀ n i, ¬ Tr.SelectsForm c.diag [] n i := by
    rintro n i ⟨d, e, r, ⟨w1, w2, w3, w4, w5, w6, w7, w8, _, _, _, _, _, _, _, _, _, _, _, _, _, hcontra⟩, -⟩
    simp at hcontra
  have hne : e.strN ≠ [] := by rw [hss]; simp
  refine ⟨(hgo.1 e (hs.1.subset he)).noForm id2 n args (.inr hne) (fun i s h => absurd h (hnone n i)) (hnone n _), ?_⟩
  have hfind := (C117_saved f hf es hs hlt hnul heot).2 hm
  have hhead := hfind h hh
  rw [question, if_pos hid.1, hid.2.1, Tr.transOf, if_pos hid.2.2] at hhead
  have key : Ngettext (Tr.saveMo es) (question e) n.toUInt64 (if n = 1 then s else ss.head?.getD s) := by
    refine ⟨_, 2, if n.toUInt64 = 1 then 0 else 1, hfind e he, .inr ⟨?_, rfl, rfl⟩, ?_⟩
    · rintro hd N t h1 ⟨-, r, h2, -⟩
      rw [hhead] at h1
      obtain rfl := Option.some.inj h1
      rw [cstr_self hnulh, after_none hno] at h2
      cases h2
    · have h1 : n.toUInt64 = 1 ↔ n = 1 := u_inj (y := 1)
      rw [Tr.transOf, if_neg hne]
      by_cases hn : n = 1
      · rw [if_pos hn, if_pos (h1.2 hn), if_pos (by decide)]
        rw [show (0 : UInt64).toNat = 0 from rfl, C117_form _ hN 0 (by rw [hss]; simp)]
        simp [hss]
      · rw [if_neg hn, if_neg (fun h => hn (h1.1 h)), if_pos (by decide), show (1 : UInt64).toNat = 1 from rfl]
        cases ss with
        | nil =>
          rw [form_beyond _ hN 1 (by rw [hss]; simp) hne, hss, cstr_first (hN s (by rw [hss]; simp))]
          rfl
        | cons s2 ss =>
          rw [C117_form _ hN 1 (by rw [hss]; simp)]
          simp [hss]
  exact fun s' => ⟨fun h' => C125_unique _ _ _ _ _ h' key, fun h' => h' ▸ key⟩

/-! ## Concrete cases -/

/-- A file with a Polish rule. -/
def polish : List Tr.Entry := [
  { str := b!"Language: pl\nPlural-Forms: nplurals=3; plural=n==1 ? 0 : n%10>=2 && n%10<=4 ? 1 : 2;\n" },
  { id := b!"file", isPlural := true, id2 := b!"files", strN := [b!"plik", b!"pliki", b!"plik\xc3\xb3w"] }]

/-- Its expression. -/
def polishExp : Exp :=
  .tern (.bin .eq .n (.int b!"1")) (.int b!"0")
    (.tern (.bin .land (.bin .ge (.bin .mod .n (.int b!"10")) (.int b!"2")) (.bin .le (.bin .mod .n (.int b!"10")) (.int b!"4"))) (.int b!"1")
      (.int b!"2"))

/-- Every number that is not negative meets the conditions. -/
example (n : Int64) (h0 : 0 ≤ n) : Agreed polish polish[0]
    b!"nplurals=3; plural=n==1 ? 0 : n%10>=2 && n%10<=4 ? 1 : 2;" 51 polishExp n := by
  obtain ⟨h1, h2⟩ := C125_usual polishExp n h0 (by decide) (by decide) (by decide)
  refine ⟨by simp [polish], by decide, by decide, ⟨b!"Language: pl\n", b!" ", [],
    [(.n, []), (.op .eq, []), (.int b!"1", b!" "), (.quest, b!" "), (.int b!"0", b!" "), (.colon, b!" "), (.n, []), (.op .mod, []), (.int b!"10", []),
      (.op .ge, []), (.int b!"2", b!" "), (.op .land, b!" "), (.n, []), (.op .mod, []), (.int b!"10", []), (.op .le, []), (.int b!"4", b!" "),
      (.quest, b!" "), (.int b!"1", b!" "), (.colon, b!" "), (.int b!"2", [])], [], by decide, by decide, by decide, by decide, by simp [IsSep],
      by simp [IsSep], ?_, by decide, by decide, by decide⟩, ?_, by decide, by decide, h1, h2⟩
  · simp [Spaced, Writable, IsSep, Apart, Tok.text, Op.text, Num.isDigit]
  · rw [← goTable_eq_g4]
    simp [Wf, absorbs, polishExp, goTable]

/-- Both programs show the second form for 22. -/
example : Tr.SelectsForm (fun _ => false) b!"nplurals=3; plural=n==1 ? 0 : n%10>=2 && n%10<=4 ? 1 : 2;" 22 1 ∧
    uval 22 polishExp = some 1 ∧ find (Tr.saveMo polish) b!"file" = some b!"plik\x00pliki\x00plik\xc3\xb3w" ∧
    form 1 b!"plik\x00pliki\x00plik\xc3\xb3w" = some b!"pliki" := by
  refine ⟨⟨51, b!"n==1 ? 0 : n%10>=2 && n%10<=4 ? 1 : 2", 1, (Tr.C18_syntax _ _ _).1 (by decide +kernel), by decide +kernel, by decide, by decide⟩,
    by decide +kernel, by decide +kernel, by decide +kernel⟩

/-- Why the operands of comparisons must not be negative: the difference `n-2` is huge in a C program. -/
example : uval 1 (.bin .lt (.bin .sub .n (.int b!"2")) (.int b!"1")) = some 0 ∧ eval (fun _ => false) b!"n-2<1" 1 = .ok 1 ∧
    signless 1 (.bin .lt (.bin .sub .n (.int b!"2")) (.int b!"1")) = false := by
  decide +kernel

/-- Why the operands of `!` must be truth values. -/
example : uval 2 (.pre .lnot .n) = some 0 ∧ eval (fun _ => false) b!"!n" 2 = .ok 1 ∧ regular 2 (.pre .lnot .n) = false := by
  decide +kernel


/-- The file of C117 has no plural rule: C programs show its forms nevertheless. -/
example : hello[0] ∈ hello ∧ ¬ b!"plural=" <:+: hello[0].str ∧ find (Tr.saveMo hello) [] = some b!"Language: de\n" ∧
    hello[2].strN = [b!"Datei", b!"Dateien"] := by
  refine ⟨by simp [hello], by decide +kernel, by decide +kernel, rfl⟩

end Verif.Libintl
