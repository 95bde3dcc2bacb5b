import Verif.Model.Glob
import Verif.Spec.Glob
import Verif.Props.C91
import Verif.Lemmas.Path
/-!
# Lemmas about Match
-/
namespace Verif.Glob
open Verif Verif.Literal

/-! Characters -/

theorem char_of_decode (s : Str) (hs : s ≠ []) (h : ¬ ((Utf8.decode s).1 = Utf8.runeError ∧ (Utf8.decode s).2 = 1)) :
    ∃ ch t, s = utf8 ch ++ t ∧ (Utf8.decode s).1 = ch.toNat ∧ s.drop (Utf8.decode s).2 = t := by
  obtain ⟨hv, hpos, hle, he, -⟩ := Utf8.encode_decode s hs fun h' => h ⟨h'.2, h'.1⟩
  obtain ⟨ch, hch⟩ := exists_char _ hv
  refine ⟨ch, s.drop (Utf8.decode s).2, ?_, hch.symm, rfl⟩
  rw [← encode_char, hch, he, List.take_append_drop]

theorem head_of (ch : Char) : ∃ b t, utf8 ch = b :: t := by
  cases h : utf8 ch with
  | nil => exact absurd h (utf8_ne_nil ch)
  | cons b t => exact ⟨b, t, rfl⟩

theorem u8_not_lt (b : UInt8) (h : ¬ b < 0x80) : (0x80 : UInt8) ≤ b := by
  revert h; revert b; apply u8; decide +kernel

/-- A character that begins with an ASCII byte is that byte. -/
theorem ascii_char (ch : Char) (b : UInt8) (t : Str) (h : utf8 ch = b :: t) (hb : b < 0x80) :
    t = [] ∧ ch = Char.ofNat b.toNat := by
  obtain ⟨h1, h2⟩ := utf8_low ch b t h hb
  exact ⟨h2, by rw [← h1, Char.ofNat_toNat]⟩

theorem tail_high (ch : Char) (b : UInt8) (t : Str) (h : utf8 ch = b :: t) : ∀ c ∈ t, (0x80 : UInt8) ≤ c := by
  intro c hc
  by_cases hb : b < 0x80
  · rw [(utf8_low ch b t h hb).2] at hc; cases hc
  · have := (utf8_high ch b t h (u8_not_lt b hb)).2 c (by rw [h]; exact List.mem_cons_of_mem _ hc)
    rw [UInt8.le_iff_toNat_le]; exact this

theorem begins_iff (s w : Str) (n : Nat) : Begins false s w n ↔ ∃ t, s = w ++ t ∧ s ≠ [] ∧ Utf8.decode s = (n, w.length) := by
  constructor
  · intro h
    cases h with
    | char ch t =>
      refine ⟨t, rfl, ?_, decode_char ch t⟩
      obtain ⟨b, u, hb⟩ := head_of ch
      rw [hb]; exact fun h => by cases h
    | bad b t _ hno =>
      refine ⟨t, rfl, List.cons_ne_nil _ _, ?_⟩
      by_cases h : (Utf8.decode (b :: t)).1 = Utf8.runeError ∧ (Utf8.decode (b :: t)).2 = 1
      · exact Prod.ext h.1 h.2
      · obtain ⟨ch, u, hu, -, -⟩ := char_of_decode (b :: t) (fun h => by cases h) h
        exact absurd hu (hno ch u)
  · rintro ⟨t, rfl, hs, hd⟩
    by_cases h : (Utf8.decode (w ++ t)).1 = Utf8.runeError ∧ (Utf8.decode (w ++ t)).2 = 1
    · rw [hd] at h
      obtain ⟨h1, h2⟩ := h
      match w, h2 with
      | [b], _ =>
        simp only at h1
        subst h1
        refine .bad b t rfl fun ch u hu => ?_
        have h3 := decode_char ch u
        rw [← hu] at h3
        have h4 : Utf8.decode (b :: t) = (Utf8.runeError, 1) := hd
        rw [h4] at h3
        have h5 : ch.toNat = Utf8.runeError := (Prod.mk.inj h3).1.symm
        have h6 := encode_char ch
        rw [h5] at h6
        have h7 := (Prod.mk.inj h3).2
        rw [← h6] at h7
        exact absurd h7 (by decide)
    · obtain ⟨ch, u, hu, h1, h2⟩ := char_of_decode _ hs h
      rw [hd] at h1 h2
      have h3 := decode_char ch u
      rw [← hu, hd] at h3
      have hl : w.length = (utf8 ch).length := (Prod.mk.inj h3).2
      obtain ⟨h4, h5⟩ := List.append_inj hu hl
      subst h4 h5
      simp only at h1
      subst h1
      exact .char ch t

theorem begins_weak {s w : Str} {n : Nat} (h : Begins true s w n) : Begins false s w n := by
  cases h with
  | char ch t => exact .char ch t
  | bad b t h _ => cases h

/-! Sets -/

theorem setChar_head {t : Str} {ch : Char} (h : SetChar t ch) : ∃ b u, t = b :: u ∧ b ≠ 45 ∧ b ≠ 93 := by
  cases h with
  | plain _ h1 h2 h3 =>
    obtain ⟨b, u, hb⟩ := head_of ch
    refine ⟨b, u, hb, ?_, ?_⟩ <;> rintro rfl
    · exact h1 (ascii_char ch _ u hb (by decide)).2
    · exact h2 (ascii_char ch _ u hb (by decide)).2
  | escaped _ => exact ⟨92, utf8 ch, rfl, by decide, by decide⟩

theorem range_head {t : Str} {r : Char × Char} (h : Range t r) : ∃ b u, t = b :: u ∧ b ≠ 45 ∧ b ≠ 93 := by
  cases h with
  | char h => exact setChar_head h
  | range h _ =>
    obtain ⟨b, u, rfl, h1, h2⟩ := setChar_head h
    exact ⟨b, _, rfl, h1, h2⟩

theorem ranges_head {t : Str} {rs : List (Char × Char)} (h : Ranges t rs) : ∃ b u, t = b :: u ∧ b ≠ 45 ∧ b ≠ 93 := by
  cases h with
  | last h => exact range_head h
  | cons h _ =>
    obtain ⟨b, u, rfl, h1, h2⟩ := range_head h
    exact ⟨b, _, rfl, h1, h2⟩

theorem getEsc_text {t : Str} {ch : Char} (h : SetChar t ch) (q : Str) (hq : q ≠ []) : getEsc (t ++ q) = some (ch.toNat, q) := by
  have hrest : ∀ w : Str, w = utf8 ch ++ q →
      (if w = [] then none
      else
        let r := Utf8.decode w
        if r.1 = Utf8.runeError ∧ r.2 = 1 then none
        else if w.drop r.2 = [] then none
        else some (r.1, w.drop r.2)) = some (ch.toNat, q) := by
    rintro w rfl
    obtain ⟨b, u, hb⟩ := head_of ch
    rw [if_neg (by rw [hb]; exact fun h => by cases h)]
    simp only [decode_char, List.drop_left]
    rw [if_neg, if_neg hq]
    rintro ⟨h1, h2⟩
    rw [← encode_char, h1] at h2
    exact absurd h2 (by decide)
  obtain ⟨b, u, hb, h1, h2⟩ := setChar_head h
  rw [hb, List.cons_append, getEsc, if_neg (by rintro (h | h); exact h1 h; exact h2 h)]
  cases h with
  | plain _ _ _ h3 =>
    have hne : b ≠ 92 := fun h => h3 ((ascii_char ch b u hb (by rw [h]; decide)).2.trans (by rw [h]; rfl))
    simp only [if_neg hne]
    exact hrest _ (by rw [hb]; rfl)
  | escaped _ =>
    have hb' := (List.cons.inj hb).1.symm
    have hu := (List.cons.inj hb).2.symm
    subst hb' hu
    simp only [if_true]
    exact hrest _ rfl

theorem getEsc_some {c q : Str} {lo : Nat} (h : getEsc c = some (lo, q)) :
    ∃ t ch, SetChar t ch ∧ c = t ++ q ∧ lo = ch.toNat ∧ q ≠ [] := by
  have hrest : ∀ w : Str,
      (if w = [] then none
      else
        let r := Utf8.decode w
        if r.1 = Utf8.runeError ∧ r.2 = 1 then none
        else if w.drop r.2 = [] then none
        else some (r.1, w.drop r.2)) = some (lo, q) → ∃ ch, w = utf8 ch ++ q ∧ lo = ch.toNat ∧ q ≠ [] := by
    intro w hw
    split at hw
    · cases hw
    · rename_i h0
      simp only at hw
      split at hw
      · cases hw
      · rename_i h1
        split at hw
        · cases hw
        · rename_i h2
          obtain ⟨ch, t, h3, h4, h5⟩ := char_of_decode w h0 h1
          rw [h4, h5] at hw
          rw [h5] at h2
          cases hw
          exact ⟨ch, h3, rfl, h2⟩
  cases c with
  | nil => simp [getEsc] at h
  | cons b s =>
    rw [getEsc] at h
    split at h
    · cases h
    · rename_i h0
      by_cases hb : b = 92
      · subst hb
        simp only [if_true] at h
        obtain ⟨ch, h1, h2, h3⟩ := hrest _ h
        exact ⟨_, ch, .escaped ch, by rw [h1]; rfl, h2, h3⟩
      · simp only [if_neg hb] at h
        obtain ⟨ch, h1, h2, h3⟩ := hrest _ h
        refine ⟨_, ch, .plain ch ?_ ?_ ?_, h1, h2, h3⟩ <;> rintro rfl <;> have := (List.cons.inj h1).1
        · exact h0 (.inl this)
        · exact h0 (.inr this)
        · exact hb this

/-- The character is in one of the ranges. -/
def within (rs : List (Char × Char)) (n : Nat) : Bool := rs.any fun r => decide (r.1.toNat ≤ n) && decide (n ≤ r.2.toNat)

theorem within_iff (rs : List (Char × Char)) (n : Nat) : within rs n = true ↔ ∃ r ∈ rs, r.1.toNat ≤ n ∧ n ≤ r.2.toNat := by
  simp [within]

theorem range_text {t : Str} {r : Char × Char} (h : Range t r) (x : Nat) (n : Nat) (q : Str) (b : UInt8) (u : Str) (hq : q = b :: u)
    (hb : b ≠ 45) (first found : Bool) :
    ranges x (n + 1) (t ++ q) first found = ranges x n q false (found || (decide (r.1.toNat ≤ x) && decide (x ≤ r.2.toNat))) := by
  have hne : q ≠ [] := by rw [hq]; exact fun h => by cases h
  obtain ⟨b', u', hb', -, h2⟩ := range_head h
  have h3 : ¬ ((t ++ q).head? = some 93 ∧ first = false) := by
    rw [hb']; rintro ⟨h, -⟩; exact h2 (Option.some.inj h)
  rw [ranges, if_neg h3]
  cases h with
  | char h =>
    rw [getEsc_text h q hne]
    simp only
    rw [if_neg (by rw [hq]; exact fun h => hb (Option.some.inj h))]
  | range h h' =>
    rw [List.append_assoc, getEsc_text h _ (fun h => by cases h)]
    simp only [List.cons_append, List.head?_cons, if_true, List.tail_cons]
    rw [getEsc_text h' q hne]

theorem ranges_text {t : Str} {rs : List (Char × Char)} (h : Ranges t rs) (x : Nat) (q : Str) : ∀ n, t.length < n → ∀ first found,
    ranges x n (t ++ 93 :: q) first found = some (found || within rs x, q) := by
  induction h with
  | last h =>
    intro n hn first found
    obtain ⟨b, u, hb, -⟩ := range_head h
    match n, hn with
    | n + 2, _ =>
      rw [range_text h x (n + 1) _ 93 q rfl (by decide), ranges, if_pos ⟨rfl, rfl⟩]
      simp [within]
    | 1, hn => rw [hb] at hn; simp at hn
  | @cons s t r rs h ht ih =>
    intro n hn first found
    obtain ⟨b, u, hb, -⟩ := range_head h
    obtain ⟨b', u', hb', h1, -⟩ := ranges_head ht
    match n, hn with
    | n + 1, hn =>
      rw [List.append_assoc, range_text h x n _ b' (u' ++ 93 :: q) (by rw [hb']; rfl) h1, ih n (by
        rw [hb] at hn; simp only [List.length_append, List.length_cons] at hn; omega)]
      simp [within, Bool.or_assoc]

theorem ranges_some (x : Nat) (n : Nat) : ∀ (c q : Str) (first found res : Bool), ranges x n c first found = some (res, q) →
    (∃ t rs, Ranges t rs ∧ c = t ++ 93 :: q) ∨ (first = false ∧ c = 93 :: q) := by
  induction n with
  | zero => intro c q first found res h; cases h
  | succ n ih =>
    intro c q first found res h
    rw [ranges] at h
    split at h
    · rename_i h0
      cases h
      obtain ⟨h1, h2⟩ := h0
      cases c with
      | nil => cases h1
      | cons b c => cases h1; exact .inr ⟨h2, rfl⟩
    · refine .inl ?_
      have key : ∀ (w c' : Str) (r : Char × Char) (f : Bool), Range w r → c = w ++ c' → ranges x n c' false f = some (res, q) →
          ∃ t rs, Ranges t rs ∧ c = t ++ 93 :: q := by
        intro w c' r f hw hc hr
        rcases ih _ _ _ _ _ hr with ⟨t, rs, ht, h1⟩ | ⟨-, h1⟩
        · exact ⟨w ++ t, r :: rs, .cons hw ht, by rw [hc, h1, List.append_assoc]⟩
        · exact ⟨w, [r], .last hw, by rw [hc, h1]⟩
      split at h
      · cases h
      · rename_i lo c1 hlo
        obtain ⟨t, a, ha, hc, -, hne⟩ := getEsc_some hlo
        split at h
        · rename_i h45
          split at h
          · cases h
          · rename_i hi c2 hhi
            obtain ⟨t', a', ha', hc', -, -⟩ := getEsc_some hhi
            refine key (t ++ 45 :: t') c2 (a, a') _ (.range ha ha') ?_ h
            cases c1 with
            | nil => cases h45
            | cons b c1 => cases h45; simp only [List.tail_cons] at hc'; rw [hc, hc']; simp
        · exact key t c1 (a, a) _ (.char ha) hc h

/-! Chunks -/

theorem high_facts (c : UInt8) (hc : (0x80 : UInt8) ≤ c) : c ≠ 92 ∧ c ≠ 42 ∧ c ≠ 91 ∧ c ≠ 93 := by
  revert hc; revert c; apply u8; decide +kernel

theorem scan_high (r : Bool) (t : Str) (ht : ∀ c ∈ t, (0x80 : UInt8) ≤ c) (z : Str) :
    scan r (t ++ z) = (t ++ (scan r z).1, (scan r z).2) := by
  induction t with
  | nil => rfl
  | cons c t ih =>
    have hc := ht c List.mem_cons_self
    have h1 := high_facts c hc
    rw [List.cons_append, scan, if_neg (fun h => h1.2.1 h.1)]
    · simp only [if_neg h1.2.2.1, if_neg h1.2.2.2, ih fun c hc => ht c (List.mem_cons_of_mem _ hc), List.cons_append]
    · intro _ _ h; exact absurd h h1.1

theorem scan_esc (r : Bool) (c : UInt8) (z : Str) : scan r (92 :: c :: z) = (92 :: c :: (scan r z).1, (scan r z).2) := by
  rw [scan]

theorem scan_other (r : Bool) (c : UInt8) (z : Str) (h1 : c ≠ 92) (h2 : ¬ (c = 42 ∧ r = false)) (h3 : c ≠ 91) (h4 : c ≠ 93) :
    scan r (c :: z) = (c :: (scan r z).1, (scan r z).2) := by
  rw [scan, if_neg h2]
  · simp only [if_neg h3, if_neg h4]
  · intro _ _ h; exact absurd h h1

theorem scan_setChar {t : Str} {ch : Char} (h : SetChar t ch) (z : Str) :
    scan true (t ++ z) = (t ++ (scan true z).1, (scan true z).2) := by
  cases h with
  | plain _ h1 h2 h3 =>
    obtain ⟨b, u, hb⟩ := head_of ch
    have hu := tail_high ch b u hb
    rw [hb, List.cons_append]
    have h92 : b ≠ 92 := by rintro rfl; exact h3 (ascii_char ch _ u hb (by decide)).2
    have h93 : b ≠ 93 := by rintro rfl; exact h2 (ascii_char ch _ u hb (by decide)).2
    by_cases h91 : b = 91
    · subst h91
      rw [scan, if_neg (by simp)]
      · simp only [if_true, scan_high true u hu, List.cons_append]
      · intro _ _ h; exact absurd h h92
    · rw [scan_other true b _ h92 (by simp) h91 h93, scan_high true u hu]; rfl
  | escaped _ =>
    obtain ⟨b, u, hb⟩ := head_of ch
    rw [hb]
    show scan true (92 :: b :: (u ++ z)) = _
    rw [scan_esc, scan_high true u (tail_high ch b u hb)]; rfl

theorem scan_range {t : Str} {r : Char × Char} (h : Range t r) (z : Str) :
    scan true (t ++ z) = (t ++ (scan true z).1, (scan true z).2) := by
  cases h with
  | char h => exact scan_setChar h z
  | range h h' =>
    rw [List.append_assoc, scan_setChar h, List.cons_append, scan_other true 45 _ (by decide) (by simp) (by decide) (by decide),
      scan_setChar h']
    simp

theorem scan_ranges {t : Str} {rs : List (Char × Char)} (h : Ranges t rs) (z : Str) :
    scan true (t ++ z) = (t ++ (scan true z).1, (scan true z).2) := by
  induction h with
  | last h => exact scan_range h z
  | cons h _ ih => rw [List.append_assoc, scan_range h, ih]; simp

theorem scan_set {t : Str} {rs : List (Char × Char)} (h : Ranges t rs) (z : Str) :
    scan false (91 :: t ++ 93 :: z) = (91 :: t ++ 93 :: (scan false z).1, (scan false z).2) := by
  show scan false (91 :: (t ++ 93 :: z)) = _
  rw [scan, if_neg (by decide)]
  · simp only [if_true]
    rw [scan_ranges h, scan, if_neg (by decide)]
    · simp
    · intro _ _ h; exact absurd h (by decide)
  · intro _ _ h; exact absurd h (by decide)

theorem scan_negated {t : Str} {rs : List (Char × Char)} (h : Ranges t rs) (z : Str) :
    scan false (91 :: 94 :: t ++ 93 :: z) = (91 :: 94 :: t ++ 93 :: (scan false z).1, (scan false z).2) := by
  show scan false (91 :: (94 :: (t ++ 93 :: z))) = _
  rw [scan, if_neg (by decide)]
  · simp only [if_true]
    rw [scan_other true 94 _ (by decide) (by simp) (by decide) (by decide), scan_ranges h, scan, if_neg (by decide)]
    · simp
    · intro _ _ h; exact absurd h (by decide)
  · intro _ _ h; exact absurd h (by decide)

theorem scan_byte {c : UInt8} (h1 : c ≠ 42) (h3 : c ≠ 91) (h4 : c ≠ 92) (z : Str) :
    scan false (c :: z) = (c :: (scan false z).1, (scan false z).2) := by
  by_cases h93 : c = 93
  · subst h93
    rw [scan, if_neg (by decide)]
    · simp
    · intro _ _ h; exact absurd h (by decide)
  · exact scan_other false c z h4 (fun h => h1 h.1) h3 h93

theorem scan_join (p : Str) : ∀ r, (scan r p).1 ++ (scan r p).2 = p := by
  induction p using List.twoStepInduction with
  | nil => intro r; rfl
  | singleton c =>
    intro r
    rw [scan]
    · split
      · rfl
      · simp [scan]
    · intro _ _ h h'; cases h'
  | cons_cons c d p ih ih' =>
    intro r
    by_cases h : c = 92
    · subst h; rw [scan_esc]; simp [ih r]
    · rw [scan]
      · split
        · rfl
        · simp only [List.cons_append, ih' d]
      · intro _ _ h' _; exact absurd h' h

theorem scan_rest (p : Str) : ∀ r, (scan r p).2 = [] ∨ (scan r p).2.head? = some 42 := by
  induction p using List.twoStepInduction with
  | nil => intro r; exact .inl rfl
  | singleton c =>
    intro r
    rw [scan]
    · split
      · rename_i h; right; simp [h.1]
      · left; simp [scan]
    · intro _ _ h h'; cases h'
  | cons_cons c d p ih ih' =>
    intro r
    by_cases h : c = 92
    · subst h; rw [scan_esc]; exact ih r
    · rw [scan]
      · split
        · rename_i h; right; simp [h.1]
        · exact ih' d _
      · intro _ _ h' _; exact absurd h' h

/-- What a piece other than a star does to a text. -/
def step : Piece → Str → Option Str
  | .star, _ => none
  | .one, s => if s = [] ∨ s.head? = some 47 then none else some (s.drop (Utf8.decode s).2)
  | .byte c, s => if s.head? = some c then some s.tail else none
  | .set neg rs, s => if s = [] ∨ within rs (Utf8.decode s).1 = neg then none else some (s.drop (Utf8.decode s).2)

def runs : List Piece → Str → Option Str
  | [], s => some s
  | p :: ps, s => (step p s).bind (runs ps)

theorem step_nil (p : Piece) : step p [] = none := by
  cases p <;> simp [step]

def NoStar (ps : List Piece) : Prop := ∀ p ∈ ps, p ≠ .star

theorem matchChunk_byte (n : Nat) (c : UInt8) (z : Str) (so : Option Str) (h2 : c ≠ 63) (h3 : c ≠ 91) (h4 : c ≠ 92) :
    matchChunk (n + 1) (c :: z) so = matchChunk n z (so.bind (step (.byte c))) := by
  rw [matchChunk.eq_def]
  simp only [if_neg h2, if_neg h3, if_neg h4]
  congr 1
  cases so with
  | none => rfl
  | some s => cases s <;> simp [step]

theorem matchChunk_esc (n : Nat) (c : UInt8) (z : Str) (so : Option Str) :
    matchChunk (n + 1) (92 :: c :: z) so = matchChunk n z (so.bind (step (.byte c))) := by
  rw [matchChunk.eq_def]
  simp only [show (92 : UInt8) ≠ 91 by decide, show (92 : UInt8) ≠ 63 by decide, if_false, if_true]
  congr 1
  cases so with
  | none => rfl
  | some s => cases s <;> simp [step]

theorem matchChunk_one (n : Nat) (z : Str) (so : Option Str) :
    matchChunk (n + 1) (63 :: z) so = matchChunk n z (so.bind (step .one)) := by
  rw [matchChunk.eq_def]
  simp only [show (63 : UInt8) ≠ 91 by decide, if_false, if_true]
  congr 1
  cases so with
  | none => rfl
  | some s => cases s <;> simp [step]

theorem set_step (so : Option Str) (neg : Bool) (rs : List (Char × Char)) :
    (if (false || within rs (match (if so = some [] then none else so) with
      | some s => (Utf8.decode s).1
      | none => 0)) = neg then none else (if so = some [] then none else so).map fun s => s.drop (Utf8.decode s).2) =
      so.bind (step (.set neg rs)) := by
  cases so with
  | none => simp
  | some s =>
    cases s with
    | nil => simp [step]
    | cons a s => simp [step]

theorem matchChunk_set (n : Nat) {t : Str} {rs : List (Char × Char)} (h : Ranges t rs) (h94 : t.head? ≠ some 94) (z : Str)
    (so : Option Str) : matchChunk (n + 1) (91 :: t ++ 93 :: z) so = matchChunk n z (so.bind (step (.set false rs))) := by
  obtain ⟨b, u, hb, -⟩ := ranges_head h
  have h94' : ((t ++ 93 :: z).head? == some 94) = false := by
    rw [hb] at h94 ⊢; simpa using h94
  rw [← set_step]
  show matchChunk (n + 1) (91 :: (t ++ 93 :: z)) so = _
  rw [matchChunk.eq_def]
  simp only [h94', if_true]
  simp only [Bool.false_eq_true, if_false]
  rw [ranges_text h _ z _ (by simp only [List.length_append, List.length_cons]; omega)]
  rfl

theorem matchChunk_negated (n : Nat) {t : Str} {rs : List (Char × Char)} (h : Ranges t rs) (z : Str)
    (so : Option Str) : matchChunk (n + 1) (91 :: 94 :: t ++ 93 :: z) so = matchChunk n z (so.bind (step (.set true rs))) := by
  rw [← set_step]
  show matchChunk (n + 1) (91 :: 94 :: (t ++ 93 :: z)) so = _
  rw [matchChunk.eq_def]
  simp only [if_true, List.head?_cons, beq_self_eq_true, List.tail_cons]
  rw [ranges_text h _ z _ (by simp only [List.length_append, List.length_cons]; omega)]
  rfl

theorem matchChunk_text {c : Str} {ps : List Piece} (h : Pattern c ps) : NoStar ps → ∀ n, c.length < n → ∀ so,
    matchChunk n c so = some (so.bind (runs ps)) := by
  have hb : ∀ (so : Option Str) (p : Piece) (ps : List Piece), (so.bind (step p)).bind (runs ps) = so.bind (runs (p :: ps)) := by
    intro so p ps; cases so <;> rfl
  induction h with
  | nil =>
    intro _ n hn so
    match n, hn with
    | n + 1, _ => rw [matchChunk]; cases so <;> rfl
  | star _ _ => intro hs; exact absurd rfl (hs _ List.mem_cons_self)
  | one _ ih =>
    intro hs n hn so
    match n, hn with
    | n + 1, hn =>
      rw [matchChunk_one, ih (fun p hp => hs p (List.mem_cons_of_mem _ hp)) n (by simpa using hn), hb]
  | byte h1 h2 h3 h4 _ ih =>
    intro hs n hn so
    match n, hn with
    | n + 1, hn =>
      rw [matchChunk_byte n _ _ _ h2 h3 h4, ih (fun p hp => hs p (List.mem_cons_of_mem _ hp)) n (by simpa using hn), hb]
  | escaped _ ih =>
    intro hs n hn so
    match n, hn with
    | n + 1, hn =>
      rw [matchChunk_esc, ih (fun p hp => hs p (List.mem_cons_of_mem _ hp)) n (by simp at hn; omega), hb]
  | set hr h94 _ ih =>
    intro hs n hn so
    match n, hn with
    | n + 1, hn =>
      rw [matchChunk_set n hr h94, ih (fun p hp => hs p (List.mem_cons_of_mem _ hp)) n (by simp at hn; omega), hb]
  | negated hr _ ih =>
    intro hs n hn so
    match n, hn with
    | n + 1, hn =>
      rw [matchChunk_negated n hr, ih (fun p hp => hs p (List.mem_cons_of_mem _ hp)) n (by simp at hn; omega), hb]

theorem matchChunk_some (n : Nat) : ∀ (c q : Str) (so : Option Str), (∃ r, matchChunk n c so = some r) → scan false (c ++ q) = (c, q) →
    ∃ ps, Pattern c ps ∧ NoStar ps := by
  have hc : ∀ {p : Piece} {ps : List Piece}, p ≠ .star → NoStar ps → NoStar (p :: ps) := by
    intro p ps h1 h2 x hx
    rcases List.mem_cons.mp hx with rfl | hx
    · exact h1
    · exact h2 x hx
  induction n with
  | zero => rintro c q so ⟨r, h⟩ _; cases h
  | succ n ih =>
    rintro c q so ⟨r, h⟩ hscan
    match c with
    | [] => exact ⟨[], .nil, fun _ h => by cases h⟩
    | c :: z =>
      by_cases h92 : c = 92
      · subst h92
        match z with
        | [] => simp [matchChunk] at h
        | c :: z =>
          rw [matchChunk_esc] at h
          rw [List.cons_append, List.cons_append, scan_esc] at hscan
          obtain ⟨h1, h2⟩ := Prod.mk.inj hscan
          obtain ⟨ps, hp, hs⟩ := ih z q _ ⟨r, h⟩ (Prod.ext (List.cons.inj (List.cons.inj h1).2).2 h2)
          exact ⟨_, .escaped hp, hc (by simp) hs⟩
      by_cases h63 : c = 63
      · subst h63
        rw [matchChunk_one] at h
        rw [List.cons_append, scan_byte (by decide) (by decide) (by decide)] at hscan
        obtain ⟨h1, h2⟩ := Prod.mk.inj hscan
        obtain ⟨ps, hp, hs⟩ := ih z q _ ⟨r, h⟩ (Prod.ext (List.cons.inj h1).2 h2)
        exact ⟨_, .one hp, hc (by simp) hs⟩
      by_cases h91 : c = 91
      · subst h91
        rw [matchChunk.eq_def] at h
        simp only [if_true] at h
        by_cases h94 : z.head? = some 94
        · obtain ⟨z, rfl⟩ : ∃ z', z = 94 :: z' := by
            cases z with
            | nil => cases h94
            | cons b z => cases h94; exact ⟨z, rfl⟩
          · simp only [List.head?_cons, beq_self_eq_true, if_true, List.tail_cons] at h
            split at h
            · cases h
            · rename_i f z' hr
              rcases ranges_some _ _ _ _ _ _ _ hr with ⟨t, rs, ht, rfl⟩ | ⟨h0, -⟩
              · have hscan' : scan false (91 :: 94 :: t ++ 93 :: (z' ++ q)) = (91 :: 94 :: t ++ 93 :: z', q) := by simpa using hscan
                rw [scan_negated ht] at hscan'
                obtain ⟨h1, h2⟩ := Prod.mk.inj hscan'
                obtain ⟨ps, hp, hs⟩ := ih z' q _ ⟨r, h⟩ (Prod.ext (List.cons.inj (List.append_cancel_left h1)).2 h2)
                exact ⟨_, .negated ht hp, hc (by simp) hs⟩
              · cases h0
        · have h94' : (z.head? == some 94) = false := by simpa using h94
          simp only [h94'] at h
          simp only [Bool.false_eq_true, if_false] at h
          split at h
          · cases h
          · rename_i f z' hr
            rcases ranges_some _ _ _ _ _ _ _ hr with ⟨t, rs, ht, rfl⟩ | ⟨h0, -⟩
            · have hscan' : scan false (91 :: t ++ 93 :: (z' ++ q)) = (91 :: t ++ 93 :: z', q) := by simpa using hscan
              rw [scan_set ht] at hscan'
              obtain ⟨h1, h2⟩ := Prod.mk.inj hscan'
              obtain ⟨ps, hp, hs⟩ := ih z' q _ ⟨r, h⟩ (Prod.ext (List.cons.inj (List.append_cancel_left h1)).2 h2)
              refine ⟨_, .set ht ?_ hp, hc (by simp) hs⟩
              obtain ⟨b, u, hb, -⟩ := ranges_head ht
              rw [hb] at h94 ⊢; simpa using h94
            · cases h0
      by_cases h42 : c = 42
      · subst h42
        rw [List.cons_append, scan, if_pos ⟨rfl, rfl⟩] at hscan
        · cases (Prod.mk.inj hscan).1
        · intro _ _ h; exact absurd h (by decide)
      rw [matchChunk_byte n _ _ _ h63 h91 h92] at h
      rw [List.cons_append, scan_byte h42 h91 h92] at hscan
      obtain ⟨h1, h2⟩ := Prod.mk.inj hscan
      obtain ⟨ps, hp, hs⟩ := ih z q _ ⟨r, h⟩ (Prod.ext (List.cons.inj h1).2 h2)
      exact ⟨_, .byte h42 h63 h91 h92 hp, hc (by simp) hs⟩

end Verif.Glob
