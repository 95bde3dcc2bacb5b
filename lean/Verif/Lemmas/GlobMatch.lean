import Verif.Lemmas.Glob
/-!
# Lemmas about Match: the loop
-/
namespace Verif.Glob
open Verif Verif.Literal

theorem pattern_append {p q : Str} {ps qs : List Piece} (h : Pattern p ps) (hq : Pattern q qs) : Pattern (p ++ q) (ps ++ qs) := by
  induction h with
  | nil => exact hq
  | star _ ih => exact .star ih
  | one _ ih => exact .one ih
  | byte h1 h2 h3 h4 _ ih => exact .byte h1 h2 h3 h4 ih
  | escaped _ ih => exact .escaped ih
  | @set s p rs ps hr h94 _ ih =>
    have := Pattern.set hr h94 ih
    simpa using this
  | @negated s p rs ps hr _ ih =>
    have := Pattern.negated hr ih
    simpa using this

/-- A pattern up to its first star. -/
theorem pattern_split {p : Str} {ps : List Piece} (h : Pattern p ps) : ∃ c q ps1 ps2, p = c ++ q ∧ ps = ps1 ++ ps2 ∧ Pattern c ps1 ∧
    NoStar ps1 ∧ Pattern q ps2 ∧ (∀ x ∈ ps2.head?, x = .star) ∧ scan false p = (c, q) := by
  have hc : ∀ {p : Piece} {ps : List Piece}, p ≠ .star → NoStar ps → NoStar (p :: ps) := by
    intro p ps h1 h2 x hx
    rcases List.mem_cons.mp hx with rfl | hx
    · exact h1
    · exact h2 x hx
  induction h with
  | nil => exact ⟨[], [], [], [], rfl, rfl, .nil, (fun _ h => by cases h), .nil, (fun _ h => by cases h), rfl⟩
  | star h _ =>
    refine ⟨[], _, [], _, rfl, rfl, .nil, (fun _ h => by cases h), .star h, (fun x h => by cases h; rfl), ?_⟩
    rw [scan, if_pos ⟨rfl, rfl⟩]
    intro _ _ h; exact absurd h (by decide)
  | one _ ih =>
    obtain ⟨c, q, ps1, ps2, h1, h2, h3, h4, h5, h6, h7⟩ := ih
    refine ⟨_, q, _, ps2, congrArg (63 :: ·) h1, congrArg (_ :: ·) h2, .one h3, hc (by simp) h4, h5, h6, ?_⟩
    rw [scan_byte (by decide) (by decide) (by decide), h7]
  | byte a1 a2 a3 a4 _ ih =>
    obtain ⟨c, q, ps1, ps2, h1, h2, h3, h4, h5, h6, h7⟩ := ih
    refine ⟨_, q, _, ps2, congrArg (_ :: ·) h1, congrArg (_ :: ·) h2, .byte a1 a2 a3 a4 h3, hc (by simp) h4, h5, h6, ?_⟩
    rw [scan_byte a1 a3 a4, h7]
  | escaped _ ih =>
    obtain ⟨c, q, ps1, ps2, h1, h2, h3, h4, h5, h6, h7⟩ := ih
    refine ⟨_, q, _, ps2, congrArg (92 :: _ :: ·) h1, congrArg (_ :: ·) h2, .escaped h3, hc (by simp) h4, h5, h6, ?_⟩
    rw [scan_esc, h7]
  | @set s p rs ps hr h94 _ ih =>
    obtain ⟨c, q, ps1, ps2, h1, h2, h3, h4, h5, h6, h7⟩ := ih
    refine ⟨91 :: s ++ 93 :: c, q, .set false rs :: ps1, ps2, by simp [h1], congrArg (_ :: ·) h2, .set hr h94 h3, hc (by simp) h4, h5, h6, ?_⟩
    rw [scan_set hr, h7]
  | @negated s p rs ps hr _ ih =>
    obtain ⟨c, q, ps1, ps2, h1, h2, h3, h4, h5, h6, h7⟩ := ih
    refine ⟨91 :: 94 :: s ++ 93 :: c, q, .set true rs :: ps1, ps2, by simp [h1], congrArg (_ :: ·) h2, .negated hr h3, hc (by simp) h4, h5, h6, ?_⟩
    rw [scan_negated hr, h7]

theorem fits_star {e : Bool} {ps : List Piece} {s : Str} : Fits e (.star :: ps) s ↔ ∃ a t, s = a ++ t ∧ 47 ∉ a ∧ Fits e ps t := by
  constructor
  · intro h
    cases h with
    | @star a t _ h1 h2 => exact ⟨a, t, rfl, h1, h2⟩
  · rintro ⟨a, t, rfl, h1, h2⟩; exact .star h1 h2

theorem fits_more {e : Bool} {ps : List Piece} {s : Str} (h : Fits e (.star :: ps) s) (a : Str) (ha : 47 ∉ a) : Fits e (.star :: ps) (a ++ s) := by
  obtain ⟨b, t, rfl, h1, h2⟩ := fits_star.mp h
  exact fits_star.mpr ⟨a ++ b, t, by simp, by simp [ha, h1], h2⟩

theorem fits_stars {e : Bool} {ps : List Piece} {s : Str} : Fits e (.star :: .star :: ps) s ↔ Fits e (.star :: ps) s := by
  constructor
  · intro h
    obtain ⟨a, t, rfl, h1, h2⟩ := fits_star.mp h
    exact fits_more h2 a h1
  · intro h
    exact fits_star.mpr ⟨[], s, rfl, (fun h => by cases h), h⟩

theorem pattern_nil {ps : List Piece} (h : Pattern [] ps) : ps = [] := by
  generalize hp : ([] : Str) = p at h
  cases h with
  | nil => rfl
  | set => simp at hp
  | negated => simp at hp
  | _ => cases hp

theorem pattern_star {p : Str} {ps : List Piece} (h : Pattern (42 :: p) ps) : ∃ ps', ps = .star :: ps' ∧ Pattern p ps' := by
  generalize hp : 42 :: p = p' at h
  cases h with
  | nil => cases hp
  | star h => cases hp; exact ⟨_, rfl, h⟩
  | one h => exact absurd (List.cons.inj hp).1 (by decide)
  | byte h1 => exact absurd (List.cons.inj hp).1.symm h1
  | escaped => exact absurd (List.cons.inj hp).1 (by decide)
  | set => exact absurd (List.cons.inj hp).1 (by decide)
  | negated => exact absurd (List.cons.inj hp).1 (by decide)

/-- Stars at the beginning are one star. -/
theorem pattern_stars (p : Str) : ∀ ps, Pattern (42 :: p) ps → ∃ ps', Pattern (p.dropWhile (· == 42)) ps' ∧
    ∀ e s, Fits e ps s ↔ Fits e (.star :: ps') s := by
  induction p with
  | nil =>
    intro ps h
    obtain ⟨ps', rfl, h'⟩ := pattern_star h
    exact ⟨ps', h', fun _ _ => Iff.rfl⟩
  | cons c p ih =>
    intro ps h
    obtain ⟨ps', rfl, h'⟩ := pattern_star h
    by_cases hc : c = 42
    · subst hc
      obtain ⟨ps2, h2, h3⟩ := ih ps' h'
      refine ⟨ps2, by simpa using h2, fun e s => ?_⟩
      rw [← fits_stars (ps := ps2)]
      constructor
      · intro h
        obtain ⟨a, t, rfl, h4, h5⟩ := fits_star.mp h
        exact fits_star.mpr ⟨a, t, rfl, h4, (h3 e t).mp h5⟩
      · intro h
        obtain ⟨a, t, rfl, h4, h5⟩ := fits_star.mp h
        exact fits_star.mpr ⟨a, t, rfl, h4, (h3 e t).mpr h5⟩
    · refine ⟨ps', ?_, fun _ _ => Iff.rfl⟩
      rw [List.dropWhile_cons, if_neg (by simpa using hc)]
      exact h'

theorem stars_pattern (p : Str) (ps : List Piece) (h : Pattern (p.dropWhile (· == 42)) ps) : ∃ ps', Pattern p ps' := by
  induction p with
  | nil => exact ⟨ps, h⟩
  | cons c p ih =>
    by_cases hc : c = 42
    · subst hc
      obtain ⟨ps', h'⟩ := ih (by simpa using h)
      exact ⟨_, .star h'⟩
    · rw [List.dropWhile_cons, if_neg (by simpa using hc)] at h
      exact ⟨ps, h⟩

def starOf (star : Bool) : List Piece := if star then [.star] else []

/-- What `scanChunk` takes from a pattern. -/
structure Chunk (p : Str) (ps : List Piece) (star : Bool) (c q : Str) (ps1 ps2 : List Piece) : Prop where
  eq : scanChunk p = (star, c, q)
  chunk : Pattern c ps1
  noStar : NoStar ps1
  rest : Pattern q ps2
  starts : ∀ x ∈ ps2.head?, x = .star
  fits : ∀ e s, Fits e ps s ↔ Fits e (starOf star ++ (ps1 ++ ps2)) s

theorem scan_shorter (p : Str) (hp : p ≠ []) : (scanChunk p).2.2.length < p.length := by
  have h := congrArg List.length (scan_join (p.dropWhile (· == 42)) false)
  rw [List.length_append] at h
  have h2 : (p.dropWhile (· == 42)).length ≤ p.length := (List.dropWhile_sublist _).length_le
  unfold scanChunk
  simp only
  match p, hp with
  | c :: p, _ =>
    by_cases hc : c = 42
    · subst hc
      simp only [List.dropWhile_cons, beq_self_eq_true, if_true, List.length_cons] at h h2 ⊢
      have : (p.dropWhile (· == 42)).length ≤ p.length := (List.dropWhile_sublist _).length_le
      omega
    · rw [List.dropWhile_cons, if_neg (by simpa using hc)] at h ⊢
      have h3 : (scan false (c :: p)).1 ≠ [] := by
        by_cases h92 : c = 92
        · subst h92
          cases p with
          | nil => decide
          | cons d p => rw [scan_esc]; exact List.cons_ne_nil _ _
        · rw [scan, if_neg (fun h => hc h.1)]
          · exact List.cons_ne_nil _ _
          · intro _ _ h; exact absurd h h92
      have := List.length_pos_iff.mpr h3
      omega

theorem chunk_of {p : Str} {ps : List Piece} (h : Pattern p ps) : ∃ star c q ps1 ps2, Chunk p ps star c q ps1 ps2 := by
  by_cases hs : p.head? = some 42
  · cases p with
    | nil => cases hs
    | cons b p =>
      cases hs
      obtain ⟨ps', h1, h2⟩ := pattern_stars p ps h
      obtain ⟨c, q, ps1, ps2, -, rfl, h3, h4, h5, h6, h7⟩ := pattern_split h1
      exact ⟨true, c, q, ps1, ps2, by simp [scanChunk, h7], h3, h4, h5, h6, h2⟩
  · have hd : p.dropWhile (· == 42) = p := by
      cases p with
      | nil => rfl
      | cons b p => rw [List.dropWhile_cons, if_neg (by simpa using hs)]
    obtain ⟨c, q, ps1, ps2, -, rfl, h3, h4, h5, h6, h7⟩ := pattern_split h
    exact ⟨false, c, q, ps1, ps2, by simp [scanChunk, hd, h7, hs], h3, h4, h5, h6, fun _ _ => Iff.rfl⟩

theorem of_chunk {p c q : Str} {star : Bool} (h : scanChunk p = (star, c, q)) (hc : ∃ s r, chunkAt c s = some r)
    (hq : ∃ ps, Pattern q ps) : ∃ ps, Pattern p ps := by
  unfold scanChunk at h
  obtain ⟨-, h2⟩ := Prod.mk.inj h
  have hj := scan_join (p.dropWhile (· == 42)) false
  rw [h2] at hj
  simp only at hj
  obtain ⟨s, r, hr⟩ := hc
  obtain ⟨ps1, h3, -⟩ := matchChunk_some _ c q (some s) ⟨r, hr⟩ (by rw [hj]; exact h2)
  obtain ⟨ps2, h4⟩ := hq
  have := pattern_append h3 h4
  rw [hj] at this
  exact stars_pattern p _ this

theorem chunkAt_eq {p c q : Str} {ps ps1 ps2 : List Piece} {star : Bool} (h : Chunk p ps star c q ps1 ps2) (s : Str) :
    chunkAt c s = some (runs ps1 s) := by
  rw [chunkAt, matchChunk_text h.chunk h.noStar _ (by omega)]; rfl

/-! Skipping -/

theorem skipping_spec {c : Str} {f : Str → Option Str} (hc : ∀ s, chunkAt c s = some (f s)) (last : Bool) (name : Str) :
    (∃ t, skipping c last name = some (some t) ∧ ∃ a n', name = a ++ n' ∧ a ≠ [] ∧ 47 ∉ a ∧ f n' = some t ∧ (last = true → t = []) ∧
      ∀ a0 n0 t0, name = a0 ++ n0 → a0 ≠ [] → 47 ∉ a0 → f n0 = some t0 → (last = true → t0 = []) → n0 <:+ n') ∨
    (skipping c last name = some none ∧ ∀ a n' t, name = a ++ n' → a ≠ [] → 47 ∉ a → f n' = some t → last = true ∧ t ≠ []) := by
  induction name with
  | nil =>
    refine .inr ⟨rfl, fun a n' t h1 h2 => ?_⟩
    exact absurd (List.append_eq_nil_iff.mp h1.symm).1 h2
  | cons b name ih =>
    by_cases hb : b = 47
    · subst hb
      refine .inr ⟨by rw [skipping, if_pos rfl], fun a n' t h1 h2 h3 => ?_⟩
      cases a with
      | nil => exact absurd rfl h2
      | cons x a => cases h1; exact absurd List.mem_cons_self h3
    · have hgo : (∀ t, f name = some t → last = true ∧ t ≠ []) → skipping c last (b :: name) = skipping c last name →
          ((∃ t, skipping c last (b :: name) = some (some t) ∧ ∃ a n', b :: name = a ++ n' ∧ a ≠ [] ∧ 47 ∉ a ∧ f n' = some t ∧ (last = true → t = []) ∧
            ∀ a0 n0 t0, b :: name = a0 ++ n0 → a0 ≠ [] → 47 ∉ a0 → f n0 = some t0 → (last = true → t0 = []) → n0 <:+ n') ∨
          (skipping c last (b :: name) = some none ∧ ∀ a n' t, b :: name = a ++ n' → a ≠ [] → 47 ∉ a → f n' = some t → last = true ∧ t ≠ [])) := by
        intro hno heq
        rw [heq]
        rcases ih with ⟨t, h1, a, n', h2, h3, h4, h5, h6, h7⟩ | ⟨h1, h2⟩
        · refine .inl ⟨t, h1, b :: a, n', by rw [h2]; rfl, List.cons_ne_nil _ _, ?_, h5, h6, ?_⟩
          · intro h
            rcases List.mem_cons.mp h with h | h
            · exact hb h.symm
            · exact h4 h
          · intro a0 n0 t0 g1 g2 g3 g4 g5
            cases a0 with
            | nil => exact absurd rfl g2
            | cons x a0 =>
              cases g1
              cases a0 with
              | nil =>
                obtain ⟨g6, g7⟩ := hno t0 g4
                exact absurd (g5 g6) g7
              | cons y a0 => exact h7 (y :: a0) n0 t0 rfl (List.cons_ne_nil _ _) (fun h => g3 (List.mem_cons_of_mem _ h)) g4 g5
        · refine .inr ⟨h1, fun a n' t g1 g2 g3 g4 => ?_⟩
          cases a with
          | nil => exact absurd rfl g2
          | cons x a =>
            cases g1
            cases a with
            | nil => exact hno t g4
            | cons y a => exact h2 (y :: a) n' t rfl (List.cons_ne_nil _ _) (fun h => g3 (List.mem_cons_of_mem _ h)) g4
      cases hf : f name with
      | none => exact hgo (fun t h => by rw [hf] at h; cases h) (by rw [skipping, if_neg hb, hc, hf])
      | some t =>
        by_cases hl : last = true ∧ t ≠ []
        · exact hgo (fun t' h => by rw [hf] at h; cases h; exact hl) (by rw [skipping, if_neg hb, hc, hf]; simp only [if_pos hl])
        · refine .inl ⟨t, by rw [skipping, if_neg hb, hc, hf]; simp only [if_neg hl], [b], name, rfl, List.cons_ne_nil _ _, ?_, hf, ?_, ?_⟩
          · intro h; exact hb (List.mem_singleton.mp h).symm
          · intro h; by_contra h'; exact hl ⟨h, h'⟩
          · intro a0 n0 t0 g1 g2 g3 g4 g5
            cases a0 with
            | nil => exact absurd rfl g2
            | cons x a0 => cases g1; exact ⟨a0, rfl⟩

/-! Well-formed patterns -/

theorem remainder_some (n : Nat) : ∀ p, remainder n p = true → ∃ ps, Pattern p ps := by
  induction n with
  | zero => intro p h; cases h
  | succ n ih =>
    intro p h
    rw [remainder] at h
    split at h
    · rename_i hp; subst hp; exact ⟨[], .nil⟩
    · cases hs : scanChunk p with | mk star r => cases r with | mk c q =>
      rw [hs] at h
      simp only at h
      split at h
      · cases h
      · rename_i r hr
        exact of_chunk hs ⟨_, r, hr⟩ (ih q h)

theorem remainder_text (n : Nat) : ∀ (p : Str) (ps : List Piece), Pattern p ps → p.length < n → remainder n p = true := by
  induction n with
  | zero => intro p ps _ h; omega
  | succ n ih =>
    intro p ps h hn
    rw [remainder]
    split
    · rfl
    · rename_i hp
      obtain ⟨star, c, q, ps1, ps2, hc⟩ := chunk_of h
      have hlt := scan_shorter p hp
      rw [hc.eq] at hlt ⊢
      simp only [chunkAt_eq hc]
      exact ih q ps2 hc.rest (by simp only at hlt; omega)

/-- What one turn of the loop does. -/
theorem matchN_succ (n : Nat) {p c q : Str} {star : Bool} (name : Str) (hp : p ≠ []) (h : scanChunk p = (star, c, q)) :
    matchN (n + 1) p name = if star = true ∧ c = [] then some (!name.contains 47)
      else
        match chunkAt c name with
        | none => none
        | some r =>
          if r.any (fun t => t = [] || q ≠ []) = true then matchN n q (r.getD [])
          else
            match (if star then skipping c (q = []) name else some none) with
            | none => none
            | some (some t) => matchN n q t
            | some none => if remainder n q then some false else none := by
  rw [matchN, if_neg hp, h]
  rfl

theorem trailing {p c q : Str} {star : Bool} (h : scanChunk p = (star, c, q)) (hc : c = []) : q = [] := by
  unfold scanChunk at h
  obtain ⟨-, h2⟩ := Prod.mk.inj h
  have hj := scan_join (p.dropWhile (· == 42)) false
  have hr := scan_rest (p.dropWhile (· == 42)) false
  rw [h2] at hj hr
  subst hc
  rcases hr with hr | hr
  · exact hr
  · exfalso
    simp only [List.nil_append] at hj hr
    rw [hj] at hr
    have := List.head?_dropWhile_not (· == 42) p
    rw [hr] at this
    simp at this

theorem matchN_some (n : Nat) : ∀ (p name : Str) (b : Bool), matchN n p name = some b → ∃ ps, Pattern p ps := by
  induction n with
  | zero => intro p name b h; cases h
  | succ n ih =>
    intro p name b h
    by_cases hp : p = []
    · subst hp; exact ⟨[], .nil⟩
    cases hs : scanChunk p with | mk star r => cases r with | mk c q =>
    rw [matchN_succ n name hp hs] at h
    split at h
    · rename_i h1
      have hq := trailing hs h1.2
      rw [h1.2] at hs
      exact of_chunk hs ⟨[], some [], rfl⟩ ⟨[], by rw [hq]; exact .nil⟩
    · split at h
      · cases h
      · rename_i r hr
        refine of_chunk hs ⟨name, r, hr⟩ ?_
        split at h
        · exact ih _ _ _ h
        · split at h
          · cases h
          · exact ih _ _ _ h
          · split at h
            · rename_i hrem; exact remainder_some n q hrem
            · cases h

theorem matchN_text (n : Nat) : ∀ (p : Str) (ps : List Piece) (name : Str), Pattern p ps → p.length < n → ∃ b, matchN n p name = some b := by
  induction n with
  | zero => intro p ps name _ h; omega
  | succ n ih =>
    intro p ps name h hn
    by_cases hp : p = []
    · subst hp; exact ⟨decide (name = []), by rw [matchN]; simp⟩
    obtain ⟨star, c, q, ps1, ps2, hc⟩ := chunk_of h
    have hlt := scan_shorter p hp
    rw [hc.eq] at hlt
    rw [matchN_succ n name hp hc.eq]
    split
    · exact ⟨_, rfl⟩
    · simp only [chunkAt_eq hc]
      split
      · exact ih q ps2 _ hc.rest (by simp only at hlt; omega)
      · rcases skipping_spec (chunkAt_eq hc) (decide (q = [])) name with ⟨t, h1, -⟩ | ⟨h1, -⟩
        · cases star with
          | true =>
            simp only [if_true, h1]
            exact ih q ps2 _ hc.rest (by simp only at hlt; omega)
          | false =>
            simp only [Bool.false_eq_true, if_false]
            rw [remainder_text n q ps2 hc.rest (by simp only at hlt; omega)]
            exact ⟨false, rfl⟩
        · rw [h1]
          cases star <;> simp only [ite_self] <;> rw [remainder_text n q ps2 hc.rest (by simp only at hlt; omega)] <;> exact ⟨false, rfl⟩

/-! Pieces and texts -/

theorem cont_mod (k : Nat) : ∀ (b : UInt8), b = UInt8.ofNat (0x80 + k % 64) → Utf8.isCont b = true := by
  rintro b rfl
  have h : k % 64 < 64 := Nat.mod_lt _ (by decide)
  generalize k % 64 = m at h
  revert m
  decide +kernel

theorem tail_cont (ch : Char) (b : UInt8) (t : Str) (h : utf8 ch = b :: t) : ∀ c ∈ t, Utf8.isCont c = true := by
  rw [← encode_char, Utf8.encode, char_valid] at h
  intro c hc
  split at h
  · cases h; cases hc
  split at h
  · cases h
    rw [List.mem_singleton] at hc
    exact cont_mod _ c hc
  rw [if_neg (by decide)] at h
  split at h
  · cases h
    rcases List.mem_cons.mp hc with hc | hc
    · exact cont_mod _ c hc
    · rw [List.mem_singleton] at hc
      exact cont_mod _ c hc
  · cases h
    rcases List.mem_cons.mp hc with hc | hc
    · exact cont_mod _ c hc
    · rcases List.mem_cons.mp hc with hc | hc
      · exact cont_mod _ c hc
      · rw [List.mem_singleton] at hc
        exact cont_mod _ c hc

theorem cont_lead (b : UInt8) (h : Utf8.isCont b = true) : Utf8.lead b = none ∧ ¬ b < 0x80 := by
  revert h; revert b; apply u8; decide +kernel

theorem not_error (ch : Char) : ¬ (ch.toNat = Utf8.runeError ∧ (utf8 ch).length = 1) := by
  rintro ⟨h1, h2⟩
  rw [← encode_char, h1] at h2
  exact absurd h2 (by decide)

theorem first_not_cont (ch : Char) (b : UInt8) (t : Str) (h : utf8 ch = b :: t) : Utf8.isCont b = false := by
  by_contra hc
  have hc' : Utf8.isCont b = true := by simpa using hc
  obtain ⟨h1, h2⟩ := cont_lead b hc'
  have h3 := decode_char ch []
  rw [h, List.append_nil, Utf8.decode, if_neg h2] at h3
  · refine not_error ch ?_
    rw [h]
    · exact ⟨(Prod.mk.inj h3).1.symm, (Prod.mk.inj h3).2.symm⟩
  all_goals (intros; simp_all)

/-- A character that begins before another one ends before it. -/
theorem width_before (x : Str) (hx : x ≠ []) (ch : Char) (t : Str) : (Utf8.decode (x ++ (utf8 ch ++ t))).2 ≤ x.length := by
  have hpos := List.length_pos_iff.mpr hx
  by_cases h : (Utf8.decode (x ++ (utf8 ch ++ t))).1 = Utf8.runeError ∧ (Utf8.decode (x ++ (utf8 ch ++ t))).2 = 1
  · omega
  · obtain ⟨ch', u, h1, -, -⟩ := char_of_decode _ (fun h => hx (List.append_eq_nil_iff.mp h).1) h
    rw [h1, decode_char]
    simp only
    by_contra hlt
    rcases List.append_eq_append_iff.mp h1 with ⟨a, h2, h3⟩ | ⟨a, h2, -⟩
    · match x, hx with
      | x0 :: x, _ =>
        obtain ⟨b, v, hb⟩ := head_of ch
        rw [hb] at h3
        cases a with
        | nil => rw [h2] at hlt; simp at hlt
        | cons a0 a =>
          have hab : b = a0 := (List.cons.inj h3).1
          have := tail_cont ch' x0 (x ++ a0 :: a) h2 a0 (by simp)
          rw [← hab, first_not_cont ch b v hb] at this
          cases this
    · rw [h2] at hlt; simp at hlt

theorem slash_iff (s w : Str) (n : Nat) (h : Begins false s w n) : s.head? = some 47 ↔ n = 47 := by
  obtain ⟨t, h1, h2, h3⟩ := (begins_iff s w n).mp h
  constructor
  · intro h4
    cases s with
    | nil => cases h4
    | cons a s => cases h4; exact (Prod.mk.inj h3).1.symm
  · intro h4
    subst h4
    obtain ⟨ch, u, h5, h6, -⟩ := char_of_decode s h2 (by rw [h3]; rintro ⟨h, -⟩; exact absurd (show (47 : Nat) = 65533 from h) (by decide))
    rw [h3] at h6
    have h7 := encode_char ch
    rw [← h6] at h7
    rw [h5, ← h7]; rfl

theorem step_fits {p : Piece} (hp : p ≠ .star) (ps : List Piece) (s : Str) :
    Fits false (p :: ps) s ↔ ∃ t, step p s = some t ∧ Fits false ps t := by
  constructor
  · intro h
    cases h with
    | star => exact absurd rfl hp
    | @one w t n _ hb hn hf =>
      refine ⟨t, ?_, hf⟩
      obtain ⟨u, h1, h2, h3⟩ := (begins_iff _ w n).mp hb
      rw [step, if_neg, h3, List.drop_left]
      rintro (h | h)
      · exact h2 h
      · exact hn ((slash_iff _ w n hb).mp h)
    | byte hf => exact ⟨_, by simp [step], hf⟩
    | @set neg rs w t n _ hb hn hf =>
      refine ⟨t, ?_, hf⟩
      obtain ⟨u, h1, h2, h3⟩ := (begins_iff _ w n).mp hb
      rw [← within_iff] at hn
      rw [step, if_neg, h3, List.drop_left]
      rintro (h | h)
      · exact h2 h
      · rw [h3] at h
        simp only at h
        rw [h] at hn
        cases neg <;> simp at hn
  · rintro ⟨t, h, hf⟩
    have hb : ∀ s : Str, s ≠ [] → ∃ w u, s = w ++ u ∧ s.drop (Utf8.decode s).2 = u ∧ Begins false s w (Utf8.decode s).1 := by
      intro s hs
      refine ⟨s.take (Utf8.decode s).2, s.drop (Utf8.decode s).2, (List.take_append_drop _ _).symm, rfl, ?_⟩
      refine (begins_iff _ _ _).mpr ⟨s.drop (Utf8.decode s).2, (List.take_append_drop _ _).symm, hs, ?_⟩
      rw [List.length_take, Nat.min_eq_left (Utf8.decode_width s hs).2]
    cases p with
    | star => cases h
    | one =>
      rw [step] at h
      split at h
      · cases h
      · rename_i h1
        cases h
        obtain ⟨w, u, h2, h3, h4⟩ := hb s (fun h => h1 (.inl h))
        rw [h3] at hf
        rw [h2] at h4 ⊢
        refine .one h4 (fun h => h1 (.inr ?_)) hf
        rw [h2]; exact (slash_iff _ w _ h4).mpr h
    | byte c =>
      rw [step] at h
      split at h
      · rename_i h1
        cases h
        cases s with
        | nil => cases h1
        | cons a s => cases h1; exact .byte hf
      · cases h
    | set neg rs =>
      rw [step] at h
      split at h
      · cases h
      · rename_i h1
        cases h
        obtain ⟨w, u, h2, h3, h4⟩ := hb s (fun h => h1 (.inl h))
        rw [h3] at hf
        have hw : within rs (Utf8.decode s).1 ≠ neg := fun h => h1 (.inr h)
        rw [h2] at h4 hw ⊢
        refine .set h4 ?_ hf
        rw [← within_iff]
        generalize within rs (Utf8.decode (w ++ u)).1 = x at hw
        cases x <;> cases neg <;> simp at hw ⊢

theorem fits_weak {ps : List Piece} {s : Str} (h : Fits true ps s) : Fits false ps s := by
  induction h with
  | nil => exact .nil
  | star h1 _ ih => exact .star h1 ih
  | one h1 h2 _ ih => exact .one (begins_weak h1) h2 ih
  | byte _ ih => exact .byte ih
  | set h1 h2 _ ih => exact .set (begins_weak h1) h2 ih

theorem step_exact {p : Piece} (hp : p ≠ .star) (ps : List Piece) (s : Str) (h : Fits true (p :: ps) s) :
    ∃ t, step p s = some t ∧ Fits true ps t ∧ ∀ s' t', s <:+ s' → step p s' = some t' → t <:+ t' := by
  have hone : ∀ (w t : Str) (n : Nat), Begins true (w ++ t) w n → ∀ s', w ++ t <:+ s' → t <:+ s'.drop (Utf8.decode s').2 := by
    intro w t n hb s' hs
    obtain ⟨u, h1, h2, h3⟩ := (begins_iff _ w n).mp (begins_weak hb)
    obtain ⟨x, rfl⟩ := hs
    by_cases hx : x = []
    · subst hx
      rw [List.nil_append, h3, List.drop_left]
    · generalize hs : w ++ t = s at hb
      cases hb with
      | char ch v =>
        have hv : t = v := List.append_cancel_left hs
        subst hv
        have := width_before x hx ch t
        rw [List.drop_append_of_le_length this]
        exact ⟨x.drop (Utf8.decode (x ++ (utf8 ch ++ t))).2 ++ utf8 ch, by simp⟩
      | bad b v h _ => cases h
  obtain ⟨t0, g1, -⟩ := (step_fits hp ps s).mp (fits_weak h)
  cases h with
  | star => exact absurd rfl hp
  | @one w t n _ hb hn hf =>
    have ht : t0 = t := by
      obtain ⟨u, h1, h2, h3⟩ := (begins_iff _ w n).mp (begins_weak hb)
      rw [step] at g1
      split at g1
      · cases g1
      · rw [h3, List.drop_left] at g1; exact (Option.some.inj g1).symm
    subst ht
    refine ⟨t0, g1, hf, fun s' t' hs hst => ?_⟩
    rw [step] at hst
    split at hst
    · cases hst
    · cases hst; exact hone w t0 n hb s' hs
  | @byte c t _ hf =>
    refine ⟨t, by simp [step], hf, fun s' t' hs hst => ?_⟩
    rw [step] at hst
    split at hst
    · cases hst
      obtain ⟨x, rfl⟩ := hs
      cases x with
      | nil => exact List.suffix_rfl
      | cons y x => exact ⟨x ++ [c], by simp⟩
    · cases hst
  | @set neg rs w t n _ hb hn hf =>
    have ht : t0 = t := by
      obtain ⟨u, h1, h2, h3⟩ := (begins_iff _ w n).mp (begins_weak hb)
      rw [step] at g1
      split at g1
      · cases g1
      · rw [h3, List.drop_left] at g1; exact (Option.some.inj g1).symm
    subst ht
    refine ⟨t0, g1, hf, fun s' t' hs hst => ?_⟩
    rw [step] at hst
    split at hst
    · cases hst
    · cases hst; exact hone w t0 n hb s' hs

theorem runs_fits (ps1 ps2 : List Piece) (h1 : NoStar ps1) : ∀ s t, runs ps1 s = some t → Fits false ps2 t → Fits false (ps1 ++ ps2) s := by
  induction ps1 with
  | nil => intro s t h hf; cases h; exact hf
  | cons p ps1 ih =>
    intro s t h hf
    rw [runs] at h
    cases hs : step p s with
    | none => rw [hs] at h; cases h
    | some u =>
      rw [hs] at h
      exact (step_fits (h1 p List.mem_cons_self) _ s).mpr ⟨u, hs, ih (fun x hx => h1 x (List.mem_cons_of_mem _ hx)) u t h hf⟩

theorem runs_exact (ps1 ps2 : List Piece) (h1 : NoStar ps1) : ∀ s, Fits true (ps1 ++ ps2) s →
    ∃ t, runs ps1 s = some t ∧ Fits true ps2 t ∧ ∀ s' t', s <:+ s' → runs ps1 s' = some t' → t <:+ t' := by
  induction ps1 with
  | nil => intro s h; exact ⟨s, rfl, h, fun s' t' hs h => by cases h; exact hs⟩
  | cons p ps1 ih =>
    intro s h
    obtain ⟨u, h2, h3, h4⟩ := step_exact (h1 p List.mem_cons_self) _ s h
    obtain ⟨t, h5, h6, h7⟩ := ih (fun x hx => h1 x (List.mem_cons_of_mem _ hx)) u h3
    refine ⟨t, by rw [runs, h2]; exact h5, h6, fun s' t' hs hr => ?_⟩
    rw [runs] at hr
    cases hs' : step p s' with
    | none => rw [hs'] at hr; cases hr
    | some u' => rw [hs'] at hr; exact h7 u' t' (h4 s' u' hs hs') hr

theorem runs_suffix (ps : List Piece) : ∀ s t, runs ps s = some t → t <:+ s := by
  induction ps with
  | nil => intro s t h; cases h; exact List.suffix_rfl
  | cons p ps ih =>
    intro s t h
    rw [runs] at h
    cases hs : step p s with
    | none => rw [hs] at h; cases h
    | some u =>
      rw [hs] at h
      refine (ih u t h).trans ?_
      cases p with
      | star => cases hs
      | one =>
        rw [step] at hs
        split at hs
        · cases hs
        · cases hs; exact List.drop_suffix _ _
      | byte c =>
        rw [step] at hs
        split at hs
        · cases hs; exact List.tail_suffix _
        · cases hs
      | set neg rs =>
        rw [step] at hs
        split at hs
        · cases hs
        · cases hs; exact List.drop_suffix _ _

theorem fits_nil {e : Bool} {s : Str} : Fits e [] s ↔ s = [] := by
  constructor
  · intro h; cases h; rfl
  · rintro rfl; exact .nil

theorem matchN_sound (n : Nat) : ∀ (p : Str) (ps : List Piece) (name : Str), Pattern p ps → matchN n p name = some true → Fits false ps name := by
  induction n with
  | zero => intro p ps name _ h; cases h
  | succ n ih =>
    intro p ps name h hm
    by_cases hp : p = []
    · subst hp
      rw [pattern_nil h]
      rw [matchN, if_pos rfl] at hm
      exact fits_nil.mpr (by simpa using hm)
    obtain ⟨star, c, q, ps1, ps2, hc⟩ := chunk_of h
    rw [matchN_succ n name hp hc.eq] at hm
    rw [hc.fits]
    have hstar : ∀ a s, 47 ∉ a → (a ≠ [] → star = true) → Fits false (ps1 ++ ps2) s → Fits false (starOf star ++ (ps1 ++ ps2)) (a ++ s) := by
      intro a s h1 h2 h3
      cases star with
      | true => exact .star h1 h3
      | false =>
        have : a = [] := by by_contra h; cases h2 h
        subst this; exact h3
    split at hm
    · rename_i h1
      have hq := trailing hc.eq h1.2
      have hps1 : ps1 = [] := pattern_nil (h1.2 ▸ hc.chunk)
      have hps2 : ps2 = [] := pattern_nil (hq ▸ hc.rest)
      rw [hps1, hps2, h1.1]
      have : 47 ∉ name := by simpa using hm
      exact fits_star.mpr ⟨name, [], by simp, this, .nil⟩
    · rw [chunkAt_eq hc] at hm
      simp only at hm
      split at hm
      · cases hr : runs ps1 name with
        | none => rename_i h1; rw [hr] at h1; cases h1
        | some t =>
          rw [hr] at hm
          exact hstar [] name (by simp) (fun h => absurd rfl h) (runs_fits ps1 ps2 hc.noStar name t hr (ih q ps2 t hc.rest hm))
      · cases star with
        | false =>
          simp only [Bool.false_eq_true, if_false] at hm
          split at hm <;> cases hm
        | true =>
          rcases skipping_spec (chunkAt_eq hc) (decide (q = [])) name with ⟨t, h1, a, n', h2, -, h3, h4, -⟩ | ⟨h1, -⟩
          · simp only [if_true, h1] at hm
            rw [h2]
            exact hstar a n' h3 (fun _ => rfl) (runs_fits ps1 ps2 hc.noStar n' t h4 (ih q ps2 t hc.rest hm))
          · simp only [if_true, h1] at hm
            split at hm <;> cases hm

theorem matchN_complete (n : Nat) : ∀ (p : Str) (ps : List Piece) (name : Str), Pattern p ps → p.length < n → Fits true ps name → 47 ∉ name →
    matchN n p name = some true := by
  induction n with
  | zero => intro p ps name _ h; omega
  | succ n ih =>
    intro p ps name h hn hf h47
    by_cases hp : p = []
    · subst hp
      rw [pattern_nil h] at hf
      rw [matchN, if_pos rfl, fits_nil.mp hf]; rfl
    obtain ⟨star, c, q, ps1, ps2, hc⟩ := chunk_of h
    have hlt := scan_shorter p hp
    rw [hc.eq] at hlt
    have hlt : q.length < n := by simp only at hlt; omega
    rw [matchN_succ n name hp hc.eq]
    rw [hc.fits] at hf
    split
    · simp [h47]
    rename_i hnt
    have hne : q ≠ [] → ∃ ps', ps2 = .star :: ps' := by
      intro hq
      cases hps : ps2 with
      | nil =>
        have := hc.rest
        rw [hps] at this
        generalize hx : ([] : List Piece) = x at this
        cases this with
        | nil => exact absurd rfl hq
        | _ => cases hx
      | cons x ps' => exact ⟨ps', by rw [hc.starts x (by rw [hps]; rfl)]⟩
    -- where the chunk fits exactly
    obtain ⟨a, s, hname, ha, hstar, hfs⟩ : ∃ a s, name = a ++ s ∧ 47 ∉ a ∧ (a ≠ [] → star = true) ∧ Fits true (ps1 ++ ps2) s := by
      cases star with
      | true =>
        obtain ⟨a, s, h1, h2, h3⟩ := fits_star.mp hf
        exact ⟨a, s, h1, h2, fun _ => rfl, h3⟩
      | false => exact ⟨[], name, rfl, by simp, fun h => absurd rfl h, hf⟩
    obtain ⟨t0, h1, h2, h3⟩ := runs_exact ps1 ps2 hc.noStar s hfs
    have ht0 : q = [] → t0 = [] := by
      intro hq
      have : ps2 = [] := pattern_nil (hq ▸ hc.rest)
      rw [this] at h2
      exact fits_nil.mp h2
    -- a fit that is found before goes on as well
    have hgo : ∀ s' t, s <:+ s' → s' <:+ name → runs ps1 s' = some t → (q = [] → t = []) → matchN n q t = some true := by
      intro s' t hs hs' hr hq
      have h47t : 47 ∉ t := fun h => h47 (((runs_suffix ps1 s' t hr).trans hs').subset h)
      refine ih q ps2 t hc.rest hlt ?_ h47t
      obtain ⟨y, rfl⟩ := h3 s' t hs hr
      by_cases hq0 : q = []
      · have : ps2 = [] := pattern_nil (hq0 ▸ hc.rest)
        rw [this, hq hq0]; exact .nil
      · obtain ⟨ps', rfl⟩ := hne hq0
        exact fits_more h2 y fun h => h47t (List.mem_append.mpr (.inl h))
    rw [chunkAt_eq hc]
    simp only
    split
    · rename_i hany
      cases hr : runs ps1 name with
      | none => rw [hr] at hany; cases hany
      | some t =>
        refine hgo name t ⟨a, hname.symm⟩ List.suffix_rfl hr fun hq => ?_
        rw [hr] at hany
        simpa [hq] using hany
    · rename_i hany
      have ha0 : a ≠ [] := by
        rintro rfl
        rw [List.nil_append] at hname
        subst hname
        refine hany ?_
        rw [h1]
        by_cases hq : q = []
        · simp [ht0 hq]
        · simp [hq]
      rw [if_pos (hstar ha0)]
      rcases skipping_spec (chunkAt_eq hc) (decide (q = [])) name with ⟨t, g1, a', n', g2, g3, g4, g5, g6, g7⟩ | ⟨g1, g2⟩
      · rw [g1]
        exact hgo n' t (g7 a s t0 hname ha0 ha h1 fun hq => ht0 (by simpa using hq)) ⟨a', g2.symm⟩ g5 fun hq => g6 (by simpa using hq)
      · obtain ⟨g3, g4⟩ := g2 a s t0 hname ha0 ha h1
        exact absurd (ht0 (by simpa using g3)) g4

end Verif.Glob
