import Mathlib.Tactic.ByContra
import Verif.Model.Regexp
import Verif.Lemmas.Utf8
import Verif.Props.C18
/-! # Matching with the patterns of the repository -/
namespace Verif.Re
open Verif

/-! ## Reading runes -/

theorem step_low {c : UInt8} (hc : c.toNat < 128) (s : Str) : step (c :: s) = some (c.toNat, s) := by
  have hd : Utf8.decode (c :: s) = (c.toNat, 1) := by
    rw [Utf8.decode.eq_def]
    dsimp only
    rw [if_pos (show c < 0x80 from by rw [UInt8.lt_iff_toNat_lt]; exact hc)]
  rw [step, hd]; rfl

theorem step_high {c : UInt8} (hc : 128 ≤ c.toNat) (s : Str) : ∃ r a s', step (c :: s) = some (r, s') ∧ 128 ≤ r ∧
    c :: s = a ++ s' ∧ a ≠ [] ∧ ∀ b ∈ a, 128 ≤ b.toNat := by
  have hr : 128 ≤ (Utf8.decode (c :: s)).1 := by
    by_cases h : (Utf8.decode (c :: s)).2 = 1 ∧ (Utf8.decode (c :: s)).1 = Utf8.runeError
    · rw [h.2]; decide
    · obtain ⟨-, h2, -, h4, -⟩ := Utf8.encode_decode (c :: s) (by simp) h
      apply Nat.le_of_not_lt
      intro hlt
      obtain ⟨k, hk⟩ : ∃ k, (Utf8.decode (c :: s)).2 = k + 1 := ⟨(Utf8.decode (c :: s)).2 - 1, by omega⟩
      rw [hk, List.take_succ_cons, Utf8.encode, if_pos hlt] at h4
      have : c = UInt8.ofNat (Utf8.decode (c :: s)).1 := (List.cons.inj h4).1.symm
      have h5 : c.toNat = (Utf8.decode (c :: s)).1 := by
        conv => lhs; rw [this]
        exact Utf8.ofNat_toNat _ (by omega)
      omega
  have hw := Utf8.decode_width (c :: s) (by simp)
  refine ⟨_, (c :: s).take (Utf8.decode (c :: s)).2, _, rfl, hr, (List.take_append_drop _ _).symm, ?_, ?_⟩
  · intro h
    have := congrArg List.length h
    rw [List.length_take, List.length_nil] at this
    omega
  · by_cases h : (Utf8.decode (c :: s)).2 = 1 ∧ (Utf8.decode (c :: s)).1 = Utf8.runeError
    · rw [h.1]; intro b hb; simp at hb; subst hb; exact hc
    · obtain ⟨-, -, -, h4, -⟩ := Utf8.encode_decode (c :: s) (by simp) h
      rw [← h4]
      exact Utf8.encode_high _ hr

theorem step_shorter {s s' : Str} {r : Nat} (h : step s = some (r, s')) : s'.length < s.length := by
  cases s with
  | nil => cases h
  | cons c s =>
    have hw := Utf8.decode_width (c :: s) (by simp)
    cases h
    rw [List.length_drop]; omega

theorem stars_fuel (c : Cls) : ∀ (f g : Nat) (s : Str), s.length ≤ f → s.length ≤ g → stars c f s = stars c g s := by
  intro f
  induction f with
  | zero =>
    intro g s hf _
    obtain rfl : s = [] := List.eq_nil_of_length_eq_zero (by omega)
    cases g <;> rfl
  | succ f ih =>
    intro g s hf hg
    cases g with
    | zero =>
      obtain rfl : s = [] := List.eq_nil_of_length_eq_zero (by omega)
      rfl
    | succ g =>
      rw [stars, stars]
      cases hs : step s with
      | none => rfl
      | some x =>
        have := step_shorter (s' := x.2) (r := x.1) hs
        dsimp only
        rw [ih g x.2 (by omega) (by omega)]

/-- The positions reached by reading characters of a class. -/
def reach (c : Cls) (s : Str) : List Str := stars c s.length s

theorem reach_none {c : Cls} {s : Str} (h : step s = none) : reach c s = [s] := by
  cases s with
  | nil => rfl
  | cons b s => cases h

theorem reach_some {c : Cls} {s s' : Str} {r : Nat} (h : step s = some (r, s')) :
    reach c s = s :: if c.has r then reach c s' else [] := by
  have hl := step_shorter h
  unfold reach
  obtain ⟨k, hk⟩ : ∃ k, s.length = k + 1 := ⟨s.length - 1, by omega⟩
  rw [hk, stars, h]
  dsimp only
  rw [stars_fuel c k s'.length s' (by omega) (Nat.le_refl _)]

theorem reach_cons_low {c : Cls} {b : UInt8} {s : Str} (hb : b.toNat < 128) :
    reach c (b :: s) = (b :: s) :: if c.has b.toNat then reach c s else [] := reach_some (step_low hb s)

/-- A class of ASCII characters. -/
def Ascii (c : Cls) (p : UInt8 → Bool) : Prop :=
  (∀ b : UInt8, b.toNat < 128 → c.has b.toNat = p b) ∧ (∀ r, 128 ≤ r → c.has r = false) ∧
    ∀ b : UInt8, 128 ≤ b.toNat → p b = false

theorem reach_ascii {c : Cls} {p : UInt8 → Bool} (h : Ascii c p) (b : UInt8) (s : Str) :
    reach c (b :: s) = (b :: s) :: if p b then reach c s else [] := by
  by_cases hb : b.toNat < 128
  · rw [reach_cons_low hb, h.1 b hb]
  · obtain ⟨r, a, s', hs, hr, -⟩ := step_high (c := b) (by omega) s
    rw [reach_some hs, h.2.1 r hr, h.2.2 b (by omega)]; rfl

/-- As many as possible, followed by something that does not begin with one of them. -/
theorem reach_greedy {β : Type} {c : Cls} {p : UInt8 → Bool} (h : Ascii c p) (g : Str → List β)
    (hg : ∀ b s, p b = true → g (b :: s) = []) (s : Str) : (reach c s).reverse.flatMap g = g (s.dropWhile p) := by
  induction s with
  | nil => rw [reach_none rfl]; simp
  | cons b s ih =>
    rw [reach_ascii h, List.dropWhile_cons]
    by_cases hb : p b = true
    · rw [if_pos hb, if_pos hb, List.reverse_cons, List.flatMap_append, ih, List.flatMap_singleton, hg b s hb, List.append_nil]
    · rw [if_neg hb, if_neg hb]; simp

/-- As many as possible, at the end of the pattern. -/
theorem reach_last {c : Cls} {p : UInt8 → Bool} (h : Ascii c p) (s : Str) :
    (reach c s).reverse.head? = some (s.dropWhile p) := by
  induction s with
  | nil => rfl
  | cons b s ih =>
    rw [reach_ascii h, List.dropWhile_cons]
    by_cases hb : p b = true
    · rw [if_pos hb, if_pos hb, List.reverse_cons, List.head?_append, ih]; rfl
    · rw [if_neg hb, if_neg hb]; rfl

theorem runs_greedy {whole s : Str} {c : Cls} {ops : List Op} {m : Slots} :
    runs whole (.star c true :: ops) s m = (reach c s).reverse.flatMap fun s' => runs whole ops s' m := rfl

theorem runs_lazy {whole s : Str} {c : Cls} {ops : List Op} {m : Slots} :
    runs whole (.star c false :: ops) s m = (reach c s).flatMap fun s' => runs whole ops s' m := rfl

/-- One ASCII character of a class. -/
theorem runs_one {whole : Str} {c : Cls} {p : UInt8 → Bool} (h : Ascii c p) {ops : List Op} {m : Slots} (b : UInt8) (s : Str) :
    runs whole (.one c :: ops) (b :: s) m = if p b then runs whole ops s m else [] := by
  by_cases hb : b.toNat < 128
  · rw [runs, step_low hb]; dsimp only; rw [h.1 b hb]
  · obtain ⟨r, a, s', hs, hr, -⟩ := step_high (c := b) (by omega) s
    rw [runs, hs]; dsimp only; rw [h.2.1 r hr, h.2.2 b (by omega)]; rfl

theorem runs_one_nil {whole : Str} {c : Cls} {ops : List Op} {m : Slots} : runs whole (.one c :: ops) [] m = [] := rfl

/-! ## Classes -/

/-- A single character. -/
def chr (b : UInt8) : Cls := ⟨false, [(b.toNat, b.toNat)]⟩

theorem ascii_chr {b : UInt8} (hb : b.toNat < 128) : Ascii (chr b) (· == b) := by
  refine ⟨fun x _ => ?_, fun r hr => ?_, fun x hx => ?_⟩
  · rw [Bool.eq_iff_iff]
    simp only [chr, Cls.has, List.any_cons, List.any_nil, Bool.or_false, Bool.bne_false, Bool.and_eq_true,
      decide_eq_true_eq, beq_iff_eq]
    exact ⟨fun h => UInt8.toNat_inj.1 (by omega), fun h => by subst h; omega⟩
  · simp only [chr, Cls.has, List.any_cons, List.any_nil, Bool.or_false, Bool.bne_false, Bool.and_eq_false_iff,
      decide_eq_false_iff_not]
    omega
  · rw [beq_eq_false_iff_ne]; rintro rfl; omega

/-- `\s` -/
def wsCls : Cls := ⟨false, [(9, 10), (12, 13), (32, 32)]⟩

theorem ascii_of {c : Cls} {p : UInt8 → Bool} (h1 : ∀ n < 128, c.has n = p (UInt8.ofNat n)) (hn : c.neg = false)
    (hr : ∀ x ∈ c.ranges, x.2 < 128) (h2 : ∀ n < 128, p (UInt8.ofNat (128 + n)) = false) : Ascii c p := by
  refine ⟨fun b hb => ?_, fun r hr' => ?_, fun b hb => ?_⟩
  · rw [h1 _ hb, UInt8.ofNat_toNat]
  · unfold Cls.has
    rw [hn, Bool.bne_false, List.any_eq_false]
    intro x hx
    have := hr x hx
    simp only [Bool.and_eq_true, decide_eq_true_eq, not_and]
    omega
  · have := h2 (b.toNat - 128) (by have := b.toNat_lt; omega)
    rwa [show 128 + (b.toNat - 128) = b.toNat by omega, UInt8.ofNat_toNat] at this

theorem ascii_ws : Ascii wsCls Tr.isReWs := ascii_of (by decide +kernel) rfl (by decide) (by decide +kernel)

/-- `\d` -/
def digitCls : Cls := ⟨false, [(48, 57)]⟩

theorem ascii_digit : Ascii digitCls Num.isDigit := ascii_of (by decide +kernel) rfl (by decide) (by decide +kernel)

/-- `[a-zA-Z_]` -/
def startCls : Cls := ⟨false, [(97, 122), (65, 90), (95, 95)]⟩

theorem ascii_start : Ascii startCls Xt.isIdentStart := ascii_of (by decide +kernel) rfl (by decide) (by decide +kernel)

/-- `\w` -/
def wordCls : Cls := ⟨false, [(48, 57), (65, 90), (95, 95), (97, 122)]⟩

theorem ascii_word : Ascii wordCls Xt.isWordByte := ascii_of (by decide +kernel) rfl (by decide) (by decide +kernel)

theorem any_has (r : Nat) : anyCls.has r = (r != 10) := by
  rw [Bool.eq_iff_iff]
  simp only [anyCls, Cls.has, List.any_cons, List.any_nil, Bool.or_false, bne_iff_ne, ne_eq, Bool.bne_true, Bool.not_eq_true',
    Bool.and_eq_false_iff, decide_eq_false_iff_not]
  omega

/-! ## Literals -/

/-- The steps for a literal text. -/
def lits (l : Str) : List Op := l.map fun c => .one (chr c)

theorem runs_lits {whole : Str} {ops : List Op} {m : Slots} : ∀ (l s : Str), (∀ c ∈ l, c.toNat < 128) →
    runs whole (lits l ++ ops) s m = ((Tr.stripLit l s).map fun r => runs whole ops r m).getD [] := by
  intro l
  induction l with
  | nil => intro s _; rfl
  | cons c l ih =>
    intro s hl
    change runs whole (.one (chr c) :: (lits l ++ ops)) s m = _
    cases s with
    | nil => rfl
    | cons b s =>
      rw [runs_one (ascii_chr (hl c (by simp))), Tr.stripLit]
      by_cases h : b = c
      · rw [if_pos (by simpa using h), if_pos h.symm, ih s fun x hx => hl x (by simp [hx])]
      · rw [if_neg (by simpa using h), if_neg (Ne.symm h)]; rfl

/-- `\s*` and a literal. -/
theorem runs_ws_lits {whole : Str} {ops : List Op} {m : Slots} (c : UInt8) (l s : Str) (hc : Tr.isReWs c = false)
    (hl : ∀ x ∈ c :: l, x.toNat < 128) : runs whole (.star wsCls true :: (lits (c :: l) ++ ops)) s m =
      ((Tr.wsLit (c :: l) s).map fun r => runs whole ops r m).getD [] := by
  rw [runs_greedy, reach_greedy ascii_ws, runs_lits _ _ hl]
  · rfl
  · intro b s' hb
    rw [runs_lits _ _ hl, Tr.stripLit, if_neg]
    · rfl
    · rintro rfl; rw [hb] at hc; cases hc

/-! ## Searching -/

theorem search_fuel (whole : Str) (ops : List Op) : ∀ (f g : Nat) (s : Str), s.length ≤ f → s.length ≤ g →
    search whole ops f s = search whole ops g s := by
  intro f
  induction f with
  | zero =>
    intro g s hf _
    obtain rfl : s = [] := List.eq_nil_of_length_eq_zero (by omega)
    cases g with
    | zero => rfl
    | succ g => rw [search, search]; cases (runs whole ops [] []).head? <;> rfl
  | succ f ih =>
    intro g s hf hg
    cases g with
    | zero =>
      obtain rfl : s = [] := List.eq_nil_of_length_eq_zero (by omega)
      rw [search, search]; cases (runs whole ops [] []).head? <;> rfl
    | succ g =>
      rw [search, search]
      cases (runs whole ops s []).head? with
      | some x => rfl
      | none =>
        dsimp only
        cases hs : step s with
        | none => rfl
        | some x =>
          have := step_shorter (s' := x.2) (r := x.1) hs
          exact ih g x.2 (by omega) (by omega)

/-- The leftmost match from a position on. -/
def leftmost (whole : Str) (ops : List Op) (s : Str) : Option (Str × Str × Slots) := search whole ops s.length s

theorem leftmost_here {whole : Str} {ops : List Op} {s e : Str} {m : Slots} (h : (runs whole ops s []).head? = some (e, m)) :
    leftmost whole ops s = some (s, e, m) := by
  unfold leftmost
  cases s.length <;> (rw [search, h]; try rfl)

theorem leftmost_step {whole : Str} {ops : List Op} {s s' : Str} {r : Nat} (h : (runs whole ops s []).head? = none)
    (hs : step s = some (r, s')) : leftmost whole ops s = leftmost whole ops s' := by
  unfold leftmost
  have := step_shorter hs
  obtain ⟨k, hk⟩ : ∃ k, s.length = k + 1 := ⟨s.length - 1, by omega⟩
  rw [hk, search, h, hs]
  exact search_fuel _ _ _ _ _ (by omega) (Nat.le_refl _)

theorem leftmost_end {whole : Str} {ops : List Op} (h : (runs whole ops [] []).head? = none) :
    leftmost whole ops [] = none := by
  unfold leftmost
  rw [List.length_nil, search, h]; rfl

/-- A pattern bound to the beginning of the text does not match later. -/
theorem leftmost_bot {whole : Str} {ops : List Op} : ∀ {s : Str}, s.length < whole.length →
    leftmost whole (.bot :: ops) s = none := by
  intro s
  induction hn : s.length using Nat.strongRecOn generalizing s with
  | ind n ih =>
    intro hlt
    have hr : (runs whole (.bot :: ops) s []).head? = none := by
      rw [runs, if_neg (by omega)]; rfl
    cases hs : step s with
    | none =>
      cases s with
      | nil => exact leftmost_end hr
      | cons b s => cases hs
    | some x =>
      have := step_shorter (s' := x.2) (r := x.1) hs
      rw [leftmost_step hr (s' := x.2) (r := x.1) hs]
      exact ih x.2.length (by omega) rfl (by omega)

theorem all_none {whole : Str} {ops : List Op} {f : Nat} {s : Str} {prev : Option Str} (h : leftmost whole ops s = none) :
    allMatches whole ops f s prev = [] := by
  cases f with
  | zero => rfl
  | succ f =>
    unfold leftmost at h
    rw [allMatches, h]

theorem all_some {whole : Str} {ops : List Op} {f : Nat} {s b e : Str} {m : Slots} {prev : Option Str}
    (h : leftmost whole ops s = some (b, e, m)) (he : e.length ≠ s.length) :
    allMatches whole ops (f + 1) s prev =
      (between b e :: (List.range' 1 (numGroups ops)).map (group m)) :: allMatches whole ops f e (some e) := by
  unfold leftmost at h
  rw [allMatches, h]
  dsimp only
  rw [if_neg he]

theorem between_append (a b : Str) : between (a ++ b) b = a := by
  unfold between
  rw [List.length_append, Nat.add_sub_cancel, List.take_left]

/-! ## Identifiers -/

theorem ident_ops : identPattern = some [.one startCls, .star wordCls true] := by decide +kernel

theorem ident_runs (whole s : Str) : (runs whole [.one startCls, .star wordCls true] s []).head? =
    match s with
    | [] => none
    | c :: s => if Xt.isIdentStart c then some (s.dropWhile Xt.isWordByte, []) else none := by
  cases s with
  | nil => rfl
  | cons c s =>
    dsimp only
    rw [runs_one ascii_start]
    by_cases h : Xt.isIdentStart c = true
    · rw [if_pos h, if_pos h, runs_greedy]
      have h2 : (reach wordCls s).reverse.flatMap (fun s' => runs whole [] s' []) =
          (reach wordCls s).reverse.map fun s' => (s', []) := by
        rw [List.map_eq_flatMap]; rfl
      rw [h2, List.head?_map, reach_last ascii_word]; rfl
    · rw [if_neg h, if_neg h]; rfl

theorem findIdents_high (a s : Str) (ha : ∀ b ∈ a, 128 ≤ b.toNat) : Xt.findIdents (a ++ s) = Xt.findIdents s := by
  induction a with
  | nil => rfl
  | cons b a ih =>
    rw [List.cons_append, Xt.findIdents, if_neg, ih fun x hx => ha x (by simp [hx])]
    rw [ascii_start.2.2 b (ha b (by simp))]; simp

theorem ident_leftmost (whole : Str) : ∀ s : Str,
    (leftmost whole [.one startCls, .star wordCls true] s = none ∧ Xt.findIdents s = []) ∨
    ∃ b e w, leftmost whole [.one startCls, .star wordCls true] s = some (b, e, []) ∧ b = w ++ e ∧ e.length < b.length ∧
      b.length ≤ s.length ∧ Xt.findIdents s = w :: Xt.findIdents e := by
  intro s
  induction hn : s.length using Nat.strongRecOn generalizing s with
  | ind n ih =>
    have hr := ident_runs whole s
    cases s with
    | nil => exact .inl ⟨leftmost_end hr, by rw [Xt.findIdents]⟩
    | cons c s =>
      dsimp only at hr
      by_cases h : Xt.isIdentStart c = true
      · rw [if_pos h] at hr
        have hle := (List.dropWhile_sublist (p := Xt.isWordByte) (l := s)).length_le
        refine .inr ⟨_, _, c :: s.takeWhile Xt.isWordByte, leftmost_here hr, ?_, ?_, Nat.le_of_eq hn, ?_⟩
        · rw [List.cons_append, List.takeWhile_append_dropWhile]
        · rw [List.length_cons]; omega
        · rw [Xt.findIdents, if_pos h]
      · rw [if_neg h] at hr
        have hskip : ∃ s', (∃ r, step (c :: s) = some (r, s')) ∧ Xt.findIdents (c :: s) = Xt.findIdents s' := by
          by_cases hc : c.toNat < 128
          · exact ⟨s, ⟨_, step_low hc s⟩, by rw [Xt.findIdents, if_neg h]⟩
          · obtain ⟨r, a, s', hs, -, he, -, ha⟩ := step_high (c := c) (by omega) s
            exact ⟨s', ⟨r, hs⟩, by rw [he, findIdents_high a s' ha]⟩
        obtain ⟨s', ⟨r, hs⟩, hf⟩ := hskip
        have hlt := step_shorter hs
        rw [leftmost_step hr hs, hf]
        rcases ih s'.length (by omega) s' rfl with h | ⟨b, e, w, h1, h2, h3, h4, h5⟩
        · exact .inl h
        · exact .inr ⟨b, e, w, h1, h2, h3, by omega, h5⟩

theorem ident_all (whole : Str) : ∀ (f : Nat) (s : Str) (prev : Option Str), s.length < f →
    allMatches whole [.one startCls, .star wordCls true] f s prev = (Xt.findIdents s).map fun w => [w] := by
  intro f
  induction f with
  | zero => intro s prev h; omega
  | succ f ih =>
    intro s prev hf
    rcases ident_leftmost whole s with ⟨h1, h2⟩ | ⟨b, e, w, h1, h2, h3, h4, h5⟩
    · rw [all_none h1, h2]; rfl
    · rw [all_some h1 (by omega), h5, h2, between_append, ih e _ (by omega)]; rfl

/-! ## Header lines -/

theorem header_ops : reHeader = some ([.save 2, .star anyCls false, .save 3] ++ (lits b!": " ++
    [.save 4, .star anyCls true, .save 5])) := by decide +kernel

theorem reach_any_end : ∀ s : Str, 10 ∉ s → (reach anyCls s).reverse.head? = some [] := by
  intro s
  induction hn : s.length using Nat.strongRecOn generalizing s with
  | ind n ih =>
    intro h10
    cases s with
    | nil => rfl
    | cons c s =>
      have hstep : ∃ r s', step (c :: s) = some (r, s') ∧ r ≠ 10 ∧ 10 ∉ s' := by
        by_cases hc : c.toNat < 128
        · refine ⟨_, s, step_low hc s, ?_, fun h => h10 (by simp [h])⟩
          intro h
          exact h10 (by simp [show c = 10 from UInt8.toNat_inj.1 h])
        · obtain ⟨r, a, s', hs, hr, he, -, ha⟩ := step_high (c := c) (by omega) s
          exact ⟨r, s', hs, by omega, fun h => h10 (by rw [he]; simp [h])⟩
      obtain ⟨r, s', hs, hr, h10'⟩ := hstep
      have hlt := step_shorter hs
      rw [reach_some hs, any_has, if_pos (by simpa using hr), List.reverse_cons, List.head?_append,
        ih s'.length (by omega) s' rfl h10']
      rfl

/-- What follows the key. -/
def afterKey (whole s : Str) (m : Slots) : List (Str × Slots) :=
  runs whole (.save 3 :: (lits b!": " ++ [.save 4, .star anyCls true, .save 5])) s m

theorem afterKey_head (whole s : Str) (m : Slots) (h10 : 10 ∉ s) : (afterKey whole s m).head? =
    (Tr.stripLit b!": " s).map fun v => ([], (5, []) :: (4, v) :: (3, s) :: m) := by
  unfold afterKey
  rw [runs, runs_lits _ _ (by decide)]
  cases hs : Tr.stripLit b!": " s with
  | none => rfl
  | some v =>
    obtain rfl := (Tr.stripLit_iff _ _ _).1 hs
    change (runs whole [.save 4, .star anyCls true, .save 5] v _).head? = _
    rw [runs, runs_greedy]
    have h2 : ∀ l : List Str, (l.flatMap fun s' => runs whole [.save 5] s' ((4, v) :: (3, b!": " ++ v) :: m)) =
        l.map fun s' => (s', (5, s') :: (4, v) :: (3, b!": " ++ v) :: m) := fun l => by
      rw [List.map_eq_flatMap]; rfl
    rw [h2, List.head?_map, reach_any_end v fun h => h10 (by simp [h])]
    rfl

theorem cutHeader_high (a s : Str) (ha : ∀ b ∈ a, 128 ≤ b.toNat) :
    Tr.cutHeader (a ++ s) = (Tr.cutHeader s).map fun p => (a ++ p.1, p.2) := by
  induction a with
  | nil => cases h : Tr.cutHeader s <;> simp [h]
  | cons b a ih =>
    have hb := ha b (by simp)
    have ih := ih fun x hx => ha x (by simp [hx])
    rw [List.cons_append]
    generalize hu : a ++ s = u at ih ⊢
    cases u with
    | nil =>
      rw [show Tr.cutHeader [] = none from rfl] at ih
      cases hh : Tr.cutHeader s with
      | none => rfl
      | some p => rw [hh] at ih; cases ih
    | cons d u =>
      rw [Tr.cutHeader, if_neg (by rintro ⟨rfl, -⟩; revert hb; decide), ih]
      cases Tr.cutHeader s <;> rfl

/-- The key is as short as possible. -/
theorem header_lazy (whole : Str) (m : Slots) : ∀ s : Str, 10 ∉ s →
    ((reach anyCls s).flatMap fun s' => afterKey whole s' m).head? =
      (Tr.cutHeader s).map fun p => ([], (5, []) :: (4, p.2) :: (3, b!": " ++ p.2) :: m) := by
  intro s
  induction hn : s.length using Nat.strongRecOn generalizing s with
  | ind n ih =>
    intro h10
    have hk := afterKey_head whole s m h10
    cases s with
    | nil =>
      rw [reach_none rfl, List.flatMap_singleton, hk]; rfl
    | cons c s =>
      have hstep : ∃ r a s', step (c :: s) = some (r, s') ∧ r ≠ 10 ∧ c :: s = a ++ s' ∧
          ((∀ v, c :: s ≠ 58 :: 32 :: v) → Tr.cutHeader (c :: s) = (Tr.cutHeader s').map fun p => (a ++ p.1, p.2)) := by
        by_cases hc : c.toNat < 128
        · refine ⟨_, [c], s, step_low hc s, ?_, rfl, ?_⟩
          · intro h
            exact h10 (by simp [show c = 10 from UInt8.toNat_inj.1 h])
          · intro hne
            cases s with
            | nil => rfl
            | cons d s =>
              rw [Tr.cutHeader, if_neg (by rintro ⟨rfl, rfl⟩; exact hne s rfl)]
              rfl
        · obtain ⟨r, a, s', hs, hr, he, -, ha⟩ := step_high (c := c) (by omega) s
          exact ⟨r, a, s', hs, by omega, he, fun _ => by rw [he, cutHeader_high a s' ha]⟩
      obtain ⟨r, a, s', hs, hr, he, hcut⟩ := hstep
      have hlt := step_shorter hs
      rw [reach_some hs, any_has, if_pos (by simpa using hr), List.flatMap_cons, List.head?_append, hk]
      cases hl : Tr.stripLit b!": " (c :: s) with
      | some v =>
        rw [(Tr.stripLit_iff _ _ _).1 hl]; rfl
      | none =>
        have hne : ∀ v, c :: s ≠ 58 :: 32 :: v := fun v hv => by
          rw [(Tr.stripLit_iff b!": " _ v).2 hv] at hl; cases hl
        rw [Option.map_none, Option.none_or, ih s'.length (by omega) s' rfl (fun h => h10 (by rw [he]; simp [h])),
          hcut hne, Option.map_map]
        rfl

theorem cutHeader_eq {s k v : Str} (h : Tr.cutHeader s = some (k, v)) : s = k ++ (b!": " ++ v) := by
  induction s generalizing k with
  | nil => cases h
  | cons a s ih =>
    cases s with
    | nil => cases h
    | cons b s =>
      rw [Tr.cutHeader] at h
      by_cases hab : a = 58 ∧ b = 32
      · rw [if_pos hab] at h; cases h; rw [hab.1, hab.2]; rfl
      · rw [if_neg hab] at h
        obtain ⟨p, hp, hh⟩ := Option.map_eq_some_iff.1 h
        cases hh
        rw [ih hp]; rfl

theorem header_runs (whole s : Str) (h10 : 10 ∉ s) {ops : List Op} (ho : reHeader = some ops) :
    (runs whole ops s []).head? =
      (Tr.cutHeader s).map fun p => ([], (5, []) :: (4, p.2) :: (3, b!": " ++ p.2) :: [(2, s)]) := by
  rw [header_ops] at ho
  cases ho
  exact header_lazy whole [(2, s)] s h10

/-- **reHeader** on a line. -/
theorem header_all (kv : Str) (h10 : 10 ∉ kv) {ops : List Op} (ho : reHeader = some ops) :
    findAllSubmatch ops kv = match Tr.cutHeader kv with
      | none => []
      | some (k, v) => [[kv, k, v]] := by
  have hng : numGroups ops = 2 := by rw [header_ops] at ho; cases ho; decide
  unfold findAllSubmatch
  cases hc : Tr.cutHeader kv with
  | none =>
    have hnone : ∀ s : Str, 10 ∉ s → Tr.cutHeader s = none → leftmost kv ops s = none := by
      intro s
      induction hn : s.length using Nat.strongRecOn generalizing s with
      | ind n ih =>
        intro h10 hcs
        have hr := header_runs kv s h10 ho
        rw [hcs] at hr
        cases s with
        | nil => exact leftmost_end hr
        | cons c s =>
          have hstep : ∃ r a s', step (c :: s) = some (r, s') ∧ c :: s = a ++ s' ∧ Tr.cutHeader s' = none := by
            by_cases hb : c.toNat < 128
            · refine ⟨_, [c], s, step_low hb s, rfl, ?_⟩
              cases s with
              | nil => rfl
              | cons d s =>
                rw [Tr.cutHeader] at hcs
                by_cases hab : c = 58 ∧ d = 32
                · rw [if_pos hab] at hcs; cases hcs
                · rw [if_neg hab] at hcs
                  cases hh : Tr.cutHeader (d :: s) with
                  | none => rfl
                  | some p => rw [hh] at hcs; cases hcs
            · obtain ⟨r, a, s', hs, hr, he, -, ha⟩ := step_high (c := c) (by omega) s
              refine ⟨r, a, s', hs, he, ?_⟩
              rw [he, cutHeader_high a s' ha] at hcs
              cases hh : Tr.cutHeader s' with
              | none => rfl
              | some p => rw [hh] at hcs; cases hcs
          obtain ⟨r, a, s', hs, he, hcs'⟩ := hstep
          have hlt := step_shorter hs
          rw [leftmost_step hr hs]
          exact ih s'.length (by omega) s' rfl (fun h => h10 (by rw [he]; simp [h])) hcs'
    exact all_none (hnone kv h10 hc)
  | some p =>
    obtain ⟨k, v⟩ := p
    have hr := header_runs kv kv h10 ho
    rw [hc] at hr
    have hkv := cutHeader_eq hc
    have hlen : kv.length = k.length + (2 + v.length) := by
      conv => lhs; rw [hkv]
      rw [List.length_append, List.length_append]; rfl
    rw [all_some (leftmost_here hr) (by rw [List.length_nil]; omega), hng]
    dsimp only
    have h1 : between kv [] = kv := by unfold between; simp
    have h2 : group ((5, []) :: (4, v) :: (3, b!": " ++ v) :: [(2, kv)]) 1 = k := by
      change between kv (b!": " ++ v) = k
      conv => lhs; rw [hkv]
      exact between_append k _
    have h3 : group ((5, []) :: (4, v) :: (3, b!": " ++ v) :: [(2, kv)]) 2 = v := by
      change between v [] = v
      unfold between; simp
    have h4 : (runs kv ops [] []).head? = none := header_runs kv [] (by simp) ho
    rw [show List.range' 1 2 = [1, 2] from rfl, List.map_cons, List.map_cons, List.map_nil, h1, h2, h3,
      all_none (leftmost_end h4)]

/-! ## Plural forms -/

theorem plurals_ops : rePlurals = some (.bot :: .star wsCls true :: (lits b!"nplurals" ++ (.star wsCls true :: (lits b!"=" ++
    (.star wsCls true :: .save 2 :: .one digitCls :: .save 3 :: .star wsCls true :: (lits b!";" ++
    (.star wsCls true :: (lits b!"plural" ++ (.star wsCls true :: (lits b!"=" ++
    [.star wsCls true, .save 4, .star anyCls true, .save 5, .star wsCls true, .one (chr 59), .eot])))))))))) := by
  decide +kernel

/-- The end of the text after the expression. -/
theorem end_runs (whole d : Str) (m : Slots) : runs whole [.star wsCls true, .one (chr 59), .eot] d m =
    if d.dropWhile Tr.isReWs = [59] then [([], m)] else [] := by
  have hr := runs_ws_lits (whole := whole) (ops := [.eot]) (m := m) 59 [] d (by decide) (by decide)
  refine hr.trans ?_
  unfold Tr.wsLit
  cases hs : Tr.stripLit [59] (d.dropWhile Tr.isReWs) with
  | none =>
    rw [if_neg]
    · rfl
    · intro h; rw [h] at hs; cases hs
  | some r =>
    have h1 := (Tr.stripLit_iff _ _ _).1 hs
    rw [h1]
    change runs whole [.eot] r m = _
    cases r with
    | nil => rfl
    | cons x r => rfl

theorem end_iff (d : Str) : d.dropWhile Tr.isReWs = [59] ↔ ∃ w, Tr.Ws w ∧ d = w ++ [59] := by
  constructor
  · intro h
    obtain ⟨w, hw, hd, -⟩ := Tr.ws_split d
    exact ⟨w, hw, by rw [h] at hd; exact hd⟩
  · rintro ⟨w, hw, rfl⟩
    exact Tr.dropWhile_ws w [59] hw (by intro c t h; cases h; rw [← Tr.isReWs_iff]; decide)

theorem exprTail_nil : Tr.exprTail [] = none := rfl

theorem exprTail_one (c : UInt8) : Tr.exprTail [c] = if c = 59 then some [] else none := by
  by_cases h : c = 59
  · rw [h]; rfl
  · rw [if_neg h]
    unfold Tr.exprTail
    rw [List.reverse_singleton]
    split
    · rename_i r h1; exact absurd (List.cons.inj h1).1 h
    · rfl

theorem exprTail_cons (c : UInt8) (t : Str) (hc : c ≠ 10) (ht : t ≠ []) :
    Tr.exprTail (c :: t) = (Tr.exprTail t).map (c :: ·) := by
  obtain ⟨x, r, hr⟩ : ∃ x r, t.reverse = x :: r := by
    cases h : t.reverse with
    | nil => exact absurd (List.reverse_eq_nil_iff.1 h) ht
    | cons x r => exact ⟨x, r, rfl⟩
  unfold Tr.exprTail
  rw [List.reverse_cons, hr, List.cons_append]
  by_cases hx : x = 59
  · subst hx
    change (if ((r ++ [c]).reverse.dropWhile (· != 10)).all Tr.isReWs = true then
        some ((r ++ [c]).reverse.takeWhile (· != 10)) else none) =
      (if (r.reverse.dropWhile (· != 10)).all Tr.isReWs = true then some (r.reverse.takeWhile (· != 10)) else none).map
        (c :: ·)
    rw [List.reverse_append, List.reverse_singleton, List.singleton_append, List.dropWhile_cons, List.takeWhile_cons]
    have hc' : (c != 10) = true := by simpa using hc
    rw [hc', if_pos rfl, if_pos rfl]
    by_cases h : ((r.reverse.dropWhile (· != 10)).all Tr.isReWs) = true
    · rw [if_pos h, if_pos h]; rfl
    · rw [if_neg h, if_neg h]; rfl
  · split
    · rename_i h1; exact absurd (List.cons.inj h1).1 hx
    · split
      · rename_i h1; exact absurd (List.cons.inj h1).1 hx
      · rfl

theorem exprTail_high (a s : Str) (ha : ∀ b ∈ a, 128 ≤ b.toNat) :
    Tr.exprTail (a ++ s) = (Tr.exprTail s).map (a ++ ·) := by
  induction a with
  | nil => cases h : Tr.exprTail s <;> simp [h]
  | cons b a ih =>
    have hb := ha b (by simp)
    have ih := ih fun x hx => ha x (by simp [hx])
    rw [List.cons_append]
    by_cases hu : a ++ s = []
    · obtain ⟨rfl, rfl⟩ := List.append_eq_nil_iff.1 hu
      rw [List.append_nil, exprTail_one, if_neg (by rintro rfl; revert hb; decide)]; rfl
    · rw [exprTail_cons b _ (by rintro rfl; revert hb; decide) hu, ih, Option.map_map]; rfl

theorem exprTail_newline (t : Str) : Tr.exprTail (10 :: t) =
    if (10 :: t).dropWhile Tr.isReWs = [59] then some [] else none := by
  by_cases hd : (10 :: t).dropWhile Tr.isReWs = [59]
  · rw [if_pos hd]
    obtain ⟨w, hw, he⟩ := (end_iff _).1 hd
    refine (Tr.exprTail_iff _ _).2 ⟨w, hw, ?_, by simp, he⟩
    rintro c u rfl
    exact (List.cons.inj he).1.symm
  · rw [if_neg hd]
    cases h : Tr.exprTail (10 :: t) with
    | none => rfl
    | some e =>
      obtain ⟨w, hw, -, he, ht⟩ := (Tr.exprTail_iff _ _).1 h
      cases e with
      | nil => exact absurd ((end_iff _).2 ⟨w, hw, ht⟩) hd
      | cons c e => exact absurd (by rw [(List.cons.inj ht).1]; simp) he

theorem exprTail_end {d : Str} (h : d.dropWhile Tr.isReWs = [59]) : Tr.exprTail d ≠ none := by
  obtain ⟨w, hw, rfl⟩ := (end_iff _).1 h
  intro hn
  have : Tr.exprTail (w ++ [59]) = some (w.takeWhile (· != 10)) := by
    refine (Tr.exprTail_iff _ _).2 ⟨w.dropWhile (· != 10), ?_, ?_, ?_, ?_⟩
    · rw [Tr.ws_iff] at hw ⊢
      exact fun c hc => hw c ((List.dropWhile_sublist _).subset hc)
    · intro c u hc
      have hne : w.dropWhile (· != 10) ≠ [] := by rw [hc]; simp
      have := List.head_dropWhile_not (· != 10) hne
      simp only [hc, List.head_cons] at this
      simpa using this
    · intro hmem
      have := List.mem_takeWhile_imp hmem
      simp at this
    · rw [List.takeWhile_append_dropWhile]
  rw [hn] at this; cases this

/-- The expression and the end of the text. -/
theorem expr_runs (whole : Str) (m : Slots) : ∀ d : Str,
    (runs whole [.star anyCls true, .save 5, .star wsCls true, .one (chr 59), .eot] d m).head? =
      (Tr.exprTail d).map fun e => ([], (5, d.drop e.length) :: m) := by
  intro d
  have hg : ∀ s', runs whole [.save 5, .star wsCls true, .one (chr 59), .eot] s' m =
      if s'.dropWhile Tr.isReWs = [59] then [([], (5, s') :: m)] else [] := fun s' => end_runs whole s' _
  rw [runs_greedy]
  simp only [hg]
  induction hn : d.length using Nat.strongRecOn generalizing d with
  | ind n ih =>
    cases d with
    | nil => rw [reach_none rfl]; rfl
    | cons c t =>
      by_cases h10 : c = 10
      · subst h10
        rw [reach_cons_low (by decide), any_has, if_neg (by decide), List.reverse_singleton, List.flatMap_singleton,
          exprTail_newline]
        by_cases hd : (10 :: t).dropWhile Tr.isReWs = [59]
        · rw [if_pos hd, if_pos hd]; rfl
        · rw [if_neg hd, if_neg hd]; rfl
      · by_cases hc : c.toNat < 128
        · rw [reach_cons_low hc, any_has,
            if_pos (by simpa using fun h => h10 (UInt8.toNat_inj.1 (show c.toNat = (10 : UInt8).toNat from h))),
            List.reverse_cons, List.flatMap_append, List.head?_append,
            ih t.length (by rw [← hn, List.length_cons]; omega) t rfl, List.flatMap_singleton]
          cases ht : t with
          | nil =>
            rw [exprTail_nil, exprTail_one, Option.map_none, Option.none_or]
            by_cases h59 : c = 59
            · subst h59; rfl
            · rw [if_neg h59, if_neg]
              · rfl
              · rw [List.dropWhile_cons]
                split
                · simp
                · simpa using h59
          | cons x u =>
            rw [← ht, exprTail_cons c t h10 (by rw [ht]; simp)]
            cases hte : Tr.exprTail t with
            | some e => rfl
            | none =>
              rw [if_neg]
              · rfl
              · rw [List.dropWhile_cons]
                split
                · exact fun h => exprTail_end h hte
                · rw [ht]; simp
        · obtain ⟨r, a, s', hs, hr, he, hne, ha⟩ := step_high (c := c) (by omega) t
          have hlt := step_shorter hs
          have hws : Tr.isReWs c = false := ascii_ws.2.2 c (by omega)
          rw [reach_some hs, any_has, if_pos (by simp; omega), List.reverse_cons, List.flatMap_append, List.head?_append,
            ih s'.length (by omega) s' rfl, List.flatMap_singleton, if_neg, he, exprTail_high a s' ha]
          · cases hte : Tr.exprTail s' with
            | none => rfl
            | some e =>
              change some (([] : Str), ((5, s'.drop e.length) :: m : Slots)) =
                some ([], (5, (a ++ s').drop (a ++ e).length) :: m)
              rw [List.length_append, ← List.drop_drop, List.drop_left]
          · rw [List.dropWhile_cons, hws]
            intro h
            have h1 : c = 59 := (List.cons.inj h).1
            subst h1
            exact hc (by decide)

theorem exprTail_ws (c : UInt8) (t : Str) (hc : Tr.isReWs c = true) (h : Tr.exprTail t = none) :
    Tr.exprTail (c :: t) = none := by
  by_cases h10 : c = 10
  · subst h10
    rw [exprTail_newline, if_neg]
    rw [List.dropWhile_cons, if_pos hc]
    exact fun hd => exprTail_end hd h
  · by_cases ht : t = []
    · subst ht
      rw [exprTail_one, if_neg]
      rintro rfl
      revert hc; decide
    · rw [exprTail_cons c t h10 ht, h]; rfl

/-- The white space before the expression. -/
theorem wsExpr_runs (whole : Str) (m : Slots) (s : Str) :
    (runs whole [.star wsCls true, .save 4, .star anyCls true, .save 5, .star wsCls true, .one (chr 59), .eot] s m).head? =
      (Tr.exprTail (s.dropWhile Tr.isReWs)).map fun e =>
        ([], (5, (s.dropWhile Tr.isReWs).drop e.length) :: (4, s.dropWhile Tr.isReWs) :: m) := by
  rw [runs_greedy]
  have hg : ∀ s', (runs whole [.save 4, .star anyCls true, .save 5, .star wsCls true, .one (chr 59), .eot] s' m).head? =
      (Tr.exprTail s').map fun e => ([], (5, s'.drop e.length) :: (4, s') :: m) := fun s' => expr_runs whole _ s'
  generalize hgd : (fun s' => runs whole [.save 4, .star anyCls true, .save 5, .star wsCls true, .one (chr 59), .eot] s' m) =
    g
  replace hg : ∀ s', (g s').head? = (Tr.exprTail s').map fun e => ([], (5, s'.drop e.length) :: (4, s') :: m) := by
    rw [← hgd]; exact hg
  have key : ∀ s, ((reach wsCls s).reverse.flatMap g).head? = (g (s.dropWhile Tr.isReWs)).head? ∧
      (Tr.exprTail (s.dropWhile Tr.isReWs) = none → Tr.exprTail s = none) := by
    intro s
    induction s with
    | nil => rw [reach_none rfl]; simp
    | cons b s ih =>
      rw [reach_ascii ascii_ws, List.dropWhile_cons]
      by_cases hb : Tr.isReWs b = true
      · rw [if_pos hb, if_pos hb, List.reverse_cons, List.flatMap_append, List.head?_append, ih.1, List.flatMap_singleton]
        refine ⟨?_, fun h => exprTail_ws b s hb (ih.2 h)⟩
        rw [hg, hg]
        cases h : Tr.exprTail (s.dropWhile Tr.isReWs) with
        | some e => rfl
        | none => rw [exprTail_ws b s hb (ih.2 h)]; rfl
      · rw [if_neg hb, if_neg hb]; simp
  rw [(key s).1, hg]

theorem getD_head {α β : Type} (o : Option α) (f : α → List β) :
    ((o.map f).getD []).head? = o.bind fun a => (f a).head? := by cases o <;> rfl

/-- **rePlurals** from the beginning of the text. -/
theorem plurals_runs (s : Str) {ops : List Op} (ho : rePlurals = some ops) :
    match Tr.matchPlurals s with
    | none => (runs s ops s []).head? = none
    | some (d, e) => ∃ m, (runs s ops s []).head? = some ([], m) ∧ group m 1 = [d] ∧ group m 2 = e := by
  rw [plurals_ops] at ho
  cases ho
  rw [runs, if_pos rfl, runs_ws_lits _ _ _ (by decide) (by decide), getD_head, Tr.matchPlurals]
  cases h1 : Tr.wsLit b!"nplurals" s with
  | none => rfl
  | some s1 =>
    rw [Option.bind_some, Option.bind_some, runs_ws_lits _ _ _ (by decide) (by decide), getD_head]
    cases h2 : Tr.wsLit b!"=" s1 with
    | none => rfl
    | some s2 =>
      rw [Option.bind_some, Option.bind_some, runs_greedy, reach_greedy ascii_ws]
      · cases h3 : s2.dropWhile Tr.isReWs with
        | nil => rfl
        | cons d s3 =>
          dsimp only
          rw [runs, runs_one ascii_digit]
          by_cases hd : Num.isDigit d = true
          · rw [if_pos hd, if_pos hd, runs, runs_ws_lits _ _ _ (by decide) (by decide), getD_head]
            cases h4 : Tr.wsLit b!";" s3 with
            | none => rfl
            | some s4 =>
              rw [Option.bind_some, Option.bind_some, runs_ws_lits _ _ _ (by decide) (by decide), getD_head]
              cases h5 : Tr.wsLit b!"plural" s4 with
              | none => rfl
              | some s5 =>
                rw [Option.bind_some, Option.bind_some, runs_ws_lits _ _ _ (by decide) (by decide), getD_head]
                cases h6 : Tr.wsLit b!"=" s5 with
                | none => rfl
                | some s6 =>
                  rw [Option.bind_some, Option.bind_some, wsExpr_runs]
                  cases h7 : Tr.exprTail (s6.dropWhile Tr.isReWs) with
                  | none => rfl
                  | some e =>
                    refine ⟨_, rfl, between_append [d] s3, ?_⟩
                    obtain ⟨w, -, -, -, ht⟩ := (Tr.exprTail_iff _ _).1 h7
                    change between (s6.dropWhile Tr.isReWs) ((s6.dropWhile Tr.isReWs).drop e.length) = e
                    rw [ht, List.append_assoc, List.drop_left]
                    exact between_append e _
          · rw [if_neg hd, if_neg hd]; rfl
      · intro b s' hb
        rw [runs, runs_one ascii_digit, if_neg]
        intro hd
        exact Tr.digit_not_ws b hd ((Tr.isReWs_iff b).1 hb)

theorem plurals_bot {ops : List Op} (ho : rePlurals = some ops) : ∃ ops', ops = .bot :: ops' ∧ numGroups ops = 2 := by
  rw [plurals_ops] at ho
  cases ho
  exact ⟨_, rfl, by decide⟩

theorem matchPlurals_nil : Tr.matchPlurals [] = none := rfl

/-- **rePlurals** on a text. -/
theorem plurals_all (s : Str) {ops : List Op} (ho : rePlurals = some ops) :
    findAllSubmatch ops s = match Tr.matchPlurals s with
      | none => []
      | some (d, e) => [[s, [d], e]] := by
  have hr := plurals_runs s ho
  obtain ⟨ops', hb, hng⟩ := plurals_bot ho
  unfold findAllSubmatch
  have hs : s.length ≠ 0 ∨ s = [] := by cases s <;> simp
  cases hm : Tr.matchPlurals s with
  | none =>
    rw [hm] at hr
    dsimp only at hr
    refine all_none ?_
    cases hst : step s with
    | none =>
      cases s with
      | nil => exact leftmost_end hr
      | cons c t => cases hst
    | some x =>
      rw [leftmost_step hr (s' := x.2) (r := x.1) hst, hb]
      exact leftmost_bot (step_shorter (s' := x.2) (r := x.1) hst)
  | some p =>
    obtain ⟨d, e⟩ := p
    rw [hm] at hr
    obtain ⟨m, h1, h2, h3⟩ := hr
    have hl : s.length ≠ 0 := by
      rcases hs with h | rfl
      · exact h
      · cases hm
    rw [all_some (leftmost_here h1) (by rw [List.length_nil]; omega), hng,
      show List.range' 1 2 = [1, 2] from rfl, List.map_cons, List.map_cons, List.map_nil, h2, h3, hb,
      all_none (leftmost_bot (by rw [List.length_nil]; omega))]
    have h4 : between s [] = s := by unfold between; simp
    rw [h4]

end Verif.Re
