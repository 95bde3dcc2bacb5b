import Verif.Spec.Main
import Verif.Props.C63_C64
/-!
# C65: the exit status of the command
-/
namespace Verif.Xt
open Verif

/-- The flags set one after another. -/
def setAll (fl : Flags) : List (Str × Str) → Option Flags
  | [] => some fl
  | o :: os => (fl.set o.1 o.2).bind fun fl => setAll fl os

theorem parse_eq {m n v : Str} (fl : Flags) (args : List Str) (hm : Dash m) (ha : Allowed n v) :
    ∃ fl', fl.set n v = some fl' ∧ parseFlags fl ((m ++ n ++ b!"=" ++ v) :: args) = parseFlags fl' args := by
  unfold Allowed TextFlag OnOff On Off at ha
  simp only [List.mem_cons, List.not_mem_nil, or_false] at ha
  rcases hm with rfl | rfl <;> rcases ha with (rfl | rfl | rfl | rfl | rfl | rfl) | ⟨rfl | rfl | rfl,
    (rfl | rfl | rfl | rfl | rfl | rfl) | (rfl | rfl | rfl | rfl | rfl | rfl)⟩ <;>
    exact ⟨_, rfl, by simp [parseFlags, splitEq, flagKind, Flags.set, parseBool, List.span, List.span.loop]⟩

theorem parse_on {m n : Str} (fl : Flags) (args : List Str) (hm : Dash m) (ha : OnOff n) :
    ∃ fl', fl.set n b!"true" = some fl' ∧ parseFlags fl ((m ++ n) :: args) = parseFlags fl' args := by
  unfold OnOff at ha
  simp only [List.mem_cons, List.not_mem_nil, or_false] at ha
  rcases hm with rfl | rfl <;> rcases ha with rfl | rfl | rfl <;>
    exact ⟨_, rfl, by simp [parseFlags, splitEq, flagKind, Flags.set, parseBool, List.span, List.span.loop]⟩

theorem parse_text {m n v : Str} (fl : Flags) (args : List Str) (hm : Dash m) (ha : TextFlag n) :
    ∃ fl', fl.set n v = some fl' ∧ parseFlags fl ((m ++ n) :: v :: args) = parseFlags fl' args := by
  unfold TextFlag at ha
  simp only [List.mem_cons, List.not_mem_nil, or_false] at ha
  rcases hm with rfl | rfl <;> rcases ha with rfl | rfl | rfl | rfl | rfl | rfl <;>
    exact ⟨_, rfl, by simp [parseFlags, splitEq, flagKind, Flags.set, List.span, List.span.loop]⟩

theorem parse_options {a : List Str} {os : List (Str × Str)} (h : Options a os) (fl : Flags) (b : List Str) :
    ∃ fl', setAll fl os = some fl' ∧ parseFlags fl (a ++ b) = parseFlags fl' b := by
  induction h generalizing fl with
  | nil => exact ⟨fl, rfl, rfl⟩
  | eq hm ha _ ih =>
    obtain ⟨fl1, h1, h2⟩ := parse_eq fl (_ ++ b) hm ha
    obtain ⟨fl2, h3, h4⟩ := ih fl1
    exact ⟨fl2, by simp [setAll, h1, h3], h2.trans h4⟩
  | on hm ha _ ih =>
    obtain ⟨fl1, h1, h2⟩ := parse_on fl (_ ++ b) hm ha
    obtain ⟨fl2, h3, h4⟩ := ih fl1
    exact ⟨fl2, by simp [setAll, h1, h3], h2.trans h4⟩
  | text hm ha _ ih =>
    obtain ⟨fl1, h1, h2⟩ := parse_text fl (_ ++ b) hm ha
    obtain ⟨fl2, h3, h4⟩ := ih fl1
    exact ⟨fl2, by simp [setAll, h1, h3], h2.trans h4⟩

theorem parse_end (fl : Flags) (b : List Str) (h : EndOfFlags b) : parseFlags fl b = .ok fl := by
  cases b with
  | nil => rfl
  | cons a b =>
    rw [parseFlags.eq_def]
    dsimp only
    split
    · rename_i c r
      rcases h with h | h | h
      · cases h; rfl
      · cases h
      · simp at h
    · rfl

theorem parse_line {args : List Str} {os : List (Str × Str)} (h : Line args os) (fl : Flags) :
    ∃ fl', setAll fl os = some fl' ∧ parseFlags fl args = .ok fl' := by
  obtain ⟨a, b, rfl, ho, he⟩ := h
  obtain ⟨fl', h1, h2⟩ := parse_options ho fl b
  exact ⟨fl', h1, h2.trans (parse_end fl' b he)⟩

theorem parse_help {args : List Str} (h : AsksHelp args) (fl : Flags) : parseFlags fl args = .help := by
  obtain ⟨a, m, v, b, os, rfl, ho, hm, hv⟩ := h
  obtain ⟨fl', h1, h2⟩ := parse_options ho fl ((m ++ b!"help" ++ v) :: b)
  rw [h2]
  rcases hv with rfl | hv
  · rcases hm with rfl | rfl <;> simp [parseFlags, splitEq, flagKind, List.span, List.span.loop]
  · cases v with
    | nil => cases hv
    | cons c v =>
      simp only [List.head?_cons, Option.some.injEq] at hv
      subst hv
      rcases hm with rfl | rfl <;> simp [parseFlags, splitEq, flagKind, List.span, List.span.loop]

theorem splitEq_spec (c : UInt8) (r : Str) : 
    (∃ n v, c :: r = n ++ b!"=" ++ v ∧ splitEq (c :: r) = (n, some v)) ∨ (splitEq (c :: r) = (c :: r, none)) := by
  have h0 : splitEq (c :: r) = match (r.takeWhile (· ≠ 61), r.dropWhile (· ≠ 61)) with
      | (_, []) => (c :: r, none)
      | (a, _ :: v) => (c :: a, some v) := by
    rw [← List.span_eq_takeWhile_dropWhile]; rfl
  rw [h0]
  cases h : r.dropWhile (· ≠ 61) with
  | nil => right; rfl
  | cons x v =>
    left
    have hx : x = 61 := by
      have := List.head?_dropWhile_not (fun y : UInt8 => decide (y ≠ 61)) r
      rw [h] at this
      simpa using this
    subst hx
    refine ⟨c :: r.takeWhile (· ≠ 61), v, ?_, rfl⟩
    have := List.takeWhile_append_dropWhile (p := fun y : UInt8 => decide (y ≠ 61)) (l := r)
    rw [h] at this
    show c :: r = c :: (r.takeWhile (· ≠ 61) ++ [61] ++ v)
    rw [List.append_assoc]
    exact congrArg _ this.symm

theorem flagKind_false (n : Str) (h : flagKind n = some false) : TextFlag n := by
  unfold flagKind at h
  unfold TextFlag
  split at h
  · rename_i hh; simpa only [List.mem_cons, List.not_mem_nil, or_false] using hh
  · split at h <;> cases h

theorem flagKind_true (n : Str) (h : flagKind n = some true) : OnOff n := by
  unfold flagKind at h
  unfold OnOff
  split at h
  · cases h
  · split at h
    · rename_i hh; simpa only [List.mem_cons, List.not_mem_nil, or_false] using hh
    · cases h

theorem set_onOff (fl fl' : Flags) (n v : Str) (hn : OnOff n) (h : fl.set n v = some fl') : On v ∨ Off v := by
  have : parseBool v ≠ none := by
    intro hb
    unfold OnOff at hn
    simp only [List.mem_cons, List.not_mem_nil, or_false] at hn
    rcases hn with rfl | rfl | rfl <;> simp [Flags.set, hb] at h
  unfold parseBool at this
  unfold On Off
  simp only [List.mem_cons, List.not_mem_nil, or_false]
  by_contra hne
  rw [not_or] at hne
  exact this (by rw [if_neg hne.1, if_neg hne.2])

theorem line_nil (args : List Str) (h : EndOfFlags args) : ∃ os, Line args os := ⟨[], [], args, rfl, .nil, h⟩

theorem line_append {x : List Str} {o : Str × Str} (h : ∀ a os, Options a os → Options (x ++ a) (o :: os))
    {args : List Str} (hl : ∃ os, Line args os) : ∃ os, Line (x ++ args) os := by
  obtain ⟨os, a, b, rfl, ho, he⟩ := hl
  exact ⟨o :: os, x ++ a, b, by simp, h a os ho, he⟩

theorem help_append {x : List Str} {o : Str × Str} (h : ∀ a os, Options a os → Options (x ++ a) (o :: os))
    {args : List Str} (hl : AsksHelp args) : AsksHelp (x ++ args) := by
  obtain ⟨a, m, v, b, os, rfl, ho, hm, hv⟩ := hl
  exact ⟨x ++ a, m, v, b, o :: os, by simp, h a os ho, hm, hv⟩

theorem dash_split (c : UInt8) (r : Str) (h : ¬ (c = 45 ∧ r = [])) :
    ∃ m, Dash m ∧ 45 :: c :: r = m ++ if c = 45 then r else c :: r := by
  by_cases hc : c = 45
  · subst hc; exact ⟨b!"--", .inr rfl, by simp⟩
  · exact ⟨b!"-", .inl rfl, by simp [hc]⟩

/-- How an argument divides into the name of a flag and a text. -/
theorem arg_split (c : UInt8) (r : Str) (h : ¬ (c = 45 ∧ r = [])) (name : Str)
    (hn : (if c = 45 then r else c :: r) = name) (hh : ¬ (name.head? = none ∨ name.head? = some 45 ∨ name.head? = some 61)) :
    ∃ m, Dash m ∧ ((∃ n v, 45 :: c :: r = m ++ n ++ b!"=" ++ v ∧ splitEq name = (n, some v)) ∨
      ∃ n, 45 :: c :: r = m ++ n ∧ splitEq name = (n, none)) := by
  obtain ⟨m, hm, he⟩ := dash_split c r h
  rw [hn] at he
  refine ⟨m, hm, ?_⟩
  cases name with
  | nil => simp at hh
  | cons x y =>
    rcases splitEq_spec x y with ⟨n, v, h1, h2⟩ | h2
    · exact .inl ⟨n, v, by rw [he, h1]; simp, h2⟩
    · exact .inr ⟨_, he, h2⟩

theorem parse_sound (fl : Flags) (args : List Str) :
    (∀ fl', parseFlags fl args = .ok fl' → ∃ os, Line args os) ∧ (parseFlags fl args = .help → AsksHelp args) := by
  fun_induction parseFlags fl args
  case case1 => exact ⟨fun _ _ => line_nil _ trivial, fun h => by cases h⟩
  case case2 h =>
    refine ⟨fun _ _ => line_nil _ (.inl ?_), fun h => by cases h⟩
    rw [h.1, h.2]
  case case3 => exact ⟨fun _ h => (nomatch h), fun h => (nomatch h)⟩
  case case4 fl args c r h1 name h2 value h3 h4 =>
    refine ⟨fun _ h => by (cases h), fun _ => ?_⟩
    obtain ⟨m, hm, ⟨n, v, he, hs⟩ | ⟨n, he, hs⟩⟩ := arg_split c r h1 name rfl h2
    · rw [hs] at h3
      cases h3
      rw [he]
      exact ⟨[], m, b!"=" ++ v, args, [], by simp, .nil, hm, .inr rfl⟩
    · rw [hs] at h3
      cases h3
      rw [he]
      exact ⟨[], m, [], args, [], by simp, .nil, hm, .inl rfl⟩
  case case5 => exact ⟨fun _ h => (nomatch h), fun h => (nomatch h)⟩
  case case6 => exact ⟨fun _ h => (nomatch h), fun h => (nomatch h)⟩
  case case7 fl args c r h1 name h2 n value h3 h4 fl' h5 ih =>
    have hk := flagKind_true n h4
    have : ∃ o, ∀ a os, Options a os → Options ([45 :: c :: r] ++ a) (o :: os) := by
      obtain ⟨m, hm, ⟨n', v, he, hs⟩ | ⟨n', he, hs⟩⟩ := arg_split c r h1 name rfl h2
      · rw [hs] at h3
        cases h3
        rw [he]
        exact ⟨_, fun a os ho => .eq hm (.inr ⟨hk, set_onOff _ _ _ _ hk h5⟩) ho⟩
      · rw [hs] at h3
        cases h3
        rw [he]
        exact ⟨_, fun a os ho => .on hm hk ho⟩
    obtain ⟨o, ho⟩ := this
    exact ⟨fun fl'' h => line_append ho (ih.1 fl'' h), fun h => help_append ho (ih.2 h)⟩
  case case8 => exact ⟨fun _ h => (nomatch h), fun h => (nomatch h)⟩
  case case9 fl args c r h1 name h2 n h4 v fl' h5 h3 ih =>
    have hk := flagKind_false n h4
    have : ∃ o, ∀ a os, Options a os → Options ([45 :: c :: r] ++ a) (o :: os) := by
      obtain ⟨m, hm, ⟨n', v, he, hs⟩ | ⟨n', he, hs⟩⟩ := arg_split c r h1 name rfl h2
      · rw [hs] at h3
        cases h3
        rw [he]
        exact ⟨_, fun a os ho => .eq hm (.inl hk) ho⟩
      · rw [hs] at h3
        cases h3
    obtain ⟨o, ho⟩ := this
    exact ⟨fun fl'' h => line_append ho (ih.1 fl'' h), fun h => help_append ho (ih.2 h)⟩
  case case10 => exact ⟨fun _ h => (nomatch h), fun h => (nomatch h)⟩
  case case11 => exact ⟨fun _ h => (nomatch h), fun h => (nomatch h)⟩
  case case12 fl c r h1 name h2 n h4 v args fl' h5 h3 ih =>
    have hk := flagKind_false n h4
    have : ∃ o, ∀ a os, Options a os → Options ([45 :: c :: r, v] ++ a) (o :: os) := by
      obtain ⟨m, hm, ⟨n', v, he, hs⟩ | ⟨n', he, hs⟩⟩ := arg_split c r h1 name rfl h2
      · rw [hs] at h3
        cases h3
      · rw [hs] at h3
        cases h3
        rw [he]
        exact ⟨_, fun a os ho => .text hm hk ho⟩
    obtain ⟨o, ho⟩ := this
    exact ⟨fun fl'' h => line_append ho (ih.1 fl'' h), fun h => help_append ho (ih.2 h)⟩
  case case13 fl s args h =>
    refine ⟨fun _ _ => line_nil _ ?_, fun h => by cases h⟩
    cases s with
    | nil => exact .inr (.inr (by simp))
    | cons x y =>
      by_cases hx : x = 45
      · subst hx
        cases y with
        | nil => exact .inr (.inl rfl)
        | cons c r => exact (h c r rfl).elim
      · exact .inr (.inr (by simpa using hx))

/-! ## What the flags say -/

/-- The flags as they were given. -/
structure Reads (os : List (Str × Str)) (fl : Flags) : Prop where
  param : Parameters os fl.param
  debug : fl.debug = true ↔ IsOn os b!"d"
  version : fl.version = true ↔ IsOn os b!"v"
  help : fl.help = true ↔ IsOn os b!"h"

theorem lastGiven_cons (o : Str × Str) (os : List (Str × Str)) (n dflt v : Str) :
    LastGiven (o :: os) n dflt v ↔ LastGiven os n (if o.1 = n then o.2 else dflt) v := by
  constructor
  · rintro (⟨a, b, h, hb⟩ | ⟨h, rfl⟩)
    · cases a with
      | nil =>
        simp only [List.nil_append, List.cons.injEq] at h
        obtain ⟨rfl, rfl⟩ := h
        exact .inr ⟨hb, by simp⟩
      | cons x a =>
        simp only [List.cons_append, List.cons.injEq] at h
        exact .inl ⟨a, b, h.2, hb⟩
    · refine .inr ⟨fun o ho => h o (by simp [ho]), ?_⟩
      rw [if_neg (h o (by simp))]
  · rintro (⟨a, b, rfl, hb⟩ | ⟨h, rfl⟩)
    · exact .inl ⟨o :: a, b, rfl, hb⟩
    · by_cases ho : o.1 = n
      · rw [if_pos ho, ← ho]
        exact .inl ⟨[], os, rfl, by rw [ho]; exact h⟩
      · rw [if_neg ho]
        exact .inr ⟨by simpa [ho] using h, rfl⟩

theorem lastGiven_nil (n dflt v : Str) : LastGiven [] n dflt v ↔ v = dflt := by
  simp [LastGiven]

theorem lastGiven_unique (os : List (Str × Str)) (n dflt v w : Str) (h1 : LastGiven os n dflt v)
    (h2 : LastGiven os n dflt w) : v = w := by
  induction os generalizing dflt with
  | nil => rw [lastGiven_nil] at h1 h2; rw [h1, h2]
  | cons o os ih => rw [lastGiven_cons] at h1 h2; exact ih _ h1 h2

theorem lastGiven_exists (os : List (Str × Str)) (n dflt : Str) : ∃ v, LastGiven os n dflt v := by
  induction os generalizing dflt with
  | nil => exact ⟨_, (lastGiven_nil _ _ _).mpr rfl⟩
  | cons o os ih =>
    obtain ⟨v, hv⟩ := ih (if o.1 = n then o.2 else dflt)
    exact ⟨v, (lastGiven_cons _ _ _ _ _).mpr hv⟩

/-- What stands for a flag in the fields. -/
def onText (b : Bool) : Str := if b then b!"true" else b!"false"

theorem options_allowed {a : List Str} {os : List (Str × Str)} (h : Options a os) : ∀ o ∈ os, Allowed o.1 o.2 := by
  induction h with
  | nil => simp
  | eq _ ha _ ih => simpa using ⟨ha, fun a b h => ih (a, b) h⟩
  | on _ ha _ ih => simpa using ⟨.inr ⟨ha, .inl (by unfold On; simp)⟩, fun a b h => ih (a, b) h⟩
  | text _ ha _ ih => simpa using ⟨.inl ha, fun a b h => ih (a, b) h⟩

theorem parseBool_iff (v : Str) : (parseBool v = some true ↔ On v) ∧ (parseBool v = some false ↔ Off v) := by
  unfold parseBool On Off
  simp only [List.mem_cons, List.not_mem_nil, or_false]
  split
  · rename_i h
    refine ⟨by simp [h], ?_⟩
    rcases h with rfl | rfl | rfl | rfl | rfl | rfl <;> decide
  · rename_i h
    split
    · rename_i h'
      exact ⟨by simp [h], by simp [h']⟩
    · rename_i h'
      exact ⟨by simp [h], by simp [h']⟩

/-- What setting a flag does. -/
structure SetEffect (fl fl' : Flags) (n v : Str) : Prop where
  input : fl'.input = if n = b!"i" then v else fl.input
  left : fl'.left = if n = b!"left" then v else fl.left
  right : fl'.right = if n = b!"right" then v else fl.right
  keyword : fl'.keyword = if n = b!"k" then v else fl.keyword
  function : fl'.function = if n = b!"f" then v else fl.function
  output : fl'.output = if n = b!"o" then v else fl.output
  debug : fl'.debug = if n = b!"d" then decide (parseBool v = some true) else fl.debug
  version : fl'.version = if n = b!"v" then decide (parseBool v = some true) else fl.version
  help : fl'.help = if n = b!"h" then decide (parseBool v = some true) else fl.help

theorem set_effect (fl fl' : Flags) (n v : Str) (ha : Allowed n v) (h : fl.set n v = some fl') :
    SetEffect fl fl' n v := by
  unfold Allowed TextFlag OnOff at ha
  simp only [List.mem_cons, List.not_mem_nil, or_false] at ha
  rcases ha with (rfl | rfl | rfl | rfl | rfl | rfl) | ⟨hn, hv⟩
  · cases h; constructor <;> rfl
  · cases h; constructor <;> rfl
  · cases h; constructor <;> rfl
  · cases h; constructor <;> rfl
  · cases h; constructor <;> rfl
  · cases h; constructor <;> rfl
  · obtain ⟨b, hb⟩ : ∃ b, parseBool v = some b := by
      rcases hv with hv | hv
      · exact ⟨_, (parseBool_iff v).1.mpr hv⟩
      · exact ⟨_, (parseBool_iff v).2.mpr hv⟩
    unfold Flags.set at h
    rw [hb] at h
    rcases hn with rfl | rfl | rfl <;>
    · cases h
      constructor <;> simp [hb]

theorem isOn_default (os : List (Str × Str)) (n d1 d2 : Str) (h : On d1 ↔ On d2) :
    (∃ v, LastGiven os n d1 v ∧ On v) ↔ ∃ v, LastGiven os n d2 v ∧ On v := by
  have key : ∀ d1 d2, (On d1 → On d2) → (∃ v, LastGiven os n d1 v ∧ On v) → ∃ v, LastGiven os n d2 v ∧ On v := by
    rintro d1 d2 h ⟨v, h1 | ⟨h1, rfl⟩, h2⟩
    · exact ⟨v, .inl h1, h2⟩
    · exact ⟨d2, .inr ⟨h1, rfl⟩, h h2⟩
  exact ⟨key _ _ h.mp, key _ _ h.mpr⟩

theorem setAll_reads (os : List (Str × Str)) (ha : ∀ o ∈ os, Allowed o.1 o.2) (fl fl' : Flags)
    (h : setAll fl os = some fl') :
    LastGiven os b!"i" fl.input fl'.input ∧ LastGiven os b!"left" fl.left fl'.left ∧
    LastGiven os b!"right" fl.right fl'.right ∧ LastGiven os b!"k" fl.keyword fl'.keyword ∧
    LastGiven os b!"f" fl.function fl'.function ∧ LastGiven os b!"o" fl.output fl'.output ∧
    (fl'.debug = true ↔ ∃ v, LastGiven os b!"d" (onText fl.debug) v ∧ On v) ∧
    (fl'.version = true ↔ ∃ v, LastGiven os b!"v" (onText fl.version) v ∧ On v) ∧
    (fl'.help = true ↔ ∃ v, LastGiven os b!"h" (onText fl.help) v ∧ On v) := by
  induction os generalizing fl with
  | nil =>
    cases h
    have key : ∀ b : Bool, b = true ↔ On (onText b) := by unfold On; decide
    simp only [lastGiven_nil, true_and, exists_eq_left]
    exact ⟨key _, key _, key _⟩
  | cons o os ih =>
    simp only [setAll, Option.bind_eq_some_iff] at h
    obtain ⟨fl1, h1, h2⟩ := h
    have hE := set_effect fl fl1 o.1 o.2 (ha o (by simp)) h1
    obtain ⟨i1, i2, i3, i4, i5, i6, i7, i8, i9⟩ := ih (fun o ho => ha o (by simp [ho])) fl1 h2
    have key : ∀ (n : Str) (b : Bool), (∃ v, LastGiven os n (onText (if o.1 = n then decide (parseBool o.2 = some true) else b)) v ∧ On v)
        ↔ ∃ v, LastGiven os n (if o.1 = n then o.2 else onText b) v ∧ On v := by
      intro n b
      split
      · apply isOn_default
        rw [← (parseBool_iff o.2).1]
        unfold onText
        split <;> rename_i hb
        · simp only [decide_eq_true_eq] at hb
          simp [hb, On]
        · simp only [decide_eq_true_eq] at hb
          simp [hb, On]
      · rfl
    simp only [lastGiven_cons]
    rw [hE.input] at i1
    rw [hE.left] at i2
    rw [hE.right] at i3
    rw [hE.keyword] at i4
    rw [hE.function] at i5
    rw [hE.output] at i6
    rw [hE.debug, key] at i7
    rw [hE.version, key] at i8
    rw [hE.help, key] at i9
    exact ⟨i1, i2, i3, i4, i5, i6, i7, i8, i9⟩

theorem line_reads {args : List Str} {os : List (Str × Str)} (h : Line args os) :
    ∃ fl, parseFlags {} args = .ok fl ∧ Reads os fl := by
  obtain ⟨fl, h1, h2⟩ := parse_line h {}
  obtain ⟨a, b, -, ho, -⟩ := h
  obtain ⟨i1, i2, i3, i4, i5, i6, i7, i8, i9⟩ := setAll_reads os (options_allowed ho) {} fl h1
  exact ⟨fl, h2, ⟨i1, i2, i3, i4, i5, i6⟩, i7, i8, i9⟩

theorem parameters_unique {os : List (Str × Str)} {p q : Param} (h1 : Parameters os p) (h2 : Parameters os q) : p = q := by
  obtain ⟨_, _, _, _, _, _⟩ := p
  obtain ⟨_, _, _, _, _, _⟩ := q
  obtain ⟨a1, a2, a3, a4, a5, a6⟩ := h1
  obtain ⟨b1, b2, b3, b4, b5, b6⟩ := h2
  rw [Param.mk.injEq]
  exact ⟨lastGiven_unique _ _ _ _ _ a1 b1, lastGiven_unique _ _ _ _ _ a2 b2, lastGiven_unique _ _ _ _ _ a3 b3,
    lastGiven_unique _ _ _ _ _ a4 b4, lastGiven_unique _ _ _ _ _ a5 b5, lastGiven_unique _ _ _ _ _ a6 b6⟩

theorem trim_white (s : Str) : GoStr.trimSpace s = [] ↔ GoStr.White s := by
  rw [← GoStr.trims_iff]
  constructor
  · rintro ⟨w1, w2, h1, h2, rfl, -⟩
    rw [List.append_nil]
    obtain ⟨r1, h1, rfl⟩ := h1
    obtain ⟨r2, h2, rfl⟩ := h2
    exact ⟨r1 ++ r2, fun r hr => (List.mem_append.mp hr).elim (h1 r) (h2 r), by simp⟩
  · intro h
    refine ⟨s, [], h, GoStr.white_nil, by simp, fun r hr => ?_⟩
    have := GoStr.white_ne_nil r hr
    simp [this]

/-- A run ended with this status and disk: 0 if no error was returned, 2 for an error or a panic. -/
def Ended (o : Outcome) (code : Nat) (d : Disk) : Prop :=
  (code = 0 ∧ ∃ printed, o = .returned none printed d) ∨
  (code = 2 ∧ ((∃ e printed, o = .returned (some e) printed d) ∨ o = .panicked d))

theorem exit_iff (o : Outcome) (code : Nat) (d : Disk) : o.exit = (code, d) ↔ Ended o code d := by
  unfold Ended Outcome.exit
  cases o with
  | returned e pr d0 => cases e <;> simp [eq_comm]
  | panicked d0 => simp [eq_comm]

theorem about_version (version : Str) : About version (versionText version) := by
  unfold About versionText
  simp [List.intercalate, List.intersperse]

/-- **C65** The exit status and what the process leaves behind, for every command line. -/
theorem C65_main (E : Env) (version trace : Str) (args : List Str) (d : Disk) (code : Nat) (d' : Disk)
    (h : Main E version trace args d (code, d')) :
    (AsksHelp args → code = 0 ∧ d' = d) ∧
    (¬ AsksHelp args → (¬ ∃ os, Line args os) → code = 2 ∧ d' = d) ∧
    ∀ os, Line args os →
      (IsOn os b!"v" → code = 0 ∧ ∃ text, About version text ∧ Printed d text d') ∧
      (¬ IsOn os b!"v" → IsOn os b!"h" → code = 0 ∧ d' = d) ∧
      (¬ IsOn os b!"v" → ¬ IsOn os b!"h" → ∀ p, Parameters os p →
        (GoStr.White p.input ∨ GoStr.White p.keyword → code = 2 ∧ d' = d) ∧
        (¬ (GoStr.White p.input ∨ GoStr.White p.keyword) → ∃ d0 o,
          (IsOn os b!"d" → Printed d (b!"run param=" ++ trace) d0) ∧ (¬ IsOn os b!"d" → d0 = d) ∧
          Run E p d0 o ∧ Ended o code d')) := by
  generalize hr : (code, d') = r at h
  refine ⟨fun hh => ?_, fun hh hl => ?_, fun os hl => ?_⟩
  · have := parse_help hh {}
    cases h <;> simp_all
  · cases h with
    | errHelp hp => exact absurd ((parse_sound _ _).2 hp) hh
    | bad => simpa using hr
    | version hp => exact absurd ((parse_sound _ _).1 _ hp) hl
    | help hp => exact absurd ((parse_sound _ _).1 _ hp) hl
    | missing hp => exact absurd ((parse_sound _ _).1 _ hp) hl
    | run hp => exact absurd ((parse_sound _ _).1 _ hp) hl
  · obtain ⟨fl, hp, hR⟩ := line_reads hl
    rw [← hR.version, ← hR.help]
    have hpar : ∀ p, Parameters os p → p = fl.param := fun p h => parameters_unique h hR.param
    cases h with
    | errHelp hp' => rw [hp] at hp'; cases hp'
    | bad hp' => rw [hp] at hp'; cases hp'
    | version hp' hv =>
      rw [hp] at hp'; cases hp'
      cases hr
      exact ⟨fun _ => ⟨rfl, _, about_version version, rfl, rfl⟩, fun h => absurd hv h, fun h => absurd hv h⟩
    | help hp' hv hh =>
      rw [hp] at hp'; cases hp'
      cases hr
      exact ⟨fun h => by simp [hv] at h, fun _ _ => ⟨rfl, rfl⟩, fun _ h => absurd hh h⟩
    | missing hp' hv hh hm =>
      rw [hp] at hp'; cases hp'
      cases hr
      refine ⟨fun h => by simp [hv] at h, fun _ h => by simp [hh] at h, fun _ _ p hP => ?_⟩
      obtain rfl := hpar p hP
      rw [trim_white, trim_white] at hm
      exact ⟨fun _ => ⟨rfl, rfl⟩, fun h => absurd hm h⟩
    | run hp' hv hh hm ho =>
      rw [hp] at hp'; cases hp'
      refine ⟨fun h => by simp [hv] at h, fun _ h => by simp [hh] at h, fun _ _ p hP => ?_⟩
      obtain rfl := hpar p hP
      rw [trim_white, trim_white] at hm
      refine ⟨fun h => absurd h hm, fun _ => ⟨_, _, ?_, ?_, ho, (exit_iff _ _ _).mp hr.symm⟩⟩
      · intro hd
        rw [if_pos (hR.debug.mpr hd)]
        exact ⟨rfl, rfl⟩
      · intro hd
        rw [if_neg (mt hR.debug.mp hd)]

/-- Every command line has an outcome. -/
theorem C65_total (E : Env) (version trace : Str) (args : List Str) (d : Disk) :
    ∃ r, Main E version trace args d r := by
  cases hp : parseFlags {} args with
  | help => exact ⟨_, .errHelp hp⟩
  | bad => exact ⟨_, .bad hp⟩
  | ok fl =>
    cases hv : fl.version with
    | true => exact ⟨_, .version hp hv⟩
    | false =>
      cases hh : fl.help with
      | true => exact ⟨_, .help hp hv hh⟩
      | false =>
        by_cases hm : GoStr.trimSpace fl.input = [] ∨ GoStr.trimSpace fl.keyword = []
        · exact ⟨_, .missing hp hv hh hm⟩
        · obtain ⟨o, ho⟩ := C58_total E fl.param (if fl.debug then d.print (b!"run param=" ++ trace) else d)
          exact ⟨_, .run hp hv hh hm ho⟩

/-! ## What a reader of the output gets -/

/-- **C65** If the command, asked to extract to a file, exits with status 0, then `ReadPot` reads that file and
gets the header and the messages of all the input files, and nothing else. -/
theorem C65_readable (E : Env) (h10 : E.isPrint 10 = false) (h13 : E.isPrint 13 = false)
    (hsink : ∀ t, (E.sink t).2 = true → (E.sink t).1 = t) (version trace : Str) (args : List Str) (d d' : Disk)
    (h : Main E version trace args d (0, d')) (os : List (Str × Str)) (hl : Line args os) (hv : ¬ IsOn os b!"v")
    (hh : ¬ IsOn os b!"h") (p : Param) (hp : Parameters os p) (hout : ¬ ToStdout p) :
    ∃ kws d0 d1 fs, DeclaresAll p.keyword kws ∧ d0.files = d.files ∧ Opened E p d0 d1 ∧
      E.glob d1.files p.input = some fs ∧ ((∀ f ∈ fs, OneLine f) →
        ∃ ess, List.Forall₂ (FileOk E p kws d1) fs ess ∧ (NoEotIn ess.flatten →
          ∃ text g, d'.files (E.canon p.output) = some text ∧ Tr.readPot text = .ok g ∧
            ∀ ctxt id, 4 ∉ ctxt → g.entries.get? (Tr.key ctxt id) = potEntry p E.now ess.flatten ctxt id)) := by
  obtain ⟨h1, h2⟩ := (((C65_main E version trace args d 0 d' h).2.2 os hl).2.2 hv hh p hp)
  by_cases hw : GoStr.White p.input ∨ GoStr.White p.keyword
  · exact absurd (h1 hw).1 (by decide)
  obtain ⟨d0, o, hd1, hd2, hrun, he⟩ := h2 hw
  have hfiles : d0.files = d.files := by
    by_cases hd : IsOn os b!"d"
    · exact (hd1 hd).1
    · rw [hd2 hd]
  obtain ⟨printed, rfl⟩ : ∃ printed, o = .returned none printed d' := by
    rcases he with ⟨-, h⟩ | ⟨h, -⟩
    · exact h
    · cases h
  obtain ⟨e1, e2, e3⟩ := C58_early E p d0 _ hrun
  have hk : ∃ kws, DeclaresAll p.keyword kws := by
    by_contra hn
    have := e1 (not_exists.mp hn)
    cases this
  obtain ⟨kws, hk⟩ := hk
  have ho : OpenOk E p := by
    by_contra hn
    have := e2 kws hk hn
    cases this
  have hd1' : Opened E p d0 (d0.truncate E p) := (opened_iff _ _ _ _).mpr rfl
  cases hg : E.glob (d0.truncate E p).files p.input with
  | none => have := e3 kws _ hk ho hd1' hg; cases this
  | some fs =>
    exact ⟨kws, d0, _, fs, hk, hfiles, hd1', hg, fun hfs =>
      C63_run E h10 h13 hsink p hout d0 kws hk ho _ hd1' fs hg hfs printed d' hrun⟩

theorem split_start (a t : Str) (h10 : 10 ∉ a) (h13 : 13 ∉ a) :
    ∃ l ls, GoStr.splitByte 10 (GoStr.removeByte 13 (a ++ t)) = (a ++ l) :: ls := by
  induction a with
  | nil =>
    cases h : GoStr.splitByte 10 (GoStr.removeByte 13 t) with
    | nil => exact absurd h (GoStr.splitByte_ne_nil _ _)
    | cons l ls => exact ⟨l, ls, by simp [h]⟩
  | cons x a ih =>
    simp only [List.mem_cons, not_or] at h10 h13
    obtain ⟨l, ls, hl⟩ := ih h10.2 h13.2
    have hr : GoStr.removeByte 13 ((x :: a) ++ t) = x :: GoStr.removeByte 13 (a ++ t) := by
      unfold GoStr.removeByte
      rw [List.cons_append, List.filter_cons_of_pos]
      simpa using fun h => h13.1 h.symm
    obtain ⟨p, ps, h1, h2⟩ := GoStr.splitByte_cons_ne 10 x (GoStr.removeByte 13 (a ++ t)) (fun h => h10.1 h.symm)
    rw [hl] at h1
    cases h1
    exact ⟨l, ls, by rw [hr, h2]; rfl⟩

theorem readPot_debug (t : Str) : Tr.readPot (b!"run param=" ++ t) = .panic ∧ Tr.readPo (b!"run param=" ++ t) = .err := by
  have hs : ∃ l ls, GoStr.splitByte 10 (GoStr.removeByte 13 (b!"run param=" ++ t)) = (b!"run param=" ++ l) :: ls := by
    exact split_start b!"run param=" t (by decide) (by decide)
  obtain ⟨l, ls, hs⟩ := hs
  have hstep : Tr.step {} .start (b!"run param=" ++ l) = .bad Tr.badLine := by
    have hne : GoStr.trimSpace (b!"run param=" ++ l) ≠ [] := by
      rw [ne_eq, trim_white]
      rintro ⟨rs, h1, h2⟩
      cases rs with
      | nil => cases h2
      | cons r rs =>
        have h3 : r.head? = some 114 := by
          have hr := GoStr.white_ne_nil r (h1 r (by simp))
          cases r with
          | nil => exact absurd rfl hr
          | cons a r => simp only [List.flatten_cons, List.cons_append, List.cons.injEq] at h2; simp [h2.1]
        have : ∀ r ∈ GoStr.whiteSpace, r.head? ≠ some 114 := by decide
        exact this r (h1 r (by simp)) h3
    unfold Tr.step
    rw [if_neg hne]
    simp [GoStr.hasPrefix, Tr.formPrefix, Tr.msgstrN]
  have hread : Tr.Reader.readEntry (Tr.newReader ((b!"run param=" ++ l) :: ls)) {} .start = .bad Tr.badLine := by
    have hn : (Tr.newReader ((b!"run param=" ++ l) :: ls)).nextLine =
        (.line (b!"run param=" ++ l), { lines := (b!"run param=" ++ l) :: ls, lineNo := 0 }) := by
      unfold Tr.Reader.nextLine Tr.newReader Tr.Reader.currentLine
      dsimp only
      rw [if_neg (by omega), if_neg (by simp only [List.length_cons]; omega)]
      rfl
    rw [Tr.Reader.readEntry]
    split
    · rename_i h
      rw [hn] at h
      cases h
      rw [hstep]
    · rename_i h; rw [hn] at h; cases h
    · rename_i h; rw [hn] at h; cases h
    · rename_i h; rw [hn] at h; cases h
  unfold Tr.readPot Tr.readPo Tr.readPo0
  rw [if_neg (by simp), if_neg (by simp), hs, Tr.Reader.readLoop, Tr.Reader.readLoop]
  constructor
  · split
    · rename_i h; rw [hread] at h; cases h
    · rename_i h; rw [hread] at h; cases h
    · rfl
    · rfl
  · split
    · rename_i h; rw [hread] at h; cases h
    · rename_i h; rw [hread] at h; cases h
    · rename_i h; rw [hread] at h; cases h; rfl
    · rename_i h; rw [hread] at h; cases h

/-- **C65** With `-d` the debug output goes to stdout, before the POT: a reader of stdout gets a text that is not
a PO file, so `ReadPot` panics and `ReadPo` fails. -/
theorem C65_debug (E : Env) (version trace : Str) (args : List Str) (d d' : Disk) (code : Nat)
    (h : Main E version trace args d (code, d')) (os : List (Str × Str)) (hl : Line args os) (hv : ¬ IsOn os b!"v")
    (hh : ¬ IsOn os b!"h") (hd : IsOn os b!"d") (p : Param) (hp : Parameters os p)
    (hw : ¬ (GoStr.White p.input ∨ GoStr.White p.keyword)) :
    ∃ t, d'.stdout = d.stdout ++ b!"run param=" ++ t ∧ Tr.readPot (b!"run param=" ++ t) = .panic ∧
      Tr.readPo (b!"run param=" ++ t) = .err := by
  obtain ⟨d0, o, hd1, -, hrun, he⟩ := (((C65_main E version trace args d code d' h).2.2 os hl).2.2 hv hh p hp).2 hw
  have key : ∃ t, d'.stdout = d0.stdout ++ t := by
    have htr : (d0.truncate E p).stdout = d0.stdout := by unfold Disk.truncate Disk.put; split <;> rfl
    have hw : ∀ text, ∃ t, ((d0.truncate E p).write E p text).stdout = d0.stdout ++ t := by
      intro text
      unfold Disk.write Disk.put
      split
      · exact ⟨(E.sink text).1, by simp only [htr]⟩
      · exact ⟨[], by simp [htr]⟩
    rw [← exit_iff] at he
    cases hrun with
    | keyword => simp only [Outcome.exit, Prod.mk.injEq] at he; exact ⟨[], by simp [he.2]⟩
    | openOutput => simp only [Outcome.exit, Prod.mk.injEq] at he; exact ⟨[], by simp [he.2]⟩
    | glob =>
      unfold Outcome.exit at he
      generalize finish E p _ = f at he
      cases f <;> simp only [Prod.mk.injEq] at he <;> exact ⟨[], by rw [← he.2, htr]; simp⟩
    | panic => simp only [Outcome.exit, Prod.mk.injEq] at he; exact ⟨[], by rw [← he.2, htr]; simp⟩
    | failed =>
      unfold Outcome.exit at he
      generalize finish E p _ = f at he
      cases f <;> simp only [Prod.mk.injEq] at he <;> exact ⟨[], by rw [← he.2, htr]; simp⟩
    | written =>
      unfold Outcome.exit at he
      generalize finish E p _ = f at he
      cases f <;> simp only [Prod.mk.injEq] at he <;> rw [← he.2] <;> exact hw _
  obtain ⟨t, ht⟩ := key
  refine ⟨trace ++ t, ?_, readPot_debug _⟩
  rw [ht, (hd1 hd).2]
  simp

theorem vcs_reads (settings : List (Str × Str)) (v : Vcs) :
    LastGiven settings b!"vcs.revision" v.revision (settings.foldl Vcs.step v).revision ∧
    LastGiven settings b!"vcs.time" v.time (settings.foldl Vcs.step v).time ∧
    ((settings.foldl Vcs.step v).dirty = true ↔ LastGiven settings b!"vcs.modified" (onText v.dirty) b!"true") := by
  induction settings generalizing v with
  | nil =>
    simp only [List.foldl_nil, lastGiven_nil, true_and]
    cases v.dirty <;> simp [onText]
  | cons o os ih =>
    obtain ⟨i1, i2, i3⟩ := ih (v.step o)
    simp only [List.foldl_cons, lastGiven_cons]
    have h1 : (v.step o).revision = if o.1 = b!"vcs.revision" then o.2 else v.revision := by
      unfold Vcs.step
      split
      · rfl
      · split <;> [rfl; (split <;> rfl)]
    have h2 : (v.step o).time = if o.1 = b!"vcs.time" then o.2 else v.time := by
      unfold Vcs.step
      split
      · rename_i h; rw [h]; rfl
      · split <;> [rfl; (split <;> rfl)]
    have h3 : (v.step o).dirty = if o.1 = b!"vcs.modified" then decide (o.2 = b!"true") else v.dirty := by
      unfold Vcs.step
      split
      · rename_i h; rw [h]; rfl
      · split
        · rename_i h; rw [h]; rfl
        · split <;> rfl
    rw [h1] at i1
    rw [h2] at i2
    rw [h3] at i3
    refine ⟨i1, i2, i3.trans ?_⟩
    split
    · unfold LastGiven
      refine or_congr Iff.rfl (and_congr Iff.rfl ?_)
      unfold onText
      by_cases ho : o.2 = b!"true" <;> simp [ho, eq_comm]
    · rfl

/-- **C65** The version: the one set when linking, or that of the module, or made from the version control
settings, or `dev`. -/
theorem C65_version (version : Str) (info : Option BuildInfo) :
    (version ≠ [] → version ≠ b!"dev" → versionString version info = version) ∧
    (version = [] ∨ version = b!"dev" → info = none → versionString version info = b!"dev") ∧
    (version = [] ∨ version = b!"dev" → ∀ i, info = some i →
      (i.main ≠ [] → i.main ≠ b!"(devel)" → versionString version info = i.main) ∧
      (i.main = [] ∨ i.main = b!"(devel)" → ∀ rev time, LastGiven i.settings b!"vcs.revision" [] rev →
        LastGiven i.settings b!"vcs.time" [] time →
        (rev = [] → versionString version info = b!"dev") ∧
        (rev ≠ [] → ∃ dirty, (LastGiven i.settings b!"vcs.modified" b!"false" b!"true" → dirty = b!"-dirty") ∧
          (¬ LastGiven i.settings b!"vcs.modified" b!"false" b!"true" → dirty = []) ∧
          versionString version info = rev.take 12 ++ dirty ++ if time = [] then [] else b!"-" ++ time))) := by
  unfold versionString
  refine ⟨fun h1 h2 => by rw [if_pos ⟨h1, h2⟩], fun h hi => ?_, fun h i hi => ?_⟩
  · rw [if_neg (by rintro ⟨h1, h2⟩; exact h.elim h1 h2), hi]
  · rw [if_neg (by rintro ⟨h1, h2⟩; exact h.elim h1 h2), hi]
    dsimp only
    refine ⟨fun h1 h2 => by rw [if_pos ⟨h1, h2⟩], fun hm rev time hr ht => ?_⟩
    rw [if_neg (by rintro ⟨h1, h2⟩; exact hm.elim h1 h2)]
    obtain ⟨v1, v2, v3⟩ := vcs_reads i.settings {}
    generalize i.settings.foldl Vcs.step {} = v at v1 v2 v3
    obtain ⟨r, t, m⟩ := v
    obtain rfl := lastGiven_unique _ _ _ _ _ hr v1
    obtain rfl := lastGiven_unique _ _ _ _ _ ht v2
    dsimp only at v3 ⊢
    refine ⟨fun h0 => by rw [if_pos h0], fun h0 => ⟨if m then b!"-dirty" else [], ?_, ?_, ?_⟩⟩
    · intro hd; rw [if_pos (v3.mpr hd)]
    · intro hd; rw [if_neg (mt v3.mp hd)]
    · rw [if_neg h0]
      have ht : (if 12 < rev.length then rev.take 12 else rev) = rev.take 12 := by
        split
        · rfl
        · rw [List.take_of_length_le (by omega)]
      rw [ht]
      cases m <;> by_cases h : time = [] <;> simp [h, GoStr.join]

example : Line [b!"-i", b!"*.tmpl", b!"--k=T;N:1,2", b!"-d=false", b!"-o", b!"-x", b!"--", b!"-h"]
    [(b!"i", b!"*.tmpl"), (b!"k", b!"T;N:1,2"), (b!"d", b!"false"), (b!"o", b!"-x")] := by
  refine ⟨[b!"-i", b!"*.tmpl", b!"--k=T;N:1,2", b!"-d=false", b!"-o", b!"-x"], [b!"--", b!"-h"], rfl, ?_, .inl rfl⟩
  refine .text (m := b!"-") (n := b!"i") (.inl rfl) (by unfold TextFlag; decide) ?_
  refine .eq (m := b!"--") (n := b!"k") (v := b!"T;N:1,2") (.inr rfl) (.inl (by unfold TextFlag; decide)) ?_
  refine .eq (m := b!"-") (n := b!"d") (v := b!"false") (.inl rfl)
    (.inr ⟨by unfold OnOff; decide, .inr (by unfold Off; decide)⟩) ?_
  exact .text (m := b!"-") (n := b!"o") (.inl rfl) (by unfold TextFlag; decide) .nil


end Verif.Xt
