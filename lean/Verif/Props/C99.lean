import Verif.Spec.Usage
import Verif.Props.C65
import Verif.Props.C98
/-!
# C99: what the command says about its flags
-/
namespace Verif.Xt
open Verif

/-! ## Wrong arguments -/

theorem err_eq {m n v : Str} (fl : Flags) (args : List Str) (hm : Dash m) (ha : Allowed n v) :
    ∃ fl', flagErr fl ((m ++ n ++ b!"=" ++ v) :: args) = flagErr fl' args ∧
      parseFlags fl ((m ++ n ++ b!"=" ++ v) :: args) = parseFlags fl' args := by
  unfold Allowed TextFlag OnOff On Off at ha
  simp only [List.mem_cons, List.not_mem_nil, or_false] at ha
  rcases hm with rfl | rfl <;> rcases ha with (rfl | rfl | rfl | rfl | rfl | rfl) | ⟨rfl | rfl | rfl,
    (rfl | rfl | rfl | rfl | rfl | rfl) | (rfl | rfl | rfl | rfl | rfl | rfl)⟩ <;>
    exact ⟨_, by simp [flagErr, splitEq, flagKind, Flags.set, parseBool, List.span, List.span.loop]; rfl,
      by simp [parseFlags, splitEq, flagKind, Flags.set, parseBool, List.span, List.span.loop]⟩

theorem err_on {m n : Str} (fl : Flags) (args : List Str) (hm : Dash m) (ha : OnOff n) :
    ∃ fl', flagErr fl ((m ++ n) :: args) = flagErr fl' args ∧ parseFlags fl ((m ++ n) :: args) = parseFlags fl' args := by
  unfold OnOff at ha
  simp only [List.mem_cons, List.not_mem_nil, or_false] at ha
  rcases hm with rfl | rfl <;> rcases ha with rfl | rfl | rfl <;>
    exact ⟨_, by simp [flagErr, splitEq, flagKind, Flags.set, parseBool, List.span, List.span.loop]; rfl,
      by simp [parseFlags, splitEq, flagKind, Flags.set, parseBool, List.span, List.span.loop]⟩

theorem err_text {m n v : Str} (fl : Flags) (args : List Str) (hm : Dash m) (ha : TextFlag n) :
    ∃ fl', flagErr fl ((m ++ n) :: v :: args) = flagErr fl' args ∧ parseFlags fl ((m ++ n) :: v :: args) = parseFlags fl' args := by
  unfold TextFlag at ha
  simp only [List.mem_cons, List.not_mem_nil, or_false] at ha
  rcases hm with rfl | rfl <;> rcases ha with rfl | rfl | rfl | rfl | rfl | rfl <;>
    exact ⟨_, by simp [flagErr, splitEq, flagKind, Flags.set, List.span, List.span.loop]; rfl,
      by simp [parseFlags, splitEq, flagKind, Flags.set, List.span, List.span.loop]⟩

theorem err_options {a : List Str} {os : List (Str × Str)} (h : Options a os) (fl : Flags) (b : List Str) :
    ∃ fl', flagErr fl (a ++ b) = flagErr fl' b ∧ parseFlags fl (a ++ b) = parseFlags fl' b := by
  induction h generalizing fl with
  | nil => exact ⟨fl, rfl, rfl⟩
  | eq hm ha _ ih =>
    obtain ⟨fl1, h1, h2⟩ := err_eq fl (_ ++ b) hm ha
    obtain ⟨fl2, h3, h4⟩ := ih fl1
    exact ⟨fl2, h1.trans h3, h2.trans h4⟩
  | on hm ha _ ih =>
    obtain ⟨fl1, h1, h2⟩ := err_on fl (_ ++ b) hm ha
    obtain ⟨fl2, h3, h4⟩ := ih fl1
    exact ⟨fl2, h1.trans h3, h2.trans h4⟩
  | text hm ha _ ih =>
    obtain ⟨fl1, h1, h2⟩ := err_text fl (_ ++ b) hm ha
    obtain ⟨fl2, h3, h4⟩ := ih fl1
    exact ⟨fl2, h1.trans h3, h2.trans h4⟩

theorem span_none (x : UInt8) (r : Str) (h : x ∉ r) : r.span (· ≠ x) = (r, []) := by
  rw [List.span_eq_takeWhile_dropWhile]
  induction r with
  | nil => rfl
  | cons y r ih =>
    rw [List.mem_cons, not_or] at h
    have hy : decide (y ≠ x) = true := by simpa using Ne.symm h.1
    have := ih h.2
    rw [Prod.mk.injEq] at this
    rw [List.takeWhile_cons, List.dropWhile_cons, if_pos hy, if_pos hy, this.1, this.2]

theorem span_some (x : UInt8) (r v : Str) (h : x ∉ r) : (r ++ x :: v).span (· ≠ x) = (r, x :: v) := by
  rw [List.span_eq_takeWhile_dropWhile]
  induction r with
  | nil => simp
  | cons y r ih =>
    rw [List.mem_cons, not_or] at h
    have hy : decide (y ≠ x) = true := by simpa using Ne.symm h.1
    have := ih h.2
    rw [Prod.mk.injEq] at this
    rw [List.cons_append, List.takeWhile_cons, List.dropWhile_cons, if_pos hy, if_pos hy, this.1, this.2]

theorem first_unique (x : UInt8) (a b r t : Str) (ha : x ∉ a) (hb : x ∉ b) (h : a ++ x :: r = b ++ x :: t) : a = b ∧ r = t := by
  have h1 := span_some x a r ha
  have h2 := span_some x b t hb
  rw [h, h2] at h1
  cases h1
  exact ⟨rfl, rfl⟩

theorem splitEq_none (c : UInt8) (r : Str) (h : 61 ∉ r) : splitEq (c :: r) = (c :: r, none) := by
  rw [splitEq, span_none 61 r h]

theorem splitEq_some (c : UInt8) (r v : Str) (h : 61 ∉ r) : splitEq (c :: r ++ 61 :: v) = (c :: r, some v) := by
  rw [List.cons_append, splitEq, span_some 61 r v h]

theorem flagKind_none (n : Str) (h1 : ¬ TextFlag n) (h2 : ¬ OnOff n) : flagKind n = none := by
  cases h : flagKind n with
  | none => rfl
  | some b =>
    cases b
    · exact absurd (flagKind_false n h) h1
    · exact absurd (flagKind_true n h) h2

theorem parseBool_none (v : Str) (h1 : ¬ On v) (h2 : ¬ Off v) : parseBool v = none := by
  cases h : parseBool v with
  | none => rfl
  | some b =>
    cases b
    · exact absurd ((parseBool_iff v).2.mp h) h2
    · exact absurd ((parseBool_iff v).1.mp h) h1

theorem wrong_err (P : Nat → Bool) (fl : Flags) (b : List Str) (x line : Str) (h : WrongArg P b x line) :
    parseFlags fl (x :: b) = .bad ∧ ∃ e, flagErr fl (x :: b) = some e ∧ e.text P = line := by
  cases h with
  | dashes r => exact ⟨by simp [parseFlags], _, by simp [flagErr]; rfl, by simp [FlagErr.text]⟩
  | equals r hm =>
    rcases hm with rfl | rfl
    · exact ⟨by simp [parseFlags], _, by simp [flagErr]; rfl, by simp [FlagErr.text]⟩
    · exact ⟨by simp [parseFlags], _, by simp [flagErr]; rfl, by simp [FlagErr.text]⟩
  | @unknown m n v hm hn h1 h2 hv h3 h4 h5 =>
    obtain ⟨c, r, rfl⟩ := List.exists_cons_of_ne_nil hn
    have hs : ∃ o, splitEq (c :: r ++ v) = (c :: r, o) := by
      rcases hv with rfl | hv
      · exact ⟨_, by rw [List.append_nil]; exact splitEq_none c r (by simp at h2; exact h2.2)⟩
      · cases v with
        | nil => cases hv
        | cons y v =>
          simp only [List.head?_cons, Option.some.injEq] at hv
          subst hv
          exact ⟨_, splitEq_some c r v (by simp at h2; exact h2.2)⟩
    obtain ⟨o, hs⟩ := hs
    have hc1 : c ≠ 45 := by simpa using h1
    have hc2 : ¬ 61 = c := by simp at h2; exact h2.1
    have hc3 : ¬ c = 61 := fun h => hc2 h.symm
    have hk := flagKind_none _ h3 h4
    refine ⟨?_, .undefined (c :: r), ?_, rfl⟩
    · rcases hm with rfl | rfl
      · show parseFlags fl ((45 :: c :: (r ++ v)) :: b) = _
        rw [parseFlags]
        simp only [hc1, false_and, if_false, List.head?_cons, Option.some.injEq, hc3, or_false, reduceCtorEq]
        rw [show c :: (r ++ v) = c :: r ++ v from rfl, hs]
        dsimp only
        rw [hk]
        simp [h5]
      · show parseFlags fl ((45 :: 45 :: c :: (r ++ v)) :: b) = _
        rw [parseFlags]
        simp only [hc1, and_false, if_false, if_true, List.head?_cons, Option.some.injEq, hc3, or_false, reduceCtorEq]
        rw [show c :: (r ++ v) = c :: r ++ v from rfl, hs]
        dsimp only
        rw [hk]
        simp [h5]
    · rcases hm with rfl | rfl
      · show flagErr fl ((45 :: c :: (r ++ v)) :: b) = some (.undefined (c :: r))
        rw [flagErr]
        simp only [hc1, false_and, if_false, List.head?_cons, Option.some.injEq, hc3, or_false, reduceCtorEq]
        rw [show c :: (r ++ v) = c :: r ++ v from rfl, hs]
        dsimp only
        rw [hk]
        simp [h5]
      · show flagErr fl ((45 :: 45 :: c :: (r ++ v)) :: b) = some (.undefined (c :: r))
        rw [flagErr]
        simp only [hc1, and_false, if_false, if_true, List.head?_cons, Option.some.injEq, hc3, or_false, reduceCtorEq]
        rw [show c :: (r ++ v) = c :: r ++ v from rfl, hs]
        dsimp only
        rw [hk]
        simp [h5]
  | @value m n v hm hn h1 h2 =>
    have hb := parseBool_none v h1 h2
    unfold OnOff at hn
    simp only [List.mem_cons, List.not_mem_nil, or_false] at hn
    rcases hm with rfl | rfl <;> rcases hn with rfl | rfl | rfl <;>
      exact ⟨by simp [parseFlags, splitEq, flagKind, Flags.set, hb, List.span, List.span.loop],
        _, by simp [flagErr, splitEq, flagKind, Flags.set, hb, List.span, List.span.loop]; rfl, by simp [FlagErr.text]⟩
  | @lacks m n hm hn hb =>
    subst hb
    unfold TextFlag at hn
    simp only [List.mem_cons, List.not_mem_nil, or_false] at hn
    rcases hm with rfl | rfl <;> rcases hn with rfl | rfl | rfl | rfl | rfl | rfl <;>
      exact ⟨by simp [parseFlags, splitEq, flagKind, List.span, List.span.loop],
        _, by simp [flagErr, splitEq, flagKind, List.span, List.span.loop]; rfl, by simp [FlagErr.text]⟩

theorem wrong_bad (P : Nat → Bool) (args : List Str) (line : Str) (h : Wrong P args line) (fl : Flags) :
    parseFlags fl args = .bad ∧ ∃ e, flagErr fl args = some e ∧ e.text P = line := by
  obtain ⟨a, os, x, b, rfl, ho, hw⟩ := h
  obtain ⟨fl', h1, h2⟩ := err_options ho fl (x :: b)
  obtain ⟨h3, e, h4, h5⟩ := wrong_err P fl' b x line hw
  exact ⟨h2.trans h3, e, h1.trans h4, h5⟩

theorem wrong_append (P : Nat → Bool) {x : List Str} {o : Str × Str} (h : ∀ a os, Options a os → Options (x ++ a) (o :: os))
    {args : List Str} (hl : ∃ line, Wrong P args line) : ∃ line, Wrong P (x ++ args) line := by
  obtain ⟨line, a, os, y, b, rfl, ho, hw⟩ := hl
  exact ⟨line, x ++ a, o :: os, y, b, by simp, h a os ho, hw⟩

theorem splitEq_first (c : UInt8) (r n : Str) (o : Option Str) (h : splitEq (c :: r) = (n, o)) :
    ∃ n', n = c :: n' ∧ 61 ∉ n' := by
  by_cases hr : 61 ∈ r
  · obtain ⟨a, b, rfl, ha⟩ := List.eq_append_cons_of_mem hr
    rw [← List.cons_append, splitEq_some c a b ha] at h
    cases h
    exact ⟨a, rfl, ha⟩
  · rw [splitEq_none c r hr] at h
    cases h
    exact ⟨r, rfl, hr⟩

theorem bad_wrong (P : Nat → Bool) (fl : Flags) (args : List Str) (h : parseFlags fl args = .bad) : ∃ line, Wrong P args line := by
  have one : ∀ x b line, WrongArg P b x line → ∃ line, Wrong P (x :: b) line :=
    fun x b line hw => ⟨line, [], [], x, b, rfl, .nil, hw⟩
  have textSet : ∀ fl n v, TextFlag n → Flags.set fl n v ≠ none := by
    intro fl n v hn
    unfold TextFlag at hn
    simp only [List.mem_cons, List.not_mem_nil, or_false] at hn
    rcases hn with rfl | rfl | rfl | rfl | rfl | rfl <;> simp [Flags.set]
  have onSet : ∀ fl n v, OnOff n → Flags.set fl n v = none → ¬ On v ∧ ¬ Off v := by
    intro fl n v hn h
    have : parseBool v = none := by
      unfold OnOff at hn
      simp only [List.mem_cons, List.not_mem_nil, or_false] at hn
      cases hb : parseBool v with
      | none => rfl
      | some b => rcases hn with rfl | rfl | rfl <;> simp [Flags.set, hb] at h
    refine ⟨fun h => ?_, fun h => ?_⟩
    · rw [(parseBool_iff v).1.mpr h] at this; cases this
    · rw [(parseBool_iff v).2.mpr h] at this; cases this
  fun_induction parseFlags fl args
  case case1 => cases h
  case case2 => cases h
  case case3 fl args c r h1 name h2 =>
    by_cases hc : c = 45
    · subst hc
      cases r with
      | nil => exact absurd ⟨rfl, rfl⟩ h1
      | cons y r =>
        have : y = 45 ∨ y = 61 := by simpa [name] using h2
        rcases this with rfl | rfl
        · exact one _ _ _ (.dashes r)
        · exact one _ _ _ (.equals (m := b!"--") r (.inr rfl))
    · have : c = 61 := by simpa [name, hc] using h2
      subst this
      exact one _ _ _ (.equals (m := b!"-") r (.inl rfl))
  case case4 => cases h
  case case5 fl args c r h1 name h2 n value h3 h4 h5 =>
    have hk1 : ¬ TextFlag n := by
      intro hn
      unfold TextFlag at hn
      simp only [List.mem_cons, List.not_mem_nil, or_false] at hn
      rcases hn with rfl | rfl | rfl | rfl | rfl | rfl <;> simp [flagKind] at h4
    have hk2 : ¬ OnOff n := by
      intro hn
      unfold OnOff at hn
      simp only [List.mem_cons, List.not_mem_nil, or_false] at hn
      rcases hn with rfl | rfl | rfl <;> simp [flagKind] at h4
    obtain ⟨y, z, hyz⟩ : ∃ y z, name = y :: z := by
      cases hn : name with
      | nil => rw [hn] at h2; simp at h2
      | cons y z => exact ⟨y, z, rfl⟩
    have h3' : splitEq (y :: z) = (n, value) := by rw [← hyz]; exact h3
    obtain ⟨n', hn', hq⟩ := splitEq_first y z n value h3'
    have hy1 : y ≠ 45 := fun he => h2 (.inr (.inl (by rw [hyz, he]; rfl)))
    have hy2 : y ≠ 61 := fun he => h2 (.inr (.inr (by rw [hyz, he]; rfl)))
    have hno : 61 ∉ n := by
      rw [hn']
      intro hm
      rcases List.mem_cons.mp hm with hm | hm
      · exact hy2 hm.symm
      · exact hq hm
    obtain ⟨m, hm, ⟨n1, v, he, hs⟩ | ⟨n1, he, hs⟩⟩ := arg_split c r h1 name rfl h2
    · rw [hs] at h3
      cases h3
      rw [he, List.append_assoc]
      exact one _ _ _ (.unknown hm (by rw [hn']; simp) (by rw [hn']; simpa using hy1) hno (.inr rfl) hk1 hk2 h5)
    · rw [hs] at h3
      cases h3
      rw [he, ← List.append_nil (m ++ _)]
      exact one _ _ _ (.unknown hm (by rw [hn']; simp) (by rw [hn']; simpa using hy1) hno (.inl rfl) hk1 hk2 h5)
  case case6 fl args c r h1 name h2 n value h3 h4 h5 =>
    have hk := flagKind_true n h4
    obtain ⟨m, hm, ⟨n1, v, he, hs⟩ | ⟨n1, he, hs⟩⟩ := arg_split c r h1 name rfl h2
    · rw [hs] at h3
      cases h3
      rw [he]
      obtain ⟨g1, g2⟩ := onSet _ _ _ hk h5
      exact one _ _ _ (.value hm hk g1 g2)
    · rw [hs] at h3
      cases h3
      exact absurd (show b!"true" ∈ _ by decide) (onSet _ _ _ hk h5).1
  case case7 fl args c r h1 name h2 n value h3 h4 fl' h5 ih =>
    have hk := flagKind_true n h4
    have : ∃ o, ∀ a os, Options a os → Options ([45 :: c :: r] ++ a) (o :: os) := by
      obtain ⟨m, hm, ⟨n', v, he, hs⟩ | ⟨n', he, hs⟩⟩ := arg_split c r h1 name rfl h2
      · rw [hs] at h3
        cases h3
        rw [he]
        exact ⟨_, fun a os ho => .eq hm (.inr ⟨hk, set_onOff _ _ _ _ hk h5⟩) ho⟩
      · rw [hs] at h3
        cases h3
        rw [he]
        exact ⟨_, fun a os ho => .on hm hk ho⟩
    obtain ⟨o, ho⟩ := this
    exact wrong_append P ho (ih h)
  case case8 fl args c r h1 name h2 n h4 v h5 h3 => exact absurd h5 (textSet _ _ _ (flagKind_false n h4))
  case case9 fl args c r h1 name h2 n h4 v fl' h5 h3 ih =>
    have hk := flagKind_false n h4
    have : ∃ o, ∀ a os, Options a os → Options ([45 :: c :: r] ++ a) (o :: os) := by
      obtain ⟨m, hm, ⟨n', v, he, hs⟩ | ⟨n', he, hs⟩⟩ := arg_split c r h1 name rfl h2
      · rw [hs] at h3
        cases h3
        rw [he]
        exact ⟨_, fun a os ho => .eq hm (.inl hk) ho⟩
      · rw [hs] at h3
        cases h3
    obtain ⟨o, ho⟩ := this
    exact wrong_append P ho (ih h)
  case case10 fl c r h1 name h2 n h4 h3 =>
    have hk := flagKind_false n h4
    obtain ⟨m, hm, ⟨n1, v, he, hs⟩ | ⟨n1, he, hs⟩⟩ := arg_split c r h1 name rfl h2
    · rw [hs] at h3
      cases h3
    · rw [hs] at h3
      cases h3
      rw [he]
      exact one _ _ _ (.lacks hm hk rfl)
  case case11 fl c r h1 name h2 n h4 v args h5 h3 => exact absurd h5 (textSet _ _ _ (flagKind_false n h4))
  case case12 fl c r h1 name h2 n h4 v args fl' h5 h3 ih =>
    have hk := flagKind_false n h4
    have : ∃ o, ∀ a os, Options a os → Options ([45 :: c :: r, v] ++ a) (o :: os) := by
      obtain ⟨m, hm, ⟨n', v, he, hs⟩ | ⟨n', he, hs⟩⟩ := arg_split c r h1 name rfl h2
      · rw [hs] at h3
        cases h3
      · rw [hs] at h3
        cases h3
        rw [he]
        exact ⟨_, fun a os ho => .text hm hk ho⟩
    obtain ⟨o, ho⟩ := this
    exact wrong_append P ho (ih h)
  case case13 => cases h

/-- **C99**: every command line is exactly one of these: it gives flags, it asks for help, or an argument is wrong; and what is said about
the wrong argument is determined. -/
theorem C99_kinds (P : Nat → Bool) (args : List Str) :
    ((∃ os, Line args os) ∧ ¬ AsksHelp args ∧ (¬ ∃ line, Wrong P args line) ∨
      (¬ ∃ os, Line args os) ∧ AsksHelp args ∧ (¬ ∃ line, Wrong P args line) ∨
      (¬ ∃ os, Line args os) ∧ ¬ AsksHelp args ∧ ∃ line, Wrong P args line) ∧
    ∀ line line', Wrong P args line → Wrong P args line' → line = line' := by
  have e1 : (∃ os, Line args os) → ∃ fl, parseFlags {} args = .ok fl := fun ⟨os, h⟩ => by
    obtain ⟨fl, -, h⟩ := parse_line h {}
    exact ⟨fl, h⟩
  have e2 : AsksHelp args → parseFlags {} args = .help := fun h => parse_help h {}
  have e3 : (∃ line, Wrong P args line) → parseFlags {} args = .bad := fun ⟨line, h⟩ => (wrong_bad P args line h {}).1
  constructor
  · cases h : parseFlags {} args with
    | ok fl =>
      rw [h] at e2 e3
      exact .inl ⟨(parse_sound {} args).1 fl h, fun h => (nomatch e2 h), fun h => (nomatch e3 h)⟩
    | help =>
      rw [h] at e1 e3
      exact .inr (.inl ⟨fun h => (nomatch e1 h), (parse_sound {} args).2 h, fun h => (nomatch e3 h)⟩)
    | bad =>
      rw [h] at e1 e2
      exact .inr (.inr ⟨fun h => (nomatch e1 h), fun h => (nomatch e2 h), bad_wrong P {} args h⟩)
  · intro line line' h h'
    obtain ⟨-, e, h1, h2⟩ := wrong_bad P args line h {}
    obtain ⟨-, e', h1', h2'⟩ := wrong_bad P args line' h' {}
    rw [h1] at h1'
    cases h1'
    exact h2.symm.trans h2'

/-! ## The usage -/

theorem names_iff (f : FlagDef) (name text : Str) :
    Names f.usage f.kind name text ↔ f.unquote = (name, text) := by
  unfold FlagDef.unquote
  generalize f.kind = kind
  generalize f.usage = usage
  by_cases h1 : 96 ∈ usage
  · obtain ⟨a, r, rfl, ha⟩ := List.eq_append_cons_of_mem h1
    rw [span_some 96 a r ha]
    dsimp only
    by_cases h2 : 96 ∈ r
    · obtain ⟨b, c, rfl, hb⟩ := List.eq_append_cons_of_mem h2
      rw [span_some 96 b c hb]
      dsimp only
      rw [Prod.mk.injEq]
      constructor
      · rintro (⟨a', c', ha', hn, he, rfl⟩ | ⟨hno, -⟩)
        · simp only [List.append_assoc, List.cons_append, List.nil_append] at he
          obtain ⟨e1, e2⟩ := first_unique 96 a a' _ _ ha ha' he
          obtain ⟨e3, e4⟩ := first_unique 96 b name _ _ hb hn e2
          subst e1 e3 e4
          exact ⟨rfl, rfl⟩
        · exact absurd (by simp) (hno a b c)
      · rintro ⟨rfl, rfl⟩
        exact .inl ⟨a, c, ha, hb, by simp, rfl⟩
    · rw [span_none 96 r h2]
      dsimp only
      rw [Prod.mk.injEq]
      constructor
      · rintro (⟨a', c', ha', hn, he, rfl⟩ | ⟨-, rfl, rfl⟩)
        · simp only [List.append_assoc, List.cons_append, List.nil_append] at he
          obtain ⟨e1, e2⟩ := first_unique 96 a a' _ _ ha ha' he
          exact absurd (by rw [e2]; simp) h2
        · exact ⟨rfl, rfl⟩
      · rintro ⟨rfl, rfl⟩
        refine .inr ⟨fun a' b c he => ?_, rfl, rfl⟩
        have hcount := congrArg (List.count 96) he
        simp only [List.count_append, List.count_cons, List.count_nil, List.count_eq_zero_of_not_mem ha, List.count_eq_zero_of_not_mem h2] at hcount
        simp at hcount
        omega
  · rw [span_none 96 usage h1]
    dsimp only
    rw [Prod.mk.injEq]
    constructor
    · rintro (⟨a', c', ha', hn, rfl, rfl⟩ | ⟨-, rfl, rfl⟩)
      · simp at h1
      · exact ⟨rfl, rfl⟩
    · rintro ⟨rfl, rfl⟩
      refine .inr ⟨fun a' b c he => h1 (by rw [he]; simp), rfl, rfl⟩

theorem indent_line (s : Str) (h : 10 ∉ s) : indent s = s := by
  induction s with
  | nil => rfl
  | cons c s ih =>
    rw [List.mem_cons, not_or] at h
    show (if c = 10 then _ else [c]) ++ indent s = _
    rw [if_neg (Ne.symm h.1), ih h.2]
    rfl

theorem indent_append (s t : Str) : indent (s ++ t) = indent s ++ indent t := by
  unfold indent
  rw [List.flatMap_append]

theorem indented_iff (text s : Str) : Indented text s ↔ s = indent text := by
  constructor
  · rintro ⟨first, rest, rfl, h1, h2, rfl⟩
    rw [indent_append, indent_line first h1]
    congr 1
    induction rest with
    | nil => rfl
    | cons l rest ih =>
      rw [List.flatMap_cons, List.flatMap_cons, indent_append, indent_append, indent_line l (h2 l (by simp)), ih fun l hl => h2 l (by simp [hl])]
      rfl
  · rintro rfl
    suffices h : ∃ (first : Str) (rest : List Str), text = first ++ rest.flatMap (b!"\n" ++ ·) ∧ 10 ∉ first ∧ ∀ l ∈ rest, 10 ∉ l by
      obtain ⟨first, rest, rfl, h1, h2⟩ := h
      refine ⟨first, rest, rfl, h1, h2, ?_⟩
      rw [indent_append, indent_line first h1]
      congr 1
      induction rest with
      | nil => rfl
      | cons l rest ih =>
        rw [List.flatMap_cons, List.flatMap_cons, indent_append, indent_append, indent_line l (h2 l (by simp)), ih fun l hl => h2 l (by simp [hl])]
        rfl
    induction text with
    | nil => exact ⟨[], [], rfl, by simp, by simp⟩
    | cons c text ih =>
      obtain ⟨first, rest, rfl, h1, h2⟩ := ih
      by_cases hc : c = 10
      · subst hc
        exact ⟨[], first :: rest, rfl, by simp, by simp; exact ⟨h1, h2⟩⟩
      · exact ⟨c :: first, rest, rfl, by simp [h1, Ne.symm hc], h2⟩

theorem help_iff (P : Nat → Bool) (f : FlagDef) (hn : f.name ≠ []) (kind dflt s : Str)
    (hk : kind = f.kind)
    (hd : dflt = match f.dflt with | none => [] | some v => if v = [] then [] else b!" (default " ++ Quote.quote P v ++ b!")") :
    FlagHelp f.name f.usage kind dflt s ↔ s = f.print P := by
  have hp : f.print P = b!"  -" ++ f.name ++ (if f.unquote.1 = [] then [] else b!" " ++ f.unquote.1) ++
      (if f.name.length = 1 ∧ f.unquote.1 = [] then b!"\t" else b!"\n    \t") ++ indent f.unquote.2 ++ dflt ++ b!"\n" := by
    rw [hd]
    unfold FlagDef.print
    cases hu : f.unquote with
    | mk name usage =>
      have hl : 0 < f.name.length := List.length_pos_iff.mpr hn
      have hl2 : (if 0 < name.length then b!"  -" ++ f.name ++ b!" " ++ name else b!"  -" ++ f.name) =
          b!"  -" ++ f.name ++ (if name = [] then [] else b!" " ++ name) := by
        cases name <;> simp
      have hl3 : (b!"  -" ++ f.name ++ (if name = [] then [] else b!" " ++ name)).length ≤ 4 ↔ f.name.length = 1 ∧ name = [] := by
        cases name with
        | nil => simp; omega
        | cons x y => simp; omega
      dsimp only
      rw [hl2]
      simp only [hl3]
      cases f.dflt with
      | none => dsimp only; split <;> simp
      | some v => dsimp only; split <;> split <;> simp
  rw [hp]
  subst hk
  constructor
  · rintro ⟨name, text, u, h1, h2, rfl⟩
    rw [names_iff] at h1
    rw [indented_iff] at h2
    rw [h1, h2]
  · rintro rfl
    exact ⟨_, _, _, (names_iff f _ _).mpr rfl, (indented_iff _ _).mpr rfl, rfl⟩

/-- The message for the headline. -/
def headlineMsg : Str := b!"Usage of %s:\nxtemplate -i input-pattern -k keywords [-f functions] [-o output]\n"

/-- **C99**: the usage: the headline with the name of the command, and the flags in the order of the alphabet, each with the name for what
is given to it, its usage, indented, and its default. -/
theorem C99_usage (L : Lang) (hs : ShowsTexts L.fmt) (headline : Phrase) (hh : Translates L.tr headlineMsg headline [b!"%s"])
    (P : Nat → Bool) (h123 : P 123 = true) (h125 : P 125 = true) (arg0 s : Str) :
    Usage L.tr headline arg0 s ↔ s = L.usage P arg0 := by
  have hq1 : Quote.quote P b!"{{" = b!"\"{{\"" := by simp [Quote.quote, Quote.quoteLoop, Quote.escRune, h123, Utf8.encode, Utf8.runeError]
  have hq2 : Quote.quote P b!"}}" = b!"\"}}\"" := by simp [Quote.quote, Quote.quoteLoop, Quote.escRune, h125, Utf8.encode, Utf8.runeError]
  have hl : Fmt.sprintf L.fmt (L.tr headlineMsg) [arg0] = headline.filled [arg0] := by
    rw [translated_sprintf' L.fmt hh (by simp [Dir]) [arg0] rfl]
    simp [dirShows, hs.2.1]
  unfold Usage Lang.usage
  rw [show L.tr b!"Usage of %s:\nxtemplate -i input-pattern -k keywords [-f functions] [-o output]\n" = L.tr headlineMsg from rfl, hl]
  have a1 := fun s => help_iff P { name := b!"d", usage := L.tr b!"debug mode", dflt := none } (by simp) [] [] s rfl rfl
  have a2 := fun s => help_iff P { name := b!"f", usage := L.tr b!"function names of template", dflt := some [] } (by simp) b!"string" [] s rfl rfl
  have a3 := fun s => help_iff P { name := b!"h", usage := L.tr b!"show help message", dflt := none } (by simp) [] [] s rfl rfl
  have a4 := fun s => help_iff P { name := b!"i", usage := L.tr b!"input file pattern", dflt := some [] } (by simp) b!"string" [] s rfl rfl
  have a5 := fun s => help_iff P { name := b!"k", usage := L.tr b!"keywords e.g.: gettext;T:1;N:1,2;X:1c,2;XN:1c,2,3", dflt := some [] }
    (by simp) b!"string" [] s rfl rfl
  have a6 := fun s => help_iff P { name := b!"left", usage := L.tr b!"left delim", dflt := some b!"{{" } (by simp) b!"string"
    b!" (default \"{{\")" s rfl (by simp [hq1])
  have a7 := fun s => help_iff P { name := b!"o", usage := L.tr b!"output file, - is stdout", dflt := some [] } (by simp) b!"string" [] s rfl rfl
  have a8 := fun s => help_iff P { name := b!"right", usage := L.tr b!"right delim", dflt := some b!"}}" } (by simp) b!"string"
    b!" (default \"}}\")" s rfl (by simp [hq2])
  have a9 := fun s => help_iff P { name := b!"v", usage := L.tr b!"show version", dflt := none } (by simp) [] [] s rfl rfl
  dsimp only at a1 a2 a3 a4 a5 a6 a7 a8 a9
  simp only [a1, a2, a3, a4, a5, a6, a7, a8, a9, Lang.flags, List.flatMap_cons, List.flatMap_nil, List.append_nil]
  constructor
  · rintro ⟨d, f, h, i, k, left, o, right, v, rfl, rfl, rfl, rfl, rfl, rfl, rfl, rfl, rfl, rfl⟩
    simp only [List.append_assoc]
  · rintro rfl
    exact ⟨_, _, _, _, _, _, _, _, _, rfl, rfl, rfl, rfl, rfl, rfl, rfl, rfl, rfl, by simp only [List.append_assoc]⟩

/-! ## The command -/

theorem bad_err (args : List Str) (h : parseFlags {} args = .bad) : ∃ e, flagErr {} args = some e := by
  obtain ⟨line, hw⟩ := bad_wrong (fun _ => true) {} args h
  obtain ⟨-, e, he, -⟩ := wrong_bad _ _ _ hw {}
  exact ⟨e, he⟩

/-- **C99**: status and disk are those of C65. -/
theorem C99_refines (E : Env) (version trace : Str) (L : Lang) (arg0 : Str) (args : List Str) (d : Disk) (r : Nat × Disk) :
    (∃ err, MainErr E version trace L arg0 args d r err) ↔ Main E version trace args d r := by
  constructor
  · rintro ⟨err, h⟩
    cases h with
    | errHelp h => exact .errHelp h
    | bad h => exact .bad h
    | version h1 h2 => exact .version h1 h2
    | help h1 h2 h3 => exact .help h1 h2 h3
    | missing h1 h2 h3 h4 => exact .missing h1 h2 h3 h4
    | run h1 h2 h3 h4 h5 h6 => exact .run h1 h2 h3 h4 (h5 ▸ h6)
  · intro h
    cases h with
    | errHelp h => exact ⟨_, .errHelp h⟩
    | bad h =>
      obtain ⟨e, he⟩ := bad_err args h
      exact ⟨_, .bad h he⟩
    | version h1 h2 => exact ⟨_, .version h1 h2⟩
    | help h1 h2 h3 => exact ⟨_, .help h1 h2 h3⟩
    | missing h1 h2 h3 h4 => exact ⟨_, .missing h1 h2 h3 h4⟩
    | run h1 h2 h3 h4 h5 => exact ⟨_, .run h1 h2 h3 h4 rfl h5⟩

/-- **C99**: what the command writes to stderr, for every command line.  For what a run writes see C97. -/
theorem C99_stderr (E : Env) (h123 : E.isPrint 123 = true) (h125 : E.isPrint 125 = true) (version trace : Str) (L : Lang)
    (hs : ShowsTexts L.fmt) (headline : Phrase) (hh : Translates L.tr headlineMsg headline [b!"%s"]) (arg0 : Str) (args : List Str)
    (d d' : Disk) (code : Nat) (err : Str) (h : MainErr E version trace L arg0 args d (code, d') err) :
    (∀ line, Wrong E.isPrint args line → ∃ u, Usage L.tr headline arg0 u ∧ err = line ++ b!"\n" ++ u) ∧
    (AsksHelp args → Usage L.tr headline arg0 err) ∧
    ∀ os, Line args os →
      (IsOn os b!"v" → err = []) ∧
      (¬ IsOn os b!"v" → IsOn os b!"h" → Usage L.tr headline arg0 err) ∧
      (¬ IsOn os b!"v" → ¬ IsOn os b!"h" → ∀ p, Parameters os p →
        (GoStr.White p.input ∨ GoStr.White p.keyword →
          ∃ u, Usage L.tr headline arg0 u ∧ err = u ++ L.tr b!"flags -i and -k are required" ++ b!"\n") ∧
        (¬ (GoStr.White p.input ∨ GoStr.White p.keyword) → ∃ debug d0 o, (debug = true ↔ IsOn os b!"d") ∧
          (IsOn os b!"d" → Printed d (b!"run param=" ++ trace) d0) ∧ (¬ IsOn os b!"d" → d0 = d) ∧
          Run E p d0 o ∧ Ended o code d' ∧ err = L.stderr E p debug d0 o)) := by
  have hu := C99_usage L hs headline hh E.isPrint h123 h125 arg0
  generalize hr : (code, d') = r at h
  refine ⟨fun line hw => ?_, fun hh => ?_, fun os hl => ?_⟩
  · obtain ⟨hb, e, he, ht⟩ := wrong_bad _ _ _ hw {}
    cases h with
    | bad h1 h2 =>
      rw [he] at h2
      cases h2
      exact ⟨_, (hu _).mpr rfl, by rw [ht]⟩
    | errHelp h1 => rw [hb] at h1; cases h1
    | version h1 => rw [hb] at h1; cases h1
    | help h1 => rw [hb] at h1; cases h1
    | missing h1 => rw [hb] at h1; cases h1
    | run h1 => rw [hb] at h1; cases h1
  · have hb := parse_help hh {}
    cases h with
    | bad h1 => rw [hb] at h1; cases h1
    | errHelp h1 => exact (hu _).mpr rfl
    | version h1 => rw [hb] at h1; cases h1
    | help h1 => rw [hb] at h1; cases h1
    | missing h1 => rw [hb] at h1; cases h1
    | run h1 => rw [hb] at h1; cases h1
  · obtain ⟨fl, hp, hR⟩ := line_reads hl
    rw [← hR.version, ← hR.help]
    have hpar : ∀ p, Parameters os p → p = fl.param := fun p h => parameters_unique h hR.param
    cases h with
    | errHelp hp' => rw [hp] at hp'; cases hp'
    | bad hp' => rw [hp] at hp'; cases hp'
    | version hp' hv =>
      rw [hp] at hp'; cases hp'
      exact ⟨fun _ => rfl, fun h => absurd hv h, fun h => absurd hv h⟩
    | help hp' hv hh =>
      rw [hp] at hp'; cases hp'
      exact ⟨fun h => by simp [hv] at h, fun _ _ => (hu _).mpr rfl, fun _ h => absurd hh h⟩
    | missing hp' hv hh hm =>
      rw [hp] at hp'; cases hp'
      refine ⟨fun h => by simp [hv] at h, fun _ h => by simp [hh] at h, fun _ _ p hP => ?_⟩
      obtain rfl := hpar p hP
      rw [trim_white, trim_white] at hm
      exact ⟨fun _ => ⟨_, (hu _).mpr rfl, rfl⟩, fun h => absurd hm h⟩
    | run hp' hv hh hm h0 ho =>
      rw [hp] at hp'; cases hp'
      refine ⟨fun h => by simp [hv] at h, fun _ h => by simp [hh] at h, fun _ _ p hP => ?_⟩
      obtain rfl := hpar p hP
      rw [trim_white, trim_white] at hm
      subst h0
      refine ⟨fun h => absurd h hm, fun _ => ⟨fl.debug, _, _, hR.debug, ?_, ?_, ho, (exit_iff _ _ _).mp hr.symm, rfl⟩⟩
      · intro hd
        rw [if_pos (hR.debug.mpr hd)]
        exact ⟨rfl, rfl⟩
      · intro hd
        rw [if_neg (mt hR.debug.mp hd)]

/-- **C99**: the headline is a phrase both as it is in the code and in Chinese. -/
theorem C99_headline :
    Translates (fun m => m) headlineMsg
      ⟨b!"Usage of ", [(b!"%s", b!":\nxtemplate -i input-pattern -k keywords [-f functions] [-o output]\n")]⟩ [b!"%s"] ∧
    Translates inChinese headlineMsg
      ⟨[], [(b!"%s", b!" 的用法：\nxtemplate -i 输入文件 -k 关键字 [-f 模版中函数] [-o 输出文件]\n")]⟩ [b!"%s"] :=
  ⟨⟨by decide +kernel, rfl, by decide, by simp⟩, ⟨by decide +kernel, rfl, by decide, by simp⟩⟩

/-! ## Examples -/

example : Wrong (fun _ => true) [b!"-i", b!"-x", b!"-d=yes", b!"-k"] b!"invalid boolean value \"yes\" for -d: parse error" :=
  ⟨[b!"-i", b!"-x"], _, b!"-d=yes", [b!"-k"], rfl, .text (m := b!"-") (n := b!"i") (.inl rfl) (by simp [TextFlag]) .nil, by
    have := WrongArg.value (P := fun _ => true) (rest := [b!"-k"]) (m := b!"-") (n := b!"d") (v := b!"yes") (.inl rfl) (by simp [OnOff])
      (by simp [On]) (by simp [Off])
    rw [show Quote.quote (fun _ => true) b!"yes" = b!"\"yes\"" by decide +kernel] at this
    exact this⟩

example : Wrong (fun _ => true) [b!"-v", b!"--version=1"] b!"flag provided but not defined: -version" :=
  ⟨[b!"-v"], _, b!"--version=1", [], rfl, .on (m := b!"-") (n := b!"v") (.inl rfl) (by simp [OnOff]) .nil,
    .unknown (m := b!"--") (n := b!"version") (v := b!"=1") (.inr rfl) (by simp) (by simp) (by decide) (.inr rfl) (by simp [TextFlag])
      (by simp [OnOff]) (by simp)⟩

example : Wrong (fun _ => true) [b!"-k"] b!"flag needs an argument: -k" :=
  ⟨[], _, b!"-k", [], rfl, .nil, .lacks (m := b!"-") (n := b!"k") (.inl rfl) (by simp [TextFlag]) rfl⟩

example : Wrong (fun _ => true) [b!"--=x"] b!"bad flag syntax: --=x" :=
  ⟨[], _, b!"--=x", [], rfl, .nil, .equals (m := b!"--") b!"x" (.inr rfl)⟩

/-- The usage in Chinese. -/
example : { errLang with tr := inChinese }.usage (fun _ => true) b!"xt" =
    b!"xt 的用法：\nxtemplate -i 输入文件 -k 关键字 [-f 模版中函数] [-o 输出文件]\n" ++
    b!"  -d\tdebug 模式\n" ++
    b!"  -f string\n    \t模板中用到的函数名\n" ++
    b!"  -h\t显示帮助信息\n" ++
    b!"  -i string\n    \t输入文件\n" ++
    b!"  -k string\n    \t关键字，例： gettext;T:1;N:1,2;X:1c,2;XN:1c,2,3\n" ++
    b!"  -left string\n    \t左分隔符 (default \"{{\")\n" ++
    b!"  -o string\n    \t输出文件，- 表示标准输出\n" ++
    b!"  -right string\n    \t右分隔符 (default \"}}\")\n" ++
    b!"  -v\t显示版本号\n" := by decide +kernel

/-- A translation that names what is given to a flag. -/
example : FlagHelp b!"o" b!"write to `file`,\n- is stdout" b!"string" [] b!"  -o file\n    \twrite to file,\n    \t- is stdout\n" :=
  ⟨b!"file", _, _, .inl ⟨b!"write to ", b!",\n- is stdout", by decide, by decide, rfl, rfl⟩,
    ⟨b!"write to file,", [b!"- is stdout"], rfl, by decide, by simp, rfl⟩, rfl⟩

end Verif.Xt
