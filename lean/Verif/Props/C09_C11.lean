import Verif.Lemmas.Fmt
/-! # C09, C10, C11: `f.Format` and `f.DefaultPlural` -/
namespace Verif.Fmt
set_option linter.unusedSimpArgs false

/-- C09: without arguments the format string is returned unchanged, verbs or not. -/
theorem C09_no_args {α : Type} (E : Env α) (s : Str) : format E s [] = s := by
  simp [format]

theorem natDigits_byte (d : Nat) (hd : d < 10) :
    digitByte (UInt8.ofNat (48 + d)) = true ∧ (UInt8.ofNat (48 + d)).toNat - 48 = d ∧
    UInt8.ofNat (48 + d) ≠ 93 := by
  have : ∀ d : Fin 10, digitByte (UInt8.ofNat (48 + d.val)) = true ∧
    (UInt8.ofNat (48 + d.val)).toNat - 48 = d.val ∧ UInt8.ofNat (48 + d.val) ≠ 93 := by decide
  exact this ⟨d, hd⟩

theorem digitsAux_spec (f n : Nat) (h : n < f) :
    Num.digitsAux f n ≠ [] ∧ (Num.digitsAux f n).all digitByte = true ∧
    decVal (Num.digitsAux f n) = n ∧ 93 ∉ Num.digitsAux f n := by
  induction f generalizing n with
  | zero => omega
  | succ f ih =>
    simp only [Num.digitsAux]
    split
    · rename_i hlt
      obtain ⟨h1, h2, h3⟩ := natDigits_byte n hlt
      generalize UInt8.ofNat (48 + n) = c at *
      refine ⟨by simp, by simp [h1], by simp [decVal, h2], by simpa using fun h => h3 h.symm⟩
    · rename_i hge
      obtain ⟨i1, i2, i3, i4⟩ := ih (n / 10) (by omega)
      obtain ⟨h1, h2, h3⟩ := natDigits_byte (n % 10) (by omega)
      generalize UInt8.ofNat (48 + n % 10) = c at *
      refine ⟨by simp, by simp [i2, h1], ?_, by simpa [i4] using fun h => h3 h.symm⟩
      simp only [decVal, List.foldl_append, List.foldl_cons, List.foldl_nil] at i3 ⊢
      rw [i3, h2]; omega

theorem natDigits_spec (n : Nat) :
    Num.natDigits n ≠ [] ∧ (Num.natDigits n).all digitByte = true ∧
    decVal (Num.natDigits n) = n ∧ 93 ∉ Num.natDigits n :=
  digitsAux_spec (n + 1) n (by omega)

theorem splitClose_digits (ds r : Str) (h : 93 ∉ ds) : splitClose (ds ++ 93 :: r) = some (ds, r) := by
  induction ds with
  | nil => simp [splitClose]
  | cons d ds ih =>
    simp at h
    simp [splitClose, Ne.symm h.1, ih h.2]

theorem parsenum_all (ds : Str) (n : Nat) (b : Bool) (hd : ds.all digitByte = true) (hne : ds ≠ []) :
    parsenum n b ds =
      if ds.dropLast.foldl (fun n c => n * 10 + (c.toNat - 48)) n ≤ 1000000 then
        (some (ds.foldl (fun n c => n * 10 + (c.toNat - 48)) n), [])
      else (none, []) := by
  have grow : ∀ (l : Str) (n : Nat), n ≤ l.foldl (fun n c => n * 10 + (c.toNat - 48)) n := by
    intro l
    induction l with
    | nil => intro n; exact Nat.le_refl n
    | cons c l ih =>
      intro n
      simp only [List.foldl_cons]
      exact Nat.le_trans (by omega) (ih _)
  induction ds generalizing n b with
  | nil => exact absurd rfl hne
  | cons c ds ih =>
    simp only [List.all_cons, Bool.and_eq_true] at hd
    have hc : Num.isDigit c = true := hd.1
    rw [parsenum, if_pos hc]
    cases ds with
    | nil =>
      by_cases h : 1000000 < n
      · rw [if_pos h, if_neg (by simpa using h)]
      · rw [if_neg h, if_pos (by simpa using h)]; rfl
    | cons d ds =>
      by_cases h : 1000000 < n
      · rw [if_pos h, if_neg]
        have := grow (c :: d :: ds).dropLast n
        omega
      · rw [if_neg h, ih _ _ hd.2 (by simp)]
        rfl

theorem natDigits_dropLast (n : Nat) : decVal (Num.natDigits n).dropLast = n / 10 := by
  unfold Num.natDigits
  rw [Num.digitsAux]
  split
  · rename_i h; simp [decVal]; omega
  · rename_i h
    rw [List.dropLast_concat]
    exact (digitsAux_spec n (n / 10) (by omega)).2.2.1

/-- Numbers are read back up to 10000009. -/
theorem parsenum_natDigits (n : Nat) : parsenum 0 false (Num.natDigits n) =
    if n < 10000010 then (some n, []) else (none, []) := by
  obtain ⟨h1, h2, h3, h4⟩ := natDigits_spec n
  rw [parsenum_all _ _ _ h2 h1]
  have hd := natDigits_dropLast n
  rw [decVal] at h3 hd
  rw [h3, hd]
  by_cases h : n < 10000010
  · rw [if_pos h, if_pos (by omega)]
  · rw [if_neg h, if_neg (by omega)]

/-- With too many arguments the directive that `Format` appends is a bad index. -/
theorem directive_tail_many {α : Type} (E : Env α) (args : List α) (st : St) (m : Nat) (hm : 10000010 ≤ m) :
    ∃ st', st'.reordered = true ∧
      directive E args st (91 :: (Num.natDigits m ++ [93, 115])) = ([.badIndex [115]], st', []) := by
  obtain ⟨h1, h2, h3, h4⟩ := natDigits_spec m
  have hp := parsenum_natDigits m
  rw [if_neg (by omega)] at hp
  have hsplit := splitClose_digits (Num.natDigits m) [115] h4
  have hl : ¬ (Num.natDigits m ++ [93, 115]).length < 2 := by simp
  have hn : argNumber args.length { st with good := true } (91 :: (Num.natDigits m ++ [93, 115])) =
      ({ st with reordered := true, good := false, after := false, inRange := false }, [115]) := by
    simp only [argNumber, parseArgNumber, if_neg hl, hsplit, hp]
  have hf : flagsLoop {} (91 :: (Num.natDigits m ++ [93, 115])) =
      ({}, 91 :: (Num.natDigits m ++ [93, 115])) := by simp [flagsLoop]
  refine ⟨{ st with reordered := true, good := false, after := false, inRange := false }, rfl, ?_⟩
  simp only [directive, hf, hn]
  simp [widthPart, precPart, parsenum, Num.isDigit, verbPart, Utf8.decode, Utf8.encode, argNumber]

/-- The directive that `Format` appends prints the appended argument and nothing else. -/
theorem directive_tail {α : Type} (E : Env α) (args : List α) (e : α) (st : St)
    (hlen : args.length < 10000009) :
    directive E (args ++ [e]) st (91 :: (Num.natDigits (args.length + 1) ++ [93, 115])) =
      ([.arg {} [115] e],
        { st with argNum := args.length + 1, reordered := true, good := true, after := true }, []) := by
  obtain ⟨h1, h2, h3, h4⟩ := natDigits_spec (args.length + 1)
  have hp : parsenum 0 false (Num.natDigits (args.length + 1)) = (some (args.length + 1), []) := by
    rw [parsenum_natDigits, if_pos (by omega)]
  have hsplit := splitClose_digits (Num.natDigits (args.length + 1)) [115] h4
  have hl : ¬ (Num.natDigits (args.length + 1) ++ [93, 115]).length < 2 := by simp
  have hn : argNumber (args ++ [e]).length { st with good := true }
      (91 :: (Num.natDigits (args.length + 1) ++ [93, 115])) =
      ({ st with argNum := args.length, reordered := true, good := true, after := true }, [115]) := by
    simp only [argNumber, parseArgNumber, if_neg hl, hsplit, hp]
    simp
  have hf : flagsLoop {} (91 :: (Num.natDigits (args.length + 1) ++ [93, 115])) =
      ({}, 91 :: (Num.natDigits (args.length + 1) ++ [93, 115])) := by simp [flagsLoop]
  simp only [directive, hf, hn]
  simp [widthPart, precPart, parsenum, Num.isDigit, verbPart, Utf8.decode, Utf8.encode]

theorem format_run {α : Type} (E : Env α) (s : Str) (args : List α) (hs : Closed s)
    (hargs : args ≠ []) (hlen : args.length < 10000009)
    (hempty : E.render {} [115] E.empty = []) :
    format E s args = (pieces E s (args ++ [E.empty])).1.flatMap (Piece.text E) := by
  obtain ⟨p, st', k, hk, hh⟩ := run_append E (args ++ [E.empty]) s hs st0
  have hl : args.length ≠ 0 := by simpa using hargs
  have hx := hh (37 :: 91 :: (Num.natDigits (args.length + 1) ++ [93, 115])) (Or.inr ⟨_, rfl⟩)
  have h0 := hh [] (Or.inl rfl)
  have e1 : pieces E s (args ++ [E.empty]) = (p, st') := by
    have := h0 (s.length + 1 - k)
    rw [show k + (s.length + 1 - k) = s.length + 1 by omega] at this
    rw [pieces, ← List.append_nil s, List.append_nil s]
    rw [List.append_nil] at this
    rw [this, show s.length + 1 - k = (s.length - k) + 1 by omega]
    simp [run]
  have e2 : ∃ st2, st2.reordered = true ∧
      pieces E (s ++ 37 :: 91 :: (Num.natDigits (args.length + 1) ++ [93, 115])) (args ++ [E.empty])
        = (p ++ [.arg {} [115] E.empty], st2) := by
    obtain ⟨m, hm⟩ : ∃ m, (s ++ 37 :: 91 :: (Num.natDigits (args.length + 1) ++ [93, 115])).length + 1
        = k + (m + 2) := by
      refine ⟨(s ++ 37 :: 91 :: (Num.natDigits (args.length + 1) ++ [93, 115])).length + 1 - k - 2, ?_⟩
      simp; omega
    rw [pieces, hm, hx (m + 2)]
    simp only [run, if_true, directive_tail E args E.empty st' hlen]
    exact ⟨{ st' with argNum := args.length + 1, reordered := true, good := true, after := true },
      rfl, by simp⟩
  obtain ⟨st2, hr, e2⟩ := e2
  have hstr : s ++ b!"%[" ++ Num.natDigits (args.length + 1) ++ b!"]s" =
      s ++ 37 :: 91 :: (Num.natDigits (args.length + 1) ++ [93, 115]) := by simp
  rw [format, if_neg hl, hstr, sprintf, e2, e1]
  simp [hr, Piece.text, hempty]

/-- C10: on a format string whose directives are complete, `Format` writes what `Sprintf` writes for
that string given the arguments followed by an empty string, except that nothing is reported for unused
arguments.  It does not hold for strings that end inside a directive (`C10_counterexample`) and for
10000009 arguments or more (`C10_too_many`). -/
theorem C10_no_extra {α : Type} (E : Env α) (s : Str) (args : List α) (hs : Closed s)
    (hargs : args ≠ []) (hlen : args.length < 10000009)
    (hempty : E.render {} b!"s" E.empty = []) :
    format E s args = sprintf { E with extra := fun _ => [] } s (args ++ [E.empty]) := by
  rw [format_run E s args hs hargs hlen hempty, sprintf]
  have h1 : ∀ (args : List α) fuel st (t : Str),
      run { E with extra := fun _ => [] } args fuel st t = run E args fuel st t := by
    intro args fuel
    induction fuel with
    | zero => intros; rfl
    | succ n ih =>
      intro st t
      cases t with
      | nil => rfl
      | cons c t =>
        simp only [run, ih]
        rfl
  have h2 : Piece.text { E with extra := fun _ => [] } = Piece.text E := by
    funext q; cases q <;> rfl
  simp only [pieces, h1, h2]
  split <;> simp

/-- C10: it is what `Sprintf` writes for the same arguments whenever no directive asks for an
argument that is not there and `Sprintf` has no unused argument to report. -/
theorem C10_eq_sprintf {α : Type} (E : Env α) (s : Str) (args : List α) (hs : Closed s)
    (hargs : args ≠ []) (hlen : args.length < 10000009)
    (hempty : E.render {} b!"s" E.empty = [])
    (hin : (pieces E s args).2.inRange = true)
    (hall : (pieces E s args).2.reordered = true ∨ args.length ≤ (pieces E s args).2.argNum) :
    format E s args = sprintf E s args := by
  rw [format_run E s args hs hargs hlen hempty, sprintf]
  have : pieces E s (args ++ [E.empty]) = pieces E s args :=
    (run_more E args [E.empty] (s.length + 1) st0 s hin).1
  rw [this]
  dsimp only
  rcases hall with h | h
  · simp [h]
  · rw [if_neg]
    · simp
    · simp only [Bool.and_eq_true, decide_eq_true_eq, not_and]; omega

/-- A string without `%`. -/
theorem closed_of_no_percent (s : Str) (h : 37 ∉ s) : Closed s := by
  induction s with
  | nil => exact .nil
  | cons c s ih =>
    simp at h
    exact .lit c s (Ne.symm h.1) (ih h.2)

theorem run_lits {α : Type} (E : Env α) (args : List α) (s : Str) (h : 37 ∉ s) (fuel : Nat) (st : St)
    (hf : s.length < fuel) : run E args fuel st s = (s.map .lit, st) := by
  induction s generalizing fuel with
  | nil => cases fuel <;> simp [run]
  | cons c s ih =>
    simp at h hf
    cases fuel with
    | zero => omega
    | succ f => simp [run, Ne.symm h.1, ih h.2 f (by omega)]

/-- C10: a text without `%` is returned unchanged whatever the arguments are. -/
theorem C10_plain_text {α : Type} (E : Env α) (s : Str) (args : List α) (h : 37 ∉ s)
    (hlen : args.length < 10000009) (hempty : E.render {} b!"s" E.empty = []) :
    format E s args = s := by
  by_cases hargs : args = []
  · subst hargs; exact C09_no_args E s
  · rw [format_run E s args (closed_of_no_percent s h) hargs hlen hempty, pieces,
      run_lits E _ s h _ _ (by omega)]
    induction s with
    | nil => simp
    | cons c s ih => simp at h; simp [Piece.text] at ih ⊢; exact ih h.2

/-- C10: the limit on the number of arguments is exact; beyond it `Format` appends an error report. -/
theorem C10_too_many {α : Type} (E : Env α) (s : Str) (args : List α) (hs : Closed s)
    (hlen : 10000009 ≤ args.length) :
    format E s args = (pieces E s (args ++ [E.empty])).1.flatMap (Piece.text E) ++ b!"%!s(BADINDEX)" := by
  obtain ⟨p, st', k, hk, hh⟩ := run_append E (args ++ [E.empty]) s hs st0
  have hl : args.length ≠ 0 := by omega
  have hx := hh (37 :: 91 :: (Num.natDigits (args.length + 1) ++ [93, 115])) (Or.inr ⟨_, rfl⟩)
  have h0 := hh [] (Or.inl rfl)
  have e1 : pieces E s (args ++ [E.empty]) = (p, st') := by
    have := h0 (s.length + 1 - k)
    rw [show k + (s.length + 1 - k) = s.length + 1 by omega] at this
    rw [pieces, ← List.append_nil s, List.append_nil s]
    rw [List.append_nil] at this
    rw [this, show s.length + 1 - k = (s.length - k) + 1 by omega]
    simp [run]
  have e2 : ∃ st2, st2.reordered = true ∧
      pieces E (s ++ 37 :: 91 :: (Num.natDigits (args.length + 1) ++ [93, 115])) (args ++ [E.empty])
        = (p ++ [.badIndex [115]], st2) := by
    obtain ⟨m, hm⟩ : ∃ m, (s ++ 37 :: 91 :: (Num.natDigits (args.length + 1) ++ [93, 115])).length + 1
        = k + (m + 2) := by
      refine ⟨(s ++ 37 :: 91 :: (Num.natDigits (args.length + 1) ++ [93, 115])).length + 1 - k - 2, ?_⟩
      simp; omega
    obtain ⟨st2, hr, hd⟩ := directive_tail_many E (args ++ [E.empty]) st' (args.length + 1) (by omega)
    rw [pieces, hm, hx (m + 2)]
    simp only [run, if_true, hd]
    exact ⟨st2, hr, by simp⟩
  obtain ⟨st2, hr, e2⟩ := e2
  have hstr : s ++ b!"%[" ++ Num.natDigits (args.length + 1) ++ b!"]s" =
      s ++ 37 :: 91 :: (Num.natDigits (args.length + 1) ++ [93, 115]) := by simp
  rw [format, if_neg hl, hstr, sprintf, e2, e1]
  simp [hr, Piece.text]

/-- C10 is false of a string that ends inside a directive: for `"100%"` the appended directive is
swallowed, its text shows up in the result, and the arguments are reported as unused. -/
theorem C10_counterexample {α : Type} (E : Env α) (a : α) :
    format E b!"100%" [a] = b!"100%[2]s" ++ E.extra [a, E.empty] ∧ ¬ Closed b!"100%" := by
  constructor
  · rfl
  · intro h
    cases h with | lit _ _ _ h => ?_
    cases h with | lit _ _ _ h => ?_
    cases h with | lit _ _ _ h => ?_
    cases h with
    | lit _ _ hne => exact hne rfl
    | dir _ v hv hne =>
      have : toVerb [] = some [] := by decide
      rw [this] at hv
      cases hv
      exact hne rfl

/-- C11: the plural string is formatted exactly when it is non-empty and `n ≠ 1`. -/
theorem C11_default_plural {α : Type} (E : Env α) (msgID msgIDPlural : Str) (n : Int64)
    (args : List α) :
    (msgIDPlural ≠ [] → n ≠ 1 →
      defaultPlural E msgID msgIDPlural n args = format E msgIDPlural args) ∧
    (msgIDPlural = [] ∨ n = 1 → defaultPlural E msgID msgIDPlural n args = format E msgID args) := by
  constructor
  · intro h1 h2; simp [defaultPlural, h1, h2]
  · rintro (h | h)
    · simp [defaultPlural, h]
    · simp [defaultPlural, h]

/-! Concrete cases. -/

/-- Arguments are strings; only plain rendering. -/
def exEnv : Env Str where
  render := fun _ _ a => a
  asInt := fun _ => none
  empty := []
  extra := fun l => b!"%!(EXTRA " ++ l.flatten ++ b!")"

/-- A string that ends with `%` is not closed, -/
example : Closed b!"a%-5sb%[1]d%" → False := by
  intro h
  cases h with | lit _ _ _ h => ?_
  cases h with
  | lit _ _ hne => exact hne rfl
  | dir _ v hv _ h =>
    have : toVerb b!"-5sb%[1]d%" = some b!"sb%[1]d%" := by decide
    rw [this] at hv; cases hv
    cases h with | lit _ _ _ h => ?_
    cases h with
    | lit _ _ hne => exact hne rfl
    | dir _ v hv _ h =>
      have : toVerb b!"[1]d%" = some b!"d%" := by decide
      rw [this] at hv; cases hv
      cases h with
      | lit _ _ hne => exact hne rfl
      | dir _ v hv hne =>
        have : toVerb [] = some [] := by decide
        rw [this] at hv
        cases hv
        exact hne rfl

/-- and this one is. -/
theorem closed_example : Closed b!"a%-5s%[2].3d!" :=
  .lit _ _ (by decide) (.dir _ b!"s%[2].3d!" (by decide) (by decide)
    (.dir _ b!"d!" (by decide) (by decide) (.lit _ _ (by decide) .nil)))

example : exEnv.render {} b!"s" exEnv.empty = [] := rfl
/-- Unused arguments are not reported. -/
example : format exEnv b!"%s!" [b!"x", b!"y"] = b!"x!" := by decide
example : sprintf exEnv b!"%s!" [b!"x", b!"y"] = b!"x!%!(EXTRA y)" := by decide
/-- All arguments used: the hypotheses of `C10_eq_sprintf` hold. -/
example : (pieces exEnv b!"%s-%s" [b!"x", b!"y"]).2.inRange = true ∧
    [b!"x", b!"y"].length ≤ (pieces exEnv b!"%s-%s" [b!"x", b!"y"]).2.argNum := by decide
/-- With too few arguments the appended empty string is used up first. -/
example : format exEnv b!"%s%s%s" [b!"x"] = b!"x%!s(MISSING)" := by decide
example : defaultPlural exEnv b!"one" b!"many" 2 [] = b!"many" := by decide
example : defaultPlural exEnv b!"one" b!"many" (-1) [] = b!"many" := by decide
example : defaultPlural exEnv b!"one" b!"" 2 [] = b!"one" := by decide

end Verif.Fmt
