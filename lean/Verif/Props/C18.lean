import Verif.Lemmas.File
import Verif.Lemmas.Bytes
import Mathlib.Data.List.TakeWhile
/-! # C18: the Plural-Forms header -/
namespace Verif.Tr
set_option linter.unusedSimpArgs false

theorem isReWs_iff (c : UInt8) : isReWs c = true ↔ Ws [c] := by
  simp [isReWs, Ws]
  tauto

theorem ws_iff (w : Str) : Ws w ↔ ∀ c ∈ w, isReWs c = true := by
  simp only [isReWs_iff, Ws]
  constructor
  · intro h c hc d hd; simp at hd; subst hd; exact h _ hc
  · intro h c hc; exact h c hc c (by simp)

theorem stripLit_iff (l s r : Str) : stripLit l s = some r ↔ s = l ++ r := by
  induction l generalizing s with
  | nil => simp [stripLit]
  | cons c l ih =>
    cases s with
    | nil => simp [stripLit]
    | cons d s =>
      simp only [stripLit, List.cons_append, List.cons.injEq]
      by_cases h : c = d
      · simp [h, ih]
      · simp [h, Ne.symm h]

theorem dropWhile_ws (w s : Str) (hw : Ws w) (hs : ∀ c t, s = c :: t → ¬ Ws [c]) :
    (w ++ s).dropWhile isReWs = s := by
  induction w with
  | nil =>
    cases s with
    | nil => rfl
    | cons c t =>
      have : isReWs c = false := by
        have := hs c t rfl
        rw [← isReWs_iff] at this; simpa using this
      simp [List.dropWhile, this]
  | cons c w ih =>
    have hc : isReWs c = true := (ws_iff _).mp hw c (by simp)
    simp only [List.cons_append, List.dropWhile, hc]
    exact ih (fun d hd => hw d (by simp [hd]))

theorem ws_split (s : Str) : ∃ w, Ws w ∧ s = w ++ s.dropWhile isReWs ∧
    ∀ c t, s.dropWhile isReWs = c :: t → ¬ Ws [c] := by
  refine ⟨s.takeWhile isReWs, ?_, (List.takeWhile_append_dropWhile).symm, ?_⟩
  · rw [ws_iff]
    intro c hc
    exact List.mem_takeWhile_imp hc
  · intro c t h
    rw [← isReWs_iff]
    have hne : s.dropWhile isReWs ≠ [] := by rw [h]; simp
    have := List.head_dropWhile_not isReWs hne
    simp only [h, List.head_cons] at this
    simp [this]

theorem wsLit_iff (c : UInt8) (l s r : Str) (hc : ¬ Ws [c]) :
    wsLit (c :: l) s = some r ↔ ∃ w, Ws w ∧ s = w ++ (c :: l) ++ r := by
  simp only [wsLit, stripLit_iff]
  constructor
  · intro h
    obtain ⟨w, hw, hs, _⟩ := ws_split s
    exact ⟨w, hw, by rw [hs, h]; simp⟩
  · rintro ⟨w, hw, rfl⟩
    rw [List.append_assoc, dropWhile_ws w _ hw]
    intro d t hd
    simp at hd; rw [← hd.1]; exact hc

theorem exprTail_iff (t e : Str) : exprTail t = some e ↔
    ∃ w, Ws w ∧ (∀ c u, w = c :: u → c = 10) ∧ 10 ∉ e ∧ t = e ++ w ++ b!";" := by
  unfold exprTail
  constructor
  · intro h
    split at h
    · rename_i r hr
      have ht : t = r.reverse ++ b!";" := by
        have := congrArg List.reverse hr
        simpa using this
      dsimp only at h
      split at h
      · rename_i hall
        simp at h; subst h
        refine ⟨r.reverse.dropWhile (· != 10), ?_, ?_, ?_, ?_⟩
        · rw [ws_iff]; simpa using hall
        · intro c u hc
          have hne : r.reverse.dropWhile (· != 10) ≠ [] := by rw [hc]; simp
          have := List.head_dropWhile_not (· != 10) hne
          simp only [hc, List.head_cons] at this
          simpa using this
        · intro hmem
          have := List.mem_takeWhile_imp hmem
          simp at this
        · rw [List.takeWhile_append_dropWhile, ht]
      · cases h
    · cases h
  · rintro ⟨w, hw, h10, he, rfl⟩
    have hr : (e ++ w ++ b!";").reverse = 59 :: (e ++ w).reverse := by simp
    rw [hr]
    show (if (((e ++ w).reverse.reverse).dropWhile (· != 10)).all isReWs = true then
      some (((e ++ w).reverse.reverse).takeWhile (· != 10)) else none) = some e
    rw [List.reverse_reverse]
    have htake : (e ++ w).takeWhile (· != 10) = e ∧ (e ++ w).dropWhile (· != 10) = w := by
      clear hr
      induction e with
      | nil =>
        cases w with
        | nil => simp
        | cons c u => have := h10 c u rfl; subst this; simp
      | cons c e ih =>
        simp at he
        have := ih he.2
        have hc : (c != 10) = true := by simpa using Ne.symm he.1
        simp [List.takeWhile, List.dropWhile, hc, this]
    rw [htake.1, htake.2, if_pos]
    rw [List.all_eq_true]
    exact (ws_iff w).mp hw

theorem isDigit_iff (d : UInt8) : Num.isDigit d = true ↔ 48 ≤ d ∧ d ≤ 57 := by
  simp [Num.isDigit]

theorem digit_not_ws (d : UInt8) (h : Num.isDigit d = true) : ¬ Ws [d] := by
  rw [← isReWs_iff]
  revert d; apply u8; decide +kernel

/-- **C18** `rePlurals` accepts exactly the Plural-Forms syntax and captures its two parts. -/
theorem C18_syntax (s : Str) (d : UInt8) (e : Str) :
    matchPlurals s = some (d, e) ↔ PluralForms s d e := by
  have hn : ¬ Ws [110] := by rw [← isReWs_iff]; decide
  have heq : ¬ Ws [61] := by rw [← isReWs_iff]; decide
  have hsemi : ¬ Ws [59] := by rw [← isReWs_iff]; decide
  have hp : ¬ Ws [112] := by rw [← isReWs_iff]; decide
  unfold matchPlurals
  constructor
  · intro h
    simp only [Option.bind_eq_some_iff] at h
    obtain ⟨s1, h1, s2, h2, h3⟩ := h
    obtain ⟨w1, hw1, e1⟩ := (wsLit_iff _ _ _ _ hn).mp h1
    obtain ⟨w2, hw2, e2⟩ := (wsLit_iff _ _ _ _ heq).mp h2
    obtain ⟨w3, hw3, e3, _⟩ := ws_split s2
    split at h3
    · cases h3
    · rename_i d' s3 hd
      split at h3
      · rename_i hdig
        simp only [Option.bind_eq_some_iff, Option.map_eq_some_iff] at h3
        obtain ⟨s4, h4, s5, h5, s6, h6, e', h7, h8⟩ := h3
        cases h8
        obtain ⟨w4, hw4, e4⟩ := (wsLit_iff _ _ _ _ hsemi).mp h4
        obtain ⟨w5, hw5, e5⟩ := (wsLit_iff _ _ _ _ hp).mp h5
        obtain ⟨w6, hw6, e6⟩ := (wsLit_iff _ _ _ _ heq).mp h6
        obtain ⟨w7, hw7, e7, hns⟩ := ws_split s6
        obtain ⟨w8, hw8, h10, hne, e8⟩ := (exprTail_iff _ _).mp h7
        refine ⟨w1, w2, w3, w4, w5, w6, w7, w8, hw1, hw2, hw3, hw4, hw5, hw6, hw7, hw8,
          ((isDigit_iff d).mp hdig).1, ((isDigit_iff d).mp hdig).2, hne, h10, ?_, ?_⟩
        · intro c t hct
          apply hns c (t ++ b!";")
          rw [e8, hct]; simp
        · rw [e1, e2, e3, hd, e4, e5, e6, e7, e8]
          simp
      · cases h3
  · rintro ⟨w1, w2, w3, w4, w5, w6, w7, w8, hw1, hw2, hw3, hw4, hw5, hw6, hw7, hw8, hd1, hd2, hne,
      h10, hns, rfl⟩
    have hdig := (isDigit_iff d).mpr ⟨hd1, hd2⟩
    simp only [Option.bind_eq_some_iff]
    refine ⟨_, (wsLit_iff _ _ _ _ hn).mpr ⟨w1, hw1, by simp only [List.append_assoc]; rfl⟩,
      _, (wsLit_iff _ _ _ _ heq).mpr ⟨w2, hw2, by simp only [List.append_assoc]; rfl⟩, ?_⟩
    rw [dropWhile_ws w3 _ hw3 (by
      intro c t h; simp at h; rw [← h.1]; exact digit_not_ws d hdig)]
    dsimp only [List.singleton_append, List.cons_append, List.nil_append]
    rw [if_pos hdig]
    simp only [Option.bind_eq_some_iff, Option.map_eq_some_iff]
    refine ⟨_, (wsLit_iff _ _ _ _ hsemi).mpr ⟨w4, hw4, by simp only [List.append_assoc]; rfl⟩,
      _, (wsLit_iff _ _ _ _ hp).mpr ⟨w5, hw5, by simp only [List.append_assoc]; rfl⟩,
      _, (wsLit_iff _ _ _ _ heq).mpr ⟨w6, hw6, by simp only [List.append_assoc]; rfl⟩, e, ?_, rfl⟩
    change exprTail (List.dropWhile isReWs (w7 ++ (e ++ (w8 ++ [59])))) = some e
    rw [dropWhile_ws w7 _ hw7, exprTail_iff]
    · exact ⟨w8, hw8, h10, hne, by simp⟩
    · intro c t h
      cases hew : e ++ w8 with
      | nil =>
        simp at hew
        obtain ⟨rfl, rfl⟩ := hew
        simp at h; rw [← h.1]; exact hsemi
      | cons c' t' =>
        have := hns c' t' hew
        rw [← List.append_assoc, hew] at h
        simp at h
        rw [← h.1]; exact this

theorem parseInt_digit (d : UInt8) (h1 : 48 ≤ d) (h2 : d ≤ 57) :
    Num.parseInt [d] = some (digitNum d) := by
  revert d; apply u8; decide +kernel

/-- **C18** `parsePlural` yields the digit and the expression of a well-formed value, -/
theorem C18_parse (s : Str) (d : UInt8) (e : Str) (h : PluralForms s d e) :
    parsePlural s = { totalForms := digitNum d, expr := some e } := by
  have hm := (C18_syntax s d e).mpr h
  obtain ⟨w1, w2, w3, w4, w5, w6, w7, w8, _, _, _, _, _, _, _, _, hd1, hd2, _, _, _, rfl⟩ := h
  unfold parsePlural
  rw [if_neg (by simp), hm]
  dsimp only
  rw [parseInt_digit d hd1 hd2]

/-- **C18** and no plural forms at all for any other value. -/
theorem C18_reject (s : Str) (h : ∀ d e, ¬ PluralForms s d e) :
    parsePlural s = { totalForms := 0, expr := none } := by
  unfold parsePlural
  split
  · rfl
  · cases hm : matchPlurals s with
    | none => rfl
    | some p =>
      obtain ⟨d, e⟩ := p
      exact absurd ((C18_syntax s d e).mp hm) (h d e)

/-- **C18** The parts are determined by the value. -/
theorem C18_unique (s : Str) (d d' : UInt8) (e e' : Str) (h : PluralForms s d e)
    (h' : PluralForms s d' e') : d = d' ∧ e = e' := by
  have := (C18_syntax s d e).mpr h
  rw [(C18_syntax s d' e').mpr h'] at this
  cases this; exact ⟨rfl, rfl⟩

/-! Concrete cases. -/
example : PluralForms b!"nplurals=2; plural=(n != 1);" 50 b!"(n != 1)" :=
  (C18_syntax _ _ _).mp (by decide)
example : PluralForms b!" nplurals = 3 ; plural = n%10 ;;" 51 b!"n%10 ;" :=
  (C18_syntax _ _ _).mp (by decide)
/-- Two digits, a missing final semicolon. -/
example : parsePlural b!"nplurals=12; plural=n;" = { totalForms := 0, expr := none } := by decide
example : parsePlural b!"nplurals=2; plural=n!=1" = { totalForms := 0, expr := none } := by decide

end Verif.Tr
