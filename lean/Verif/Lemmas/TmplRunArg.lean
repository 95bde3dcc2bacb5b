import Verif.Lemmas.TmplRunIn
/-!
# What the scanner makes of the arguments of an action
-/
namespace Verif.Tmpl
open Verif Verif.Xt

variable {C : Cfg}

/-- What may stand behind an argument. -/
def Follow (C : Cfg) (r : Str) : Prop :=
  ∃ c t, r = c :: t ∧ (isSpace c = true ∨ c = 124 ∨ c = 41 ∨ closing c = true ∧ GoStr.hasPrefix (c :: t) C.right = true)

/-- What may stand behind a word. -/
def Stop (C : Cfg) (r : Str) : Prop :=
  ∃ c t, r = c :: t ∧ (isSpace c = true ∨ c = 46 ∨ c = 44 ∨ c = 58 ∨ c = 124 ∨ c = 41 ∨
    closing c = true ∧ GoStr.hasPrefix (c :: t) C.right = true)

theorem Follow.stop {r : Str} (h : Follow C r) : Stop C r := by
  obtain ⟨c, t, h, hc⟩ := h
  exact ⟨c, t, h, by tauto⟩

theorem space_low : ∀ c : UInt8, isSpace c = true → c.toNat < 128 ∧ isWordByte c = false := by
  apply u8; decide +kernel

theorem Stop.low {c : UInt8} {t : Str} (h : Stop C (c :: t)) : c.toNat < 128 ∧ isWordByte c = false := by
  obtain ⟨c', t', he, hc⟩ := h
  cases he
  rcases hc with hc | rfl | rfl | rfl | rfl | rfl | ⟨hc, -⟩
  · exact space_low c hc
  · decide +kernel
  · decide +kernel
  · decide +kernel
  · decide +kernel
  · decide +kernel
  · exact ⟨(closing_facts c hc).1, (closing_facts c hc).2.2.1⟩

theorem alnumAt_low (hC : Std C) {c : UInt8} (h : c.toNat < 128) (s : Str) : C.alnumAt (c :: s) = isWordByte c := by
  simp [Cfg.alnumAt, decode_low h, alnum_low hC.ascii h]

theorem Stop.alnum (hC : Std C) {r : Str} (h : Stop C r) : C.alnumAt r = false := by
  obtain ⟨c, t, rfl, hc⟩ := id h
  rw [alnumAt_low hC h.low.1]; exact h.low.2

theorem Stop.term (_ : Std C) {r : Str} (h : Stop C r) : C.terminator r = true := by
  obtain ⟨c, t, rfl, hc⟩ := id h
  rw [Cfg.terminator]
  rcases hc with hc | rfl | rfl | rfl | rfl | rfl | ⟨-, hc⟩
  · simp [hc]
  · rfl
  · rfl
  · rfl
  · rfl
  · rfl
  · simp [hc]

theorem spanN_word (hC : Std C) {r : Str} (hr : C.alnumAt r = false) : ∀ (n : Nat) (w : Str), w.length ≤ n →
    (∀ x ∈ w, isWordByte x = true) → C.spanN n (w ++ r) = (w, r)
  | 0, w, h, _ => by
    have : w = [] := List.length_eq_zero_iff.mp (by omega)
    subst this; rfl
  | n + 1, [], _, _ => by rw [List.nil_append, Cfg.spanN, hr]; rfl
  | n + 1, x :: w, h, hw => by
    have hx := hw x (by simp)
    have hl := word_low x hx
    rw [List.cons_append, Cfg.spanN, alnumAt_low hC hl, hx, if_pos rfl, decode_low hl]
    dsimp only
    rw [show (x :: (w ++ r)).drop 1 = w ++ r from rfl,
      spanN_word hC hr n w (by simpa using h) (fun y hy => hw y (by simp [hy]))]
    rfl

theorem span_word (hC : Std C) {w r : Str} (hr : C.alnumAt r = false) (hw : ∀ x ∈ w, isWordByte x = true) :
    C.span (w ++ r) = (w, r) := spanN_word hC hr _ w (by simp) hw

theorem ident_word {w : Str} (h : Ident w) : ∃ c t, w = c :: t ∧ isIdentStart c = true ∧ ∀ x ∈ w, isWordByte x = true := by
  obtain ⟨c, t, rfl, hc, ht⟩ := h
  refine ⟨c, t, rfl, (identStart_iff c).mpr hc, ?_⟩
  intro x hx
  rcases List.mem_cons.mp hx with rfl | hx
  · exact (word_iff _).mpr (.inl hc)
  · exact (word_iff _).mpr (ht x hx)

theorem start_plain : ∀ c : UInt8, isIdentStart c = true → isSpace c = false ∧ closing c = false ∧ c ≠ 61 ∧ c ≠ 58 ∧ c ≠ 124 ∧ c ≠ 34 ∧
    c ≠ 96 ∧ c ≠ 36 ∧ c ≠ 39 ∧ c ≠ 46 ∧ ¬(c = 43 ∨ c = 45 ∨ 48 ≤ c ∧ c ≤ 57) ∧ c ≠ 44 ∧ c ≠ 41 ∧ c ≠ 40 ∧ c ≠ 10 ∧ c.toNat < 128 := by
  apply u8; decide +kernel

theorem word_plain : ∀ c : UInt8, isWordByte c = true → c ≠ 10 ∧ c ≠ 46 := by
  apply u8; decide +kernel

theorem breaks_zero {s : Str} (h : ∀ x ∈ s, x ≠ 10) : breaks s = 0 := by
  rw [breaks, List.count_eq_zero]
  exact fun hm => h 10 hm rfl

theorem breaks_ident {w : Str} (h : Ident w) : breaks w = 0 := by
  obtain ⟨c, t, rfl, -, hw⟩ := ident_word h
  exact breaks_zero fun x hx => (word_plain x (hw x hx)).1

theorem word_tok (C : Cfg) (w : Str) : C.word w ≠ .eof ∧ C.word w ≠ .err := by
  unfold Cfg.word
  split
  · split <;> simp
  · split <;> simp
  · simp
  · split
    · simp
    · split <;> simp

theorem lex_word (hC : Std C) {w r : Str} (hw : Ident w) (hr : Stop C r) (line d : Nat) :
    C.run (.at (w ++ r) line d) = ⟨C.word w, line⟩ :: C.run (.at r line d) := by
  refine run_at hC ?_ (word_tok C w).1 (word_tok C w).2
  have hs := span_word hC (hr.alnum hC) (ident_word hw).choose_spec.choose_spec.2.2
  obtain ⟨c, t, rfl, hc, hall⟩ := ident_word hw
  obtain ⟨h1, h2, h3, h4, h5, h6, h7, h8, h9, h10, h11, -, -, -, -, hl⟩ := start_plain c hc
  unfold Cfg.lexInside
  dsimp only
  rw [List.cons_append, atRight_none hC h1 h2]
  dsimp only
  rw [h1, if_neg (by decide), if_neg h3, if_neg h4, if_neg h5, if_neg h6, if_neg h7, if_neg h8, if_neg h9, if_neg h10, if_neg h11,
    alnumAt_low hC hl, hall c (by simp), if_pos rfl, Cfg.lexIdent]
  dsimp only
  rw [← List.cons_append, hs]
  dsimp only
  rw [if_pos (hr.term hC)]; rfl

theorem not_term (hC : Std C) {c : UInt8} (h : isIdentStart c = true) (s : Str) : C.terminator (c :: s) = false := by
  obtain ⟨h1, h2, h3, h4, h5, h6, h7, h8, h9, h10, h11, h12, h13, h14, -⟩ := start_plain c h
  rw [Cfg.terminator]
  have := hC.off h2 s
  simp [h1, h4, h5, h10, h12, h13, h14, this]

theorem lex_field (hC : Std C) {w r : Str} (hw : Ident w) (hr : Stop C r) (line d : Nat) :
    C.run (.at (46 :: w ++ r) line d) = ⟨.field (46 :: w), line⟩ :: C.run (.at r line d) := by
  refine run_at hC ?_ (by simp) (by simp)
  have hs := span_word hC (hr.alnum hC) (ident_word hw).choose_spec.choose_spec.2.2
  obtain ⟨c, t, rfl, hc, hall⟩ := ident_word hw
  unfold Cfg.lexInside
  dsimp only
  rw [List.cons_append, atRight_none hC (by decide) (by decide)]
  dsimp only
  rw [if_neg (by decide), if_neg (by decide), if_neg (by decide), if_neg (by decide), if_neg (by decide), if_neg (by decide),
    if_neg (by decide), if_neg (by decide), if_pos rfl]
  rw [List.cons_append]
  dsimp only
  rw [if_neg (fun h => (start_plain c hc).2.2.2.2.2.2.2.2.2.2.1 (.inr (.inr h))), Cfg.lexName, not_term hC hc, if_neg (by decide),
    ← List.cons_append, hs]
  dsimp only
  rw [if_pos (hr.term hC)]; rfl

theorem lex_dot (hC : Std C) {r : Str} (hr : Follow C r) (line d : Nat) :
    C.run (.at (46 :: r) line d) = ⟨.dot, line⟩ :: C.run (.at r line d) := by
  refine run_at hC ?_ (by simp) (by simp)
  have ht := hr.stop.term hC
  have hl := hr.stop
  obtain ⟨c, t, rfl, -⟩ := hr
  have := hl.low.2
  have : ¬(48 ≤ c ∧ c ≤ 57) := by
    intro h
    have hh : isWordByte c = true := by
      unfold isWordByte; simp [h.1, h.2]
    rw [hh] at this; cases this
  unfold Cfg.lexInside
  dsimp only
  rw [atRight_none hC (by decide) (by decide)]
  dsimp only
  rw [if_neg (by decide), if_neg (by decide), if_neg (by decide), if_neg (by decide), if_neg (by decide), if_neg (by decide),
    if_neg (by decide), if_neg (by decide), if_pos rfl, if_neg this, Cfg.lexName, if_pos ht]
  rfl

theorem lex_var (hC : Std C) {w r : Str} (hw : w = [] ∨ Ident w) (hr : Stop C r) (line d : Nat) :
    C.run (.at (36 :: w ++ r) line d) = ⟨.var (36 :: w), line⟩ :: C.run (.at r line d) := by
  refine run_at hC ?_ (by simp) (by simp)
  unfold Cfg.lexInside
  dsimp only
  rw [List.cons_append, atRight_none hC (by decide) (by decide)]
  dsimp only
  rw [if_neg (by decide), if_neg (by decide), if_neg (by decide), if_neg (by decide), if_neg (by decide), if_neg (by decide),
    if_pos rfl]
  rcases hw with rfl | hw
  · rw [Cfg.lexName, List.nil_append, if_pos (hr.term hC)]; rfl
  · have hs := span_word hC (hr.alnum hC) (ident_word hw).choose_spec.choose_spec.2.2
    obtain ⟨c, t, rfl, hc, hall⟩ := ident_word hw
    rw [Cfg.lexName, List.cons_append, not_term hC hc, if_neg (by decide), ← List.cons_append, hs]
    dsimp only
    rw [if_pos (hr.term hC)]; rfl

theorem fields_stop {ids : List Str} {r : Str} (hr : Stop C r) : Stop C (fieldsText ids ++ r) := by
  cases ids with
  | nil => exact hr
  | cons id ids => exact ⟨46, _, rfl, .inr (.inl rfl)⟩

theorem lex_fields (hC : Std C) {r : Str} (hr : Stop C r) (line d : Nat) : ∀ (ids : List Str), (∀ id ∈ ids, Ident id) →
    C.run (.at (fieldsText ids ++ r) line d) = (ids.map fun id => ⟨.field (46 :: id), line⟩) ++ C.run (.at r line d)
  | [], _ => rfl
  | id :: ids, h => by
    have : fieldsText (id :: ids) ++ r = 46 :: id ++ (fieldsText ids ++ r) := by
      simp [fieldsText, List.flatMap_cons]
    rw [this, lex_field hC (h id (by simp)) (fields_stop hr), lex_fields hC hr line d ids fun i hi => h i (by simp [hi])]
    rfl

theorem breaks_fields {ids : List Str} (h : ∀ id ∈ ids, Ident id) : breaks (fieldsText ids) = 0 := by
  refine breaks_zero fun x hx => ?_
  obtain ⟨id, hid, hx⟩ := List.mem_flatMap.mp hx
  rcases List.mem_cons.mp hx with rfl | hx
  · decide
  · obtain ⟨c, t, rfl, -, hall⟩ := ident_word (h id hid)
    exact (word_plain x (hall x hx)).1

/-! ## Numbers -/

theorem digit_facts : ∀ c : UInt8, (48 ≤ c ∧ c ≤ 57) → digitOf 10 c = true ∧ (c == 43 || c == 45) = false ∧ c ≠ 10 ∧ isSpace c = false ∧
    closing c = false ∧ c ≠ 45 ∧ c ≠ 47 := by
  apply u8; decide +kernel

theorem first_facts : ∀ c : UInt8, c = 43 ∨ c = 45 ∨ (48 ≤ c ∧ c ≤ 57) → isSpace c = false ∧ closing c = false ∧ c ≠ 61 ∧ c ≠ 58 ∧
    c ≠ 124 ∧ c ≠ 34 ∧ c ≠ 96 ∧ c ≠ 36 ∧ c ≠ 39 ∧ c ≠ 46 := by
  apply u8; decide +kernel

/-- A byte that neither continues a decimal number nor makes `0` the beginning of another one. -/
def stops (c : UInt8) : Bool :=
  !digitOf 10 c && !(c == 46) && !(c == 101 || c == 69) && !(c == 120 || c == 88) && !(c == 111 || c == 79) && !(c == 98 || c == 66)

theorem stops_facts {c : UInt8} (h : stops c = true) : digitOf 10 c = false ∧ (c == 46) = false ∧ (c == 101 || c == 69) = false ∧
    (c == 120 || c == 88) = false ∧ (c == 111 || c == 79) = false ∧ (c == 98 || c == 66) = false := by
  simpa [stops, and_assoc] using h

theorem follow_facts : ∀ c : UInt8, isSpace c = true ∨ c = 124 ∨ c = 41 ∨ closing c = true → stops c = true ∧ (c == 105) = false ∧
    c ≠ 43 ∧ c ≠ 45 ∧ digitOf 16 c = false ∧ digitOf 8 c = false ∧ digitOf 2 c = false ∧ (c == 112 || c == 80) = false := by
  apply u8; decide +kernel

theorem upto_eq (s r : Str) : upto (s ++ r) r = s := by
  simp [upto]

theorem scan_digits {p : UInt8 → Bool} {s r : Str} (h : ∀ x ∈ s, p x = true) (hr : ∃ c t, r = c :: t ∧ p c = false) :
    (s ++ r).dropWhile p = r := by
  obtain ⟨c, t, rfl, hc⟩ := hr
  rw [List.dropWhile_append_of_pos h, List.dropWhile_cons, hc]
  rfl

theorem digits_ten {s : Str} (h : ∀ x ∈ s, DigitByte x) : ∀ x ∈ s, digitOf 10 x = true := fun x hx => (digit_facts x (h x hx)).1

theorem scan_sign {g s : Str} (hg : MaybeSign g) (hs : ∃ c t, s = c :: t ∧ (c == 43 || c == 45) = false) :
    (accept (fun c => c == 43 || c == 45) (g ++ s)).getD (g ++ s) = s := by
  obtain ⟨c, t, rfl, hc⟩ := hs
  rcases hg with rfl | rfl | rfl
  · rw [List.nil_append, accept_none (p := fun c => c == 43 || c == 45) hc]; rfl
  · rfl
  · rfl

/-- Which base is found, and that the digits follow. -/
theorem scan_whole {w r : Str} (hw : Decimal w) (hr : ∃ c t, r = c :: t ∧ digitOf 10 c = false ∧ (c == 120 || c == 88) = false ∧
    (c == 111 || c == 79) = false ∧ (c == 98 || c == 66) = false) :
    ∃ s, scanBase (w ++ r) = (10, s) ∧ s.dropWhile (digitOf 10) = r := by
  obtain ⟨c, t, rfl, h1, h2, h3, h4⟩ := hr
  rcases hw with rfl | ⟨d, u, rfl, h0, hd, -⟩
  · refine ⟨c :: t, ?_, ?_⟩
    · change (match accept (fun c => c == 120 || c == 88) (c :: t) with
        | some r => (16, r)
        | none => match accept (fun c => c == 111 || c == 79) (c :: t) with
          | some r => (8, r)
          | none => match accept (fun c => c == 98 || c == 66) (c :: t) with
            | some r => (2, r)
            | none => ((10 : Nat), c :: t)) = _
      rw [accept_none (p := fun c => c == 120 || c == 88) h2, accept_none (p := fun c => c == 111 || c == 79) h3,
        accept_none (p := fun c => c == 98 || c == 66) h4]
    · rw [List.dropWhile_cons, h1]; rfl
  · refine ⟨d :: u ++ c :: t, ?_, scan_digits (digits_ten hd) ⟨c, t, rfl, h1⟩⟩
    rw [List.cons_append, scanBase, accept_none (p := (· == 48)) (by simpa using h0)]

theorem scan_exponent {e r : Str} (he : MaybeExponent e) (hr : ∃ c t, r = c :: t ∧ stops c = true) : scanExp 101 69 (e ++ r) = r := by
  obtain ⟨c, t, rfl, hc⟩ := hr
  obtain ⟨h1, -, h3, -⟩ := stops_facts hc
  rcases he with rfl | ⟨x, g, u, rfl, hx, hg, hl, hd⟩
  · rw [List.nil_append, scanExp, accept_none (p := fun c => c == 101 || c == 69) h3]
  · have hs : (accept (fun c => c == 43 || c == 45) (g ++ (u ++ c :: t))).getD (g ++ (u ++ c :: t)) = u ++ c :: t := by
      refine scan_sign hg ?_
      cases u with
      | nil => simp at hl
      | cons d u => exact ⟨d, u ++ c :: t, rfl, (digit_facts d (hd d (by simp))).2.1⟩
    have ha : accept (fun c => c == 101 || c == 69) (x :: g ++ u ++ c :: t) = some (g ++ (u ++ c :: t)) := by
      rw [List.append_assoc, List.cons_append, accept, if_pos (by rcases hx with rfl | rfl <;> rfl)]
    rw [scanExp, ha]
    dsimp only
    rw [hs]
    exact scan_digits (digits_ten hd) ⟨c, t, rfl, h1⟩

theorem scan_decimal {g s r : Str} (hg : MaybeSign g) (hs : Unsigned s) (hr : ∃ c t, r = c :: t ∧ stops c = true) :
    numEnd (g ++ s ++ r) = (accept (· == 105) r).getD r := by
  obtain @⟨w, f, e, hw, hf, he⟩ := hs
  have hsg : (accept (fun c => c == 43 || c == 45) (g ++ (w ++ (f ++ (e ++ r))))).getD (g ++ (w ++ (f ++ (e ++ r)))) = w ++ (f ++ (e ++ r)) := by
    refine scan_sign hg ?_
    rcases hw with rfl | ⟨d, u, rfl, -, hd, -⟩
    · exact ⟨48, _, rfl, by decide⟩
    · exact ⟨d, _, rfl, (digit_facts d (hd d (by simp))).2.1⟩
  have hx : scanExp 101 69 (e ++ r) = r := scan_exponent he hr
  have her : ∃ c t, e ++ r = c :: t ∧ digitOf 10 c = false ∧ (c == 46) = false ∧ (c == 120 || c == 88) = false ∧
      (c == 111 || c == 79) = false ∧ (c == 98 || c == 66) = false := by
    rcases he with rfl | ⟨x, g, u, rfl, hx, -⟩
    · obtain ⟨c, t, rfl, hc⟩ := hr
      obtain ⟨h1, h2, -, h4, h5, h6⟩ := stops_facts hc
      exact ⟨c, t, rfl, h1, h2, h4, h5, h6⟩
    · refine ⟨x, _, rfl, ?_⟩
      rcases hx with rfl | rfl <;> decide
  have hfr : (accept (· == 46) (f ++ (e ++ r)) = none ∧ f = []) ∨
      ∃ q, accept (· == 46) (f ++ (e ++ r)) = some q ∧ q.dropWhile (digitOf 10) = e ++ r := by
    obtain ⟨c, t, h0, h1, h2, -⟩ := her
    rcases hf with rfl | ⟨u, rfl, hu⟩
    · exact .inl ⟨by rw [List.nil_append, h0, accept_none (p := (· == 46)) h2], rfl⟩
    · exact .inr ⟨u ++ (e ++ r), rfl, scan_digits (digits_ten hu) ⟨c, t, h0, h1⟩⟩
  obtain ⟨y, hb, hy⟩ := scan_whole hw (r := f ++ (e ++ r)) (by
    rcases hf with rfl | ⟨u, rfl, -⟩
    · obtain ⟨c, t, h0, h1, -, h3⟩ := her
      exact ⟨c, t, by rw [List.nil_append, h0], h1, h3⟩
    · exact ⟨46, _, rfl, by decide⟩)
  unfold numEnd
  dsimp only
  rw [List.append_assoc, List.append_assoc, List.append_assoc, hsg, hb]
  dsimp only
  rw [hy]
  rcases hfr with ⟨h1, rfl⟩ | ⟨q, h1, h2⟩
  · rw [h1]
    dsimp only
    rw [if_pos rfl, if_neg (by decide), List.nil_append, hx]
  · rw [h1]
    dsimp only
    rw [h2, if_pos rfl, if_neg (by decide), hx]

theorem scan_prefixed {g s r : Str} (hg : MaybeSign g) (hs : Prefixed s) (hr : Follow C r) : numEnd (g ++ s ++ r) = r := by
  obtain ⟨e, t', rfl, he⟩ := hr
  obtain ⟨f1, f2, -, -, f5, f6, f7, f8⟩ := follow_facts e (by tauto)
  have hdot := (stops_facts f1).2.1
  have hsg : (accept (fun c => c == 43 || c == 45) (g ++ (s ++ e :: t'))).getD (g ++ (s ++ e :: t')) = s ++ e :: t' := by
    refine scan_sign hg ?_
    cases hs <;> exact ⟨48, _, rfl, by decide⟩
  have key : ∀ (base : Nat) (t : Str), base ≠ 10 → scanBase (s ++ e :: t') = (base, t ++ e :: t') → (∀ x ∈ t, digitOf base x = true) →
      digitOf base e = false → numEnd (g ++ s ++ e :: t') = e :: t' := by
    intro base t hne hb ht hx
    unfold numEnd
    dsimp only
    rw [List.append_assoc, hsg, hb]
    dsimp only
    rw [scan_digits ht ⟨e, t', rfl, hx⟩, accept_none (p := (· == 46)) hdot]
    dsimp only
    rw [if_neg hne, scanExp, accept_none (p := fun c => c == 112 || c == 80) f8]
    dsimp only
    rw [ite_self, accept_none (p := (· == 105)) f2]
    rfl
  cases hs with
  | @hex c t hc _ _ hd =>
    refine key 16 t (by decide) ?_ ?_ f5
    · rcases hc with rfl | rfl <;> rfl
    · intro x hx
      have := hd x hx
      unfold DigitByte at this
      revert this
      generalize x = z
      revert z
      apply u8; decide +kernel
  | @octal c t hc _ _ hd =>
    refine key 8 t (by decide) ?_ ?_ f6
    · rcases hc with rfl | rfl <;> rfl
    · intro x hx
      have := hd x hx
      revert this
      generalize x = z
      revert z
      apply u8; decide +kernel
  | @binary c t hc _ _ hd =>
    refine key 2 t (by decide) ?_ ?_ f7
    · rcases hc with rfl | rfl <;> rfl
    · intro x hx
      have := hd x hx
      revert this
      generalize x = z
      revert z
      apply u8; decide +kernel

/-- How a number begins. -/
def NumHead (s : Str) : Prop := ∃ c t, s = c :: t ∧ (c = 43 ∨ c = 45 ∨ (48 ≤ c ∧ c ≤ 57)) ∧ (c = 45 → ∃ x u, t = x :: u ∧ 48 ≤ x ∧ x ≤ 57)

theorem head_sign {g s : Str} (hg : MaybeSign g) (hs : ∃ c t, s = c :: t ∧ 48 ≤ c ∧ c ≤ 57) : NumHead (g ++ s) := by
  obtain ⟨c, t, rfl, hc⟩ := hs
  rcases hg with rfl | rfl | rfl
  · exact ⟨c, t, rfl, .inr (.inr hc), fun e => absurd e (digit_facts c hc).2.2.2.2.2.1⟩
  · exact ⟨43, c :: t, rfl, .inl rfl, fun e => absurd e (by decide)⟩
  · exact ⟨45, c :: t, rfl, .inr (.inl rfl), fun _ => ⟨c, t, rfl, hc⟩⟩

theorem unsigned_head {s : Str} (hs : Unsigned s) : ∃ c t, s = c :: t ∧ 48 ≤ c ∧ c ≤ 57 := by
  obtain @⟨w, f, e, hw, hf, he⟩ := hs
  rcases hw with rfl | ⟨d, u, rfl, -, hd, -⟩
  · exact ⟨48, _, rfl, by decide⟩
  · exact ⟨d, _, rfl, hd d (by simp)⟩

theorem NumHead.append {s : Str} (h : NumHead s) (t : Str) : NumHead (s ++ t) := by
  obtain ⟨c, u, rfl, h1, h2⟩ := h
  refine ⟨c, u ++ t, rfl, h1, fun e => ?_⟩
  obtain ⟨x, v, rfl, hx⟩ := h2 e
  exact ⟨x, v ++ t, rfl, hx⟩

theorem number_head {s : Str} (h : NumberText s) : NumHead s := by
  cases h with
  | decimal hg hs => exact head_sign hg (unsigned_head hs)
  | imaginary hg hs => exact (head_sign hg (unsigned_head hs)).append _
  | prefixed hg hs => exact head_sign hg (by cases hs <;> exact ⟨48, _, rfl, by decide⟩)

theorem complex_head {s : Str} (h : ComplexText s) : NumHead s := by
  cases h with
  | mk hg hs _ _ => exact (head_sign hg (unsigned_head hs)).append _

theorem stops_follow {r : Str} (hr : Follow C r) : ∃ c t, r = c :: t ∧ stops c = true ∧ (c == 105) = false ∧ c ≠ 43 ∧ c ≠ 45 := by
  obtain ⟨c, t, rfl, hc⟩ := hr
  obtain ⟨h1, h2, h3, h4, -⟩ := follow_facts c (by tauto)
  exact ⟨c, t, rfl, h1, h2, h3, h4⟩

theorem number_end {s r : Str} (hs : NumberText s) (hr : Follow C r) : numEnd (s ++ r) = r := by
  cases hs with
  | decimal hg hs =>
    obtain ⟨c, t, rfl, h1, h2, -⟩ := stops_follow hr
    rw [scan_decimal hg hs ⟨c, t, rfl, h1⟩, accept_none (p := (· == 105)) h2]; rfl
  | imaginary hg hs =>
    rw [List.append_assoc, scan_decimal hg hs (r := b!"i" ++ r) ⟨105, r, rfl, by decide⟩]; rfl
  | prefixed hg hs => exact scan_prefixed hg hs hr

/-- The scanner is at a number. -/
theorem at_number (hC : Std C) {s : Str} (hs : NumHead s) (r : Str) (line d : Nat) :
    C.lexInside (.at (s ++ r) line d) = C.lexNumber (.at (s ++ r) line d) := by
  obtain ⟨c, t, rfl, hc, -⟩ := hs
  obtain ⟨h1, h2, h3, h4, h5, h6, h7, h8, h9, h10⟩ := first_facts c hc
  unfold Cfg.lexInside
  dsimp only
  rw [List.cons_append, atRight_none hC h1 h2]
  dsimp only
  rw [h1, if_neg (by decide), if_neg h3, if_neg h4, if_neg h5, if_neg h6, if_neg h7, if_neg h8, if_neg h9, if_neg h10, if_pos hc]

theorem lex_number (hC : Std C) {s r : Str} (hs : NumberText s) (hr : Follow C r) (line d : Nat) :
    C.run (.at (s ++ r) line d) = ⟨.num s, line⟩ :: C.run (.at r line d) := by
  refine run_at hC ?_ (by simp) (by simp)
  have hsn : C.scanNumber (s ++ r) = some r := by
    rw [Cfg.scanNumber, number_end hs hr, hr.stop.alnum hC]; rfl
  rw [at_number hC (number_head hs), Cfg.lexNumber]
  dsimp only
  rw [hsn]
  obtain ⟨e, t', rfl, -, -, f5, f6⟩ := stops_follow hr
  dsimp only
  rw [if_neg (by simp [f5, f6]), upto_eq]
  rfl

theorem lex_complex (hC : Std C) {s r : Str} (hs : ComplexText s) (hr : Follow C r) (line d : Nat) :
    C.run (.at (s ++ r) line d) = ⟨.complex s, line⟩ :: C.run (.at r line d) := by
  refine run_at hC ?_ (by simp) (by simp)
  rw [at_number hC (complex_head hs), Cfg.lexNumber]
  dsimp only
  obtain @⟨g, s, h, t, hg, hs, hh, ht⟩ := hs
  have hm : MaybeSign h := .inr hh
  obtain ⟨x, hx, hx'⟩ : ∃ x, h = [x] ∧ (x = 43 ∨ x = 45) := by
    rcases hh with rfl | rfl
    · exact ⟨43, rfl, .inl rfl⟩
    · exact ⟨45, rfl, .inr rfl⟩
  have h1 : C.scanNumber (g ++ s ++ (h ++ t ++ b!"i") ++ r) = some (h ++ t ++ b!"i" ++ r) := by
    have hn : numEnd (g ++ s ++ (h ++ t ++ b!"i") ++ r) = h ++ t ++ b!"i" ++ r := by
      rw [List.append_assoc, scan_decimal hg hs ⟨x, t ++ b!"i" ++ r, by rw [hx]; simp, by rcases hx' with rfl | rfl <;> decide⟩, hx]
      rw [show [x] ++ t ++ b!"i" ++ r = x :: (t ++ b!"i" ++ r) by simp, accept_none (p := (· == 105)) (by rcases hx' with rfl | rfl <;> decide)]
      rfl
    rw [Cfg.scanNumber, hn, hx, show [x] ++ t ++ b!"i" ++ r = x :: (t ++ b!"i" ++ r) by simp,
      alnumAt_low hC (by rcases hx' with rfl | rfl <;> decide)]
    rw [if_neg (by rcases hx' with rfl | rfl <;> decide)]
  have h2 : C.scanNumber (h ++ t ++ b!"i" ++ r) = some r := by
    have hn : numEnd (h ++ t ++ b!"i" ++ r) = r := number_end (.imaginary hm ht) hr
    rw [Cfg.scanNumber, hn, hr.stop.alnum hC]; rfl
  rw [h1]
  rw [hx] at h2 ⊢
  dsimp only [List.cons_append, List.nil_append] at h2 ⊢
  rw [if_pos hx', h2]
  dsimp only
  have hu := upto_eq (g ++ s ++ x :: (t ++ [105])) r
  rw [if_pos (by
    rw [hu, show g ++ s ++ x :: (t ++ [105]) = (g ++ s ++ x :: t) ++ [105] by simp, List.getLast?_concat]), hu]
  rfl

theorem digits_break {s : Str} (h : ∀ x ∈ s, DigitByte x) : ∀ x ∈ s, x ≠ 10 := fun x hx => (digit_facts x (h x hx)).2.2.1

theorem sign_break {g : Str} (h : MaybeSign g) : ∀ x ∈ g, x ≠ 10 := by
  rcases h with rfl | rfl | rfl <;> decide

theorem unsigned_break {s : Str} (h : Unsigned s) : ∀ x ∈ s, x ≠ 10 := by
  obtain @⟨w, f, e, hw, hf, he⟩ := h
  intro x hx
  rcases List.mem_append.mp hx with hx | hx
  · rcases List.mem_append.mp hx with hx | hx
    · rcases hw with rfl | ⟨d, u, rfl, -, hd, -⟩
      · simp only [List.mem_cons, List.not_mem_nil, or_false] at hx; rw [hx]; decide
      · exact digits_break hd x hx
    · rcases hf with rfl | ⟨u, rfl, hu⟩
      · cases hx
      · rcases List.mem_cons.mp hx with rfl | hx
        · decide
        · exact digits_break hu x hx
  · rcases he with rfl | ⟨c, g, u, rfl, hc, hg, -, hu⟩
    · cases hx
    · rcases List.mem_append.mp hx with hx | hx
      · rcases List.mem_cons.mp hx with rfl | hx
        · rcases hc with rfl | rfl <;> decide
        · exact sign_break hg x hx
      · exact digits_break hu x hx

theorem breaks_number {s : Str} (h : NumberText s) : breaks s = 0 := by
  refine breaks_zero ?_
  cases h with
  | decimal hg hs => exact fun x hx => (List.mem_append.mp hx).elim (sign_break hg x) (unsigned_break hs x)
  | imaginary hg hs =>
    intro x hx
    rcases List.mem_append.mp hx with hx | hx
    · exact (List.mem_append.mp hx).elim (sign_break hg x) (unsigned_break hs x)
    · simp only [List.mem_cons, List.not_mem_nil, or_false] at hx; rw [hx]; decide
  | prefixed hg hs =>
    intro x hx
    rcases List.mem_append.mp hx with hx | hx
    · exact sign_break hg x hx
    · cases hs with
      | @hex c t hc _ _ hd =>
        simp only [List.mem_cons] at hx
        rcases hx with rfl | rfl | hx
        · decide
        · rcases hc with rfl | rfl <;> decide
        · rintro rfl; exact absurd (hd _ hx) (by unfold DigitByte; decide)
      | @octal c t hc _ _ hd =>
        simp only [List.mem_cons] at hx
        rcases hx with rfl | rfl | hx
        · decide
        · rcases hc with rfl | rfl <;> decide
        · rintro rfl; exact absurd (hd _ hx) (by decide)
      | @binary c t hc _ _ hd =>
        simp only [List.mem_cons] at hx
        rcases hx with rfl | rfl | hx
        · decide
        · rcases hc with rfl | rfl <;> decide
        · rintro rfl; exact absurd (hd _ hx) (by decide)

theorem breaks_complex {s : Str} (h : ComplexText s) : breaks s = 0 := by
  obtain @⟨g, s, h, t, hg, hs, hh, ht⟩ := h
  have h1 := breaks_number (.decimal hg hs)
  have h2 := breaks_number (.imaginary (.inr hh) ht)
  rw [breaks, List.count_append]
  change breaks _ + breaks _ = 0
  rw [h1, h2]

/-! ## Character constants -/

theorem lex_char (hC : Std C) {s : Str} (hs : CharText s) (r : Str) (line d : Nat) :
    C.run (.at (s ++ r) line d) = ⟨.rune s, line⟩ :: C.run (.at r line d) := by
  refine run_at hC ?_ (by simp) (by simp)
  have key : ∀ u, scanQuote 39 (u ++ 39 :: r) = some r →
      C.lexInside (.at (39 :: u ++ [39] ++ r) line d) = (⟨.rune (39 :: u ++ [39]), line⟩, .at r line d) := by
    intro u hu
    unfold Cfg.lexInside
    dsimp only
    rw [show 39 :: u ++ [39] ++ r = 39 :: (u ++ 39 :: r) by simp, atRight_none hC (by decide) (by decide)]
    dsimp only
    rw [if_neg (by decide), if_neg (by decide), if_neg (by decide), if_neg (by decide), if_neg (by decide), if_neg (by decide),
      if_neg (by decide), if_pos rfl, hu]
    dsimp only
    rw [show 39 :: (u ++ 39 :: r) = (39 :: u ++ [39]) ++ r by simp, upto_eq]
    rfl
  cases hs with
  | @plain c _ h1 h2 h3 =>
    refine key [c] ?_
    rw [List.cons_append, List.nil_append, scanQuote.eq_def]
    split
    · next heq => cases heq
    · next heq => simp only [List.cons.injEq] at heq; exact absurd heq.1 h3
    · next heq =>
      simp only [List.cons.injEq] at heq
      obtain ⟨rfl, rfl⟩ := heq
      rw [if_neg (by simp [h1, h3]), if_neg h2]
      simp [scanQuote]
  | @escaped c hc =>
    refine key [92, c] ?_
    have : c ≠ 10 := by rintro rfl; exact absurd hc (by decide)
    rw [List.cons_append, List.cons_append, List.nil_append, scanQuote, if_neg this]
    simp [scanQuote]

theorem breaks_char {s : Str} (h : CharText s) : breaks s = 0 := by
  cases h with
  | @plain c _ h1 _ _ => exact breaks_zero (by intro x hx; simp at hx; rcases hx with rfl | rfl | rfl <;> first | decide | exact h1)
  | @escaped c hc =>
    have : c ≠ 10 := by rintro rfl; exact absurd hc (by decide)
    exact breaks_zero (by intro x hx; simp at hx; rcases hx with rfl | rfl | rfl | rfl <;> first | decide | exact this)

/-! ## Literals -/

theorem scanQuote_quoted {s : Str} (h : Quoted s) (r : Str) : scanQuote 34 (s ++ 34 :: r) = some r := by
  induction h with
  | nil => simp [scanQuote]
  | @char c s h1 h2 h3 _ ih =>
    rw [List.cons_append]
    rw [scanQuote.eq_def]
    split
    · next heq => cases heq
    · next heq => simp only [List.cons.injEq] at heq; exact absurd heq.1 h2
    · next heq =>
      simp only [List.cons.injEq] at heq
      obtain ⟨rfl, rfl⟩ := heq
      rw [if_neg (by simp [h2, h3]), if_neg h1, ih]
  | @esc c s h1 _ ih =>
    rw [List.cons_append, List.cons_append, scanQuote, if_neg h1, ih]

theorem breaks_quoted {s : Str} (h : Quoted s) : breaks s = 0 := by
  induction h with
  | nil => rfl
  | @char c s h1 h2 h3 _ ih => rw [breaks, List.count_cons_of_ne h3]; exact ih
  | @esc c s h1 _ ih => rw [breaks, List.count_cons_of_ne (by decide), List.count_cons_of_ne h1]; exact ih

theorem scanRaw_raw {s : Str} (h : 96 ∉ s) (r : Str) : scanRaw (s ++ 96 :: r) = some r := by
  induction s with
  | nil => rfl
  | cons c s ih =>
    rw [List.cons_append, scanRaw, if_neg (fun hc => h (by simp [hc])), ih (fun hm => h (by simp [hm]))]

/-- The item for a literal. -/
def LitTok (q name : Str) (t : Tok) : Prop := (t = .str q ∨ t = .raw q) ∧ Quote.unquote q = some name

theorem lex_literal (hC : Std C) {q name : Str} (h : Literal q name) : ∃ t, LitTok q name t ∧
    ∀ (r : Str) (line d : Nat), C.run (.at (q ++ r) line d) = ⟨t, line⟩ :: C.run (.at r (line + breaks q) d) := by
  cases h with
  | @quoted s _ hs hu =>
    refine ⟨.str (34 :: s ++ [34]), ⟨.inl rfl, hu⟩, fun r line d => run_at hC ?_ (by simp) (by simp)⟩
    have he : 34 :: s ++ [34] ++ r = 34 :: (s ++ 34 :: r) := by simp
    have hq : breaks (34 :: s ++ [34]) = 0 := by
      have := breaks_quoted hs
      simp only [breaks] at this ⊢
      simp [this]
    unfold Cfg.lexInside
    dsimp only
    rw [hq, he, atRight_none hC (by decide) (by decide)]
    dsimp only
    rw [if_neg (by decide), if_neg (by decide), if_neg (by decide), if_neg (by decide), if_pos rfl, scanQuote_quoted hs]
    dsimp only
    rw [← he, upto_eq]; rfl
  | @raw s _ hs hu =>
    refine ⟨.raw (96 :: s ++ [96]), ⟨.inr rfl, hu⟩, fun r line d => run_at hC ?_ (by simp) (by simp)⟩
    have he : 96 :: s ++ [96] ++ r = 96 :: (s ++ 96 :: r) := by simp
    unfold Cfg.lexInside
    dsimp only
    rw [he, atRight_none hC (by decide) (by decide)]
    dsimp only
    rw [if_neg (by decide), if_neg (by decide), if_neg (by decide), if_neg (by decide), if_neg (by decide), if_pos rfl,
      scanRaw_raw hs]
    dsimp only
    rw [← he, upto_eq]; rfl

end Verif.Tmpl
