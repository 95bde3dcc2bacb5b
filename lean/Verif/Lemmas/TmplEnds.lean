import Verif.Lemmas.TmplScan
/-!
# The scanner of templates comes to an end
-/
namespace Verif.Tmpl
open Verif

variable {C : Cfg}

/-- The end, an error, or some of the text has been read. -/
def Prog (l : Lx) (x : Item × Lx) : Prop := x.1.tok = .eof ∨ x.1.tok = .err ∨ x.2.rest.length < l.rest.length

theorem prog_fail (l : Lx) : Prog l l.fail := .inr (.inl rfl)

theorem prog_ite {l : Lx} {c : Prop} [Decidable c] {a b : Item × Lx} (h1 : c → Prog l a) (h2 : ¬c → Prog l b) :
    Prog l (if c then a else b) := by
  by_cases h : c
  · rw [if_pos h]; exact h1 h
  · rw [if_neg h]; exact h2 h

theorem prog_lt {l : Lx} {x : Item × Lx} (h : x.2.rest.length < l.rest.length) : Prog l x := .inr (.inr h)

theorem suffix_lt {c : UInt8} {s r : Str} (h : r <:+ s) : r.length < (c :: s).length := by
  have := h.length_le; simp; omega

theorem scanQuote_suffix {q : UInt8} {s r : Str} (h : scanQuote q s = some r) : r <:+ s := by
  obtain ⟨a, rfl⟩ := scanQuote_spec q s h
  exact ⟨a ++ [q], rfl⟩

theorem scanRaw_suffix {s r : Str} (h : scanRaw s = some r) : r <:+ s := by
  obtain ⟨a, rfl⟩ := scanRaw_spec s h
  exact ⟨a ++ [96], rfl⟩

theorem spanN_len : ∀ (n : Nat) (s : Str), (C.spanN n s).2.length ≤ s.length
  | 0, _ => Nat.le_refl _
  | n + 1, s => by
    rw [Cfg.spanN]
    split
    · have := spanN_len n (s.drop (Utf8.decode s).2)
      simp only [List.length_drop] at this
      dsimp only; omega
    · exact Nat.le_refl _

theorem span_len (s : Str) : (C.span s).2.length ≤ s.length := spanN_len _ _

theorem span_lt {s : Str} (h : C.alnumAt s = true) : (C.span s).2.length < s.length := by
  have hne := alnumAt_ne h
  obtain ⟨h1, h2⟩ := Utf8.decode_width s hne
  rw [Cfg.span]
  cases hs : s.length with
  | zero => exact absurd (List.length_eq_zero_iff.mp hs) hne
  | succ n =>
    rw [Cfg.spanN, if_pos h]
    have := spanN_len (C := C) n (s.drop (Utf8.decode s).2)
    simp only [List.length_drop] at this
    dsimp only; omega

/-- A number begins with a sign, a digit or a point. -/
def NumStart (c : UInt8) : Prop := c = 46 ∨ c = 43 ∨ c = 45 ∨ 48 ≤ c ∧ c ≤ 57

theorem digit_ten : ∀ c : UInt8, 48 ≤ c → c ≤ 57 → digitOf 10 c = true := by
  apply u8; decide +kernel

theorem accept_self {p : UInt8 → Bool} {c : UInt8} (h : p c = true) (s : Str) : accept p (c :: s) = some s := by
  rw [accept, if_pos h]

theorem accept_none {p : UInt8 → Bool} {c : UInt8} (h : p c = false) (s : Str) : accept p (c :: s) = none := by
  rw [accept, h]; rfl

theorem numTail_suffix (base : Nat) (s : Str) :
    (accept (· == 105) (if base = 16 then scanExp 112 80 (if base = 10 then scanExp 101 69 s else s)
      else (if base = 10 then scanExp 101 69 s else s))).getD (if base = 16 then scanExp 112 80 (if base = 10 then scanExp 101 69 s else s)
      else (if base = 10 then scanExp 101 69 s else s)) <:+ s :=
  (acceptD_suffix _ _).trans ((ite_exp_suffix _ _ _ _).trans (ite_exp_suffix _ _ _ _))

theorem base_suffix_lt {c : UInt8} {s : Str} (h : 48 ≤ c ∧ c ≤ 57) :
    ((scanBase (c :: s)).2.dropWhile (digitOf (scanBase (c :: s)).1)) <:+ s := by
  unfold scanBase
  by_cases h0 : (c == 48) = true
  · rw [accept_self (p := (· == 48)) h0]
    dsimp only
    split
    · next h1 => exact (List.dropWhile_suffix _).trans (accept_suffix h1)
    · split
      · next h1 => exact (List.dropWhile_suffix _).trans (accept_suffix h1)
      · split
        · next h1 => exact (List.dropWhile_suffix _).trans (accept_suffix h1)
        · exact List.dropWhile_suffix _
  · rw [accept_none (p := (· == 48)) (by simpa using h0)]
    dsimp only
    rw [List.dropWhile_cons, if_pos (digit_ten c h.1 h.2)]
    exact List.dropWhile_suffix _

theorem numEnd_lt {c : UInt8} {s : Str} (h : NumStart c) : numEnd (c :: s) <:+ s := by
  unfold numEnd
  dsimp only
  refine (numTail_suffix _ _).trans ?_
  by_cases hsg : (c == 43 || c == 45) = true
  · rw [accept_self (p := fun c => c == 43 || c == 45) hsg]
    dsimp only [Option.getD_some]
    exact (frac_suffix _ _).trans ((List.dropWhile_suffix _).trans (scanBase_suffix _))
  · rw [accept_none (p := fun c => c == 43 || c == 45) (by simpa using hsg)]
    dsimp only [Option.getD_none]
    rcases h with h | h | h | h
    · subst h
      rw [show scanBase (46 :: s) = (10, 46 :: s) from rfl]
      dsimp only
      rw [List.dropWhile_cons, if_neg (by decide +kernel)]
      rw [accept_self (p := (· == 46)) rfl]
      exact List.dropWhile_suffix _
    · subst h; exact absurd rfl hsg
    · subst h; exact absurd rfl hsg
    · exact (frac_suffix _ _).trans (base_suffix_lt h)

theorem prog_number (l : Lx) {c : UInt8} {s : Str} (hs : l.rest = c :: s) (hc : NumStart c) : Prog l (C.lexNumber l) := by
  unfold Cfg.lexNumber
  split
  · exact prog_fail l
  · next r hr =>
    have h0 : r <:+ s := by
      unfold Cfg.scanNumber at hr
      split at hr
      · cases hr
      · cases hr; rw [hs]; exact numEnd_lt hc
    have h1 : ∀ r', r' <:+ r → r'.length < l.rest.length := by
      intro r' h'; rw [hs]; exact suffix_lt (h'.trans h0)
    split
    · split
      · split
        · exact prog_fail l
        · next r' hr' =>
          exact prog_ite (fun _ => prog_lt (h1 _ (scanNumber_spec hr').1)) fun _ => prog_fail l
      · exact prog_lt (h1 _ List.suffix_rfl)
    · exact prog_lt (by rw [hs]; exact Nat.zero_lt_succ _)

theorem prog_name (l : Lx) {c : UInt8} {s : Str} (hs : l.rest = c :: s) (single : Tok) (named : Str → Tok) :
    Prog l (C.lexName l s single named) := by
  unfold Cfg.lexName
  refine prog_ite (fun _ => prog_lt ?_) fun _ => ?_
  · rw [hs]; exact Nat.lt_succ_self _
  · refine prog_ite (fun _ => prog_lt ?_) fun _ => prog_fail l
    rw [hs]
    exact Nat.lt_succ_of_le (span_len s)

theorem prog_right (l : Lx) {b : Bool} (h : C.atRight l.rest = some b) (hr : C.right ≠ []) : Prog l (C.lexRight l b) := by
  refine prog_lt ?_
  obtain ⟨m, t, hs, hm, -⟩ := atRight_spec h
  have hpos : 0 < C.right.length := List.length_pos_iff.mpr hr
  have hlen : 0 < l.rest.length := by rw [hs]; simp; omega
  simp only [Cfg.lexRight, List.length_drop]
  omega

theorem prog_space (l : Lx) {c : UInt8} {s : Str} (hs : l.rest = c :: s) (hc : isSpace c = true) (hr : C.right ≠ []) :
    Prog l (C.lexSpace l) := by
  have hpos : 0 < C.right.length := List.length_pos_iff.mpr hr
  have hlen : 0 < l.rest.length := by rw [hs]; exact Nat.zero_lt_succ _
  have htw : 0 < (l.rest.takeWhile isSpace).length := by rw [hs, List.takeWhile_cons, if_pos hc]; exact Nat.zero_lt_succ _
  unfold Cfg.lexSpace
  refine prog_ite (fun _ => prog_ite (fun _ => prog_lt ?_) fun h => prog_lt ?_) fun _ => prog_lt ?_
  · simp only [Cfg.lexRight, List.length_drop]; omega
  · simp only [List.length_drop]; omega
  · dsimp only
    rw [← takeDrop, List.length_drop]; omega

theorem prog_inside (hr : C.right ≠ []) (l : Lx) : Prog l (C.lexInside l) := by
  unfold Cfg.lexInside
  split
  · next b hb => exact prog_ite (fun _ => prog_right l hb hr) fun _ => prog_fail l
  · split
    · exact prog_fail l
    · next c s hs =>
      have h1 : s.length < l.rest.length := by rw [hs]; exact Nat.lt_succ_self _
      have h2 : ∀ r, r <:+ s → r.length < l.rest.length := fun r h => by rw [hs]; exact suffix_lt h
      refine prog_ite (fun hc => prog_space l hs hc hr) fun _ => ?_
      refine prog_ite (fun _ => prog_lt h1) fun _ => ?_
      refine prog_ite (fun _ => ?_) fun _ => ?_
      · split
        · exact prog_lt (h2 _ (List.suffix_cons _ _))
        · exact prog_fail l
      refine prog_ite (fun _ => prog_lt h1) fun _ => ?_
      refine prog_ite (fun _ => ?_) fun _ => ?_
      · split
        · next h => exact prog_lt (h2 _ (scanQuote_suffix h))
        · exact prog_fail l
      refine prog_ite (fun _ => ?_) fun _ => ?_
      · split
        · next h => exact prog_lt (h2 _ (scanRaw_suffix h))
        · exact prog_fail l
      refine prog_ite (fun _ => prog_name l hs _ _) fun _ => ?_
      refine prog_ite (fun _ => ?_) fun _ => ?_
      · split
        · next h => exact prog_lt (h2 _ (scanQuote_suffix h))
        · exact prog_fail l
      refine prog_ite (fun h => ?_) fun _ => ?_
      · split
        · exact prog_ite (fun _ => prog_number l hs (.inl h)) fun _ => prog_name l hs _ _
        · exact prog_number l hs (.inl h)
      refine prog_ite (fun h => prog_number l hs (.inr h)) fun _ => ?_
      refine prog_ite (fun h => ?_) fun _ => ?_
      · unfold Cfg.lexIdent
        exact prog_ite (fun _ => prog_lt (span_lt h)) fun _ => prog_fail l
      refine prog_ite (fun _ => prog_lt h1) fun _ => ?_
      refine prog_ite (fun _ => prog_ite (fun _ => prog_fail l) fun _ => prog_lt h1) fun _ => ?_
      exact prog_ite (fun _ => prog_lt h1) fun _ => prog_fail l

/-! ## Texts -/

theorem opening_le (s : Str) : (opening s).2.length ≤ s.length := by
  unfold opening
  split
  · simp
  · exact Nat.le_refl _

theorem cut_len {sub s a b : Str} (h : cut sub s = some (a, b)) : s.length = a.length + sub.length + b.length := by
  rw [cut_spec h]; simp [Nat.add_assoc]

theorem prog_text (hl : C.left ≠ []) : ∀ (n : Nat) (l : Lx), Prog l (C.lexText n l)
  | 0, l => prog_fail l
  | n + 1, l => by
    have hpos : 0 < C.left.length := List.length_pos_iff.mpr hl
    rw [Cfg.lexText]
    cases hc : cut C.left l.rest with
    | none =>
      exact prog_ite (fun _ => .inl rfl) fun h => prog_lt (List.length_pos_iff.mpr h)
    | some ba =>
      obtain ⟨before, after⟩ := ba
      have hlen := cut_len hc
      have ho := opening_le after
      dsimp only
      refine prog_ite (fun ht => prog_lt ?_) fun _ => ?_
      · have : before ≠ [] := by
          rintro rfl
          apply ht
          split <;> rfl
        have := List.length_pos_iff.mpr this
        simp only [List.length_append]; omega
      refine prog_ite (fun _ => ?_) fun _ => prog_lt (by dsimp only; omega)
      split
      · exact prog_fail l
      · next rest line hcm =>
        have := (comment_suffix hcm).length_le
        rw [List.length_drop] at this
        rcases prog_text hl n { l with rest, line } with h | h | h
        · exact .inl h
        · exact .inr (.inl h)
        · exact prog_lt (by dsimp only at h; omega)

theorem prog_next (hl : C.left ≠ []) (hr : C.right ≠ []) (l : Lx) : Prog l (C.next l) :=
  prog_ite (fun _ => prog_inside hr l) fun _ => prog_text hl _ l

/-- A larger bound on the number of comments makes no difference. -/
theorem lexText_fuel (hl : C.left ≠ []) : ∀ (n : Nat) (l : Lx), l.rest.length + 1 ≤ n → C.lexText (n + 1) l = C.lexText n l
  | 0, l, h => by omega
  | n + 1, l, h => by
    have hpos : 0 < C.left.length := List.length_pos_iff.mpr hl
    conv => lhs; rw [Cfg.lexText]
    conv => rhs; rw [Cfg.lexText]
    cases hc : cut C.left l.rest with
    | none => rfl
    | some ba =>
      obtain ⟨before, after⟩ := ba
      have hlen := cut_len hc
      have ho := opening_le after
      dsimp only
      cases hcm : C.comment ((opening after).2.drop 2) (l.line + newlines before + newlines C.left + newlines (opening after).1) with
      | none => rfl
      | some rl =>
        obtain ⟨rest, line⟩ := rl
        have := (comment_suffix hcm).length_le
        rw [List.length_drop] at this
        dsimp only
        rw [lexText_fuel hl n { l with rest, line } (by dsimp only; omega)]

/-- The items end with the end of the text or an error. -/
theorem itemsN_end (hl : C.left ≠ []) (hr : C.right ≠ []) : ∀ (n : Nat) (l : Lx), l.rest.length < n →
    ∃ is i, C.itemsN n l = is ++ [i] ∧ (i.tok = .eof ∨ i.tok = .err)
  | 0, l, h => by omega
  | n + 1, l, h => by
    rw [Cfg.itemsN]
    dsimp only
    split
    · next he => exact ⟨[], _, rfl, he⟩
    · next he =>
      have : (C.next l).2.rest.length < l.rest.length := by
        rcases prog_next hl hr l with h | h | h
        · exact absurd (.inl h) he
        · exact absurd (.inr h) he
        · exact h
      obtain ⟨is, i, h1, h2⟩ := itemsN_end hl hr n (C.next l).2 (by omega)
      exact ⟨(C.next l).1 :: is, i, by rw [h1]; rfl, h2⟩

/-- A larger bound on the number of items makes no difference. -/
theorem itemsN_fuel (hl : C.left ≠ []) (hr : C.right ≠ []) : ∀ (n : Nat) (l : Lx), l.rest.length < n →
    C.itemsN (n + 1) l = C.itemsN n l
  | 0, l, h => by omega
  | n + 1, l, h => by
    conv => lhs; rw [Cfg.itemsN]
    conv => rhs; rw [Cfg.itemsN]
    dsimp only
    split
    · rfl
    · next he =>
      have : (C.next l).2.rest.length < l.rest.length := by
        rcases prog_next hl hr l with h | h | h
        · exact absurd (.inl h) he
        · exact absurd (.inr h) he
        · exact h
      rw [itemsN_fuel hl hr n _ (by omega)]

theorem mkCfg_ne (left right : Str) (has : Str → Bool) (letter digit : Nat → Bool) :
    (mkCfg left right has letter digit).left ≠ [] ∧ (mkCfg left right has letter digit).right ≠ [] := by
  unfold mkCfg
  constructor
  · dsimp only; split
    · simp
    · assumption
  · dsimp only; split
    · simp
    · assumption

end Verif.Tmpl
