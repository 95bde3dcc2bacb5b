import Verif.Spec.TmplPlace
import Verif.Lemmas.TmplEnds
/-!
# The items of a template are written in its text
-/
namespace Verif.Tmpl
open Verif Verif.Xt

variable {C : Cfg}

theorem whiteByte_iff (c : UInt8) : isSpace c = true ↔ WhiteByte c := by
  simp [isSpace, WhiteByte, or_assoc]

theorem nl_eq (s : Str) : newlines s = lineBreaks s := rfl

@[simp] theorem lineBreaks_append (a b : Str) : lineBreaks (a ++ b) = lineBreaks a + lineBreaks b := by simp [lineBreaks]

@[simp] theorem lineBreaks_nil : lineBreaks [] = 0 := rfl

theorem Between.append {l r a b : Str} (ha : Between l r a) (hb : Between l r b) : Between l r (a ++ b) := by
  induction ha with
  | nil => exact hb
  | blank hc _ ih => exact .blank hc ih
  | opening hc _ ih => exact .opening hc ih
  | closing hc _ ih => exact .closing hc ih
  | comment ho hc hm _ ih =>
    rw [List.append_assoc _ _ b]
    exact .comment ho hc hm ih

theorem Between.blanks {l r : Str} : ∀ {s : Str}, (∀ c ∈ s, isSpace c = true) → Between l r s
  | [], _ => .nil
  | c :: s, h => .blank ((whiteByte_iff c).mp (h c (by simp))) (Between.blanks fun x hx => h x (by simp [hx]))

theorem Laid.gap {l r g s : Str} {b : Bool} {line : Nat} {is : List Item} (hg : Between l r g)
    (h : Laid l r b (line + lineBreaks g) s is) : Laid l r b line (g ++ s) is := by
  cases h with
  | eof hg' =>
    have := Laid.eof (line := line) (hg.append hg')
    rwa [lineBreaks_append, ← Nat.add_assoc] at this
  | err => exact .err ..
  | @item _ _ _ g' t s _ _ hg' ht hm h =>
    have := Laid.item (line := line) (hg.append hg') ht hm (by rw [lineBreaks_append, ← Nat.add_assoc]; exact h)
    rw [lineBreaks_append, ← Nat.add_assoc] at this
    simpa only [List.append_assoc] using this

/-- The item is an error, or the end of the text, or is written next in the text. -/
def Lay (C : Cfg) (l : Lx) (x : Item × Lx) : Prop :=
  x.1.tok = .err ∨ (x.1.tok = .eof ∧ l.inside = false ∧ Between C.left C.right l.rest ∧ x.1.line = l.line + lineBreaks l.rest) ∨
  ∃ g t g', Mode l.inside x.1.tok x.2.inside ∧ Between C.left C.right g ∧ Spelled C.left C.right x.1.tok t ∧ Between C.left C.right g' ∧
    l.rest = g ++ t ++ (g' ++ x.2.rest) ∧ x.1.line = l.line + lineBreaks g ∧ x.2.line = x.1.line + lineBreaks t + lineBreaks g'

theorem lay_fail (l : Lx) : Lay C l l.fail := .inl rfl

theorem lay_ite {l : Lx} {c : Prop} [Decidable c] {a b : Item × Lx} (h1 : c → Lay C l a) (h2 : ¬c → Lay C l b) :
    Lay C l (if c then a else b) := by
  by_cases h : c
  · rw [if_pos h]; exact h1 h
  · rw [if_neg h]; exact h2 h

/-- An item that begins here. -/
theorem lay_here {l : Lx} {k : Tok} {x : Lx} (hm : Mode l.inside k x.inside) (t : Str) (hs : l.rest = t ++ x.rest) (ht : Spelled C.left C.right k t)
    (hl : x.line = l.line + lineBreaks t) : Lay C l (⟨k, l.line⟩, x) :=
  .inr (.inr ⟨[], t, [], hm, .nil, ht, .nil, by simpa using hs, rfl, by simpa using hl⟩)

theorem lay_emit {l : Lx} {k : Tok} {r : Str} (hm : Mode l.inside k l.inside) (t : Str) (hs : l.rest = t ++ r) (ht : Spelled C.left C.right k t)
    (hl : lineBreaks t = 0) : Lay C l (l.emit k r) :=
  lay_here hm t hs ht (by rw [hl]; rfl)

theorem opening_mark (s : Str) : OpenMark (opening s).1 := by
  unfold opening
  split
  · next h =>
    obtain ⟨c, t, rfl, hc⟩ := leftTrim_spec h
    exact .inr ⟨c, (whiteByte_iff c).mp hc, rfl⟩
  · exact .inl rfl

theorem OpenMark.gap {l r m : Str} (h : OpenMark m) : Between l r m := by
  rcases h with rfl | ⟨c, hc, rfl⟩
  · exact .nil
  · exact .opening hc .nil

theorem CloseMark.gap {l r m : Str} (h : CloseMark m) : Between l r m := by
  rcases h with rfl | ⟨c, hc, rfl⟩
  · exact .nil
  · exact .closing hc .nil

theorem rightTrim_spec {s : Str} (h : rightTrim s = true) : ∃ c t, s = c :: 45 :: t ∧ isSpace c = true := by
  unfold rightTrim at h
  split at h
  · exact ⟨_, _, rfl, h⟩
  · cases h

theorem atRight_mark {s : Str} {b : Bool} (h : C.atRight s = some b) :
    ∃ m t, s = m ++ C.right ++ t ∧ m = (if b then s.take 2 else []) ∧ CloseMark m := by
  unfold Cfg.atRight at h
  split at h
  · next hc =>
    cases h
    rw [Bool.and_eq_true] at hc
    obtain ⟨t, ht⟩ := hasPrefix_iff.mp hc.2
    obtain ⟨c, r, rfl, hsp⟩ := rightTrim_spec hc.1
    exact ⟨[c, 45], t, by simpa using ht, rfl, .inr ⟨c, (whiteByte_iff c).mp hsp, rfl⟩⟩
  · split at h
    · next hp =>
      cases h
      obtain ⟨t, ht⟩ := hasPrefix_iff.mp hp
      exact ⟨[], t, by simpa using ht, by simp, .inl rfl⟩
    · cases h

theorem lay_right' (hr : lineBreaks C.right = 0) (l : Lx) (hin : l.inside = true) (b : Bool) {m t : Str} (hs : l.rest = m ++ C.right ++ t)
    (hm : m = if b then l.rest.take 2 else []) (hg : CloseMark m) : Lay C l (C.lexRight l b) := by
  refine .inr (.inr ⟨m, C.right, (if b then t.takeWhile isSpace else []), hin ▸ .right, hg.gap, .right, ?_, ?_, ?_, ?_⟩)
  · split
    · exact Between.blanks fun c hc => takeWhile_all isSpace t c hc
    · exact .nil
  · have hd : l.rest.drop ((if b then l.rest.take 2 else []).length + C.right.length) = t := by
      rw [← hm, hs, ← List.length_append, List.drop_left]
    simp only [Cfg.lexRight, hd]
    conv => lhs; rw [hs]
    congr 1
    cases b
    · simp
    · simp [takeDrop]
  · simp only [Cfg.lexRight, ← hm]; rfl
  · have hd : l.rest.drop ((if b then l.rest.take 2 else []).length + C.right.length) = t := by
      rw [← hm, hs, ← List.length_append, List.drop_left]
    simp only [Cfg.lexRight, hd]; rw [← hm, hr]; rfl

theorem lay_right (hr : lineBreaks C.right = 0) (l : Lx) (hin : l.inside = true) {b : Bool} (h : C.atRight l.rest = some b) :
    Lay C l (C.lexRight l b) := by
  obtain ⟨m, t, h1, h2, h3⟩ := atRight_mark h
  exact lay_right' hr l hin b h1 h2 h3

/-! ## Texts -/

theorem cut_first {sub : Str} (hsub : sub ≠ []) : ∀ {s a b : Str}, cut sub s = some (a, b) → ¬∃ x y, a = x ++ sub ++ y
  | [], a, b, h => by
    rw [cut, if_neg hsub] at h; cases h
  | c :: s, a, b, h => by
    rw [cut] at h
    split at h
    · cases h
      rintro ⟨x, y, h⟩
      have := congrArg List.length h
      have := List.length_pos_iff.mpr hsub
      simp at *
      omega
    · next hn =>
      rw [Option.map_eq_some_iff] at h
      obtain ⟨⟨a', b'⟩, hc, h⟩ := h
      cases h
      have ih := cut_first hsub hc
      have hs := cut_spec hc
      rintro ⟨x, y, h⟩
      cases x with
      | nil =>
        apply hn
        rw [hasPrefix_iff]
        refine ⟨y ++ sub ++ b', ?_⟩
        dsimp only at h
        rw [hs]
        simp only [← List.append_assoc, ← List.cons_append]
        rw [h]; simp
      | cons z x =>
        rw [List.cons_append, List.cons_append, List.cons.injEq] at h
        exact ih ⟨x, y, h.2⟩

theorem comment_gap {s r : Str} {line line' : Nat} {o : Str} (ho : OpenMark o) (h : C.comment s line = some (r, line')) :
    ∃ g, Between C.left C.right (C.left ++ o ++ b!"/*" ++ g) ∧ s = g ++ r ∧ line' = line + lineBreaks g := by
  unfold Cfg.comment at h
  split at h
  · cases h
  · next text rest hc =>
    have hs := cut_spec hc
    have hf := cut_first (by decide) hc
    have hb : lineBreaks (b!"*/") = 0 := rfl
    split at h
    · cases h
    · next ha =>
      obtain ⟨m, t, h1, h2, h3⟩ := atRight_mark ha
      have h2 : m = [] := by simpa using h2
      subst h2
      cases h
      refine ⟨text ++ b!"*/" ++ C.right, ?_, ?_, ?_⟩
      · have := Between.comment (left := C.left) (right := C.right) ho h3 hf .nil
        simpa only [List.append_assoc, List.append_nil, List.nil_append] using this
      · rw [h1] at hs
        rw [hs, h1]; simp
      · simp only [lineBreaks_append, hb, nl_eq]; omega
    · next ha =>
      obtain ⟨m, t, h1, h2, h3⟩ := atRight_mark ha
      dsimp only at h
      have h2 : rest.take 2 = m := by simpa using h2.symm
      have hl : m.length = 2 := by
        rcases h3 with rfl | ⟨c, -, rfl⟩
        · exfalso
          unfold Cfg.atRight at ha
          split at ha
          · next hc =>
            rw [Bool.and_eq_true] at hc
            obtain ⟨c, u, rfl, -⟩ := rightTrim_spec hc.1
            simp at h2
          · split at ha <;> cases ha
        · rfl
      have hd : rest.drop (2 + C.right.length) = t := by
        rw [h1, ← hl, ← List.length_append, List.drop_left]
      rw [hd, h2] at h
      cases h
      have htw : t.takeWhile isSpace ++ t.dropWhile isSpace = t := List.takeWhile_append_dropWhile
      refine ⟨text ++ b!"*/" ++ m ++ C.right ++ t.takeWhile isSpace, ?_, ?_, ?_⟩
      · have := Between.comment (left := C.left) (right := C.right) ho h3 hf
          (Between.blanks fun c hc => takeWhile_all isSpace t c hc)
        simpa only [List.append_assoc] using this
      · conv => lhs; rw [hs, h1, ← htw]
        simp
      · simp only [lineBreaks_append, hb, nl_eq]; omega

theorem trimEnd_spec (s : Str) : ∃ g, s = trimEnd s ++ g ∧ ∀ c ∈ g, isSpace c = true := by
  have h : s.reverse.takeWhile isSpace ++ s.reverse.dropWhile isSpace = s.reverse := List.takeWhile_append_dropWhile
  refine ⟨(s.reverse.takeWhile isSpace).reverse, ?_, fun c hc => takeWhile_all isSpace s.reverse c (by simpa using hc)⟩
  rw [trimEnd, ← List.reverse_append, h, List.reverse_reverse]

theorem Lay.gap {l l0 : Lx} {g : Str} {x : Item × Lx} (hg : Between C.left C.right g) (hs : l0.rest = g ++ l.rest)
    (hl : l.line = l0.line + lineBreaks g) (hi : l.inside = l0.inside) (h : Lay C l x) : Lay C l0 x := by
  rcases h with h | ⟨h1, hin, h2, h3⟩ | ⟨g1, t, g2, hm, h1, h2, h3, h4, h5, h6⟩
  · exact .inl h
  · refine .inr (.inl ⟨h1, hi ▸ hin, ?_, ?_⟩)
    · rw [hs]; exact hg.append h2
    · rw [h3, hl, hs, lineBreaks_append, Nat.add_assoc]
  · refine .inr (.inr ⟨g ++ g1, t, g2, hi ▸ hm, hg.append h1, h2, h3, ?_, ?_, h6⟩)
    · rw [hs, h4]; simp
    · rw [h5, hl, lineBreaks_append, Nat.add_assoc]

theorem lay_text (hl : lineBreaks C.left = 0) : ∀ (n : Nat) (l : Lx), l.inside = false → Lay C l (C.lexText n l)
  | 0, l, _ => lay_fail l
  | n + 1, l, hin => by
    rw [Cfg.lexText]
    cases hc : cut C.left l.rest with
    | none =>
      refine lay_ite (fun h => .inr (.inl ⟨rfl, hin, ?_, ?_⟩)) fun h => lay_here (by rw [hin]; exact .text _) l.rest (by simp) (.text _ h) rfl
      · rw [h]; exact .nil
      · rw [h]; rfl
    | some ba =>
      obtain ⟨before, after⟩ := ba
      have hr := cut_spec hc
      obtain ⟨ho1, -⟩ := opening_spec after
      have ho2 := opening_mark after
      obtain ⟨g, hg1, hg2⟩ : ∃ g, before = (if leftTrim after then trimEnd before else before) ++ g ∧
          ∀ c ∈ g, isSpace c = true := by
        split
        · exact trimEnd_spec before
        · exact ⟨[], by simp, by simp⟩
      dsimp only
      generalize (if leftTrim after = true then trimEnd before else before) = text at *
      refine lay_ite (fun ht => ?_) fun ht => ?_
      · refine .inr (.inr ⟨[], text, g, by rw [hin]; exact .text _, .nil, .text _ ht, Between.blanks hg2, ?_, rfl, ?_⟩)
        · rw [hr]; conv => lhs; rw [hg1]
          simp
        · dsimp only; conv => lhs; rw [hg1]
          rw [nl_eq, lineBreaks_append, Nat.add_assoc]
      · have ht : text = [] := by simpa using ht
        subst ht
        rw [List.nil_append] at hg1
        subst hg1
        have hgap := Between.blanks (l := C.left) (r := C.right) hg2
        refine lay_ite (fun hp => ?_) fun hp => ?_
        · split
          · exact lay_fail l
          · next rest line hcm =>
            obtain ⟨g, h1, h2, h3⟩ := comment_gap ho2 hcm
            refine Lay.gap (l := { l with rest, line }) (hgap.append h1) ?_ ?_ rfl (lay_text hl n { l with rest, line } hin)
            · obtain ⟨u, hu⟩ := hasPrefix_iff.mp hp
              rw [hu] at h2
              have h2' : u = g ++ rest := by simpa using h2
              have : after = (opening after).1 ++ (b!"/*" ++ (g ++ rest)) := by rw [← h2', ← hu]; exact ho1
              rw [hr]; conv => lhs; rw [this]
              simp
            · rw [h3]
              simp only [lineBreaks_append, nl_eq, show lineBreaks (b!"/*") = 0 from rfl]; omega
        · refine .inr (.inr ⟨before, C.left, (opening after).1, by rw [hin]; exact .left, hgap, .left, ho2.gap, ?_, rfl, ?_⟩)
          · rw [hr]; dsimp only; rw [← ho1]
          · dsimp only; rw [hl]; rfl

/-! ## Inside an action -/

theorem word_text {w : Str} (h : ∀ x ∈ w, x.toNat < 128 → isWordByte x = true) : WordText w := by
  intro x hx hl
  have := h x hx hl
  simp only [isWordByte, isIdentStart, Bool.or_eq_true, Bool.and_eq_true, decide_eq_true_eq, beq_iff_eq] at this
  tauto

theorem word_breaks {w : Str} (h : WordText w) : lineBreaks w = 0 := by
  rw [lineBreaks, List.count_eq_zero]
  intro h10
  have := h 10 h10 (by decide)
  revert this; decide

theorem scanQuote_line (q : UInt8) (hq : q ≠ 10) : ∀ (s : Str) {r : Str}, scanQuote q s = some r →
    ∃ a, s = a ++ [q] ++ r ∧ lineBreaks (a ++ [q]) = 0
  | [], r, h => by rw [scanQuote] at h; cases h
  | c :: s, r, h => by
    unfold scanQuote at h
    split at h
    · cases h
    · next c' s' heq =>
      cases heq
      split at h
      · cases h
      · next hn =>
        obtain ⟨a, ha, hb⟩ := scanQuote_line q hq s' h
        refine ⟨92 :: c' :: a, by rw [ha]; simp, ?_⟩
        simp only [lineBreaks, List.cons_append] at *
        rw [List.count_cons_of_ne (by decide), List.count_cons_of_ne hn, hb]
    · next c' s' hne heq =>
      cases heq
      split at h
      · cases h
      · next hn =>
        split at h
        · next hq' =>
          cases h
          exact ⟨[], by rw [hq']; rfl, by simp [lineBreaks, hq]⟩
        · obtain ⟨a, ha, hb⟩ := scanQuote_line q hq s h
          refine ⟨c :: a, by rw [ha]; simp, ?_⟩
          simp only [Bool.or_eq_true, decide_eq_true_eq, not_or] at hn
          simp only [lineBreaks, List.cons_append] at *
          rw [List.count_cons_of_ne hn.2, hb]

theorem scanRaw_free : ∀ (s : Str) {r : Str}, scanRaw s = some r → ∃ a, s = a ++ [96] ++ r ∧ 96 ∉ a
  | [], r, h => by rw [scanRaw] at h; cases h
  | c :: s, r, h => by
    rw [scanRaw] at h
    split at h
    · next hq => cases h; exact ⟨[], by rw [hq]; rfl, by simp⟩
    · next hq =>
      obtain ⟨a, ha, hn⟩ := scanRaw_free s h
      exact ⟨c :: a, by rw [ha]; simp, by simp [hn, Ne.symm hq]⟩

theorem keyword_text {w : Str} {k : Kw} (h : keyword w = some k) : w = k.text := by
  unfold keyword at h
  repeat (split at h; (cases h; assumption))
  cases h

theorem word_spelled {w : Str} (hne : w ≠ []) (hw : WordText w) : Spelled C.left C.right (C.word w) w := by
  unfold Cfg.word
  split
  · next hk =>
    split
    · exact .ident _ _ hne hw
    · rw [keyword_text hk]; exact .kw _
  · next hk =>
    split
    · exact .ident _ _ hne hw
    · rw [keyword_text hk]; exact .kw _
  · next hk => rw [keyword_text hk]; exact .kw _
  · split
    · next h => rw [h]; exact .nil
    · split
      · next h => exact .bool _ h
      · exact .ident _ _ hne hw

/-- None of the bytes of a number is a newline. -/
theorem digit_ten' : ∀ base, digitOf base 10 = false := by
  intro base
  unfold digitOf
  split
  · rfl
  · split
    · rfl
    · split <;> rfl

/-- What is skipped has no newline. -/
def Flat (s r : Str) : Prop := ∃ a, s = a ++ r ∧ lineBreaks a = 0

theorem Flat.refl (s : Str) : Flat s s := ⟨[], rfl, rfl⟩

theorem Flat.trans {a b c : Str} (h : Flat a b) (h' : Flat b c) : Flat a c := by
  obtain ⟨x, rfl, hx⟩ := h
  obtain ⟨y, rfl, hy⟩ := h'
  exact ⟨x ++ y, by simp, by simp [hx, hy]⟩

theorem dropWhile_flat {p : UInt8 → Bool} (hp : p 10 = false) (s : Str) : Flat s (s.dropWhile p) := by
  refine ⟨s.takeWhile p, List.takeWhile_append_dropWhile.symm, ?_⟩
  rw [lineBreaks, List.count_eq_zero]
  intro h
  have := takeWhile_all p s 10 h
  rw [hp] at this; cases this

theorem accept_flat {p : UInt8 → Bool} (hp : p 10 = false) {s r : Str} (h : accept p s = some r) : Flat s r := by
  unfold accept at h
  split at h
  · next c t =>
    split at h
    · next hc =>
      cases h
      refine ⟨[c], rfl, ?_⟩
      rw [lineBreaks, List.count_eq_zero]
      intro h10
      have : 10 = c := by simpa using h10
      subst this
      rw [hp] at hc; cases hc
    · cases h
  · cases h

theorem acceptD_flat {p : UInt8 → Bool} (hp : p 10 = false) (s : Str) : Flat s ((accept p s).getD s) := by
  cases h : accept p s with
  | none => exact Flat.refl s
  | some r => exact accept_flat hp h

theorem scanBase_flat (s : Str) : Flat s (scanBase s).2 := by
  unfold scanBase
  split
  · exact Flat.refl s
  · next r h =>
    have h0 := accept_flat (by decide) h
    split
    · next h1 => exact h0.trans (accept_flat (by decide) h1)
    · split
      · next h1 => exact h0.trans (accept_flat (by decide) h1)
      · split
        · next h1 => exact h0.trans (accept_flat (by decide) h1)
        · exact h0

theorem scanExp_flat (c : Prop) [Decidable c] {a b : UInt8} (ha : a ≠ 10) (hb : b ≠ 10) (s : Str) :
    Flat s (if c then scanExp a b s else s) := by
  split
  · unfold scanExp
    split
    · exact Flat.refl s
    · next r h =>
      refine (accept_flat ?_ h).trans ((acceptD_flat (by decide) _).trans (dropWhile_flat (digit_ten' _) _))
      simp [Ne.symm ha, Ne.symm hb]
  · exact Flat.refl s

theorem frac_flat (base : Nat) (s : Str) : Flat s (match accept (· == 46) s with
    | some r => r.dropWhile (digitOf base)
    | none => s) := by
  split
  · next r h => exact (accept_flat (by decide) h).trans (dropWhile_flat (digit_ten' _) _)
  · exact Flat.refl s

theorem numEnd_flat (s : Str) : Flat s (numEnd s) := by
  unfold numEnd
  dsimp only
  exact (acceptD_flat (by decide) _).trans ((scanBase_flat _).trans ((dropWhile_flat (digit_ten' _) _).trans
    ((frac_flat _ _).trans ((scanExp_flat _ (by decide) (by decide) _).trans
      ((scanExp_flat _ (by decide) (by decide) _).trans (acceptD_flat (by decide) _))))))

theorem scanNumber_flat {s r : Str} (h : C.scanNumber s = some r) : Flat s r := by
  unfold Cfg.scanNumber at h
  split at h
  · cases h
  · cases h; exact numEnd_flat s

theorem Flat.upto {s r : Str} (h : Flat s r) : s = Tmpl.upto s r ++ r ∧ lineBreaks (Tmpl.upto s r) = 0 := by
  obtain ⟨a, rfl, ha⟩ := h
  have : Tmpl.upto (a ++ r) r = a := by simp [Tmpl.upto]
  exact ⟨by rw [this], by rw [this]; exact ha⟩

theorem inner {l : Lx} (hin : l.inside = true) {t : Tok} (h : (∀ s, t ≠ .text s) ∧ t ≠ .left ∧ t ≠ .right ∧ t ≠ .eof ∧ t ≠ .err) :
    Mode l.inside t l.inside := by
  rw [hin]; exact .inner h.1 h.2.1 h.2.2.1 h.2.2.2.1 h.2.2.2.2

theorem lay_number (l : Lx) (hin : l.inside = true) : Lay C l (C.lexNumber l) := by
  unfold Cfg.lexNumber
  split
  · exact lay_fail l
  · next s hs =>
    have h1 := scanNumber_flat hs
    split
    · next c t =>
      split
      · split
        · exact lay_fail l
        · next s' hs' =>
          have h2 := (h1.trans (scanNumber_flat hs')).upto
          exact lay_ite (fun _ => lay_emit (inner hin (by simp)) _ h2.1 (.complex _) h2.2) fun _ => lay_fail l
      · exact lay_emit (inner hin (by simp)) _ h1.upto.1 (.num _) h1.upto.2
    · obtain ⟨a, ha, hb⟩ := h1
      rw [List.append_nil] at ha
      exact lay_emit (inner hin (by simp)) _ (by simp) (.num _) (by rw [ha]; exact hb)

theorem lay_name (hC : C.Ascii) (l : Lx) (hin : l.inside = true) {d : UInt8} (hd : d ≠ 10) {s : Str} (hs : l.rest = d :: s) {single : Tok}
    {named : Str → Tok} (h1 : Spelled C.left C.right single [d])
    (h2 : ∀ w, WordText w → Spelled C.left C.right (named w) (d :: w)) (h3 : Mode true single true)
    (h4 : ∀ w, Mode true (named w) true) : Lay C l (C.lexName l s single named) := by
  unfold Cfg.lexName
  refine lay_ite (fun _ => lay_emit (by rw [hin]; exact h3) [d] hs h1 (by simp [lineBreaks, hd])) fun _ => ?_
  obtain ⟨s1, -, s3, -⟩ := span_spec hC s
  have hw := word_text s3
  dsimp only
  refine lay_ite (fun _ => lay_emit (by rw [hin]; exact h4 _) (d :: (C.span s).1) ?_ (h2 _ hw) ?_) fun _ => lay_fail l
  · rw [hs, List.cons_append, ← s1]
  · have := word_breaks hw
    rw [lineBreaks] at *
    rw [List.count_cons_of_ne hd]; exact this

theorem word_inner (w : Str) : (∀ s, C.word w ≠ .text s) ∧ C.word w ≠ .left ∧ C.word w ≠ .right ∧ C.word w ≠ .eof ∧
    C.word w ≠ .err := by
  unfold Cfg.word
  repeat' split
  all_goals simp

theorem lay_ident (hC : C.Ascii) (l : Lx) (hin : l.inside = true) (ha : C.alnumAt l.rest = true) : Lay C l (C.lexIdent l) := by
  obtain ⟨s1, -, s3, s4⟩ := span_spec hC l.rest
  have hw := word_text s3
  unfold Cfg.lexIdent
  exact lay_ite (fun _ => lay_emit (inner hin (word_inner _)) _ s1 (word_spelled (s4 ha) hw) (word_breaks hw)) fun _ => lay_fail l

theorem lay_space (hr : lineBreaks C.right = 0) (l : Lx) (hin : l.inside = true) {c : UInt8} {s : Str} (hs : l.rest = c :: s) (hc : isSpace c = true) :
    Lay C l (C.lexSpace l) := by
  have hsp : l.rest.takeWhile isSpace ++ l.rest.dropWhile isSpace = l.rest := List.takeWhile_append_dropWhile
  have hall := takeWhile_all isSpace l.rest
  have hne : l.rest.takeWhile isSpace ≠ [] := by rw [hs, List.takeWhile_cons, if_pos hc]; simp
  unfold Cfg.lexSpace
  dsimp only
  refine lay_ite (fun hm => lay_ite (fun h1 => ?_) fun h1 => ?_) fun _ => ?_
  · obtain ⟨x, hx⟩ := List.length_eq_one_iff.mp h1
    rw [hx] at hsp
    unfold Cfg.marked at hm
    split at hm
    · next r hd =>
      rw [hd] at hsp
      obtain ⟨t, rfl⟩ := hasPrefix_iff.mp hm
      have hxb := (whiteByte_iff x).mp (hall x (by rw [hx]; simp))
      exact lay_right' hr l hin true (m := [x, 45]) (t := t) (by rw [← hsp]; simp) (by rw [← hsp]; rfl) (.inr ⟨x, hxb, rfl⟩)
    · cases hm
  · generalize hk : l.rest.takeWhile isSpace = sp at *
    have hlen : 2 ≤ sp.length := by
      have : sp.length ≠ 0 := fun h => hne (List.length_eq_zero_iff.mp h)
      omega
    have h2 : l.rest.take (sp.length - 1) = sp.take (sp.length - 1) := by
      conv => lhs; rw [← hsp]
      rw [List.take_append_of_le_length (by omega)]
    refine lay_here (inner hin (by simp)) (sp.take (sp.length - 1)) ?_ (.space _ ?_ fun x hx => (whiteByte_iff x).mp (hall x (List.mem_of_mem_take hx))) rfl
    · dsimp only; rw [← h2, List.take_append_drop]
    · intro h
      have := congrArg List.length h
      rw [List.length_take, List.length_nil] at this
      omega
  · exact lay_here (inner hin (by simp)) (l.rest.takeWhile isSpace) hsp.symm (.space _ hne fun x hx => (whiteByte_iff x).mp (hall x hx)) rfl

theorem upto_left (a r : Str) : upto (a ++ r) r = a := by simp [upto]

theorem lay_inside (hC : C.Ascii) (hr : lineBreaks C.right = 0) (l : Lx) (hin : l.inside = true) : Lay C l (C.lexInside l) := by
  unfold Cfg.lexInside
  split
  · next b hb => exact lay_ite (fun _ => lay_right hr l hin hb) fun _ => lay_fail l
  · split
    · exact lay_fail l
    · next c s hs =>
      refine lay_ite (fun hc => lay_space hr l hin hs hc) fun hnb => ?_
      refine lay_ite (fun h => ?_) fun _ => ?_
      · subst h; exact lay_emit (inner hin (by simp)) [61] hs .assign rfl
      refine lay_ite (fun h => ?_) fun _ => ?_
      · subst h
        split
        · next s' => exact lay_emit (inner hin (by simp)) [58, 61] hs .declare rfl
        · exact lay_fail l
      refine lay_ite (fun h => ?_) fun _ => ?_
      · subst h; exact lay_emit (inner hin (by simp)) [124] hs .pipe rfl
      refine lay_ite (fun h => ?_) fun _ => ?_
      · subst h
        split
        · next r hr =>
          obtain ⟨a, ha, hb⟩ := scanQuote_line _ (by decide) _ hr
          have hu : l.rest = (34 :: (a ++ [34])) ++ r := by rw [hs, ha]; rfl
          have : upto l.rest r = 34 :: (a ++ [34]) := by rw [hu]; exact upto_left _ _
          rw [this]
          exact lay_emit (inner hin (by simp)) _ hu (.str a) (by rw [lineBreaks] at *; rw [List.count_cons_of_ne (by decide)]; exact hb)
        · exact lay_fail l
      refine lay_ite (fun h => ?_) fun _ => ?_
      · subst h
        split
        · next r hr =>
          obtain ⟨a, ha, hb⟩ := scanRaw_free _ hr
          have hu : l.rest = (96 :: (a ++ [96])) ++ r := by rw [hs, ha]; rfl
          have : upto l.rest r = 96 :: (a ++ [96]) := by rw [hu]; exact upto_left _ _
          rw [this]
          exact lay_here (inner hin (by simp)) _ hu (.raw a hb) rfl
        · exact lay_fail l
      refine lay_ite (fun h => ?_) fun _ => ?_
      · subst h
        exact lay_name hC l hin (by decide) hs (.var [] (by intro x hx; cases hx)) (fun w hw => .var w hw) (.inner (by simp) (by simp) (by simp) (by simp) (by simp))
          fun _ => .inner (by simp) (by simp) (by simp) (by simp) (by simp)
      refine lay_ite (fun h => ?_) fun _ => ?_
      · subst h
        split
        · next r hr =>
          obtain ⟨a, ha, hb⟩ := scanQuote_line _ (by decide) _ hr
          have hu : l.rest = (39 :: (a ++ [39])) ++ r := by rw [hs, ha]; rfl
          have : upto l.rest r = 39 :: (a ++ [39]) := by rw [hu]; exact upto_left _ _
          rw [this]
          exact lay_emit (inner hin (by simp)) _ hu (.rune a) (by rw [lineBreaks] at *; rw [List.count_cons_of_ne (by decide)]; exact hb)
        · exact lay_fail l
      refine lay_ite (fun h => ?_) fun _ => ?_
      · subst h
        split
        · exact lay_ite (fun _ => lay_number l hin) fun _ => lay_name hC l hin (by decide) hs .dot (fun w hw => .field w hw)
            (.inner (by simp) (by simp) (by simp) (by simp) (by simp)) fun _ => .inner (by simp) (by simp) (by simp) (by simp) (by simp)
        · exact lay_number l hin
      refine lay_ite (fun _ => lay_number l hin) fun hn => ?_
      refine lay_ite (fun ha => lay_ident hC l hin ha) fun _ => ?_
      refine lay_ite (fun h => ?_) fun _ => ?_
      · subst h; exact lay_here (inner hin (by simp)) [40] hs .lparen rfl
      refine lay_ite (fun h => ?_) fun _ => ?_
      · subst h; exact lay_ite (fun _ => lay_fail l) fun _ => lay_here (inner hin (by simp)) [41] hs .rparen rfl
      refine lay_ite (fun _ => lay_emit (inner hin (by simp)) [c] hs (.char c) ?_) fun _ => lay_fail l
      rw [lineBreaks, List.count_eq_zero]
      intro h
      have : 10 = c := by simpa using h
      subst this
      exact hnb rfl

theorem lay_next (hC : C.Ascii) (hl : lineBreaks C.left = 0) (hr : lineBreaks C.right = 0) (l : Lx) : Lay C l (C.next l) :=
  lay_ite (fun h => lay_inside hC hr l h) fun h => lay_text hl _ l (by simpa using h)

theorem laid_items (hC : C.Ascii) (hl : lineBreaks C.left = 0) (hr : lineBreaks C.right = 0) (hl' : C.left ≠ [])
    (hr' : C.right ≠ []) : ∀ (n : Nat) (l : Lx), l.rest.length < n → Laid C.left C.right l.inside l.line l.rest (C.itemsN n l)
  | 0, l, h => by omega
  | n + 1, l, h => by
    rw [Cfg.itemsN]
    have hlay := lay_next hC hl hr l
    have hprog := prog_next hl' hr' l
    generalize C.next l = x at *
    obtain ⟨⟨k, line⟩, l'⟩ := x
    dsimp only at *
    split
    · next he =>
      rcases hlay with h1 | ⟨h1, hin, h2, h3⟩ | ⟨g, t, g', -, -, h2, -⟩
      · dsimp only at h1; subst h1; exact .err ..
      · dsimp only at h1 h3; subst h1 h3; rw [hin]; exact .eof h2
      · exfalso
        rcases he with rfl | rfl <;> cases h2
    · next he =>
      rcases hlay with h1 | ⟨h1, -, -⟩ | ⟨g, t, g', hm, h1, h2, h3, h4, h5, h6⟩
      · exact absurd (.inr h1) he
      · exact absurd (.inl h1) he
      · have hlt : l'.rest.length < l.rest.length := by
          rcases hprog with h | h | h
          · exact absurd (.inl h) he
          · exact absurd (.inr h) he
          · exact h
        have ih := laid_items hC hl hr hl' hr' n l' (by omega)
        dsimp only at h5 h6
        rw [h4, h5]
        refine .item h1 h2 hm (Laid.gap h3 ?_)
        rw [h6, h5] at ih
        exact ih

/-- The items of a text are written in it. -/
theorem items_laid (hC : C.Ascii) (hl : lineBreaks C.left = 0) (hr : lineBreaks C.right = 0) (hl' : C.left ≠ [])
    (hr' : C.right ≠ []) (src : Str) : Laid C.left C.right false 1 src (C.items src) :=
  laid_items hC hl hr hl' hr' (src.length + 1) { rest := src } (Nat.lt_succ_self _)

end Verif.Tmpl
