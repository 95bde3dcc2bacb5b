import Verif.Spec.TmplText
import Verif.Lemmas.TmplEnds
/-!
# What the scanner makes of the parts of an action
-/
namespace Verif.Tmpl
open Verif Verif.Xt

variable {C : Cfg}

/-- The delimiters. -/
abbrev Cfg.delims (C : Cfg) : Delims := ⟨C.left, C.right⟩

/-- A first byte of a right delimiter. -/
def closing (c : UInt8) : Bool := decide (c.toNat < 128) && !isSpace c && !isWordByte c && !(b!"\"$'()+,-.:=`|".contains c)

/-- Plain delimiters, ASCII letters and digits. -/
structure Std (C : Cfg) : Prop where
  left : ∃ c t, C.left = c :: t ∧ isSpace c = false
  right : ∃ c t, C.right = c :: t ∧ closing c = true
  leftLine : newlines C.left = 0
  rightLine : newlines C.right = 0
  ascii : C.Ascii

theorem Std.ne (h : Std C) : C.left ≠ [] ∧ C.right ≠ [] := by
  obtain ⟨c, t, h1, -⟩ := h.left
  obtain ⟨c', t', h2, -⟩ := h.right
  rw [h1, h2]; simp

theorem closing_facts : ∀ c : UInt8, closing c = true → c.toNat < 128 ∧ isSpace c = false ∧ isWordByte c = false ∧ c ≠ 34 ∧ c ≠ 36 ∧
    c ≠ 40 ∧ c ≠ 41 ∧ c ≠ 43 ∧ c ≠ 44 ∧ c ≠ 45 ∧ c ≠ 46 ∧ c ≠ 58 ∧ c ≠ 61 ∧ c ≠ 96 ∧ c ≠ 124 := by
  apply u8; decide +kernel

/-- A text that begins with a byte no right delimiter begins with does not begin with the right delimiter. -/
theorem Std.off (h : Std C) {c : UInt8} (hc : closing c = false) (s : Str) : GoStr.hasPrefix (c :: s) C.right = false := by
  obtain ⟨c', t', h2, h3⟩ := h.right
  have : c' ≠ c := by rintro rfl; rw [hc] at h3; cases h3
  rw [Bool.eq_false_iff]
  intro hp
  obtain ⟨u, hu⟩ := hasPrefix_iff.mp hp
  rw [h2] at hu
  cases hu
  exact this rfl

theorem space_not_closing : ∀ c : UInt8, isSpace c = true → closing c = false := by
  apply u8; decide +kernel

theorem has_self (s r : Str) : GoStr.hasPrefix (s ++ r) s = true := hasPrefix_iff.mpr ⟨r, rfl⟩

/-- The items from a state on. -/
def Cfg.run (C : Cfg) (l : Lx) : List Item := C.itemsN (l.rest.length + 1) l

theorem itemsN_run (hC : Std C) {n : Nat} {l : Lx} (h : l.rest.length < n) : C.itemsN n l = C.run l := by
  obtain ⟨k, rfl⟩ : ∃ k, n = l.rest.length + 1 + k := ⟨n - (l.rest.length + 1), by omega⟩
  induction k with
  | zero => rfl
  | succ k ih =>
    rw [← ih (by omega), ← Nat.add_assoc]
    exact itemsN_fuel hC.ne.1 hC.ne.2 _ _ (by omega)

theorem run_next (hC : Std C) {l l' : Lx} {i : Item} (h : C.next l = (i, l')) (h1 : i.tok ≠ .eof) (h2 : i.tok ≠ .err) :
    C.run l = i :: C.run l' := by
  have hp := prog_next hC.ne.1 hC.ne.2 l
  rw [h] at hp
  have hp : l'.rest.length < l.rest.length := by
    rcases hp with hp | hp | hp
    · exact absurd hp h1
    · exact absurd hp h2
    · exact hp
  rw [Cfg.run, Cfg.itemsN, h]
  dsimp only
  rw [if_neg (by simp [h1, h2]), itemsN_run hC hp]

/-- A state inside an action. -/
abbrev Lx.at (s : Str) (line depth : Nat) : Lx := { rest := s, line, inside := true, depth }

theorem run_at (hC : Std C) {s : Str} {line d : Nat} {l' : Lx} {t : Tok} {k : Nat} (h : C.lexInside (.at s line d) = (⟨t, k⟩, l'))
    (h1 : t ≠ .eof) (h2 : t ≠ .err) : C.run (.at s line d) = ⟨t, k⟩ :: C.run l' :=
  run_next hC (by rw [Cfg.next]; exact h) h1 h2

theorem atRight_none (hC : Std C) {c : UInt8} {s : Str} (h1 : isSpace c = false) (h2 : closing c = false) : C.atRight (c :: s) = none := by
  have : rightTrim (c :: s) = false := by
    unfold rightTrim
    split
    · next heq => cases heq; exact h1
    · rfl
  rw [Cfg.atRight, this, hC.off h2]
  rfl

theorem breaks_append (s t : Str) : breaks (s ++ t) = breaks s + breaks t := List.count_append

theorem newlines_eq (s : Str) : newlines s = breaks s := rfl

theorem blank_space {c : UInt8} : isSpace c = true ↔ (c = 32 ∨ c = 9 ∨ c = 13 ∨ c = 10) := by
  simp [isSpace, or_assoc]

theorem blank_iff {s : Str} : Blank s ↔ ∀ x ∈ s, isSpace x = true := by
  simp [Blank, blank_space]

theorem Blank.cons {x : UInt8} {s : Str} (h : Blank (x :: s)) : isSpace x = true ∧ Blank s :=
  ⟨blank_iff.mp h x (by simp), fun y hy => h y (by simp [hy])⟩

/-! ## Punctuation -/

theorem lex_pipe (hC : Std C) (s : Str) (line d : Nat) :
    C.run (.at (124 :: s) line d) = ⟨.pipe, line⟩ :: C.run (.at s line d) := by
  refine run_at hC ?_ (by simp) (by simp)
  unfold Cfg.lexInside
  rw [atRight_none hC (by decide) (by decide)]
  rfl

theorem lex_comma (hC : Std C) (s : Str) (line d : Nat) :
    C.run (.at (44 :: s) line d) = ⟨.char 44, line⟩ :: C.run (.at s line d) := by
  refine run_at hC ?_ (by simp) (by simp)
  unfold Cfg.lexInside
  rw [atRight_none hC (by decide) (by decide)]
  have : C.alnumAt (44 :: s) = false := by
    rw [Cfg.alnumAt, decode_low (by decide)]
    dsimp only
    rw [alnum_low hC.ascii (by decide)]; rfl
  dsimp only
  rw [if_neg (by decide), if_neg (by decide), if_neg (by decide), if_neg (by decide), if_neg (by decide), if_neg (by decide),
    if_neg (by decide), if_neg (by decide), if_neg (by decide), if_neg (by decide), this]
  rfl

theorem lex_lparen (hC : Std C) (s : Str) (line d : Nat) :
    C.run (.at (40 :: s) line d) = ⟨.lparen, line⟩ :: C.run (.at s line (d + 1)) := by
  refine run_at hC ?_ (by simp) (by simp)
  unfold Cfg.lexInside
  rw [atRight_none hC (by decide) (by decide)]
  have : C.alnumAt (40 :: s) = false := by
    rw [Cfg.alnumAt, decode_low (by decide)]
    dsimp only
    rw [alnum_low hC.ascii (by decide)]; rfl
  dsimp only
  rw [if_neg (by decide), if_neg (by decide), if_neg (by decide), if_neg (by decide), if_neg (by decide), if_neg (by decide),
    if_neg (by decide), if_neg (by decide), if_neg (by decide), if_neg (by decide), this]
  rfl

theorem lex_rparen (hC : Std C) (s : Str) (line d : Nat) :
    C.run (.at (41 :: s) line (d + 1)) = ⟨.rparen, line⟩ :: C.run (.at s line d) := by
  refine run_at hC ?_ (by simp) (by simp)
  unfold Cfg.lexInside
  rw [atRight_none hC (by decide) (by decide)]
  have : C.alnumAt (41 :: s) = false := by
    rw [Cfg.alnumAt, decode_low (by decide)]
    dsimp only
    rw [alnum_low hC.ascii (by decide)]; rfl
  dsimp only
  rw [if_neg (by decide), if_neg (by decide), if_neg (by decide), if_neg (by decide), if_neg (by decide), if_neg (by decide),
    if_neg (by decide), if_neg (by decide), if_neg (by decide), if_neg (by decide), this]
  rfl

theorem lex_declare (hC : Std C) (s : Str) (line d : Nat) :
    C.run (.at (58 :: 61 :: s) line d) = ⟨.declare, line⟩ :: C.run (.at s line d) := by
  refine run_at hC ?_ (by simp) (by simp)
  unfold Cfg.lexInside
  rw [atRight_none hC (by decide) (by decide)]
  rfl

theorem lex_assign (hC : Std C) (s : Str) (line d : Nat) :
    C.run (.at (61 :: s) line d) = ⟨.assign, line⟩ :: C.run (.at s line d) := by
  refine run_at hC ?_ (by simp) (by simp)
  unfold Cfg.lexInside
  rw [atRight_none hC (by decide) (by decide)]
  rfl

/-! ## White space -/

/-- Not white space, no bar of a trim marker, no comment. -/
def Solid (r : Str) : Prop :=
  ∃ c t, r = c :: t ∧ isSpace c = false ∧ c ≠ 47 ∧ (c = 45 → ∃ e u, t = e :: u ∧ isSpace e = false ∧ closing e = false)

theorem Solid.of {c : UInt8} {t : Str} (h : isSpace c = false ∧ c ≠ 45 ∧ c ≠ 47) : Solid (c :: t) :=
  ⟨c, t, rfl, h.1, h.2.2, fun e => absurd e h.2.1⟩

theorem Solid.append {r : Str} (h : Solid r) (s : Str) : Solid (r ++ s) := by
  obtain ⟨c, t, rfl, h1, h2, h3⟩ := h
  refine ⟨c, t ++ s, rfl, h1, h2, fun e => ?_⟩
  obtain ⟨x, u, rfl, hx⟩ := h3 e
  exact ⟨x, u ++ s, rfl, hx⟩

theorem span_blank {sp r : Str} (h : Blank sp) (hr : ∀ c t, r = c :: t → isSpace c = false) :
    (sp ++ r).takeWhile isSpace = sp ∧ (sp ++ r).dropWhile isSpace = r := by
  have h' := blank_iff.mp h
  constructor
  · rw [List.takeWhile_append_of_pos h']
    cases r with
    | nil => simp
    | cons c t => rw [List.takeWhile_cons, if_neg (by simp [hr c t rfl])]; simp
  · rw [List.dropWhile_append_of_pos h']
    cases r with
    | nil => simp
    | cons c t => rw [List.dropWhile_cons, if_neg (by simp [hr c t rfl])]

/-- The item for white space, if there is some. -/
def spaceTok (sp : Str) (line : Nat) : List Item := if sp = [] then [] else [⟨.space, line⟩]

theorem lex_blank (hC : Std C) {sp r : Str} (h : Blank sp) (hr : ∃ c t, r = c :: t ∧ isSpace c = false ∧ (c = 45 → GoStr.hasPrefix t C.right = false))
    (line d : Nat) :
    C.run (.at (sp ++ r) line d) = spaceTok sp line ++ C.run (.at r (line + breaks sp) d) := by
  cases sp with
  | nil => simp [spaceTok, breaks]
  | cons x sp =>
    obtain ⟨hx, hb⟩ := h.cons
    obtain ⟨c, t, rfl, hc, hc2⟩ := hr
    have hsp := span_blank h (r := c :: t) (by intro c' t' he; cases he; exact hc)
    refine run_at hC (t := .space) (k := line) ?_ (by simp) (by simp)
    have ha : C.atRight (x :: sp ++ c :: t) = none := by
      have h1 : (rightTrim (x :: sp ++ c :: t) && GoStr.hasPrefix ((x :: sp ++ c :: t).drop 2) C.right) = false := by
        rw [Bool.and_eq_false_iff]
        cases sp with
        | nil =>
          by_cases h45 : c = 45
          · exact .inr (hc2 h45)
          · left
            unfold rightTrim
            split
            · next y v heq =>
              simp only [List.cons_append, List.nil_append, List.cons.injEq] at heq; exact absurd heq.2.1 h45
            · rfl
        | cons z sp =>
          left
          unfold rightTrim
          split
          · next y v heq =>
            simp only [List.cons_append, List.cons.injEq] at heq
            have := hb.cons.1
            rw [heq.2.1] at this
            exact absurd this (by decide)
          · rfl
      rw [Cfg.atRight, h1, List.cons_append, hC.off (space_not_closing x hx)]
      rfl
    unfold Cfg.lexInside
    dsimp only
    rw [ha]
    simp only [List.cons_append] at hsp ⊢
    rw [if_pos hx, Cfg.lexSpace]
    dsimp only
    rw [hsp.1, hsp.2]
    have : C.marked (c :: t) = false := by
      unfold Cfg.marked
      split
      · next heq => cases heq; exact hc2 rfl
      · rfl
    rw [this]
    rfl

theorem lex_spaces (hC : Std C) {sp r : Str} (h : Blank sp) (hr : Solid r) (line d : Nat) :
    C.run (.at (sp ++ r) line d) = spaceTok sp line ++ C.run (.at r (line + breaks sp) d) := by
  obtain ⟨c, t, h1, h2, -, h3⟩ := hr
  refine lex_blank hC h ⟨c, t, h1, h2, fun e => ?_⟩ line d
  obtain ⟨x, u, rfl, -, hx⟩ := h3 e
  exact hC.off hx u

theorem atRight_plain (hC : Std C) (r : Str) : C.atRight (C.right ++ r) = some false := by
  obtain ⟨c, t, h1, h2⟩ := hC.right
  have : rightTrim (C.right ++ r) = false := by
    rw [h1, List.cons_append]
    unfold rightTrim
    split
    · next heq => rw [← (List.cons.inj heq).1]; exact (closing_facts c h2).2.1
    · rfl
  rw [Cfg.atRight, this, has_self]
  rfl

theorem atRight_trim (C : Cfg) {x : UInt8} (hx : isSpace x = true) (r : Str) : C.atRight (x :: 45 :: C.right ++ r) = some true := by
  rw [Cfg.atRight]
  have h1 : rightTrim (x :: 45 :: C.right ++ r) = true := hx
  have h2 : (x :: 45 :: C.right ++ r).drop 2 = C.right ++ r := rfl
  rw [h1, h2, has_self]
  rfl

/-- A state between actions, behind an action that trims or not. -/
def Lx.out (trim : Bool) (s : Str) (line : Nat) : Lx :=
  if trim then { rest := s.dropWhile isSpace, line := line + breaks (s.takeWhile isSpace) } else { rest := s, line }

theorem lex_close (hC : Std C) {c : Bool} {e : Str} (h : Close C.delims c e) (r : Str) (line : Nat) :
    ∃ k, C.run (.at (e ++ r) line 0) = ⟨.right, k⟩ :: C.run (.out c r (line + breaks e)) := by
  cases h with
  | plain =>
    refine ⟨line, run_at hC ?_ (by simp) (by simp)⟩
    unfold Cfg.lexInside
    dsimp only
    rw [atRight_plain hC]
    dsimp only
    rw [if_pos rfl, Cfg.lexRight, ← newlines_eq, hC.rightLine]
    simp [Lx.out, newlines]
  | @trim x hx =>
    refine ⟨line + breaks [x, 45], run_at hC ?_ (by simp) (by simp)⟩
    have hx' := hx.cons.1
    have hl : breaks (x :: 45 :: C.right) = breaks [x, 45] := by
      have := hC.rightLine
      rw [newlines_eq] at this
      rw [show x :: 45 :: C.right = [x, 45] ++ C.right from rfl, breaks_append, this, Nat.add_zero]
    unfold Cfg.lexInside
    dsimp only
    rw [atRight_trim C hx']
    dsimp only
    have hd : (x :: 45 :: C.right ++ r).drop (2 + C.right.length) = r := by
      rw [Nat.add_comm, show x :: 45 :: C.right ++ r = [x, 45] ++ (C.right ++ r) from rfl, ← List.append_assoc]
      exact List.drop_left' (by simp)
    rw [if_pos rfl, Cfg.lexRight, hl]
    simp only [if_true, show (x :: 45 :: C.right ++ r).take 2 = [x, 45] from rfl, show [x, (45 : UInt8)].length = 2 from rfl, hd, takeDrop]
    rfl

theorem close_ne (hC : Std C) {c : Bool} {e : Str} (h : Close C.delims c e) (r : Str) : ∃ x t, e ++ r = x :: t := by
  cases h with
  | plain =>
    obtain ⟨c, t, h, -⟩ := hC.right
    exact ⟨c, t ++ r, by change C.right ++ r = _; rw [h]; rfl⟩
  | trim => exact ⟨_, _, rfl⟩

theorem lex_blank_close (hC : Std C) {c : Bool} {sp e : Str} (hs : Blank sp) (h : Close C.delims c e) (r : Str) (line : Nat) :
    ∃ k, C.run (.at (sp ++ e ++ r) line 0) = spaceTok sp line ++ ⟨.right, k⟩ :: C.run (.out c r (line + breaks (sp ++ e))) := by
  cases h with
  | plain =>
    obtain ⟨k, hk⟩ := lex_close hC .plain r (line + breaks sp)
    refine ⟨k, ?_⟩
    obtain ⟨c, t, h1, h2⟩ := hC.right
    have h3 := closing_facts c h2
    rw [List.append_assoc, lex_blank hC hs (r := C.right ++ r) ⟨c, t ++ r, by rw [h1]; rfl, h3.2.1, fun e => absurd e h3.2.2.2.2.2.2.2.2.2.1⟩, hk, breaks_append,
      Nat.add_assoc]
  | @trim x hx =>
    cases sp with
    | nil =>
      obtain ⟨k, hk⟩ := lex_close hC (.trim hx) r line
      exact ⟨k, hk⟩
    | cons y sp =>
      obtain ⟨k, hk⟩ := lex_close hC (.trim hx) r (line + breaks (y :: sp))
      refine ⟨k, ?_⟩
      rw [breaks_append, ← Nat.add_assoc, ← hk]
      refine run_at hC (t := .space) (k := line) ?_ (by simp) (by simp)
      obtain ⟨hy, hb⟩ := hs.cons
      have hx' := hx.cons.1
      have hall : Blank ((y :: sp) ++ [x]) := by
        intro z hz
        rcases List.mem_append.mp hz with hz | hz
        · exact hs z hz
        · exact hx z hz
      have hsp := span_blank (r := 45 :: C.right ++ r) hall (by intro c t he; simp at he; rw [← he.1]; decide)
      have ha : C.atRight (y :: sp ++ x :: 45 :: C.right ++ r) = none := by
        have h1 : rightTrim (y :: sp ++ x :: 45 :: C.right ++ r) = false := by
          unfold rightTrim
          split
          · next y v heq =>
            cases sp with
            | nil => simp at heq; rw [heq.2.1] at hx'; exact absurd hx' (by decide)
            | cons z sp =>
              simp only [List.cons_append, List.cons.injEq] at heq
              have := hb.cons.1
              rw [heq.2.1] at this
              exact absurd this (by decide)
          · rfl
        rw [Cfg.atRight, h1, List.cons_append, List.cons_append, hC.off (space_not_closing y hy)]
        rfl
      unfold Cfg.lexInside
      dsimp only
      rw [ha]
      dsimp only
      simp only [List.cons_append]
      rw [if_pos hy, Cfg.lexSpace]
      dsimp only
      have he' : y :: (sp ++ x :: 45 :: C.right ++ r) = (y :: sp ++ [x]) ++ (45 :: C.right ++ r) := by simp
      rw [he', hsp.1, hsp.2]
      have hm : C.marked (45 :: C.right ++ r) = true := by
        exact has_self _ _
      rw [hm, if_pos rfl, if_neg (by simp)]
      simp [breaks, newlines]

end Verif.Tmpl
