import Verif.Lemmas.TmplRunArg
/-!
# What the scanner makes of delimiters, texts and comments
-/
namespace Verif.Tmpl
open Verif Verif.Xt

variable {C : Cfg}

theorem lexText_enough (hC : Std C) {n : Nat} {l : Lx} (h : l.rest.length + 1 ≤ n) : C.lexText n l = C.lexText (l.rest.length + 1) l := by
  obtain ⟨k, rfl⟩ : ∃ k, n = l.rest.length + 1 + k := ⟨n - (l.rest.length + 1), by omega⟩
  induction k with
  | zero => rfl
  | succ k ih => rw [← ih (by omega), ← Nat.add_assoc]; exact lexText_fuel hC.ne.1 _ _ (by omega)

theorem run_congr (hC : Std C) {l l' : Lx} (h : C.next l = C.next l') : C.run l = C.run l' := by
  have h1 : C.run l = C.itemsN (l.rest.length + l'.rest.length + 1) l := (itemsN_run hC (by omega)).symm
  have h2 : C.run l' = C.itemsN (l.rest.length + l'.rest.length + 1) l' := (itemsN_run hC (by omega)).symm
  rw [h1, h2, Cfg.itemsN, Cfg.itemsN, h]

theorem next_out (hC : Std C) {l : Lx} (hl : l.inside = false) {n : Nat} (h : l.rest.length + 1 ≤ n) : C.next l = C.lexText n l := by
  rw [Cfg.next, hl, lexText_enough hC h]; rfl

theorem free_tail {sub t : Str} {c : UInt8} (h : Free sub (c :: t)) : Free sub t := by
  intro a b he
  exact h (c :: a) b (by simp [he])

theorem free_suffix {sub t : Str} : ∀ {a : Str}, Free sub (a ++ t) → Free sub t
  | [], h => h
  | _ :: a, h => free_suffix (a := a) (free_tail h)

theorem cut_free {sub x : Str} : ∀ {t : Str}, Free sub t → cut sub (t ++ (sub ++ x)) = some (t, x)
  | [], _ => by
    cases h : sub ++ x with
    | nil =>
      have := List.append_eq_nil_iff.mp h
      rw [this.1, this.2]; simp [cut]
    | cons c s =>
      rw [List.nil_append, cut, if_pos (by rw [hasPrefix_iff]; exact ⟨x, h.symm⟩), ← h]
      simp
  | c :: t, hf => by
    rw [List.cons_append, cut, if_neg, cut_free (free_tail hf)]
    · rfl
    · rw [hasPrefix_iff]
      rintro ⟨z, hz⟩
      have hz : (c :: t ++ sub) ++ x = sub ++ z := by simpa using hz
      rcases List.append_eq_append_iff.mp hz with ⟨w, h1, h2⟩ | ⟨w, h1, h2⟩
      · have := congrArg List.length h1
        simp at this; omega
      · have := hf [] w (by simpa using h1)
        subst this
        have := congrArg List.length h1
        simp at this; omega

theorem cut_without {sub : Str} : ∀ {t : Str}, (∀ a b, t ≠ a ++ sub ++ b) → cut sub t = none
  | [], h => by
    rw [cut, if_neg]
    rintro rfl
    exact h [] [] rfl
  | c :: t, h => by
    rw [cut, if_neg, cut_without]
    · rfl
    · rintro a b rfl
      exact h (c :: a) b rfl
    · rw [hasPrefix_iff]
      rintro ⟨z, hz⟩
      exact h [] z hz

theorem free_nil (sub : Str) : Free sub [] := by
  intro a b h
  have := congrArg List.length h
  simp at this
  exact List.length_eq_zero_iff.mp (by omega)

/-- No comment, or one that ends. -/
def Sound (C : Cfg) (y : Str) : Prop := GoStr.hasPrefix y b!"/*" = false ∨ ∀ k, C.comment (y.drop 2) k ≠ none

/-- A left delimiter; the action trims or not. -/
def OpenAt (C : Cfg) (b : Bool) (r : Str) : Prop := ∃ x, r = C.left ++ x ∧ leftTrim x = b ∧ Sound C (opening x).2

theorem open_at {b : Bool} {o : Str} (h : Open C.delims b o) {y : Str} (hy : leftTrim y = false) (hy2 : Sound C y) : OpenAt C b (o ++ y) := by
  cases h with
  | plain => exact ⟨y, rfl, hy, by rw [opening, hy]; exact hy2⟩
  | @trim x hx =>
    have hl : leftTrim (45 :: x :: y) = true := hx.cons.1
    exact ⟨45 :: x :: y, by simp, hl, by rw [opening, hl]; exact hy2⟩

theorem lex_open (hC : Std C) {b : Bool} {o y : Str} (h : Open C.delims b o) (hy : leftTrim y = false) (hy2 : GoStr.hasPrefix y b!"/*" = false)
    (line : Nat) : C.run { rest := o ++ y, line } = ⟨.left, line⟩ :: C.run (.at y (line + breaks o) 0) := by
  refine run_next hC ?_ (by simp) (by simp)
  rw [next_out hC rfl (Nat.le_refl _), Cfg.lexText]
  cases h with
  | plain =>
    have : cut C.left (C.left ++ y) = some ([], y) := cut_free (free_nil _)
    dsimp only
    rw [this]
    dsimp only
    rw [hy, opening, hy]
    simpa [hy2, newlines_eq, show breaks ([] : Str) = 0 from rfl] using hC.leftLine
  | @trim x hx =>
    have : cut C.left (C.left ++ [45, x] ++ y) = some ([], 45 :: x :: y) := by
      rw [List.append_assoc]; exact cut_free (x := 45 :: x :: y) (free_nil _)
    dsimp only
    rw [this]
    have hl : leftTrim (45 :: x :: y) = true := hx.cons.1
    dsimp only
    rw [hl, opening, hl]
    simpa [hy2, newlines_eq, show breaks ([] : Str) = 0 from rfl, trimEnd, breaks_append] using hC.leftLine

theorem trimEnd_of {t u : Str} (h : TrimsRight t u) : trimEnd t = u := by
  obtain ⟨a, rfl, ha, hu⟩ := h
  rw [trimEnd, List.reverse_append, List.dropWhile_append_of_pos (fun x hx => blank_iff.mp ha x (List.mem_reverse.mp hx))]
  have : u.reverse.dropWhile isSpace = u.reverse := by
    cases hr : u.reverse with
    | nil => rfl
    | cons x v =>
      rw [List.dropWhile_cons, if_neg]
      intro hx
      refine hu x v.reverse ?_ (blank_iff.mpr ?_)
      · rw [← List.reverse_reverse u, hr, List.reverse_cons]
      · intro y hy
        rw [List.mem_singleton.mp hy]; exact hx
  rw [this, List.reverse_reverse]

/-- The items for a text between actions. -/
def GapToks (toks : List Item) (ns : List Stmt) : Prop :=
  toks = [] ∧ ns = [] ∨ ∃ s k, toks = [⟨.text s, k⟩] ∧ ns = [.other]

theorem next_gap (hC : Std C) {t x : Str} (hf : Free C.left t) (hx : Sound C (opening x).2) (line : Nat) :
    C.run { rest := t ++ (C.left ++ x), line } =
      (if (if leftTrim x then trimEnd t else t) = [] then [] else [⟨.text (if leftTrim x then trimEnd t else t), line⟩]) ++
        C.run { rest := C.left ++ x, line := line + breaks t } := by
  have hcut : cut C.left (t ++ (C.left ++ x)) = some (t, x) := cut_free hf
  by_cases ht : (if leftTrim x then trimEnd t else t) = []
  · rw [if_pos ht, List.nil_append]
    refine run_congr hC ?_
    rw [next_out hC rfl (Nat.le_refl _), next_out hC rfl (n := (t ++ (C.left ++ x)).length + 1) (by simp), Cfg.lexText, Cfg.lexText]
    dsimp only
    have hcut' : cut C.left (C.left ++ x) = some ([], x) := cut_free (free_nil _)
    rw [hcut, hcut']
    dsimp only
    have ht' : (if leftTrim x then trimEnd [] else []) = ([] : Str) := by split <;> rfl
    rw [ht, ht', if_neg (c := ([] : Str) ≠ []) (fun h => h rfl), if_neg (c := ([] : Str) ≠ []) (fun h => h rfl)]
    simp only [newlines_eq, show breaks ([] : Str) = 0 from rfl, Nat.add_zero]
    rcases hx with hx | hx
    · rw [hx, if_neg (by decide), if_neg (by decide)]
    · cases hc : C.comment ((opening x).2.drop 2) (line + breaks t + breaks C.left + breaks (opening x).1) with
      | none => exact absurd hc (hx _)
      | some rl => rfl
  · rw [if_neg ht]
    refine run_next hC ?_ (by simp) (by simp)
    rw [next_out hC rfl (Nat.le_refl _), Cfg.lexText]
    dsimp only
    rw [hcut]
    dsimp only
    rw [if_pos ht]
    rfl

theorem out_trim {t u r : Str} (h : TrimsLeft t u) (hr : ∀ c s, r = c :: s → isSpace c = false) (line : Nat) :
    ∃ a, t = a ++ u ∧ Lx.out true (t ++ r) line = { rest := u ++ r, line := line + breaks a } := by
  obtain ⟨a, rfl, ha, hu⟩ := h
  refine ⟨a, rfl, ?_⟩
  have hs := span_blank (r := u ++ r) ha (by
    intro c s he
    cases u with
    | nil => exact hr c s he
    | cons x v =>
      simp only [List.cons_append, List.cons.injEq] at he
      have := hu x v rfl
      rw [Bool.eq_false_iff]
      intro hc
      refine this (blank_iff.mpr ?_)
      intro y hy
      rw [List.mem_singleton.mp hy, he.1]; exact hc)
  rw [Lx.out, if_pos rfl, List.append_assoc, hs.1, hs.2]

theorem gap_start {before : Bool} {t u r : Str} (h : if before then TrimsLeft t u else u = t)
    (hr : ∀ c s, r = c :: s → isSpace c = false) (line : Nat) :
    ∃ a, t = a ++ u ∧ Lx.out before (t ++ r) line = { rest := u ++ r, line := line + breaks a } := by
  cases before with
  | true => exact out_trim h hr line
  | false =>
    have h : u = t := h
    subst h
    exact ⟨[], rfl, by simp [Lx.out, breaks]⟩

theorem lex_gap (hC : Std C) {before after : Bool} {t r : Str} {ns : List Stmt} (hf : Free C.left t) (hg : Gap before after t ns)
    (hr : OpenAt C after r) (line : Nat) :
    ∃ toks, GapToks toks ns ∧ C.run (.out before (t ++ r) line) = toks ++ C.run { rest := r, line := line + breaks t } := by
  obtain ⟨x, rfl, hx, hsd⟩ := hr
  have hsp : ∀ c s, C.left ++ x = c :: s → isSpace c = false := by
    intro c s he
    obtain ⟨c', t', h1, h2⟩ := hC.left
    rw [h1, List.cons_append, List.cons.injEq] at he
    rw [← he.1]; exact h2
  have key : ∀ u v, (if before then TrimsLeft t u else u = t) → (if after then TrimsRight u v else v = u) →
      C.run (.out before (t ++ (C.left ++ x)) line) = (if v = [] then [] else [⟨.text v, line + breaks t - breaks u⟩]) ++
        C.run { rest := C.left ++ x, line := line + breaks t } := by
    intro u v h1 h2
    obtain ⟨a, rfl, ho⟩ := gap_start h1 hsp line
    have hv : (if leftTrim x then trimEnd u else u) = v := by
      rw [hx]
      cases after with
      | true => exact trimEnd_of h2
      | false => exact h2.symm
    rw [ho, next_gap hC (free_suffix hf) hsd, hv, breaks_append, Nat.add_assoc]
    congr 3
    congr 1
    omega
  cases hg with
  | @nothing u h1 h2 =>
    refine ⟨[], .inl ⟨rfl, rfl⟩, ?_⟩
    rw [key u [] h1 (by cases after with | true => exact h2 | false => exact Eq.symm h2)]
    rfl
  | @text u v h1 h2 h3 =>
    refine ⟨[⟨.text v, line + breaks t - breaks u⟩], .inr ⟨v, _, rfl, rfl⟩, ?_⟩
    rw [key u v h1 h2, if_neg h3]

theorem lex_last (hC : Std C) {before : Bool} {t : Str} {ns : List Stmt} (hf : ∀ a b, t ≠ a ++ C.left ++ b) (hg : Gap before false t ns)
    (line : Nat) : ∃ toks k, GapToks toks ns ∧ C.run (.out before t line) = toks ++ [⟨.eof, k⟩] := by
  have hend : ∀ k, C.run { rest := [], line := k } = [⟨.eof, k⟩] := by
    intro k
    rw [Cfg.run, Cfg.itemsN, next_out hC rfl (Nat.le_refl _), Cfg.lexText]
    dsimp only
    rw [cut_without (by
      intro a b h
      have := congrArg List.length h
      have hn := List.length_pos_of_ne_nil hC.ne.1
      simp at this; omega)]
    simp
  have key : ∀ u, (if before then TrimsLeft t u else u = t) → ∃ k j,
      C.run (.out before t line) = (if u = [] then [] else [⟨.text u, j⟩]) ++ [⟨.eof, k⟩] := by
    intro u h1
    obtain ⟨a, rfl, ho⟩ := gap_start (r := []) h1 (by intro c s h; cases h) line
    rw [List.append_nil, List.append_nil] at ho
    rw [ho]
    by_cases hu : u = []
    · subst hu
      exact ⟨_, 0, by rw [if_pos rfl]; exact hend _⟩
    · refine ⟨line + breaks a + breaks u, line + breaks a, ?_⟩
      rw [if_neg hu, ← hend]
      refine run_next hC ?_ (by simp) (by simp)
      rw [next_out hC rfl (Nat.le_refl _), Cfg.lexText]
      dsimp only
      rw [cut_without (by
        rintro x y rfl
        exact hf (a ++ x) y (by simp)), if_neg hu]
      rfl
  cases hg with
  | @nothing u h1 h2 =>
    have h2 : u = [] := h2
    obtain ⟨k, j, h⟩ := key u h1
    exact ⟨[], k, .inl ⟨rfl, rfl⟩, by rw [h, if_pos h2]⟩
  | @text u v h1 h2 h3 =>
    have h2 : v = u := h2
    subst h2
    obtain ⟨k, j, h⟩ := key v h1
    exact ⟨_, k, .inr ⟨v, j, rfl, rfl⟩, by rw [h, if_neg h3]⟩

theorem comment_close (hC : Std C) {c : Bool} {e t : Str} (h : Close C.delims c e) (hf : Free b!"*/" t) (r : Str) (line : Nat) :
    ∃ rest line', C.comment (t ++ (b!"*/" ++ (e ++ r))) line = some (rest, line') ∧
      Lx.out c r (line + breaks t + breaks e) = { rest, line := line' } := by
  rw [Cfg.comment, cut_free hf]
  cases h with
  | plain =>
    dsimp only
    rw [atRight_plain hC]
    refine ⟨_, _, rfl, ?_⟩
    simp [Lx.out, newlines_eq]
  | @trim x hx =>
    have hx' := hx.cons.1
    have hd : (x :: 45 :: C.right ++ r).drop (2 + C.right.length) = r := by
      rw [Nat.add_comm, show x :: 45 :: C.right ++ r = [x, 45] ++ (C.right ++ r) from rfl, ← List.append_assoc]
      exact List.drop_left' (by simp)
    have hb : breaks (x :: 45 :: C.right) = breaks [x, 45] + breaks C.right := breaks_append [x, 45] C.right
    dsimp only
    rw [atRight_trim C hx']
    refine ⟨_, _, rfl, ?_⟩
    rw [hd, hb]
    simp only [Lx.out, if_true, newlines_eq, show (x :: 45 :: C.right ++ r).take 2 = [x, 45] from rfl, Nat.add_assoc]

theorem lex_comment (hC : Std C) {b c : Bool} {s : Str} (h : Comment C.delims b s c) (r : Str) (line : Nat) :
    C.run { rest := s ++ r, line } = C.run (.out c r (line + breaks s)) := by
  cases h with
  | @mk _ o t e ho hf he =>
    have hs : o ++ b!"/*" ++ t ++ b!"*/" ++ e ++ r = o ++ (b!"/*" ++ (t ++ (b!"*/" ++ (e ++ r)))) := by simp
    have hb : breaks (o ++ b!"/*" ++ t ++ b!"*/" ++ e) = breaks o + breaks t + breaks e := by
      simp only [breaks_append, show breaks b!"/*" = 0 from rfl, show breaks b!"*/" = 0 from rfl]; omega
    obtain ⟨rest, line', h1, h2⟩ := comment_close hC he hf r (line + breaks o)
    rw [hb, ← Nat.add_assoc, ← Nat.add_assoc, h2]
    refine run_congr hC ?_
    have hsuf := (comment_suffix h1).length_le
    rw [hs, next_out hC rfl (n := (o ++ (b!"/*" ++ (t ++ (b!"*/" ++ (e ++ r))))).length + 1) (Nat.le_refl _),
      next_out hC rfl (n := (o ++ (b!"/*" ++ (t ++ (b!"*/" ++ (e ++ r))))).length) (by simp at hsuf ⊢; omega), Cfg.lexText]
    cases ho with
    | plain =>
      have : cut C.left (C.left ++ (b!"/*" ++ (t ++ (b!"*/" ++ (e ++ r))))) = some ([], b!"/*" ++ (t ++ (b!"*/" ++ (e ++ r)))) :=
        cut_free (free_nil _)
      dsimp only
      rw [this]
      have hl : leftTrim (b!"/*" ++ (t ++ (b!"*/" ++ (e ++ r)))) = false := rfl
      have hop : opening (b!"/*" ++ (t ++ (b!"*/" ++ (e ++ r)))) = ([], b!"/*" ++ (t ++ (b!"*/" ++ (e ++ r)))) := by
        rw [opening, hl]; rfl
      dsimp only
      rw [hop, hl]
      have hd : (b!"/*" ++ (t ++ (b!"*/" ++ (e ++ r)))).drop 2 = t ++ (b!"*/" ++ (e ++ r)) := by simp
      have hp : GoStr.hasPrefix (b!"/*" ++ (t ++ (b!"*/" ++ (e ++ r)))) b!"/*" = true := by simp [GoStr.hasPrefix]
      have hbo : line + newlines [] + newlines C.left + newlines [] = line + breaks C.left := rfl
      dsimp only
      rw [hd, hp, hbo, h1]
      rfl
    | @trim x hx =>
      have hcut : cut C.left (C.left ++ [45, x] ++ (b!"/*" ++ (t ++ (b!"*/" ++ (e ++ r))))) =
          some ([], 45 :: x :: (b!"/*" ++ (t ++ (b!"*/" ++ (e ++ r))))) := by
        rw [List.append_assoc]; exact cut_free (x := 45 :: x :: (b!"/*" ++ (t ++ (b!"*/" ++ (e ++ r))))) (free_nil _)
      dsimp only
      rw [hcut]
      have hl : leftTrim (45 :: x :: (b!"/*" ++ (t ++ (b!"*/" ++ (e ++ r))))) = true := hx.cons.1
      have hop : opening (45 :: x :: (b!"/*" ++ (t ++ (b!"*/" ++ (e ++ r))))) =
          ([45, x], b!"/*" ++ (t ++ (b!"*/" ++ (e ++ r)))) := by
        rw [opening, hl]; rfl
      dsimp only
      rw [hop, hl]
      have hd : (b!"/*" ++ (t ++ (b!"*/" ++ (e ++ r)))).drop 2 = t ++ (b!"*/" ++ (e ++ r)) := by simp
      have hp : GoStr.hasPrefix (b!"/*" ++ (t ++ (b!"*/" ++ (e ++ r)))) b!"/*" = true := by simp [GoStr.hasPrefix]
      have hbo : line + newlines [] + newlines C.left + newlines [45, x] = line + breaks (C.left ++ [45, x]) := by
        rw [breaks_append]
        simp only [newlines_eq, show breaks ([] : Str) = 0 from rfl]; omega
      dsimp only
      rw [hd, hp, hbo, h1]
      rfl

theorem comment_open (hC : Std C) {b c : Bool} {s : Str} (h : Comment C.delims b s c) (r : Str) : OpenAt C b (s ++ r) := by
  cases h with
  | @mk _ o t e ho hf he =>
    have hs : o ++ b!"/*" ++ t ++ b!"*/" ++ e ++ r = o ++ (b!"/*" ++ (t ++ (b!"*/" ++ (e ++ r)))) := by simp
    rw [hs]
    refine open_at ho rfl (.inr fun k => ?_)
    have hd : (b!"/*" ++ (t ++ (b!"*/" ++ (e ++ r)))).drop 2 = t ++ (b!"*/" ++ (e ++ r)) := by simp
    obtain ⟨rest, line', h1, -⟩ := comment_close hC he hf r k
    rw [hd, h1]; simp

end Verif.Tmpl
