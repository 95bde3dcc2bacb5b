import Verif.Lemmas.TmplEnds
import Verif.Lemmas.TmplFuel
import Verif.Model.TmplRun
/-!
# C75: templates are read to their end

The scanner and the parser of templates come to an end on every text; the bounds in their models make no
difference.
-/
namespace Verif.Tmpl
open Verif Verif.Xt

/-- **C75**: the items of a text end with the end of the text or an error; there is only one such item. -/
theorem C75_items (left right : Str) (has : Str → Bool) (letter digit : Nat → Bool) (src : Str) :
    ∃ is i, (mkCfg left right has letter digit).items src = is ++ [i] ∧ (i.tok = .eof ∨ i.tok = .err) ∧
      ∀ j ∈ is, j.tok ≠ .eof ∧ j.tok ≠ .err := by
  obtain ⟨hl, hr⟩ := mkCfg_ne left right has letter digit
  obtain ⟨is, i, h1, h2⟩ := itemsN_end hl hr (src.length + 1) { rest := src } (Nat.lt_succ_self _)
  refine ⟨is, i, h1, h2, ?_⟩
  have := itemsN_last (mkCfg left right has letter digit) (src.length + 1) { rest := src }
  rw [h1, List.dropLast_concat] at this
  exact this

/-- **C75**: an item takes at least a byte, so that a text has at most one item more than bytes; a larger bound
on their number makes no difference. -/
theorem C75_count (left right : Str) (has : Str → Bool) (letter digit : Nat → Bool) (src : Str) (k : Nat) :
    (mkCfg left right has letter digit).itemsN (src.length + 1 + k) { rest := src } =
      (mkCfg left right has letter digit).items src := by
  obtain ⟨hl, hr⟩ := mkCfg_ne left right has letter digit
  induction k with
  | zero => rfl
  | succ k ih => rw [← Nat.add_assoc, itemsN_fuel hl hr _ _ (by dsimp only; omega), ih]

/-- **C75**: a larger bound on the number of comments in a row makes no difference. -/
theorem C75_comments (left right : Str) (has : Str → Bool) (letter digit : Nat → Bool) (l : Lx) (k : Nat) :
    (mkCfg left right has letter digit).lexText (l.rest.length + 1 + k) l =
      (mkCfg left right has letter digit).lexText (l.rest.length + 1) l := by
  obtain ⟨hl, -⟩ := mkCfg_ne left right has letter digit
  induction k with
  | zero => rfl
  | succ k ih => rw [← Nat.add_assoc, lexText_fuel hl _ _ (by omega), ih]

/-- **C75**: the parser calls itself at most to a depth of eight times the number of items and some more; a larger
bound makes no difference. -/
theorem C75_depth (num : Tok → Bool) (left right : Str) (has : Str → Bool) (letter digit : Nat → Bool) (src : Str) (n : Nat)
    (hn : 8 * ((mkCfg left right has letter digit).items src).length + 2 ≤ n) :
    parse num (mkCfg left right has letter digit) src =
      (PCfg.top ⟨num⟩ n { is := (mkCfg left right has letter digit).items src, vars := [[36]], trees := [] } []).map fun trees =>
        trees.map fun t => t.2.map (·.1) := by
  unfold parse
  dsimp only
  generalize (mkCfg left right has letter digit).items src = is at hn ⊢
  have h1 := top_enough (P := ⟨num⟩) (s := { is, vars := [[36]], trees := [] }) (Nat.le_refl _) [] (n - (8 * is.length + 2))
  have h2 := top_enough (P := ⟨num⟩) (s := { is, vars := [[36]], trees := [] }) (Nat.le_refl _) []
    (16 * is.length + 16 - (8 * is.length + 2))
  dsimp only at h1 h2
  rw [show 8 * is.length + 2 + (n - (8 * is.length + 2)) = n by omega] at h1
  rw [show 8 * is.length + 2 + (16 * is.length + 16 - (8 * is.length + 2)) = 16 * is.length + 16 by omega] at h2
  rw [h1, h2]

/-- Example: a text with two comments and nested parentheses. -/
example : ((mkCfg [] [] (fun _ => true) (fun r => 97 ≤ r && r ≤ 122) (fun _ => false)).items
      b!"{{/* a */}}{{- /* b */ -}}{{ f (g (h)) }}").map (·.tok) =
    [.left, .space, .ident b!"f" true, .space, .lparen, .ident b!"g" true, .space, .lparen, .ident b!"h" true, .rparen,
      .rparen, .space, .right, .eof] := by decide +kernel

end Verif.Tmpl
