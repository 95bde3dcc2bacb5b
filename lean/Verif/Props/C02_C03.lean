import Mathlib.Data.List.Forall2
import Verif.Lemmas.PluralEval
import Verif.Spec.Gnu
/-! Properties C02 and C03: the built-in plural rules. -/
set_option linter.unusedSimpArgs false
namespace Verif.Plural

theorem evalGeneral_of_tree {diag : Diag} {k : Str} {n v : Int64} {t : Exp} {r : List Tok}
    (hd : diag (lex k) = false) (hp : parse goTable (lex k) = some (t, r))
    (hv : den n t = some v) : evalGeneral goTable diag k n = .ok v := by
  have hg := goodLits_of_lex ((parse_iff _ _ _).1 hp).1
  simp [evalGeneral, hp, hd, walk_eq n t hg, hv, push, Res.bind, exitStart, pop]

theorem ite_one {P : Prop} [Decidable P] : ((if P then (1 : Int64) else 0) = 1) ↔ P := by
  split <;> simp_all

theorem ite_ne {P : Prop} [Decidable P] : ((if P then (0 : Int64) else 1) = 1) ↔ ¬ P := by
  split <;> simp_all

/-- **C02** For each built-in expression and every `n`, the hand-written Go function agrees with
lexing, parsing and evaluating the expression text (unless ANTLR raises an extra diagnostic). -/
theorem C02_builtin_eq_general : ∀ p ∈ commons, ∀ (diag : Diag) (n : Int64),
    diag (lex p.1) = false → evalGeneral goTable diag p.1 n = .ok (p.2 n) := by
  have l0 : litVal b!"0" = some 0 := by decide
  have l1 : litVal b!"1" = some 1 := by decide
  have l2 : litVal b!"2" = some 2 := by decide
  have l3 : litVal b!"3" = some 3 := by decide
  have l4 : litVal b!"4" = some 4 := by decide
  have l5 : litVal b!"5" = some 5 := by decide
  have l10 : litVal b!"10" = some 10 := by decide
  have l11 : litVal b!"11" = some 11 := by decide
  have l20 : litVal b!"20" = some 20 := by decide
  have l100 : litVal b!"100" = some 100 := by decide
  have z10 : (10 : Int64) ≠ 0 := by decide
  have z100 : (100 : Int64) ≠ 0 := by decide
  simp only [commons, List.forall_mem_cons]
  refine ⟨?_, ?_, ?_, ?_, ?_, ?_, ?_, ?_, ?_, ?_, ?_, ?_, by simp⟩ <;> intro diag n hd
  · refine evalGeneral_of_tree hd (r := []) (t := (.int b!"0")) (by decide) ?_
    simp only [den, l0, l1, l2, l3, l4, l5, l10, l11, l20, l100, opVal, Option.bind_some, z10, z100,
      if_false, ite_one, ite_ne, ifI, b2i, Bool.and_eq_true, Bool.or_eq_true, decide_eq_true_eq,
      beq_iff_eq, bne_iff_ne, ne_eq, ite_not]
  · refine evalGeneral_of_tree hd (r := []) (t := (.bin .ne .n (.int b!"1"))) (by decide) ?_
    simp only [den, l0, l1, l2, l3, l4, l5, l10, l11, l20, l100, opVal, Option.bind_some, z10, z100,
      if_false, ite_one, ite_ne, ifI, b2i, Bool.and_eq_true, Bool.or_eq_true, decide_eq_true_eq,
      beq_iff_eq, bne_iff_ne, ne_eq, ite_not]
  · refine evalGeneral_of_tree hd (r := []) (t := (.bin .gt .n (.int b!"1"))) (by decide) ?_
    simp only [den, l0, l1, l2, l3, l4, l5, l10, l11, l20, l100, opVal, Option.bind_some, z10, z100,
      if_false, ite_one, ite_ne, ifI, b2i, Bool.and_eq_true, Bool.or_eq_true, decide_eq_true_eq,
      beq_iff_eq, bne_iff_ne, ne_eq, ite_not]
  · refine evalGeneral_of_tree hd (r := []) (t := (.tern (.bin .land (.bin .eq (.bin .mod .n (.int b!"10")) (.int b!"1")) (.bin .ne (.bin .mod .n (.int b!"100")) (.int b!"11"))) (.int b!"0") (.tern (.bin .ne .n (.int b!"0")) (.int b!"1") (.int b!"2")))) (by decide) ?_
    simp only [den, l0, l1, l2, l3, l4, l5, l10, l11, l20, l100, opVal, Option.bind_some, z10, z100,
      if_false, ite_one, ite_ne, ifI, b2i, Bool.and_eq_true, Bool.or_eq_true, decide_eq_true_eq,
      beq_iff_eq, bne_iff_ne, ne_eq, ite_not]
  · refine evalGeneral_of_tree hd (r := []) (t := (.tern (.bin .eq .n (.int b!"1")) (.int b!"0") (.tern (.bin .eq .n (.int b!"2")) (.int b!"1") (.int b!"2")))) (by decide) ?_
    simp only [den, l0, l1, l2, l3, l4, l5, l10, l11, l20, l100, opVal, Option.bind_some, z10, z100,
      if_false, ite_one, ite_ne, ifI, b2i, Bool.and_eq_true, Bool.or_eq_true, decide_eq_true_eq,
      beq_iff_eq, bne_iff_ne, ne_eq, ite_not]
  · refine evalGeneral_of_tree hd (r := []) (t := (.tern (.bin .eq .n (.int b!"1")) (.int b!"0") (.tern (.paren (.bin .lor (.bin .eq .n (.int b!"0")) (.paren (.bin .land (.bin .gt (.bin .mod .n (.int b!"100")) (.int b!"0")) (.bin .lt (.bin .mod .n (.int b!"100")) (.int b!"20")))))) (.int b!"1") (.int b!"2")))) (by decide) ?_
    simp only [den, l0, l1, l2, l3, l4, l5, l10, l11, l20, l100, opVal, Option.bind_some, z10, z100,
      if_false, ite_one, ite_ne, ifI, b2i, Bool.and_eq_true, Bool.or_eq_true, decide_eq_true_eq,
      beq_iff_eq, bne_iff_ne, ne_eq, ite_not]
  · refine evalGeneral_of_tree hd (r := []) (t := (.tern (.bin .land (.bin .eq (.bin .mod .n (.int b!"10")) (.int b!"1")) (.bin .ne (.bin .mod .n (.int b!"100")) (.int b!"11"))) (.int b!"0") (.tern (.bin .land (.bin .ge (.bin .mod .n (.int b!"10")) (.int b!"2")) (.paren (.bin .lor (.bin .lt (.bin .mod .n (.int b!"100")) (.int b!"10")) (.bin .ge (.bin .mod .n (.int b!"100")) (.int b!"20"))))) (.int b!"1") (.int b!"2")))) (by decide) ?_
    simp only [den, l0, l1, l2, l3, l4, l5, l10, l11, l20, l100, opVal, Option.bind_some, z10, z100,
      if_false, ite_one, ite_ne, ifI, b2i, Bool.and_eq_true, Bool.or_eq_true, decide_eq_true_eq,
      beq_iff_eq, bne_iff_ne, ne_eq, ite_not]
  · refine evalGeneral_of_tree hd (r := []) (t := (.tern (.bin .land (.bin .eq (.bin .mod .n (.int b!"10")) (.int b!"1")) (.bin .ne (.bin .mod .n (.int b!"100")) (.int b!"11"))) (.int b!"0") (.tern (.bin .land (.bin .land (.bin .ge (.bin .mod .n (.int b!"10")) (.int b!"2")) (.bin .le (.bin .mod .n (.int b!"10")) (.int b!"4"))) (.paren (.bin .lor (.bin .lt (.bin .mod .n (.int b!"100")) (.int b!"10")) (.bin .ge (.bin .mod .n (.int b!"100")) (.int b!"20"))))) (.int b!"1") (.int b!"2")))) (by decide) ?_
    simp only [den, l0, l1, l2, l3, l4, l5, l10, l11, l20, l100, opVal, Option.bind_some, z10, z100,
      if_false, ite_one, ite_ne, ifI, b2i, Bool.and_eq_true, Bool.or_eq_true, decide_eq_true_eq,
      beq_iff_eq, bne_iff_ne, ne_eq, ite_not]
  · refine evalGeneral_of_tree hd (r := []) (t := (.tern (.paren (.bin .eq .n (.int b!"1"))) (.int b!"0") (.tern (.paren (.bin .land (.bin .ge .n (.int b!"2")) (.bin .le .n (.int b!"4")))) (.int b!"1") (.int b!"2")))) (by decide) ?_
    simp only [den, l0, l1, l2, l3, l4, l5, l10, l11, l20, l100, opVal, Option.bind_some, z10, z100,
      if_false, ite_one, ite_ne, ifI, b2i, Bool.and_eq_true, Bool.or_eq_true, decide_eq_true_eq,
      beq_iff_eq, bne_iff_ne, ne_eq, ite_not]
  · refine evalGeneral_of_tree hd (r := []) (t := (.tern (.bin .eq .n (.int b!"1")) (.int b!"0") (.tern (.bin .land (.bin .land (.bin .ge (.bin .mod .n (.int b!"10")) (.int b!"2")) (.bin .le (.bin .mod .n (.int b!"10")) (.int b!"4"))) (.paren (.bin .lor (.bin .lt (.bin .mod .n (.int b!"100")) (.int b!"10")) (.bin .ge (.bin .mod .n (.int b!"100")) (.int b!"20"))))) (.int b!"1") (.int b!"2")))) (by decide) ?_
    simp only [den, l0, l1, l2, l3, l4, l5, l10, l11, l20, l100, opVal, Option.bind_some, z10, z100,
      if_false, ite_one, ite_ne, ifI, b2i, Bool.and_eq_true, Bool.or_eq_true, decide_eq_true_eq,
      beq_iff_eq, bne_iff_ne, ne_eq, ite_not]
  · refine evalGeneral_of_tree hd (r := []) (t := (.tern (.bin .eq (.bin .mod .n (.int b!"100")) (.int b!"1")) (.int b!"0") (.tern (.bin .eq (.bin .mod .n (.int b!"100")) (.int b!"2")) (.int b!"1") (.tern (.bin .lor (.bin .eq (.bin .mod .n (.int b!"100")) (.int b!"3")) (.bin .eq (.bin .mod .n (.int b!"100")) (.int b!"4"))) (.int b!"2") (.int b!"3"))))) (by decide) ?_
    simp only [den, l0, l1, l2, l3, l4, l5, l10, l11, l20, l100, opVal, Option.bind_some, z10, z100,
      if_false, ite_one, ite_ne, ifI, b2i, Bool.and_eq_true, Bool.or_eq_true, decide_eq_true_eq,
      beq_iff_eq, bne_iff_ne, ne_eq, ite_not]
  · refine evalGeneral_of_tree hd (r := []) (t := (.tern (.bin .eq .n (.int b!"0")) (.int b!"0") (.tern (.bin .eq .n (.int b!"1")) (.int b!"1") (.tern (.bin .eq .n (.int b!"2")) (.int b!"2") (.tern (.bin .land (.bin .ge (.bin .mod .n (.int b!"100")) (.int b!"3")) (.bin .le (.bin .mod .n (.int b!"100")) (.int b!"10"))) (.int b!"3") (.tern (.bin .ge (.bin .mod .n (.int b!"100")) (.int b!"11")) (.int b!"4") (.int b!"5"))))))) (by decide) ?_
    simp only [den, l0, l1, l2, l3, l4, l5, l10, l11, l20, l100, opVal, Option.bind_some, z10, z100,
      if_false, ite_one, ite_ne, ifI, b2i, Bool.and_eq_true, Bool.or_eq_true, decide_eq_true_eq,
      beq_iff_eq, bne_iff_ne, ne_eq, ite_not]

-- the hypothesis is satisfiable, and the claim is about the whole int64 range
example : evalGeneral goTable (fun _ => false) b!"n>1" (-5) = .ok 0 :=
  C02_builtin_eq_general (b!"n>1", fun n => b2i (decide (n > 1))) (by simp [commons]) _ _ rfl

/-- One built-in function implements one rule of the manual: same text, same form for every
non-negative `n`, and an index in range for every `n`. -/
def Implements (p : Str × (Int64 → Int64)) (g : Gnu.Rule) : Prop :=
  p.1 = g.text ∧ (∀ n : Int64, 0 ≤ n → (p.2 n).toInt = g.form n.toInt.toNat) ∧
    ∀ n : Int64, 0 ≤ (p.2 n).toInt ∧ (p.2 n).toInt < g.nplurals

/-- **C03** The built-in table consists, in order, of implementations of the twelve rules of the GNU
gettext manual, each staying inside its number of plural forms even for negative `n`. -/
theorem C03_gnu_rules : List.Forall₂ Implements commons Gnu.rules := by
  have h10 : ∀ n : Int64, (n % 10).toInt = n.toInt.tmod 10 := fun n => Int64.toInt_mod n 10
  have h100 : ∀ n : Int64, (n % 100).toInt = n.toInt.tmod 100 := fun n => Int64.toInt_mod n 100
  have e0 : Int64.toInt 0 = 0 := by decide
  have e1 : Int64.toInt 1 = 1 := by decide
  have e2 : Int64.toInt 2 = 2 := by decide
  have e3 : Int64.toInt 3 = 3 := by decide
  have e4 : Int64.toInt 4 = 4 := by decide
  have e5 : Int64.toInt 5 = 5 := by decide
  have e10 : Int64.toInt 10 = 10 := by decide
  have e11 : Int64.toInt 11 = 11 := by decide
  have e20 : Int64.toInt 20 = 20 := by decide
  simp only [commons, Gnu.rules]
  repeat' first | exact List.Forall₂.nil | apply List.Forall₂.cons
  all_goals
    refine ⟨rfl, fun n hn => ?_, fun n => ?_⟩
    · have hn' : 0 ≤ n.toInt := by simpa [Int64.le_iff_toInt_le, e0] using hn
      simp only [ifI, b2i, Bool.and_eq_true, Bool.or_eq_true, decide_eq_true_eq, beq_iff_eq,
        bne_iff_ne, ne_eq, ← Int64.toInt_inj, Int64.le_iff_toInt_le, Int64.lt_iff_toInt_lt, h10,
        h100, e0, e1, e2, e3, e4, e5, e10, e11, e20, ge_iff_le, gt_iff_lt,
        Int.tmod_eq_emod_of_nonneg hn', apply_ite Int64.toInt]
      obtain ⟨k, hk⟩ : ∃ k : Nat, n.toInt = k := ⟨n.toInt.toNat, by omega⟩
      try simp only [hk, Int.toNat_natCast]
      (repeat' split) <;> (try rfl) <;> omega
    · simp only [ifI, b2i]
      (repeat' split) <;> decide

end Verif.Plural
