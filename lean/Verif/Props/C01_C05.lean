import Verif.Lemmas.PluralEval
/-! Properties C01, C04, C05, C08: the general evaluator. -/
namespace Verif.Plural

/-- The generated parser's precedence numbers are the levels declared by the grammar file. -/
theorem goTable_eq_g4 : goTable = g4Table := by
  have h1 : goTable.op = g4Table.op := by funext o; cases o <;> rfl
  have h2 : goTable.pre = g4Table.pre := by funext o; cases o <;> rfl
  have h3 : goTable.post = g4Table.post := rfl
  cases hg : goTable; cases hs : g4Table
  simp_all

/-- **C05** A token sequence parses to `t` leaving `r` iff it spells `t` followed by `r`, `t`
respects the precedence levels of plural.g4, and `r` cannot continue an expression. -/
theorem C05_parse_iff (ts : List Tok) (t : Exp) (r : List Tok) :
    parse goTable ts = some (t, r) ↔ ts = toks t ++ r ∧ Wf g4Table 0 t ∧ Ends r := by
  rw [parse_iff ts t r, goTable_eq_g4]

/-- **C05** Two trees that respect the levels and are spelled alike (up to what follows) are equal. -/
theorem C05_unambiguous (t t' : Exp) (r r' : List Tok) (h : toks t ++ r = toks t' ++ r')
    (hw : Wf g4Table 0 t) (hw' : Wf g4Table 0 t') (hr : Ends r) (hr' : Ends r') :
    t = t' ∧ r = r' := by
  have h1 := (parse_iff (T := g4Table) (toks t ++ r) t r).2 ⟨rfl, hw, hr⟩
  have h2 := (parse_iff (T := g4Table) (toks t ++ r) t' r').2 ⟨h, hw', hr'⟩
  rw [h1] at h2
  simpa using h2

-- `1 - 2 - 3 ? -n : n == 1 || n ? 4 : 5` groups as expected, and the theorem applies to it.
example : Wf g4Table 0
    (.tern (.bin .sub (.bin .sub (.int b!"1") (.int b!"2")) (.int b!"3"))
      (.pre .minus .n)
      (.tern (.bin .lor (.bin .eq .n (.int b!"1")) .n) (.int b!"4") (.int b!"5"))) := by
  rw [← goTable_eq_g4]; simp [Wf, absorbs, goTable]
-- right-nested subtraction without parentheses does not respect the levels
example : ¬ Wf g4Table 0 (.bin .sub (.int b!"1") (.bin .sub (.int b!"2") (.int b!"3"))) := by
  rw [← goTable_eq_g4]; simp [Wf, goTable]

/-- Add parentheses around an operand unless it is `n`, a literal or already parenthesised. -/
def wrap : Exp → Exp
  | .n => .n
  | .int ds => .int ds
  | .paren e => .paren e
  | e => .paren e

/-- Write an expression with every compound operand in parentheses. -/
def full : Exp → Exp
  | .n => .n
  | .int ds => .int ds
  | .paren e => .paren (full e)
  | .post o e => .post o (wrap (full e))
  | .pre o e => .pre o (wrap (full e))
  | .bin o l r => .bin o (wrap (full l)) (wrap (full r))
  | .tern c a b => .tern (wrap (full c)) (wrap (full a)) (wrap (full b))

/-- Drop all parentheses of a tree: its abstract syntax. -/
def strip : Exp → Exp
  | .n => .n
  | .int ds => .int ds
  | .paren e => strip e
  | .post o e => .post o (strip e)
  | .pre o e => .pre o (strip e)
  | .bin o l r => .bin o (strip l) (strip r)
  | .tern c a b => .tern (strip c) (strip a) (strip b)

theorem wrap_wf {T : Table} {p : Nat} {e : Exp} (h : Wf T 0 e) : Wf T p (wrap e) := by
  cases e <;> simp_all [wrap, Wf]
theorem wrap_abs {T : Table} {q : Nat} {e : Exp} : ¬ absorbs T (wrap e) q := by
  cases e <;> simp [wrap, absorbs]
theorem strip_wrap (e : Exp) : strip (wrap e) = strip e := by cases e <;> simp [wrap, strip]
theorem full_wf {T : Table} (t : Exp) : Wf T 0 (full t) := by
  induction t <;> simp_all [full, Wf, wrap_wf, wrap_abs]
theorem strip_full (t : Exp) : strip (full t) = strip t := by
  induction t <;> simp_all [full, strip, strip_wrap]

/-- **C05** Any abstract expression, written with parentheses around its compound operands, is read
back with the same structure, all input consumed. -/
theorem C05_parenthesised (t : Exp) :
    ∃ t', parse goTable (toks (full t)) = some (t', []) ∧ strip t' = strip t :=
  ⟨full t, (parse_iff _ _ _).2 ⟨by simp, full_wf t, by simp [Ends]⟩, strip_full t⟩

/-- **C05** Parentheses around an expression never change its value. -/
theorem C05_parens_value (n : Int64) (t : Exp) : den n (strip t) = den n t := by
  induction t <;> simp_all [strip, den]

/-- **C04** Evaluating a tree on any operand stack either panics (exactly when the compositional
value is undefined) or leaves that value on top of the untouched stack: nothing below is popped. -/
theorem C04_stack (n : Int64) (t : Exp) (h : GoodLits t) (s : Stack) :
    walk n t s = match den n t with
      | some v => .ok (v :: s)
      | none => .panic := by
  rw [walk_eq n t h s]; rfl

/-- **C04** In `Eval` the stack starts empty and ends with exactly the result. -/
theorem C04_final_stack (n : Int64) (s : Str) (t : Exp) (r : List Tok) (st : Stack)
    (hp : parse goTable (lex s) = some (t, r)) (hw : walk n t [] = .ok st) :
    ∃ v, st = [v] ∧ den n t = some v := by
  have hg := goodLits_of_lex ((parse_iff _ _ _).1 hp).1
  rw [C04_stack n t hg] at hw
  cases hd : den n t with
  | none => simp [hd] at hw
  | some v => simp [hd] at hw; exact ⟨v, hw.symm, rfl⟩

example : GoodLits (.bin .mod .n (.int b!"10")) := by simp [GoodLits, Num.isDigit]
example : walk 57 (.bin .mod .n (.int b!"10")) [4, 2] = .ok [7, 4, 2] := by decide
example : walk 57 (.bin .mod .n (.int b!"0")) [4, 2] = .panic := by decide

/-- **C01** `Eval` never lets a panic escape. -/
theorem C01_no_panic (diag : Diag) (exp : Str) (n : Int64) : eval diag exp n ≠ .panic := by
  unfold eval
  split
  · simp
  · rename_i h; intro hc; exact h hc

/-- **C01** Off the built-in table, `Eval` returns value `v` exactly when ANTLR raises no extra
diagnostic, some prefix of the tokens spells an expression respecting the precedences that the next
token cannot continue, and that expression has the value `v` (all literals in range, no division by
zero, no negative shift count, in any operand). -/
theorem C01_eval_iff (diag : Diag) (exp : Str) (n v : Int64)
    (hc : ∀ p ∈ commons, p.1 ≠ GoStr.removeByte 32 exp) :
    eval diag exp n = .ok v ↔ diag (lex exp) = false ∧
      ∃ t r, lex exp = toks t ++ r ∧ Wf g4Table 0 t ∧ Ends r ∧ den n t = some v := by
  rw [← goTable_eq_g4]
  have hcg : commonsGet (GoStr.removeByte 32 exp) = none := by
    have : ∀ (m : List (Str × (Int64 → Int64))), (∀ p ∈ m, p.1 ≠ GoStr.removeByte 32 exp) →
        GMap.get? m (GoStr.removeByte 32 exp) = none := by
      intro m
      induction m with
      | nil => intro; rfl
      | cons p m ih =>
        intro h
        simp only [GMap.get?]
        rw [if_neg (h p (by simp))]
        exact ih fun q hq => h q (by simp [hq])
    exact this commons hc
  simp only [eval, evalBody, hcg, evalGeneral]
  cases hp : parse goTable (lex exp) with
  | none =>
    simp only [reduceCtorEq, false_iff, not_and, not_exists]
    intro _ t r h1 h2 h3
    rw [(parse_iff (T := goTable) (lex exp) t r).2 ⟨h1, h2, h3⟩] at hp
    simp at hp
  | some p =>
    obtain ⟨t, r⟩ := p
    obtain ⟨h1, h2, h3⟩ := (parse_iff _ _ _).1 hp
    have hg := goodLits_of_lex h1
    by_cases hd : diag (lex exp) = true
    · simp [hd]
    · simp only [hd, C04_stack n t hg]
      simp only [Bool.not_eq_true] at hd
      cases hv : den n t with
      | none =>
        simp only [Bool.false_eq_true, if_false, Res.bind, reduceCtorEq, true_and, false_iff,
          not_exists, not_and]
        intro t' r' e1 e2 e3 e4
        have := (parse_iff (T := goTable) (lex exp) t' r').2 ⟨e1, e2, e3⟩
        rw [hp] at this; simp at this
        rw [← this.1, hv] at e4; simp at e4
      | some w =>
        simp only [Bool.false_eq_true, if_false, Res.bind, exitStart, pop, Res.ok.injEq, true_and]
        constructor
        · rintro rfl
          exact ⟨t, r, h1, h2, h3, hv⟩
        · rintro ⟨t', r', e1, e2, e3, e4⟩
          have := (parse_iff (T := goTable) (lex exp) t' r').2 ⟨e1, e2, e3⟩
          rw [hp] at this; simp at this
          rw [← this.1, hv] at e4; simpa using e4

-- a non-built-in expression meeting the hypothesis, and both outcomes
example : ∀ p ∈ commons, p.1 ≠ GoStr.removeByte 32 b!"n % 7" := by decide
example : eval (fun _ => false) b!"n % 7" 9 = .ok 2 := by decide
example : eval (fun _ => false) b!"n % (n-n)" 9 = .err := by decide
-- an error in a branch C would not evaluate
example : eval (fun _ => false) b!"n == 1 ? 0 : 1 / (n - 1)" 1 = .err := by decide

/-- **C08** What holds of the code: the value is that of the leading expression, whatever
tokens follow the one that ends it. That `eval = err` whenever the remainder `r` is not empty is false
(`C08_counterexample`). -/
theorem C08_trailing_ignored (diag : Diag) (n v : Int64) (t : Exp) (exp : Str)
    (r : List Tok) (hc : ∀ p ∈ commons, p.1 ≠ GoStr.removeByte 32 exp)
    (hl : lex exp = toks t ++ r) (hw : Wf g4Table 0 t) (hr : Ends r) (hd : diag (lex exp) = false)
    (hv : den n t = some v) : eval diag exp n = .ok v :=
  (C01_eval_iff diag exp n v hc).2 ⟨hd, t, r, hl, hw, hr, hv⟩

/-- **C08** counterexample: `nn` is not an expression (its tokens spell no tree), yet it evaluates
like `n`, for every `n`. -/
theorem C08_counterexample :
    (¬ ∃ t, Wf g4Table 0 t ∧ lex b!"nn" = toks t) ∧
    ∀ n, eval (fun _ => false) b!"nn" n = .ok n := by
  constructor
  · rw [← goTable_eq_g4]
    rintro ⟨t, hw, h⟩
    have := (parse_iff (T := goTable) (lex b!"nn") t []).2 ⟨by simpa using h, hw, by simp [Ends]⟩
    have h2 : parse goTable (lex b!"nn") = some (.n, [.n]) := by decide
    rw [h2] at this; simp at this
  · intro n; rfl

end Verif.Plural
