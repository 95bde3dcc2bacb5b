import Verif.Spec.PluralError
import Verif.Props.C103
/-!
# C106 What the error of a failed evaluation says
-/
namespace Verif.Plural
open Verif

/-! ## The tree walk -/

/-- The outcome of the walk without the value of a panic. -/
def forget : Except Panic Stack → Res Stack
  | .ok s => .ok s
  | .error _ => .panic

theorem onBopP_eq (o : Op) (s : Stack) : forget (onBopP o s) = onBop o s := by
  have : ∀ l r, (∃ v, bopP o l r = .ok v ∧ bop o l r = .ok v) ∨ (∃ p, bopP o l r = .error p ∧ bop o l r = .panic) := by
    intro l r
    unfold bopP
    cases h : bop o l r with
    | ok v => exact .inl ⟨v, rfl, rfl⟩
    | panic => exact .inr ⟨_, rfl, rfl⟩
    | err => cases o <;> simp [bop] at h <;> split at h <;> cases h
  rcases this (pop (pop s).2).1 (pop s).1 with ⟨v, h1, h2⟩ | ⟨v, h1, h2⟩
  · show forget ((bopP o (pop (pop s).2).1 (pop s).1).bind _) = (bop o (pop (pop s).2).1 (pop s).1).bind _
    rw [h1, h2]
    rfl
  · show forget ((bopP o (pop (pop s).2).1 (pop s).1).bind _) = (bop o (pop (pop s).2).1 (pop s).1).bind _
    rw [h1, h2]
    rfl

theorem forget_bind (x : Except Panic Stack) (f : Stack → Except Panic Stack) : forget (x.bind f) = (forget x).bind fun s => forget (f s) := by
  cases x <;> rfl

theorem forget_ok (s : Stack) : forget (.ok s) = .ok s := rfl

theorem forget_walk (n : Int64) (t : Exp) : ∀ s, forget (walkP n t s) = walk n t s := by
  induction t with
  | n => intro s; rfl
  | int ds =>
    intro s
    unfold walkP walk
    cases Num.parseInt ds <;> rfl
  | paren e ih => intro s; exact ih s
  | post o e ih => intro s; simp only [walkP, walk, forget_bind, ih, forget_ok]
  | pre o e ih => intro s; simp only [walkP, walk, forget_bind, ih, forget_ok]
  | bin o l r ihl ihr => intro s; simp only [walkP, walk, forget_bind, ihl, ihr, onBopP_eq]
  | tern c a b ihc iha ihb => intro s; simp only [walkP, walk, forget_bind, ihc, iha, ihb, forget_ok]

theorem walkP_ok {n : Int64} {t : Exp} (h : GoodLits t) {v : Int64} (hd : den n t = some v) (s : Stack) : walkP n t s = .ok (v :: s) := by
  have h1 := forget_walk n t s
  rw [C04_stack n t h, hd] at h1
  cases hw : walkP n t s with
  | ok s' => rw [hw] at h1; cases h1; rfl
  | error p => rw [hw] at h1; cases h1

/-- The panic for a cause. -/
def Cause.panic : Cause → Panic
  | .divide => .divide
  | .shift => .shift
  | .tooBig ds => .assert (b!"assert error: not a number: " ++ ds)

theorem Cause.panic_text (c : Cause) : c.panic.text = c.text := by cases c <;> rfl

theorem big_none {ds : Str} (h1 : ds ≠ []) (h2 : ds.all Num.isDigit = true)
    (h : 2 ^ 63 ≤ ds.foldl (fun a c => a * 10 + (c.toNat - 48)) 0) : litVal ds = none := by
  unfold litVal
  rw [if_pos ⟨h1, h2⟩]
  exact if_neg (by omega)

theorem walkP_fails {n : Int64} {t : Exp} {c : Cause} (hf : Fails n t c) (h : GoodLits t) (s : Stack) : walkP n t s = .error c.panic := by
  induction hf generalizing s with
  | @literal ds hb =>
    have h1 := litVal_eq ds h.1 h.2
    rw [big_none h.1 h.2 hb] at h1
    unfold walkP
    cases hp : Num.parseInt ds with
    | none => rfl
    | some i => rw [hp] at h1; cases h1
  | paren _ ih => exact ih h s
  | post _ ih => unfold walkP; rw [ih h]; rfl
  | pre _ ih => unfold walkP; rw [ih h]; rfl
  | left _ ih => unfold walkP; rw [ih h.1]; rfl
  | right hl _ ih =>
    unfold walkP
    rw [walkP_ok h.1 hl]
    show (walkP n _ _).bind _ = _
    rw [ih h.2]
    rfl
  | div hl hr =>
    unfold walkP
    rw [walkP_ok h.1 hl]
    show (walkP n _ _).bind _ = _
    rw [walkP_ok h.2 hr]
    rfl
  | mod hl hr =>
    unfold walkP
    rw [walkP_ok h.1 hl]
    show (walkP n _ _).bind _ = _
    rw [walkP_ok h.2 hr]
    rfl
  | shr hl hr hy =>
    unfold walkP
    rw [walkP_ok h.1 hl]
    show (walkP n _ _).bind _ = _
    rw [walkP_ok h.2 hr]
    simp [onBopP, pop, bopP, bop, hy, Cause.panic, Except.bind]
  | shl hl hr hy =>
    unfold walkP
    rw [walkP_ok h.1 hl]
    show (walkP n _ _).bind _ = _
    rw [walkP_ok h.2 hr]
    simp [onBopP, pop, bopP, bop, hy, Cause.panic, Except.bind]
  | cond _ ih => unfold walkP; rw [ih h.1]; rfl
  | yes hc _ ih =>
    unfold walkP
    rw [walkP_ok h.1 hc]
    show (walkP n _ _).bind _ = _
    rw [ih h.2.1]
    rfl
  | no hc ha _ ih =>
    unfold walkP
    rw [walkP_ok h.1 hc]
    show (walkP n _ _).bind _ = _
    rw [walkP_ok h.2.1 ha]
    show (walkP n _ _).bind _ = _
    rw [ih h.2.2]
    rfl

theorem Cause.panic_inj {c d : Cause} (h : c.panic = d.panic) : c = d := by
  cases c <;> cases d <;> simp_all [Cause.panic]

/-- **C106** An expression has no value exactly if something goes wrong in it, and then one thing goes wrong first. -/
theorem C106_cause (n : Int64) (t : Exp) (h : GoodLits t) :
    (den n t = none ↔ ∃ c, Fails n t c) ∧ ∀ c d, Fails n t c → Fails n t d → c = d := by
  have uniq : ∀ c d, Fails n t c → Fails n t d → c = d := by
    intro c d hc hd
    have h1 := walkP_fails hc h []
    rw [walkP_fails hd h []] at h1
    exact (Cause.panic_inj (Except.error.inj h1)).symm
  refine ⟨⟨?_, ?_⟩, uniq⟩
  · intro hd
    clear uniq
    induction t with
    | n => cases hd
    | int ds =>
      unfold den litVal at hd
      rw [if_pos ⟨h.1, h.2⟩] at hd
      refine ⟨_, .literal ?_⟩
      by_cases hv : ds.foldl (fun a c => a * 10 + (c.toNat - 48)) 0 < 2 ^ 63
      · exact absurd hd (by simp only [if_pos hv]; exact fun h => by cases h)
      · omega
    | paren e ih => obtain ⟨c, hc⟩ := ih h hd; exact ⟨c, .paren hc⟩
    | post o e ih => obtain ⟨c, hc⟩ := ih h (by simpa [den] using hd); exact ⟨c, .post hc⟩
    | pre o e ih => obtain ⟨c, hc⟩ := ih h (by simpa [den] using hd); exact ⟨c, .pre hc⟩
    | bin o l r ihl ihr =>
      cases hl : den n l with
      | none => obtain ⟨c, hc⟩ := ihl h.1 hl; exact ⟨c, .left hc⟩
      | some x =>
        cases hr : den n r with
        | none => obtain ⟨c, hc⟩ := ihr h.2 hr; exact ⟨c, .right hl hc⟩
        | some y =>
          simp only [den, hl, hr, Option.bind_some] at hd
          cases o with
          | div => by_cases hy : y = 0
                   · subst hy; exact ⟨_, .div hl hr⟩
                   · simp [opVal, hy] at hd
          | mod => by_cases hy : y = 0
                   · subst hy; exact ⟨_, .mod hl hr⟩
                   · simp [opVal, hy] at hd
          | shr => by_cases hy : y < 0
                   · exact ⟨_, .shr hl hr hy⟩
                   · simp [opVal, hy] at hd
          | shl => by_cases hy : y < 0
                   · exact ⟨_, .shl hl hr hy⟩
                   · simp [opVal, hy] at hd
          | _ => cases hd
    | tern c a b ihc iha ihb =>
      cases hc : den n c with
      | none => obtain ⟨k, hk⟩ := ihc h.1 hc; exact ⟨k, .cond hk⟩
      | some x =>
        cases ha : den n a with
        | none => obtain ⟨k, hk⟩ := iha h.2.1 ha; exact ⟨k, .yes hc hk⟩
        | some y =>
          cases hb : den n b with
          | none => obtain ⟨k, hk⟩ := ihb h.2.2 hb; exact ⟨k, .no hc ha hk⟩
          | some z => simp [den, hc, ha, hb] at hd
  · rintro ⟨c, hc⟩
    cases hd : den n t with
    | none => rfl
    | some v =>
      have h1 := walkP_fails hc h []
      rw [walkP_ok h hd] at h1
      cases h1

/-! ## Messages -/

theorem malformed_iff (exp : Str) : Malformed exp ↔ parse goTable (lex exp) = none := by
  unfold Malformed
  rw [Option.eq_none_iff_forall_ne_some]
  constructor
  · rintro h ⟨t, r⟩ hp
    exact h ⟨t, r, (parse_iff _ _ _).1 hp⟩
  · rintro h ⟨t, r, hp⟩
    exact h (t, r) ((parse_iff _ _ _).2 hp)

theorem unexpected_text (L : Fmt.Lib) (p : Panic) :
    recovered L p = (0, some { err := Errors.errorf, text := b!"unexpected error: " ++ p.text }) := by
  have : ∀ t, Fmt.sprintf (Xt.dEnv L) b!"unexpected error: %v" [.str t] = (b!"unexpected error: " ++ (t ++ [])) ++ [] := fun _ => rfl
  unfold recovered
  rw [this, List.append_nil, List.append_nil]

/-- **C106** A well-formed expression with a value evaluates to it without an error; one without a value evaluates to 0 and an error that
tells what went wrong first.  That error is not `ErrAntlr`. -/
theorem C106_value (L : Fmt.Lib) (other : Except Panic Int64) (exp : Str) (n : Int64) (t : Exp) (r : List Tok)
    (hc : commonsGet (GoStr.removeByte 32 exp) = none) (hs : lex exp = toks t ++ r) (hw : Wf goTable 0 t) (he : Ends r) :
    (∀ v, den n t = some v → evalE L [] other exp n = (v, none)) ∧
    ∀ c, Fails n t c → ∃ e, evalE L [] other exp n = (0, some e) ∧ e.text = b!"unexpected error: " ++ c.text ∧
      Errors.is antlrId e.err = false := by
  have hp := (parse_iff _ _ _).2 ⟨hs, hw, he⟩
  have hg := goodLits_of_lex hs
  refine ⟨?_, ?_⟩
  · intro v hv
    unfold evalE
    rw [hc, hp]
    simp only
    rw [walkP_ok hg hv]
    rfl
  · intro c hf
    refine ⟨{ err := Errors.errorf, text := b!"unexpected error: " ++ c.text }, ?_, rfl, rfl⟩
    unfold evalE
    rw [hc, hp]
    simp only
    rw [walkP_fails hf hg]
    simp only
    rw [unexpected_text, Cause.panic_text]

/-- **C106** A result is returned without an error exactly if `Eval` succeeds in the sense of the other properties, and it is the same. -/
theorem C106_same (L : Fmt.Lib) (reports : List Report) (other : Except Panic Int64) (exp : Str) (n : Int64)
    (hr : Reported exp reports) :
    eval (fun _ => false) exp n = match evalE L reports other exp n with
      | (v, none) => .ok v
      | (_, some _) => .err := by
  have some_of : reports ≠ [] → ∃ e, listenerErr L reports = some e := by
    intro h
    unfold listenerErr
    obtain ⟨l, x, rfl⟩ := List.eq_nil_or_concat reports |>.resolve_left h
    rw [List.concat_eq_append, List.map_append, List.foldl_append]
    exact ⟨_, rfl⟩
  unfold eval evalBody evalE
  cases hc : commonsGet (GoStr.removeByte 32 exp) with
  | some f => rfl
  | none =>
    simp only [evalGeneral]
    cases hp : parse goTable (lex exp) with
    | none =>
      obtain ⟨e, he⟩ := some_of (hr.2 ((malformed_iff exp).2 hp))
      cases other with
      | ok v => simp only [he]
      | error p => rfl
    | some tr =>
      obtain ⟨t, r⟩ := tr
      have h0 : reports = [] := by
        refine Classical.byContradiction fun h => ?_
        rw [(malformed_iff exp).1 (hr.1 h)] at hp
        cases hp
      subst h0
      have h1 := forget_walk n t []
      cases hw : walkP n t [] with
      | ok s => rw [hw] at h1; simp only [← h1, forget, hw]; rfl
      | error p => rw [hw] at h1; simp only [← h1, forget, hw]; rfl

theorem report_text (L : Fmt.Lib) (r : Report) (h : r.small) : (r.error L).text = r.says := by
  cases r with
  | syntaxError line column msg =>
    have : Fmt.sprintf (Xt.dEnv L) b!"SyntaxError(line %v:%v): %v" [.num line, .num column, .str msg] =
      (b!"SyntaxError(line " ++ ((Xt.dEnv L).render {} b!"v" (.num line) ++ (b!":" ++ ((Xt.dEnv L).render {} b!"v" (.num column) ++
        (b!"): " ++ (msg ++ [])))))) ++ [] := rfl
    unfold Report.error
    simp only
    rw [this, Xt.num_v L _ h.1, Xt.num_v L _ h.2]
    simp [Report.says]
  | ambiguity => rfl
  | fullContext => rfl
  | sensitivity => rfl

theorem listener_fold (L : Fmt.Lib) (reports : List Report) (hs : ∀ r ∈ reports, r.small) (d : Error) (hd : Errors.is antlrId d.err = true) :
    ∃ e, (reports.map (Report.error L)).foldl addError (some d) = some e ∧
      e.text = d.text ++ (reports.map fun r => b!": " ++ r.says).flatten ∧ Errors.is antlrId e.err = true := by
  induction reports generalizing d with
  | nil => exact ⟨d, rfl, (List.append_nil _).symm, hd⟩
  | cons r l ih =>
    obtain ⟨e, h1, h2, h3⟩ := ih (fun r hr => hs r (List.mem_cons_of_mem _ hr)) (withSecondary d (r.error L)) (by
      simp [withSecondary, Errors.withSecondary, Errors.is, Errors.isAny, hd])
    refine ⟨e, h1, ?_, h3⟩
    rw [h2, withSecondary, report_text L r (hs r List.mem_cons_self)]
    simp

/-- **C106** For a malformed text `Eval` returns an error.  If the walk of the tree ANTLR made all the same does not panic, the error is
`ErrAntlr` with everything ANTLR reported, in order; otherwise it tells what the panic was about and is not `ErrAntlr`. -/
theorem C106_malformed (L : Fmt.Lib) (reports : List Report) (other : Except Panic Int64) (exp : Str) (n : Int64)
    (hc : commonsGet (GoStr.removeByte 32 exp) = none) (hm : Malformed exp) (hr : Reported exp reports) (hs : ∀ r ∈ reports, r.small) :
    (∀ v, other = .ok v → ∃ e, evalE L reports other exp n = (v, some e) ∧ Errors.is antlrId e.err = true ∧
      e.text = b!"err antlr" ++ (reports.map fun r => b!": " ++ r.says).flatten) ∧
    (∀ p, other = .error p → ∃ e, evalE L reports other exp n = (0, some e) ∧ Errors.is antlrId e.err = false ∧
      e.text = b!"unexpected error: " ++ p.text) := by
  have hp := (malformed_iff exp).1 hm
  refine ⟨?_, ?_⟩
  · rintro v rfl
    cases reports with
    | nil => exact absurd rfl (hr.2 hm)
    | cons r l =>
      obtain ⟨e, h1, h2, h3⟩ := listener_fold L l (fun r hr => hs r (List.mem_cons_of_mem _ hr)) (withSecondary errAntlr (r.error L)) (by
        simp [withSecondary, Errors.withSecondary, Errors.is, Errors.isAny, errAntlr, Errors.sentinel])
      refine ⟨e, ?_, h3, ?_⟩
      · unfold evalE
        rw [hc, hp]
        simp only
        exact congrArg (Prod.mk v) h1
      · rw [h2, withSecondary, report_text L r (hs r List.mem_cons_self)]
        simp [errAntlr]
  · rintro p rfl
    refine ⟨{ err := Errors.errorf, text := b!"unexpected error: " ++ p.text }, ?_, rfl, rfl⟩
    unfold evalE
    rw [hc, hp]
    simp only
    exact unexpected_text L p

/-! ## Examples -/

/-- `n % 0 + (n << -1)`: the remainder comes first. -/
example (L : Fmt.Lib) (other : Except Panic Int64) :
    ∃ e, evalE L [] other b!"n % 0 + (n << -1)" 3 = (0, some e) ∧ e.text = b!"unexpected error: runtime error: integer divide by zero" := by
  have hs : lex b!"n % 0 + (n << -1)" =
      toks (.bin .add (.bin .mod .n (.int b!"0")) (.paren (.bin .shl .n (.pre .minus (.int b!"1"))))) ++ [] := by decide +kernel
  obtain ⟨-, h⟩ := C106_value L other b!"n % 0 + (n << -1)" 3 _ [] (by decide +kernel) hs (by simp [Wf, absorbs, goTable]) (by simp [Ends])
  obtain ⟨e, h1, h2, -⟩ := h .divide (.left (.mod (x := 3) rfl (by decide +kernel)))
  exact ⟨e, h1, h2⟩

/-- A number that is too big. -/
example (L : Fmt.Lib) (other : Except Panic Int64) :
    ∃ e, evalE L [] other b!"n>9223372036854775808" 3 = (0, some e) ∧
      e.text = b!"unexpected error: assert error: not a number: 9223372036854775808" := by
  have hs : lex b!"n>9223372036854775808" = toks (.bin .gt .n (.int b!"9223372036854775808")) ++ [] := by decide +kernel
  obtain ⟨-, h⟩ := C106_value L other b!"n>9223372036854775808" 3 _ [] (by decide +kernel) hs (by simp [Wf, absorbs, goTable]) (by simp [Ends])
  obtain ⟨e, h1, h2, -⟩ := h (.tooBig b!"9223372036854775808") (.right rfl (.literal (by decide +kernel)))
  exact ⟨e, h1, h2⟩

/-- `n +` is malformed. -/
example : Malformed b!"n +" := (malformed_iff _).2 (by decide +kernel)

example (L : Fmt.Lib) (msg : Str) :
    ∃ e, evalE L [.syntaxError 1 3 msg] (.ok 7) b!"n +" 7 = (7, some e) ∧ e.text = b!"err antlr: SyntaxError(line 1:3): " ++ msg := by
  have hm : Malformed b!"n +" := (malformed_iff _).2 (by decide +kernel)
  obtain ⟨h, -⟩ := C106_malformed L [.syntaxError 1 3 msg] (.ok 7) b!"n +" 7 (by decide +kernel) hm (by simp [Reported, hm])
    (by simp [Report.small])
  obtain ⟨e, h1, -, h2⟩ := h 7 rfl
  have d1 : Xt.inDigits 1 = b!"1" := by decide +kernel
  have d3 : Xt.inDigits 3 = b!"3" := by decide +kernel
  exact ⟨e, h1, by rw [h2]; simp [Report.says, d1, d3]⟩

end Verif.Plural
