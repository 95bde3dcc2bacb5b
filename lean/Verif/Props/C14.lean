import Verif.Props.C17
import Verif.Props.C18
import Verif.Props.C01_C05
/-! # C14: plural lookups -/
namespace Verif.Tr
set_option linter.unusedSimpArgs false
variable {α : Type}

/-- The Plural-Forms value `v` selects form `i` for the number `n`: its expression evaluates to `i`
and `i` is below its `nplurals`. -/
def SelectsForm (dg : Plural.Diag) (v : Str) (n : Int64) (i : Nat) : Prop :=
  ∃ d e r, PluralForms v d e ∧ Plural.eval dg e n = .ok r ∧ r.toInt = i ∧ (i : Int) < digitNum d

/-- On files reached by calls, the cached plural rule is that of the headers. -/
theorem rule_eq (E : Fmt.Env α) (dg : Plural.Diag) (cs : List (Call α)) :
    (execAll E dg {} cs).rule =
      parsePlural (((execAll E dg {} cs).getHeader hPluralForms).1.getD []) := by
  have inv : ∀ cs : List (Call α), ∀ p, (execAll E dg {} cs).plural = some p →
      ∃ h, (execAll E dg {} cs).headers = some h ∧ p = parsePlural ((h.get? hPluralForms).getD []) := by
    intro cs
    induction cs using List.reverseRecOn with
    | nil => intro p hp; cases hp
    | append_singleton cs c ih =>
      rw [execAll_snoc]
      generalize execAll E dg {} cs = f at ih
      have keyP : ∀ g : File, (∀ p, g.plural = some p → ∃ h, g.headers = some h ∧
            p = parsePlural ((h.get? hPluralForms).getD [])) →
          ∀ p, g.initPlural.plural = some p → ∃ h, g.initPlural.headers = some h ∧
            p = parsePlural ((h.get? hPluralForms).getD []) := by
        intro g hg p hp
        cases hgp : g.plural with
        | some q => rw [initPlural_of_some g q hgp] at hp ⊢; exact hg p hp
        | none =>
          refine ⟨g.heads, initPlural_headers g hgp, ?_⟩
          rw [initPlural_of_none g hgp] at hp
          simpa using hp.symm
      have keyH : ∀ g : File, (∀ p, g.plural = some p → ∃ h, g.headers = some h ∧
            p = parsePlural ((h.get? hPluralForms).getD [])) →
          ∀ p, g.initHeader.plural = some p → ∃ h, g.initHeader.headers = some h ∧
            p = parsePlural ((h.get? hPluralForms).getD []) := by
        intro g hg p hp
        rw [initHeader_plural] at hp
        obtain ⟨h, h1, h2⟩ := hg p hp
        exact ⟨h, by rw [initHeader_of_some g h h1, h1], h2⟩
      cases c with
      | add e =>
        simp only [Call.exec, File.addEntry]
        split
        · exact keyP _ (keyH _ ih)
        · exact ih
      | header k => exact keyH _ ih
      | lang => exact keyH _ ih
      | x => exact ih
      | xn ctxt id id2 n args =>
        simp only [Call.exec, File.xn]
        split
        · exact ih
        · split
          · exact ih
          · exact keyP _ ih
  unfold File.rule
  rw [getHeader_eq]
  cases hp : (execAll E dg {} cs).plural with
  | none => rfl
  | some p =>
    obtain ⟨h, h1, h2⟩ := inv cs p hp
    rw [heads_of_some _ h h1, h2]

theorem digitNum_pos (d : UInt8) (i : Nat) (h : (i : Int) < digitNum d) : 0 < digitNum d := by omega

/-- The choice of a form in terms of `SelectsForm`. -/
theorem chooseForm_spec (E : Fmt.Env α) (dg : Plural.Diag) (v : Str) (e : Entry) (id id2 : Str)
    (n : Int64) (args : List α) :
    (∀ i s, SelectsForm dg v n i → e.strN[i]? = some s → s ≠ [] →
      chooseForm E dg (parsePlural v) e id id2 n args = .ok (Fmt.format E s args)) ∧
    (SelectsForm dg v n e.strN.length →
      chooseForm E dg (parsePlural v) e id id2 n args = .panic) ∧
    ((∀ i s, SelectsForm dg v n i → e.strN[i]? = some s → s = []) →
      ¬ SelectsForm dg v n e.strN.length →
      chooseForm E dg (parsePlural v) e id id2 n args = .ok (Fmt.defaultPlural E id id2 n args)) := by
  have sel : ∀ i, SelectsForm dg v n i → ∃ d, (i : Int) < digitNum d ∧
      (parsePlural v).totalForms = digitNum d ∧ (parsePlural v).fn dg n = .ok (i : Int) := by
    rintro i ⟨d, ex, r, hpf, hev, hr, hlt⟩
    refine ⟨d, hlt, ?_, ?_⟩
    · rw [C18_parse v d ex hpf]
    · rw [C18_parse v d ex hpf]
      simp [Plural.fn, hev, hr]
  refine ⟨?_, ?_, ?_⟩
  · intro i s hs hget hne
    obtain ⟨d, hlt, ht, hfn⟩ := sel i hs
    obtain ⟨hil, _⟩ := List.getElem?_eq_some_iff.mp hget
    unfold chooseForm
    rw [if_neg (by omega), hfn]
    simp only [Res.bind]
    rw [if_neg (by omega)]
    simp [strAt, hget, hne]
  · intro hs
    obtain ⟨d, hlt, ht, hfn⟩ := sel _ hs
    unfold chooseForm
    rw [if_neg (by omega), hfn]
    simp only [Res.bind]
    rw [if_neg (by omega)]
    simp [strAt]
  · intro h1 h2
    unfold chooseForm
    split
    · rfl
    · rename_i hpos
      by_cases hpf : ∃ d ex, PluralForms v d ex
      · obtain ⟨d, ex, hpf⟩ := hpf
        rw [C18_parse v d ex hpf] at hpos ⊢
        simp only [Plural.fn]
        cases hev : Plural.eval dg ex n with
        | err => simp [Res.bind]
        | panic => exact absurd hev (Verif.Plural.C01_no_panic dg ex n)
        | ok r =>
          simp only [Res.bind]
          by_cases hbad : r.toInt < 0 ∨ r.toInt ≥ digitNum d ∨ r.toInt > (e.strN.length : Int)
          · rw [if_pos hbad]
          · rw [if_neg hbad]
            simp only [not_or, not_lt, ge_iff_le, not_le, gt_iff_lt] at hbad
            have hs : SelectsForm dg v n r.toInt.toNat :=
              ⟨d, ex, r, hpf, hev, by omega, by omega⟩
            by_cases hlen : r.toInt.toNat = e.strN.length
            · rw [hlen] at hs; exact absurd hs h2
            · have hil : r.toInt.toNat < e.strN.length := by omega
              have hget := List.getElem?_eq_getElem hil
              have := h1 _ _ hs hget
              simp only [strAt, hget, this]
              rfl
      · have := C18_reject v (fun d ex h => hpf ⟨d, ex, h⟩)
        rw [this] at hpos
        simp at hpos

/-- **C14** After any history of calls, a plural lookup
* of an unknown message returns the default plural of the source strings;
* of a message without plural data returns its singular translation, or the source text;
* of a message with plural data returns the form selected by the Plural-Forms header if that form is
  stored and non-empty, the default plural if no form is selected or the selected form is empty or
  more than one beyond the stored ones,
* but panics if the selected form is the one just beyond the stored ones.
That it never panics is false: see `C14_panic_iff` and `C14_counterexample`. -/
theorem C14_plural_lookup (E : Fmt.Env α) (dg : Plural.Diag) (cs : List (Call α))
    (hcs : NoEot cs) (ctxt id id2 : Str) (hc : 4 ∉ ctxt) (n : Int64) (args : List α) :
    let f := execAll E dg {} cs
    let forms := (f.getHeader b!"Plural-Forms").1.getD []
    let result := (f.xn E dg ctxt id id2 n args).1
    (lastAdded cs ctxt id = none → result = .ok (Fmt.defaultPlural E id id2 n args)) ∧
    (∀ e, lastAdded cs ctxt id = some e → e.id2 = [] → e.strN = [] →
      result = .ok (Fmt.format E (if e.str = [] then id else e.str) args)) ∧
    (∀ e, lastAdded cs ctxt id = some e → e.id2 ≠ [] ∨ e.strN ≠ [] →
      (∀ i s, SelectsForm dg forms n i → e.strN[i]? = some s → s ≠ [] →
        result = .ok (Fmt.format E s args)) ∧
      (SelectsForm dg forms n e.strN.length → result = .panic) ∧
      ((∀ i s, SelectsForm dg forms n i → e.strN[i]? = some s → s = []) →
        ¬ SelectsForm dg forms n e.strN.length →
        result = .ok (Fmt.defaultPlural E id id2 n args))) := by
  dsimp only
  have hent := entries_lastAdded E dg cs hcs ctxt id hc
  refine ⟨?_, ?_, ?_⟩
  · intro h; rw [h] at hent; simp [File.xn, hent]
  · intro e h h1 h2
    rw [h] at hent
    by_cases hs : e.str = [] <;> simp [File.xn, hent, h1, h2, hs]
  · intro e h hpl
    rw [h] at hent
    have hno : ¬ (e.id2 = [] ∧ e.strN.length = 0) := by
      rintro ⟨a, b⟩
      rcases hpl with hpl | hpl
      · exact hpl a
      · exact hpl (by simpa using b)
    have hres : ((execAll E dg {} cs).xn E dg ctxt id id2 n args).1 =
        chooseForm E dg (parsePlural (((execAll E dg {} cs).getHeader b!"Plural-Forms").1.getD []))
          e id id2 n args := by
      have h2 : (execAll E dg {} cs).initPlural.plural.getD { totalForms := 0, expr := none } =
          parsePlural (((execAll E dg {} cs).getHeader b!"Plural-Forms").1.getD []) := by
        rw [initPlural_rule, rule_eq]; rfl
      simp only [File.xn, hent, if_neg hno, h2]
    rw [hres]
    exact chooseForm_spec E dg _ e id id2 n args

theorem selects_unique (dg : Plural.Diag) (v : Str) (n : Int64) (i j : Nat)
    (hi : SelectsForm dg v n i) (hj : SelectsForm dg v n j) : i = j := by
  obtain ⟨d, e, r, h1, h2, h3, _⟩ := hi
  obtain ⟨d', e', r', h1', h2', h3', _⟩ := hj
  obtain ⟨rfl, rfl⟩ := C18_unique _ _ _ _ _ h1 h1'
  rw [h2] at h2'
  cases h2'
  omega

/-- **C14** The exact condition under which a plural lookup panics. -/
theorem C14_panic_iff (E : Fmt.Env α) (dg : Plural.Diag) (cs : List (Call α))
    (hcs : NoEot cs) (ctxt id id2 : Str) (hc : 4 ∉ ctxt) (n : Int64) (args : List α) :
    ((execAll E dg {} cs).xn E dg ctxt id id2 n args).1 = .panic ↔
      ∃ e, lastAdded cs ctxt id = some e ∧ (e.id2 ≠ [] ∨ e.strN ≠ []) ∧
        SelectsForm dg (((execAll E dg {} cs).getHeader b!"Plural-Forms").1.getD []) n
          e.strN.length := by
  obtain ⟨h1, h2, h3⟩ := C14_plural_lookup E dg cs hcs ctxt id id2 hc n args
  constructor
  · intro hp
    cases hl : lastAdded cs ctxt id with
    | none => rw [h1 hl] at hp; cases hp
    | some e =>
      by_cases hpl : e.id2 ≠ [] ∨ e.strN ≠ []
      · refine ⟨e, rfl, hpl, ?_⟩
        obtain ⟨a, _, c⟩ := h3 e hl hpl
        by_contra hno
        by_cases hex : ∃ i s, SelectsForm dg (((execAll E dg {} cs).getHeader b!"Plural-Forms").1.getD []) n i
            ∧ e.strN[i]? = some s ∧ s ≠ []
        · obtain ⟨i, s, x, y, z⟩ := hex
          rw [a i s x y z] at hp; cases hp
        · rw [c (fun i s x y => by_contra fun z => hex ⟨i, s, x, y, z⟩) hno] at hp; cases hp
      · simp only [not_or, not_not] at hpl
        rw [h2 e hl hpl.1 hpl.2] at hp; cases hp
  · rintro ⟨e, hl, hpl, hs⟩
    exact (h3 e hl hpl).2.1 hs

/-- A file with two declared forms and one stored form. -/
def exShort : List (Call α) :=
  [.add { str := b!"Plural-Forms: nplurals=2; plural=n != 1;\n" },
   .add { id := b!"one", isPlural := true, id2 := b!"many", strN := [b!"eins"] }]

/-- **C14** Panic freedom is false: two declared forms, one stored, the second selected. -/
theorem C14_counterexample (E : Fmt.Env α) :
    ((execAll E (fun _ => false) {} exShort).xn E (fun _ => false) b!"" b!"one" b!"many" 2 []).1
      = .panic ∧
    ((execAll E (fun _ => false) {} exShort).xn E (fun _ => false) b!"" b!"one" b!"many" 1 []).1
      = .ok b!"eins" := by
  constructor <;> rfl

/-! Concrete case: hypotheses of the theorem and a selected form. -/
example : NoEot (exShort (α := Str)) := by simp [NoEot, exShort, added]
example : lastAdded (exShort (α := Str)) b!"" b!"one" =
    some { id := b!"one", isPlural := true, id2 := b!"many", strN := [b!"eins"] } := by decide
example : SelectsForm (fun _ => false) b!"nplurals=2; plural=n != 1;" 1 0 :=
  ⟨50, b!"n != 1", 0, (C18_syntax _ _ _).mp (by decide), by decide, by decide, by decide⟩
example : SelectsForm (fun _ => false) b!"nplurals=2; plural=n != 1;" 7 1 :=
  ⟨50, b!"n != 1", 1, (C18_syntax _ _ _).mp (by decide), by decide, by decide, by decide⟩

end Verif.Tr
