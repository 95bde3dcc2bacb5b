import Verif.Spec.PluralShape
import Verif.Spec.Served
import Verif.Props.C02_C03
import Verif.Props.C06
import Verif.Props.C14
import Verif.Props.C18
import Verif.Props.C70
/-!
# C130: plural rules of the usual shape always select a form
-/
namespace Verif.Plural
open Verif

theorem litVal_nonneg {ds : Str} {v : Int64} (h : litVal ds = some v) : 0 ≤ v.toInt := by
  unfold litVal at h
  split at h
  · dsimp only at h
    split at h
    · rename_i hlt
      cases h
      rw [Int64.toInt_ofNat_of_lt hlt]
      exact Int.natCast_nonneg _
    · cases h
  · cases h

theorem divisor_den {n : Int64} (t : Exp) (h : divisor t = true) : ∃ v, den n t = some v ∧ v ≠ 0 := by
  induction t with
  | int ds =>
    rw [divisor, Option.any_eq_true] at h
    obtain ⟨v, hv, h0⟩ := h
    exact ⟨v, hv, by simpa using h0⟩
  | paren e ih => exact ih h
  | _ => cases h

theorem safe_den {n : Int64} (t : Exp) (h : safe t = true) : ∃ v, den n t = some v := by
  induction t with
  | n => exact ⟨n, rfl⟩
  | int ds => exact Option.isSome_iff_exists.1 h
  | paren e ih => exact ih h
  | post o e ih =>
    obtain ⟨v, hv⟩ := ih h
    exact ⟨_, by rw [den, hv]; rfl⟩
  | pre o e ih =>
    obtain ⟨v, hv⟩ := ih h
    exact ⟨_, by rw [den, hv]; rfl⟩
  | bin o l r ihl ihr =>
    simp only [safe, Bool.and_eq_true, bne_iff_ne, ne_eq] at h
    obtain ⟨⟨⟨⟨h1, h2⟩, h3⟩, h4⟩, h5⟩ := h
    obtain ⟨x, hx⟩ := ihl h1
    obtain ⟨y, hy⟩ := ihr h2
    have hz : o = .div ∨ o = .mod → y ≠ 0 := by
      intro ho
      have hd : divisor r = true := by rcases ho with rfl | rfl <;> simpa using h5
      obtain ⟨v, hv, h0⟩ := divisor_den (n := n) r hd
      rw [hy] at hv
      cases hv
      exact h0
    rw [den, hx, hy]
    simp only [Option.bind_some]
    cases o <;> simp_all [opVal]
  | tern c a b ihc iha ihb =>
    simp only [safe, Bool.and_eq_true] at h
    obtain ⟨x, hx⟩ := ihc h.1.1
    obtain ⟨y, hy⟩ := iha h.1.2
    obtain ⟨z, hz⟩ := ihb h.2
    exact ⟨_, by rw [den, hx, hy, hz]; rfl⟩

theorem safe_noShift (t : Exp) (h : safe t = true) : noShift t = true := by
  induction t with
  | n => rfl
  | int ds => rfl
  | paren e ih => exact ih h
  | post o e ih => exact ih h
  | pre o e ih => exact ih h
  | bin o l r ihl ihr =>
    simp only [safe, Bool.and_eq_true, bne_iff_ne, ne_eq] at h
    obtain ⟨⟨⟨⟨h1, h2⟩, h3⟩, h4⟩, h5⟩ := h
    simp [noShift, ihl h1, ihr h2, h3, h4]
  | tern c a b ihc iha ihb =>
    simp only [safe, Bool.and_eq_true] at h
    simp [noShift, ihc h.1.1, iha h.1.2, ihb h.2]

theorem below_safe (N : Nat) (t : Exp) (h : below N t = true) : safe t = true := by
  induction t with
  | int ds =>
    rw [below, Option.any_eq_true] at h
    obtain ⟨v, hv, -⟩ := h
    rw [safe, hv]; rfl
  | paren e ih => exact ih h
  | tern c a b _ iha ihb =>
    simp only [below, Bool.and_eq_true] at h
    simp [safe, h.1.1, iha h.1.2, ihb h.2]
  | pre o e _ =>
    simp only [below, Bool.and_eq_true] at h
    exact h.1.2
  | bin o l r _ _ =>
    simp only [below, Bool.and_eq_true] at h
    exact h.1.2
  | _ => cases h

/-- Such an expression has for every number a value that is a number of a form. -/
theorem below_den {n : Int64} (N : Nat) (t : Exp) (h : below N t = true) : ∃ v, den n t = some v ∧ 0 ≤ v.toInt ∧ v.toInt < N := by
  have two : 2 ≤ N → ∀ v : Int64, v = 0 ∨ v = 1 → 0 ≤ v.toInt ∧ v.toInt < N := by
    intro hN v hv
    rcases hv with rfl | rfl
    · rw [show Int64.toInt 0 = 0 by decide]; omega
    · rw [show Int64.toInt 1 = 1 by decide]; omega
  induction t with
  | int ds =>
    rw [below, Option.any_eq_true] at h
    obtain ⟨v, hv, hlt⟩ := h
    exact ⟨v, hv, litVal_nonneg hv, by simpa using hlt⟩
  | paren e ih => exact ih h
  | tern c a b _ iha ihb =>
    simp only [below, Bool.and_eq_true] at h
    obtain ⟨x, hx⟩ := safe_den (n := n) c h.1.1
    obtain ⟨y, hy, hy'⟩ := iha h.1.2
    obtain ⟨z, hz, hz'⟩ := ihb h.2
    refine ⟨if x = 1 then y else z, by rw [den, hx, hy, hz]; rfl, ?_⟩
    split
    · exact hy'
    · exact hz'
  | pre o e _ =>
    simp only [below, Bool.and_eq_true, beq_iff_eq, decide_eq_true_eq] at h
    obtain ⟨⟨rfl, hs⟩, hN⟩ := h
    obtain ⟨x, hx⟩ := safe_den (n := n) e hs
    refine ⟨if x = 1 then 0 else 1, by rw [den, hx]; rfl, two hN _ ?_⟩
    split
    · exact .inl rfl
    · exact .inr rfl
  | bin o l r _ _ =>
    simp only [below, Bool.and_eq_true, decide_eq_true_eq] at h
    obtain ⟨⟨hb, hs⟩, hN⟩ := h
    obtain ⟨v, hv⟩ := safe_den (n := n) _ hs
    refine ⟨v, hv, two hN _ ?_⟩
    rw [den, Option.bind_eq_some_iff] at hv
    obtain ⟨x, -, hv⟩ := hv
    rw [Option.bind_eq_some_iff] at hv
    obtain ⟨y, -, hv⟩ := hv
    cases o <;> simp [isBool] at hb <;> simp only [opVal, Option.some.injEq] at hv <;> subst hv <;> split <;> simp
  | _ => cases h

/-- The value of an expression whose blanks may be left out. -/
theorem eval_whole (dg : Diag) (e : Str) (t : Exp) (hl : lex e = toks t) (hb : lex (GoStr.removeByte 32 e) = toks t) (hw : Wf g4Table 0 t)
    (hd : dg (toks t) = false) (n v : Int64) (hv : den n t = some v) : eval dg e n = .ok v := by
  have gen : ∀ s, lex s = toks t → evalGeneral goTable dg s n = .ok v := by
    intro s hs
    have hp : parse goTable (lex s) = some (t, []) :=
      (parse_iff _ _ _).2 ⟨by rw [hs, List.append_nil], by rw [goTable_eq_g4]; exact hw, by simp [Ends]⟩
    have hg := goodLits_of_lex ((parse_iff _ _ _).1 hp).1
    unfold evalGeneral
    rw [hp]
    dsimp only
    rw [hs, hd, C04_stack n t hg, hv]
    rfl
  unfold eval evalBody
  cases hc : commonsGet (GoStr.removeByte 32 e) with
  | none => dsimp only; rw [gen e hl]
  | some f =>
    dsimp only
    have hmem : ∀ m : List (Str × (Int64 → Int64)), ∀ k, GMap.get? m k = some f → (k, f) ∈ m := by
      intro m k
      induction m with
      | nil => intro h; cases h
      | cons p m ih =>
        obtain ⟨k', g⟩ := p
        intro h
        rw [GMap.get?] at h
        split at h
        · rename_i hk
          cases h
          rw [hk]; exact List.mem_cons_self
        · exact List.mem_cons_of_mem _ (ih h)
    have h2 := C02_builtin_eq_general _ (hmem commons _ hc) dg n (by rw [hb]; exact hd)
    rw [gen _ hb] at h2
    exact h2.symm

end Verif.Plural

namespace Verif.Tr
open Verif Verif.Plural

/-- **C130** A rule of the usual shape selects a form for every number, also a negative one; if operands of `!`, `&&`, `||` and conditions are
truth values and nothing in it is computed otherwise than in C, it is the form that C selects. -/
theorem C130_selects (dg : Diag) (v : Str) (d : UInt8) (e : Str) (t : Exp) (hv : PluralForms v d e) (hl : lex e = toks t)
    (hb : lex (GoStr.removeByte 32 e) = toks t) (hw : Wf g4Table 0 t) (hd : dg (toks t) = false) (hs : below (d.toNat - 48) t = true)
    (n : Int64) :
    ∃ i, i < d.toNat - 48 ∧ (∀ j, SelectsForm dg v n j ↔ j = i) ∧
      (plain t = true → guarded t = true → cval n t = some (Int64.ofNat i)) := by
  obtain ⟨r, hr, h0, hlt⟩ := below_den (n := n) _ t hs
  have he := eval_whole dg e t hl hb hw hd n r hr
  have hd1 : 48 ≤ d.toNat := by
    obtain ⟨_, _, _, _, _, _, _, _, _, _, _, _, _, _, _, _, h, _⟩ := hv
    exact UInt8.le_iff_toNat_le.1 h
  refine ⟨r.toInt.toNat, by omega, fun j => ⟨?_, ?_⟩, ?_⟩
  · rintro ⟨d', e', r', hv', he', hj, -⟩
    obtain ⟨rfl, rfl⟩ := C18_unique v _ _ _ _ hv hv'
    rw [he] at he'
    cases he'
    omega
  · rintro rfl
    exact ⟨d, e, r, hv, he, by omega, by unfold digitNum; omega⟩
  · intro hp hg
    rw [cval_of_den t hp (regular_of_guarded t hg) (safe_noShift t (below_safe _ t hs)) r hr]
    congr 1
    apply Int64.toInt_inj.1
    rw [Int64.toInt_ofNat_of_lt (by have := r.toInt_lt; omega)]
    omega

/-- **C130** So a message with all its forms is shown translated for every number: no panic, and no fall back to the source text. -/
theorem C130_shown {α : Type} (c : W.Cfg α) (v : Str) (d : UInt8) (e : Str) (t : Exp) (hv : PluralForms v d e) (hl : lex e = toks t)
    (hb : lex (GoStr.removeByte 32 e) = toks t) (hw : Wf g4Table 0 t) (hd : c.diag (toks t) = false)
    (hs : below (d.toNat - 48) t = true) (m : Entry) (x : List α → Res Str) (xn : Str → Int64 → List α → Res Str)
    (hm : W.ShownAs c v m x xn) (hlen : d.toNat - 48 ≤ m.strN.length) (hne : ∀ s ∈ m.strN, s ≠ []) (id2 : Str) (n : Int64) :
    ∃ i s, SelectsForm c.diag v n i ∧ m.strN[i]? = some s ∧ ∀ args, xn id2 n args = .ok (Fmt.format c.fmt s args) := by
  obtain ⟨i, hi, hsel, -⟩ := C130_selects c.diag v d e t hv hl hb hw hd hs n
  have hget := List.getElem?_eq_getElem (show i < m.strN.length by omega)
  refine ⟨i, m.strN[i], (hsel i).2 rfl, hget, fun args => hm.form id2 n args i _ (.inr ?_) ((hsel i).2 rfl) hget
    (hne _ (List.getElem_mem _))⟩
  intro h
  have := congrArg List.length h
  simp only [List.length_nil] at this
  omega

/-- The check: the value is a Plural-Forms value of which blanks may be left out, of the usual shape, and computed as in C. -/
def usual (v : Str) : Bool :=
  match matchPlurals v with
  | none => false
  | some (d, e) =>
    match parse goTable (lex e) with
    | some (t, []) => decide (lex (GoStr.removeByte 32 e) = toks t) && below (d.toNat - 48) t && plain t && guarded t
    | _ => false

/-- **C130** A value that passes the check selects for every number one of its forms, that of C. -/
theorem C130_checked (v : Str) (h : usual v = true) : ∃ d e t, PluralForms v d e ∧ parse cTable (lex e) = some (t, []) ∧
    ∀ dg, dg (lex e) = false → ∀ n : Int64, ∃ i, i < d.toNat - 48 ∧ (∀ j, SelectsForm dg v n j ↔ j = i) ∧ cval n t = some (Int64.ofNat i) := by
  unfold usual at h
  split at h
  · cases h
  · rename_i d e hm
    split at h
    · rename_i t hp
      simp only [Bool.and_eq_true, decide_eq_true_eq] at h
      obtain ⟨⟨⟨h1, h2⟩, h3⟩, h4⟩ := h
      obtain ⟨hl, hw, -⟩ := (parse_iff _ _ _).1 hp
      rw [List.append_nil] at hl
      have hv := (C18_syntax _ _ _).1 hm
      refine ⟨d, e, t, hv, C06_parse _ _ _ h3 hp, fun dg hd n => ?_⟩
      obtain ⟨i, hi, hsel, hc⟩ := C130_selects dg v d e t hv hl h1 (by rw [← goTable_eq_g4]; exact hw) (by rw [← hl]; exact hd) h2 n
      exact ⟨i, hi, hsel, hc h3 h4⟩
    · cases h

/-- The rules that msginit of GNU gettext writes, and those in use for Arabic, Icelandic, Irish, Macedonian, Maltese and Welsh. -/
def inUseRules : List Str := [
  b!"nplurals=1; plural=0;",
  b!"nplurals=2; plural=(n != 1);",
  b!"nplurals=2; plural=(n > 1);",
  b!"nplurals=3; plural=(n%10==1 && n%100!=11 ? 0 : n != 0 ? 1 : 2);",
  b!"nplurals=3; plural=n==1 ? 0 : n==2 ? 1 : 2;",
  b!"nplurals=3; plural=n==1 ? 0 : (n==0 || (n%100 > 0 && n%100 < 20)) ? 1 : 2;",
  b!"nplurals=3; plural=(n%10==1 && n%100!=11 ? 0 : n%10>=2 && (n%100<10 || n%100>=20) ? 1 : 2);",
  b!"nplurals=3; plural=(n%10==1 && n%100!=11 ? 0 : n%10>=2 && n%10<=4 && (n%100<10 || n%100>=20) ? 1 : 2);",
  b!"nplurals=3; plural=(n==1) ? 0 : (n>=2 && n<=4) ? 1 : 2;",
  b!"nplurals=3; plural=(n==1 ? 0 : n%10>=2 && n%10<=4 && (n%100<10 || n%100>=20) ? 1 : 2);",
  b!"nplurals=4; plural=(n%100==1 ? 0 : n%100==2 ? 1 : n%100==3 || n%100==4 ? 2 : 3);",
  b!"nplurals=6; plural=n==0 ? 0 : n==1 ? 1 : n==2 ? 2 : n%100>=3 && n%100<=10 ? 3 : n%100>=11 ? 4 : 5;",
  b!"nplurals=2; plural=(n%10!=1 || n%100==11);",
  b!"nplurals=5; plural=n==1 ? 0 : n==2 ? 1 : (n>2 && n<7) ? 2 :(n>6 && n<11) ? 3 : 4;",
  b!"nplurals=2; plural= n==1 || n%10==1 ? 0 : 1;",
  b!"nplurals=4; plural=(n==1 ? 0 : n==0 || ( n%100>1 && n%100<11) ? 1 : (n%100>10 && n%100<20 ) ? 2 : 3);",
  b!"nplurals=4; plural=(n==1) ? 0 : (n==2) ? 1 : (n != 8 && n != 11) ? 2 : 3;"]

/-- **C130** All of these select for every number one of their forms, that of C. -/
theorem C130_rules : ∀ v ∈ inUseRules, ∃ d e t, PluralForms v d e ∧ parse cTable (lex e) = some (t, []) ∧
    ∀ dg, dg (lex e) = false → ∀ n : Int64, ∃ i, i < d.toNat - 48 ∧ (∀ j, SelectsForm dg v n j ↔ j = i) ∧ cval n t = some (Int64.ofNat i) := by
  intro v hv
  have : inUseRules.all usual = true := by decide +kernel
  exact C130_checked v (List.all_eq_true.1 this v hv)

/-- **C130** Through the tables the lexer and the parser are generated with nothing is left open: for a value that passes the check `Eval`
returns for every number one that is below nplurals, and it is the one of C. -/
theorem C130_generated (v : Str) (h : usual v = true) : ∃ d e t, PluralForms v d e ∧ parse cTable (lex e) = some (t, []) ∧
    ∀ n : Int64, ∃ r : Int64, Antlr.eval e n = .ok r ∧ 0 ≤ r.toInt ∧ r.toInt < d.toNat - 48 ∧ cval n t = some r := by
  obtain ⟨d, e, t, hv, hp, hx⟩ := C130_checked v h
  refine ⟨d, e, t, hv, hp, fun n => ?_⟩
  obtain ⟨i, hi, hs, hc⟩ := hx (fun _ => false) rfl n
  obtain ⟨d', e', r, hv', he, hj, -⟩ := (hs i).2 rfl
  obtain ⟨rfl, rfl⟩ := C18_unique v _ _ _ _ hv hv'
  have hr : Int64.ofNat i = r := by
    apply Int64.toInt_inj.1
    rw [Int64.toInt_ofNat_of_lt (by have := d.toNat_lt; omega)]
    omega
  refine ⟨r, (Antlr.C70_eval _ _).trans he, by omega, by omega, hr ▸ hc⟩

/-- The conditions are needed: a branch too far, a divisor that may be zero, and a value that is no truth value select nothing for some
numbers.  That blanks within a number matter is `C07_blank_inside_token`. -/
example : (∀ i, ¬ SelectsForm (fun _ => false) b!"nplurals=2; plural=n>1?2:0;" 5 i) ∧
    (∀ i, ¬ SelectsForm (fun _ => false) b!"nplurals=2; plural=n==0?0:7/n>1;" 0 i) ∧
    (∀ i, ¬ SelectsForm (fun _ => false) b!"nplurals=2; plural=n%2;" (-1) i) := by
  have key : ∀ v d e n r, matchPlurals v = some (d, e) → eval (fun _ => false) e n = r → (∀ x : Int64, r = .ok x → ¬ (0 ≤ x.toInt ∧ x.toInt < digitNum d)) →
      ∀ i, ¬ SelectsForm (fun _ => false) v n i := by
    rintro v d e n r h1 h2 h3 i ⟨d', e', r', h4, h5, h6, h7⟩
    obtain ⟨rfl, rfl⟩ := C18_unique v _ _ _ _ ((C18_syntax _ _ _).1 h1) h4
    exact h3 r' (h2.symm.trans h5) (by omega)
  refine ⟨key _ 50 b!"n>1?2:0" 5 (.ok 2) (by decide +kernel) (by decide +kernel) ?_,
    key _ 50 b!"n==0?0:7/n>1" 0 .err (by decide +kernel) (by decide +kernel) ?_,
    key _ 50 b!"n%2" (-1) (.ok (-1)) (by decide +kernel) (by decide +kernel) ?_⟩
  · rintro x h; cases h; decide
  · rintro x h; cases h
  · rintro x h; cases h; decide

/-- A message with the Welsh rule. -/
example (c : W.Cfg α) (hd : ∀ ts, c.diag ts = false) (m : Entry) (x : List α → Res Str) (xn : Str → Int64 → List α → Res Str)
    (hm : W.ShownAs c b!"nplurals=4; plural=(n==1) ? 0 : (n==2) ? 1 : (n != 8 && n != 11) ? 2 : 3;" m x xn)
    (hs : m.strN = [b!"ci", b!"gi", b!"chi", b!"o gwn"]) : xn b!"dogs" 11 [] = .ok (Fmt.format c.fmt b!"o gwn" []) := by
  obtain ⟨i, s, ⟨d, e, r, h1, h2, h3, -⟩, hi, hx⟩ := C130_shown c _ 52 b!"(n==1) ? 0 : (n==2) ? 1 : (n != 8 && n != 11) ? 2 : 3"
    (.tern (.paren (.bin .eq .n (.int b!"1"))) (.int b!"0") (.tern (.paren (.bin .eq .n (.int b!"2"))) (.int b!"1")
      (.tern (.paren (.bin .land (.bin .ne .n (.int b!"8")) (.bin .ne .n (.int b!"11")))) (.int b!"2") (.int b!"3"))))
    ((C18_syntax _ _ _).1 (by decide +kernel)) (by decide +kernel) (by decide +kernel)
    (by rw [← goTable_eq_g4]; simp [Wf, absorbs, goTable]) (hd _) (by decide +kernel) m x xn hm (by rw [hs]; decide)
    (by rw [hs]; decide) b!"dogs" 11
  obtain ⟨rfl, rfl⟩ := C18_unique _ _ _ _ _ h1 ((C18_syntax _ 52 b!"(n==1) ? 0 : (n==2) ? 1 : (n != 8 && n != 11) ? 2 : 3").1 (by decide +kernel))
  have h2' := (show eval c.diag _ 11 = eval (fun _ => false) _ 11 by rw [show c.diag = fun _ => false from funext hd]).symm.trans h2
  rw [show eval (fun _ => false) b!"(n==1) ? 0 : (n==2) ? 1 : (n != 8 && n != 11) ? 2 : 3" 11 = .ok 3 by decide +kernel] at h2'
  cases h2'
  have : i = 3 := by
    rw [show Int64.toInt 3 = 3 by decide] at h3
    omega
  subst this
  rw [hs] at hi
  cases hi
  exact hx []

end Verif.Tr
