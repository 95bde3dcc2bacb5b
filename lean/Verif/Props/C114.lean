import Verif.Spec.Word
import Verif.Model.Word
import Verif.Props.C14
import Verif.Props.C53
import Verif.Props.C107
import Mathlib.Data.List.Forall2
/-!
# C114 Where `int` has 32 bits
-/
namespace Verif.Word
open Verif

/-! ## Numbers of `w` bits -/

theorem toInt_holds (w : Nat) (hw : 1 ≤ w) (i : Int) : Holds w i (toInt w i) := by
  obtain ⟨k, rfl⟩ : ∃ k, w = k + 1 := ⟨w - 1, by omega⟩
  unfold Holds toInt
  rw [Nat.add_sub_cancel]
  have h2 : (2 : Nat) ^ (k + 1) = 2 * 2 ^ k := by rw [Nat.pow_succ, Nat.mul_comm]
  have hp : 0 < 2 ^ k := Nat.two_pow_pos k
  have a := Int.le_bmod (x := i) (m := 2 ^ (k + 1)) (by omega)
  have b := Int.bmod_lt (x := i) (m := 2 ^ (k + 1)) (by omega)
  have e : ((2 : Int) ^ k) = ((2 ^ k : Nat) : Int) := by push_cast; rfl
  have e' : ((2 : Int) ^ (k + 1)) = ((2 ^ (k + 1) : Nat) : Int) := by push_cast; rfl
  rw [e, e']
  refine ⟨by omega, by omega, ?_⟩
  have d : i.bmod (2 ^ (k + 1)) % ((2 ^ (k + 1) : Nat) : Int) = i % ((2 ^ (k + 1) : Nat) : Int) := Int.bmod_emod
  have hd : ((2 ^ (k + 1) : Nat) : Int) ∣ i - i.bmod (2 ^ (k + 1)) := Int.ModEq.dvd d
  obtain ⟨q, hq⟩ := hd
  exact ⟨q, by rw [Int.mul_comm q, ← hq]; omega⟩

theorem holds_unique {w : Nat} {v r s : Int} (hw : 1 ≤ w) (hr : Holds w v r) (hs : Holds w v s) : r = s := by
  obtain ⟨k, rfl⟩ : ∃ k, w = k + 1 := ⟨w - 1, by omega⟩
  obtain ⟨a1, a2, q, a3⟩ := hr
  obtain ⟨b1, b2, p, b3⟩ := hs
  rw [Nat.add_sub_cancel] at *
  have e : (2 : Int) ^ (k + 1) = 2 * 2 ^ k := by rw [Int.pow_succ, Int.mul_comm]
  have hpos : (0 : Int) < 2 ^ k := by positivity
  rw [e] at a3 b3
  have hqp : q = p := by
    by_contra hne
    rcases Int.lt_or_gt_of_ne hne with h | h
    · have : q + 1 ≤ p := h
      nlinarith
    · have : p + 1 ≤ q := h
      nlinarith
  subst hqp
  omega

theorem holds_small {w : Nat} {v : Int} (h : Small w v) : Holds w v v := ⟨h.1, h.2, 0, by omega⟩

theorem toInt_small {w : Nat} {v : Int} (hw : 1 ≤ w) (h : Small w v) : toInt w v = v :=
  holds_unique hw (toInt_holds w hw v) (holds_small h)

theorem small_mono {w w' : Nat} {v : Int} (hw : w ≤ w') (h : Small w v) : Small w' v := by
  have : (2 : Int) ^ (w - 1) ≤ 2 ^ (w' - 1) := pow_le_pow_right₀ (by decide) (by omega)
  exact ⟨by have := h.1; omega, by have := h.2; omega⟩

theorem small_int64 (n : Int64) : Small 64 n.toInt := ⟨Int64.le_toInt n, Int64.toInt_lt n⟩

/-! ## Plural forms -/

variable {α : Type}

theorem parsePlural_word (w : Nat) (v : Str) : parsePlural w v = { Tr.parsePlural v with totalForms := toInt w (Tr.parsePlural v).totalForms } := by
  have h0 : toInt w 0 = 0 := Int.zero_bmod ..
  unfold parsePlural Tr.parsePlural
  split
  · simp only [h0]
  · cases Tr.matchPlurals v with
    | none => simp only [h0]
    | some p =>
      obtain ⟨d, e⟩ := p
      simp only
      cases Num.parseInt [d] with
      | none => simp only [h0]
      | some t => rfl

theorem forms_range (v : Str) : 0 ≤ (Tr.parsePlural v).totalForms ∧ (Tr.parsePlural v).totalForms ≤ 9 := by
  by_cases hpf : ∃ d ex, Tr.PluralForms v d ex
  · obtain ⟨d, ex, hpf⟩ := hpf
    rw [Tr.C18_parse v d ex hpf]
    obtain ⟨w1, w2, w3, w4, w5, w6, w7, w8, _, _, _, _, _, _, _, _, hd1, hd2, _, _, _, rfl⟩ := hpf
    unfold Tr.digitNum
    have a : 48 ≤ d.toNat := hd1
    have b : d.toNat ≤ 57 := hd2
    constructor <;> simp only <;> omega
  · rw [Tr.C18_reject v (fun d ex h => hpf ⟨d, ex, h⟩)]
    decide

theorem parsePlural_eq (w : Nat) (hw : 5 ≤ w) (v : Str) : parsePlural w v = Tr.parsePlural v := by
  rw [parsePlural_word, toInt_small (by omega) (small_mono hw _)]
  have := forms_range v
  unfold Small
  omega

/-- The Plural-Forms value `v` selects form `i` for the number `n` where `int` has `w` bits: the variable holds `i` of the value of its
expression, and `i` is below its `nplurals`. -/
def SelectsFormIn (w : Nat) (dg : Plural.Diag) (v : Str) (n : Int64) (i : Nat) : Prop :=
  ∃ d e r, Tr.PluralForms v d e ∧ Plural.eval dg e n = .ok r ∧ Holds w r.toInt i ∧ (i : Int) < Tr.digitNum d

/-- The choice of a form. -/
theorem chooseForm_spec (w : Nat) (hw : 1 ≤ w) (E : Fmt.Env α) (dg : Plural.Diag) (v : Str) (e : Tr.Entry) (id id2 : Str)
    (n : Int64) (args : List α) :
    (∀ i s, SelectsFormIn w dg v n i → e.strN[i]? = some s → s ≠ [] →
      chooseForm w E dg (Tr.parsePlural v) e id id2 n args = .ok (Fmt.format E s args)) ∧
    (SelectsFormIn w dg v n e.strN.length →
      chooseForm w E dg (Tr.parsePlural v) e id id2 n args = .panic) ∧
    ((∀ i s, SelectsFormIn w dg v n i → e.strN[i]? = some s → s = []) →
      ¬ SelectsFormIn w dg v n e.strN.length →
      chooseForm w E dg (Tr.parsePlural v) e id id2 n args = .ok (Fmt.defaultPlural E id id2 n args)) := by
  have sel : ∀ i, SelectsFormIn w dg v n i → ∃ d, (i : Int) < Tr.digitNum d ∧
      (Tr.parsePlural v).totalForms = Tr.digitNum d ∧ fn w dg (Tr.parsePlural v) n = .ok (i : Int) := by
    rintro i ⟨d, ex, r, hpf, hev, hr, hlt⟩
    refine ⟨d, hlt, ?_, ?_⟩
    · rw [Tr.C18_parse v d ex hpf]
    · rw [Tr.C18_parse v d ex hpf]
      simp [fn, hev, holds_unique hw (toInt_holds w hw _) hr]
  refine ⟨?_, ?_, ?_⟩
  · intro i s hs hget hne
    obtain ⟨d, hlt, ht, hfn⟩ := sel i hs
    obtain ⟨hil, _⟩ := List.getElem?_eq_some_iff.mp hget
    unfold chooseForm
    rw [if_neg (by omega), hfn]
    simp only [Res.bind]
    rw [if_neg (by omega)]
    simp [Tr.strAt, hget, hne]
  · intro hs
    obtain ⟨d, hlt, ht, hfn⟩ := sel _ hs
    unfold chooseForm
    rw [if_neg (by omega), hfn]
    simp only [Res.bind]
    rw [if_neg (by omega)]
    simp [Tr.strAt]
  · intro h1 h2
    unfold chooseForm
    split
    · rfl
    · rename_i hpos
      by_cases hpf : ∃ d ex, Tr.PluralForms v d ex
      · obtain ⟨d, ex, hpf⟩ := hpf
        rw [Tr.C18_parse v d ex hpf] at hpos ⊢
        simp only [fn]
        cases hev : Plural.eval dg ex n with
        | err => simp [Res.bind]
        | panic => exact absurd hev (Verif.Plural.C01_no_panic dg ex n)
        | ok r =>
          simp only [Res.bind]
          have hh := toInt_holds w hw r.toInt
          generalize toInt w r.toInt = q at hh ⊢
          by_cases hbad : q < 0 ∨ q ≥ Tr.digitNum d ∨ q > (e.strN.length : Int)
          · rw [if_pos hbad]
          · rw [if_neg hbad]
            simp only [not_or, not_lt, ge_iff_le, not_le, gt_iff_lt] at hbad
            have hs : SelectsFormIn w dg v n q.toNat :=
              ⟨d, ex, r, hpf, hev, by rw [Int.toNat_of_nonneg hbad.1]; exact hh, by omega⟩
            by_cases hlen : q.toNat = e.strN.length
            · rw [hlen] at hs; exact absurd hs h2
            · have hil : q.toNat < e.strN.length := by omega
              have hget := List.getElem?_eq_getElem hil
              have := h1 _ _ hs hget
              simp only [Tr.strAt, hget, this]
              rfl
      · have := Tr.C18_reject v (fun d ex h => hpf ⟨d, ex, h⟩)
        rw [this] at hpos
        simp at hpos

theorem rule_eq (w : Nat) (hw : 5 ≤ w) (E : Fmt.Env α) (dg : Plural.Diag) (cs : List (Tr.Call α)) :
    rule w (Tr.execAll E dg {} cs) = Tr.parsePlural (((Tr.execAll E dg {} cs).getHeader Tr.hPluralForms).1.getD []) := by
  have h := Tr.rule_eq E dg cs
  unfold rule
  unfold Tr.File.rule at h
  cases hp : (Tr.execAll E dg {} cs).plural with
  | none => exact parsePlural_eq w hw _
  | some p =>
    rw [hp] at h
    simp only at h ⊢
    have := parsePlural_word w (((Tr.execAll E dg {} cs).getHeader Tr.hPluralForms).1.getD [])
    rw [← h] at this ⊢
    rw [← this, h]
    exact parsePlural_eq w hw _

/-- **C114** A plural lookup where `int` has `w` bits, after any history of calls: as in C14, but the form is what an `int` holds of the
value of the expression. -/
theorem C114_lookup (w : Nat) (hw : 5 ≤ w) (E : Fmt.Env α) (dg : Plural.Diag) (cs : List (Tr.Call α))
    (hcs : Tr.NoEot cs) (ctxt id id2 : Str) (hc : 4 ∉ ctxt) (n : Int64) (args : List α) :
    let f := Tr.execAll E dg {} cs
    let forms := (f.getHeader b!"Plural-Forms").1.getD []
    let result := xn w E dg f ctxt id id2 n args
    (Tr.lastAdded cs ctxt id = none → result = .ok (Fmt.defaultPlural E id id2 n args)) ∧
    (∀ e, Tr.lastAdded cs ctxt id = some e → e.id2 = [] → e.strN = [] →
      result = .ok (Fmt.format E (if e.str = [] then id else e.str) args)) ∧
    (∀ e, Tr.lastAdded cs ctxt id = some e → e.id2 ≠ [] ∨ e.strN ≠ [] →
      (∀ i s, SelectsFormIn w dg forms n i → e.strN[i]? = some s → s ≠ [] →
        result = .ok (Fmt.format E s args)) ∧
      (SelectsFormIn w dg forms n e.strN.length → result = .panic) ∧
      ((∀ i s, SelectsFormIn w dg forms n i → e.strN[i]? = some s → s = []) →
        ¬ SelectsFormIn w dg forms n e.strN.length →
        result = .ok (Fmt.defaultPlural E id id2 n args))) := by
  dsimp only
  have hent := Tr.entries_lastAdded E dg cs hcs ctxt id hc
  refine ⟨?_, ?_, ?_⟩
  · intro h; rw [h] at hent; simp [xn, hent]
  · intro e h h1 h2
    rw [h] at hent
    by_cases hs : e.str = [] <;> simp [xn, hent, h1, h2, hs]
  · intro e h hpl
    rw [h] at hent
    have hno : ¬ (e.id2 = [] ∧ e.strN.length = 0) := by
      rintro ⟨a, b⟩
      rcases hpl with hpl | hpl
      · exact hpl a
      · exact hpl (by simpa using b)
    have hres : xn w E dg (Tr.execAll E dg {} cs) ctxt id id2 n args =
        chooseForm w E dg (Tr.parsePlural (((Tr.execAll E dg {} cs).getHeader b!"Plural-Forms").1.getD []))
          e id id2 n args := by
      simp only [xn, hent, if_neg hno, rule_eq w hw]
      rfl
    rw [hres]
    exact chooseForm_spec w (by omega) E dg _ e id id2 n args

/-- **C114** Both kinds of platform answer alike if the value of the expression is a number of `w` bits; so where `int` has 64 bits the model
is the one of the other properties. -/
theorem C114_agree (w : Nat) (hw : 5 ≤ w) (E : Fmt.Env α) (dg : Plural.Diag) (cs : List (Tr.Call α)) (ctxt id id2 : Str) (n : Int64)
    (args : List α)
    (h : w = 64 ∨ ∀ d e r, Tr.PluralForms (((Tr.execAll E dg {} cs).getHeader b!"Plural-Forms").1.getD []) d e → Plural.eval dg e n = .ok r →
      Small w r.toInt) :
    xn w E dg (Tr.execAll E dg {} cs) ctxt id id2 n args = ((Tr.execAll E dg {} cs).xn E dg ctxt id id2 n args).1 := by
  have hr : (Tr.execAll E dg {} cs).initPlural.plural.getD { totalForms := 0, expr := none } =
      Tr.parsePlural (((Tr.execAll E dg {} cs).getHeader b!"Plural-Forms").1.getD []) := by
    rw [Tr.initPlural_rule, Tr.rule_eq]; rfl
  have hfn : fn w dg (Tr.parsePlural (((Tr.execAll E dg {} cs).getHeader b!"Plural-Forms").1.getD [])) n =
      (Tr.parsePlural (((Tr.execAll E dg {} cs).getHeader b!"Plural-Forms").1.getD [])).fn dg n := by
    generalize ((Tr.execAll E dg {} cs).getHeader b!"Plural-Forms").1.getD [] = v at h
    by_cases hpf : ∃ d ex, Tr.PluralForms v d ex
    · obtain ⟨d, ex, hpf⟩ := hpf
      rw [Tr.C18_parse v d ex hpf]
      unfold fn Tr.Plural.fn
      simp only
      cases hev : Plural.eval dg ex n with
      | err => rfl
      | panic => rfl
      | ok r =>
        simp only
        rw [toInt_small (by omega)]
        rcases h with rfl | h
        · exact small_int64 r
        · exact h d ex r hpf hev
    · rw [Tr.C18_reject v (fun d ex h => hpf ⟨d, ex, h⟩)]
      rfl
  unfold xn Tr.File.xn
  cases (Tr.execAll E dg {} cs).entries.get? (Tr.key ctxt id) with
  | none => rfl
  | some e =>
    simp only
    split
    · rfl
    · simp only
      rw [hr, rule_eq w hw]
      unfold chooseForm Tr.chooseForm
      rw [show Tr.hPluralForms = b!"Plural-Forms" from rfl, hfn]

/-! ## Keywords -/

/-- What is held of the positions of a keyword. -/
def HoldsKeyword (w : Nat) (k k' : Xt.Keyword) : Prop :=
  k'.name = k.name ∧ Holds w k.msgCtxt k'.msgCtxt ∧ Holds w k.msgID k'.msgID ∧ Holds w k.msgID2 k'.msgID2

/-- The same, as a function. -/
def cut (w : Nat) (k : Xt.Keyword) : Xt.Keyword :=
  { k with msgCtxt := toInt w k.msgCtxt, msgID := toInt w k.msgID, msgID2 := toInt w k.msgID2 }

theorem toInt_zero (w : Nat) : toInt w 0 = 0 := Int.zero_bmod ..

theorem toInt_one (w : Nat) (hw : 2 ≤ w) : toInt w 1 = 1 :=
  toInt_small (by omega) (small_mono (w := 2) hw ⟨by decide, by decide⟩)

theorem parsePositions_word (w : Nat) (name : Str) (index : List Str) :
    parsePositions w { name := name } index = (Xt.parsePositions { name := name } index).map (cut w) := by
  have h0 := toInt_zero w
  rcases index with - | ⟨i1, - | ⟨i2, - | ⟨i3, - | ⟨i4, r⟩⟩⟩⟩
  · rfl
  · unfold parsePositions Xt.parsePositions
    dsimp only
    cases Num.parseInt i1 <;> simp [cut, h0]
  · unfold parsePositions Xt.parsePositions
    dsimp only
    split
    · cases Num.parseInt (i1.take (i1.length - 1)) with
      | none => rfl
      | some c => cases Num.parseInt i2 <;> simp [cut, h0]
    · cases Num.parseInt i1 with
      | none => rfl
      | some c => cases Num.parseInt i2 <;> simp [cut, h0]
  · unfold parsePositions Xt.parsePositions
    dsimp only
    split
    · rfl
    · cases Num.parseInt (i1.take (i1.length - 1)) with
      | none => rfl
      | some c =>
        dsimp only
        cases Num.parseInt i2 with
        | none => rfl
        | some d => cases Num.parseInt i3 <;> simp [cut]
  · rfl

theorem parseKeyword_word (w : Nat) (hw : 2 ≤ w) (item : Str) : parseKeyword w item = (Xt.parseKeyword item).map (cut w) := by
  unfold parseKeyword Xt.parseKeyword
  rcases GoStr.splitByte 58 (GoStr.trimSpace item) with - | ⟨n, - | ⟨ps, - | ⟨x, r⟩⟩⟩
  · rfl
  · dsimp only
    split
    · rfl
    · simp [cut, toInt_zero, toInt_one w hw]
  · dsimp only
    split
    · rfl
    · exact parsePositions_word ..
  · rfl

theorem parseItems_word (w : Nat) (hw : 2 ≤ w) (items : List Str) : parseItems w items = (Xt.parseItems items).map (List.map (cut w)) := by
  induction items with
  | nil => rfl
  | cons item items ih =>
    unfold parseItems Xt.parseItems
    rw [parseKeyword_word w hw, ih]
    cases Xt.parseKeyword item with
    | none => rfl
    | some k => cases Xt.parseItems items <;> rfl

/-- **C114** The same declarations of keywords are accepted; of every position an `int` of `w` bits is held. -/
theorem C114_keywords (w : Nat) (hw : 2 ≤ w) (s : Str) :
    (parseKeywords w s = none ↔ ∀ ks, ¬ Xt.DeclaresAll s ks) ∧
    ∀ ks, Xt.DeclaresAll s ks → ∃ ks', parseKeywords w s = some ks' ∧ List.Forall₂ (HoldsKeyword w) ks ks' := by
  have h : parseKeywords w s = (Xt.parseKeywords s).map (List.map (cut w)) := parseItems_word w hw _
  rw [h]
  constructor
  · rw [Option.map_eq_none_iff, Xt.C53_rejects]
  · intro ks hks
    rw [(Xt.C53_exact s ks).mpr hks]
    refine ⟨_, rfl, ?_⟩
    rw [List.forall₂_map_right_iff]
    exact List.forall₂_same.mpr fun k _ =>
      ⟨rfl, toInt_holds w (by omega) _, toInt_holds w (by omega) _, toInt_holds w (by omega) _⟩

/-! ## MO files -/

theorem toInt_mod {w : Nat} (hw : 32 ≤ w) (i : Int) : toInt w i % 2 ^ 32 = i % 2 ^ 32 := by
  obtain ⟨-, -, k, hk⟩ := toInt_holds w (by omega) i
  generalize toInt w i = r at hk ⊢
  obtain ⟨q, rfl⟩ : ∃ q, w = 32 + q := ⟨w - 32, by omega⟩
  rw [hk, pow_add, ← mul_assoc, mul_comm k, mul_assoc, Int.add_mul_emod_self_left]

theorem put_congr {i j : Int} (h : i % 2 ^ 32 = j % 2 ^ 32) : put i = put j := by unfold put; rw [h]

theorem put_nat (n : Nat) : put n = Tr.put32 n := by
  have : ((n : Int) % 2 ^ 32).toNat = n % 2 ^ 32 := by omega
  unfold put Tr.put32
  rw [this]
  have key : ∀ m, UInt8.ofNat m = UInt8.ofNat (m % 256) := fun m => by
    apply UInt8.toNat_inj.mp
    simp
  rw [key (n % 2 ^ 32), key (n % 2 ^ 32 / 256), key (n % 2 ^ 32 / 65536), key (n % 2 ^ 32 / 16777216), key n, key (n / 256), key (n / 65536),
    key (n / 16777216)]
  rw [show n % 2 ^ 32 % 256 = n % 256 by omega, show n % 2 ^ 32 / 256 % 256 = n / 256 % 256 by omega,
    show n % 2 ^ 32 / 65536 % 256 = n / 65536 % 256 by omega, show n % 2 ^ 32 / 16777216 % 256 = n / 16777216 % 256 by omega]

theorem step_mod {w : Nat} (hw : 32 ≤ w) {off : Int} {o : Nat} (h : off % 2 ^ 32 = (o : Int) % 2 ^ 32) (l : Nat) :
    toInt w (off + toInt w (l + 1)) % 2 ^ 32 = ((o + (l + 1) : Nat) : Int) % 2 ^ 32 := by
  rw [toInt_mod hw]
  have := toInt_mod hw ((l : Int) + 1)
  generalize toInt w ((l : Int) + 1) = q at this ⊢
  omega

theorem writeTable_word {w : Nat} (hw : 32 ≤ w) (ss : List Str) : ∀ (off : Int) (o : Nat), off % 2 ^ 32 = (o : Int) % 2 ^ 32 →
    writeTable w off ss = Tr.writeTable o ss ∧ offsetAfter w off ss % 2 ^ 32 = (Tr.offsetAfter o ss : Int) % 2 ^ 32 := by
  induction ss with
  | nil => exact fun off o h => ⟨rfl, h⟩
  | cons s ss ih =>
    intro off o h
    have := ih _ _ (step_mod hw h s.length)
    unfold writeTable Tr.writeTable offsetAfter Tr.offsetAfter
    refine ⟨?_, this.2⟩
    rw [this.1, put_congr h, put_nat, put_nat]

/-- **C114** The MO file that is saved does not depend on the size of `int`. -/
theorem C114_mo_saved (w : Nat) (hw : 32 ≤ w) (es : List Tr.Entry) : saveMo w es = Tr.saveMo es := by
  have h1 : toInt w (Tr.offsetO + toInt w (toInt w (es.length * 8) * 2)) % 2 ^ 32 = ((Tr.offsetO + es.length * 8 * 2 : Nat) : Int) % 2 ^ 32 := by
    rw [toInt_mod hw]
    have a := toInt_mod hw ((es.length : Int) * 8)
    have b := toInt_mod hw (toInt w ((es.length : Int) * 8) * 2)
    generalize toInt w (toInt w ((es.length : Int) * 8) * 2) = q at b ⊢
    generalize toInt w ((es.length : Int) * 8) = p at a b
    omega
  have h2 : toInt w (Tr.offsetO + toInt w (es.length * 8)) % 2 ^ 32 = ((Tr.offsetO + es.length * 8 : Nat) : Int) % 2 ^ 32 := by
    rw [toInt_mod hw]
    have a := toInt_mod hw ((es.length : Int) * 8)
    generalize toInt w ((es.length : Int) * 8) = p at a ⊢
    omega
  obtain ⟨a1, a2⟩ := writeTable_word hw (es.map Tr.moMsgID) _ _ h1
  obtain ⟨b1, -⟩ := writeTable_word hw (es.map Tr.moMsgStr) _ _ a2
  unfold saveMo Tr.saveMo moHeader Tr.moHeader
  simp only
  rw [a1, b1, put_congr h2, put_nat, put_nat, put_nat]

/-- The outcome with buffers of at most `m` bytes. -/
def Limited (m : Nat) (evs : List Tr.MoEv) (r r' : Res Tr.File) : Prop := (Tr.Fits m evs → r' = r) ∧ (¬ Tr.Fits m evs → r' = .panic)

theorem canMake_iff (w n : Nat) : canMake w n = true ↔ n ≤ 2 ^ (w - 1) - 1 := by
  unfold canMake
  have := Nat.two_pow_pos (w - 1)
  rw [decide_eq_true_iff]
  omega

theorem fits_nil (m : Nat) : Tr.Fits m [] := fun n hn => by cases hn

theorem fits_make (m n : Nat) (evs : List Tr.MoEv) : Tr.Fits m (.make n :: evs) ↔ n ≤ m ∧ Tr.Fits m evs := by
  unfold Tr.Fits Tr.buffers
  simp

theorem fits_append (m : Nat) (a b : List Tr.MoEv) : Tr.Fits m (a ++ b) ↔ Tr.Fits m a ∧ Tr.Fits m b := by
  unfold Tr.Fits Tr.buffers
  simp only [List.filterMap_append, List.mem_append]
  exact ⟨fun h => ⟨fun n hn => h n (.inl hn), fun n hn => h n (.inr hn)⟩, fun h n hn => hn.elim (h.1 n) (h.2 n)⟩

theorem fits_table (m : Nat) (be : Bool) (c : Str) (n pos : Nat) : Tr.Fits m (Tr.readTableM be c pos n).1 := by
  obtain ⟨k, hk, -⟩ := Tr.readTableM_ev be c n pos
  rw [hk]
  intro x hx
  unfold Tr.buffers at hx
  rw [List.mem_filterMap] at hx
  obtain ⟨y, hy, hz⟩ := hx
  rw [(List.mem_replicate.mp hy).2] at hz
  cases hz

theorem limited_make {w n : Nat} {evs : List Tr.MoEv} {r r' : Res Tr.File} (h : Limited (2 ^ (w - 1) - 1) evs r r') :
    Limited (2 ^ (w - 1) - 1) (.make n :: evs) r (if (!canMake w n) = true then .panic else r') := by
  unfold Limited
  rw [fits_make, ← canMake_iff]
  cases hc : canMake w n with
  | true =>
    simp only [Bool.not_true, Bool.false_eq_true, if_false, true_and]
    exact h
  | false => simp

theorem limited_none (m : Nat) (r : Res Tr.File) : Limited m [] r r := ⟨fun _ => rfl, fun h => absurd (fits_nil m) h⟩

theorem readMsgs_word (w : Nat) (c : Str) (ids strs : List Tr.LenOff) (k : Nat) : ∀ i f,
    Limited (2 ^ (w - 1) - 1) (Tr.readMsgsM c ids strs i k f).1 (Tr.readMsgs c ids strs i k f) (readMsgs w c ids strs i k f) := by
  induction k with
  | zero => exact fun i f => limited_none ..
  | succ k ih =>
    intro i f
    unfold readMsgs Tr.readMsgsM Tr.readMsgs
    cases ids[i]? with
    | none => exact limited_none ..
    | some a =>
      dsimp only
      cases Tr.readFull c a.off a.len with
      | none => exact limited_make (limited_none ..)
      | some id =>
        dsimp only
        cases strs[i]? with
        | none => exact limited_make (limited_none ..)
        | some b =>
          dsimp only
          cases Tr.readFull c b.off b.len with
          | none => exact limited_make (limited_make (limited_none ..))
          | some str => exact limited_make (limited_make (ih _ _))

theorem readMoBody_word (w : Nat) (be : Bool) (c : Str) :
    Limited (2 ^ (w - 1) - 1) (Tr.readMoBodyM be c).1 (Tr.readMoBody be c) (readMoBody w be c) := by
  have app : ∀ {a b : List Tr.MoEv} {r r'}, Tr.Fits (2 ^ (w - 1) - 1) a → Limited (2 ^ (w - 1) - 1) b r r' →
      Limited (2 ^ (w - 1) - 1) (a ++ b) r r' := by
    intro a b r r' ha h
    unfold Limited
    rw [fits_append]
    exact ⟨fun hf => h.1 hf.2, fun hf => h.2 fun hb => hf ⟨ha, hb⟩⟩
  have one : ∀ {a : List Tr.MoEv} {r}, Tr.Fits (2 ^ (w - 1) - 1) a → Limited (2 ^ (w - 1) - 1) a r r := fun ha => ⟨fun _ => rfl, fun h => absurd ha h⟩
  unfold readMoBody Tr.readMoBodyM Tr.readMoBody
  cases Tr.readFull c 4 24 with
  | none => exact limited_none ..
  | some h =>
    dsimp only
    split
    · exact limited_none ..
    · split
      · exact limited_none ..
      · rw [Tr.readTableM_same, Tr.readTableM_same]
        cases Tr.readTable be c _ _ with
        | none => exact one (fits_table _ _ _ _ _)
        | some ids =>
          dsimp only
          cases Tr.readTable be c _ _ with
          | none => exact one ((fits_append ..).mpr ⟨fits_table _ _ _ _ _, fits_table _ _ _ _ _⟩)
          | some strs => exact app ((fits_append ..).mpr ⟨fits_table _ _ _ _ _, fits_table _ _ _ _ _⟩) (readMsgs_word ..)

theorem readMo_word (w : Nat) (c : Str) : Limited (2 ^ (w - 1) - 1) (Tr.readMoM c).1 (Tr.readMo c) (readMo w c) := by
  unfold readMo Tr.readMoM Tr.readMo
  cases Tr.readFull c 0 4 with
  | none => exact limited_none ..
  | some m =>
    dsimp only
    split
    · exact readMoBody_word ..
    · split
      · exact readMoBody_word ..
      · exact limited_none ..

/-- **C114** `ReadMo` panics exactly if it asks for a buffer that is longer than the largest `int`, which cannot be where `int` has more than 32
bits, and does what it does elsewhere otherwise. -/
theorem C114_mo_read (w : Nat) (c : Str) :
    (readMo w c = .panic ↔ ¬ Tr.Fits (2 ^ (w - 1) - 1) (Tr.readMoM c).1) ∧
    (Tr.Fits (2 ^ (w - 1) - 1) (Tr.readMoM c).1 → readMo w c = Tr.readMo c) ∧ (33 ≤ w → readMo w c = Tr.readMo c) := by
  obtain ⟨h1, h2⟩ := readMo_word w c
  refine ⟨⟨fun h hf => ?_, h2⟩, h1, fun hw => h1 fun n hn => ?_⟩
  · rw [h1 hf] at h
    exact (Tr.C32_total c).1 h
  · have := (Tr.C107_bounded c).2.2.1 n hn
    have : 2 ^ 32 ≤ 2 ^ (w - 1) := Nat.pow_le_pow_right (by decide) (by omega)
    omega

/-- **C114** A file of fewer than 2^(w-1) bytes is read alike, or refused on both: what differs is only that one that is refused elsewhere
may end in a panic. -/
theorem C114_mo_good (w : Nat) (c : Str) (hc : c.length < 2 ^ (w - 1)) :
    (∀ f, readMo w c = .ok f ↔ Tr.readMo c = .ok f) ∧ (readMo w c ≠ Tr.readMo c → Tr.readMo c = .err ∧ readMo w c = .panic) := by
  have fits : ∀ f, Tr.readMo c = .ok f → Tr.Fits (2 ^ (w - 1) - 1) (Tr.readMoM c).1 := by
    intro f hf
    obtain ⟨be, ps, es, hm, -⟩ := ((Tr.C32_total c).2 f).mp hf
    have at_le : ∀ {pos s}, Tr.At c pos s → s.length ≤ c.length := by
      rintro pos s ⟨pre, post, h, -⟩
      rw [h, List.length_append, List.length_append]
      omega
    have hs : ∀ p ∈ ps, p.1.length ≤ c.length ∧ p.2.length ≤ c.length := by
      obtain ⟨-, -, -, O, T, -, -, -, hd⟩ := hm
      intro p hp
      obtain ⟨i, hi⟩ := List.mem_iff_getElem?.mp hp
      have desc : ∀ {pos s}, Tr.Described be c pos i s → s.length ≤ c.length := by
        rintro pos s ⟨off, -, rfl | h⟩
        · exact Nat.zero_le _
        · exact at_le h
      exact ⟨desc (hd i p hi).1, desc (hd i p hi).2⟩
    rw [Tr.C107_success be c ps hm]
    intro n hn
    unfold Tr.buffers at hn
    rw [List.mem_filterMap] at hn
    obtain ⟨y, hy, hz⟩ := hn
    rcases List.mem_append.mp hy with hy | hy
    · rw [(List.mem_replicate.mp hy).2] at hz
      cases hz
    · obtain ⟨p, hp, hy⟩ := List.mem_flatMap.mp hy
      have := hs p hp
      rcases List.mem_cons.mp hy with rfl | hy
      · cases hz
        omega
      · rw [List.mem_singleton.mp hy] at hz
        cases hz
        omega
  obtain ⟨h1, h2⟩ := readMo_word w c
  refine ⟨fun f => ⟨fun h => ?_, fun h => (h1 (fits f h)).trans h⟩, fun hne => ?_⟩
  · by_cases hf : Tr.Fits (2 ^ (w - 1) - 1) (Tr.readMoM c).1
    · rw [← h1 hf, h]
    · rw [h2 hf] at h
      cases h
  · by_cases hf : Tr.Fits (2 ^ (w - 1) - 1) (Tr.readMoM c).1
    · exact absurd (h1 hf) hne
    · refine ⟨?_, h2 hf⟩
      cases hr : Tr.readMo c with
      | ok f => exact absurd (fits f hr) hf
      | err => rfl
      | panic => exact absurd hr (Tr.C32_total c).1

/-- **C114** Files of 36 bytes make `ReadMo` panic where `int` has 32 bits; elsewhere they are refused. -/
theorem C114_mo_panic : ∃ c : Str, c.length = 36 ∧ readMo 32 c = .panic ∧ Tr.readMo c = .err := by
  obtain ⟨c, hc, hb, he⟩ := Tr.C107_greedy (2 ^ 31) (by decide) (by decide)
  refine ⟨c, hc, (C114_mo_read 32 c).1.mpr fun h => ?_, he⟩
  have := h (2 ^ 31) (by rw [hb]; simp)
  exact absurd this (by decide)

/-- A catalogue whose rule is the number itself. -/
def exCount : List (Tr.Call α) :=
  [.add { str := b!"Plural-Forms: nplurals=2; plural=n;\n" },
   .add { id := b!"one", isPlural := true, id2 := b!"many", strN := [b!"eins", b!"viele"] }]

/-- **C114** Platforms disagree about 4294967297 messages: where `int` has 32 bits the second form is used, elsewhere the text of the
program. -/
theorem C114_differs (E : Fmt.Env α) :
    xn 32 E (fun _ => false) (Tr.execAll E (fun _ => false) {} exCount) b!"" b!"one" b!"many" 4294967297 [] = .ok b!"viele" ∧
    ((Tr.execAll E (fun _ => false) {} exCount).xn E (fun _ => false) b!"" b!"one" b!"many" 4294967297 []).1 = .ok b!"many" := by
  constructor <;> rfl

/-! ## Examples -/

/-- What 32 bits hold of some numbers. -/
example : [toInt 32 7, toInt 32 (-1), toInt 32 2147483648, toInt 32 4294967297, toInt 64 4294967297] = [7, -1, -2147483648, 1, 4294967297] := by
  decide +kernel

/-- The hypotheses of `C114_lookup`, and the form it selects. -/
example : Tr.NoEot (exCount (α := Str)) := by simp [Tr.NoEot, exCount, Tr.added]
example : SelectsFormIn 32 (fun _ => false) b!"nplurals=2; plural=n;" 4294967297 1 :=
  ⟨50, b!"n", 4294967297, (Tr.C18_syntax _ _ _).mp (by decide), by decide +kernel, ⟨by decide, by decide, 1, by decide⟩, by decide⟩

/-- The hypothesis of `C114_agree`: most rules have small values. -/
example : Small 32 ((1 : Int64)).toInt := by unfold Small; decide

/-- A position of 33 bits. -/
example : Xt.DeclaresAll b!"T:4294967297" [⟨b!"T", 0, 4294967297, 0⟩] := (Xt.C53_exact _ _).mp (by decide +kernel)
example : parseKeywords 32 b!"T:4294967297" = some [⟨b!"T", 0, 1, 0⟩] := by decide +kernel

/-- A file of one message. -/
example : saveMo 32 [{ id := b!"a", str := b!"b" }] = Tr.saveMo [{ id := b!"a", str := b!"b" }] ∧
    readMo 32 (saveMo 32 [{ id := b!"a", str := b!"b" }]) = .ok { entries := [(Tr.key [] b!"a", { id := b!"a", str := b!"b" })] } := by
  decide +kernel

end Verif.Word
