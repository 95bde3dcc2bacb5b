import Verif.Spec.PluralDebug
import Verif.Props.C01_C05
import Verif.Props.C102
/-! Property C103: what an evaluation with a debug context prints. -/
namespace Verif.Plural
open Verif
set_option linter.unusedSimpArgs false

/-! ## Texts -/

theorem decimal_eq (x : Int64) : Fmt.fmtInteger {} x.toUInt64 10 true false false = inDecimal x := by
  have hl := x.le_toInt
  have hu := x.toInt_lt
  have hn : x.toUInt64.toNat = (x.toInt % 2 ^ 64).toNat := by
    have : x.toInt = x.toBitVec.toInt := rfl
    rw [this]
    show x.toBitVec.toNat = _
    have h2 := x.toBitVec.isLt
    rw [BitVec.toInt_eq_toNat_cond]
    split <;> omega
  have hcast : ∀ m : Nat, m < 2 ^ 64 → Fmt.digitLoop 10 false 64 m [] = Num.natDigits m := fun m hm =>
    (Xt.aux_loop 64 m (by omega) (by omega) (m + 1) (by omega)).symm
  unfold Fmt.fmtInteger inDecimal
  by_cases hx : x.toInt < 0
  · have h1 : (true && decide (2 ^ 63 ≤ x.toUInt64.toNat)) = true := by simp; omega
    have h2 : (0 - x.toUInt64).toNat = x.toInt.natAbs := by
      rw [UInt64.toNat_sub]
      simp
      omega
    simp only [h1, if_true]
    rw [if_neg (by simp), if_pos hx, h2, hcast _ (by omega)]
    simp [Fmt.pad, Fmt.intPrec]
  · have h1 : (true && decide (2 ^ 63 ≤ x.toUInt64.toNat)) = false := by simp; omega
    have h2 : x.toUInt64.toNat = x.toInt.natAbs := by omega
    simp only [h1]
    rw [if_neg (by simp), if_neg hx]
    simp only [Bool.false_eq_true, if_false]
    rw [h2, hcast _ (by omega)]
    simp [Fmt.pad, Fmt.intPrec]

theorem stack_text (l : List Int64) : stackText l.reverse = numbers l := by
  unfold stackText numbers
  rw [Xt.join_eq, List.reverse_reverse]
  rw [List.map_congr_left fun x _ => decimal_eq x]

theorem pre_text (o : Pre) : preText o = o.tok.text := by cases o <;> rfl
theorem post_text (o : Post) : postText o = o.tok.text := by cases o <;> rfl
theorem op_text (o : Op) : opText o = o.text := by cases o <;> rfl

theorem exp_text (e : Exp) : expText e = chars e := by
  unfold chars
  induction e with
  | n => rfl
  | int ds => simp [expText, toks, Tok.text]
  | paren e ih => simp [expText, toks, Tok.text, ih]
  | post o e ih => simp [expText, toks, ih, post_text]
  | pre o e ih => simp [expText, toks, ih, pre_text]
  | bin o l r ihl ihr => simp [expText, toks, ihl, ihr, op_text, Tok.text]
  | tern c a b ihc iha ihb => simp [expText, toks, ihc, iha, ihb, Tok.text]

theorem dbg2 (L : Fmt.Lib) (label rest a b : Str) (h : Fmt.sprintf (Xt.dEnv L) (label ++ rest ++ b!"\n") [.str a, .shown b] =
    (label ++ (a ++ (b!" stack=" ++ (b ++ b!"\n")))) ++ []) :
    dbg L true (label ++ rest) [.str a, .shown b] = [label ++ a ++ b!" stack=" ++ b ++ b!"\n"] := by
  unfold dbg
  rw [if_pos rfl, h]
  simp

theorem dbg_prefix (L : Fmt.Lib) (a b : Str) : dbg L true b!"prefix: %v stack=%v" [.str a, .shown b] =
    [b!"prefix: " ++ a ++ b!" stack=" ++ b ++ b!"\n"] := dbg2 L b!"prefix: " b!"%v stack=%v" a b rfl
theorem dbg_postfix (L : Fmt.Lib) (a b : Str) : dbg L true b!"postfix: %v stack=%v" [.str a, .shown b] =
    [b!"postfix: " ++ a ++ b!" stack=" ++ b ++ b!"\n"] := dbg2 L b!"postfix: " b!"%v stack=%v" a b rfl
theorem dbg_bop (L : Fmt.Lib) (a b : Str) : dbg L true b!"bop   : %v stack=%v" [.str a, .shown b] =
    [b!"bop   : " ++ a ++ b!" stack=" ++ b ++ b!"\n"] := dbg2 L b!"bop   : " b!"%v stack=%v" a b rfl
theorem dbg_primary (L : Fmt.Lib) (a b : Str) : dbg L true b!"primary: %v stack=%v" [.str a, .shown b] =
    [b!"primary: " ++ a ++ b!" stack=" ++ b ++ b!"\n"] := dbg2 L b!"primary: " b!"%v stack=%v" a b rfl
theorem dbg1 (L : Fmt.Lib) (label b : Str) (h : Fmt.sprintf (Xt.dEnv L) (label ++ b!"%v" ++ b!"\n") [.shown b] =
    (label ++ (b ++ b!"\n")) ++ []) : dbg L true (label ++ b!"%v") [.shown b] = [label ++ b ++ b!"\n"] := by
  unfold dbg
  rw [if_pos rfl, h]
  simp
theorem dbg_done (L : Fmt.Lib) (b : Str) : dbg L true b!"bop done stack=%v" [.shown b] = [b!"bop done stack=" ++ b ++ b!"\n"] :=
  dbg1 L b!"bop done stack=" b rfl
theorem dbg_exp (L : Fmt.Lib) (b : Str) : dbg L true b!"primary: (exp) stack=%v" [.shown b] =
    [b!"primary: (exp) stack=" ++ b ++ b!"\n"] := dbg1 L b!"primary: (exp) stack=" b rfl
theorem dbg_bare (L : Fmt.Lib) (b : Str) : dbg L true b!"%v" [.shown b] = [b ++ b!"\n"] := dbg1 L [] b rfl

/-! ## The walk -/

/-- The walk, with lines or without, is the walk. -/
theorem walkD_result (L : Fmt.Lib) (debug : Bool) (n : Int64) (t : Exp) (s : Stack) : (walkD L debug n t s).2 = walk n t s := by
  have hthen : ∀ (p : Printed Stack) (f : Stack → Printed Stack), (p.then f).2 = p.2.bind fun a => (f a).2 := by
    intro p f
    unfold Printed.then
    cases p.2 <;> rfl
  induction t generalizing s with
  | n => rfl
  | int ds =>
    rw [walkD, walk]
    cases Num.parseInt ds <;> rfl
  | paren e ih =>
    rw [walkD, walk, hthen, ih]
    cases walk n e s <;> rfl
  | post o e ih => rw [walkD, walk, hthen, ih]; rfl
  | pre o e ih => rw [walkD, walk, hthen, ih]; rfl
  | bin o l r ihl ihr =>
    rw [walkD, walk, hthen, ihl]
    congr 1
    funext s
    rw [hthen, ihr]
    congr 1
    funext s
    unfold bopD
    rw [hthen]
    cases onBop o s <;> rfl
  | tern c a b ihc iha ihb =>
    rw [walkD, walk, hthen, ihc]
    congr 1
    funext s
    rw [hthen, iha]
    congr 1
    funext s
    rw [hthen, ihb]
    rfl

/-- **C103** Without a debug context nothing is printed. -/
theorem walkD_quiet (L : Fmt.Lib) (n : Int64) (t : Exp) (s : Stack) : (walkD L false n t s).1 = [] := by
  have hthen : ∀ (p : Printed Stack) (f : Stack → Printed Stack), p.1 = [] → (∀ a, (f a).1 = []) → (p.then f).1 = [] := by
    intro p f h1 h2
    unfold Printed.then
    cases p.2 <;> simp [h1, h2]
  induction t generalizing s with
  | n => rfl
  | int ds =>
    rw [walkD]
    cases Num.parseInt ds <;> rfl
  | paren e ih => exact hthen _ _ (ih s) fun a => rfl
  | post o e ih => exact hthen _ _ (ih s) fun a => rfl
  | pre o e ih => exact hthen _ _ (ih s) fun a => rfl
  | bin o l r ihl ihr =>
    refine hthen _ _ (ihl s) fun s => hthen _ _ (ihr s) fun s => ?_
    exact hthen _ _ rfl fun s => rfl
  | tern c a b ihc iha ihb => exact hthen _ _ (ihc s) fun s => hthen _ _ (iha s) fun s => hthen _ _ (ihb s) fun s => rfl

theorem then_ok {α β : Type} (ls : List Str) (a : α) (f : α → Printed β) :
    Printed.then (ls, .ok a) f = (ls ++ (f a).1, (f a).2) := rfl
theorem then_panic {α β : Type} (ls : List Str) (f : α → Printed β) : Printed.then (ls, .panic) f = (ls, .panic) := rfl

/-- The lines of the walk of a tree on a stack. -/
theorem walkD_trace (L : Fmt.Lib) (n : Int64) (t : Exp) (h : GoodLits t) (below : List Int64) :
    ∃ ls, Trace n below t ls (den n t) ∧ walkD L true n t below.reverse = (ls, push (den n t) below.reverse) := by
  have hsnoc : ∀ (l : List Int64) (x : Int64), x :: l.reverse = (l ++ [x]).reverse := by simp
  induction t generalizing below with
  | n =>
    refine ⟨_, .n below, ?_⟩
    rw [walkD, primaryD, dbg_primary, hsnoc, stack_text]
    simp [push, den]
  | int ds =>
    have hp := litVal_eq ds h.1 h.2
    cases hv : litVal ds with
    | none =>
      refine ⟨[], by rw [den, hv]; exact .big hv, ?_⟩
      rw [walkD, den, hv]
      rw [hv] at hp
      cases hq : Num.parseInt ds with
      | none => rfl
      | some i => rw [hq] at hp; cases hp
    | some v =>
      refine ⟨_, by rw [den, hv]; exact .int hv, ?_⟩
      rw [walkD, den, hv]
      rw [hv] at hp
      cases hq : Num.parseInt ds with
      | none => rw [hq] at hp; cases hp
      | some i =>
        rw [hq] at hp
        cases hp
        dsimp only
        rw [primaryD, dbg_primary, hsnoc, stack_text]
        simp [push]
  | paren e ih =>
    obtain ⟨ls, h1, h2⟩ := ih h below
    rw [walkD, h2, den]
    cases hv : den n e with
    | none =>
      rw [hv] at h1
      exact ⟨_, .paren' h1, rfl⟩
    | some v =>
      rw [hv] at h1
      refine ⟨_, .paren h1, ?_⟩
      rw [push, then_ok, then_ok, primaryD, dbg_exp, dbg_primary, hsnoc, stack_text, exp_text]
      simp
  | post o e ih =>
    obtain ⟨ls, h1, h2⟩ := ih h below
    rw [walkD, h2, den]
    cases hv : den n e with
    | none =>
      rw [hv] at h1
      exact ⟨_, .post' h1, rfl⟩
    | some v =>
      rw [hv] at h1
      refine ⟨_, .post h1, ?_⟩
      rw [push, then_ok, postfixD, dbg_postfix, hsnoc, stack_text, post_text, ← hsnoc]
      cases o <;> rfl
  | pre o e ih =>
    obtain ⟨ls, h1, h2⟩ := ih h below
    rw [walkD, h2, den]
    cases hv : den n e with
    | none =>
      rw [hv] at h1
      exact ⟨_, .pre' h1, rfl⟩
    | some v =>
      rw [hv] at h1
      refine ⟨_, .pre h1, ?_⟩
      rw [push, then_ok, prefixD, dbg_prefix, hsnoc, stack_text, pre_text, ← hsnoc]
      cases o <;> rfl
  | bin o l r ihl ihr =>
    obtain ⟨ls, h1, h2⟩ := ihl h.1 below
    rw [walkD, h2, den]
    cases hx : den n l with
    | none =>
      rw [hx] at h1
      exact ⟨_, .left h1, rfl⟩
    | some x =>
      rw [hx] at h1
      obtain ⟨rs, h3, h4⟩ := ihr h.2 (below ++ [x])
      rw [push, then_ok, hsnoc, h4]
      cases hy : den n r with
      | none =>
        rw [hy] at h3
        exact ⟨_, .right h1 h3, rfl⟩
      | some y =>
        rw [hy] at h3
        simp only [push, then_ok, Option.bind_some]
        have hop : onBop o (y :: (below ++ [x]).reverse) = (match opVal o x y with
            | some z => .ok (z :: below.reverse)
            | none => .panic) := by
          rw [← hsnoc]
          exact onBop_eq o x y _
        cases hz : opVal o x y with
        | none =>
          refine ⟨_, .undefined h1 h3 hz, ?_⟩
          rw [hz] at hop
          rw [bopD, hop, dbg_bop, hsnoc, stack_text, op_text]
          simp [then_panic, push]
        | some z =>
          refine ⟨_, .bin h1 h3 hz, ?_⟩
          rw [hz] at hop
          rw [bopD, hop, dbg_bop, hsnoc, stack_text, op_text]
          dsimp only
          rw [then_ok, dbg_done, hsnoc, stack_text]
          simp [push]
  | tern c a b ihc iha ihb =>
    obtain ⟨cs, h1, h2⟩ := ihc h.1 below
    rw [walkD, h2, den]
    cases hx : den n c with
    | none =>
      rw [hx] at h1
      exact ⟨_, .cond h1, rfl⟩
    | some x =>
      rw [hx] at h1
      obtain ⟨as, h3, h4⟩ := iha h.2.1 (below ++ [x])
      rw [push, then_ok, hsnoc, h4]
      cases hy : den n a with
      | none =>
        rw [hy] at h3
        exact ⟨_, .first h1 h3, rfl⟩
      | some y =>
        rw [hy] at h3
        obtain ⟨bs, h5, h6⟩ := ihb h.2.2 (below ++ [x, y])
        have hs : (below ++ [x]) ++ [y] = below ++ [x, y] := by simp
        simp only [push, then_ok, Option.bind_some]
        rw [hsnoc, hs, h6]
        cases hz : den n b with
        | none =>
          rw [hz] at h5
          exact ⟨_, .second h1 h3 h5, rfl⟩
        | some z =>
          rw [hz] at h5
          refine ⟨_, .tern h1 h3 h5, ?_⟩
          have ht : onTern (z :: (below ++ [x, y]).reverse) = (below ++ [if x = 1 then y else z]).reverse := by
            simp [onTern, pop]
          simp only [push, then_ok, Option.bind_some]
          rw [ternD, ht, hsnoc, stack_text, stack_text, dbg_bop, dbg_done, dbg_bare]
          simp

theorem trace_unique (n : Int64) (t : Exp) (below : List Int64) (ls ls' : List Str) (o o' : Option Int64)
    (h : Trace n below t ls o) (h' : Trace n below t ls' o') : ls = ls' ∧ o = o' := by
  induction h generalizing ls' o' with
  | n => cases h'; exact ⟨rfl, rfl⟩
  | int hv =>
    cases h' with
    | int hv' => rw [hv] at hv'; cases hv'; exact ⟨rfl, rfl⟩
    | big hv' => rw [hv] at hv'; cases hv'
  | big hv =>
    cases h' with
    | int hv' => rw [hv] at hv'; cases hv'
    | big => exact ⟨rfl, rfl⟩
  | paren _ ih =>
    cases h' with
    | paren h => obtain ⟨rfl, he⟩ := ih _ _ h; obtain rfl := Option.some.inj he; exact ⟨rfl, rfl⟩
    | paren' h => obtain ⟨-, h⟩ := ih _ _ h; cases h
  | paren' _ ih =>
    cases h' with
    | paren h => obtain ⟨-, h⟩ := ih _ _ h; cases h
    | paren' h => obtain ⟨rfl, h⟩ := ih _ _ h; exact ⟨rfl, rfl⟩
  | post _ ih =>
    cases h' with
    | post h => obtain ⟨rfl, he⟩ := ih _ _ h; obtain rfl := Option.some.inj he; exact ⟨rfl, rfl⟩
    | post' h => obtain ⟨-, h⟩ := ih _ _ h; cases h
  | post' _ ih =>
    cases h' with
    | post h => obtain ⟨-, h⟩ := ih _ _ h; cases h
    | post' h => obtain ⟨rfl, h⟩ := ih _ _ h; exact ⟨rfl, rfl⟩
  | pre _ ih =>
    cases h' with
    | pre h => obtain ⟨rfl, he⟩ := ih _ _ h; obtain rfl := Option.some.inj he; exact ⟨rfl, rfl⟩
    | pre' h => obtain ⟨-, h⟩ := ih _ _ h; cases h
  | pre' _ ih =>
    cases h' with
    | pre h => obtain ⟨-, h⟩ := ih _ _ h; cases h
    | pre' h => obtain ⟨rfl, h⟩ := ih _ _ h; exact ⟨rfl, rfl⟩
  | bin _ _ hz ih1 ih2 =>
    cases h' with
    | bin h1 h2 hz' =>
      obtain ⟨rfl, h⟩ := ih1 _ _ h1; cases h
      obtain ⟨rfl, h⟩ := ih2 _ _ h2; cases h
      rw [hz] at hz'; cases hz'
      exact ⟨rfl, rfl⟩
    | undefined h1 h2 hz' =>
      obtain ⟨rfl, h⟩ := ih1 _ _ h1; cases h
      obtain ⟨rfl, h⟩ := ih2 _ _ h2; cases h
      rw [hz] at hz'; cases hz'
    | left h1 => obtain ⟨-, h⟩ := ih1 _ _ h1; cases h
    | right h1 h2 =>
      obtain ⟨rfl, h⟩ := ih1 _ _ h1; cases h
      obtain ⟨-, h⟩ := ih2 _ _ h2; cases h
  | undefined _ _ hz ih1 ih2 =>
    cases h' with
    | bin h1 h2 hz' =>
      obtain ⟨rfl, h⟩ := ih1 _ _ h1; cases h
      obtain ⟨rfl, h⟩ := ih2 _ _ h2; cases h
      rw [hz] at hz'; cases hz'
    | undefined h1 h2 hz' =>
      obtain ⟨rfl, h⟩ := ih1 _ _ h1; cases h
      obtain ⟨rfl, h⟩ := ih2 _ _ h2; cases h
      exact ⟨rfl, rfl⟩
    | left h1 => obtain ⟨-, h⟩ := ih1 _ _ h1; cases h
    | right h1 h2 =>
      obtain ⟨rfl, h⟩ := ih1 _ _ h1; cases h
      obtain ⟨-, h⟩ := ih2 _ _ h2; cases h
  | left _ ih1 =>
    cases h' with
    | bin h1 => obtain ⟨-, h⟩ := ih1 _ _ h1; cases h
    | undefined h1 => obtain ⟨-, h⟩ := ih1 _ _ h1; cases h
    | left h1 => obtain ⟨rfl, h⟩ := ih1 _ _ h1; exact ⟨rfl, rfl⟩
    | right h1 => obtain ⟨-, h⟩ := ih1 _ _ h1; cases h
  | right _ _ ih1 ih2 =>
    cases h' with
    | bin h1 h2 =>
      obtain ⟨rfl, h⟩ := ih1 _ _ h1; cases h
      obtain ⟨-, h⟩ := ih2 _ _ h2; cases h
    | undefined h1 h2 =>
      obtain ⟨rfl, h⟩ := ih1 _ _ h1; cases h
      obtain ⟨-, h⟩ := ih2 _ _ h2; cases h
    | left h1 => obtain ⟨-, h⟩ := ih1 _ _ h1; cases h
    | right h1 h2 =>
      obtain ⟨rfl, h⟩ := ih1 _ _ h1; cases h
      obtain ⟨rfl, h⟩ := ih2 _ _ h2
      exact ⟨rfl, rfl⟩
  | tern _ _ _ ih1 ih2 ih3 =>
    cases h' with
    | tern h1 h2 h3 =>
      obtain ⟨rfl, h⟩ := ih1 _ _ h1; cases h
      obtain ⟨rfl, h⟩ := ih2 _ _ h2; cases h
      obtain ⟨rfl, h⟩ := ih3 _ _ h3; cases h
      exact ⟨rfl, rfl⟩
    | cond h1 => obtain ⟨-, h⟩ := ih1 _ _ h1; cases h
    | first h1 h2 =>
      obtain ⟨rfl, h⟩ := ih1 _ _ h1; cases h
      obtain ⟨-, h⟩ := ih2 _ _ h2; cases h
    | second h1 h2 h3 =>
      obtain ⟨rfl, h⟩ := ih1 _ _ h1; cases h
      obtain ⟨rfl, h⟩ := ih2 _ _ h2; cases h
      obtain ⟨-, h⟩ := ih3 _ _ h3; cases h
  | cond _ ih1 =>
    cases h' with
    | tern h1 => obtain ⟨-, h⟩ := ih1 _ _ h1; cases h
    | cond h1 => obtain ⟨rfl, h⟩ := ih1 _ _ h1; exact ⟨rfl, rfl⟩
    | first h1 => obtain ⟨-, h⟩ := ih1 _ _ h1; cases h
    | second h1 => obtain ⟨-, h⟩ := ih1 _ _ h1; cases h
  | first _ _ ih1 ih2 =>
    cases h' with
    | tern h1 h2 =>
      obtain ⟨rfl, h⟩ := ih1 _ _ h1; cases h
      obtain ⟨-, h⟩ := ih2 _ _ h2; cases h
    | cond h1 => obtain ⟨-, h⟩ := ih1 _ _ h1; cases h
    | first h1 h2 =>
      obtain ⟨rfl, h⟩ := ih1 _ _ h1; cases h
      obtain ⟨rfl, h⟩ := ih2 _ _ h2
      exact ⟨rfl, rfl⟩
    | second h1 h2 =>
      obtain ⟨rfl, h⟩ := ih1 _ _ h1; cases h
      obtain ⟨-, h⟩ := ih2 _ _ h2; cases h
  | second _ _ _ ih1 ih2 ih3 =>
    cases h' with
    | tern h1 h2 h3 =>
      obtain ⟨rfl, h⟩ := ih1 _ _ h1; cases h
      obtain ⟨rfl, h⟩ := ih2 _ _ h2; cases h
      obtain ⟨-, h⟩ := ih3 _ _ h3; cases h
    | cond h1 => obtain ⟨-, h⟩ := ih1 _ _ h1; cases h
    | first h1 h2 =>
      obtain ⟨rfl, h⟩ := ih1 _ _ h1; cases h
      obtain ⟨-, h⟩ := ih2 _ _ h2; cases h
    | second h1 h2 h3 =>
      obtain ⟨rfl, h⟩ := ih1 _ _ h1; cases h
      obtain ⟨rfl, h⟩ := ih2 _ _ h2; cases h
      obtain ⟨rfl, h⟩ := ih3 _ _ h3
      exact ⟨rfl, rfl⟩

/-! ## The theorems -/

/-- **C103** With or without a debug context, whatever it prints, `Eval` returns the same. -/
theorem C103_same (L : Fmt.Lib) (debug : Bool) (other : List Str) (diag : Diag) (exp : Str) (n : Int64) :
    (evalD L debug other diag exp n).2 = eval diag exp n := by
  unfold evalD eval evalBody evalGeneral
  cases commonsGet (GoStr.removeByte 32 exp) with
  | some f => rfl
  | none =>
    dsimp only
    cases hp : parse goTable (lex exp) with
    | none => rfl
    | some r =>
      obtain ⟨t, r⟩ := r
      dsimp only
      rw [walkD_result]
      cases hw : walk n t [] <;> cases diag (lex exp) <;> rfl

/-- **C103** Without a debug context nothing is printed, and nothing either for the built-in expressions. -/
theorem C103_quiet (L : Fmt.Lib) (other : List Str) (diag : Diag) (exp : Str) (n : Int64) :
    (evalD L false other diag exp n).1 = [] ∧
    ∀ debug, (∃ p ∈ commons, p.1 = GoStr.removeByte 32 exp) → (evalD L debug other diag exp n).1 = [] := by
  unfold evalD
  constructor
  · cases commonsGet (GoStr.removeByte 32 exp) with
    | some f => rfl
    | none =>
      dsimp only
      cases hp : parse goTable (lex exp) with
      | none => rfl
      | some r => exact walkD_quiet ..
  · rintro debug ⟨p, hp, hk⟩
    cases hc : commonsGet (GoStr.removeByte 32 exp) with
    | some f => rfl
    | none =>
      unfold commonsGet at hc
      rw [GMap.get?_eq_none] at hc
      exact absurd (List.mem_map.mpr ⟨p, hp, hk⟩) hc

/-- **C103** What `Eval` prints with a debug context, for another expression that can be read: the lines of its tree, operands before
operators, each showing the values of the operands that wait, up to the first operation without a value. -/
theorem C103_lines (L : Fmt.Lib) (other : List Str) (diag : Diag) (exp : Str) (n : Int64) (ls : List Str)
    (hc : ∀ p ∈ commons, p.1 ≠ GoStr.removeByte 32 exp) (t : Exp) (r : List Tok) (hl : lex exp = toks t ++ r) (hw : Wf g4Table 0 t)
    (hr : Ends r) :
    (evalD L true other diag exp n).1 = ls ↔ ∃ out, Trace n [] t ls out := by
  have hp := (C05_parse_iff (lex exp) t r).mpr ⟨hl, hw, hr⟩
  have hg : GoodLits t := goodLits_of_lex hl
  have hcg : commonsGet (GoStr.removeByte 32 exp) = none := by
    unfold commonsGet
    rw [GMap.get?_eq_none]
    intro h
    obtain ⟨p, hp, hk⟩ := List.mem_map.mp h
    exact hc p hp hk
  obtain ⟨ls', h1, h2⟩ := walkD_trace L n t hg []
  have he : (evalD L true other diag exp n).1 = ls' := by
    unfold evalD
    rw [hcg, hp]
    dsimp only
    rw [show ([] : Stack) = ([] : List Int64).reverse from rfl, h2]
  rw [he]
  constructor
  · rintro rfl
    exact ⟨_, h1⟩
  · rintro ⟨out, h⟩
    exact (trace_unique _ _ _ _ _ _ _ h1 h).1

/-- **C103** The lines end with the value of the expression, if it has one. -/
theorem C103_value (n : Int64) (t : Exp) (h : GoodLits t) (below : List Int64) :
    (∃ ls, Trace n below t ls (den n t)) ∧ ∀ ls out, Trace n below t ls out → out = den n t := by
  obtain ⟨ls, h1, -⟩ := walkD_trace { isPrint := fun _ => false, quoteRune := fun _ _ => [] } n t h below
  exact ⟨⟨ls, h1⟩, fun ls' out h' => (trace_unique _ _ _ _ _ _ _ h' h1).2⟩

/-- **C103** How many lines there are: as many as the shape of the expression says if it has a value, and fewer if it has none. -/
theorem C103_count (n : Int64) (t : Exp) (below : List Int64) (ls : List Str) (out : Option Int64) (h : Trace n below t ls out) :
    if out.isSome then ls.length = lineCount t else ls.length < lineCount t := by
  have hpos : ∀ e, 0 < lineCount e := by intro e; cases e <;> simp [lineCount]
  induction h with
  | n => rfl
  | int => rfl
  | big => simp [lineCount]
  | paren _ ih => simp [lineCount] at ih ⊢; omega
  | paren' _ ih => simp [lineCount] at ih ⊢; omega
  | post _ ih => simp [lineCount] at ih ⊢; omega
  | post' _ ih => simp [lineCount] at ih ⊢; omega
  | pre _ ih => simp [lineCount] at ih ⊢; omega
  | pre' _ ih => simp [lineCount] at ih ⊢; omega
  | bin _ _ _ ih1 ih2 => simp [lineCount] at ih1 ih2 ⊢; omega
  | undefined _ _ _ ih1 ih2 => simp [lineCount] at ih1 ih2 ⊢; omega
  | left _ ih1 => simp [lineCount] at ih1 ⊢; omega
  | right _ _ ih1 ih2 => simp [lineCount] at ih1 ih2 ⊢; omega
  | tern _ _ _ ih1 ih2 ih3 => simp [lineCount] at ih1 ih2 ih3 ⊢; omega
  | cond _ ih1 => simp [lineCount] at ih1 ⊢; omega
  | first _ _ ih1 ih2 => simp [lineCount] at ih1 ih2 ⊢; omega
  | second _ _ _ ih1 ih2 ih3 => simp [lineCount] at ih1 ih2 ih3 ⊢; omega

/-! ## Examples -/

/-- `n % 3 == -1 ? 5 : n` for 7. -/
example (L : Fmt.Lib) : walkD L true 7 (.tern (.bin .eq (.bin .mod .n (.int b!"3")) (.pre .minus (.int b!"1"))) (.int b!"5") .n) [] =
    ([b!"primary: n stack=[7]\n", b!"primary: 3 stack=[7 3]\n", b!"bop   : % stack=[7 3]\n", b!"bop done stack=[1]\n",
      b!"primary: 1 stack=[1 1]\n", b!"prefix: - stack=[1 1]\n", b!"bop   : == stack=[1 -1]\n", b!"bop done stack=[0]\n",
      b!"primary: 5 stack=[0 5]\n", b!"primary: n stack=[0 5 7]\n", b!"bop   : ? stack=[0 5 7]\n", b!"[0 5 7]\n",
      b!"bop done stack=[7]\n"], .ok [7]) := by
  rfl

/-- `(n/0)+n`: nothing after the division. -/
example : Trace 4 [] (.bin .add (.paren (.bin .div .n (.int b!"0"))) .n)
    ([b!"primary: n stack=[4]\n"] ++ ([b!"primary: 0 stack=[4 0]\n"] ++ [b!"bop   : / stack=[4 0]\n"])) none :=
  .left (.paren' (.undefined (x := 4) (y := 0) (.n []) (.int (v := 0) (by decide +kernel)) (by decide +kernel)))

end Verif.Plural
