import Verif.Spec.CSem
import Verif.Spec.MoLookup
/-!
# How C programs choose a plural form

`EXTRACT_PLURAL_EXPRESSION`, the scanner and the grammar of plural.y, `plural_eval` and `plural_lookup` of GNU libintl (also part of glibc), after
its published sources, on a machine with 64-bit `unsigned long`.  The grammar has the operators of C other than the bitwise ones and the signs,
with the precedences of C.
-/
namespace Verif.Libintl
open Verif Verif.Plural

/-- The part of the string after the first occurrence of `pat`. -/
def after (pat : Str) : Str → Option Str
  | [] => if pat = [] then some [] else none
  | c :: s => if pat <+: c :: s then some ((c :: s).drop pat.length) else after pat s

/-- The scanner of plural.y, up to the end of the expression: the end of the string, of the line, or a `;`.  The number bounds the length. -/
def scan : Nat → Str → Option (List Tok)
  | 0, _ => none
  | _ + 1, [] => some []
  | k + 1, c :: r =>
    if c = 32 ∨ c = 9 then scan k r
    else if c = 0 ∨ c = 10 ∨ c = 59 then some []
    else if Num.isDigit c then (scan k (r.dropWhile Num.isDigit)).map (.int (c :: r.takeWhile Num.isDigit) :: ·)
    else if c = 61 ∧ r.head? = some 61 then (scan k r.tail).map (.op .eq :: ·)
    else if c = 33 ∧ r.head? = some 61 then (scan k r.tail).map (.op .ne :: ·)
    else if c = 38 ∧ r.head? = some 38 then (scan k r.tail).map (.op .land :: ·)
    else if c = 124 ∧ r.head? = some 124 then (scan k r.tail).map (.op .lor :: ·)
    else if c = 60 ∧ r.head? = some 61 then (scan k r.tail).map (.op .le :: ·)
    else if c = 62 ∧ r.head? = some 61 then (scan k r.tail).map (.op .ge :: ·)
    else if c = 33 then (scan k r).map (.bang :: ·)
    else if c = 60 then (scan k r).map (.op .lt :: ·)
    else if c = 62 then (scan k r).map (.op .gt :: ·)
    else if c = 42 then (scan k r).map (.op .mul :: ·)
    else if c = 47 then (scan k r).map (.op .div :: ·)
    else if c = 37 then (scan k r).map (.op .mod :: ·)
    else if c = 43 then (scan k r).map (.op .add :: ·)
    else if c = 45 then (scan k r).map (.op .sub :: ·)
    else if c = 110 then (scan k r).map (.n :: ·)
    else if c = 63 then (scan k r).map (.quest :: ·)
    else if c = 58 then (scan k r).map (.colon :: ·)
    else if c = 40 then (scan k r).map (.lp :: ·)
    else if c = 41 then (scan k r).map (.rp :: ·)
    else none

/-- The expressions of the grammar. -/
def inGrammar : Exp → Bool
  | .n => true
  | .int _ => true
  | .paren e => inGrammar e
  | .post _ _ => false
  | .pre o e => o == .lnot && inGrammar e
  | .bin o l r => o != .shr && o != .shl && o != .band && o != .bxor && o != .bor && inGrammar l && inGrammar r
  | .tern c a b => inGrammar c && inGrammar a && inGrammar b

/-- The plural rule in the text of the header: the number of forms and the expression. -/
def Rule (header : Str) (N : Nat) (t : Exp) : Prop :=
  (∃ r, after b!"nplurals=" header = some r ∧
    let ds := (r.dropWhile fun c => c = 32 ∨ 9 ≤ c ∧ c ≤ 13).takeWhile Num.isDigit
    ds ≠ [] ∧ N = ds.foldl (fun a c => a * 10 + (c.toNat - 48)) 0) ∧
  ∃ r, after b!"plural=" header = some r ∧ scan (r.length + 1) r = some (toks t) ∧ Wf cTable 0 t ∧ inGrammar t = true

/-- A truth value of C. -/
def utruth (P : Prop) [Decidable P] : UInt64 := if P then 1 else 0

/-- `plural_eval`; a division by zero ends the program. -/
def uval (n : UInt64) : Exp → Option UInt64
  | .n => some n
  | .int ds => some (UInt64.ofNat (ds.foldl (fun a c => a * 10 + (c.toNat - 48)) 0))
  | .paren e => uval n e
  | .post _ _ => none
  | .pre o e => if o = .lnot then (uval n e).map fun x => utruth (x = 0) else none
  | .bin o l r =>
    (uval n l).bind fun x =>
      match o with
      | .land => if x = 0 then some 0 else (uval n r).map fun y => utruth (y ≠ 0)
      | .lor => if x ≠ 0 then some 1 else (uval n r).map fun y => utruth (y ≠ 0)
      | _ => (uval n r).bind fun y =>
        match o with
        | .mul => some (x * y)
        | .div => if y = 0 then none else some (x / y)
        | .mod => if y = 0 then none else some (x % y)
        | .add => some (x + y)
        | .sub => some (x - y)
        | .gt => some (utruth (x > y))
        | .lt => some (utruth (x < y))
        | .ge => some (utruth (x ≥ y))
        | .le => some (utruth (x ≤ y))
        | .eq => some (utruth (x = y))
        | .ne => some (utruth (x ≠ y))
        | _ => none
  | .tern c a b => (uval n c).bind fun x => if x ≠ 0 then uval n a else uval n b

/-- The number of forms and the number of the form for `n`: by the rule of the header, or, if there is no header or no rule that can be read, the
first form for 1 and the second for all other numbers. -/
def Chooses (c : Str) (n : UInt64) (N : Nat) (i : UInt64) : Prop :=
  (∃ header t, find c [] = some header ∧ Rule (cstr header) N t ∧ uval n t = some i) ∨
  ((∀ header N t, find c [] = some header → ¬ Rule (cstr header) N t) ∧ N = 2 ∧ i = if n = 1 then 0 else 1)

/-- `ngettext` shows `s` for the message `q` of the file: the form chosen, the first one if the rule goes beyond the number of forms, or if the
translation has fewer. -/
def Ngettext (c q : Str) (n : UInt64) (s : Str) : Prop :=
  ∃ trans N i, find c q = some trans ∧ Chooses c n N i ∧ s = (form (if i.toNat < N then i.toNat else 0) trans).getD (cstr trans)

/-- Not a negative value. -/
def natural (v : Option Int64) : Bool :=
  match v with
  | none => true
  | some x => decide (0 ≤ x)

/-- For this `n` the operands of divisions and of the comparisons other than `==` and `!=` are not negative. -/
def signless (n : Int64) : Exp → Bool
  | .n => true
  | .int _ => true
  | .paren e => signless n e
  | .post _ e => signless n e
  | .pre _ e => signless n e
  | .bin o l r => signless n l && signless n r &&
    (!(o == .div || o == .mod || o == .gt || o == .lt || o == .ge || o == .le) || (natural (cval n l) && natural (cval n r)))
  | .tern c a b => signless n c && signless n a && signless n b

/-- Expressions without `+`, `-` and `*`, whose values are never negative. -/
def noArith : Exp → Bool
  | .n => true
  | .int _ => true
  | .paren e => noArith e
  | .post _ _ => false
  | .pre o e => o == .lnot && noArith e
  | .bin o l r => o != .add && o != .sub && o != .mul && noArith l && noArith r
  | .tern c a b => noArith c && noArith a && noArith b

end Verif.Libintl
