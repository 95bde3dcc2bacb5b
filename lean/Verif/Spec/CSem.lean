import Verif.Spec.Plural
/-!
# C semantics of plural expressions

The reference the package documentation points to: C expressions over one integer variable, here on
64-bit two's complement integers with wrap-around, lazily evaluated; decimal literals (as in GNU
gettext's own plural parser).
-/
namespace Verif.Plural

/-- C's operator precedences: all four relational operators share one level, all prefix operators
share one level. -/
def cTable : Table where
  op
    | .mul | .div | .mod => 12
    | .add | .sub => 11
    | .shr | .shl => 10
    | .gt | .lt | .ge | .le => 9
    | .eq | .ne => 7
    | .band => 6
    | .bxor => 5
    | .bor => 4
    | .land => 3
    | .lor => 2
  pre _ := 14
  post := 15

/-- C truth value. -/
def truth (P : Prop) [Decidable P] : Int64 := if P then 1 else 0

/-- The value C gives to an expression; `none` if it is undefined (division by zero, shift count
outside 0..63) or not an expression of constants and `n` without side effects (`++`, `--`). -/
def cval (n : Int64) : Exp → Option Int64
  | .n => some n
  | .int ds => litVal ds
  | .paren e => cval n e
  | .post _ _ => none
  | .pre o e =>
    match o with
    | .plus => cval n e
    | .minus => (cval n e).map fun x => -x
    | .bnot => (cval n e).map fun x => ~~~x
    | .lnot => (cval n e).map fun x => truth (x = 0)
    | .inc => none
    | .dec => none
  | .bin o l r =>
    (cval n l).bind fun x =>
      match o with
      | .land => if x = 0 then some 0 else (cval n r).map fun y => truth (y ≠ 0)
      | .lor => if x ≠ 0 then some 1 else (cval n r).map fun y => truth (y ≠ 0)
      | _ => (cval n r).bind fun y =>
        match o with
        | .mul => some (x * y)
        | .div => if y = 0 then none else some (x / y)
        | .mod => if y = 0 then none else some (x % y)
        | .add => some (x + y)
        | .sub => some (x - y)
        | .shr => if 0 ≤ y ∧ y < 64 then some (x >>> y) else none
        | .shl => if 0 ≤ y ∧ y < 64 then some (x <<< y) else none
        | .gt => some (truth (x > y))
        | .lt => some (truth (x < y))
        | .ge => some (truth (x ≥ y))
        | .le => some (truth (x ≤ y))
        | .eq => some (truth (x = y))
        | .ne => some (truth (x ≠ y))
        | .band => some (x &&& y)
        | .bxor => some (x ^^^ y)
        | .bor => some (x ||| y)
        | .land => none
        | .lor => none
  | .tern c a b => (cval n c).bind fun x => if x ≠ 0 then cval n a else cval n b

/-- Expressions whose C value is a truth value by construction: comparisons, `! && ||`, the literals
0 and 1, and these in parentheses. -/
def isBool : Exp → Bool
  | .int ds => ds == b!"0" || ds == b!"1"
  | .paren e => isBool e
  | .pre .lnot _ => true
  | .bin o _ _ =>
    match o with
    | .gt | .lt | .ge | .le | .eq | .ne | .land | .lor => true
    | _ => false
  | _ => false

/-- Is the tree a bare `>` or `<` comparison? -/
def isGtLt : Exp → Bool
  | .bin .gt _ _ | .bin .lt _ _ => true
  | _ => false

/-- Expressions without `^`, `++` and `--` in which the right operand of `>=`/`<=` is not a bare `>` or
`<` comparison. -/
def plain : Exp → Bool
  | .n => true
  | .int _ => true
  | .paren e => plain e
  | .post _ _ => false
  | .pre o e => o != .inc && o != .dec && plain e
  | .bin o l r => plain l && plain r && o != .bxor && !((o == .ge || o == .le) && isGtLt r)
  | .tern c a b => plain c && plain a && plain b

/-- Not a C value other than 0 and 1. -/
def zeroOne (v : Option Int64) : Bool :=
  match v with
  | none => true
  | some x => x == 0 || x == 1

/-- For this `n` the operands of `!`, `&&`, `||` and the conditions of `?:` have the C values 0 or 1. -/
def regular (n : Int64) : Exp → Bool
  | .n => true
  | .int _ => true
  | .paren e => regular n e
  | .post _ e => regular n e
  | .pre o e => regular n e && (o != .lnot || zeroOne (cval n e))
  | .bin o l r =>
    regular n l && regular n r &&
    (!(o == .land || o == .lor) || (zeroOne (cval n l) && zeroOne (cval n r)))
  | .tern c a b => zeroOne (cval n c) && regular n c && regular n a && regular n b

/-- Expressions in which the operands of `!`, `&&`, `||` and the conditions of `?:` are truth-valued by
construction; they are regular for every `n`. -/
def guarded : Exp → Bool
  | .n => true
  | .int _ => true
  | .paren e => guarded e
  | .post _ e => guarded e
  | .pre o e => guarded e && (o != .lnot || isBool e)
  | .bin o l r => guarded l && guarded r && (!(o == .land || o == .lor) || (isBool l && isBool r))
  | .tern c a b => isBool c && guarded c && guarded a && guarded b

/-- No shift operators. -/
def noShift : Exp → Bool
  | .n => true
  | .int _ => true
  | .paren e => noShift e
  | .post _ e => noShift e
  | .pre _ e => noShift e
  | .bin o l r => o != .shr && o != .shl && noShift l && noShift r
  | .tern c a b => noShift c && noShift a && noShift b

end Verif.Plural
