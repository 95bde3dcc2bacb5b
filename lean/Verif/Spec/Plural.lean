import Verif.Model.Plural
/-!
# Specification of plural expressions

Written independently of the parser and of the operand stack: how a tree is spelled, which trees
respect the operator precedences, and what a tree is worth.
-/
namespace Verif.Plural

/-- Token of a postfix operator. -/
def Post.tok : Post → Tok
  | .inc => .inc
  | .dec => .dec

/-- Token of a prefix operator. -/
def Pre.tok : Pre → Tok
  | .plus => .op .add
  | .minus => .op .sub
  | .inc => .inc
  | .dec => .dec
  | .bnot => .tilde
  | .lnot => .bang

/-- The spelling of a tree. -/
def toks : Exp → List Tok
  | .n => [.n]
  | .int ds => [.int ds]
  | .paren e => .lp :: toks e ++ [.rp]
  | .post o e => toks e ++ [o.tok]
  | .pre o e => o.tok :: toks e
  | .bin o l r => toks l ++ .op o :: toks r
  | .tern c a b => toks c ++ .quest :: toks a ++ .colon :: toks b

/-- Precedence of a token as an operator *following* an operand (the ternary `?` is level 1). -/
def contPrec (T : Table) : Tok → Option Nat
  | .op o => some (T.op o)
  | .inc => some T.post
  | .dec => some T.post
  | .quest => some 1
  | _ => none

/-- `absorbs T t q`: an operator of precedence `q` written right after `t` would belong to an
operand at the right edge of `t` rather than to `t` as a whole. -/
def absorbs (T : Table) : Exp → Nat → Prop
  | .pre o e, q => T.pre o ≤ q ∨ absorbs T e q
  | .bin o _ r, q => T.op o < q ∨ absorbs T r q
  | .tern _ _ b, q => 1 ≤ q ∨ absorbs T b q
  | _, _ => False

/-- `Wf T p t`: the tree `t`, written without further parentheses where an operand of level at
least `p` is expected, groups as `t`: operators have level at least `p`, left operands do not absorb
the operator, right operands of a binary operator are one level higher (left associativity), the
last operand of `?:` has the level of `?:` itself (right associativity). -/
def Wf (T : Table) : Nat → Exp → Prop
  | _, .n => True
  | _, .int _ => True
  | _, .paren e => Wf T 0 e
  | p, .post _ e => p ≤ T.post ∧ Wf T p e ∧ ¬ absorbs T e T.post
  | _, .pre o e => Wf T (T.pre o) e
  | p, .bin o l r => p ≤ T.op o ∧ Wf T p l ∧ ¬ absorbs T l (T.op o) ∧ Wf T (T.op o + 1) r
  | p, .tern c a b => p ≤ 1 ∧ Wf T p c ∧ ¬ absorbs T c 1 ∧ Wf T 0 a ∧ Wf T 1 b

/-- A token that ends a complete expression: not an operator that could continue it (`+ - * ?` ...,
`++`, `--`) and not a lexical error. -/
def isEnd : Tok → Bool
  | .op _ | .inc | .dec | .quest | .bad => false
  | _ => true

/-- The token stream `r` cannot continue a complete expression. -/
def Ends (r : List Tok) : Prop := ∀ t ∈ r.head?, isEnd t = true

/-! ## The grammar -/

/-- An alternative of the left-recursive rule `exp`. -/
inductive Alt where
  | primary
  | postfix (l : List Post)
  | prefix (l : List Pre)
  | binary (l : List Op)
  | ternary

/-- The alternatives of rule `exp` in the order of plurals/plural.g4:11-26. -/
def g4Alts : List Alt := [
  .primary,
  .postfix [.inc, .dec],
  .prefix [.plus, .minus, .inc, .dec],
  .prefix [.bnot, .lnot],
  .binary [.mul, .div, .mod],
  .binary [.add, .sub],
  .binary [.shr, .shl],
  .binary [.gt, .lt],
  .binary [.ge, .le],
  .binary [.eq, .ne],
  .binary [.band],
  .binary [.bxor],
  .binary [.bor],
  .binary [.land],
  .binary [.lor],
  .ternary]

/-- Level of the first alternative satisfying `f`: the last alternative has level 1, earlier ones
bind tighter (ANTLR's rule for left-recursive rules). -/
def g4Level (f : Alt → Bool) : Nat := g4Alts.length - g4Alts.findIdx f

/-- The precedences the grammar file declares. -/
def g4Table : Table where
  op o := g4Level fun | .binary l => l.contains o | _ => false
  pre o := g4Level fun | .prefix l => l.contains o | _ => false
  post := g4Level fun | .postfix _ => true | _ => false

/-! ## Values -/

/-- Value of an integer literal: decimal digits, below 2^63. -/
def litVal (ds : Str) : Option Int64 :=
  if ds ≠ [] ∧ ds.all Num.isDigit then
    let v := ds.foldl (fun a c => a * 10 + (c.toNat - 48)) 0
    if v < 2 ^ 63 then some (Int64.ofNat v) else none
  else none

/-- What the code computes for a binary operator; `none` where Go panics. -/
def opVal (o : Op) (x y : Int64) : Option Int64 :=
  match o with
  | .mul => some (x * y)
  | .div => if y = 0 then none else some (x / y)
  | .mod => if y = 0 then none else some (x % y)
  | .add => some (x + y)
  | .sub => some (x - y)
  | .shr => if y < 0 then none else some (goShr x y)
  | .shl => if y < 0 then none else some (goShl x y)
  | .gt => some (if x > y then 1 else 0)
  | .lt => some (if x < y then 1 else 0)
  | .ge => some (if x ≥ y then 1 else 0)
  | .le => some (if x ≤ y then 1 else 0)
  | .eq => some (if x = y then 1 else 0)
  | .ne => some (if x = y then 0 else 1)
  | .band => some (x &&& y)
  | .bxor => some (x &&& y)
  | .bor => some (x ||| y)
  | .land => some (if x = 1 ∧ y = 1 then 1 else 0)
  | .lor => some (if x = 1 ∨ y = 1 then 1 else 0)

/-- What the code computes for a prefix operator. -/
def preVal (o : Pre) (x : Int64) : Int64 :=
  match o with
  | .plus => x
  | .minus => -x
  | .inc => x + 1
  | .dec => x - 1
  | .bnot => ~~~x
  | .lnot => if x = 1 then 0 else 1

/-- What the code computes for a postfix operator. -/
def postVal (o : Post) (x : Int64) : Int64 :=
  match o with
  | .inc => x + 1
  | .dec => x - 1

/-- The compositional value of a tree as the code computes it: all operands are evaluated, also the
branch of `?:` that is not taken. -/
def den (n : Int64) : Exp → Option Int64
  | .n => some n
  | .int ds => litVal ds
  | .paren e => den n e
  | .post o e => (den n e).map (postVal o)
  | .pre o e => (den n e).map (preVal o)
  | .bin o l r => (den n l).bind fun x => (den n r).bind fun y => opVal o x y
  | .tern c a b =>
    (den n c).bind fun x => (den n a).bind fun y => (den n b).bind fun z =>
      some (if x = 1 then y else z)

/-- Every integer literal of the tree is a non-empty string of decimal digits (always the case for
trees that come from the lexer). -/
def GoodLits : Exp → Prop
  | .n => True
  | .int ds => ds ≠ [] ∧ ds.all Num.isDigit = true
  | .paren e => GoodLits e
  | .post _ e => GoodLits e
  | .pre _ e => GoodLits e
  | .bin _ l r => GoodLits l ∧ GoodLits r
  | .tern c a b => GoodLits c ∧ GoodLits a ∧ GoodLits b

end Verif.Plural
