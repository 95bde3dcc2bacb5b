import Verif.Model.GoStr
import Verif.Model.Num
/-!
# Plural expressions: lexer, parser, evaluator (package `plurals`)
-/
namespace Verif.Plural

/-- Binary operators: `bop` of plurals/plural.g4:15-25. -/
inductive Op where
  | mul | div | mod | add | sub | shr | shl | gt | lt | ge | le | eq | ne
  | band | bxor | bor | land | lor
  deriving DecidableEq, Repr

/-- Prefix operators: `prefix` of plurals/plural.g4:13-14. -/
inductive Pre where
  | plus | minus | inc | dec | bnot | lnot
  deriving DecidableEq, Repr

/-- Postfix operators: `postfix` of plurals/plural.g4:12. -/
inductive Post where
  | inc | dec
  deriving DecidableEq, Repr

/-- Tokens of plurals/plural.g4 (`+` and `-` are `op add`, `op sub` also when used as prefix).
`bad` stands for input the lexer cannot match: ANTLR calls the error listener
(plurals/err.go:18-20) when it is fetched. -/
inductive Tok where
  | n | int (ds : Str) | lp | rp | quest | colon | bang | tilde | inc | dec
  | op (o : Op) | bad
  deriving DecidableEq, Repr

/-- Parse trees of rule `exp` (plurals/plural.g4:10-27); `int` keeps the literal's digits. -/
inductive Exp where
  | n
  | int (ds : Str)
  | paren (e : Exp)
  | post (o : Post) (e : Exp)
  | pre (o : Pre) (e : Exp)
  | bin (o : Op) (l r : Exp)
  | tern (c a b : Exp)
  deriving DecidableEq, Repr

/-! ## Lexer (generated from plurals/plural.g4:10-29, maximal munch) -/

/-- Two-byte tokens (plurals/plural.g4:12-25). -/
def tok2 (c d : UInt8) : Option Tok :=
  match c, d with
  | 43, 43 => some .inc          -- ++
  | 45, 45 => some .dec          -- --
  | 62, 62 => some (.op .shr)    -- >>
  | 60, 60 => some (.op .shl)    -- <<
  | 62, 61 => some (.op .ge)     -- >=
  | 60, 61 => some (.op .le)     -- <=
  | 61, 61 => some (.op .eq)     -- ==
  | 33, 61 => some (.op .ne)     -- !=
  | 38, 38 => some (.op .land)   -- &&
  | 124, 124 => some (.op .lor)  -- ||
  | _, _ => none

/-- One-byte tokens (plurals/plural.g4:12-27); every other byte is a token recognition error.
Simplified: bytes of a multi-byte UTF-8 character give one `bad` each. -/
def tok1 (c : UInt8) : Tok :=
  match c with
  | 110 => .n
  | 40 => .lp
  | 41 => .rp
  | 63 => .quest
  | 58 => .colon
  | 33 => .bang
  | 126 => .tilde
  | 42 => .op .mul
  | 47 => .op .div
  | 37 => .op .mod
  | 43 => .op .add
  | 45 => .op .sub
  | 62 => .op .gt
  | 60 => .op .lt
  | 38 => .op .band
  | 94 => .op .bxor
  | 124 => .op .bor
  | _ => .bad

/-- `WS: [ \t]+ -> skip` (plurals/plural.g4:29). -/
def isWs (c : UInt8) : Bool := c == 32 || c == 9

/-- Emit a pending integer literal, if any (`INT: [0-9]+`, plurals/plural.g4:28). -/
def flush (cur : Str) (ts : List Tok) : List Tok :=
  if cur.isEmpty then ts else .int cur :: ts

/-- The lexer with `cur` the digits of the integer literal being read.  For plurals/plural.g4 and plurals/exp.go:30-37. -/
def lexGo : Str → Str → List Tok
  | cur, [] => flush cur []
  | cur, c :: cs =>
    if Num.isDigit c then lexGo (cur ++ [c]) cs
    else flush cur
      (if isWs c then lexGo [] cs
       else match cs with
        | [] => [tok1 c]
        | d :: ds =>
          match tok2 c d with
          | some t => t :: lexGo [] ds
          | none => tok1 c :: lexGo [] (d :: ds))

/-- Token stream of an expression text (plurals/exp.go:30-37). -/
def lex (s : Str) : List Tok := lexGo [] s

/-! ## Parser (plurals/parser/plural_parser.go, rule `exp`)

ANTLR compiles the left-recursive rule to precedence climbing.  The precedence numbers are the
arguments of `Precpred` and of the recursive calls `p.exp(k)` in the generated code. -/

/-- Precedences used by a climbing parser; a parameter, so that C's table can be compared.  For plurals/parser/plural_parser.go:424-900. -/
structure Table where
  op : Op → Nat
  pre : Pre → Nat
  post : Nat

/-- The table of the generated parser (plurals/parser/plural_parser.go, func `exp`, following the
order of the alternatives plurals/plural.g4:12-26; the ternary operator is level 1). -/
def goTable : Table where
  op
    | .mul | .div | .mod => 12
    | .add | .sub => 11
    | .shr | .shl => 10
    | .gt | .lt => 9
    | .ge | .le => 8
    | .eq | .ne => 7
    | .band => 6
    | .bxor => 5
    | .bor => 4
    | .land => 3
    | .lor => 2
  pre
    | .plus | .minus | .inc | .dec => 14
    | .bnot | .lnot => 13
  post := 15

/-- The prefix operator a token denotes at the start of an operand (plurals/plural.g4:13-14). -/
def preOf : Tok → Option Pre
  | .op .add => some .plus
  | .op .sub => some .minus
  | .inc => some .inc
  | .dec => some .dec
  | .tilde => some .bnot
  | .bang => some .lnot
  | _ => none

/-- The postfix operator a token denotes after an operand (plurals/plural.g4:12). -/
def postOf : Tok → Option Post
  | .inc => some .inc
  | .dec => some .dec
  | _ => none

mutual
/-- `p.exp(p)`: an operand, then the operator loop.  `none` is a syntax error reported to the error
listener.  The first argument bounds the recursion (`parse` gives enough of it).  For plurals/parser/plural_parser.go:424-900. -/
def pExp (T : Table) : Nat → Nat → List Tok → Option (Exp × List Tok)
  | 0, _, _ => none
  | f + 1, p, ts =>
    match pAtom T f ts with
    | none => none
    | some (a, r) => pLoop T f p a r

/-- The primary and prefix alternatives (plurals/plural.g4:11,13,14,27). -/
def pAtom (T : Table) : Nat → List Tok → Option (Exp × List Tok)
  | 0, _ => none
  | f + 1, ts =>
    match ts with
    | .n :: r => some (.n, r)
    | .int ds :: r => some (.int ds, r)
    | .lp :: r =>
      match pExp T f 0 r with
      | some (e, .rp :: r') => some (.paren e, r')
      | _ => none
    | t :: r =>
      match preOf t with
      | none => none
      | some o =>
        match pExp T f (T.pre o) r with
        | none => none
        | some (e, r') => some (.pre o e, r')
    | [] => none

/-- The operator loop (the `for` loop of the generated `exp`): continues while the next token is an
operator of precedence at least `p`.  For plurals/parser/plural_parser.go:424-900. -/
def pLoop (T : Table) : Nat → Nat → Exp → List Tok → Option (Exp × List Tok)
  | 0, _, _, _ => none
  | f + 1, p, l, ts =>
    match ts with
    | [] => some (l, [])
    | .bad :: _ => none
    | .op o :: r =>
      if p ≤ T.op o then
        match pExp T f (T.op o + 1) r with
        | none => none
        | some (e, r') => pLoop T f p (.bin o l e) r'
      else some (l, .op o :: r)
    | .quest :: r =>
      if p ≤ 1 then
        match pExp T f 0 r with
        | some (a, .colon :: r') =>
          match pExp T f 1 r' with
          | none => none
          | some (b, r'') => pLoop T f p (.tern l a b) r''
        | _ => none
      else some (l, .quest :: r)
    | t :: r =>
      match postOf t with
      | none => some (l, t :: r)
      | some o => if p ≤ T.post then pLoop T f p (.post o l) r else some (l, t :: r)
end

/-- `p.Start_()` (plurals/exp.go:44): rule `start: exp` has no EOF, so what follows the expression
is left unread. -/
def parse (T : Table) (ts : List Tok) : Option (Exp × List Tok) :=
  pExp T (2 * ts.length + 3) 0 ts

/-! ## Listener (plurals/exp.go:55-327) -/

/-- `Int64Stack`, top first (plurals/stack.go:8). -/
abbrev Stack := List Int64

/-- `num, _ := s.stack.Pop()`: 0 on an empty stack, the error is dropped (plurals/stack.go:14-22). -/
def pop : Stack → Int64 × Stack
  | [] => (0, [])
  | x :: xs => (x, xs)

/-- `i(b)` / `_TRUE`, `_FALSE` (plurals/exp.go:50-53, plurals/common.go:3-8). -/
def b2i (b : Bool) : Int64 := if b then 1 else 0

/-- Go's `x >> k` on int64: arithmetic shift, any non-negative count.  For plurals/exp.go:125-288. -/
def goShr (x k : Int64) : Int64 := Int64.ofBitVec (x.toBitVec.sshiftRight k.toNatClampNeg)

/-- Go's `x << k` on int64, any non-negative count.  For plurals/exp.go:125-288. -/
def goShl (x k : Int64) : Int64 := Int64.ofBitVec (x.toBitVec.shiftLeft k.toNatClampNeg)

/-- `handleExpPrefix` (plurals/exp.go:93-123). -/
def onPrefix (o : Pre) (s : Stack) : Stack :=
  match o with
  | .plus => s
  | .minus => let (x, s) := pop s; (-x) :: s
  | .inc => let (x, s) := pop s; (x + 1) :: s
  | .dec => let (x, s) := pop s; (x - 1) :: s
  | .bnot => let (x, s) := pop s; (~~~x) :: s
  | .lnot => let (x, s) := pop s; (if x = 1 then 0 else 1) :: s

/-- `handleExpPostfix` (plurals/exp.go:290-306). -/
def onPostfix (o : Post) (s : Stack) : Stack :=
  match o with
  | .inc => let (x, s) := pop s; (x + 1) :: s
  | .dec => let (x, s) := pop s; (x - 1) :: s

/-- The value pushed by `handleExpBop` for a binary operator (plurals/exp.go:125-271); integer
division or remainder by zero and a negative shift count are Go run-time panics.  Note that `^`
computes `&` (plurals/exp.go:246-251). -/
def bop (o : Op) (left right : Int64) : Res Int64 :=
  match o with
  | .mul => .ok (left * right)
  | .div => if right = 0 then .panic else .ok (left / right)
  | .mod => if right = 0 then .panic else .ok (left % right)
  | .add => .ok (left + right)
  | .sub => .ok (left - right)
  | .shr => if right < 0 then .panic else .ok (goShr left right)
  | .shl => if right < 0 then .panic else .ok (goShl left right)
  | .gt => .ok (b2i (decide (left > right)))
  | .lt => .ok (b2i (decide (left < right)))
  | .ge => .ok (b2i (decide (left ≥ right)))
  | .le => .ok (b2i (decide (left ≤ right)))
  | .eq => .ok (b2i (decide (left = right)))
  | .ne => .ok (b2i (decide (left ≠ right)))
  | .band => .ok (left &&& right)
  | .bor => .ok (left ||| right)
  | .bxor => .ok (left &&& right)
  | .land => .ok (b2i (decide (left = 1) && decide (right = 1)))
  | .lor => .ok (b2i (decide (left = 1) || decide (right = 1)))

/-- `handleExpBop` for the binary operators (plurals/exp.go:125-271): pop the right operand, pop the
left operand, push the result. -/
def onBop (o : Op) (s : Stack) : Res Stack :=
  let (right, s) := pop s
  let (left, s) := pop s
  (bop o left right).bind fun v => .ok (v :: s)

/-- `handleExpBop`, case `"?"` (plurals/exp.go:272-283). -/
def onTern (s : Stack) : Stack :=
  let (right, s) := pop s
  let (left, s) := pop s
  let (cond, s) := pop s
  (if cond = 1 then left else right) :: s

/-- `antlr.ParseTreeWalkerDefault.Walk` with the listener: children first, then the exit callbacks
`ExitPrimary` (plurals/exp.go:309-327) and `ExitExp` (plurals/exp.go:81-91). -/
def walk (n : Int64) : Exp → Stack → Res Stack
  | .n, s => .ok (n :: s)
  | .int ds, s =>
    match Num.parseInt ds with
    | some i => .ok (Int64.ofInt i :: s)
    | none => .panic
  | .paren e, s => walk n e s
  | .post o e, s => (walk n e s).bind fun s => .ok (onPostfix o s)
  | .pre o e, s => (walk n e s).bind fun s => .ok (onPrefix o s)
  | .bin o l r, s => (walk n l s).bind fun s => (walk n r s).bind fun s => onBop o s
  | .tern c a b, s =>
    (walk n c s).bind fun s => (walk n a s).bind fun s => (walk n b s).bind fun s => .ok (onTern s)

/-- `ExitStart` (plurals/exp.go:76-78). -/
def exitStart (s : Stack) : Int64 := (pop s).1

/-! ## Built-in expressions (plurals/common.go:18-71) -/

/-- `_if` (plurals/common.go:9-14). -/
def ifI (b : Bool) (t f : Int64) : Int64 := if b then t else f

/-- `commons` (plurals/common.go:18-71): expression text without blanks ↦ Go function. -/
def commons : List (Str × (Int64 → Int64)) := [
  (b!"0", fun _ => 0),
  (b!"n!=1", fun n => b2i (n != 1)),
  (b!"n>1", fun n => b2i (decide (n > 1))),
  (b!"n%10==1&&n%100!=11?0:n!=0?1:2", fun n =>
    ifI (n % 10 == 1 && n % 100 != 11) 0 (ifI (n != 0) 1 2)),
  (b!"n==1?0:n==2?1:2", fun n => ifI (n == 1) 0 (ifI (n == 2) 1 2)),
  (b!"n==1?0:(n==0||(n%100>0&&n%100<20))?1:2", fun n =>
    ifI (n == 1) 0 (ifI (n == 0 || (decide (n % 100 > 0) && decide (n % 100 < 20))) 1 2)),
  (b!"n%10==1&&n%100!=11?0:n%10>=2&&(n%100<10||n%100>=20)?1:2", fun n =>
    ifI (n % 10 == 1 && n % 100 != 11) 0
      (ifI (decide (n % 10 ≥ 2) && (decide (n % 100 < 10) || decide (n % 100 ≥ 20))) 1 2)),
  (b!"n%10==1&&n%100!=11?0:n%10>=2&&n%10<=4&&(n%100<10||n%100>=20)?1:2", fun n =>
    ifI (n % 10 == 1 && n % 100 != 11) 0
      (ifI (decide (n % 10 ≥ 2) && decide (n % 10 ≤ 4) &&
        (decide (n % 100 < 10) || decide (n % 100 ≥ 20))) 1 2)),
  (b!"(n==1)?0:(n>=2&&n<=4)?1:2", fun n =>
    ifI (n == 1) 0 (ifI (decide (n ≥ 2) && decide (n ≤ 4)) 1 2)),
  (b!"n==1?0:n%10>=2&&n%10<=4&&(n%100<10||n%100>=20)?1:2", fun n =>
    ifI (n == 1) 0
      (ifI (decide (n % 10 ≥ 2) && decide (n % 10 ≤ 4) &&
        (decide (n % 100 < 10) || decide (n % 100 ≥ 20))) 1 2)),
  (b!"n%100==1?0:n%100==2?1:n%100==3||n%100==4?2:3", fun n =>
    ifI (n % 100 == 1) 0 (ifI (n % 100 == 2) 1 (ifI (n % 100 == 3 || n % 100 == 4) 2 3))),
  (b!"n==0?0:n==1?1:n==2?2:n%100>=3&&n%100<=10?3:n%100>=11?4:5", fun n =>
    ifI (n == 0) 0 (ifI (n == 1) 1 (ifI (n == 2) 2
      (ifI (decide (n % 100 ≥ 3) && decide (n % 100 ≤ 10)) 3 (ifI (decide (n % 100 ≥ 11)) 4 5)))))]

/-- `fun, ok := commons[key]`.  For plurals/exp.go:24. -/
def commonsGet (key : Str) : Option (Int64 → Int64) :=
  GMap.get? commons key

/-! ## Eval (plurals/exp.go:15-47) -/

/-- What ANTLR may report besides plain syntax errors: `ReportAmbiguity`,
`ReportAttemptingFullContext`, `ReportContextSensitivity` and token errors met while looking ahead
(plurals/err.go:18-34) all make `Eval` return an error.  Whether they occur is left open: an
arbitrary predicate on the token stream. -/
abbrev Diag := List Tok → Bool

/-- Steps 2-4 of `Eval` (plurals/exp.go:29-46): lexer, parser, tree walk. -/
def evalGeneral (T : Table) (diag : Diag) (exp : Str) (n : Int64) : Res Int64 :=
  match parse T (lex exp) with
  | none => .err
  | some (t, _) =>
    if diag (lex exp) then .err
    else (walk n t []).bind fun s => .ok (exitStart s)

/-- The body of `Eval` before `recover` (plurals/exp.go:22-46). -/
def evalBody (diag : Diag) (exp : Str) (n : Int64) : Res Int64 :=
  match commonsGet (GoStr.removeByte 32 exp) with
  | some f => .ok (f n)
  | none => evalGeneral goTable diag exp n

/-- `plurals.Eval` (plurals/exp.go:15-47): the deferred `recover` turns a panic into an error. -/
def eval (diag : Diag) (exp : Str) (n : Int64) : Res Int64 :=
  match evalBody diag exp n with
  | .panic => .err
  | r => r

end Verif.Plural
