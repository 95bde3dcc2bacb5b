import Verif.Model.Plural
import Verif.Model.Debug
/-!
# What an evaluation with a debug context prints (plurals/debug.go, exp.go)

`myListener.debug` writes to stdout.  The tree walk is that of `Model/Plural.lean`, with the lines in order.  What is printed for a text
ANTLR finds an error in, and so builds some other tree for, is left open here; see `Model/AtnDebug.lean`.
-/
namespace Verif.Plural
open Verif

/-- `GetText` of the token of an operator: the characters of the input.  For plurals/exp.go:129. -/
def opText : Op → Str
  | .mul => b!"*"
  | .div => b!"/"
  | .mod => b!"%"
  | .add => b!"+"
  | .sub => b!"-"
  | .shr => b!">>"
  | .shl => b!"<<"
  | .gt => b!">"
  | .lt => b!"<"
  | .ge => b!">="
  | .le => b!"<="
  | .eq => b!"=="
  | .ne => b!"!="
  | .band => b!"&"
  | .bxor => b!"^"
  | .bor => b!"|"
  | .land => b!"&&"
  | .lor => b!"||"

/-- See `opText`. -/
def preText : Pre → Str
  | .plus => b!"+"
  | .minus => b!"-"
  | .inc => b!"++"
  | .dec => b!"--"
  | .bnot => b!"~"
  | .lnot => b!"!"

/-- See `opText`. -/
def postText : Post → Str
  | .inc => b!"++"
  | .dec => b!"--"

/-- `GetText` of a tree: the texts of its tokens.  For plurals/exp.go:326. -/
def expText : Exp → Str
  | .n => b!"n"
  | .int ds => ds
  | .paren e => b!"(" ++ expText e ++ b!")"
  | .post o e => expText e ++ postText o
  | .pre o e => preText o ++ expText e
  | .bin o l r => expText l ++ opText o ++ expText r
  | .tern c a b => expText c ++ b!"?" ++ expText a ++ b!":" ++ expText b

/-- `%v` of the stack, an `[]int64` with its top at the end.  For plurals/exp.go:98, 130. -/
def stackText (s : Stack) : Str :=
  b!"[" ++ GoStr.join b!" " (s.reverse.map fun x => Fmt.fmtInteger {} x.toUInt64 10 true false false) ++ b!"]"

/-- `debug` (plurals/exp.go:331-335), for a context made by `DebugCtx` (plurals/debug.go:12-14) or not. -/
def dbg (L : Fmt.Lib) (debug : Bool) (format : Str) (args : List Xt.DVal) : List Str :=
  if debug then [Fmt.sprintf (Xt.dEnv L) (format ++ b!"\n") args] else []

/-- What was printed, and the stack or a panic.  For plurals/exp.go:81-327. -/
abbrev Printed (α : Type) := List Str × Res α

/-- One after the other.  For plurals/exp.go:81-327. -/
def Printed.then {α β : Type} (p : Printed α) (f : α → Printed β) : Printed β :=
  match p.2 with
  | .ok a => (p.1 ++ (f a).1, (f a).2)
  | .err => (p.1, .err)
  | .panic => (p.1, .panic)

/-- `handleExpPrefix` (plurals/exp.go:93-123). -/
def prefixD (L : Fmt.Lib) (debug : Bool) (o : Pre) (s : Stack) : Printed Stack :=
  (dbg L debug b!"prefix: %v stack=%v" [.str (preText o), .shown (stackText s)], .ok (onPrefix o s))

/-- `handleExpPostfix` (plurals/exp.go:290-306). -/
def postfixD (L : Fmt.Lib) (debug : Bool) (o : Post) (s : Stack) : Printed Stack :=
  (dbg L debug b!"postfix: %v stack=%v" [.str (postText o), .shown (stackText s)], .ok (onPostfix o s))

/-- `handleExpBop` (plurals/exp.go:125-288) for the binary operators. -/
def bopD (L : Fmt.Lib) (debug : Bool) (o : Op) (s : Stack) : Printed Stack :=
  Printed.then (dbg L debug b!"bop   : %v stack=%v" [.str (opText o), .shown (stackText s)], onBop o s) fun s =>
    (dbg L debug b!"bop done stack=%v" [.shown (stackText s)], .ok s)

/-- `handleExpBop` (plurals/exp.go:125-288), case `"?"`. -/
def ternD (L : Fmt.Lib) (debug : Bool) (s : Stack) : Printed Stack :=
  (dbg L debug b!"bop   : %v stack=%v" [.str b!"?", .shown (stackText s)] ++ dbg L debug b!"%v" [.shown (stackText s)] ++
    dbg L debug b!"bop done stack=%v" [.shown (stackText (onTern s))], .ok (onTern s))

/-- The last line of `ExitPrimary` (plurals/exp.go:326). -/
def primaryD (L : Fmt.Lib) (debug : Bool) (text : Str) (s : Stack) : Printed Stack :=
  (dbg L debug b!"primary: %v stack=%v" [.str text, .shown (stackText s)], .ok s)

/-- The walk with `ExitPrimary` (plurals/exp.go:309-327) and `ExitExp` (plurals/exp.go:81-91). -/
def walkD (L : Fmt.Lib) (debug : Bool) (n : Int64) : Exp → Stack → Printed Stack
  | .n, s => primaryD L debug b!"n" (n :: s)
  | .int ds, s =>
    match Num.parseInt ds with
    | some i => primaryD L debug ds (Int64.ofInt i :: s)
    | none => ([], .panic)
  | .paren e, s =>
    (walkD L debug n e s).then fun s =>
      Printed.then (dbg L debug b!"primary: (exp) stack=%v" [.shown (stackText s)], .ok s)
        (primaryD L debug (b!"(" ++ expText e ++ b!")"))
  | .post o e, s => (walkD L debug n e s).then (postfixD L debug o)
  | .pre o e, s => (walkD L debug n e s).then (prefixD L debug o)
  | .bin o l r, s => (walkD L debug n l s).then fun s => (walkD L debug n r s).then (bopD L debug o)
  | .tern c a b, s =>
    (walkD L debug n c s).then fun s => (walkD L debug n a s).then fun s => (walkD L debug n b s).then (ternD L debug)

/-- `Eval` (plurals/exp.go:15-47): what it prints and returns.  `other` is what the walk of a tree with errors prints. -/
def evalD (L : Fmt.Lib) (debug : Bool) (other : List Str) (diag : Diag) (exp : Str) (n : Int64) : List Str × Res Int64 :=
  match commonsGet (GoStr.removeByte 32 exp) with
  | some f => ([], .ok (f n))
  | none =>
    match parse goTable (lex exp) with
    | none => (if debug then other else [], .err)
    | some (t, _) =>
      let r := walkD L debug n t []
      (r.1, match r.2 with
        | .ok s => if diag (lex exp) then .err else .ok (exitStart s)
        | _ => .err)

end Verif.Plural
