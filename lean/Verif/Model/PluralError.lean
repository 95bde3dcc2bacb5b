import Verif.Model.Plural
import Verif.Model.Debug
import Verif.Model.Errors
/-!
# The error of a failed evaluation (plurals/err.go, exp.go)

The tree walk is that of `Model/Plural.lean`, with the value the listener panics with.  What ANTLR reports for a text with a syntax error,
and what the walk of the tree it builds then does, are left open.
-/
namespace Verif.Plural
open Verif

/-- What the listener panics with: the run-time errors of Go for an integer division by zero and for a negative shift count, or a string
(plurals/exp.go:322).  For plurals/exp.go:16-20. -/
inductive Panic where
  | divide
  | shift
  | assert (text : Str)
  deriving DecidableEq

/-- `%v` of it: `Error()` of a run-time error.  For plurals/exp.go:18. -/
def Panic.text : Panic → Str
  | .divide => b!"runtime error: integer divide by zero"
  | .shift => b!"runtime error: negative shift amount"
  | .assert t => t

/-- The value pushed by `handleExpBop` (plurals/exp.go:125-271), or the run-time error of the operation. -/
def bopP (o : Op) (left right : Int64) : Except Panic Int64 :=
  match bop o left right with
  | .ok v => .ok v
  | _ => .error (match o with
    | .shr => .shift
    | .shl => .shift
    | _ => .divide)

/-- `handleExpBop` for the binary operators (plurals/exp.go:125-271). -/
def onBopP (o : Op) (s : Stack) : Except Panic Stack :=
  let (right, s) := pop s
  let (left, s) := pop s
  (bopP o left right).bind fun v => .ok (v :: s)

/-- The walk with `ExitPrimary` (plurals/exp.go:309-327) and `ExitExp` (plurals/exp.go:81-91). -/
def walkP (n : Int64) : Exp → Stack → Except Panic Stack
  | .n, s => .ok (n :: s)
  | .int ds, s =>
    match Num.parseInt ds with
    | some i => .ok (Int64.ofInt i :: s)
    | none => .error (.assert (b!"assert error: not a number: " ++ ds))
  | .paren e, s => walkP n e s
  | .post o e, s => (walkP n e s).bind fun s => .ok (onPostfix o s)
  | .pre o e, s => (walkP n e s).bind fun s => .ok (onPrefix o s)
  | .bin o l r, s => (walkP n l s).bind fun s => (walkP n r s).bind fun s => onBopP o s
  | .tern c a b, s =>
    (walkP n c s).bind fun s => (walkP n a s).bind fun s => (walkP n b s).bind fun s => .ok (onTern s)

/-- An error value and its message.  For plurals/err.go:11-40. -/
structure Error where
  err : Errors.Err
  text : Str

/-- The identity of `ErrAntlr` (plurals/err.go:11). -/
def antlrId : Nat := 5

/-- `ErrAntlr` (plurals/err.go:11). -/
def errAntlr : Error := { err := Errors.sentinel antlrId, text := b!"err antlr" }

/-- What ANTLR tells the error listener (plurals/err.go:19-33). -/
inductive Report where
  | syntaxError (line column : Nat) (msg : Str)
  | ambiguity
  | fullContext
  | sensitivity
  deriving DecidableEq

/-- The error made of it (plurals/err.go:19-33). -/
def Report.error (L : Fmt.Lib) : Report → Error
  | .syntaxError line column msg =>
    { err := Errors.errorf, text := Fmt.sprintf (Xt.dEnv L) b!"SyntaxError(line %v:%v): %v" [.num line, .num column, .str msg] }
  | .ambiguity => { err := Errors.errorf, text := Fmt.sprintf (Xt.dEnv L) b!"ReportAmbiguity" [] }
  | .fullContext => { err := Errors.errorf, text := Fmt.sprintf (Xt.dEnv L) b!"ReportAttemptingFullContext" [] }
  | .sensitivity => { err := Errors.errorf, text := Fmt.sprintf (Xt.dEnv L) b!"ReportContextSensitivity" [] }

/-- `errors.WithSecondaryError` (errors/errors.go:17-19); `%w` prints the message. -/
def withSecondary (a b : Error) : Error := { err := Errors.withSecondary a.err b.err, text := a.text ++ b!": " ++ b.text }

/-- `addError` (plurals/err.go:35-40). -/
def addError (d : Option Error) (e : Error) : Option Error := some (withSecondary (d.getD errAntlr) e)

/-- `errListener.err` after the reports.  For plurals/exp.go:32, 46. -/
def listenerErr (L : Fmt.Lib) (reports : List Report) : Option Error := (reports.map (Report.error L)).foldl addError none

/-- The deferred function of `Eval` (plurals/exp.go:16-20) after a panic: the result is still zero. -/
def recovered (L : Fmt.Lib) (p : Panic) : Int64 × Option Error :=
  (0, some { err := Errors.errorf, text := Fmt.sprintf (Xt.dEnv L) b!"unexpected error: %v" [.str p.text] })

/-- `Eval` (plurals/exp.go:15-47).  `reports` is what ANTLR tells the error listener, `other` what the walk does if the text has a syntax
error. -/
def evalE (L : Fmt.Lib) (reports : List Report) (other : Except Panic Int64) (exp : Str) (n : Int64) : Int64 × Option Error :=
  match commonsGet (GoStr.removeByte 32 exp) with
  | some f => (f n, none)
  | none =>
    match parse goTable (lex exp) with
    | none =>
      match other with
      | .ok r => (r, listenerErr L reports)
      | .error p => recovered L p
    | some (t, _) =>
      match walkP n t [] with
      | .ok s => (exitStart s, listenerErr L reports)
      | .error p => recovered L p

end Verif.Plural
