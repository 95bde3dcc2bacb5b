import Verif.Model.AtnRecover
import Verif.Model.PluralDebug
/-!
# What an evaluation with a debug context prints, also for a malformed text (plurals/debug.go, exp.go)

The walk of `walkR` (`Model/AtnRecover.lean`) with the lines of `myListener.debug`, in order.  Simplified: `GetText` of an expression in
parentheses contains the tokens that were dropped and `<missing ')'>`, which the tree of the model does not hold; it is an input, one text
for each place in the tree.
-/
namespace Verif.Antlr
open Verif

/-- A place in a tree: the numbers of the children on the way, the last one first.  For plurals/exp.go:326. -/
abbrev Place := List Nat

/-- What was printed, and the stack or a panic.  For plurals/exp.go:81-327. -/
abbrev PrintedP := List Str × Except Plural.Panic Plural.Stack

/-- One after the other.  For plurals/exp.go:81-327. -/
def PrintedP.andThen (p : PrintedP) (f : Plural.Stack → PrintedP) : PrintedP :=
  match p.2 with
  | .ok a => (p.1 ++ (f a).1, (f a).2)
  | .error e => (p.1, .error e)

/-- `handleExpBop` (plurals/exp.go:125-288) for the binary operators. -/
def bopRD (L : Fmt.Lib) (debug : Bool) (o : Plural.Op) (s : Plural.Stack) : PrintedP :=
  PrintedP.andThen (Plural.dbg L debug b!"bop   : %v stack=%v" [.str (Plural.opText o), .shown (Plural.stackText s)], Plural.onBopP o s)
    fun s => (Plural.dbg L debug b!"bop done stack=%v" [.shown (Plural.stackText s)], .ok s)

/-- `handleExpBop` (plurals/exp.go:125-288), case `"?"`, with or without a part behind the colon. -/
def ternRD (L : Fmt.Lib) (debug : Bool) (s : Plural.Stack) : PrintedP :=
  (Plural.dbg L debug b!"bop   : %v stack=%v" [.str b!"?", .shown (Plural.stackText s)] ++
    Plural.dbg L debug b!"%v" [.shown (Plural.stackText s)] ++
    Plural.dbg L debug b!"bop done stack=%v" [.shown (Plural.stackText (Plural.onTern s))], .ok (Plural.onTern s))

/-- The tree walk with `ExitPrimary` (plurals/exp.go:309-327) and `ExitExp` (plurals/exp.go:81-91); `text` is `GetText` of the expressions
in parentheses. -/
def walkRD (L : Fmt.Lib) (debug : Bool) (text : Place → Str) (n : Int64) : Place → Tree → Plural.Stack → PrintedP
  | _, .hole, s => ([], .ok s)
  | _, .n, s => (Plural.dbg L debug b!"primary: %v stack=%v" [.str b!"n", .shown (Plural.stackText (n :: s))], .ok (n :: s))
  | _, .int ds, s => PrintedP.andThen ([], Plural.walkP n (.int ds) s) fun s =>
      (Plural.dbg L debug b!"primary: %v stack=%v" [.str ds, .shown (Plural.stackText s)], .ok s)
  | p, .paren e, s => (walkRD L debug text n (0 :: p) e s).andThen fun s =>
      (Plural.dbg L debug b!"primary: (exp) stack=%v" [.shown (Plural.stackText s)] ++
        Plural.dbg L debug b!"primary: %v stack=%v" [.str (text p), .shown (Plural.stackText s)], .ok s)
  | p, .post o e, s => (walkRD L debug text n (0 :: p) e s).andThen fun s =>
      (Plural.dbg L debug b!"postfix: %v stack=%v" [.str (Plural.postText o), .shown (Plural.stackText s)], .ok (Plural.onPostfix o s))
  | p, .pre o e, s => (walkRD L debug text n (0 :: p) e s).andThen fun s =>
      (Plural.dbg L debug b!"prefix: %v stack=%v" [.str (Plural.preText o), .shown (Plural.stackText s)], .ok (Plural.onPrefix o s))
  | p, .bin o l r, s => (walkRD L debug text n (0 :: p) l s).andThen fun s =>
      (walkRD L debug text n (1 :: p) r s).andThen (bopRD L debug o)
  | p, .tern c a b, s => (walkRD L debug text n (0 :: p) c s).andThen fun s =>
      (walkRD L debug text n (1 :: p) a s).andThen fun s => (walkRD L debug text n (2 :: p) b s).andThen (ternRD L debug)
  | p, .cut c a, s => (walkRD L debug text n (0 :: p) c s).andThen fun s =>
      (walkRD L debug text n (1 :: p) a s).andThen (ternRD L debug)

/-- `Eval` (plurals/exp.go:15-47): what it prints and returns. -/
def evalRD (L : Fmt.Lib) (debug : Bool) (text : Place → Str) (exp : Str) (n : Int64) :
    Option (List Str × (Int64 × Option Plural.Error)) :=
  match Plural.commonsGet (GoStr.removeByte 32 exp) with
  | some f => some ([], (f n, none))
  | none => (parseText exp).map fun x =>
    let r := walkRD L debug text n [] x.1 []
    (r.1, match r.2 with
      | .ok s => (Plural.exitStart s, Plural.listenerErr L x.2)
      | .error p => Plural.recovered L p)

end Verif.Antlr
