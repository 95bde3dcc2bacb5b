import Verif.Spec.PluralGaps
import Verif.Spec.PluralDebug
import Verif.Model.AtnDebug
/-!
# Specification vocabulary for what is printed about an expression with gaps

A calculator in postfix notation that keeps a log.  Of the model only the types of trees and of places in them are used.
-/
namespace Verif.Antlr
open Verif

/-- A step of the calculator with what is logged about it. -/
inductive Act where
  | num (text : Str) (x : Int64)
  | big
  | close (text : Str)
  | plus
  | pre (o : Plural.Pre)
  | post (o : Plural.Post)
  | bin (o : Plural.Op)
  | cond
  deriving DecidableEq

/-- The tree in postfix notation, without a trace of what is missing; `text` says what stands in parentheses. -/
def Tree.acts (text : Place → Str) (n : Int64) : Place → Tree → List Act
  | _, .hole => []
  | _, .n => [.num b!"n" n]
  | _, .int ds =>
    match Plural.litVal ds with
    | some x => [.num ds x]
    | none => [.big]
  | p, .paren e => e.acts text n (0 :: p) ++ [.close (text p)]
  | p, .post o e => e.acts text n (0 :: p) ++ [.post o]
  | p, .pre .plus e => e.acts text n (0 :: p) ++ [.plus]
  | p, .pre o e => e.acts text n (0 :: p) ++ [.pre o]
  | p, .bin o l r => l.acts text n (0 :: p) ++ (r.acts text n (1 :: p) ++ [.bin o])
  | p, .tern c a b => c.acts text n (0 :: p) ++ (a.acts text n (1 :: p) ++ (b.acts text n (2 :: p) ++ [.cond]))
  | p, .cut c a => c.acts text n (0 :: p) ++ (a.acts text n (1 :: p) ++ [.cond])

/-- A line of the log: what was met, and the numbers there are, the latest first in the list and last in the line. -/
def logLine (what : Str) (s : List Int64) : Str := what ++ b!" stack=" ++ Plural.numbers s.reverse ++ b!"\n"

/-- The log of the steps, beginning with these numbers (the latest first).  A number that is not there is 0; where a step has no result,
the log ends. -/
inductive Logs : List Int64 → List Act → List Str → Prop
  | done {s} : Logs s [] []
  | num {s r t x ls} : Logs (x :: s) r ls → Logs s (.num t x :: r) (logLine (b!"primary: " ++ t) (x :: s) :: ls)
  | big {s r} : Logs s (.big :: r) []
  | close {s r t ls} : Logs s r ls →
      Logs s (.close t :: r) (logLine b!"primary: (exp)" s :: logLine (b!"primary: " ++ t) s :: ls)
  | plus {s r ls} : Logs s r ls → Logs s (.plus :: r) (logLine b!"prefix: +" s :: ls)
  | pre {s r ls o} : Logs (Plural.preVal o (s.getD 0 0) :: s.drop 1) r ls →
      Logs s (.pre o :: r) (logLine (b!"prefix: " ++ o.tok.text) s :: ls)
  | post {s r ls o} : Logs (Plural.postVal o (s.getD 0 0) :: s.drop 1) r ls →
      Logs s (.post o :: r) (logLine (b!"postfix: " ++ o.tok.text) s :: ls)
  | bin {s r ls o x} : Plural.opVal o (s.getD 1 0) (s.getD 0 0) = some x → Logs (x :: s.drop 2) r ls →
      Logs s (.bin o :: r) (logLine (b!"bop   : " ++ o.text) s :: logLine b!"bop done" (x :: s.drop 2) :: ls)
  | undefined {s r o} : Plural.opVal o (s.getD 1 0) (s.getD 0 0) = none →
      Logs s (.bin o :: r) [logLine (b!"bop   : " ++ o.text) s]
  | cond {s r ls x} : x = (if s.getD 2 0 = 1 then s.getD 1 0 else s.getD 0 0) → Logs (x :: s.drop 3) r ls →
      Logs s (.cond :: r) (logLine b!"bop   : ?" s :: (Plural.numbers s.reverse ++ b!"\n") ::
        logLine b!"bop done" (x :: s.drop 3) :: ls)

/-- A text for each place of parentheses in a tree without gaps: the characters there. -/
def Verbatim (text : Place → Str) : Place → Plural.Exp → Prop
  | _, .n => True
  | _, .int _ => True
  | p, .paren e => text p = b!"(" ++ Plural.chars e ++ b!")" ∧ Verbatim text (0 :: p) e
  | p, .post _ e => Verbatim text (0 :: p) e
  | p, .pre _ e => Verbatim text (0 :: p) e
  | p, .bin _ l r => Verbatim text (0 :: p) l ∧ Verbatim text (1 :: p) r
  | p, .tern c a b => Verbatim text (0 :: p) c ∧ Verbatim text (1 :: p) a ∧ Verbatim text (2 :: p) b

end Verif.Antlr
