import Verif.Spec.PluralText
import Verif.Model.PluralDebug
/-!
# Specification vocabulary for what an evaluation with a debug context prints

Of the model only the type of the outcome is used.  There is no stack here: a line shows the values of the operands that wait for their
operator, then those of the operands at hand.
-/
namespace Verif.Plural
open Verif

/-- A number in decimal digits. -/
def inDecimal (x : Int64) : Str := if x.toInt < 0 then b!"-" ++ Num.natDigits x.toInt.natAbs else Num.natDigits x.toInt.natAbs

/-- Numbers in brackets. -/
def numbers (l : List Int64) : Str := b!"[" ++ List.intercalate b!" " (l.map inDecimal) ++ b!"]"

/-- The characters of an expression, without white space. -/
def chars (e : Exp) : Str := (toks e).flatMap Tok.text

/-- The lines for an expression whose value is `out` (`none`: there is none, the evaluation ends there), the operands `below` waiting. -/
inductive Trace (n : Int64) : List Int64 → Exp → List Str → Option Int64 → Prop
  | n (below : List Int64) : Trace n below .n [b!"primary: n stack=" ++ numbers (below ++ [n]) ++ b!"\n"] (some n)
  | int {below : List Int64} {ds : Str} {v : Int64} : litVal ds = some v →
      Trace n below (.int ds) [b!"primary: " ++ ds ++ b!" stack=" ++ numbers (below ++ [v]) ++ b!"\n"] (some v)
  | big {below : List Int64} {ds : Str} : litVal ds = none → Trace n below (.int ds) [] none
  | paren {below : List Int64} {e : Exp} {ls : List Str} {v : Int64} : Trace n below e ls (some v) →
      Trace n below (.paren e) (ls ++ [b!"primary: (exp) stack=" ++ numbers (below ++ [v]) ++ b!"\n",
        b!"primary: (" ++ chars e ++ b!") stack=" ++ numbers (below ++ [v]) ++ b!"\n"]) (some v)
  | paren' {below : List Int64} {e : Exp} {ls : List Str} : Trace n below e ls none → Trace n below (.paren e) ls none
  | post {below : List Int64} {o : Post} {e : Exp} {ls : List Str} {v : Int64} : Trace n below e ls (some v) →
      Trace n below (.post o e) (ls ++ [b!"postfix: " ++ o.tok.text ++ b!" stack=" ++ numbers (below ++ [v]) ++ b!"\n"])
        (some (postVal o v))
  | post' {below : List Int64} {o : Post} {e : Exp} {ls : List Str} : Trace n below e ls none → Trace n below (.post o e) ls none
  | pre {below : List Int64} {o : Pre} {e : Exp} {ls : List Str} {v : Int64} : Trace n below e ls (some v) →
      Trace n below (.pre o e) (ls ++ [b!"prefix: " ++ o.tok.text ++ b!" stack=" ++ numbers (below ++ [v]) ++ b!"\n"])
        (some (preVal o v))
  | pre' {below : List Int64} {o : Pre} {e : Exp} {ls : List Str} : Trace n below e ls none → Trace n below (.pre o e) ls none
  | bin {below : List Int64} {o : Op} {l r : Exp} {ls rs : List Str} {x y z : Int64} : Trace n below l ls (some x) →
      Trace n (below ++ [x]) r rs (some y) → opVal o x y = some z →
      Trace n below (.bin o l r) (ls ++ (rs ++ [b!"bop   : " ++ o.text ++ b!" stack=" ++ numbers (below ++ [x, y]) ++ b!"\n",
        b!"bop done stack=" ++ numbers (below ++ [z]) ++ b!"\n"])) (some z)
  | undefined {below : List Int64} {o : Op} {l r : Exp} {ls rs : List Str} {x y : Int64} : Trace n below l ls (some x) →
      Trace n (below ++ [x]) r rs (some y) → opVal o x y = none →
      Trace n below (.bin o l r) (ls ++ (rs ++ [b!"bop   : " ++ o.text ++ b!" stack=" ++ numbers (below ++ [x, y]) ++ b!"\n"])) none
  | left {below : List Int64} {o : Op} {l r : Exp} {ls : List Str} : Trace n below l ls none → Trace n below (.bin o l r) ls none
  | right {below : List Int64} {o : Op} {l r : Exp} {ls rs : List Str} {x : Int64} : Trace n below l ls (some x) →
      Trace n (below ++ [x]) r rs none → Trace n below (.bin o l r) (ls ++ rs) none
  | tern {below : List Int64} {c a b : Exp} {cs as bs : List Str} {x y z : Int64} : Trace n below c cs (some x) →
      Trace n (below ++ [x]) a as (some y) → Trace n (below ++ [x, y]) b bs (some z) →
      Trace n below (.tern c a b) (cs ++ (as ++ (bs ++ [b!"bop   : ? stack=" ++ numbers (below ++ [x, y, z]) ++ b!"\n",
        numbers (below ++ [x, y, z]) ++ b!"\n",
        b!"bop done stack=" ++ numbers (below ++ [if x = 1 then y else z]) ++ b!"\n"]))) (some (if x = 1 then y else z))
  | cond {below : List Int64} {c a b : Exp} {cs : List Str} : Trace n below c cs none → Trace n below (.tern c a b) cs none
  | first {below : List Int64} {c a b : Exp} {cs as : List Str} {x : Int64} : Trace n below c cs (some x) →
      Trace n (below ++ [x]) a as none → Trace n below (.tern c a b) (cs ++ as) none
  | second {below : List Int64} {c a b : Exp} {cs as bs : List Str} {x y : Int64} : Trace n below c cs (some x) →
      Trace n (below ++ [x]) a as (some y) → Trace n (below ++ [x, y]) b bs none →
      Trace n below (.tern c a b) (cs ++ (as ++ bs)) none

/-- How many lines there are for an expression that has a value. -/
def lineCount : Exp → Nat
  | .n | .int _ => 1
  | .paren e => lineCount e + 2
  | .post _ e | .pre _ e => lineCount e + 1
  | .bin _ l r => lineCount l + lineCount r + 2
  | .tern c a b => lineCount c + lineCount a + lineCount b + 3

end Verif.Plural
