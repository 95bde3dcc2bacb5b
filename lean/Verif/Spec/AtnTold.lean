import Verif.Spec.AtnFirst
import Mathlib.Data.List.Forall2
/-!
# Specification vocabulary: all reports about a text
-/
namespace Verif.Antlr
open Verif

/-- The third list is made of the other two, each in its order. -/
inductive Shuffle {α : Type} : List α → List α → List α → Prop where
  | nil : Shuffle [] [] []
  | left {x : α} {a b c : List α} : Shuffle a b c → Shuffle (x :: a) b (x :: c)
  | right {x : α} {a b c : List α} : Shuffle a b c → Shuffle a (x :: b) (x :: c)

/-- What the parser says about an item, which is written `d`. -/
def Phrase (d msg : Str) : Prop := ∃ want : Plural.Want,
  msg = b!"extraneous input " ++ d ++ b!" expecting " ++ want.names ∨
  (want ≠ .operand ∧ msg = b!"missing " ++ want.names ++ b!" at " ++ d) ∨
  msg = b!"mismatched input " ++ d ++ b!" expecting " ++ want.names

/-- The parser complains about item number `i`, a token, or about the end. -/
def Complains (eof : Nat × Nat) (es : List Elem) (i : Nat) (r : Plural.Report) : Prop := i ≤ es.length ∧ Clear (es.drop i) ∧
  ∃ msg, Phrase (quoted (es.drop i)) msg ∧ r = .syntaxError (placeOf eof (es.drop i)).1 (placeOf eof (es.drop i)).2 msg

/-- The reports are the lexer's about the first `k` items, in order, and the parser's, each about a token behind the one of the last; the
parser does not complain about a token before the lexer has complained about what is in front of it. -/
def Told (eof : Nat × Nat) (es : List Elem) (reports : List Plural.Report) : Prop := ∃ k is parser, is.Pairwise (· < ·) ∧ (∀ i ∈ is, i ≤ k) ∧
  List.Forall₂ (Complains eof es) is parser ∧ Shuffle ((es.take k).flatMap Elem.complaint) parser reports

end Verif.Antlr
