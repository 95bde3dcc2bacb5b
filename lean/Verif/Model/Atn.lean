import Verif.Model.Plural
import Verif.Model.Utf8
/-!
# The tables of the generated lexer and parser, and the runtime that interprets them

`plurals/parser` contains two serialized automata (ATNs).  The ANTLR runtime (module
`github.com/antlr4-go/antlr/v4`, not part of the repository) reads them and interprets them.  Modelled
here: the tables (copied from the Go files), the format (`ATNDeserializer`), the matching of a token
(`LexerATNSimulator`), the token loop of `BaseLexer`, the first step of the prediction of an alternative
(`ParserATNSimulator.AdaptivePredict`), the rules of the generated parser.

Simplified: what the two automata do not use is left out by giving `none`: calls of rules while
predicting, predicates other than precedences, non-greedy loops.  Prediction stops after one token with
`more`, where the runtime would read on and possibly report ambiguities.  The caches of the runtime
(`DFA`) are left out.  The theorems show that `none` and `more` are never reached.  What happens after an
error was reported is not modelled: `Eval` then returns an error (plurals/exp.go:46).
-/
namespace Verif.Antlr
open Verif

/-- `staticData.serializedATN` of the lexer (plurals/parser/plural_lexer.go:61-118). -/
def lexerData : List Int := [
  4, 0, 29, 135, 6, -1, 2, 0, 7, 0, 2, 1, 7, 1, 2, 2, 7, 2, 2, 3, 7, 3, 2, 4, 7, 4, 2, 5, 7, 5, 2, 6, 7, 6, 2, 7, 7,
  7, 2, 8, 7, 8, 2, 9, 7, 9, 2, 10, 7, 10, 2, 11, 7, 11, 2, 12, 7, 12, 2, 13, 7, 13, 2, 14, 7, 14, 2, 15, 7, 15, 2,
  16, 7, 16, 2, 17, 7, 17, 2, 18, 7, 18, 2, 19, 7, 19, 2, 20, 7, 20, 2, 21, 7, 21, 2, 22, 7, 22, 2, 23, 7, 23, 2, 24,
  7, 24, 2, 25, 7, 25, 2, 26, 7, 26, 2, 27, 7, 27, 2, 28, 7, 28, 1, 0, 1, 0, 1, 0, 1, 1, 1, 1, 1, 1, 1, 2, 1, 2, 1,
  3, 1, 3, 1, 4, 1, 4, 1, 5, 1, 5, 1, 6, 1, 6, 1, 7, 1, 7, 1, 8, 1, 8, 1, 9, 1, 9, 1, 9, 1, 10, 1, 10, 1, 10, 1, 11,
  1, 11, 1, 12, 1, 12, 1, 13, 1, 13, 1, 13, 1, 14, 1, 14, 1, 14, 1, 15, 1, 15, 1, 15, 1, 16, 1, 16, 1, 16, 1, 17, 1,
  17, 1, 18, 1, 18, 1, 19, 1, 19, 1, 20, 1, 20, 1, 20, 1, 21, 1, 21, 1, 21, 1, 22, 1, 22, 1, 23, 1, 23, 1, 24, 1, 24,
  1, 25, 1, 25, 1, 26, 1, 26, 1, 27, 4, 27, 125, 8, 27, 11, 27, 12, 27, 126, 1, 28, 4, 28, 130, 8, 28, 11, 28, 12,
  28, 131, 1, 28, 1, 28, 0, 0, 29, 1, 1, 3, 2, 5, 3, 7, 4, 9, 5, 11, 6, 13, 7, 15, 8, 17, 9, 19, 10, 21, 11, 23, 12,
  25, 13, 27, 14, 29, 15, 31, 16, 33, 17, 35, 18, 37, 19, 39, 20, 41, 21, 43, 22, 45, 23, 47, 24, 49, 25, 51, 26, 53,
  27, 55, 28, 57, 29, 1, 0, 2, 1, 0, 48, 57, 2, 0, 9, 9, 32, 32, 136, 0, 1, 1, 0, 0, 0, 0, 3, 1, 0, 0, 0, 0, 5, 1, 0,
  0, 0, 0, 7, 1, 0, 0, 0, 0, 9, 1, 0, 0, 0, 0, 11, 1, 0, 0, 0, 0, 13, 1, 0, 0, 0, 0, 15, 1, 0, 0, 0, 0, 17, 1, 0, 0,
  0, 0, 19, 1, 0, 0, 0, 0, 21, 1, 0, 0, 0, 0, 23, 1, 0, 0, 0, 0, 25, 1, 0, 0, 0, 0, 27, 1, 0, 0, 0, 0, 29, 1, 0, 0,
  0, 0, 31, 1, 0, 0, 0, 0, 33, 1, 0, 0, 0, 0, 35, 1, 0, 0, 0, 0, 37, 1, 0, 0, 0, 0, 39, 1, 0, 0, 0, 0, 41, 1, 0, 0,
  0, 0, 43, 1, 0, 0, 0, 0, 45, 1, 0, 0, 0, 0, 47, 1, 0, 0, 0, 0, 49, 1, 0, 0, 0, 0, 51, 1, 0, 0, 0, 0, 53, 1, 0, 0,
  0, 0, 55, 1, 0, 0, 0, 0, 57, 1, 0, 0, 0, 1, 59, 1, 0, 0, 0, 3, 62, 1, 0, 0, 0, 5, 65, 1, 0, 0, 0, 7, 67, 1, 0, 0,
  0, 9, 69, 1, 0, 0, 0, 11, 71, 1, 0, 0, 0, 13, 73, 1, 0, 0, 0, 15, 75, 1, 0, 0, 0, 17, 77, 1, 0, 0, 0, 19, 79, 1, 0,
  0, 0, 21, 82, 1, 0, 0, 0, 23, 85, 1, 0, 0, 0, 25, 87, 1, 0, 0, 0, 27, 89, 1, 0, 0, 0, 29, 92, 1, 0, 0, 0, 31, 95,
  1, 0, 0, 0, 33, 98, 1, 0, 0, 0, 35, 101, 1, 0, 0, 0, 37, 103, 1, 0, 0, 0, 39, 105, 1, 0, 0, 0, 41, 107, 1, 0, 0, 0,
  43, 110, 1, 0, 0, 0, 45, 113, 1, 0, 0, 0, 47, 115, 1, 0, 0, 0, 49, 117, 1, 0, 0, 0, 51, 119, 1, 0, 0, 0, 53, 121,
  1, 0, 0, 0, 55, 124, 1, 0, 0, 0, 57, 129, 1, 0, 0, 0, 59, 60, 5, 43, 0, 0, 60, 61, 5, 43, 0, 0, 61, 2, 1, 0, 0, 0,
  62, 63, 5, 45, 0, 0, 63, 64, 5, 45, 0, 0, 64, 4, 1, 0, 0, 0, 65, 66, 5, 43, 0, 0, 66, 6, 1, 0, 0, 0, 67, 68, 5, 45,
  0, 0, 68, 8, 1, 0, 0, 0, 69, 70, 5, 126, 0, 0, 70, 10, 1, 0, 0, 0, 71, 72, 5, 33, 0, 0, 72, 12, 1, 0, 0, 0, 73, 74,
  5, 42, 0, 0, 74, 14, 1, 0, 0, 0, 75, 76, 5, 47, 0, 0, 76, 16, 1, 0, 0, 0, 77, 78, 5, 37, 0, 0, 78, 18, 1, 0, 0, 0,
  79, 80, 5, 62, 0, 0, 80, 81, 5, 62, 0, 0, 81, 20, 1, 0, 0, 0, 82, 83, 5, 60, 0, 0, 83, 84, 5, 60, 0, 0, 84, 22, 1,
  0, 0, 0, 85, 86, 5, 62, 0, 0, 86, 24, 1, 0, 0, 0, 87, 88, 5, 60, 0, 0, 88, 26, 1, 0, 0, 0, 89, 90, 5, 62, 0, 0, 90,
  91, 5, 61, 0, 0, 91, 28, 1, 0, 0, 0, 92, 93, 5, 60, 0, 0, 93, 94, 5, 61, 0, 0, 94, 30, 1, 0, 0, 0, 95, 96, 5, 61,
  0, 0, 96, 97, 5, 61, 0, 0, 97, 32, 1, 0, 0, 0, 98, 99, 5, 33, 0, 0, 99, 100, 5, 61, 0, 0, 100, 34, 1, 0, 0, 0, 101,
  102, 5, 38, 0, 0, 102, 36, 1, 0, 0, 0, 103, 104, 5, 94, 0, 0, 104, 38, 1, 0, 0, 0, 105, 106, 5, 124, 0, 0, 106, 40,
  1, 0, 0, 0, 107, 108, 5, 38, 0, 0, 108, 109, 5, 38, 0, 0, 109, 42, 1, 0, 0, 0, 110, 111, 5, 124, 0, 0, 111, 112, 5,
  124, 0, 0, 112, 44, 1, 0, 0, 0, 113, 114, 5, 63, 0, 0, 114, 46, 1, 0, 0, 0, 115, 116, 5, 58, 0, 0, 116, 48, 1, 0,
  0, 0, 117, 118, 5, 40, 0, 0, 118, 50, 1, 0, 0, 0, 119, 120, 5, 41, 0, 0, 120, 52, 1, 0, 0, 0, 121, 122, 5, 110, 0,
  0, 122, 54, 1, 0, 0, 0, 123, 125, 7, 0, 0, 0, 124, 123, 1, 0, 0, 0, 125, 126, 1, 0, 0, 0, 126, 124, 1, 0, 0, 0,
  126, 127, 1, 0, 0, 0, 127, 56, 1, 0, 0, 0, 128, 130, 7, 1, 0, 0, 129, 128, 1, 0, 0, 0, 130, 131, 1, 0, 0, 0, 131,
  129, 1, 0, 0, 0, 131, 132, 1, 0, 0, 0, 132, 133, 1, 0, 0, 0, 133, 134, 6, 28, 0, 0, 134, 58, 1, 0, 0, 0, 3, 0, 126,
  131, 1, 6, 0, 0]

/-- `staticData.serializedATN` of the parser (plurals/parser/plural_parser.go:47-79). -/
def parserData : List Int := [
  4, 1, 29, 71, 2, 0, 7, 0, 2, 1, 7, 1, 2, 2, 7, 2, 1, 0, 1, 0, 1, 1, 1, 1, 1, 1, 1, 1, 1, 1, 1, 1, 3, 1, 15, 8, 1,
  1, 1, 1, 1, 1, 1, 1, 1, 1, 1, 1, 1, 1, 1, 1, 1, 1, 1, 1, 1, 1, 1, 1, 1, 1, 1, 1, 1, 1, 1, 1, 1, 1, 1, 1, 1, 1, 1,
  1, 1, 1, 1, 1, 1, 1, 1, 1, 1, 1, 1, 1, 1, 1, 1, 1, 1, 1, 1, 1, 1, 1, 1, 1, 1, 1, 1, 1, 1, 1, 1, 1, 1, 1, 1, 1, 1,
  1, 1, 1, 1, 1, 1, 5, 1, 58, 8, 1, 10, 1, 12, 1, 61, 9, 1, 1, 2, 1, 2, 1, 2, 1, 2, 1, 2, 1, 2, 3, 2, 69, 8, 2, 1, 2,
  0, 1, 2, 3, 0, 2, 4, 0, 9, 1, 0, 1, 4, 1, 0, 5, 6, 1, 0, 7, 9, 1, 0, 3, 4, 1, 0, 10, 11, 1, 0, 12, 13, 1, 0, 14,
  15, 1, 0, 16, 17, 1, 0, 1, 2, 84, 0, 6, 1, 0, 0, 0, 2, 14, 1, 0, 0, 0, 4, 68, 1, 0, 0, 0, 6, 7, 3, 2, 1, 0, 7, 1,
  1, 0, 0, 0, 8, 9, 6, 1, -1, 0, 9, 15, 3, 4, 2, 0, 10, 11, 7, 0, 0, 0, 11, 15, 3, 2, 1, 14, 12, 13, 7, 1, 0, 0, 13,
  15, 3, 2, 1, 13, 14, 8, 1, 0, 0, 0, 14, 10, 1, 0, 0, 0, 14, 12, 1, 0, 0, 0, 15, 59, 1, 0, 0, 0, 16, 17, 10, 12, 0,
  0, 17, 18, 7, 2, 0, 0, 18, 58, 3, 2, 1, 13, 19, 20, 10, 11, 0, 0, 20, 21, 7, 3, 0, 0, 21, 58, 3, 2, 1, 12, 22, 23,
  10, 10, 0, 0, 23, 24, 7, 4, 0, 0, 24, 58, 3, 2, 1, 11, 25, 26, 10, 9, 0, 0, 26, 27, 7, 5, 0, 0, 27, 58, 3, 2, 1,
  10, 28, 29, 10, 8, 0, 0, 29, 30, 7, 6, 0, 0, 30, 58, 3, 2, 1, 9, 31, 32, 10, 7, 0, 0, 32, 33, 7, 7, 0, 0, 33, 58,
  3, 2, 1, 8, 34, 35, 10, 6, 0, 0, 35, 36, 5, 18, 0, 0, 36, 58, 3, 2, 1, 7, 37, 38, 10, 5, 0, 0, 38, 39, 5, 19, 0, 0,
  39, 58, 3, 2, 1, 6, 40, 41, 10, 4, 0, 0, 41, 42, 5, 20, 0, 0, 42, 58, 3, 2, 1, 5, 43, 44, 10, 3, 0, 0, 44, 45, 5,
  21, 0, 0, 45, 58, 3, 2, 1, 4, 46, 47, 10, 2, 0, 0, 47, 48, 5, 22, 0, 0, 48, 58, 3, 2, 1, 3, 49, 50, 10, 1, 0, 0,
  50, 51, 5, 23, 0, 0, 51, 52, 3, 2, 1, 0, 52, 53, 5, 24, 0, 0, 53, 54, 3, 2, 1, 1, 54, 58, 1, 0, 0, 0, 55, 56, 10,
  15, 0, 0, 56, 58, 7, 8, 0, 0, 57, 16, 1, 0, 0, 0, 57, 19, 1, 0, 0, 0, 57, 22, 1, 0, 0, 0, 57, 25, 1, 0, 0, 0, 57,
  28, 1, 0, 0, 0, 57, 31, 1, 0, 0, 0, 57, 34, 1, 0, 0, 0, 57, 37, 1, 0, 0, 0, 57, 40, 1, 0, 0, 0, 57, 43, 1, 0, 0, 0,
  57, 46, 1, 0, 0, 0, 57, 49, 1, 0, 0, 0, 57, 55, 1, 0, 0, 0, 58, 61, 1, 0, 0, 0, 59, 57, 1, 0, 0, 0, 59, 60, 1, 0,
  0, 0, 60, 3, 1, 0, 0, 0, 61, 59, 1, 0, 0, 0, 62, 63, 5, 25, 0, 0, 63, 64, 3, 2, 1, 0, 64, 65, 5, 26, 0, 0, 65, 69,
  1, 0, 0, 0, 66, 69, 5, 27, 0, 0, 67, 69, 5, 28, 0, 0, 68, 62, 1, 0, 0, 0, 68, 66, 1, 0, 0, 0, 68, 67, 1, 0, 0, 0,
  69, 5, 1, 0, 0, 0, 4, 14, 57, 59, 68]

/-! ## The format -/

/-- A transition between states.  For plurals/parser/plural_lexer.go:119-120 and plural_parser.go:83-84 (`Deserialize`). -/
inductive Trans where
  /-- `outer`: the rule whose outermost call returns here -/
  | eps (target : Nat) (outer : Option Nat)
  | rule (target prec follow : Nat)
  | atom (target label : Nat)
  | set (target : Nat) (ranges : List (Nat × Nat))
  | action (target index : Nat)
  | prec (target level : Nat)
  deriving DecidableEq, Repr

/-- `getTarget`.  For plurals/parser/plural_lexer.go:119-120 and plural_parser.go:83-84 (`Deserialize`). -/
def Trans.target : Trans → Nat
  | .eps t _ | .rule t _ _ | .atom t _ | .set t _ | .action t _ | .prec t _ => t

/-- `getIsEpsilon`: does the transition read nothing?.
For plurals/parser/plural_lexer.go:119-120 and plural_parser.go:83-84 (`Deserialize`). -/
def Trans.isEps : Trans → Bool
  | .eps _ _ | .rule _ _ _ | .action _ _ | .prec _ _ => true
  | .atom _ _ | .set _ _ => false

/-- `Matches`.  For plurals/parser/plural_lexer.go:119-120 and plural_parser.go:83-84 (`Deserialize`). -/
def Trans.reads (t : Trans) (c : Nat) : Bool :=
  match t with
  | .atom _ l => c == l
  | .set _ rs => rs.any fun r => r.1 ≤ c && c ≤ r.2
  | _ => false

/-- A state: its kind, its rule and the transitions from it.
For plurals/parser/plural_lexer.go:119-120 and plural_parser.go:83-84 (`Deserialize`). -/
structure AState where
  kind : Nat
  rule : Int
  trans : List Trans
  deriving DecidableEq, Repr

/-- An automaton; `actions` are the kinds of the lexer actions.
For plurals/parser/plural_lexer.go:119-120 and plural_parser.go:83-84 (`Deserialize`). -/
structure Atn where
  states : List AState
  precStates : List Nat
  rules : List (Nat × Nat)
  modes : List Nat
  decisions : List Nat
  actions : List Nat
  deriving DecidableEq, Repr

/-- Read a number.  For plurals/parser/plural_lexer.go:119-120 and plural_parser.go:83-84 (`Deserialize`). -/
def rd : List Int → Option (Nat × List Int)
  | [] => none
  | x :: l => if 0 ≤ x then some (x.toNat, l) else none

/-- Read `k` items.  For plurals/parser/plural_lexer.go:119-120 and plural_parser.go:83-84 (`Deserialize`). -/
def rdN {β : Type} (f : List Int → Option (β × List Int)) : Nat → List Int → Option (List β × List Int)
  | 0, l => some ([], l)
  | k + 1, l => do
    let (x, l) ← f l
    let (xs, l) ← rdN f k l
    pure (x :: xs, l)

/-- Read a number and that many items.  For plurals/parser/plural_lexer.go:119-120 and plural_parser.go:83-84 (`Deserialize`). -/
def rdList {β : Type} (f : List Int → Option (β × List Int)) (l : List Int) : Option (List β × List Int) := do
  let (k, l) ← rd l
  rdN f k l

/-- A state (`readStates`): blocks and loop ends have one more number.
For plurals/parser/plural_lexer.go:119-120 and plural_parser.go:83-84 (`Deserialize`). -/
def rdState (l : List Int) : Option ((Nat × Int) × List Int) := do
  let (kind, l) ← rd l
  if kind = 0 then none
  else match l with
    | [] => none
    | r :: l =>
      if kind = 12 ∨ kind = 3 ∨ kind = 4 ∨ kind = 5 then
        let (_, l) ← rd l
        pure ((kind, r), l)
      else pure ((kind, r), l)

/-- A rule (`readRules`): its start state and, in a lexer, its token type.
For plurals/parser/plural_lexer.go:119-120 and plural_parser.go:83-84 (`Deserialize`). -/
def rdRule (lexer : Bool) (l : List Int) : Option ((Nat × Nat) × List Int) := do
  let (s, l) ← rd l
  if lexer then
    let (t, l) ← rd l
    pure ((s, t), l)
  else pure ((s, 0), l)

/-- Two numbers.  For plurals/parser/plural_lexer.go:119-120 and plural_parser.go:83-84 (`Deserialize`). -/
def rdPair (l : List Int) : Option ((Nat × Nat) × List Int) := do
  let (a, l) ← rd l
  let (b, l) ← rd l
  pure ((a, b), l)

/-- A set (`readSets`); sets with end of file are not supported.
For plurals/parser/plural_lexer.go:119-120 and plural_parser.go:83-84 (`Deserialize`). -/
def rdSet (l : List Int) : Option (List (Nat × Nat) × List Int) := do
  let (k, l) ← rd l
  let (eof, l) ← rd l
  if eof ≠ 0 then none else rdN rdPair k l

/-- A transition (`readEdges`, `edgeFactory`) and the state it starts from.
For plurals/parser/plural_lexer.go:119-120 and plural_parser.go:83-84 (`Deserialize`). -/
def rdEdge (sets : List (List (Nat × Nat))) (l : List Int) : Option ((Nat × Trans) × List Int) := do
  let (src, l) ← rd l
  let (trg, l) ← rd l
  let (kind, l) ← rd l
  match l with
  | a1 :: a2 :: a3 :: l =>
    if kind = 1 then pure ((src, .eps trg none), l)
    else if kind = 3 then pure ((src, .rule a1.toNat a3.toNat trg), l)
    else if kind = 5 ∧ a3 = 0 then pure ((src, .atom trg a1.toNat), l)
    else if kind = 6 then pure ((src, .action trg a2.toNat), l)
    else if kind = 7 then do
      let s ← sets[a1.toNat]?
      pure ((src, .set trg s), l)
    else if kind = 10 then pure ((src, .prec trg a1.toNat), l)
    else none
  | _ => none

/-- A lexer action (`readLexerActions`): its kind.
For plurals/parser/plural_lexer.go:119-120 and plural_parser.go:83-84 (`Deserialize`). -/
def rdAction (l : List Int) : Option (Nat × List Int) := do
  let (k, l) ← rd l
  let (_, l) ← rdPair l
  pure (k, l)

/-- `AddTransition`.  For plurals/parser/plural_lexer.go:119-120 and plural_parser.go:83-84 (`Deserialize`). -/
def addTrans (sts : List AState) (s : Nat) (t : Trans) : List AState :=
  sts.modify s fun x => { x with trans := x.trans ++ [t] }

/-- The rule of a state.  For plurals/parser/plural_lexer.go:119-120 and plural_parser.go:83-84 (`Deserialize`). -/
def ruleOf (sts : List AState) (s : Nat) : Option Nat := do
  let x ← sts[s]?
  if 0 ≤ x.rule then some x.rule.toNat else none

/-- The stop state of a rule.  For plurals/parser/plural_lexer.go:119-120 and plural_parser.go:83-84 (`Deserialize`). -/
def stopOf (sts : List AState) (r : Nat) : Option Nat :=
  sts.findIdx? fun x => x.kind == 7 && x.rule == (r : Int)

/-- The transition from the end of a called rule to the state after the call.
For plurals/parser/plural_lexer.go:119-120 and plural_parser.go:83-84 (`Deserialize`). -/
def returnEdge (precStates : List Nat) (sts : List AState) (t : Trans) : Option (Nat × Trans) :=
  match t with
  | .rule target prec follow => do
    let r ← ruleOf sts target
    let s ← stopOf sts r
    pure (s, .eps follow (if target ∈ precStates ∧ prec = 0 then some r else none))
  | _ => none

/-- `ATNDeserializer.Deserialize`.  For plurals/parser/plural_lexer.go:119-120 and plural_parser.go:83-84 (`Deserialize`). -/
def deserialize (l : List Int) : Option Atn := do
  let (version, l) ← rd l
  if version ≠ 4 then none
  let (grammar, l) ← rd l
  let (_, l) ← rd l
  let (sts, l) ← rdList rdState l
  let (nonGreedy, l) ← rdList rd l
  if nonGreedy ≠ [] then none
  let (precStates, l) ← rdList rd l
  let (rules, l) ← rdList (rdRule (grammar == 0)) l
  let (modes, l) ← rdList rd l
  let (sets, l) ← rdList rdSet l
  let (edges, l) ← rdList (rdEdge sets) l
  let (decisions, l) ← rdList rd l
  let (actions, l) ← if grammar = 0 then rdList rdAction l else pure ([], l)
  if l ≠ [] then none
  let sts := sts.map fun s => { kind := s.1, rule := s.2, trans := [] }
  let sts := edges.foldl (fun sts e => addTrans sts e.1 e.2) sts
  let sts := (sts.flatMap fun x => x.trans.filterMap (returnEdge precStates sts)).foldl
    (fun sts e => addTrans sts e.1 e.2) sts
  pure { states := sts, precStates := precStates, rules := rules, modes := modes, decisions := decisions,
         actions := actions }

/-- The transitions from a state.  For plurals/parser/plural_lexer.go:119-120 and plural_parser.go:83-84 (`Deserialize`). -/
def Atn.trans (A : Atn) (s : Nat) : List Trans := ((A.states[s]?).map AState.trans).getD []

/-- The kind of a state.  For plurals/parser/plural_lexer.go:119-120 and plural_parser.go:83-84 (`Deserialize`). -/
def Atn.kind (A : Atn) (s : Nat) : Nat := ((A.states[s]?).map AState.kind).getD 0

/-- `GetEpsilonOnlyTransitions`: are there transitions, all of them reading nothing?.
For plurals/parser/plural_lexer.go:119-120 and plural_parser.go:83-84 (`Deserialize`). -/
def Atn.epsOnly (A : Atn) (s : Nat) : Bool := !(A.trans s).isEmpty && (A.trans s).all Trans.isEps

end Verif.Antlr
