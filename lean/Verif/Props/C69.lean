import Verif.Lemmas.AtnParser
/-!
# C69  The parser's tables say what the grammar file says; one token is enough

The generated parser asks the ANTLR runtime twice: whether to go on with an operator (decision 2), and with
which alternative (decision 1).  The runtime answers by interpreting a table of numbers
(plurals/parser/plural_parser.go:47-79).  For every precedence and every next token the answer is found by
looking at that token only, and it is the one that follows from the order of the alternatives in
plurals/plural.g4.  So the runtime never reports an ambiguity, never switches to full context, and never
meets an error of the lexer behind the next token.
-/
namespace Verif.Antlr
open Verif

/-- The tables can be read, and the two decisions are at these states. -/
theorem C69_tables : ∃ A, deserialize parserData = some A ∧ A.decisions[2]? = some 59 ∧ A.decisions[1]? = some 57 :=
  ⟨parAtn, parser_deserialize, rfl, rfl⟩

/-- **C69** Whether to go on: exactly if the token is an operator of at least the current precedence. -/
theorem C69_whether (p : Nat) (t : Option Nat) {A : Atn} (hA : deserialize parserData = some A) {d : Nat}
    (hd : A.decisions[2]? = some d) : predict A p d t = some (.alt (if Continues p t then 1 else 2)) := by
  rw [parser_deserialize] at hA
  cases hA
  cases hd
  exact predict_59 p t

/-- **C69** How to go on: with the alternative that has the operator.  The parser only asks this if the answer
to the first question was to go on. -/
theorem C69_how (p type i : Nat) (h : goesOn type = some i) (hp : p ≤ levelAt i) {A : Atn}
    (hA : deserialize parserData = some A) {d : Nat} (hd : A.decisions[1]? = some d) :
    predict A p d (some type) = some (.alt (loopAlt i)) := by
  rw [parser_deserialize] at hA
  cases hA
  cases hd
  have := predict_57 p (some type)
  rw [if_pos ⟨type, i, rfl, h, hp⟩] at this
  rw [this, Option.bind_some, h]; rfl

/-- **C69** Neither decision ever needs a second token. -/
theorem C69_one_token (p : Nat) (t : Option Nat) {A : Atn} (hA : deserialize parserData = some A) {k d : Nat}
    (hk : k = 1 ∨ k = 2) (hd : A.decisions[k]? = some d) : ∃ r, predict A p d t = some r ∧ r ≠ .more := by
  rw [parser_deserialize] at hA
  cases hA
  rcases hk with rfl | rfl
  · cases hd
    refine ⟨_, predict_57 p t, ?_⟩
    by_cases h : Continues p t
    · rw [if_pos h]; simp
    · rw [if_neg h]; simp
  · cases hd
    exact ⟨_, predict_59 p t, by simp⟩

/-- The alternatives of the generated loop: twelve binary ones (the last is `? :`), then the postfix one. -/
theorem C69_loopAlt : ∀ i < 16, alternatives[i]? ≠ some [] → loopAlt i ∈ List.range' 1 13 := by decide

/-! ## Examples -/

/-- Within an operand of `*` (precedence 13), `+` ends it; within one of `+` (precedence 12), `*` goes on. -/
example : ¬Continues 13 (some 3) ∧ Continues 12 (some 7) := by decide +kernel

/-- Table and grammar: `*` is alternative 5 of the grammar (counted from 1) and alternative 1 of the loop. -/
example : goesOn 7 = some 4 ∧ levelAt 4 = 12 ∧ loopAlt 4 = 1 := by decide +kernel

example : predict parAtn 12 57 (some 7) = some (.alt 1) := by decide +kernel

/-- A closing parenthesis, a number or the end of the text: never go on. -/
example : ∀ t ∈ [none, some 26, some 28], ¬Continues 0 t := by decide +kernel

end Verif.Antlr
