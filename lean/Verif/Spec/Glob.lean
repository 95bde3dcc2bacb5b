import Verif.Spec.Literal
import Verif.Spec.Path
/-!
# Patterns for file names

How patterns are written, which names fit them, and which paths a pattern stands for.
-/
namespace Verif.Glob
open Verif Verif.Literal

/-- What a pattern consists of: any number of bytes, one character, a certain byte, a character in one of some
ranges or in none of them. -/
inductive Piece where
  | star
  | one
  | byte (c : UInt8)
  | set (neg : Bool) (ranges : List (Char × Char))

/-- A character in a set is written as it is or behind a backslash. -/
inductive SetChar : Str → Char → Prop
  | plain (ch : Char) : ch ≠ '-' → ch ≠ ']' → ch ≠ '\\' → SetChar (utf8 ch) ch
  | escaped (ch : Char) : SetChar (92 :: utf8 ch) ch

/-- A range in a set, or a single character. -/
inductive Range : Str → Char × Char → Prop
  | char {s : Str} {a : Char} : SetChar s a → Range s (a, a)
  | range {s t : Str} {a b : Char} : SetChar s a → SetChar t b → Range (s ++ 45 :: t) (a, b)

/-- The ranges of a set, at least one. -/
inductive Ranges : Str → List (Char × Char) → Prop
  | last {s : Str} {r : Char × Char} : Range s r → Ranges s [r]
  | cons {s t : Str} {r : Char × Char} {rs : List (Char × Char)} : Range s r → Ranges t rs → Ranges (s ++ t) (r :: rs)

/-- How a pattern is written. -/
inductive Pattern : Str → List Piece → Prop
  | nil : Pattern [] []
  | star {p : Str} {ps : List Piece} : Pattern p ps → Pattern (42 :: p) (.star :: ps)
  | one {p : Str} {ps : List Piece} : Pattern p ps → Pattern (63 :: p) (.one :: ps)
  | byte {c : UInt8} {p : Str} {ps : List Piece} : c ≠ 42 → c ≠ 63 → c ≠ 91 → c ≠ 92 → Pattern p ps → Pattern (c :: p) (.byte c :: ps)
  | escaped {c : UInt8} {p : Str} {ps : List Piece} : Pattern p ps → Pattern (92 :: c :: p) (.byte c :: ps)
  | set {s p : Str} {rs : List (Char × Char)} {ps : List Piece} : Ranges s rs → s.head? ≠ some 94 → Pattern p ps →
      Pattern (91 :: s ++ 93 :: p) (.set false rs :: ps)
  | negated {s p : Str} {rs : List (Char × Char)} {ps : List Piece} : Ranges s rs → Pattern p ps →
      Pattern (91 :: 94 :: s ++ 93 :: p) (.set true rs :: ps)

/-- The text begins with this character: `w` are its bytes, `n` is its number.  Unless `exact`, a byte that begins no
character is taken for U+FFFD. -/
inductive Begins (exact : Bool) : Str → Str → Nat → Prop
  | char (ch : Char) (s : Str) : Begins exact (utf8 ch ++ s) (utf8 ch) ch.toNat
  | bad (b : UInt8) (s : Str) : exact = false → (∀ ch t, b :: s ≠ utf8 ch ++ t) → Begins exact (b :: s) [b] 0xFFFD

/-- The name fits the pattern.  If `exact`, `?` and sets stand for characters, otherwise also for bytes that begin no
character. -/
inductive Fits (exact : Bool) : List Piece → Str → Prop
  | nil : Fits exact [] []
  | star {a s : Str} {ps : List Piece} : 47 ∉ a → Fits exact ps s → Fits exact (.star :: ps) (a ++ s)
  | one {w s : Str} {n : Nat} {ps : List Piece} : Begins exact (w ++ s) w n → n ≠ 47 → Fits exact ps s → Fits exact (.one :: ps) (w ++ s)
  | byte {c : UInt8} {s : Str} {ps : List Piece} : Fits exact ps s → Fits exact (.byte c :: ps) (c :: s)
  | set {neg : Bool} {rs : List (Char × Char)} {w s : Str} {n : Nat} {ps : List Piece} : Begins exact (w ++ s) w n →
      (neg = false ↔ ∃ r ∈ rs, r.1.toNat ≤ n ∧ n ≤ r.2.toNat) → Fits exact ps s → Fits exact (.set neg rs :: ps) (w ++ s)

end Verif.Glob
