import Verif.Spec.Viable
import Verif.Spec.AtnRecover
import Verif.Model.AtnRecover
/-!
# Specification vocabulary: the first syntax error of a text

The items are those of the lexer: tokens and characters that are not part of one.
-/
namespace Verif.Antlr
open Verif

/-- The tokens of plurals/plural.g4 by type, from one on; type 28 is INT. -/
def tokenTypes : List Plural.Tok := [.inc, .dec, .op .add, .op .sub, .tilde, .bang, .op .mul, .op .div, .op .mod, .op .shr,
  .op .shl, .op .gt, .op .lt, .op .ge, .op .le, .op .eq, .op .ne, .op .band, .op .bxor, .op .bor, .op .land, .op .lor,
  .quest, .colon, .lp, .rp, .n]

/-- The token of an item. -/
def Elem.token : Elem → Plural.Tok
  | .bad _ _ _ => .bad
  | .tok ty w _ _ => if ty = 28 then .int (w.map UInt8.ofNat) else (tokenTypes[ty - 1]?).getD .bad

/-- The characters are not part of a token. -/
def Elem.isBad : Elem → Bool
  | .bad _ _ _ => true
  | .tok _ _ _ _ => false

/-- The first of some items is not an error of the lexer. -/
def Clear (es : List Elem) : Prop := ∀ e ∈ es.head?, e.isBad = false

/-- What the lexer says about an item. -/
def Elem.complaint : Elem → List Plural.Report
  | .bad l c w => [.syntaxError l c (b!"token recognition error at: '" ++ w.flatMap Utf8.encode ++ b!"'")]
  | .tok _ _ _ _ => []

/-- The position of the first of some items, or of the end. -/
def placeOf (eof : Nat × Nat) : List Elem → Nat × Nat
  | [] => eof
  | .tok _ _ l c :: _ => (l, c)
  | .bad l c _ :: _ => (l, c)

/-- How the first of some items is written in a message. -/
def quoted : List Elem → Str
  | .tok _ w _ _ :: _ => b!"'" ++ w.flatMap Utf8.encode ++ b!"'"
  | _ => b!"'<EOF>'"

/-- A token begins with the characters. -/
def Begins (w : List Nat) : Prop := ∃ type v, Lexeme type v ∧ w <+: v

/-- How the text behind `before` is cut into items: always the longest token, without spaces; where there is none, up to the first character
with which no token goes on. -/
inductive Stream : List Nat → List Nat → List Elem → Prop where
  | nil {before : List Nat} : Stream before [] []
  | tok {before : List Nat} {type : Nat} {w r : List Nat} {es : List Elem} : Longest type w (w ++ r) → type ≠ 29 →
      Stream (before ++ w) r es → Stream before (w ++ r) (.tok type w (lineOf before) (columnOf before) :: es)
  | skip {before w r : List Nat} {es : List Elem} : Longest 29 w (w ++ r) → Stream (before ++ w) r es → Stream before (w ++ r) es
  | bad {before w r : List Nat} {es : List Elem} : w ≠ [] → (∀ type v, Lexeme type v → ¬v <+: w ++ r) → Begins w.dropLast →
      (Begins w → r = []) → Stream (before ++ w) r es → Stream before (w ++ r) (.bad (lineOf before) (columnOf before) w :: es)

/-- The first report about the items `es`, of which the tokens `pre` are in front.  An expression begins with `pre` and the items `ds`.  What
follows is an error of the lexer, and this is reported; or it is a token, or the end, with which no expression goes on, and this is reported
in terms of the next token behind it, after the errors of the lexer that are between them (`bads`). -/
def First (eof : Nat × Nat) (pre : List Plural.Tok) (es : List Elem) (reports : List Plural.Report) : Prop :=
  ∃ ds rem, es = ds ++ rem ∧ Plural.Viable (pre ++ ds.map Elem.token) ∧
    ((∃ l c w r, rem = .bad l c w :: r ∧ (Elem.bad l c w).complaint <+: reports) ∨
     (Clear rem ∧ ¬Plural.Complete (pre ++ ds.map Elem.token) ∧
      (∀ x ∈ rem.head?, ¬Plural.Viable (pre ++ ds.map Elem.token ++ [x.token])) ∧
      ∃ bads next msg, rem.drop 1 = bads ++ next ∧ (∀ b ∈ bads, b.isBad = true) ∧ Clear next ∧
        Plural.Says (pre ++ ds.map Elem.token) (rem.head?.map Elem.token) (next.head?.map Elem.token) (quoted rem) msg ∧
        bads.flatMap Elem.complaint ++ [.syntaxError (placeOf eof rem).1 (placeOf eof rem).2 msg] <+: reports))

end Verif.Antlr
