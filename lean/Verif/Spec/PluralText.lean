import Verif.Spec.Plural
/-! # Texts of plural expressions: tokens with white space between them -/
namespace Verif.Plural

/-- Characters of an operator. -/
def Op.text : Op → Str
  | .mul => b!"*" | .div => b!"/" | .mod => b!"%" | .add => b!"+" | .sub => b!"-"
  | .shr => b!">>" | .shl => b!"<<" | .gt => b!">" | .lt => b!"<" | .ge => b!">=" | .le => b!"<="
  | .eq => b!"==" | .ne => b!"!=" | .band => b!"&" | .bxor => b!"^" | .bor => b!"|"
  | .land => b!"&&" | .lor => b!"||"

/-- Characters of a token (`bad` has none). -/
def Tok.text : Tok → Str
  | .n => b!"n" | .int ds => ds | .lp => b!"(" | .rp => b!")" | .quest => b!"?" | .colon => b!":"
  | .bang => b!"!" | .tilde => b!"~" | .inc => b!"++" | .dec => b!"--" | .op o => o.text
  | .bad => []

/-- A token that can be written: not `bad`, literals are non-empty digit strings. -/
def Writable : Tok → Prop
  | .int ds => ds ≠ [] ∧ ds.all Num.isDigit = true
  | .bad => False
  | _ => True

/-- Is the string white space of the grammar (blanks and tabs)? -/
def IsSep (s : Str) : Prop := ∀ c ∈ s, c = 32 ∨ c = 9

/-- Writing `u` directly after `t` does not form another token: two literals would merge, and a
one-character operator merges with a following character into a two-character one. -/
def Apart (t u : Tok) : Prop :=
  match t with
  | .int _ => ∀ ds, u ≠ .int ds
  | _ =>
    match t.text with
    | [c] => ∀ d ∈ u.text.head?, [c, d] ∉ [b!"++", b!"--", b!">>", b!"<<", b!">=", b!"<=", b!"==",
        b!"!=", b!"&&", b!"||"]
    | _ => True

/-- A text: tokens, each followed by white space, which may be empty only before a token that stays
apart. -/
def Spaced : List (Tok × Str) → Prop
  | [] => True
  | [(t, w)] => Writable t ∧ IsSep w
  | (t, w) :: (u, w') :: l =>
    Writable t ∧ IsSep w ∧ (w = [] → Apart t u) ∧ Spaced ((u, w') :: l)

/-- The characters of a text. -/
def textOf : List (Tok × Str) → Str
  | [] => []
  | (t, w) :: l => t.text ++ w ++ textOf l

end Verif.Plural
