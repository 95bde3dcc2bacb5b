import Verif.Model.TmplLex
import Verif.Model.Quote
/-!
# Where the items of a template are written

The text of a template as a sequence of items and of what lies between them: white space that trim markers
remove, the trim markers themselves, and comments.  Nothing here refers to how the scanner works; of its
file only the names of the items are used.
-/
namespace Verif.Tmpl
open Verif

/-- The number of line breaks. -/
def lineBreaks (s : Str) : Nat := s.count 10

/-- White space of templates: space, tab, carriage return, newline. -/
def WhiteByte (c : UInt8) : Prop := c = 32 ∨ c = 9 ∨ c = 13 ∨ c = 10

/-- How the keywords are written. -/
def Kw.text : Kw → Str
  | .block => b!"block"
  | .brk => b!"break"
  | .cont => b!"continue"
  | .define => b!"define"
  | .els => b!"else"
  | .fin => b!"end"
  | .ifK => b!"if"
  | .range => b!"range"
  | .template => b!"template"
  | .withK => b!"with"

/-- The text of a word: no ASCII byte that is not a letter, a digit or an underscore. -/
def WordText (w : Str) : Prop :=
  ∀ x ∈ w, x.toNat < 128 → x = 95 ∨ (65 ≤ x ∧ x ≤ 90) ∨ (97 ≤ x ∧ x ≤ 122) ∨ (48 ≤ x ∧ x ≤ 57)

/-- The trim marker after a left delimiter. -/
def OpenMark (m : Str) : Prop := m = [] ∨ ∃ c, WhiteByte c ∧ m = [45, c]

/-- The trim marker before a right delimiter. -/
def CloseMark (m : Str) : Prop := m = [] ∨ ∃ c, WhiteByte c ∧ m = [c, 45]

section
variable (left right : Str)

/-- A text is the spelling of an item. -/
inductive Spelled : Tok → Str → Prop
  | text (s : Str) : s ≠ [] → Spelled (.text s) s
  | left : Spelled .left left
  | right : Spelled .right right
  | space (s : Str) : s ≠ [] → (∀ c ∈ s, WhiteByte c) → Spelled .space s
  | assign : Spelled .assign b!"="
  | declare : Spelled .declare b!":="
  | pipe : Spelled .pipe b!"|"
  | lparen : Spelled .lparen b!"("
  | rparen : Spelled .rparen b!")"
  | char (c : UInt8) : Spelled (.char c) [c]
  | str (s : Str) : Spelled (.str (b!"\"" ++ s ++ b!"\"")) (b!"\"" ++ s ++ b!"\"")
  | raw (s : Str) : 96 ∉ s → Spelled (.raw (b!"`" ++ s ++ b!"`")) (b!"`" ++ s ++ b!"`")
  | rune (s : Str) : Spelled (.rune (b!"'" ++ s ++ b!"'")) (b!"'" ++ s ++ b!"'")
  | num (s : Str) : Spelled (.num s) s
  | complex (s : Str) : Spelled (.complex s) s
  | var (w : Str) : WordText w → Spelled (.var (b!"$" ++ w)) (b!"$" ++ w)
  | field (w : Str) : WordText w → Spelled (.field (b!"." ++ w)) (b!"." ++ w)
  | dot : Spelled .dot b!"."
  | nil : Spelled .nil b!"nil"
  | bool (s : Str) : s = b!"true" ∨ s = b!"false" → Spelled .bool s
  | ident (w : Str) (known : Bool) : w ≠ [] → WordText w → Spelled (.ident w known) w
  | kw (k : Kw) : Spelled (.kw k) k.text

/-- What lies between two items. -/
inductive Between : Str → Prop
  | nil : Between []
  | blank {c : UInt8} {s : Str} : WhiteByte c → Between s → Between (c :: s)
  | opening {c : UInt8} {s : Str} : WhiteByte c → Between s → Between ([45, c] ++ s)
  | closing {c : UInt8} {s : Str} : WhiteByte c → Between s → Between ([c, 45] ++ s)
  | comment {o m c s : Str} : OpenMark o → CloseMark c → (¬∃ a b, m = a ++ b!"*/" ++ b) → Between s →
      Between (left ++ o ++ b!"/*" ++ m ++ b!"*/" ++ c ++ right ++ s)

/-- Whether an item is written inside an action, and whether what follows it is. -/
inductive Mode : Bool → Tok → Bool → Prop
  | text (s : Str) : Mode false (.text s) false
  | left : Mode false .left true
  | right : Mode true .right false
  | inner {t : Tok} : (∀ s, t ≠ .text s) → t ≠ .left → t ≠ .right → t ≠ .eof → t ≠ .err → Mode true t true

/-- The items of a text that begins inside or outside an action, on a line: one after the other, each on the
line where it begins, with nothing left over between them and at the end - unless the scanner gives up. -/
inductive Laid : Bool → Nat → Str → List Item → Prop
  | eof {line : Nat} {g : Str} : Between left right g → Laid false line g [⟨.eof, line + lineBreaks g⟩]
  | err (inside : Bool) (line line' : Nat) (s : Str) : Laid inside line s [⟨.err, line'⟩]
  | item {inside inside' : Bool} {line : Nat} {g t s : Str} {k : Tok} {is : List Item} : Between left right g →
      Spelled left right k t → Mode inside k inside' → Laid inside' (line + lineBreaks g + lineBreaks t) s is →
      Laid inside line (g ++ t ++ s) (⟨k, line + lineBreaks g⟩ :: is)

end

/-- The items other than white space. -/
def solid (is : List Item) : List Item := is.filter fun i => i.tok ≠ .space

/-- The items of an action, without its delimiters. -/
def ActionIn (is act : List Item) : Prop :=
  ∃ before after l r, is = before ++ ⟨.left, l⟩ :: (act ++ ⟨.right, r⟩ :: after) ∧
    ∀ i ∈ act, i.tok ≠ .left ∧ i.tok ≠ .right

/-- The item is a string literal with this value (`Quote.unquote` is `strconv.Unquote`). -/
def IsLit (i : Item) (t : Str) : Prop := ∃ s, (i.tok = .str s ∨ i.tok = .raw s) ∧ Quote.unquote s = some t

/-- The item is the name `n`: of a function, a field or method, a variable. -/
def IsName (i : Item) (n : Str) : Prop := (∃ k, i.tok = .ident n k) ∨ i.tok = .field (b!"." ++ n) ∨ i.tok = .var n

/-- The item is a keyword. -/
def IsKw (i : Item) : Prop := ∃ k, i.tok = .kw k

/-- The line of the first item of an action that is not a keyword. -/
def StartsOn (act : List Item) (line : Nat) : Prop :=
  ∃ kws i rest, act = kws ++ i :: rest ∧ (∀ k ∈ kws, IsKw k) ∧ ¬IsKw i ∧ i.line = line

end Verif.Tmpl
