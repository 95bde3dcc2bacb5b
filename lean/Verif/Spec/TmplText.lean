import Verif.Model.Quote
import Verif.Spec.Tmpl
/-!
# Templates as texts

How a template is written: a grammar of texts for trees, for given delimiters.  It covers text, comments,
trim markers, names, fields, variables and their declarations, literals, numbers, character constants, parentheses, pipelines,
actions, `if`, `range`, `with`, `else`, `else if`, `else with`, `break`, `continue`, `template`, `block` and
`define`; not numbers with underscores, octal numbers that begin with `0` only, hexadecimal numbers with fractions or exponents,
numbers that may be out of range, character constants that are not ASCII or have numeric escapes, declarations inside
parentheses, and several definitions of one template.
-/
namespace Verif.Tmpl
open Verif Verif.Xt

/-- White space. -/
def Blank (s : Str) : Prop := ∀ x ∈ s, x = 32 ∨ x = 9 ∨ x = 13 ∨ x = 10

/-- White space, at least some. -/
def Spaces (s : Str) : Prop := Blank s ∧ s ≠ []

/-- What stands between the quotes of an interpreted string literal. -/
inductive Quoted : Str → Prop
  | nil : Quoted []
  | char {c : UInt8} {s : Str} : c ≠ 34 → c ≠ 92 → c ≠ 10 → Quoted s → Quoted (c :: s)
  | esc {c : UInt8} {s : Str} : c ≠ 10 → Quoted s → Quoted (92 :: c :: s)

/-- A string literal and the text it stands for. -/
inductive Literal : Str → Str → Prop
  | quoted {s t : Str} : Quoted s → Quote.unquote (34 :: s ++ [34]) = some t → Literal (34 :: s ++ [34]) t
  | raw {s t : Str} : 96 ∉ s → Quote.unquote (96 :: s ++ [96]) = some t → Literal (96 :: s ++ [96]) t

/-- A decimal integer without leading zeros, of at most 18 digits: it is in the range of the 64 bit integers. -/
def Decimal (s : Str) : Prop := s = b!"0" ∨ ∃ c t, s = c :: t ∧ c ≠ 48 ∧ (∀ x ∈ s, DigitByte x) ∧ s.length ≤ 18

/-- A sign, or nothing. -/
def MaybeSign (g : Str) : Prop := g = [] ∨ g = b!"+" ∨ g = b!"-"

/-- The fraction of a decimal number, or nothing. -/
def MaybeFraction (f : Str) : Prop := f = [] ∨ ∃ t, f = 46 :: t ∧ ∀ x ∈ t, DigitByte x

/-- The exponent of a decimal number, of one or two digits, or nothing. -/
def MaybeExponent (e : Str) : Prop :=
  e = [] ∨ ∃ c g t, e = c :: g ++ t ∧ (c = 101 ∨ c = 69) ∧ MaybeSign g ∧ (t.length = 1 ∨ t.length = 2) ∧ ∀ x ∈ t, DigitByte x

/-- A decimal number without a sign. -/
inductive Unsigned : Str → Prop
  | mk {w f e : Str} : Decimal w → MaybeFraction f → MaybeExponent e → Unsigned (w ++ f ++ e)

/-- An integer with another base, not too large. -/
inductive Prefixed : Str → Prop
  | hex {c : UInt8} {t : Str} : c = 120 ∨ c = 88 → t ≠ [] → t.length ≤ 15 →
      (∀ x ∈ t, DigitByte x ∨ 97 ≤ x ∧ x ≤ 102 ∨ 65 ≤ x ∧ x ≤ 70) → Prefixed (48 :: c :: t)
  | octal {c : UInt8} {t : Str} : c = 111 ∨ c = 79 → t ≠ [] → t.length ≤ 20 → (∀ x ∈ t, 48 ≤ x ∧ x ≤ 55) → Prefixed (48 :: c :: t)
  | binary {c : UInt8} {t : Str} : c = 98 ∨ c = 66 → t ≠ [] → t.length ≤ 60 → (∀ x ∈ t, 48 ≤ x ∧ x ≤ 49) → Prefixed (48 :: c :: t)

/-- A real number or an imaginary one. -/
inductive NumberText : Str → Prop
  | decimal {g s : Str} : MaybeSign g → Unsigned s → NumberText (g ++ s)
  | imaginary {g s : Str} : MaybeSign g → Unsigned s → NumberText (g ++ s ++ b!"i")
  | prefixed {g s : Str} : MaybeSign g → Prefixed s → NumberText (g ++ s)

/-- A complex number with both its parts. -/
inductive ComplexText : Str → Prop
  | mk {g s h t : Str} : MaybeSign g → Unsigned s → h = b!"+" ∨ h = b!"-" → Unsigned t → ComplexText (g ++ s ++ (h ++ t ++ b!"i"))

/-- A character constant: an ASCII character or a backslash and a letter, another backslash or an apostrophe. -/
inductive CharText : Str → Prop
  | plain {c : UInt8} : c.toNat < 128 → c ≠ 10 → c ≠ 39 → c ≠ 92 → CharText [39, c, 39]
  | escaped {c : UInt8} : c ∈ b!"abfnrtv\\'" → CharText [39, 92, c, 39]

/-- The name of a function: an identifier that means nothing else.  `K` tells whether `break` and `continue`
are functions. -/
def FuncName (K : Str → Prop) (n : Str) : Prop :=
  Ident n ∧ (TemplateKeyword n → (n = b!"break" ∨ n = b!"continue") ∧ K n) ∧ n ≠ b!"nil" ∧ n ≠ b!"true" ∧ n ≠ b!"false"

/-- The text of a list of fields. -/
def fieldsText (ids : List Str) : Str := ids.flatMap fun id => 46 :: id

/-- The command may stand behind a bar: it does not begin with a constant. -/
def MayFollow : Cmd → Prop
  | .str _ :: _ => False
  | .other :: _ => False
  | _ => True

mutual
/-- The text is written for the argument; these variables are declared. -/
inductive SpellArg (K : Str → Prop) (vars : List Str) : Str → Arg → Prop
  | name {n : Str} : FuncName K n → SpellArg K vars n (.ident n)
  | const {s : Str} : s = b!"." ∨ s = b!"nil" ∨ s = b!"true" ∨ s = b!"false" → SpellArg K vars s .other
  | number {s : Str} : NumberText s → SpellArg K vars s .other
  | complex {s : Str} : ComplexText s → SpellArg K vars s .other
  | char {s : Str} : CharText s → SpellArg K vars s .other
  | field {ids : List Str} : ids ≠ [] → (∀ id ∈ ids, Ident id) → SpellArg K vars (fieldsText ids) (.field ids)
  | var {v : Str} {ids : List Str} : v = [] ∨ Ident v → 36 :: v ∈ vars → (∀ id ∈ ids, Ident id) →
      SpellArg K vars (36 :: v ++ fieldsText ids) (.var ((36 :: v) :: ids))
  | literal {s t : Str} : Literal s t → SpellArg K vars s (.str t)
  | paren {a s : Str} {p : Pipe} : Blank a → SpellPipe K vars s p → SpellArg K vars (40 :: a ++ s ++ [41]) (.pipe p)
  | chain {a s : Str} {p : Pipe} {ids : List Str} : Blank a → SpellPipe K vars s p → ids ≠ [] → (∀ id ∈ ids, Ident id) →
      SpellArg K vars (40 :: a ++ s ++ [41] ++ fieldsText ids) (.chain (.pipe p) ids)
/-- The text is written for the command: arguments and white space between them. -/
inductive SpellCmd (K : Str → Prop) (vars : List Str) : Str → Cmd → Prop
  | one {s : Str} {a : Arg} : SpellArg K vars s a → SpellCmd K vars s [a]
  | cons {s sp t : Str} {a : Arg} {c : Cmd} : SpellArg K vars s a → Spaces sp → SpellCmd K vars t c →
      SpellCmd K vars (s ++ sp ++ t) (a :: c)
/-- The text is written for the pipeline: commands, bars between them, and white space. -/
inductive SpellPipe (K : Str → Prop) (vars : List Str) : Str → Pipe → Prop
  | one {s sp : Str} {c : Cmd} : SpellCmd K vars s c → Blank sp → SpellPipe K vars (s ++ sp) [c]
  | cons {s sp sp' t : Str} {c d : Cmd} {p : Pipe} : SpellCmd K vars s c → Blank sp → Blank sp' →
      SpellPipe K vars t (d :: p) → MayFollow d → SpellPipe K vars (s ++ sp ++ 124 :: sp' ++ t) (c :: d :: p)
end

/-- The sign of a declaration or an assignment, with the white space before it. -/
def Sign (s : Str) : Prop := (∃ a, Blank a ∧ s = a ++ b!":=") ∨ (∃ a, Spaces a ∧ s = a ++ b!"=")

/-- The text declares or assigns to variables, or is empty; two variables only for `range`. -/
inductive SpellDecl (range : Prop) (vars : List Str) : Str → List Str → Prop
  | none : SpellDecl range vars [] vars
  | one {v a b : Str} : Ident v → Sign a → Blank b → SpellDecl range vars (36 :: v ++ a ++ b) (vars ++ [36 :: v])
  | two {v w a b c d : Str} : range → Ident v → Blank a → Blank b → Ident w → Sign c → Blank d →
      SpellDecl range vars (36 :: v ++ a ++ b!"," ++ b ++ 36 :: w ++ c ++ d) (vars ++ [36 :: v, 36 :: w])

/-- The delimiters of actions. -/
structure Delims where
  left : Str
  right : Str

/-- The delimiters of a run of the extractor. -/
def delimsOf (p : Param) : Delims :=
  ⟨if p.left = [] then b!"{{" else p.left, if p.right = [] then b!"}}" else p.right⟩

/-- Delimiters that nothing else is mistaken for: the left one does not begin with white space nor end with a letter, a
digit or an underscore, the right one begins with an ASCII character that begins nothing else and joins nothing before it,
and there are no line breaks in them. -/
structure Delims.Plain (D : Delims) : Prop where
  left : ∃ c t, D.left = c :: t ∧ ¬ Blank [c]
  leftEnd : PlainEnd D.left
  leftLine : 10 ∉ D.left
  right : ∃ c t, D.right = c :: t ∧ c.toNat < 128 ∧ ¬ Blank [c] ∧ ¬ LetterByte c ∧ ¬ DigitByte c ∧ c ∉ b!"\"$'()+,-.:=`|"
  rightLine : 10 ∉ D.right

/-- The left delimiter, with a trim marker or not. -/
inductive Open (D : Delims) : Bool → Str → Prop
  | plain : Open D false D.left
  | trim {x : UInt8} : Blank [x] → Open D true (D.left ++ [45, x])

/-- The right delimiter, with a trim marker or not. -/
inductive Close (D : Delims) : Bool → Str → Prop
  | plain : Close D false D.right
  | trim {x : UInt8} : Blank [x] → Close D true (x :: 45 :: D.right)

/-- `sub` does not occur in the text, nor at its end if it is continued by `sub`. -/
def Free (sub t : Str) : Prop := ∀ a b : Str, t ++ sub = a ++ sub ++ b → b = []

/-- `u` is the text without the white space at its beginning. -/
def TrimsLeft (t u : Str) : Prop := ∃ a, t = a ++ u ∧ Blank a ∧ ∀ x v, u = x :: v → ¬ Blank [x]

/-- `u` is the text without the white space at its end. -/
def TrimsRight (t u : Str) : Prop := ∃ a, t = u ++ a ∧ Blank a ∧ ∀ x v, u = v ++ [x] → ¬ Blank [x]

/-- The nodes for a text between actions: one, or none if nothing is left of it.  The action before it trims it
if `before`, the one behind it if `after`. -/
inductive Gap (before after : Bool) (t : Str) : List Stmt → Prop
  | nothing {u : Str} : (if before then TrimsLeft t u else u = t) → (if after then TrimsRight u [] else u = []) →
      Gap before after t []
  | text {u v : Str} : (if before then TrimsLeft t u else u = t) → (if after then TrimsRight u v else v = u) → v ≠ [] →
      Gap before after t [.other]

/-- A comment. -/
inductive Comment (D : Delims) : Bool → Str → Bool → Prop
  | mk {b c : Bool} {o t e : Str} : Open D b o → Free b!"*/" t → Close D c e → Comment D b (o ++ b!"/*" ++ t ++ b!"*/" ++ e) c

/-- Line breaks. -/
def breaks (s : Str) : Nat := s.count 10

/-- A control structure. -/
inductive Control : Str → (Nat → Pipe → List Stmt → List Stmt → Stmt) → Prop
  | ifC : Control b!"if" .ifN
  | rangeC : Control b!"range" .rangeN
  | withC : Control b!"with" .withN

/-- An action that consists of a word. -/
inductive Word (D : Delims) (w : Str) : Bool → Str → Bool → Prop
  | mk {b c : Bool} {o sp sp' e : Str} : Open D b o → Blank sp → Blank sp' → Close D c e → Word D w b (o ++ sp ++ w ++ sp' ++ e) c

/-- Named templates, in the order of their ends. -/
abbrev Defs := List (Str × List Stmt)

mutual
/-- The text, which begins on line `l`, is written for the nodes.  `d` is the number of loops around it; these
variables are declared before and these after it. -/
inductive SpellNodes (K : Str → Prop) (D : Delims) : Nat → List Str → Bool → Nat → Str → List Stmt → Defs → List Str → Bool → Prop
  | last {d : Nat} {vars : List Str} {before after : Bool} {l : Nat} {t : Str} {ns : List Stmt} :
      Free D.left t → Gap before after t ns → SpellNodes K D d vars before l t ns [] vars after
  | cons {d : Nat} {vars vars' vars'' : List Str} {before b after : Bool} {l : Nat} {s rest : Str} {ns ns' : List Stmt} {ds ds' : Defs} :
      SpellPiece K D d vars before l s ns ds vars' b → SpellNodes K D d vars' b (l + breaks s) rest ns' ds' vars'' after →
      SpellNodes K D d vars before l (s ++ rest) (ns ++ ns') (ds ++ ds') vars'' after
/-- A text and the comment or node behind it. -/
inductive SpellPiece (K : Str → Prop) (D : Delims) : Nat → List Str → Bool → Nat → Str → List Stmt → Defs → List Str → Bool → Prop
  | comment {d : Nat} {vars : List Str} {before b after : Bool} {l : Nat} {t s : Str} {ns : List Stmt} :
      Free D.left t → Gap before b t ns → Comment D b s after → SpellPiece K D d vars before l (t ++ s) ns [] vars after
  | node {d : Nat} {vars vars' : List Str} {before b after : Bool} {l : Nat} {t s : Str} {ns : List Stmt} {n : Stmt} {ds : Defs} :
      Free D.left t → Gap before b t ns → SpellNode K D d vars b (l + breaks t) s n ds vars' after →
      SpellPiece K D d vars before l (t ++ s) (ns ++ [n]) ds vars' after
/-- The text is written for a node other than a text. -/
inductive SpellNode (K : Str → Prop) (D : Delims) : Nat → List Str → Bool → Nat → Str → Stmt → Defs → List Str → Bool → Prop
  | action {d : Nat} {vars vars' : List Str} {b c : Bool} {l : Nat} {o sp dc s e : Str} {p : Pipe} :
      Open D b o → Blank sp → SpellDecl False vars dc vars' → SpellPipe K vars' s p → Close D c e →
      SpellNode K D d vars b l (o ++ sp ++ dc ++ s ++ e) (.action (l + breaks (o ++ sp)) p) [] vars' c
  | leave {d : Nat} {vars : List Str} {b c : Bool} {l : Nat} {w s : Str} :
      w = b!"break" ∨ w = b!"continue" → ¬ K w → 0 < d → Word D w b s c → SpellNode K D d vars b l s .other [] vars c
  | template {d : Nat} {vars : List Str} {b c : Bool} {l : Nat} {o sp sp' q name sp'' e : Str} :
      Open D b o → Blank sp → Spaces sp' → Literal q name → Blank sp'' → Close D c e →
      SpellNode K D d vars b l (o ++ sp ++ b!"template" ++ sp' ++ q ++ sp'' ++ e) (.template (l + breaks (o ++ sp ++ sp')) []) [] vars c
  | templatePipe {d : Nat} {vars : List Str} {b c : Bool} {l : Nat} {o sp sp' q name sp'' s e : Str} {p : Pipe} :
      Open D b o → Blank sp → Spaces sp' → Literal q name → Spaces sp'' → SpellPipe K vars s p → Close D c e →
      SpellNode K D d vars b l (o ++ sp ++ b!"template" ++ sp' ++ q ++ sp'' ++ s ++ e) (.template (l + breaks (o ++ sp ++ sp')) p) [] vars c
  | block {d : Nat} {vars vars' : List Str} {b b' b'' c : Bool} {l : Nat} {o sp sp' q name sp'' s e body fin : Str} {p : Pipe}
      {ns : List Stmt} {ds : Defs} :
      Open D b o → Blank sp → Spaces sp' → Literal q name → Spaces sp'' → SpellPipe K vars s p → Close D b' e →
      SpellNodes K D 0 [b!"$"] b' (l + breaks (o ++ sp ++ b!"block" ++ sp' ++ q ++ sp'' ++ s ++ e)) body ns ds vars' b'' →
      Word D b!"end" b'' fin c →
      SpellNode K D d vars b l (o ++ sp ++ b!"block" ++ sp' ++ q ++ sp'' ++ s ++ e ++ body ++ fin)
        (.template (l + breaks (o ++ sp ++ sp')) p) (ds ++ [(name, ns)]) vars c
  | control {d : Nat} {vars : List Str} {b c : Bool} {l : Nat} {o sp kw rest : Str} {n : Stmt} {ds : Defs} :
      Open D b o → Blank sp → SpellControl K D kw d vars (l + breaks (o ++ sp)) rest n ds c →
      SpellNode K D d vars b l (o ++ sp ++ rest) n ds vars c
/-- The text is written for a control structure, from its keyword on. -/
inductive SpellControl (K : Str → Prop) (D : Delims) : Str → Nat → List Str → Nat → Str → Stmt → Defs → Bool → Prop
  | mk {d : Nat} {vars vars' vars'' : List Str} {b' b'' c : Bool} {l : Nat} {kw sp' dc s e body tail : Str} {p : Pipe}
      {ns els : List Stmt} {ds ds' : Defs} {mk : Nat → Pipe → List Stmt → List Stmt → Stmt} :
      Control kw mk → Spaces sp' → SpellDecl (kw = b!"range") vars dc vars' → SpellPipe K vars' s p → Close D b' e →
      SpellNodes K D (if kw = b!"range" then d + 1 else d) vars' b' (l + breaks (kw ++ sp' ++ dc ++ s ++ e)) body ns ds vars'' b'' →
      SpellTail K D kw d vars'' b'' (l + breaks (kw ++ sp' ++ dc ++ s ++ e ++ body)) tail els ds' c →
      SpellControl K D kw d vars l (kw ++ sp' ++ dc ++ s ++ e ++ body ++ tail) (mk (l + breaks (kw ++ sp')) p ns els) (ds ++ ds') c
/-- The text is written for the end of a control structure, with the nodes of the `else` part. -/
inductive SpellTail (K : Str → Prop) (D : Delims) : Str → Nat → List Str → Bool → Nat → Str → List Stmt → Defs → Bool → Prop
  | fin {kw : Str} {d : Nat} {vars : List Str} {b c : Bool} {l : Nat} {s : Str} :
      Word D b!"end" b s c → SpellTail K D kw d vars b l s [] [] c
  | els {kw : Str} {d : Nat} {vars vars' : List Str} {b b' b'' c : Bool} {l : Nat} {s body fin : Str} {ns : List Stmt} {ds : Defs} :
      Word D b!"else" b s b' → SpellNodes K D d vars b' (l + breaks s) body ns ds vars' b'' → Word D b!"end" b'' fin c →
      SpellTail K D kw d vars b l (s ++ body ++ fin) ns ds c
  | again {kw : Str} {d : Nat} {vars : List Str} {b c : Bool} {l : Nat} {o sp sp' rest : Str} {n : Stmt} {ds : Defs} :
      kw = b!"if" ∨ kw = b!"with" → Open D b o → Blank sp → Spaces sp' →
      SpellControl K D kw d vars (l + breaks (o ++ sp ++ sp')) rest n ds c →
      SpellTail K D kw d vars b l (o ++ sp ++ b!"else" ++ sp' ++ rest) [n] ds c
end

/-- The text is written for a file: the nodes of the template of the file, and named templates. -/
inductive SpellFile (K : Str → Prop) (D : Delims) : List Str → Bool → Nat → Str → List Stmt → Defs → Prop
  | last {vars : List Str} {before : Bool} {l : Nat} {t : Str} {ns : List Stmt} :
      (∀ a b, t ≠ a ++ D.left ++ b) → Gap before false t ns → SpellFile K D vars before l t ns []
  | cons {vars vars' : List Str} {before b : Bool} {l : Nat} {s rest : Str} {ns ns' : List Stmt} {ds ds' : Defs} :
      SpellPiece K D 0 vars before l s ns ds vars' b → SpellFile K D vars' b (l + breaks s) rest ns' ds' →
      SpellFile K D vars before l (s ++ rest) (ns ++ ns') (ds ++ ds')
  | define {vars vars' : List Str} {before b b' b'' c : Bool} {l : Nat} {t o sp sp' q name sp'' e body fin rest : Str}
      {ns ns' ns'' : List Stmt} {ds ds' : Defs} :
      Free D.left t → Gap before b t ns → Open D b o → Blank sp → Spaces sp' → Literal q name → Blank sp'' → Close D b' e →
      SpellNodes K D 0 [b!"$"] b' (l + breaks (t ++ o ++ sp ++ b!"define" ++ sp' ++ q ++ sp'' ++ e)) body ns' ds vars' b'' →
      Word D b!"end" b'' fin c →
      SpellFile K D vars c (l + breaks (t ++ o ++ sp ++ b!"define" ++ sp' ++ q ++ sp'' ++ e ++ body ++ fin)) rest ns'' ds' →
      SpellFile K D vars before l (t ++ o ++ sp ++ b!"define" ++ sp' ++ q ++ sp'' ++ e ++ body ++ fin ++ rest) (ns ++ ns'')
        (ds ++ (name, ns') :: ds')

/-- The text is written for the template of a file and the named templates in it, all of different names. -/
def Written (K : Str → Prop) (D : Delims) (src : Str) (main : List Stmt) (named : Defs) : Prop :=
  SpellFile K D [b!"$"] false 1 src main named ∧ ([] :: named.map (·.1)).Nodup

end Verif.Tmpl
