import Verif.Model.Utf8
/-!
# The scanner of `text/template/parse`

The scanner behind `template.New("").Delims(l, r).Funcs(funcs).Parse(src)` (cmd/xtemplate/internal/run.go:105-108),
from the published source of Go 1.23 (text/template/parse/lex.go; the Go standard library is not part of
/repo).  A scanner state is the rest of the input, the line, whether it is inside an action, and the number
of open parentheses; positions are not modelled.  Simplified:

* the messages of the error items are dropped;
* the items are computed at once (`items`), not on demand: the parser sees the same sequence, since the
  options of the scanner never change during a parse, and gives up at an error item;
* `hasFunction` is asked when an identifier is scanned, not when the parser looks at it;
* quoted strings are scanned byte by byte, not rune by rune (the bytes looked for are ASCII).
-/
namespace Verif.Tmpl
open Verif

/-- The keywords of templates (`key` of lex.go) other than `nil`. -/
inductive Kw where
  | block | brk | cont | define | els | fin | ifK | range | template | withK
  deriving DecidableEq, Repr

/-- `item` of lex.go without position and line. -/
inductive Tok where
  | err
  | eof
  | text (s : Str)
  | left
  | right
  | space
  | assign
  | declare
  | pipe
  | lparen
  | rparen
  | char (c : UInt8)
  /-- a quoted string, with its quotes -/
  | str (s : Str)
  /-- a raw string, with its quotes -/
  | raw (s : Str)
  /-- a character constant, a number, a complex number -/
  | rune (s : Str)
  | num (s : Str)
  | complex (s : Str)
  /-- with the dollar -/
  | var (s : Str)
  /-- with the dot -/
  | field (s : Str)
  | dot
  | nil
  | bool
  /-- an identifier and whether it is a function -/
  | ident (name : Str) (known : Bool)
  | kw (k : Kw)
  deriving DecidableEq, Repr

/-- `item` of lex.go without position. -/
structure Item where
  tok : Tok
  line : Nat
  deriving DecidableEq, Repr

/-- What the scanner depends on: the delimiters, the functions, `unicode.IsLetter`, `unicode.IsDigit`.
For cmd/xtemplate/internal/run.go:105-108 (`Parse`). -/
structure Cfg where
  left : Str
  right : Str
  has : Str → Bool
  letter : Nat → Bool
  digit : Nat → Bool

/-- `lex`: empty delimiters stand for the default ones.  For cmd/xtemplate/internal/run.go:105-108 (`Parse`). -/
def mkCfg (left right : Str) (has : Str → Bool) (letter digit : Nat → Bool) : Cfg :=
  { left := if left = [] then b!"{{" else left
    right := if right = [] then b!"}}" else right
    has, letter, digit }

/-- `isSpace`.  For cmd/xtemplate/internal/run.go:105-108 (`Parse`). -/
def isSpace (c : UInt8) : Bool := c == 32 || c == 9 || c == 13 || c == 10

/-- `isAlphaNumeric`.  For cmd/xtemplate/internal/run.go:105-108 (`Parse`). -/
def Cfg.alnum (C : Cfg) (r : Nat) : Bool := r == 95 || C.letter r || C.digit r

/-- Does the string begin with an alphanumeric rune?.  For cmd/xtemplate/internal/run.go:105-108 (`Parse`). -/
def Cfg.alnumAt (C : Cfg) (s : Str) : Bool := s ≠ [] && C.alnum (Utf8.decode s).1

/-- The longest run of alphanumeric runes and what follows (the loops of `lexIdentifier` and
`lexFieldOrVariable`).  For cmd/xtemplate/internal/run.go:105-108 (`Parse`). -/
def Cfg.spanN (C : Cfg) : Nat → Str → Str × Str
  | 0, s => ([], s)
  | n + 1, s =>
    if C.alnumAt s then
      let w := (Utf8.decode s).2
      let (a, b) := C.spanN n (s.drop w)
      (s.take w ++ a, b)
    else ([], s)

/-- See `spanN`. -/
def Cfg.span (C : Cfg) (s : Str) : Str × Str := C.spanN s.length s

/-- `strings.Index`, as what comes before and after the first occurrence.  For cmd/xtemplate/internal/run.go:105-108 (`Parse`). -/
def cut (sub : Str) : Str → Option (Str × Str)
  | [] => if sub = [] then some ([], []) else none
  | c :: s =>
    if GoStr.hasPrefix (c :: s) sub then some ([], (c :: s).drop sub.length)
    else (cut sub s).map fun r => (c :: r.1, r.2)

/-- `strings.Count(s, "\n")`.  For cmd/xtemplate/internal/run.go:105-108 (`Parse`). -/
def newlines (s : Str) : Nat := s.count 10

/-- `hasLeftTrimMarker`.  For cmd/xtemplate/internal/run.go:105-108 (`Parse`). -/
def leftTrim : Str → Bool
  | 45 :: c :: _ => isSpace c
  | _ => false

/-- `hasRightTrimMarker`.  For cmd/xtemplate/internal/run.go:105-108 (`Parse`). -/
def rightTrim : Str → Bool
  | c :: 45 :: _ => isSpace c
  | _ => false

/-- `strings.TrimRight(s, spaceChars)`.  For cmd/xtemplate/internal/run.go:105-108 (`Parse`). -/
def trimEnd (s : Str) : Str := (s.reverse.dropWhile isSpace).reverse

/-- `atRightDelim`: is there a right delimiter, and with a trim marker?.  For cmd/xtemplate/internal/run.go:105-108 (`Parse`). -/
def Cfg.atRight (C : Cfg) (s : Str) : Option Bool :=
  if rightTrim s && GoStr.hasPrefix (s.drop 2) C.right then some true
  else if GoStr.hasPrefix s C.right then some false
  else none

/-- `atTerminator`.  For cmd/xtemplate/internal/run.go:105-108 (`Parse`). -/
def Cfg.terminator (C : Cfg) (s : Str) : Bool :=
  match s with
  | [] => true
  | c :: _ => isSpace c || c == 46 || c == 44 || c == 124 || c == 58 || c == 41 || c == 40 || GoStr.hasPrefix s C.right

/-- The state of the scanner between two items.  For cmd/xtemplate/internal/run.go:105-108 (`Parse`). -/
structure Lx where
  rest : Str
  line : Nat := 1
  inside : Bool := false
  depth : Nat := 0

/-- `errorf`: nothing is left.  For cmd/xtemplate/internal/run.go:105-108 (`Parse`). -/
def Lx.fail (l : Lx) : Item × Lx := (⟨.err, l.line⟩, { l with rest := [] })

/-- An item that ends where `rest` begins, without newlines.  For cmd/xtemplate/internal/run.go:105-108 (`Parse`). -/
def Lx.emit (l : Lx) (t : Tok) (rest : Str) : Item × Lx := (⟨t, l.line⟩, { l with rest })

/-- The trim marker after a left delimiter, if there is one, and the rest.  For cmd/xtemplate/internal/run.go:105-108 (`Parse`). -/
def opening (after : Str) : Str × Str := if leftTrim after then (after.take 2, after.drop 2) else ([], after)

/-- `lexComment`, after the left marker: the rest and the line after the action; `none` is an error.
For cmd/xtemplate/internal/run.go:105-108 (`Parse`). -/
def Cfg.comment (C : Cfg) (s : Str) (line : Nat) : Option (Str × Nat) :=
  match cut b!"*/" s with
  | none => none
  | some (text, rest) =>
    match C.atRight rest with
    | none => none
    | some false => some (rest.drop C.right.length, line + newlines text + newlines C.right)
    | some true =>
      let r := rest.drop (2 + C.right.length)
      some (r.dropWhile isSpace,
        line + newlines text + newlines (rest.take 2) + newlines C.right + newlines (r.takeWhile isSpace))

/-- `lexText` and `lexLeftDelim`; the first argument bounds the number of comments.  For cmd/xtemplate/internal/run.go:105-108 (`Parse`). -/
def Cfg.lexText (C : Cfg) : Nat → Lx → Item × Lx
  | 0, l => l.fail
  | n + 1, l =>
    match cut C.left l.rest with
    | none =>
      if l.rest = [] then (⟨.eof, l.line⟩, l)
      else (⟨.text l.rest, l.line⟩, { l with rest := [], line := l.line + newlines l.rest })
    | some (before, after) =>
      let text := if leftTrim after then trimEnd before else before
      let line := l.line + newlines before
      let (marker, body) := opening after
      if text ≠ [] then (⟨.text text, l.line⟩, { l with rest := C.left ++ after, line })
      else if GoStr.hasPrefix body b!"/*" then
        match C.comment (body.drop 2) (line + newlines C.left + newlines marker) with
        | none => l.fail
        | some (rest, line) => C.lexText n { l with rest, line }
      else (⟨.left, line⟩, { rest := body, line := line + newlines marker, inside := true, depth := 0 })

/-- `lexRightDelim`.  For cmd/xtemplate/internal/run.go:105-108 (`Parse`). -/
def Cfg.lexRight (C : Cfg) (l : Lx) (trimmed : Bool) : Item × Lx :=
  let marker := if trimmed then l.rest.take 2 else []
  let rest := l.rest.drop (marker.length + C.right.length)
  let gone := if trimmed then rest.takeWhile isSpace else []
  let line := l.line + newlines marker
  (⟨.right, line⟩, { l with rest := rest.drop gone.length, line := line + newlines gone, inside := false })

/-- Is there the rest of a right delimiter with a trim marker, after its space?.  For cmd/xtemplate/internal/run.go:105-108 (`Parse`). -/
def Cfg.marked (C : Cfg) : Str → Bool
  | 45 :: r => GoStr.hasPrefix r C.right
  | _ => false

/-- `lexSpace`: the run of spaces without the one that belongs to a trim marker.  For cmd/xtemplate/internal/run.go:105-108 (`Parse`). -/
def Cfg.lexSpace (C : Cfg) (l : Lx) : Item × Lx :=
  let spaces := l.rest.takeWhile isSpace
  let rest := l.rest.dropWhile isSpace
  if C.marked rest then
    if spaces.length = 1 then C.lexRight l true
    else
      (⟨.space, l.line⟩,
        { l with rest := l.rest.drop (spaces.length - 1), line := l.line + newlines (spaces.take (spaces.length - 1)) })
  else (⟨.space, l.line⟩, { l with rest, line := l.line + newlines spaces })

/-- `lexQuote` and `lexChar`, after the opening quote: what follows the closing one.
For cmd/xtemplate/internal/run.go:105-108 (`Parse`). -/
def scanQuote (q : UInt8) : Str → Option Str
  | [] => none
  | 92 :: c :: s => if c = 10 then none else scanQuote q s
  | c :: s => if c = 92 || c = 10 then none else if c = q then some s else scanQuote q s

/-- `lexRawQuote`, after the opening quote.  For cmd/xtemplate/internal/run.go:105-108 (`Parse`). -/
def scanRaw : Str → Option Str
  | [] => none
  | c :: s => if c = 96 then some s else scanRaw s

/-- `accept`.  For cmd/xtemplate/internal/run.go:105-108 (`Parse`). -/
def accept (p : UInt8 → Bool) : Str → Option Str
  | c :: s => if p c then some s else none
  | [] => none

/-- The digits of a base, as `digits` of `scanNumber`.  For cmd/xtemplate/internal/run.go:105-108 (`Parse`). -/
def digitOf (base : Nat) (c : UInt8) : Bool :=
  c == 95 ||
  (if base = 16 then (48 ≤ c && c ≤ 57) || (97 ≤ c && c ≤ 102) || (65 ≤ c && c ≤ 70)
   else if base = 8 then 48 ≤ c && c ≤ 55
   else if base = 2 then 48 ≤ c && c ≤ 49
   else 48 ≤ c && c ≤ 57)

/-- The base that is written, and the rest.  For cmd/xtemplate/internal/run.go:105-108 (`Parse`). -/
def scanBase (s : Str) : Nat × Str :=
  match accept (· == 48) s with
  | none => (10, s)
  | some s =>
    match accept (fun c => c == 120 || c == 88) s with
    | some r => (16, r)
    | none =>
      match accept (fun c => c == 111 || c == 79) s with
      | some r => (8, r)
      | none =>
        match accept (fun c => c == 98 || c == 66) s with
        | some r => (2, r)
        | none => (10, s)

/-- The exponent, introduced by one of two bytes.  For cmd/xtemplate/internal/run.go:105-108 (`Parse`). -/
def scanExp (a b : UInt8) (s : Str) : Str :=
  match accept (fun c => c == a || c == b) s with
  | none => s
  | some s => ((accept (fun c => c == 43 || c == 45) s).getD s).dropWhile (digitOf 10)

/-- `scanNumber` without the check at its end: what follows the number.  For cmd/xtemplate/internal/run.go:105-108 (`Parse`). -/
def numEnd (s : Str) : Str :=
  let s := (accept (fun c => c == 43 || c == 45) s).getD s
  let (base, s) := scanBase s
  let s := s.dropWhile (digitOf base)
  let s := match accept (· == 46) s with
    | some r => r.dropWhile (digitOf base)
    | none => s
  let s := if base = 10 then scanExp 101 69 s else s
  let s := if base = 16 then scanExp 112 80 s else s
  (accept (· == 105) s).getD s

/-- `scanNumber`: what follows the number, which must not be alphanumeric.  For cmd/xtemplate/internal/run.go:105-108 (`Parse`). -/
def Cfg.scanNumber (C : Cfg) (s : Str) : Option Str := if C.alnumAt (numEnd s) then none else some (numEnd s)

/-- The part of `s` before its suffix `rest`.  For cmd/xtemplate/internal/run.go:105-108 (`Parse`). -/
def upto (s rest : Str) : Str := s.take (s.length - rest.length)

/-- `lexNumber`.  For cmd/xtemplate/internal/run.go:105-108 (`Parse`). -/
def Cfg.lexNumber (C : Cfg) (l : Lx) : Item × Lx :=
  match C.scanNumber l.rest with
  | none => l.fail
  | some s =>
    match s with
    | c :: _ =>
      if c = 43 ∨ c = 45 then
        match C.scanNumber s with
        | none => l.fail
        | some s' =>
          if (upto l.rest s').getLast? = some 105 then l.emit (.complex (upto l.rest s')) s' else l.fail
      else l.emit (.num (upto l.rest s)) s
    | [] => l.emit (.num l.rest) []

/-- The keywords.  For cmd/xtemplate/internal/run.go:105-108 (`Parse`). -/
def keyword (w : Str) : Option Kw :=
  if w = b!"block" then some .block
  else if w = b!"break" then some .brk
  else if w = b!"continue" then some .cont
  else if w = b!"define" then some .define
  else if w = b!"else" then some .els
  else if w = b!"end" then some .fin
  else if w = b!"if" then some .ifK
  else if w = b!"range" then some .range
  else if w = b!"template" then some .template
  else if w = b!"with" then some .withK
  else none

/-- The item for a word (`lexIdentifier`); `break` and `continue` may be functions.  For cmd/xtemplate/internal/run.go:105-108 (`Parse`). -/
def Cfg.word (C : Cfg) (w : Str) : Tok :=
  match keyword w with
  | some .brk => if C.has b!"break" then .ident w true else .kw .brk
  | some .cont => if C.has b!"continue" then .ident w true else .kw .cont
  | some k => .kw k
  | none =>
    if w = b!"nil" then .nil
    else if w = b!"true" ∨ w = b!"false" then .bool
    else .ident w (C.has w)

/-- `lexIdentifier`.  For cmd/xtemplate/internal/run.go:105-108 (`Parse`). -/
def Cfg.lexIdent (C : Cfg) (l : Lx) : Item × Lx :=
  let (w, rest) := C.span l.rest
  if C.terminator rest then l.emit (C.word w) rest else l.fail

/-- `lexField` and `lexVariable`, `rest` being what follows the dot or dollar.  For cmd/xtemplate/internal/run.go:105-108 (`Parse`). -/
def Cfg.lexName (C : Cfg) (l : Lx) (rest : Str) (single : Tok) (named : Str → Tok) : Item × Lx :=
  if C.terminator rest then l.emit single rest
  else
    let (w, rest) := C.span rest
    if C.terminator rest then l.emit (named w) rest else l.fail

/-- `lexInsideAction`.  For cmd/xtemplate/internal/run.go:105-108 (`Parse`). -/
def Cfg.lexInside (C : Cfg) (l : Lx) : Item × Lx :=
  match C.atRight l.rest with
  | some trimmed => if l.depth = 0 then C.lexRight l trimmed else l.fail
  | none =>
    match l.rest with
    | [] => l.fail
    | c :: s =>
      if isSpace c then C.lexSpace l
      else if c = 61 then l.emit .assign s
      else if c = 58 then
        match s with
        | 61 :: s => l.emit .declare s
        | _ => l.fail
      else if c = 124 then l.emit .pipe s
      else if c = 34 then
        match scanQuote 34 s with
        | some r => l.emit (.str (upto l.rest r)) r
        | none => l.fail
      else if c = 96 then
        match scanRaw s with
        | some r => (⟨.raw (upto l.rest r), l.line⟩, { l with rest := r, line := l.line + newlines (upto l.rest r) })
        | none => l.fail
      else if c = 36 then C.lexName l s (.var [36]) fun w => .var (36 :: w)
      else if c = 39 then
        match scanQuote 39 s with
        | some r => l.emit (.rune (upto l.rest r)) r
        | none => l.fail
      else if c = 46 then
        match s with
        | d :: _ => if 48 ≤ d ∧ d ≤ 57 then C.lexNumber l else C.lexName l s .dot fun w => .field (46 :: w)
        | [] => C.lexNumber l
      else if c = 43 ∨ c = 45 ∨ 48 ≤ c ∧ c ≤ 57 then C.lexNumber l
      else if C.alnumAt l.rest then C.lexIdent l
      else if c = 40 then (⟨.lparen, l.line⟩, { l with rest := s, depth := l.depth + 1 })
      else if c = 41 then
        if l.depth = 0 then l.fail else (⟨.rparen, l.line⟩, { l with rest := s, depth := l.depth - 1 })
      else if 32 ≤ c ∧ c ≤ 126 then l.emit (.char c) s
      else l.fail

/-- `nextItem`.  For cmd/xtemplate/internal/run.go:105-108 (`Parse`). -/
def Cfg.next (C : Cfg) (l : Lx) : Item × Lx :=
  if l.inside then C.lexInside l else C.lexText (l.rest.length + 1) l

/-- The items up to the end of the input or an error.  For cmd/xtemplate/internal/run.go:105-108 (`Parse`). -/
def Cfg.itemsN (C : Cfg) : Nat → Lx → List Item
  | 0, _ => []
  | n + 1, l =>
    let (i, l') := C.next l
    if i.tok = .eof ∨ i.tok = .err then [i] else i :: C.itemsN n l'

/-- The items of a text: each takes at least one byte.  For cmd/xtemplate/internal/run.go:105-108 (`Parse`). -/
def Cfg.items (C : Cfg) (src : Str) : List Item := C.itemsN (src.length + 1) { rest := src }

end Verif.Tmpl
