/-!
# Go strings, maps and outcomes

Common vocabulary of the model.  Go `string` and `[]byte` are lists of bytes.
The functions below model the parts of Go's standard library (`strings`, `strconv`) that the code in
/repo calls; every definition names the call sites in /repo that it stands for.
-/

namespace Verif

/-- A Go `string` / `[]byte`: a finite sequence of bytes (not necessarily valid UTF-8).
For the strings of all files, as translator/entry.go:10-18. -/
abbrev Str := List UInt8

/-- `b!"text"` is the list of UTF-8 bytes of a literal, expanded at elaboration time. -/
macro:max "b!" s:str : term => do
  let bs := s.getString.toUTF8.toList
  let ts ← bs.mapM fun b => `(($(Lean.quote b.toNat) : UInt8))
  `(([$ts.toArray,*] : List UInt8))

/-- Outcome of a Go call that may return a value, return a non-nil `error`, or panic.
Error values and panic values are not distinguished further here.
For functions with an error result and panics, as plurals/exp.go:15-21. -/
inductive Res (α : Type) where
  | ok (a : α)
  | err
  | panic
  deriving DecidableEq, Repr

namespace Res
/-- Sequencing: an error return or a panic propagates.  For functions with an error result, as translator/po.go:26-46. -/
def bind {α β : Type} (r : Res α) (f : α → Res β) : Res β :=
  match r with
  | ok a => f a
  | err => err
  | panic => panic
end Res

namespace GoStr

/-- `strings.HasPrefix(s, p)`; used in translator/po.go:114-203 and translator/entry.go:49. -/
def hasPrefix (s p : Str) : Bool := p.isPrefixOf s

/-- `strings.HasSuffix(s, p)`; used in translaton.go:75,104,106 and
cmd/xtemplate/internal/keyword.go:64,95. -/
def hasSuffix (s p : Str) : Bool := p.isSuffixOf s

/-- `strings.TrimPrefix(s, p)`; used in translator/util.go:15 and translator/entry.go:50. -/
def trimPrefix (s p : Str) : Str := if hasPrefix s p then s.drop p.length else s

/-- `strings.Index(s, c)` for a one-byte needle; `none` is Go's `-1`.
Used in translator/wrap.go:17, translator/mo.go:183,187. -/
def indexByte (c : UInt8) : Str → Option Nat
  | [] => none
  | x :: xs => if x = c then some 0 else (indexByte c xs).map (· + 1)

/-- `strings.LastIndex(s, c)` for a one-byte needle; used in translator/wrap.go:29. -/
def lastIndexByte (c : UInt8) : Str → Option Nat
  | [] => none
  | x :: xs =>
    match lastIndexByte c xs with
    | some i => some (i + 1)
    | none => if x = c then some 0 else none

/-- `strings.Split(s, sep)` for a one-byte separator: always at least one piece.
Used in translator/po.go:32, translator/file.go:104, translator/mo.go:190,
translator/entry.go:53,54, cmd/xtemplate/internal/keyword.go:23,32,50, param.go:66. -/
def splitByte (c : UInt8) : Str → List Str
  | [] => [[]]
  | x :: xs =>
    if x = c then [] :: splitByte c xs
    else match splitByte c xs with
      | [] => [[x]]
      | p :: ps => (x :: p) :: ps

/-- `strings.Join(ps, sep)`; used in translator/mo.go:332, translator/entry.go:69,
cmd/xtemplate/internal/param.go:156. -/
def join (sep : Str) : List Str → Str
  | [] => []
  | [p] => p
  | p :: q :: ps => p ++ sep ++ join sep (q :: ps)

/-- `strings.ReplaceAll(s, c, "")` for a one-byte needle; used in translator/po.go:31 (`"\r"`) and
plurals/exp.go:23 (`" "`). -/
def removeByte (c : UInt8) (s : Str) : Str := s.filter (· != c)

/-- ASCII white space in the sense of `unicode.IsSpace`: `\t \n \v \f \r` and blank.  For translator/util.go:16 (`strings.TrimSpace`). -/
def isAsciiSpace (c : UInt8) : Bool :=
  c == 9 || c == 10 || c == 11 || c == 12 || c == 13 || c == 32

/-- UTF-8 encodings of the two-byte white space runes U+0085 and U+00A0.  For translator/util.go:16 (`strings.TrimSpace`). -/
def isSpace2 (a b : UInt8) : Bool := a == 0xC2 && (b == 0x85 || b == 0xA0)

/-- UTF-8 encodings of the three-byte white space runes U+1680, U+2000..U+200A, U+2028, U+2029,
U+202F, U+205F and U+3000 (Unicode White_Space, as in Go's `unicode.IsSpace`).  For translator/util.go:16 (`strings.TrimSpace`). -/
def isSpace3 (a b c : UInt8) : Bool :=
  (a == 0xE1 && b == 0x9A && c == 0x80) ||
  (a == 0xE2 && b == 0x80 && ((0x80 ≤ c && c ≤ 0x8A) || c == 0xA8 || c == 0xA9 || c == 0xAF)) ||
  (a == 0xE2 && b == 0x81 && c == 0x9F) ||
  (a == 0xE3 && b == 0x80 && c == 0x80)

/-- Remove leading white space runes.  For translator/util.go:16 (`strings.TrimSpace`). -/
def trimLeft : Str → Str
  | [] => []
  | [a] => if isAsciiSpace a then [] else [a]
  | [a, b] =>
    if isAsciiSpace a then trimLeft [b]
    else if isSpace2 a b then [] else [a, b]
  | a :: b :: c :: t =>
    if isAsciiSpace a then trimLeft (b :: c :: t)
    else if isSpace2 a b then trimLeft (c :: t)
    else if isSpace3 a b c then trimLeft t
    else a :: b :: c :: t

/-- Remove trailing white space runes of a string given in reverse.  For translator/util.go:16 (`strings.TrimSpace`). -/
def trimRev : Str → Str
  | [] => []
  | [a] => if isAsciiSpace a then [] else [a]
  | [b, a] =>
    if isAsciiSpace b then trimRev [a]
    else if isSpace2 a b then [] else [b, a]
  | c :: b :: a :: t =>
    if isAsciiSpace c then trimRev (b :: a :: t)
    else if isSpace2 b c then trimRev (a :: t)
    else if isSpace3 a b c then trimRev t
    else c :: b :: a :: t

/-- Remove trailing white space runes.  For translator/util.go:16 (`strings.TrimSpace`). -/
def trimRight (s : Str) : Str := (trimRev s.reverse).reverse

/-- `strings.TrimSpace`; used in translator/po.go:110, translator/util.go:16,
translator/file.go:114,115, cmd/xtemplate/internal/keyword.go:26,34,45,52, param.go:68. -/
def trimSpace (s : Str) : Str := trimRight (trimLeft s)

/-- Byte-wise lexicographic order: Go's `<` on strings (translator/file.go:76, translations.go:131). -/
def lt (a b : Str) : Bool := decide (a < b)

end GoStr

/-- A Go map with string keys: an association list.  The functions below keep keys unique; code that
ranges over a map is modelled with an arbitrary permutation of it.  For the maps of translator/file.go:22-26 and translations.go:18-24. -/
abbrev GMap (V : Type) := List (Str × V)

namespace GMap
variable {V : Type}

/-- `v, ok := m[k]`.  For map reads, as translator/file.go:36, 102. -/
def get? (m : GMap V) (k : Str) : Option V :=
  match m with
  | [] => none
  | (k', v) :: m => if k' = k then some v else get? m k

/-- `m[k] = v`.  For map writes, as translator/file.go:86, translations.go:57. -/
def set (m : GMap V) (k : Str) (v : V) : GMap V :=
  match m with
  | [] => [(k, v)]
  | (k', v') :: m => if k' = k then (k, v) :: m else (k', v') :: set m k v

/-- `delete(m, k)`.  For translations.go:70 (`delete`). -/
def erase (m : GMap V) (k : Str) : GMap V :=
  match m with
  | [] => []
  | (k', v') :: m => if k' = k then erase m k else (k', v') :: erase m k

/-- The keys, in the list's order.  For translations.go:106-111 (`range`). -/
def keys (m : GMap V) : List Str := m.map (·.1)

/-- The values, in the list's order.  For translator/file.go:69-72 (`range`). -/
def vals (m : GMap V) : List V := m.map (·.2)

end GMap

end Verif
