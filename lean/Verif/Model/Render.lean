import Verif.Model.Fmt
import Verif.Model.Quote
/-!
# How package fmt shows numbers, texts and truth values

`printArg`, `badVerb`, `fmtInteger`, `fmtC`, `fmtUnicode`, `fmtS`, `fmtQ`, `fmtSbx`, `fmtBool`, `pad`, `writePadding` of package fmt (Go 1.23,
not in /repo), which `f.Format` (f/format.go:12-23) calls for the arguments of the usual types.  Simplified: the integer types are `int` and
`uint` of 64 bits, the others look the same; floating point numbers, structures and types with methods are left out.  Parameters:
`strconv.IsPrint`, and how `%q` shows a number.
-/
namespace Verif.Fmt
open Verif

/-- Arguments of a message.  For f/format.go:22 (`fmt.Sprintf`). -/
inductive Val where
  | int (i : Int64)
  | uint (u : UInt64)
  | str (s : Str)
  | bool (b : Bool)
  | nil
  deriving DecidableEq

/-- What is left open.  For f/format.go:22 (`fmt.Sprintf`). -/
structure Lib where
  /-- `strconv.IsPrint` -/
  isPrint : Nat → Bool
  /-- `%q` of a number: `strconv.QuoteRune`, and `QuoteRuneToASCII` for `true` -/
  quoteRune : Bool → UInt64 → Str

/-- `utf8.RuneCount`.  The first argument of this and the next functions bounds the number of rounds.
For f/format.go:22 (`fmt.Sprintf`). -/
def runeCount : Nat → Str → Nat
  | 0, _ => 0
  | _ + 1, [] => 0
  | k + 1, s => 1 + runeCount k (s.drop (Utf8.decode s).2)

/-- The loop of `truncateString`.  For f/format.go:22 (`fmt.Sprintf`). -/
def truncLoop : Nat → Nat → Str → Str
  | 0, _, _ => []
  | _ + 1, _, [] => []
  | k + 1, n, s => if n = 0 then [] else s.take (Utf8.decode s).2 ++ truncLoop k (n - 1) (s.drop (Utf8.decode s).2)

/-- `(*fmt).truncateString`.  For f/format.go:22 (`fmt.Sprintf`). -/
def truncate (o : Opts) (s : Str) : Str :=
  match o.prec with
  | some n => truncLoop s.length n s
  | none => s

/-- `(*fmt).writePadding`.  For f/format.go:22 (`fmt.Sprintf`). -/
def writePadding (o : Opts) (n : Nat) : Str := List.replicate n (if o.zero && !o.minus then 48 else 32)

/-- `(*fmt).pad`, `(*fmt).padString`.  For f/format.go:22 (`fmt.Sprintf`). -/
def pad (o : Opts) (s : Str) : Str :=
  match o.wid with
  | none => s
  | some w =>
    if w = 0 then s
    else if !o.minus then writePadding o (w - runeCount s.length s) ++ s
    else s ++ writePadding o (w - runeCount s.length s)

/-- `ldigits[d]`, `udigits[d]`.  For f/format.go:22 (`fmt.Sprintf`). -/
def digit (upper : Bool) (d : Nat) : UInt8 := UInt8.ofNat (if d < 10 then 48 + d else if upper then 55 + d else 87 + d)

/-- The digits of a number, written from the right.  For f/format.go:22 (`fmt.Sprintf`). -/
def digitLoop (base : Nat) (upper : Bool) : Nat → Nat → Str → Str
  | 0, _, acc => acc
  | k + 1, u, acc =>
    if u < base then digit upper u :: acc else digitLoop base upper k (u / base) (digit upper (u % base) :: acc)

/-- The number of digits `fmtInteger` wants: `%.3d` or `%03d`.  For f/format.go:22 (`fmt.Sprintf`). -/
def intPrec (o : Opts) (negative : Bool) : Nat :=
  match o.prec with
  | some p => p
  | none =>
    match o.wid with
    | some w => if o.zero && !o.minus then (if negative || o.plus || o.space then w - 1 else w) else 0
    | none => 0

/-- `(*fmt).fmtInteger`; `octal` says that the verb is `O`.  For f/format.go:22 (`fmt.Sprintf`). -/
def fmtInteger (o : Opts) (u : UInt64) (base : Nat) (isSigned octal upper : Bool) : Str :=
  let negative := isSigned && 2 ^ 63 ≤ u.toNat
  let u := if negative then 0 - u else u
  if o.prec = some 0 ∧ u = 0 then writePadding { o with zero := false } (o.wid.getD 0)
  else
    let buf := digitLoop base upper 64 u.toNat []
    let buf := List.replicate (intPrec o negative - buf.length) 48 ++ buf
    let buf :=
      if o.sharp then
        if base = 2 then b!"0b" ++ buf
        else if base = 8 then (if buf.head? ≠ some 48 then b!"0" ++ buf else buf)
        else if base = 16 then b!"0" ++ (if upper then b!"X" else b!"x") ++ buf
        else buf
      else buf
    let buf := if octal then b!"0o" ++ buf else buf
    let buf := if negative then b!"-" ++ buf else if o.plus then b!"+" ++ buf else if o.space then b!" " ++ buf else buf
    pad { o with zero := false } buf

/-- `(*fmt).fmtC`.  For f/format.go:22 (`fmt.Sprintf`). -/
def fmtC (o : Opts) (c : UInt64) : Str :=
  pad o (Utf8.encode (if 0x10FFFF < c.toNat then Utf8.runeError else c.toNat))

/-- The number of digits `fmtUnicode` wants.  For f/format.go:22 (`fmt.Sprintf`). -/
def unicodePrec (o : Opts) : Nat :=
  match o.prec with
  | some p => if 4 < p then p else 4
  | none => 4

/-- `(*fmt).fmtUnicode`.  For f/format.go:22 (`fmt.Sprintf`). -/
def fmtUnicode (L : Lib) (o : Opts) (u : UInt64) : Str :=
  let tail := if o.sharp ∧ u.toNat ≤ 0x10FFFF ∧ L.isPrint u.toNat then b!" '" ++ Utf8.encode u.toNat ++ b!"'" else []
  let ds := digitLoop 16 true 64 u.toNat []
  pad { o with zero := false } (b!"U+" ++ List.replicate (unicodePrec o - ds.length) 48 ++ ds ++ tail)

/-- `(*pp).fmtInteger`; `none` stands for `badVerb`.  `go` is the flag `sharpV`.  For f/format.go:22 (`fmt.Sprintf`). -/
def ppInteger (L : Lib) (o : Opts) (go : Bool) (u : UInt64) (isSigned : Bool) (verb : Str) : Option Str :=
  if verb = b!"v" then
    if go && !isSigned then some (fmtInteger { o with sharp := true } u 16 isSigned false false)
    else some (fmtInteger o u 10 isSigned false false)
  else if verb = b!"d" then some (fmtInteger o u 10 isSigned false false)
  else if verb = b!"b" then some (fmtInteger o u 2 isSigned false false)
  else if verb = b!"o" then some (fmtInteger o u 8 isSigned false false)
  else if verb = b!"O" then some (fmtInteger o u 8 isSigned true false)
  else if verb = b!"x" then some (fmtInteger o u 16 isSigned false false)
  else if verb = b!"X" then some (fmtInteger o u 16 isSigned false true)
  else if verb = b!"c" then some (fmtC o u)
  else if verb = b!"q" then some (pad o (L.quoteRune o.plus u))
  else if verb = b!"U" then some (fmtUnicode L o u)
  else none

/-- `(*fmt).fmtS`.  For f/format.go:22 (`fmt.Sprintf`). -/
def fmtS (o : Opts) (s : Str) : Str := pad o (truncate o s)

/-- `strconv.CanBackquote`.  For f/format.go:22 (`fmt.Sprintf`). -/
def canBackquote : Nat → Str → Bool
  | 0, s => s.isEmpty
  | _ + 1, [] => true
  | k + 1, s =>
    let (r, w) := Utf8.decode s
    if 1 < w then if r = 0xFEFF then false else canBackquote k (s.drop w)
    else if r = Utf8.runeError then false
    else if (r < 32 ∧ r ≠ 9) ∨ r = 96 ∨ r = 127 then false
    else canBackquote k (s.drop w)

/-- `(*fmt).fmtQ`.  For f/format.go:22 (`fmt.Sprintf`). -/
def fmtQ (L : Lib) (o : Opts) (s : Str) : Str :=
  let s := truncate o s
  if o.sharp ∧ canBackquote s.length s then pad o (b!"`" ++ s ++ b!"`")
  else if o.plus then pad o (Quote.quote (fun r => r < 128 && L.isPrint r) s)
  else pad o (Quote.quote L.isPrint s)

/-- The loop of `fmtSbx` behind the first byte.  For f/format.go:22 (`fmt.Sprintf`). -/
def hexLoop (o : Opts) (upper : Bool) : Str → Str
  | [] => []
  | c :: s =>
    (if o.space then b!" " ++ (if o.sharp then b!"0" ++ (if upper then b!"X" else b!"x") else []) else []) ++
      [digit upper (c.toNat / 16), digit upper (c.toNat % 16)] ++ hexLoop o upper s

/-- How many bytes `fmtSbx` shows.  For f/format.go:22 (`fmt.Sprintf`). -/
def hexLength (o : Opts) (s : Str) : Nat :=
  match o.prec with
  | some p => if p < s.length then p else s.length
  | none => s.length

/-- `(*fmt).fmtSbx`.  For f/format.go:22 (`fmt.Sprintf`). -/
def fmtSbx (o : Opts) (upper : Bool) (s : Str) : Str :=
  let length := hexLength o s
  match s.take length with
  | [] => writePadding o (o.wid.getD 0)
  | c :: t =>
    let width := 2 * length
    let width :=
      if o.space then (if o.sharp then width * 2 else width) + (length - 1)
      else if o.sharp then width + 2 else width
    let padding := writePadding o (o.wid.getD 0 - width)
    let buf := (if o.sharp then b!"0" ++ (if upper then b!"X" else b!"x") else []) ++
      [digit upper (c.toNat / 16), digit upper (c.toNat % 16)] ++ hexLoop o upper t
    if !o.minus then padding ++ buf else buf ++ padding

/-- `(*pp).fmtString`.  For f/format.go:22 (`fmt.Sprintf`). -/
def ppString (L : Lib) (o : Opts) (go : Bool) (s : Str) (verb : Str) : Option Str :=
  if verb = b!"v" then some (if go then fmtQ L o s else fmtS o s)
  else if verb = b!"s" then some (fmtS o s)
  else if verb = b!"x" then some (fmtSbx o false s)
  else if verb = b!"X" then some (fmtSbx o true s)
  else if verb = b!"q" then some (fmtQ L o s)
  else none

/-- `(*pp).fmtBool`.  For f/format.go:22 (`fmt.Sprintf`). -/
def ppBool (o : Opts) (b : Bool) (verb : Str) : Option Str :=
  if verb = b!"t" ∨ verb = b!"v" then some (pad o (if b then b!"true" else b!"false")) else none

/-- `reflect.TypeOf(v).String()`; nil has no type.  For f/format.go:22 (`fmt.Sprintf`). -/
def Val.typeName : Val → Str
  | .int _ => b!"int"
  | .uint _ => b!"uint"
  | .str _ => b!"string"
  | .bool _ => b!"bool"
  | .nil => []

/-- `printArg` without `%T`, `%p` and the report of `badVerb`.  For f/format.go:22 (`fmt.Sprintf`). -/
def printKnown (L : Lib) (o : Opts) (go : Bool) (verb : Str) : Val → Option Str
  | .int i => ppInteger L o go i.toUInt64 true verb
  | .uint u => ppInteger L o go u false verb
  | .str s => ppString L o go s verb
  | .bool b => ppBool o b verb
  | .nil => if verb = b!"v" then some (pad o b!"<nil>") else none

/-- `badVerb`.  For f/format.go:22 (`fmt.Sprintf`). -/
def badVerb (L : Lib) (o : Opts) (go : Bool) (verb : Str) : Val → Str
  | .nil => b!"%!" ++ verb ++ b!"(<nil>)"
  | v => b!"%!" ++ verb ++ b!"(" ++ v.typeName ++ b!"=" ++ (printKnown L o go b!"v" v).getD [] ++ b!")"

/-- `(*pp).printArg`.  For f/format.go:22 (`fmt.Sprintf`). -/
def printArg (L : Lib) (o : Opts) (go : Bool) (verb : Str) (v : Val) : Str :=
  if verb = b!"T" then (if v = .nil then pad o b!"<nil>" else fmtS o v.typeName)
  else if verb = b!"p" then badVerb L o go verb v
  else match printKnown L o go verb v with
    | some s => s
    | none => badVerb L o go verb v

/-- The end of `doPrintf`'s loop: for the verbs `v` and `w` the flags `#` and `+` become `sharpV` and `plusV`.
For f/format.go:22 (`fmt.Sprintf`). -/
def render (L : Lib) (o : Opts) (verb : Str) (v : Val) : Str :=
  if verb = b!"v" ∨ verb = b!"w" then printArg L { o with sharp := false, plus := false } o.sharp verb v
  else printArg L o false verb v

/-- The number `intFromArg` finds in an argument.  For f/format.go:22 (`fmt.Sprintf`). -/
def Val.asInt : Val → Option Int
  | .int i => if 1000000 < i.toInt ∨ i.toInt < -1000000 then none else some i.toInt
  | .uint u => if 1000000 < u.toNat then none else some u.toNat
  | _ => none

/-- One argument in the report of arguments left over.  For f/format.go:22 (`fmt.Sprintf`). -/
def extraArg (L : Lib) : Val → Str
  | .nil => b!"<nil>"
  | v => v.typeName ++ b!"=" ++ printArg L {} false b!"v" v

/-- The loop of that report.  For f/format.go:22 (`fmt.Sprintf`). -/
def extraLoop (L : Lib) : Bool → List Val → Str
  | _, [] => []
  | first, v :: vs => (if first then [] else b!", ") ++ extraArg L v ++ extraLoop L false vs

/-- Package fmt for these arguments.  For f/format.go:22 (`fmt.Sprintf`). -/
def goEnv (L : Lib) : Env Val where
  render := render L
  asInt := Val.asInt
  empty := .str []
  extra vs := b!"%!(EXTRA " ++ extraLoop L true vs ++ b!")"

end Verif.Fmt
