import Verif.Spec.Fmt
import Verif.Model.Render
/-!
# Specification vocabulary for how arguments look in a message

Of the model only the arguments (`Val`), the options of a directive (`Opts`), the parameters (`Lib`), `Utf8.encode` and `Quote.quote` (see C19,
C91) are used.
-/
namespace Verif.Fmt
open Verif

/-- The characters of a text: UTF-8 sequences, and single bytes where it is not UTF-8. -/
inductive Runes : Str → List Str → Prop
  | nil : Runes [] []
  | cons {s : Str} {cs : List Str} : s ≠ [] → Runes (s.drop (verbLen s)) cs → Runes s (s.take (verbLen s) :: cs)

/-- The text filled up with a byte to the width, on the left unless there is a `-`. -/
def Filled (o : Opts) (fill : UInt8) (body out : Str) : Prop :=
  ∃ cs n, Runes body cs ∧ n + cs.length = max (o.wid.getD 0) cs.length ∧
    out = if o.minus then body ++ List.replicate n fill else List.replicate n fill ++ body

/-- What texts are filled up with. -/
def Opts.fill (o : Opts) : UInt8 := if o.zero ∧ ¬ o.minus then 48 else 32

/-! ## Numbers -/

def digitBytes (upper : Bool) : Str := if upper then b!"0123456789ABCDEF" else b!"0123456789abcdef"

/-- `s` is the number `n` written in the base, without needless zeros. -/
def Writes (base : Nat) (upper : Bool) (n : Nat) (s : Str) : Prop :=
  ∃ ds : List Nat, s = ds.map (fun d => (digitBytes upper).getD d 0) ∧ (∀ d ∈ ds, d < base) ∧
    ds.foldl (fun v d => v * base + d) 0 = n ∧ ds ≠ [] ∧ (ds.head? = some 0 → ds = [0])

/-- The sign. -/
def Opts.sign (o : Opts) (neg : Bool) : Str :=
  if neg then b!"-" else if o.plus then b!"+" else if o.space then b!" " else []

/-- How many digits are wanted at least: the precision, or for `0` what fills the width. -/
def Opts.digits (o : Opts) (neg : Bool) : Nat :=
  match o.prec, o.wid with
  | some p, _ => p
  | none, some w => if o.zero ∧ ¬ o.minus then w - (o.sign neg).length else 0
  | none, none => 0

/-- What `#` puts before the digits. -/
def Opts.before (o : Opts) (base : Nat) (upper : Bool) (ds : Str) : Str :=
  if o.sharp = false then []
  else if base = 2 then b!"0b"
  else if base = 16 then (if upper then b!"0X" else b!"0x")
  else if base = 8 ∧ ds.head? ≠ some 48 then b!"0"
  else []

/-- How a number looks.  `mark` stands between sign and digits. -/
def Numeric (o : Opts) (base : Nat) (upper : Bool) (mark : Str) (neg : Bool) (n : Nat) (out : Str) : Prop :=
  (o.prec = some 0 ∧ n = 0 → out = List.replicate (o.wid.getD 0) 32) ∧
  (¬ (o.prec = some 0 ∧ n = 0) → ∃ ds z, Writes base upper n ds ∧ z + ds.length = max (o.digits neg) ds.length ∧
    Filled o 32 (o.sign neg ++ mark ++ o.before base upper (List.replicate z 48 ++ ds) ++ List.replicate z 48 ++ ds) out)

/-- Whether the argument is a negative number, and how large it is. -/
def Val.number : Val → Option (Bool × Nat)
  | .int i => some (i.toInt < 0, i.toInt.natAbs)
  | .uint u => some (false, u.toNat)
  | _ => none

/-- The same number as 64 bits without sign. -/
def bits (neg : Bool) (n : Nat) : Nat := if neg then 2 ^ 64 - n else n

/-- The verbs for numbers: base, whether letters are capital, and the mark. -/
def numVerb (verb : Str) : Option (Nat × Bool × Str) :=
  if verb = b!"d" ∨ verb = b!"v" then some (10, false, [])
  else if verb = b!"b" then some (2, false, [])
  else if verb = b!"o" then some (8, false, [])
  else if verb = b!"O" then some (8, false, b!"0o")
  else if verb = b!"x" then some (16, false, [])
  else if verb = b!"X" then some (16, true, [])
  else none

/-- The character with the number, `�` if there is none. -/
def charOf (neg : Bool) (n : Nat) : Str :=
  if neg = false ∧ (n < 0xD800 ∨ 0xE000 ≤ n ∧ n ≤ 0x10FFFF) then Utf8.encode n else [0xEF, 0xBF, 0xBD]

/-! ## Texts -/

/-- The text up to the precision, counted in characters. -/
def Cut (o : Opts) (s t : Str) : Prop :=
  ∃ cs, Runes s cs ∧ t = (match o.prec with | some p => cs.take p | none => cs).flatten

/-- Texts that can be written between back quotes: UTF-8 in one line without back quotes, control characters (but tabs) and byte order
marks. -/
def Backquotable (s : Str) : Prop :=
  ∀ cs, Runes s cs → ∀ c ∈ cs, c ≠ [0xEF, 0xBB, 0xBF] ∧ ∀ b, c = [b] → (32 ≤ b ∧ b < 127 ∨ b = 9) ∧ b ≠ 96

/-- The Go literal for the text. -/
def Literally (L : Lib) (o : Opts) (s t : Str) : Prop :=
  o.sharp = true ∧ Backquotable s ∧ t = b!"`" ++ s ++ b!"`" ∨
  ¬ (o.sharp = true ∧ Backquotable s) ∧ t = Quote.quote (fun r => (!o.plus || r < 128) && L.isPrint r) s

/-- One byte in base 16. -/
def hexByte (upper : Bool) (c : UInt8) : Str :=
  [(digitBytes upper).getD (c.toNat / 16) 0, (digitBytes upper).getD (c.toNat % 16) 0]

/-- The bytes up to the precision. -/
def Opts.bytes (o : Opts) (s : Str) : Str :=
  match o.prec with
  | some p => s.take p
  | none => s

/-- The bytes in base 16, up to the precision. -/
def hexBytes (o : Opts) (upper : Bool) (s : Str) : Str :=
  let bytes := o.bytes s
  let pre : Str := if o.sharp then (if upper then b!"0X" else b!"0x") else []
  if bytes = [] then []
  else if o.space then b!" ".intercalate (bytes.map fun c => pre ++ hexByte upper c)
  else pre ++ bytes.flatMap (hexByte upper)

/-! ## Arguments -/

/-- The names of the types. -/
def Val.type : Val → Option Str
  | .int _ => some b!"int"
  | .uint _ => some b!"uint"
  | .str _ => some b!"string"
  | .bool _ => some b!"bool"
  | .nil => none

/-- The verbs an argument can be shown with. -/
def Val.knows (v : Val) (verb : Str) : Prop :=
  verb = b!"T" ∨ match v with
  | .int _ | .uint _ => verb ∈ [b!"v", b!"d", b!"b", b!"o", b!"O", b!"x", b!"X", b!"c", b!"q", b!"U"]
  | .str _ => verb ∈ [b!"v", b!"s", b!"x", b!"X", b!"q"]
  | .bool _ => verb ∈ [b!"v", b!"t"]
  | .nil => verb = b!"v"

/-- How an argument looks under a verb; `go` asks for Go syntax. -/
inductive Looks (L : Lib) (o : Opts) (go : Bool) : Str → Val → Str → Prop
  | number {v : Val} {neg : Bool} {n base : Nat} {upper : Bool} {mark verb out : Str} : v.number = some (neg, n) →
      numVerb verb = some (base, upper, mark) → ¬ (go = true ∧ verb = b!"v" ∧ v.type = some b!"uint") →
      Numeric o base upper mark neg n out → Looks L o go verb v out
  | goUint {u : UInt64} {out : Str} : go = true → Numeric { o with sharp := true } 16 false [] false u.toNat out → Looks L o go b!"v" (.uint u) out
  | char {v : Val} {neg : Bool} {n : Nat} {out : Str} : v.number = some (neg, n) → Filled o o.fill (charOf neg n) out → Looks L o go b!"c" v out
  | quotedChar {v : Val} {neg : Bool} {n : Nat} {out : Str} : v.number = some (neg, n) →
      Filled o o.fill (L.quoteRune o.plus (UInt64.ofNat (bits neg n))) out → Looks L o go b!"q" v out
  | unicode {v : Val} {neg : Bool} {n z : Nat} {ds out : Str} : v.number = some (neg, n) → Writes 16 true (bits neg n) ds →
      z + ds.length = max (max 4 (o.prec.getD 0)) ds.length →
      Filled o 32 (b!"U+" ++ List.replicate z 48 ++ ds ++
        if o.sharp ∧ bits neg n ≤ 0x10FFFF ∧ L.isPrint (bits neg n) then b!" '" ++ Utf8.encode (bits neg n) ++ b!"'" else []) out →
      Looks L o go b!"U" v out
  | text {s t verb out : Str} : verb = b!"s" ∨ verb = b!"v" ∧ go = false → Cut o s t → Filled o o.fill t out → Looks L o go verb (.str s) out
  | quoted {s t q verb out : Str} : verb = b!"q" ∨ verb = b!"v" ∧ go = true → Cut o s t → Literally L o t q → Filled o o.fill q out →
      Looks L o go verb (.str s) out
  | hex {s verb out : Str} {upper : Bool} : verb = (if upper then b!"X" else b!"x") → Filled o o.fill (hexBytes o upper s) out →
      Looks L o go verb (.str s) out
  | truth {b : Bool} {verb out : Str} : verb = b!"t" ∨ verb = b!"v" → Filled o o.fill (if b then b!"true" else b!"false") out →
      Looks L o go verb (.bool b) out
  | nothing {verb out : Str} : verb = b!"v" ∨ verb = b!"T" → Filled o o.fill b!"<nil>" out → Looks L o go verb .nil out
  | type {v : Val} {n t out : Str} : v.type = some n → Cut o n t → Filled o o.fill t out → Looks L o go b!"T" v out
  | unknown {v : Val} {n t verb : Str} : v.type = some n → ¬ v.knows verb → Looks L o go b!"v" v t →
      Looks L o go verb v (b!"%!" ++ verb ++ b!"(" ++ n ++ b!"=" ++ t ++ b!")")
  | unknownNil {verb : Str} : ¬ Val.nil.knows verb → Looks L o go verb .nil (b!"%!" ++ verb ++ b!"(<nil>)")

/-- How an argument looks in a directive: for `%v` (and `%w`) `#` asks for Go syntax, and `+` means nothing. -/
def Shows (L : Lib) (o : Opts) (verb : Str) (v : Val) (out : Str) : Prop :=
  if verb = b!"v" ∨ verb = b!"w" then Looks L { o with sharp := false, plus := false } o.sharp verb v out
  else Looks L o false verb v out

end Verif.Fmt
