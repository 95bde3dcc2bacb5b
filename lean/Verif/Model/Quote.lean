import Verif.Model.Utf8
/-!
# Quoted strings: `%q` and `strconv.Unquote`

`fmt.Fprintf(buf, "%q\n", line)` (translator/pot.go:20) is `strconv.AppendQuote`;
`removePrefixAndUnquote` (translator/util.go:14-18) calls `strconv.Unquote`.
The definitions follow the Go 1.23 sources (strconv/quote.go).  `strconv.IsPrint`, a table of the
Unicode standard, is a parameter `P`.
-/
namespace Verif.Quote

/-- `lowerhex[n]`.  For translator/pot.go:20 (`%q`). -/
def hexDigit (n : Nat) : UInt8 := if n < 10 then UInt8.ofNat (48 + n) else UInt8.ofNat (87 + n)

/-- `k` hexadecimal digits of `r`, most significant first.  For translator/pot.go:20 (`%q`). -/
def hexN : Nat → Nat → Str
  | 0, _ => []
  | k + 1, r => hexDigit (r / 16 ^ k % 16) :: hexN k r

/-- The one-letter escapes `\a \b \f \n \r \t \v`.  For translator/pot.go:20 (`%q`). -/
def letterEsc (r : Nat) : Option UInt8 :=
  if r = 7 then some 97 else if r = 8 then some 98 else if r = 12 then some 102
  else if r = 10 then some 110 else if r = 13 then some 114 else if r = 9 then some 116
  else if r = 11 then some 118 else none

/-- `appendEscapedRune(nil, r, '"', false, false)`.  For translator/pot.go:20 (`%q`). -/
def escRune (P : Nat → Bool) (r : Nat) : Str :=
  if r = 34 ∨ r = 92 then [92, UInt8.ofNat r]
  else if P r then Utf8.encode r
  else match letterEsc r with
    | some c => [92, c]
    | none =>
      if r < 32 ∨ r = 127 then [92, 120] ++ hexN 2 r
      else if !Utf8.validRune r then [92, 117] ++ hexN 4 Utf8.runeError
      else if r < 0x10000 then [92, 117] ++ hexN 4 r
      else [92, 85] ++ hexN 8 r

/-- The loop of `appendQuotedWith`.  The first argument bounds the number of rounds; every round
consumes at least one byte, so the length of the text is enough.  For translator/pot.go:20 (`%q`). -/
def quoteLoop (P : Nat → Bool) : Nat → Str → Str
  | 0, _ => []
  | _ + 1, [] => []
  | k + 1, b :: t =>
    let (r, w) := if b < 0x80 then (b.toNat, 1) else Utf8.decode (b :: t)
    (if w = 1 ∧ r = Utf8.runeError then [92, 120] ++ hexN 2 b.toNat else escRune P r)
      ++ quoteLoop P k ((b :: t).drop w)

/-- `strconv.Quote(s)`, the `%q` form of `s`.  For translator/pot.go:20 (`%q`). -/
def quote (P : Nat → Bool) (s : Str) : Str := 34 :: quoteLoop P s.length s ++ [34]

/-- `unhex`.  For translator/util.go:17 (`strconv.Unquote`). -/
def unhex (c : UInt8) : Option Nat :=
  if 48 ≤ c ∧ c ≤ 57 then some (c.toNat - 48)
  else if 97 ≤ c ∧ c ≤ 102 then some (c.toNat - 87)
  else if 65 ≤ c ∧ c ≤ 70 then some (c.toNat - 55)
  else none

/-- Read `n` hexadecimal digits.  For translator/util.go:17 (`strconv.Unquote`). -/
def readHex : Nat → Nat → Str → Option (Nat × Str)
  | 0, v, s => some (v, s)
  | _ + 1, _, [] => none
  | n + 1, v, c :: s =>
    match unhex c with
    | some x => readHex n (v * 16 + x) s
    | none => none

/-- The value of an octal digit.  For translator/util.go:17 (`strconv.Unquote`). -/
def unoct (c : UInt8) : Option Nat := if 48 ≤ c ∧ c ≤ 55 then some (c.toNat - 48) else none

/-- Value of a one-letter escape.  For translator/util.go:17 (`strconv.Unquote`). -/
def letterVal (c : UInt8) : Option Nat :=
  if c = 97 then some 7 else if c = 98 then some 8 else if c = 102 then some 12
  else if c = 110 then some 10 else if c = 114 then some 13 else if c = 116 then some 9
  else if c = 118 then some 11 else none

/-- The part of `UnquoteChar` after a backslash: value, `multibyte`, rest.  For translator/util.go:17 (`strconv.Unquote`). -/
def unquoteEsc (q c : UInt8) (s : Str) : Option (Nat × Bool × Str) :=
  match letterVal c with
  | some v => some (v, false, s)
  | none =>
    if c = 120 then (readHex 2 0 s).map fun p => (p.1, false, p.2)
    else if c = 117 then
      (readHex 4 0 s).bind fun p => if Utf8.validRune p.1 then some (p.1, true, p.2) else none
    else if c = 85 then
      (readHex 8 0 s).bind fun p => if Utf8.validRune p.1 then some (p.1, true, p.2) else none
    else match unoct c with
      | some v0 =>
        match s with
        | c1 :: c2 :: s =>
          (unoct c1).bind fun v1 => (unoct c2).bind fun v2 =>
            let v := (v0 * 8 + v1) * 8 + v2
            if v > 255 then none else some (v, false, s)
        | _ => none
      | none =>
        if c = 92 then some (92, false, s)
        else if c = 39 ∨ c = 34 then (if c = q then some (c.toNat, false, s) else none)
        else none

/-- `strconv.UnquoteChar(s, q)` for `q` a single or double quote.  For translator/util.go:17 (`strconv.Unquote`). -/
def unquoteChar (q : UInt8) : Str → Option (Nat × Bool × Str)
  | [] => none
  | c :: s =>
    if c = q then none
    else if 0x80 ≤ c then
      let (r, w) := Utf8.decode (c :: s)
      some (r, true, (c :: s).drop w)
    else if c ≠ 92 then some (c.toNat, false, s)
    else match s with
      | [] => none
      | c :: s => unquoteEsc q c s

/-- The bytes one unquoted character stands for.  For translator/util.go:17 (`strconv.Unquote`). -/
def charBytes (r : Nat) (multibyte : Bool) : Str :=
  if r < 0x80 ∨ multibyte = false then [UInt8.ofNat r] else Utf8.encode r

/-- The loop over the characters of a quoted string: the text before the next unescaped quote, and
the rest starting at that quote (or empty).  A single-quoted literal stops after one character.
The first argument bounds the number of rounds.  For translator/util.go:17 (`strconv.Unquote`). -/
def unquoteLoop (q : UInt8) : Nat → Str → Option (Str × Str)
  | 0, s => some ([], s)
  | _ + 1, [] => some ([], [])
  | k + 1, c :: s =>
    if c = q then some ([], c :: s)
    else match unquoteChar q (c :: s) with
      | none => none
      | some (r, mb, rem) =>
        if c = 10 then none
        else if q = 39 then some (charBytes r mb, rem)
        else (unquoteLoop q k rem).map fun p => (charBytes r mb ++ p.1, p.2)

/-- `utf8.ValidString`.  For translator/util.go:17 (`strconv.Unquote`). -/
def validString : Nat → Str → Bool
  | 0, s => s.isEmpty
  | _ + 1, [] => true
  | k + 1, b :: t =>
    let (r, w) := Utf8.decode (b :: t)
    if w = 1 ∧ r = Utf8.runeError then false else validString k ((b :: t).drop w)

/-- The part of `unquote` for quoted strings with escape sequences.  For translator/util.go:17 (`strconv.Unquote`). -/
def unquoteSlow (q : UInt8) (s : Str) : Option (Str × Str) :=
  match unquoteLoop q s.length s with
  | some (out, c :: rem) => if c = q then some (out, rem) else none
  | _ => none

/-- `strconv.unquote(in, true)`: the value and the rest; `none` is `ErrSyntax`.  For translator/util.go:17 (`strconv.Unquote`). -/
def unquote0 (s : Str) : Option (Str × Str) :=
  match s with
  | [] => none
  | q :: body =>
    match GoStr.indexByte q body with
    | none => none
    | some e =>
      let inner := body.take e      -- in[1 : end-1]
      let rem := body.drop (e + 1)  -- in[end:]
      if q = 96 then some (inner.filter (· != 13), rem)
      else if q = 34 ∨ q = 39 then
        let fast := !(q :: inner).contains 92 && !(q :: inner).contains 10 &&
          (if q = 34 then validString inner.length inner
           else
             let (r, n) := Utf8.decode inner
             n == inner.length && !(r == Utf8.runeError && n == 1))
        if fast then some (inner, rem) else unquoteSlow q body
      else none

/-- `strconv.Unquote(s)`; `none` is `ErrSyntax`.  For translator/util.go:17 (`strconv.Unquote`). -/
def unquote (s : Str) : Option Str :=
  match unquote0 s with
  | some (out, []) => some out
  | _ => none

end Verif.Quote
