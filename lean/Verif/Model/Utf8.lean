import Verif.Model.GoStr
/-!
# UTF-8 (`unicode/utf8`)

Runes are natural numbers.  Used by the models of `fmt` (verbs), `strconv.Quote`/`Unquote`
(translator/pot.go:93, translator/util.go:17) and of identifier scanning
(cmd/xtemplate/internal/run.go).
-/
namespace Verif.Utf8

/-- `utf8.RuneError`, U+FFFD.  For translator/pot.go:20 and util.go:17 (package utf8). -/
def runeError : Nat := 0xFFFD

/-- Range of the second byte and length for a leading byte of a multi-byte sequence
(`utf8.first`, `utf8.acceptRanges`).  For translator/pot.go:20 and util.go:17 (package utf8). -/
def lead (b : UInt8) : Option (Nat × UInt8 × UInt8) :=
  if 0xC2 ≤ b && b ≤ 0xDF then some (2, 0x80, 0xBF)
  else if b == 0xE0 then some (3, 0xA0, 0xBF)
  else if (0xE1 ≤ b && b ≤ 0xEC) || b == 0xEE || b == 0xEF then some (3, 0x80, 0xBF)
  else if b == 0xED then some (3, 0x80, 0x9F)
  else if b == 0xF0 then some (4, 0x90, 0xBF)
  else if 0xF1 ≤ b && b ≤ 0xF3 then some (4, 0x80, 0xBF)
  else if b == 0xF4 then some (4, 0x80, 0x8F)
  else none

/-- Is it a continuation byte 0x80..0xBF?.  For translator/pot.go:20 and util.go:17 (package utf8). -/
def isCont (b : UInt8) : Bool := 0x80 ≤ b && b ≤ 0xBF

/-- `utf8.DecodeRuneInString`: the first rune and its width; `(RuneError, 1)` on invalid input and
`(RuneError, 0)` on the empty string.  For translator/pot.go:20 and util.go:17 (package utf8). -/
def decode (s : Str) : Nat × Nat :=
  match s with
  | [] => (runeError, 0)
  | b0 :: t =>
    if b0 < 0x80 then (b0.toNat, 1)
    else match lead b0, t with
      | some (2, lo, hi), b1 :: _ =>
        if lo ≤ b1 && b1 ≤ hi then ((b0.toNat - 0xC0) * 64 + (b1.toNat - 0x80), 2) else (runeError, 1)
      | some (3, lo, hi), b1 :: b2 :: _ =>
        if (lo ≤ b1 && b1 ≤ hi) && isCont b2 then
          ((b0.toNat - 0xE0) * 4096 + (b1.toNat - 0x80) * 64 + (b2.toNat - 0x80), 3)
        else (runeError, 1)
      | some (4, lo, hi), b1 :: b2 :: b3 :: _ =>
        if (lo ≤ b1 && b1 ≤ hi) && isCont b2 && isCont b3 then
          ((b0.toNat - 0xF0) * 262144 + (b1.toNat - 0x80) * 4096 + (b2.toNat - 0x80) * 64
            + (b3.toNat - 0x80), 4)
        else (runeError, 1)
      | _, _ => (runeError, 1)

/-- Is the rune valid: below 0x110000 and not a surrogate (`utf8.ValidRune`)?.  For translator/pot.go:20 and util.go:17 (package utf8). -/
def validRune (r : Nat) : Bool := r < 0xD800 || (0xE000 ≤ r && r < 0x110000)

/-- `utf8.AppendRune(nil, r)`: invalid runes are encoded as U+FFFD.  For translator/pot.go:20 and util.go:17 (package utf8). -/
def encode (r : Nat) : Str :=
  if r < 0x80 then [UInt8.ofNat r]
  else if r < 0x800 then [UInt8.ofNat (0xC0 + r / 64), UInt8.ofNat (0x80 + r % 64)]
  else if !validRune r then [0xEF, 0xBF, 0xBD]
  else if r < 0x10000 then
    [UInt8.ofNat (0xE0 + r / 4096), UInt8.ofNat (0x80 + r / 64 % 64), UInt8.ofNat (0x80 + r % 64)]
  else
    [UInt8.ofNat (0xF0 + r / 262144), UInt8.ofNat (0x80 + r / 4096 % 64),
      UInt8.ofNat (0x80 + r / 64 % 64), UInt8.ofNat (0x80 + r % 64)]

end Verif.Utf8
