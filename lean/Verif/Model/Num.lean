import Verif.Model.GoStr
/-!
# Decimal numbers: `strconv.ParseInt` and `%d`
-/
namespace Verif.Num

/-- Is this byte an ASCII decimal digit?.
For translator/entry.go:57, plural.go:33 and plurals/exp.go:320 (`strconv.ParseInt`), and `%d`. -/
def isDigit (c : UInt8) : Bool := 48 ≤ c && c ≤ 57

/-- Value of a digit string read left to right, on top of `acc`; `none` if a non-digit occurs.
For translator/entry.go:57, plural.go:33 and plurals/exp.go:320 (`strconv.ParseInt`), and `%d`. -/
def digitsVal (acc : Nat) : Str → Option Nat
  | [] => some acc
  | c :: cs => if isDigit c then digitsVal (acc * 10 + (c.toNat - 48)) cs else none

/-- The largest and smallest int64.  For translator/entry.go:57, plural.go:33 and plurals/exp.go:320 (`strconv.ParseInt`), and `%d`. -/
def maxI64 : Int := 9223372036854775807
/-- For translator/entry.go:57, plural.go:33 and plurals/exp.go:320 (`strconv.ParseInt`), and `%d`. -/
def minI64 : Int := -9223372036854775808

/-- `strconv.ParseInt(s, 10, 64)`: an optional sign and at least one decimal digit, in the int64
range; `none` stands for a non-nil error.  Used in plurals/exp.go:320, translator/plural.go:33,
translator/entry.go:57, cmd/xtemplate/internal/keyword.go:56-111. -/
def parseInt (s : Str) : Option Int :=
  let mk (neg : Bool) (ds : Str) : Option Int :=
    if ds.isEmpty then none
    else match digitsVal 0 ds with
      | none => none
      | some v =>
        let i : Int := if neg then - (v : Int) else (v : Int)
        if minI64 ≤ i && i ≤ maxI64 then some i else none
  match s with
  | 43 :: ds => mk false ds   -- '+'
  | 45 :: ds => mk true ds    -- '-'
  | ds => mk false ds

/-- Decimal digits of `n`, most significant first, with fuel.
For translator/entry.go:57, plural.go:33 and plurals/exp.go:320 (`strconv.ParseInt`), and `%d`. -/
def digitsAux : Nat → Nat → Str
  | 0, _ => []
  | f + 1, n =>
    if n < 10 then [UInt8.ofNat (48 + n)]
    else digitsAux f (n / 10) ++ [UInt8.ofNat (48 + n % 10)]

/-- `%d` of a non-negative number.  For translator/entry.go:57, plural.go:33 and plurals/exp.go:320 (`strconv.ParseInt`), and `%d`. -/
def natDigits (n : Nat) : Str := digitsAux (n + 1) n

/-- `%d` of a signed number.  For translator/entry.go:57, plural.go:33 and plurals/exp.go:320 (`strconv.ParseInt`), and `%d`. -/
def intDigits (i : Int) : Str :=
  match i with
  | .ofNat n => natDigits n
  | .negSucc n => 45 :: natDigits (n + 1)

/-- `fmt.Sprintf("%10d", i)` (translator/entry.go:61): right-aligned in width 10, padded with blanks. -/
def pad10 (i : Int) : Str :=
  let d := intDigits i
  List.replicate (10 - d.length) 32 ++ d

end Verif.Num
