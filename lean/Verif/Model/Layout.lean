import Verif.Model.Time
/-!
# Layouts of `Time.Format` (cmd/xtemplate/internal/param.go:136)

`nextStdChunk` and the loop of `Time.appendFormat` of package time of Go 1.23.  What `appendFormat` writes for the parts of a layout that
the one of the POT header does not have (names of months and days, the day of the year, hours up to 12, fractions of seconds, names of
zones and other ways to write an offset) is a parameter.
-/
namespace Verif.Time
open Verif

/-- The parts of a layout (the constants `stdLongMonth` and so on).  For param.go:136. -/
inductive Std
  | longMonth | month | numMonth | zeroMonth | longWeekDay | weekDay | day | underDay | zeroDay | underYearDay | zeroYearDay
  | hour | hour12 | zeroHour12 | minute | zeroMinute | second | zeroSecond | longYear | year | pmUpper | pmLower
  | tz | isoTz | isoSecondsTz | isoShortTz | isoColonTz | isoColonSecondsTz
  | numTz | numSecondsTz | numShortTz | numColonTz | numColonSecondsTz
  | frac (nines : Bool) (digits : Nat) (sep : UInt8)
  deriving DecidableEq

/-- `startsWithLowerCase` for param.go:136. -/
def startsLower : Str → Bool
  | c :: _ => 97 ≤ c && c ≤ 122
  | [] => false

/-- `std0x` for param.go:136: the part that is written `0` and this digit. -/
def std0x (c : UInt8) : Option Std :=
  if c = 49 then some .zeroMonth
  else if c = 50 then some .zeroDay
  else if c = 51 then some .zeroHour12
  else if c = 52 then some .zeroMinute
  else if c = 53 then some .zeroSecond
  else if c = 54 then some .year
  else none

/-- The first of the texts the layout begins with, what it stands for, and the rest.  For param.go:136. -/
def firstOf (s : Str) : List (Str × Std) → Option (Std × Str)
  | [] => none
  | (t, std) :: l => if GoStr.hasPrefix s t then some (std, s.drop t.length) else firstOf s l

/-- One round of the loop of `nextStdChunk` for param.go:136, at the byte `c` with `s` behind it: the bytes that still belong to the text
before the part, the part, and what is behind it. -/
def chunkAt (c : UInt8) (s : Str) : Option (Str × Std × Str) :=
  if c = 74 then
    if GoStr.hasPrefix s b!"an" then
      if GoStr.hasPrefix s b!"anuary" then some ([], .longMonth, s.drop 6)
      else if startsLower (s.drop 2) = false then some ([], .month, s.drop 2)
      else none
    else none
  else if c = 77 then
    if GoStr.hasPrefix s b!"on" then
      if GoStr.hasPrefix s b!"onday" then some ([], .longWeekDay, s.drop 5)
      else if startsLower (s.drop 2) = false then some ([], .weekDay, s.drop 2)
      else none
    else if GoStr.hasPrefix s b!"ST" then some ([], .tz, s.drop 2)
    else none
  else if c = 48 then
    match s with
    | d :: r =>
      match std0x d with
      | some std => some ([], std, r)
      | none => if GoStr.hasPrefix s b!"02" then some ([], .zeroYearDay, s.drop 2) else none
    | [] => none
  else if c = 49 then
    if GoStr.hasPrefix s b!"5" then some ([], .hour, s.drop 1) else some ([], .numMonth, s)
  else if c = 50 then
    if GoStr.hasPrefix s b!"006" then some ([], .longYear, s.drop 3) else some ([], .day, s)
  else if c = 95 then
    if GoStr.hasPrefix s b!"2" then
      if GoStr.hasPrefix s b!"2006" then some ([95], .longYear, s.drop 4) else some ([], .underDay, s.drop 1)
    else if GoStr.hasPrefix s b!"_2" then some ([], .underYearDay, s.drop 2)
    else none
  else if c = 51 then some ([], .hour12, s)
  else if c = 52 then some ([], .minute, s)
  else if c = 53 then some ([], .second, s)
  else if c = 80 then
    if GoStr.hasPrefix s b!"M" then some ([], .pmUpper, s.drop 1) else none
  else if c = 112 then
    if GoStr.hasPrefix s b!"m" then some ([], .pmLower, s.drop 1) else none
  else if c = 45 then
    (firstOf s [(b!"070000", .numSecondsTz), (b!"07:00:00", .numColonSecondsTz), (b!"0700", .numTz), (b!"07:00", .numColonTz),
      (b!"07", .numShortTz)]).map fun r => ([], r.1, r.2)
  else if c = 90 then
    (firstOf s [(b!"070000", .isoSecondsTz), (b!"07:00:00", .isoColonSecondsTz), (b!"0700", .isoTz), (b!"07:00", .isoColonTz),
      (b!"07", .isoShortTz)]).map fun r => ([], r.1, r.2)
  else if c = 46 ∨ c = 44 then
    match s with
    | d :: _ =>
      if d = 48 ∨ d = 57 then
        let run := s.takeWhile (· == d)
        let rest := s.dropWhile (· == d)
        if (match rest with | e :: _ => 48 ≤ e && e ≤ 57 | [] => false) = false then some ([], .frac (d == 57) run.length c, rest) else none
      else none
    | [] => none
  else none

/-- `nextStdChunk` for param.go:136: the text before the first part of a layout, the part, and the rest; or the whole layout. -/
def nextStdChunk : Str → Str × Option (Std × Str)
  | [] => ([], none)
  | c :: s =>
    match chunkAt c s with
    | some (pre, std, rest) => (pre, some (std, rest))
    | none => let r := nextStdChunk s; (c :: r.1, r.2)

/-- The `switch` of `appendFormat` for param.go:136; `other` is what it writes for parts that are not modelled. -/
def appendPart (other : Std → Str) (sec offset : Int) (std : Std) : Str :=
  let abs := locabs sec offset
  let date := absDate abs
  let clock := absClock abs
  match std with
  | .year => let y := if date.1 < 0 then 0 else date.1; appendInt (y % 100) 2
  | .longYear => appendInt date.1 4
  | .numMonth => appendInt (date.2.1 : Nat) 0
  | .zeroMonth => appendInt (date.2.1 : Nat) 2
  | .day => appendInt (date.2.2 : Nat) 0
  | .zeroDay => appendInt (date.2.2 : Nat) 2
  | .hour => appendInt (clock.1 : Nat) 2
  | .minute => appendInt (clock.2.1 : Nat) 0
  | .zeroMinute => appendInt (clock.2.1 : Nat) 2
  | .second => appendInt (clock.2.2 : Nat) 0
  | .zeroSecond => appendInt (clock.2.2 : Nat) 2
  | .numTz => zoneText offset
  | std => other std

/-- `Time.Format` for param.go:136: the loop of `appendFormat`, with a bound on its rounds. -/
def formatN (other : Std → Str) (sec offset : Int) : Nat → Str → Str
  | 0, _ => []
  | n + 1, layout =>
    match nextStdChunk layout with
    | (pre, none) => pre
    | (pre, some (std, rest)) => pre ++ (appendPart other sec offset std ++ formatN other sec offset n rest)

/-- `Time.Format` (param.go:136): every part of a layout has a byte at least. -/
def format (other : Std → Str) (sec offset : Int) (layout : Str) : Str := formatN other sec offset layout.length layout

end Verif.Time
