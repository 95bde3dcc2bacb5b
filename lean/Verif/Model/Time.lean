import Verif.Model.GoStr
/-!
# The date in the header of a POT (cmd/xtemplate/internal/param.go:136)

`time.Now().Format("2006-01-02 15:04:05-0700")` with package time of Go 1.23: `Time.locabs`, `absDate`, `absClock`, `appendInt` and the branches of
`appendFormat` the layout uses.  The cutting of the layout into its parts (`nextStdChunk`) is done by hand.  The instant and the offset of
the local zone in seconds are parameters.
-/
namespace Verif.Time
open Verif

/-- `unixToInternal + internalToAbsolute`: seconds from the year -292277022399 to 1970.  For param.go:136. -/
def unixToAbsolute : Int := 9223372028715321600

/-- `Time.locabs` for param.go:136: `uint64(sec + offset + unixToAbsolute)`. -/
def locabs (sec offset : Int) : Nat := ((sec + offset + unixToAbsolute) % 2 ^ 64).toNat

/-- `isLeap` for param.go:136. -/
def isLeap (year : Int) : Bool := year % 4 == 0 && (year % 100 != 0 || year % 400 == 0)

/-- `daysBefore` for param.go:136. -/
def daysBefore : List Nat := [0, 31, 59, 90, 120, 151, 181, 212, 243, 273, 304, 334, 365]

/-- The second half of `absDate` for param.go:136: month and day of a day of the year, counted from 0. -/
def monthDay (leap : Bool) (yday : Nat) : Nat × Nat :=
  if leap && yday == 31 + 29 - 1 then (2, 29)
  else
    let day := if leap && yday > 31 + 29 - 1 then yday - 1 else yday
    let month := day / 31
    let fin := daysBefore.getD (month + 1) 0
    if day ≥ fin then (month + 1 + 1, day - fin + 1)
    else (month + 1, day - daysBefore.getD month 0 + 1)

/-- The first half of `absDate` for param.go:136: the year, counted from -292277022399, and the day of it, counted from 0. -/
def yearDay (d : Nat) : Nat × Nat :=
  let n400 := d / 146097
  let d := d - 146097 * n400
  let n := d / 36524
  let n100 := n - n / 4
  let d := d - 36524 * n100
  let n4 := d / 1461
  let d := d - 1461 * n4
  let n := d / 365
  let n1 := n - n / 4
  (400 * n400 + 100 * n100 + 4 * n4 + n1, d - 365 * n1)

/-- `absDate` for param.go:136. -/
def absDate (abs : Nat) : Int × Nat × Nat :=
  let yd := yearDay (abs / 86400)
  let year : Int := yd.1 - 292277022399
  (year, monthDay (isLeap year) yd.2)

/-- `absClock` for param.go:136. -/
def absClock (abs : Nat) : Nat × Nat × Nat :=
  let sec := abs % 86400
  let hour := sec / 3600
  let sec := sec - hour * 3600
  let min := sec / 60
  (hour, min, sec - min * 60)

/-- A digit (`utod` in `appendInt`).  For param.go:136. -/
def utod (u : Nat) : UInt8 := UInt8.ofNat (48 + u)

/-- The digits of a number, without leading zeros.  For param.go:136. -/
def digits (u : Nat) : Str :=
  if u < 10 then [utod u] else digits (u / 10) ++ [utod (u % 10)]

/-- `appendInt` for param.go:136: at least `width` digits. -/
def appendInt (x : Int) (width : Nat) : Str :=
  let u := x.natAbs
  let s := digits u
  (if x < 0 then [45] else []) ++ (List.replicate (width - s.length) 48 ++ s)

/-- The branch `stdNumTZ` of `appendFormat` for param.go:136. -/
def zoneText (offset : Int) : Str :=
  let zone := offset.tdiv 60
  (if zone < 0 then [45] else [43]) ++ (appendInt (zone.natAbs / 60 : Nat) 2 ++ appendInt (zone.natAbs % 60 : Nat) 2)

/-- `Format("2006-01-02 15:04:05-0700")` (param.go:136). -/
def stamp (sec offset : Int) : Str :=
  let abs := locabs sec offset
  let date := absDate abs
  let clock := absClock abs
  appendInt date.1 4 ++ (45 :: (appendInt date.2.1 2 ++ (45 :: (appendInt date.2.2 2 ++ (32 :: (appendInt clock.1 2 ++
    (58 :: (appendInt clock.2.1 2 ++ (58 :: (appendInt clock.2.2 2 ++ zoneText offset))))))))))

end Verif.Time
