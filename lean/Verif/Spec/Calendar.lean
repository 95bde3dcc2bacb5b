import Verif.Model.GoStr
/-!
# The Gregorian calendar

Days are counted one by one from 1 January 1970, forwards and backwards.  Nothing of `Model/Time.lean` is used.
-/
namespace Verif.Time
open Verif

/-- A leap year. -/
def Leap (y : Int) : Prop := 400 ∣ y ∨ (4 ∣ y ∧ ¬ 100 ∣ y)

instance (y : Int) : Decidable (Leap y) := inferInstanceAs (Decidable (_ ∨ _))

/-- A date; months and days begin with 1. -/
structure Date where
  year : Int
  month : Nat
  day : Nat
  deriving DecidableEq

/-- How many days a month has. -/
def monthLength (y : Int) (m : Nat) : Nat :=
  if m = 2 then (if Leap y then 29 else 28)
  else if m = 4 ∨ m = 6 ∨ m = 9 ∨ m = 11 then 30
  else 31

/-- There is such a date. -/
def Date.Valid (D : Date) : Prop := 1 ≤ D.month ∧ D.month ≤ 12 ∧ 1 ≤ D.day ∧ D.day ≤ monthLength D.year D.month

/-- The day after. -/
def Date.next (D : Date) : Date :=
  if D.day < monthLength D.year D.month then { D with day := D.day + 1 }
  else if D.month < 12 then { D with month := D.month + 1, day := 1 }
  else { year := D.year + 1, month := 1, day := 1 }

/-- The date of the `n`-th day after 1 January 1970. -/
inductive DayNo : Int → Date → Prop where
  | epoch : DayNo 0 ⟨1970, 1, 1⟩
  | next {n : Int} {D : Date} : DayNo n D → DayNo (n + 1) D.next
  | prev {n : Int} {D : Date} : D.Valid → DayNo (n + 1) D.next → DayNo n D

/-- The number a text of digits stands for. -/
def decVal (s : Str) : Nat := s.foldl (fun a c => 10 * a + (c.toNat - 48)) 0

/-- `s` is `n` in `w` digits. -/
def Digits (w n : Nat) (s : Str) : Prop := s.length = w ∧ (∀ c ∈ s, 48 ≤ c ∧ c ≤ 57) ∧ decVal s = n

/-- The local time, `z` seconds east of Greenwich, at `u` seconds after the beginning of 1970 (UTC). -/
def Local (u z : Int) (D : Date) (h m s : Nat) : Prop :=
  ∃ day, DayNo day D ∧ u + z = 86400 * day + 3600 * h + 60 * m + s ∧ h < 24 ∧ m < 60 ∧ s < 60

/-- `YYYY-MM-DD hh:mm:ss+hhmm`: the local time and how many whole minutes it is off from UTC. -/
def Stamped (u z : Int) (text : Str) : Prop :=
  ∃ D h m s, Local u z D h m s ∧ ∃ (year zh zm : Nat), D.year = year ∧ zm < 60 ∧ z.natAbs / 60 = 60 * zh + zm ∧
  ∃ ty tm td th tmi ts tzh tzm, Digits 4 year ty ∧ Digits 2 D.month tm ∧ Digits 2 D.day td ∧ Digits 2 h th ∧ Digits 2 m tmi ∧ Digits 2 s ts ∧
    Digits 2 zh tzh ∧ Digits 2 zm tzm ∧
    text = ty ++ b!"-" ++ tm ++ b!"-" ++ td ++ b!" " ++ th ++ b!":" ++ tmi ++ b!":" ++ ts ++ (if z ≤ -60 then b!"-" else b!"+") ++ tzh ++ tzm

end Verif.Time
