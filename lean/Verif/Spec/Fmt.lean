import Verif.Model.GoStr
/-!
# Which format strings end outside a directive

A grammar-level description of the directives of package fmt,
`%` flags `[index]`? width? (`.` `[index]`? precision?)? `[index]`? verb, that does not look at the
arguments.  `Closed s` says that every directive of `s` has its verb inside `s`, every `[` that
starts an index has its `]` inside `s`, and the numbers in directives are at most a million (the
limit of package fmt).
-/
namespace Verif.Fmt

def isFlagByte (c : UInt8) : Bool := c = 35 || c = 48 || c = 43 || c = 45 || c = 32

def digitByte (c : UInt8) : Bool := 48 ≤ c && c ≤ 57

/-- The decimal value of a run of digits. -/
def decVal (ds : Str) : Nat := ds.foldl (fun n c => n * 10 + (c.toNat - 48)) 0

/-- Skip a number of at most a million. -/
def skipNum (s : Str) : Option Str :=
  if decVal (s.takeWhile digitByte) ≤ 1000000 then some (s.dropWhile digitByte) else none

/-- Skip an index if there is one: `some (true, rest)` if a well-formed index was skipped. -/
def skipIndex (s : Str) : Option (Bool × Str) :=
  match s with
  | 91 :: t =>
    let body := t.takeWhile (· != 93)
    match t.dropWhile (· != 93) with
    | [] => none
    | _ :: r =>
      if body ≠ [] ∧ body.all digitByte then
        if decVal body ≤ 1000000 then some (true, r) else none
      else some (false, r)
  | s => some (false, s)

/-- Skip a width or precision: `*` or a number; reports whether it was a `*`. -/
def skipStarNum (s : Str) : Option (Bool × Str) :=
  match s with
  | 42 :: r => some (true, r)
  | s => (skipNum s).map fun r => (false, r)

/-- Skip the optional precision, given whether an index comes just before. -/
def skipPrec (after : Bool) (s : Str) : Option (Bool × Str) :=
  match s with
  | 46 :: r =>
    (skipIndex r).bind fun p => (skipStarNum p.2).map fun q => (p.1 && !q.1, q.2)
  | s => some (after, s)

/-- The bytes from the verb of the directive on, `s` being what follows its `%`. -/
def toVerb (s : Str) : Option Str :=
  (skipIndex (s.dropWhile isFlagByte)).bind fun p =>
  (skipStarNum p.2).bind fun q =>
  (skipPrec (p.1 && !q.1) q.2).bind fun u =>
  if u.1 then some u.2 else (skipIndex u.2).map (·.2)

/-- The number of bytes of the UTF-8 encoded verb at the head of `s`; 1 if it is not valid UTF-8. -/
def verbLen (s : Str) : Nat :=
  let cont (lo hi : UInt8) (c : Option UInt8) : Bool := match c with
    | some c => lo ≤ c && c ≤ hi
    | none => false
  match s with
  | [] => 0
  | b :: t =>
    if 0xC2 ≤ b && b ≤ 0xDF && cont 0x80 0xBF t[0]? then 2
    else if 0xE0 ≤ b && b ≤ 0xEF &&
      cont (if b = 0xE0 then 0xA0 else 0x80) (if b = 0xED then 0x9F else 0xBF) t[0]? &&
      cont 0x80 0xBF t[1]? then 3
    else if 0xF0 ≤ b && b ≤ 0xF4 &&
      cont (if b = 0xF0 then 0x90 else 0x80) (if b = 0xF4 then 0x8F else 0xBF) t[0]? &&
      cont 0x80 0xBF t[1]? && cont 0x80 0xBF t[2]? then 4
    else 1

/-- Every directive of the string is complete. -/
inductive Closed : Str → Prop
  | nil : Closed []
  | lit (c : UInt8) (s : Str) : c ≠ 37 → Closed s → Closed (c :: s)
  | dir (s v : Str) : toVerb s = some v → v ≠ [] → Closed (v.drop (verbLen v)) → Closed (37 :: s)

end Verif.Fmt
