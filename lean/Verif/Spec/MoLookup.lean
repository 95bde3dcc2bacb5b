import Verif.Model.GoStr
/-!
# How C programs look messages up in an MO file

The lookups of two C libraries, after their published sources: `_nl_find_msg` and `plural_lookup` of GNU libintl (also part of glibc) for a
file without a hash table, and `__mo_lookup` of musl.  The file is in the byte order of the machine, which is little-endian; reading
outside the file, which is undefined in C, finds nothing here.
-/
namespace Verif.Libintl
open Verif

/-- The 32-bit number at this position. -/
def word (c : Str) (pos : Nat) : Option Nat :=
  match c.drop pos with
  | w :: x :: y :: z :: _ => some (((z.toNat * 256 + y.toNat) * 256 + x.toNat) * 256 + w.toNat)
  | _ => none

/-- The bytes before the first NUL: what C takes for the string. -/
def cstr (s : Str) : Str := s.takeWhile (· ≠ 0)

/-- The binary search in the table of original strings at `O`, for the string `q`, between `bottom` and `top`. -/
def search (c : Str) (O : Nat) (q : Str) : Nat → Nat → Nat → Option Nat
  | 0, _, _ => none
  | fuel + 1, bottom, top =>
    if bottom < top then
      let act := (bottom + top) / 2
      match word c (O + 8 * act + 4) with
      | none => none
      | some off =>
        let s := cstr (c.drop off)
        if q < s then search c O q fuel bottom act
        else if s < q then search c O q fuel (act + 1) top
        else some act
    else none

/-- `_nl_find_msg`: the translated string, with all its forms. -/
def find (c q : Str) : Option Str := do
  let magic ← word c 0
  let n ← word c 8
  let O ← word c 12
  let T ← word c 16
  let hash ← word c 20
  if magic = 0x950412de ∧ hash ≤ 2 then
    let i ← search c O q n 0 n
    let len ← word c (T + 8 * i)
    let off ← word c (T + 8 * i + 4)
    some ((c.drop off).take len)
  else none

/-- `plural_lookup`: the form with this number, `none` if there are fewer. -/
def form : Nat → Str → Option Str
  | 0, t => some (cstr t)
  | k + 1, t =>
    match t.dropWhile (· ≠ 0) with
    | [] => none
    | _ :: r => form k r

/-- The string that a descriptor of musl's tables points to, if it lies inside the file and ends with a NUL. -/
def checked (c : Str) (pos : Nat) : Option Str := do
  let len ← word c pos
  let off ← word c (pos + 4)
  if off < c.length ∧ len < c.length - off ∧ c[off + len]? = some 0 then some (cstr (c.drop off)) else none

/-- The loop of `__mo_lookup`, for the string `q`, among `n` strings from number `b` on. -/
def muslLoop (c : Str) (o t : Nat) (q : Str) : Nat → Nat → Nat → Option Str
  | 0, _, _ => none
  | fuel + 1, b, n =>
    match checked c (o + 8 * (b + n / 2)) with
    | none => none
    | some s =>
      if q = s then checked c (t + 8 * (b + n / 2))
      else if n = 1 then none
      else if q < s then muslLoop c o t q fuel b (n / 2)
      else muslLoop c o t q fuel (b + n / 2) (n - n / 2)

/-- `__mo_lookup`. -/
def musl (c q : Str) : Option Str := do
  let n ← word c 8
  let o ← word c 12
  let t ← word c 16
  if n ≥ c.length / 4 ∨ o ≥ c.length - 4 * n ∨ t ≥ c.length - 4 * n ∨ o % 4 ≠ 0 ∨ t % 4 ≠ 0 then none
  else muslLoop c o t q (n + 1) 0 n

end Verif.Libintl
