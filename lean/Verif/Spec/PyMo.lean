import Verif.Model.GoStr
/-!
# How Python reads an MO file

`GNUTranslations._parse` of Python's module gettext, after its published source, for little-endian files.  `none` is an exception.  How
bytes are decoded in a character set and what the header says about the character set are parameters.
-/
namespace Verif.Py
open Verif

/-- A key of the catalogue: a message, or a message and the number of a form. -/
inductive Key (T : Type) where
  | plain (msg : T)
  | form (msg : T) (i : Nat)
  deriving DecidableEq

/-- The 32-bit number at this position. -/
def word (buf : Str) (pos : Nat) : Option Nat :=
  match buf.drop pos with
  | w :: x :: y :: z :: _ => some (((z.toNat * 256 + y.toNat) * 256 + x.toNat) * 256 + w.toNat)
  | _ => none

/-- All of the results, if all are there. -/
def all {α : Type} : List (Option α) → Option (List α)
  | [] => some []
  | none :: _ => none
  | some a :: l => (all l).map (a :: ·)

/-- What a message adds to the catalogue, the last assignment first; the character set is ASCII unless one is known. -/
def assign {T : Type} (decode : Str → Str → Option T) (charset : Option Str) (msg tmsg : Str) : Option (List (Key T × T)) :=
  let dec := decode (charset.getD b!"ascii")
  match GoStr.splitByte 0 msg with
  | [m] => (dec m).bind fun m => (dec tmsg).map fun t => [(.plain m, t)]
  | [m, _] => (dec m).bind fun m => (all ((GoStr.splitByte 0 tmsg).map dec)).map fun ts => (ts.zipIdx.map fun t => (.form m t.2, t.1)).reverse
  | _ => none

/-- One round of the loop, with the message and the translation. -/
def step {T : Type} (decode : Str → Str → Option T) (header : Str → Option (Option Str)) (charset : Option Str) (msg tmsg : Str) :
    Option (Option Str × List (Key T × T)) :=
  (if msg.length = 0 then (header tmsg).map fun c => c.or charset else some charset).bind fun charset =>
    (assign decode charset msg tmsg).map fun l => (charset, l)

/-- The loop. -/
def loop {T : Type} (decode : Str → Str → Option T) (header : Str → Option (Option Str)) (buf : Str) :
    Nat → Nat → Nat → Option Str → List (Key T × T) → Option (List (Key T × T))
  | 0, _, _, _, cat => some cat
  | n + 1, masteridx, transidx, charset, cat =>
    match word buf masteridx, word buf (masteridx + 4), word buf transidx, word buf (transidx + 4) with
    | some mlen, some moff, some tlen, some toff =>
      if moff + mlen < buf.length ∧ toff + tlen < buf.length then
        match step decode header charset ((buf.drop moff).take mlen) ((buf.drop toff).take tlen) with
        | some (charset, l) => loop decode header buf n (masteridx + 8) (transidx + 8) charset (l ++ cat)
        | none => none
      else none
    | _, _, _, _ => none

/-- `_parse`. -/
def parse {T : Type} (decode : Str → Str → Option T) (header : Str → Option (Option Str)) (buf : Str) : Option (List (Key T × T)) :=
  match word buf 0, word buf 4, word buf 8, word buf 12, word buf 16 with
  | some magic, some version, some n, some masteridx, some transidx =>
    if magic = 0x950412de ∧ version / 65536 ≤ 1 then loop decode header buf n masteridx transidx none [] else none
  | _, _, _, _, _ => none

/-- What the catalogue says about a key: the last assignment. -/
def get {T : Type} [DecidableEq T] (cat : List (Key T × T)) (k : Key T) : Option T := (cat.find? fun p => p.1 = k).map Prod.snd

end Verif.Py
