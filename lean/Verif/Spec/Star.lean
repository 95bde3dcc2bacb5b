import Verif.Spec.Order
/-!
# Specification vocabulary for messages whose widths and precisions are arguments

As in `Spec/Order.lean`, but a width or precision may be `*`, that is, an argument, and each `*` may have its
own index.  A directive uses its arguments from left to right: the width, the precision, what is shown.
-/
namespace Verif.Fmt
open Verif
variable {α : Type}

/-- A width or precision: digits, or an argument. -/
inductive Size where
  | digits (ds : Str)
  | star (idx : Option Str)

/-- A directive. -/
structure Star where
  flags : Str := []
  wid : Size := .digits []
  prec : Option Size := none
  idx : Option Str := none
  verb : UInt8

/-- What stands in the message. -/
inductive Part where
  | text (s : Str)
  | percent
  | dir (d : Star)

/-- An index that package fmt can read. -/
def IndexWf (i : Option Str) : Prop := ∀ k, i = some k → Number k ∧ k ≠ []

def Size.Wf : Size → Prop
  | .digits ds => Number ds
  | .star i => IndexWf i

structure Star.Wf (d : Star) : Prop where
  flags : ∀ c ∈ d.flags, isFlagByte c = true
  wid : d.wid.Wf
  noZero : ∀ ds, d.wid = .digits ds → ds.head? ≠ some 48
  prec : ∀ p, d.prec = some p → p.Wf
  idx : IndexWf d.idx
  verb : letterByte d.verb = true

def Part.Wf : Part → Prop
  | .text s => 37 ∉ s
  | .percent => True
  | .dir d => d.Wf

def Size.written : Size → Str
  | .digits ds => ds
  | .star i => writtenIdx i ++ b!"*"

def writtenSize : Option Size → Str
  | none => []
  | some p => b!"." ++ p.written

/-- The directive as it is written. -/
def Star.written (d : Star) : Str :=
  b!"%" ++ (d.flags ++ (d.wid.written ++ (writtenSize d.prec ++ (writtenIdx d.idx ++ [d.verb]))))

def Part.written : Part → Str
  | .text s => s
  | .percent => b!"%%"
  | .dir d => d.written

/-- The message as it is written. -/
def writtenParts (m : List Part) : Str := m.flatMap Part.written

/-! ## What it shows -/

/-- While a directive is shown: how many arguments are before the one to be used next, and whether the indexes
so far were those of arguments. -/
structure Look where
  next : Nat
  good : Bool

/-- An index moves to its argument; a wrong one does not move but is remembered. -/
def Look.go (n : Nat) (l : Look) : Option Str → Look
  | none => l
  | some k => if decVal k ≠ 0 ∧ decVal k ≤ n then ⟨decVal k - 1, l.good⟩ else ⟨l.next, false⟩

/-- An argument was used, if there is one. -/
def Look.used (n : Nat) (l : Look) : Look := ⟨if l.next < n then l.next + 1 else l.next, l.good⟩

/-- The number a width or precision is. -/
def Size.number (E : Env α) (args : List α) (l : Look) : Size → Option Int
  | .digits ds => if ds = [] then none else some (decVal ds)
  | .star i => args[(l.go args.length i).next]?.bind E.asInt

/-- What is used next after a width or precision. -/
def Size.past (n : Nat) (l : Look) : Size → Look
  | .digits _ => l
  | .star i => (l.go n i).used n

def Star.past1 (d : Star) (n c : Nat) : Look := d.wid.past n ⟨c, true⟩

def Star.past2 (d : Star) (n c : Nat) : Look :=
  match d.prec with
  | none => d.past1 n c
  | some p => p.past n (d.past1 n c)

/-- Where the argument to be shown is, `c` being the number of the argument last used before the directive. -/
def Star.look (d : Star) (n c : Nat) : Look := (d.past2 n c).go n d.idx

def Star.width (E : Env α) (d : Star) (args : List α) (c : Nat) : Option Int := d.wid.number E args ⟨c, true⟩

/-- The precision: an argument must not be negative; a point without digits means zero. -/
def Star.precision (E : Env α) (d : Star) (args : List α) (c : Nat) : Option Nat :=
  match d.prec with
  | none => none
  | some (.digits ds) => some (decVal ds)
  | some (.star i) =>
    match Size.number E args (d.past1 args.length c) (.star i) with
    | some (.ofNat n) => some n
    | _ => none

/-- How the directive wants its argument to be shown; a negative width aligns to the left. -/
def Star.opts (E : Env α) (d : Star) (args : List α) (c : Nat) : Opts where
  sharp := d.flags.contains 35
  zero := d.flags.contains 48 && !((d.width E args c).any (· < 0))
  plus := d.flags.contains 43
  minus := d.flags.contains 45 || (d.width E args c).any (· < 0)
  space := d.flags.contains 32
  wid := (d.width E args c).map Int.natAbs
  prec := d.precision E args c

/-- What is said about a width that is no number. -/
def badWidth : Size → Option Int → Str
  | .star _, none => b!"%!(BADWIDTH)"
  | _, _ => []

/-- What is said about a precision that is no number, or negative. -/
def badPrec : Option Size → Option Nat → Str
  | some (.star _), none => b!"%!(BADPREC)"
  | _, _ => []

def Star.complaint (E : Env α) (d : Star) (args : List α) (c : Nat) : Str :=
  badWidth d.wid (d.width E args c) ++ badPrec d.prec (d.precision E args c)

/-- What the directive shows. -/
def Star.shown (E : Env α) (d : Star) (args : List α) (c : Nat) : Str :=
  d.complaint E args c ++
  if (d.look args.length c).good then
    match args[(d.look args.length c).next]? with
    | some a => E.render (d.opts E args c) [d.verb] a
    | none => b!"%!" ++ [d.verb] ++ b!"(MISSING)"
  else b!"%!" ++ [d.verb] ++ b!"(BADINDEX)"

/-- The number of the argument last used after the directive. -/
def Star.next (d : Star) (n c : Nat) : Nat :=
  if (d.look n c).good then ((d.look n c).used n).next else (d.look n c).next

/-- What the message shows. -/
def shownParts (E : Env α) (args : List α) : Nat → List Part → Str
  | _, [] => []
  | c, .text s :: m => s ++ shownParts E args c m
  | c, .percent :: m => b!"%" ++ shownParts E args c m
  | c, .dir d :: m => d.shown E args c ++ shownParts E args (d.next args.length c) m

/-- The number of the argument last used at the end of the message. -/
def lastPart (n : Nat) : Nat → List Part → Nat
  | c, [] => c
  | c, .dir d :: m => lastPart n (d.next n c) m
  | c, _ :: m => lastPart n c m

/-- A width or precision with an index. -/
def Size.Indexed : Size → Prop
  | .digits _ => False
  | .star i => i ≠ none

/-- Something in the directive has an index. -/
def Star.Indexed (d : Star) : Prop := d.wid.Indexed ∨ (∃ p, d.prec = some p ∧ p.Indexed) ∨ d.idx ≠ none

/-- Something in the message has an index. -/
def IndexedParts (m : List Part) : Prop := ∃ d, .dir d ∈ m ∧ d.Indexed

end Verif.Fmt
