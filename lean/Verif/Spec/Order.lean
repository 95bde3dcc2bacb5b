import Verif.Spec.Fmt
import Verif.Model.Fmt
/-!
# Specification vocabulary for messages that say which argument they mean

A message is a list of texts, `%%` and directives `%` flags width `.`precision `[`index`]` verb.  What it
shows is said directly: a directive with an index shows that argument, one without shows the argument
behind the last one shown.
-/
namespace Verif.Fmt
open Verif
variable {α : Type}

/-- A directive; numbers are given by their digits. -/
structure Dir where
  flags : Str := []
  wid : Str := []
  prec : Option Str := none
  idx : Option Str := none
  verb : UInt8

/-- What stands in the message. -/
inductive Item where
  | text (s : Str)
  | percent
  | dir (d : Dir)

/-- A number package fmt reads. -/
def Number (ds : Str) : Prop := (∀ c ∈ ds, digitByte c = true) ∧ decVal ds ≤ 1000000

/-- A letter. -/
def letterByte (c : UInt8) : Bool := (65 ≤ c && c ≤ 90) || (97 ≤ c && c ≤ 122)

structure Dir.Wf (d : Dir) : Prop where
  flags : ∀ c ∈ d.flags, isFlagByte c = true
  wid : Number d.wid ∧ d.wid.head? ≠ some 48
  prec : ∀ p, d.prec = some p → Number p
  idx : ∀ k, d.idx = some k → Number k ∧ k ≠ []
  verb : letterByte d.verb = true

def Item.Wf : Item → Prop
  | .text s => 37 ∉ s
  | .percent => True
  | .dir d => d.Wf

def writtenPrec : Option Str → Str
  | none => []
  | some p => b!"." ++ p

def writtenIdx : Option Str → Str
  | none => []
  | some k => b!"[" ++ k ++ b!"]"

/-- The directive as it is written. -/
def Dir.written (d : Dir) : Str :=
  b!"%" ++ (d.flags ++ (d.wid ++ (writtenPrec d.prec ++ (writtenIdx d.idx ++ [d.verb]))))

def Item.written : Item → Str
  | .text s => s
  | .percent => b!"%%"
  | .dir d => d.written

/-- The message as it is written. -/
def written (m : List Item) : Str := m.flatMap Item.written

/-- How the directive wants its argument to be shown. -/
def Dir.opts (d : Dir) : Opts where
  sharp := d.flags.contains 35
  zero := d.flags.contains 48
  plus := d.flags.contains 43
  minus := d.flags.contains 45
  space := d.flags.contains 32
  wid := if d.wid = [] then none else some (decVal d.wid)
  prec := d.prec.map decVal

/-- The argument the directive means, `c` being the number of the argument last shown. -/
def Dir.arg (d : Dir) (args : List α) (c : Nat) : Option α :=
  match d.idx with
  | none => args[c]?
  | some k => if decVal k = 0 then none else args[decVal k - 1]?

/-- What the directive shows. -/
def Dir.shown (E : Env α) (d : Dir) (args : List α) (c : Nat) : Str :=
  match d.arg args c, d.idx with
  | some a, _ => E.render d.opts [d.verb] a
  | none, none => b!"%!" ++ [d.verb] ++ b!"(MISSING)"
  | none, some _ => b!"%!" ++ [d.verb] ++ b!"(BADINDEX)"

/-- The number of the argument last shown after the directive. -/
def Dir.next (d : Dir) (args : List α) (c : Nat) : Nat :=
  match d.arg args c, d.idx with
  | some _, none => c + 1
  | some _, some k => decVal k
  | none, _ => c

/-- What the message shows. -/
def shown (E : Env α) (args : List α) : Nat → List Item → Str
  | _, [] => []
  | c, .text s :: m => s ++ shown E args c m
  | c, .percent :: m => b!"%" ++ shown E args c m
  | c, .dir d :: m => d.shown E args c ++ shown E args (d.next args c) m

/-- The number of the argument last shown at the end of the message. -/
def last (args : List α) : Nat → List Item → Nat
  | c, [] => c
  | c, .dir d :: m => last args (d.next args c) m
  | c, _ :: m => last args c m

/-- All arguments the message means are there. -/
def Fits (args : List α) : Nat → List Item → Prop
  | _, [] => True
  | c, .dir d :: m => (d.arg args c).isSome ∧ Fits args (d.next args c) m
  | c, _ :: m => Fits args c m

/-- Some directive has an index. -/
def Indexed (m : List Item) : Prop := ∃ d, .dir d ∈ m ∧ d.idx ≠ none

end Verif.Fmt
