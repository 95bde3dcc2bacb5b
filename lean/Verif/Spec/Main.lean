import Verif.Spec.Run
import Verif.Model.Main
/-!
# Specification vocabulary for the command line

A grammar of command lines and what they set.  Nothing here uses the scanner of the model.
-/
namespace Verif.Xt
open Verif

/-- The flags with a text. -/
def TextFlag (n : Str) : Prop := n ∈ [b!"i", b!"left", b!"right", b!"k", b!"f", b!"o"]

/-- The flags that are on or off. -/
def OnOff (n : Str) : Prop := n ∈ [b!"d", b!"v", b!"h"]

/-- The texts for on. -/
def On (v : Str) : Prop := v ∈ [b!"1", b!"t", b!"T", b!"true", b!"TRUE", b!"True"]

/-- The texts for off. -/
def Off (v : Str) : Prop := v ∈ [b!"0", b!"f", b!"F", b!"false", b!"FALSE", b!"False"]

/-- The text may be given for the flag. -/
def Allowed (n v : Str) : Prop := TextFlag n ∨ OnOff n ∧ (On v ∨ Off v)

/-- What stands before the name of a flag. -/
def Dash (m : Str) : Prop := m = b!"-" ∨ m = b!"--"

/-- A sequence of arguments that gives these flags. -/
inductive Options : List Str → List (Str × Str) → Prop
  | nil : Options [] []
  | eq {m n v args os} : Dash m → Allowed n v → Options args os →
      Options ((m ++ n ++ b!"=" ++ v) :: args) ((n, v) :: os)
  | on {m n args os} : Dash m → OnOff n → Options args os → Options ((m ++ n) :: args) ((n, b!"true") :: os)
  | text {m n v args os} : Dash m → TextFlag n → Options args os →
      Options ((m ++ n) :: v :: args) ((n, v) :: os)

/-- Arguments that end the flags: none, or `--`, or one that is not a flag, and whatever follows. -/
def EndOfFlags : List Str → Prop
  | [] => True
  | a :: _ => a = b!"--" ∨ a = b!"-" ∨ a.head? ≠ some 45

/-- The command line gives these flags. -/
def Line (args : List Str) (os : List (Str × Str)) : Prop :=
  ∃ a b, args = a ++ b ∧ Options a os ∧ EndOfFlags b

/-- The command line gives `-help`, which is not a defined flag, before anything wrong. -/
def AsksHelp (args : List Str) : Prop :=
  ∃ a m v b os, args = a ++ (m ++ b!"help" ++ v) :: b ∧ Options a os ∧ Dash m ∧ (v = [] ∨ v.head? = some 61)

/-- The text given last for the flag, or its default. -/
def LastGiven (os : List (Str × Str)) (n dflt v : Str) : Prop :=
  (∃ a b, os = a ++ (n, v) :: b ∧ ∀ o ∈ b, o.1 ≠ n) ∨ (∀ o ∈ os, o.1 ≠ n) ∧ v = dflt

/-- The flag is on. -/
def IsOn (os : List (Str × Str)) (n : Str) : Prop := ∃ v, LastGiven os n b!"false" v ∧ On v

/-- The parameters given. -/
structure Parameters (os : List (Str × Str)) (p : Param) : Prop where
  input : LastGiven os b!"i" [] p.input
  left : LastGiven os b!"left" b!"{{" p.left
  right : LastGiven os b!"right" b!"}}" p.right
  keyword : LastGiven os b!"k" [] p.keyword
  function : LastGiven os b!"f" [] p.function
  output : LastGiven os b!"o" [] p.output

/-- The disk with a text added to stdout. -/
def Printed (d : Disk) (text : Str) (d' : Disk) : Prop := d'.files = d.files ∧ d'.stdout = d.stdout ++ text

/-- What `-v` prints. -/
def About (version text : Str) : Prop :=
  text = List.intercalate b!"\n" [b!"xtemplate", b!"https://github.com/youthlin/t/tree/main/cmd/xtemplate", b!"by Youth．霖(https://youthlin.com)",
    b!"version: " ++ version, []]

end Verif.Xt
