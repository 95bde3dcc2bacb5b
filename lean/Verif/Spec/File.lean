import Verif.Model.File
/-!
# Specification vocabulary for translation files

Histories of calls on one `File`, "the entry last added for a message", header fields of a text, and
the syntax of a Plural-Forms value.  Nothing here uses the maps and caches of the model.
-/
namespace Verif.Tr

/-- A call on a `File`. -/
inductive Call (α : Type) where
  | add (e : Entry)
  | header (k : Str)
  | lang
  | x (ctxt id : Str) (args : List α)
  | xn (ctxt id id2 : Str) (n : Int64) (args : List α)

/-- What the caller sees. -/
inductive Obs where
  | nothing
  | header (v : Option Str)
  | str (s : Str)
  | res (r : Res Str)
  deriving DecidableEq

variable {α : Type}

/-- Perform one call. -/
def Call.exec (E : Fmt.Env α) (dg : Plural.Diag) (f : File) : Call α → Obs × File
  | .add e => (.nothing, f.addEntry e)
  | .header k => (.header (f.getHeader k).1, (f.getHeader k).2)
  | .lang => (.str f.lang.1, f.lang.2)
  | .x ctxt id args => (.str (f.x E ctxt id args), f)
  | .xn ctxt id id2 n args => (.res (f.xn E dg ctxt id id2 n args).1, (f.xn E dg ctxt id id2 n args).2)

/-- Perform a sequence of calls. -/
def execAll (E : Fmt.Env α) (dg : Plural.Diag) (f : File) (cs : List (Call α)) : File :=
  cs.foldl (fun f c => (c.exec E dg f).2) f

/-- Is the call a lookup? -/
def Call.isLookup : Call α → Bool
  | .add _ => false
  | _ => true

/-- The entries added by a history, in order. -/
def added : List (Call α) → List Entry
  | [] => []
  | .add e :: cs => e :: added cs
  | _ :: cs => added cs

/-- The entry last added for a message. -/
def lastAdded (cs : List (Call α)) (ctxt id : Str) : Option Entry :=
  (added cs).reverse.find? fun e => e.ctxt = ctxt ∧ e.id = id

/-- No added entry has an EOT byte in its context. -/
def NoEot (cs : List (Call α)) : Prop := ∀ e ∈ added cs, 4 ∉ e.ctxt

/-- The lines of a text. -/
def Lines (text : Str) (ls : List Str) : Prop :=
  ls ≠ [] ∧ (∀ l ∈ ls, 10 ∉ l) ∧ text = List.intercalate [10] ls

/-- The line reads `a: b` where that `": "` is the first one; the key is `a` and the value `b`, both
without surrounding white space. -/
def FieldLine (l k v : Str) : Prop :=
  ∃ a b, l = a ++ b!": " ++ b ∧ ¬ b!": " <:+: a ++ b!":" ∧
    k = GoStr.trimSpace a ∧ v = GoStr.trimSpace b

/-- The text gives field `k` the value `v`: the first line with key `k` has value `v`. -/
def HeaderField (text k v : Str) : Prop :=
  ∃ pre l post, Lines text (pre ++ l :: post) ∧ FieldLine l k v ∧
    ∀ l' ∈ pre, ∀ v', ¬ FieldLine l' k v'

/-- White space of the Plural-Forms syntax. -/
def Ws (w : Str) : Prop := ∀ c ∈ w, c = 9 ∨ c = 10 ∨ c = 12 ∨ c = 13 ∨ c = 32

/-- `s` is `nplurals=d;plural=e;` with optional white space before each item; `e` contains no
newline and extends as far as possible. -/
def PluralForms (s : Str) (d : UInt8) (e : Str) : Prop :=
  ∃ w1 w2 w3 w4 w5 w6 w7 w8,
    Ws w1 ∧ Ws w2 ∧ Ws w3 ∧ Ws w4 ∧ Ws w5 ∧ Ws w6 ∧ Ws w7 ∧ Ws w8 ∧
    48 ≤ d ∧ d ≤ 57 ∧ 10 ∉ e ∧ (∀ c t, w8 = c :: t → c = 10) ∧
    (∀ c t, e ++ w8 = c :: t → ¬ Ws [c]) ∧
    s = w1 ++ b!"nplurals" ++ w2 ++ b!"=" ++ w3 ++ [d] ++ w4 ++ b!";" ++ w5 ++ b!"plural" ++ w6 ++
      b!"=" ++ w7 ++ e ++ w8 ++ b!";"

/-- The number a digit stands for. -/
def digitNum (d : UInt8) : Int := (d.toNat : Int) - 48

end Verif.Tr
