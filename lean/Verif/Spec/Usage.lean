import Verif.Spec.Main
import Verif.Spec.Stderr
import Verif.Model.Usage
/-!
# Specification vocabulary for what the command says about its flags

Of the model only the types are used, and the quoted form of texts (see C19).
-/
namespace Verif.Xt
open Verif

/-- What is wrong with the argument, if others follow (`rest`), and what is said about it. -/
inductive WrongArg (P : Nat → Bool) (rest : List Str) : Str → Str → Prop
  | dashes (r : Str) : WrongArg P rest (b!"---" ++ r) (b!"bad flag syntax: ---" ++ r)
  | equals {m : Str} (r : Str) : Dash m → WrongArg P rest (m ++ b!"=" ++ r) (b!"bad flag syntax: " ++ m ++ b!"=" ++ r)
  | unknown {m n v : Str} : Dash m → n ≠ [] → n.head? ≠ some 45 → 61 ∉ n → (v = [] ∨ v.head? = some 61) → ¬ TextFlag n → ¬ OnOff n →
      n ≠ b!"help" → WrongArg P rest (m ++ n ++ v) (b!"flag provided but not defined: -" ++ n)
  | value {m n v : Str} : Dash m → OnOff n → ¬ On v → ¬ Off v →
      WrongArg P rest (m ++ n ++ b!"=" ++ v) (b!"invalid boolean value " ++ Quote.quote P v ++ b!" for -" ++ n ++ b!": parse error")
  | lacks {m n : Str} : Dash m → TextFlag n → rest = [] → WrongArg P rest (m ++ n) (b!"flag needs an argument: -" ++ n)

/-- The first argument that is wrong, and what is said about it. -/
def Wrong (P : Nat → Bool) (args : List Str) (line : Str) : Prop :=
  ∃ a os x b, args = a ++ x :: b ∧ Options a os ∧ WrongArg P b x line

/-- The usage names what is given to the flag: the first text in back quotes, which are then left out, or else this one. -/
def Names (usage kind name text : Str) : Prop :=
  (∃ a c, 96 ∉ a ∧ 96 ∉ name ∧ usage = a ++ b!"`" ++ name ++ b!"`" ++ c ∧ text = a ++ name ++ c) ∨
  ((∀ a b c, usage ≠ a ++ b!"`" ++ b ++ b!"`" ++ c) ∧ name = kind ∧ text = usage)

/-- The text with all lines but the first indented. -/
def Indented (text s : Str) : Prop :=
  ∃ (first : Str) (rest : List Str), text = first ++ rest.flatMap (b!"\n" ++ ·) ∧ 10 ∉ first ∧ (∀ l ∈ rest, 10 ∉ l) ∧
    s = first ++ rest.flatMap (b!"\n    \t" ++ ·)

/-- What is said about a flag: `kind` for what is given to it if the usage does not name it, and `dflt` after the usage. -/
def FlagHelp (n usage kind dflt s : Str) : Prop :=
  ∃ name text u, Names usage kind name text ∧ Indented text u ∧
    s = b!"  -" ++ n ++ (if name = [] then [] else b!" " ++ name) ++
      (if n.length = 1 ∧ name = [] then b!"\t" else b!"\n    \t") ++ u ++ dflt ++ b!"\n"

/-- The usage of the command: a headline, and the flags in the order of the alphabet. -/
def Usage (tr : Str → Str) (headline : Phrase) (arg0 s : Str) : Prop :=
  ∃ d f h i k left o right v : Str,
    FlagHelp b!"d" (tr b!"debug mode") [] [] d ∧
    FlagHelp b!"f" (tr b!"function names of template") b!"string" [] f ∧
    FlagHelp b!"h" (tr b!"show help message") [] [] h ∧
    FlagHelp b!"i" (tr b!"input file pattern") b!"string" [] i ∧
    FlagHelp b!"k" (tr b!"keywords e.g.: gettext;T:1;N:1,2;X:1c,2;XN:1c,2,3") b!"string" [] k ∧
    FlagHelp b!"left" (tr b!"left delim") b!"string" b!" (default \"{{\")" left ∧
    FlagHelp b!"o" (tr b!"output file, - is stdout") b!"string" [] o ∧
    FlagHelp b!"right" (tr b!"right delim") b!"string" b!" (default \"}}\")" right ∧
    FlagHelp b!"v" (tr b!"show version") [] [] v ∧
    s = headline.filled [arg0] ++ d ++ f ++ h ++ i ++ k ++ left ++ o ++ right ++ v

end Verif.Xt
