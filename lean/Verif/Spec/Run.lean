import Verif.Spec.Xtemplate
import Verif.Spec.Trim
import Verif.Spec.Keyword
import Verif.Model.Run
/-!
# Specification vocabulary for runs of the extractor

The collection of a sequence of extracted entries, the POT for it, the functions a template may call
and the fate of each input file.  Nothing here uses the maps, loops and scanners of the model.
-/
namespace Verif.Xt
open Verif

/-- The first entry for a message. -/
def firstOf (es : List Tr.Entry) (ctxt id : Str) : Option Tr.Entry :=
  es.find? fun e => e.ctxt = ctxt ∧ e.id = id

/-- The entry kept for a message: the first one, with the comments of all that agree with it on being
plural. -/
def merged (es : List Tr.Entry) (ctxt id : Str) : Option Tr.Entry :=
  (firstOf es ctxt id).map fun f =>
    { f with cmts := (es.filter fun e => e.ctxt = ctxt ∧ e.id = id ∧ e.isPlural = f.isPlural).flatMap (·.cmts) }

/-- The entry disagrees with the first one for its message on being plural. -/
def Conflicts (es : List Tr.Entry) (e : Tr.Entry) : Prop :=
  ∃ f, firstOf es e.ctxt e.id = some f ∧ f.isPlural ≠ e.isPlural

/-- `es` without contexts that contain an EOT byte. -/
def NoEotIn (es : List Tr.Entry) : Prop := ∀ e ∈ es, 4 ∉ e.ctxt

/-- `L` is the collection of the entries: one per message, in some order. -/
def Collection (es L : List Tr.Entry) : Prop :=
  (L.map fun e => (e.ctxt, e.id)).Nodup ∧ ∀ e, e ∈ L ↔ ∃ ctxt id, merged es ctxt id = some e

/-- Some collected entry is plural. -/
def SomePlural (es : List Tr.Entry) : Prop := ∃ ctxt id e, merged es ctxt id = some e ∧ e.isPlural = true

/-- Some entry has neither a context nor a message. -/
def HasEmpty (es : List Tr.Entry) : Prop := ∃ e ∈ es, e.ctxt = [] ∧ e.id = []

open Classical in
/-- The text is a POT for the entries: the header, unless an entry without context and message takes
its place, and the collection, by sort key. -/
def PotOf (P : Nat → Bool) (p : Param) (now : Str) (es : List Tr.Entry) (text : Str) : Prop :=
  ∃ L M, Collection es L ∧
    M.Perm (if HasEmpty es then L else header p now (decide (SomePlural es)) :: L) ∧
    M.Pairwise (fun a b => ¬ b.sortKey < a.sortKey) ∧ text = Tr.savePot P M

/-! ## Functions -/

/-- An ASCII letter or `_`. -/
def LetterByte (c : UInt8) : Prop := (65 ≤ c ∧ c ≤ 90) ∨ (97 ≤ c ∧ c ≤ 122) ∨ c = 95

/-- An ASCII digit. -/
def DigitByte (c : UInt8) : Prop := 48 ≤ c ∧ c ≤ 57

/-- An ASCII identifier. -/
def Ident (n : Str) : Prop := ∃ c r, n = c :: r ∧ LetterByte c ∧ ∀ x ∈ r, LetterByte x ∨ DigitByte x

/-- The identifier occurs in the text: not inside a longer one, possibly after some digits. -/
def OccursIn (n src : Str) : Prop :=
  Ident n ∧ ∃ a d b, src = a ++ d ++ n ++ b ∧ (∀ x ∈ d, DigitByte x) ∧
    (∀ a' x, a = a' ++ [x] → ¬ (LetterByte x ∨ DigitByte x)) ∧
    (∀ x b', b = x :: b' → ¬ (LetterByte x ∨ DigitByte x))

/-- The keywords of the template language. -/
def TemplateKeyword (n : Str) : Prop :=
  n = b!"if" ∨ n = b!"else" ∨ n = b!"end" ∨ n = b!"range" ∨ n = b!"with" ∨ n = b!"template" ∨
  n = b!"define" ∨ n = b!"block" ∨ n = b!"break" ∨ n = b!"continue"

/-- The name is one of those given by `-f`, separated by commas. -/
def FunctionName (function n : Str) : Prop :=
  ∃ items : List Str, items ≠ [] ∧ (∀ t ∈ items, 44 ∉ t) ∧ function = List.intercalate b!"," items ∧
    ∃ t ∈ items, GoStr.Trims t n ∧ n ≠ []

/-- The name is an extraction keyword or given by `-f`. -/
def Given (kws : List Keyword) (p : Param) (n : Str) : Prop :=
  (∃ kw ∈ kws, kw.name = n) ∨ FunctionName p.function n

/-- The functions a template may call. -/
def Callable (kws : List Keyword) (p : Param) (src n : Str) : Prop :=
  Given kws p n ∨ (OccursIn n src ∧ ¬ TemplateKeyword n)

/-! ## Files -/

open Classical in
/-- The template parser with the callable functions registered. -/
noncomputable def parsed (E : Env) (p : Param) (kws : List Keyword) (src : Str) : Option (List (List Stmt)) :=
  E.parse p.left p.right (fun n => decide (Callable kws p src n)) src

/-- The file can be processed and has these entries, in some order. -/
def FileOk (E : Env) (p : Param) (kws : List Keyword) (d : Disk) (f : Str) (es : List Tr.Entry) : Prop :=
  ∃ src roots, d.files (E.canon f) = some src ∧ parsed E p kws src = some roots ∧
    es.Perm (roots.flatMap (allEntries kws f))

/-- The file cannot be processed. -/
inductive FileFails (E : Env) (p : Param) (kws : List Keyword) (d : Disk) (f : Str) : RunErr → Prop
  | read : d.files (E.canon f) = none → FileFails E p kws d f (.read f)
  | parse {src} : d.files (E.canon f) = some src → parsed E p kws src = none →
      FileFails E p kws d f (.parse f)

/-- The fate of a file: it can be processed, or fails. -/
def Fate (E : Env) (p : Param) (kws : List Keyword) (d : Disk) (f : Str) : Option RunErr → Prop
  | none => ∃ es, FileOk E p kws d f es
  | some e => FileFails E p kws d f e

/-- A name for the template package: UTF-8 characters, the first one a letter or an underscore, the
others letters, digits or underscores. -/
def TemplateName (E : Env) (n : Str) : Prop :=
  ∃ r rs, (∀ x ∈ r :: rs, Utf8.validRune x = true) ∧ n = (r :: rs).flatMap Utf8.encode ∧
    (r = 95 ∨ E.letter r = true) ∧ ∀ x ∈ rs, x = 95 ∨ E.letter x = true ∨ E.digit x = true

/-- Every given name is a name for the template package. -/
def GoodNames (E : Env) (p : Param) (kws : List Keyword) : Prop := ∀ n, Given kws p n → TemplateName E n

/-! ## The output -/

/-- The output is stdout. -/
def ToStdout (p : Param) : Prop := p.output = [] ∨ p.output = b!"-"

/-- `d1` is `d` after opening the output: the output file is empty; stdout is left alone. -/
def Opened (E : Env) (p : Param) (d d1 : Disk) : Prop :=
  (ToStdout p → d1 = d) ∧
  (¬ ToStdout p → d1.stdout = d.stdout ∧ d1.files (E.canon p.output) = some [] ∧
    ∀ f, f ≠ E.canon p.output → d1.files f = d.files f)

/-- `d'` is `d1` after writing the text to the opened output, as far as it can be written. -/
def Received (E : Env) (p : Param) (d1 : Disk) (text : Str) (d' : Disk) : Prop :=
  (ToStdout p → d'.files = d1.files ∧ d'.stdout = d1.stdout ++ (E.sink text).1) ∧
  (¬ ToStdout p → d'.stdout = d1.stdout ∧ d'.files (E.canon p.output) = some (E.sink text).1 ∧
    ∀ f, f ≠ E.canon p.output → d'.files f = d1.files f)

/-- ASCII letters and digits are letters and digits; the replacement character is neither. -/
def Ascii (E : Env) : Prop :=
  (∀ r, 65 ≤ r ∧ r ≤ 90 ∨ 97 ≤ r ∧ r ≤ 122 → E.letter r = true) ∧
  (∀ r, 48 ≤ r ∧ r ≤ 57 → E.digit r = true) ∧ E.letter 0xFFFD = false ∧ E.digit 0xFFFD = false

/-! ## Reading the POT -/

/-- No line ends. -/
def OneLine (s : Str) : Prop := 10 ∉ s ∧ 13 ∉ s

/-- An extracted entry: its comments are lines that start with `#`, it has no translation, and a second
message only if it is plural. -/
def Extracted (e : Tr.Entry) : Prop :=
  (∀ c ∈ e.cmts, (∃ t, c = 35 :: t) ∧ OneLine c) ∧ e.str = [] ∧ (e.isPlural = false → e.id2 = [])

/-- An extracted entry as it is read from a POT: a plural one has two empty forms. -/
def asRead (e : Tr.Entry) : Tr.Entry := { e with strN := if e.isPlural then [[], []] else [] }

open Classical in
/-- What a POT for the entries says about a message: the collected entry, or the header for the empty
message, or nothing. -/
noncomputable def potEntry (p : Param) (now : Str) (es : List Tr.Entry) (ctxt id : Str) : Option Tr.Entry :=
  match merged es ctxt id with
  | some e => some (asRead e)
  | none => if ctxt = [] ∧ id = [] then some (header p now (decide (SomePlural es))) else none

/-! ## The order of entries -/

/-- Entries for the same message agree on being plural and on the second message. -/
def Agree (es : List Tr.Entry) : Prop :=
  ∀ a ∈ es, ∀ b ∈ es, a.ctxt = b.ctxt → a.id = b.id → a.isPlural = b.isPlural ∧ a.id2 = b.id2

/-- The entries are the same up to the order of the comments. -/
def SameEntry (a b : Tr.Entry) : Prop :=
  a.cmts.Perm b.cmts ∧ a.ctxt = b.ctxt ∧ a.id = b.id ∧ a.isPlural = b.isPlural ∧ a.id2 = b.id2 ∧ a.str = b.str ∧
    a.strN = b.strN

/-- Different collected entries have different sort keys, and only the entry without context has an empty
message. -/
def NoTies (es : List Tr.Entry) : Prop :=
  (∀ c i e c' i' e', merged es c i = some e → merged es c' i' = some e' → e.sortKey = e'.sortKey →
    c = c' ∧ i = i') ∧ ∀ e ∈ es, e.id = [] → e.ctxt = []

end Verif.Xt
