import Verif.Model.Po
/-!
# What the lines of a PO file mean

An independent description of PO text: lines are comments, fields or continuations; a field that
cannot belong to the current entry starts the next one; an entry is described by the texts of its
fields.  Quoted strings are those `strconv.Unquote` accepts after trimming.
-/
namespace Verif.Tr
open Verif

/-- The fields of an entry. -/
inductive Field where
  | ctxt | id | id2 | str | form
  deriving DecidableEq, Repr

/-- The keyword of a field; the keyword of a plural form carries its number. -/
def Field.word (n : Nat) : Field → Str
  | .ctxt => b!"msgctxt"
  | .id => b!"msgid"
  | .id2 => b!"msgid_plural"
  | .str => b!"msgstr"
  | .form => b!"msgstr[" ++ Num.natDigits n ++ b!"]"

/-- A meaningful line. -/
inductive Item where
  | comment (line : Str)
  | field (f : Field) (text : Str)
  | more (text : Str)
  deriving DecidableEq, Repr

/-- `q`, up to white space around it, is a quoted string for `text`. -/
def Quotes (q text : Str) : Prop := Quote.unquote (GoStr.trimSpace q) = some text

/-- The line is this item, in an entry that has `n` plural forms so far. -/
inductive IsItem (n : Nat) : Str → Item → Prop
  | comment (t : Str) : IsItem n (35 :: t) (.comment (35 :: t))
  | field (f : Field) (q d : Str) : Quotes q d → IsItem n (f.word n ++ 32 :: q) (.field f d)
  | more (t d : Str) : Quotes (34 :: t) d → IsItem n (34 :: t) (.more d)

/-- A line of white space. -/
def Blank (line : Str) : Prop := GoStr.trimSpace line = []

instance (line : Str) : Decidable (Blank line) := inferInstanceAs (Decidable (_ = _))

/-- The last field of the items of an entry. -/
def lastField (g : List Item) : Option Field :=
  (g.filterMap fun x => match x with
    | .field f _ => some f
    | _ => none).getLast?

/-- The number of plural forms among the items of an entry. -/
def numForms (g : List Item) : Nat :=
  g.countP fun x => match x with
    | .field .form _ => true
    | _ => false

/-- Can this item not follow, in the same entry, a field `p`?  Then it starts the next entry. -/
def Starts (p : Option Field) (x : Item) : Prop :=
  match p, x with
  | none, _ => False
  | some _, .more _ => False
  | some _, .comment _ => True
  | some _, .field .ctxt _ => True
  | some p, .field .id _ => p ≠ .ctxt
  | some p, .field .id2 _ => p ≠ .ctxt ∧ p ≠ .id
  | some p, .field .str _ => p = .form
  | some p, .field .form _ => p = .str

/-- `Parse ls gs g`: the non-blank lines `ls` consist of the items of the complete entries `gs`
followed by the items `g` of the last entry. -/
inductive Parse : List Str → List (List Item) → List Item → Prop
  | nil : Parse [] [] []
  | same {ls gs g line x} : Parse ls gs g → IsItem (numForms g) line x → ¬ Starts (lastField g) x →
      Parse (ls ++ [line]) gs (g ++ [x])
  | next {ls gs g line x} : Parse ls gs g → IsItem 0 line x → Starts (lastField g) x →
      Parse (ls ++ [line]) (gs ++ [g]) [x]

/-- The continuation text before the next field. -/
def moreText : List Item → Str
  | .more d :: g => d ++ moreText g
  | .comment _ :: g => moreText g
  | _ => []

/-- The texts of the fields `f` of an entry, in order. -/
def texts (f : Field) : List Item → List Str
  | [] => []
  | .field f' d :: g => if f' = f then (d ++ moreText g) :: texts f g else texts f g
  | _ :: g => texts f g

/-- The comment lines of an entry. -/
def comments (g : List Item) : List Str :=
  g.filterMap fun x => match x with
    | .comment l => some l
    | _ => none

/-- The entry described by its items. -/
def entryOf (g : List Item) : Entry where
  cmts := comments g
  ctxt := (texts .ctxt g).flatten
  id := (texts .id g).flatten
  isPlural := texts .id2 g ≠ []
  id2 := (texts .id2 g).flatten
  str := (texts .str g).flatten
  strN := texts .form g

/-- The lines that matter: carriage returns are dropped and blank lines skipped. -/
def meaningfulLines (content : Str) : List Str :=
  (GoStr.splitByte 10 (content.filter (· != 13))).filter fun l => ¬ Blank l

/-- The text is well-formed and consists of these entries. -/
def PoText (content : Str) (es : List Entry) : Prop :=
  ∃ gs g, Parse (meaningfulLines content) gs g ∧ es = (gs ++ [g]).map entryOf

/-- The text has a malformed line: after well-formed lines comes one that is neither an item of the
current entry nor starts a new entry. -/
def Malformed (content : Str) : Prop :=
  ∃ pre line post gs g, meaningfulLines content = pre ++ line :: post ∧ Parse pre gs g ∧
    (∀ x, IsItem (numForms g) line x → Starts (lastField g) x) ∧
    (∀ x, IsItem 0 line x → ¬ Starts (lastField g) x)

/-- The entry has a translation. -/
def Translated (e : Entry) : Prop := e.str ≠ [] ∨ e.strN ≠ []

instance (e : Entry) : Decidable (Translated e) := inferInstanceAs (Decidable (_ ∨ _))

/-- The last entry of the list for this message. -/
def lastFor (ctxt id : Str) (es : List Entry) : Option Entry :=
  (es.filter fun e => e.ctxt = ctxt ∧ e.id = id).getLast?

end Verif.Tr
