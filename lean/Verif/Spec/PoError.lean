import Verif.Spec.Po
/-! # What the message about a malformed PO file says -/
namespace Verif.Tr
open Verif

/-- The lines of a text, numbered from 0; carriage returns are dropped. -/
def textLines (content : Str) : List Str := GoStr.splitByte 10 (content.filter (· != 13))

/-- The name by which a message refers to the string that goes on in a continuation line. -/
def openName : Option Field → Str
  | none => []
  | some .ctxt => b!"ctxt"
  | some .id => b!"msgid"
  | some .id2 => b!"msgid_plural"
  | some .str => b!"msgstr"
  | some .form => b!"msgstr[]"

/-- Line `n` of the file cannot come after the items `g` of the current entry; the message about it. -/
inductive Complaint (g : List Item) (n : Nat) (line : Str) : Str → Prop
  | field (f : Field) (q : Str) : line = f.word (numForms g) ++ 32 :: q → (∀ d, ¬ Quotes q d) →
      Complaint g n line (b!"invalid entry: unquote " ++ f.word (numForms g) ++ (if f = .form then b!" " else []) ++
        b!" failed|line " ++ Num.natDigits n ++ b!": " ++ line ++ b!": invalid syntax")
  | more (t : Str) : line = 34 :: t → (∀ d, ¬ Quotes line d) →
      Complaint g n line (b!"invalid entry: unquote " ++ openName (lastField g) ++
        b!" failed|line " ++ Num.natDigits n ++ b!": " ++ line ++ b!": invalid syntax")
  | junk : ¬ Blank line → (∀ t, line ≠ 35 :: t) → (∀ f q, line ≠ Field.word (numForms g) f ++ 32 :: q) →
      (∀ t, line ≠ 34 :: t) →
      Complaint g n line (b!"invalid entry: unexpected line " ++ Num.natDigits n ++ b!": " ++ line)

end Verif.Tr
