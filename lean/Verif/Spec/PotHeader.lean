import Verif.Spec.Run
/-!
# What the header of a POT says

The fields of the header entry, with the words the gettext manual gives for what is still to be filled in.
-/
namespace Verif.Xt
open Verif

/-- No parameter has a line end. -/
def OneLineParam (p : Param) : Prop :=
  10 ∉ p.input ∧ 10 ∉ p.left ∧ 10 ∉ p.right ∧ 10 ∉ p.keyword ∧ 10 ∉ p.function ∧ 10 ∉ p.output

/-- No parameter has white space at its ends. -/
def TrimmedParam (p : Param) : Prop :=
  GoStr.trimSpace p.input = p.input ∧ GoStr.trimSpace p.left = p.left ∧ GoStr.trimSpace p.right = p.right ∧
    GoStr.trimSpace p.keyword = p.keyword ∧ GoStr.trimSpace p.function = p.function ∧ GoStr.trimSpace p.output = p.output

/-- The field says this about the run. -/
inductive Records (p : Param) (now : Str) (plurals : Prop) : Str → Str → Prop
  | date : Records p now plurals b!"POT-Creation-Date" now
  | input : Records p now plurals b!"X-Xtemplate-Input" p.input
  | left : Records p now plurals b!"X-Xtemplate-Left" p.left
  | right : Records p now plurals b!"X-Xtemplate-Right" p.right
  | keywords : Records p now plurals b!"X-Xtemplate-Keywords" p.keyword
  | functions : Records p now plurals b!"X-Xtemplate-Functions" p.function
  | output : Records p now plurals b!"X-Xtemplate-Output" p.output
  | forms (h : plurals) : Records p now plurals b!"Plural-Forms" b!"nplurals=INTEGER; plural=EXPRESSION;"
  | project : Records p now plurals b!"Project-Id-Version" b!"PACKAGE VERSION"
  | bugs : Records p now plurals b!"Report-Msgid-Bugs-To" []
  | revision : Records p now plurals b!"PO-Revision-Date" b!"YEAR-MO-DA HO:MI+ZONE"
  | translator : Records p now plurals b!"Last-Translator" b!"FULL NAME <EMAIL@ADDRESS>"
  | team : Records p now plurals b!"Language-Team" b!"LANGUAGE <LL@li.org>"
  | language : Records p now plurals b!"Language" []
  | mime : Records p now plurals b!"MIME-Version" b!"1.0"
  | content : Records p now plurals b!"Content-Type" b!"text/plain; charset=CHARSET"
  | encoding : Records p now plurals b!"Content-Transfer-Encoding" b!"8bit"
  | creator : Records p now plurals b!"X-Created-By" b!"xtemplate(https://github.com/youthlin/t/tree/main/cmd/xtemplate)"

/-- A comment of flags, `#,` and words between commas, with this word among them. -/
def HasFlag (cmts : List Str) (flag : Str) : Prop :=
  ∃ c ∈ cmts, ∃ words : List Str, c = b!"#," ++ List.intercalate b!"," words ∧ (∀ w ∈ words, 44 ∉ w) ∧ ∃ w ∈ words, GoStr.trimSpace w = flag

end Verif.Xt
