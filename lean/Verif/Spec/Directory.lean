import Verif.Spec.Workflow
import Verif.Spec.GlobFiles
import Verif.Spec.TmplText
import Verif.Spec.Tmpl
import Verif.Spec.Literal
/-!
# Specification vocabulary for runs over the files of a directory
-/
namespace Verif.Flow
open Verif
open Verif.Xt (Env Param Disk Keyword FileOk NoEotIn OneLine Given TemplateEntry)

/-- A string literal with this value is in the text. -/
def LitIn (body t : Str) : Prop := ∃ x s y, body = x ++ s ++ y ∧ Literal.Literal s t

/-- Between delimiters the text has a name and literals with the texts of the message. -/
def CallIn (D : Tmpl.Delims) (src name ctxt id : Str) : Prop :=
  ∃ a body b, src = a ++ D.left ++ body ++ D.right ++ b ∧ (∃ x y, body = x ++ name ++ y) ∧ LitIn body id ∧
    (ctxt = [] ∨ LitIn body ctxt)

/-- The text is a template file that asks for this entry. -/
def AsksFor (p : Param) (kws : List Keyword) (f src : Str) (e : Tr.Entry) : Prop :=
  ∃ main named, Tmpl.Written (Given kws p) (Tmpl.delimsOf p) src main named ∧
    (TemplateEntry kws f main e ∨ ∃ name root, (name, root) ∈ named ∧ TemplateEntry kws f root e)

/-- Line breaks are in none of the names of the input files, and EOT bytes in none of the contexts of the messages. -/
def Clean (E : Env) (fs : Glob.Fs) (p : Param) (kws : List Keyword) (d : Disk) : Prop :=
  ∀ f, Glob.Named false fs p.input f → OneLine f ∧ ∀ es, FileOk E p kws d f es → NoEotIn es

/-- Everything that is in the first file system is in the second. -/
def Grown (fs fs' : Glob.Fs) : Prop :=
  (∀ x, fs.found x = true → fs'.found x = true) ∧
  ∀ d ns, fs.names d = some ns → ∃ ns', fs'.names d = some ns' ∧ ∀ n ∈ ns, n ∈ ns'

end Verif.Flow
