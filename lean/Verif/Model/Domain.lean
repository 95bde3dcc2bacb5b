import Verif.Model.Po
import Verif.Model.Mo
/-!
# One text domain: translators per language, loading from a file system
(translator.go, translaton.go, translator/translator.go, locale/detect.go)

A `Translator` is represented by what it answers (for a `File` this is justified by C17: lookups do
not change what later lookups answer).  `locale.Normalize` is an arbitrary function of the
configuration.  The file system does not change while it is loaded.  Simplified: `LoadPo` and `LoadMo`
of content on which the readers panic would panic; the readers never do (C22, C32).  A walk callback
that is called with the error `fs.SkipDir` itself is not considered.
-/
namespace Verif.W
open Verif

/-- What the code takes from outside.  For translaton.go:37-49. -/
structure Cfg (α : Type) where
  fmt : Fmt.Env α
  diag : Plural.Diag
  /-- `locale.Normalize` (locale/detect.go:21-30) -/
  norm : Str → Str

variable {α : Type}

/-- `Translator` (translator/translator.go:4-11). -/
structure Tor (α : Type) where
  lang : Str
  x : Str → Str → List α → Res Str
  xn : Str → Str → Str → Int64 → List α → Res Str

/-- `nooptor` (translator.go:14-24). -/
def noopTor (c : Cfg α) : Tor α where
  lang := []
  x _ id args := .ok (Fmt.format c.fmt id args)
  xn _ id id2 n args := .ok (Fmt.defaultPlural c.fmt id id2 n args)

/-- A `*File` as a `Translator`.  For translator/file.go:29-66. -/
def fileTor (c : Cfg α) (f : Tr.File) : Tor α where
  lang := f.lang.1
  x ctxt id args := .ok (f.x c.fmt ctxt id args)
  xn ctxt id id2 n args := (f.xn c.fmt c.diag ctxt id id2 n args).1

/-- `Translation` (translaton.go:22-25). -/
structure Translation (α : Type) where
  domain : Str
  langs : GMap (Tor α)

/-- `(*Translation).AddOrReplace` (translaton.go:37-49): the previous translator and the new state. -/
def Translation.addOrReplace (c : Cfg α) (tr : Translation α) (tor : Tor α) : Option (Tor α) × Translation α :=
  if tor.lang = [] then (none, tr)
  else
    let lang := c.norm tor.lang
    match tr.langs.get? lang with
    | some pre => (some pre, { tr with langs := tr.langs.set lang tor })
    | none => (none, { tr with langs := tr.langs.set lang tor })

/-- `NewTranslation` (translaton.go:28-34). -/
def newTranslation (c : Cfg α) (domain : Str) (tors : List (Tor α)) : Translation α :=
  tors.foldl (fun tr tor => (tr.addOrReplace c tor).2) { domain := domain, langs := [] }

/-- `(*Translation).Get` (translaton.go:52-55). -/
def Translation.get (tr : Translation α) (lang : Str) : Option (Tor α) := tr.langs.get? lang

/-- `(*Translation).GetOrNoop` (translaton.go:59-64). -/
def Translation.getOrNoop (c : Cfg α) (tr : Translation α) (lang : Str) : Tor α :=
  match tr.langs.get? lang with
  | some tor => tor
  | none => noopTor c

/-- `(*Translation).LoadPo` (translaton.go:113-120): success and the new state. -/
def Translation.loadPo (c : Cfg α) (tr : Translation α) (content : Str) : Bool × Translation α :=
  match Tr.readPo content with
  | .ok f => (true, (tr.addOrReplace c (fileTor c f)).2)
  | _ => (false, tr)

/-- `(*Translation).LoadMo` (translaton.go:123-130). -/
def Translation.loadMo (c : Cfg α) (tr : Translation α) (content : Str) : Bool × Translation α :=
  match Tr.readMo content with
  | .ok f => (true, (tr.addOrReplace c (fileTor c f)).2)
  | _ => (false, tr)

/-- An open file: what `Stat` (its name) and `io.ReadAll` return; `none` is an error.  For translaton.go:94-103. -/
structure Opened where
  stat : Option Str
  content : Option Str
  deriving DecidableEq

/-- For translaton.go:12-16. -/
def extPo : Str := b!".po"
/-- For translaton.go:12-16. -/
def extMo : Str := b!".mo"

/-- `(*Translation).LoadFile` (translaton.go:94-110). -/
def Translation.loadFile (c : Cfg α) (tr : Translation α) (o : Opened) : Bool × Translation α :=
  match o.stat with
  | none => (false, tr)
  | some name =>
    match o.content with
    | none => (false, tr)
    | some content =>
      if GoStr.hasSuffix name extPo then tr.loadPo c content
      else if GoStr.hasSuffix name extMo then tr.loadMo c content
      else (true, tr)

/-- A file tree as `fs.WalkDir` sees it: files with their name and what opening them gives,
directories that can be read or not.  For translaton.go:67-110. -/
inductive Node where
  | file (name : Str) (opened : Option Opened)
  | dir (name : Str) (readable : Bool) (entries : List Node)

/-- The callback of `LoadFS` on a file (translaton.go:74-84). -/
def visitFile (c : Cfg α) (ext name : Str) (opened : Option Opened) (st : Bool × Translation α) :
    Bool × Translation α :=
  if GoStr.hasSuffix name ext then
    match opened with
    | none => st
    | some o =>
      match st.2.loadFile c o with
      | (true, tr) => (true, tr)
      | (false, tr) => (st.1, tr)
  else st

mutual
/-- `fs.walkDir` with the callback of `LoadFS` (translaton.go:69-87): whether it returned an error, and
the state. -/
def walkNode (c : Cfg α) (ext : Str) : Node → Bool × Translation α → Bool × (Bool × Translation α)
  | .file name o, st => (false, visitFile c ext name o st)
  | .dir _ readable entries, st => if readable then walkList c ext entries st else (true, st)
/-- The loop of `fs.walkDir` over the entries of a directory.  For translaton.go:67-110. -/
def walkList (c : Cfg α) (ext : Str) : List Node → Bool × Translation α → Bool × (Bool × Translation α)
  | [], st => (false, st)
  | n :: ns, st =>
    match walkNode c ext n st with
    | (true, st) => (true, st)
    | (false, st) => walkList c ext ns st
end

/-- `fs.WalkDir` from the root, which may fail to be found.  For translaton.go:67-110. -/
def walkRoot (c : Cfg α) (ext : Str) (root : Option Node) (st : Bool × Translation α) : Bool × Translation α :=
  match root with
  | none => st
  | some n => (walkNode c ext n st).2

/-- `(*Translation).LoadFS` (translaton.go:67-91). -/
def Translation.loadFS (c : Cfg α) (tr : Translation α) (root : Option Node) : Bool × Translation α :=
  walkRoot c extPo root (walkRoot c extMo root (false, tr))

end Verif.W
