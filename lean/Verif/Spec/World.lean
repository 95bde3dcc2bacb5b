import Verif.Model.World
/-!
# Specification vocabulary for Translations values

Histories of calls on any number of `Translations` and `Translation` values; what can be seen of one
`Translations` value; which files of a tree are visited.
-/
namespace Verif.W
open Verif
variable {α : Type}

/-- A call that may change something.  Values are given by address, what the environment answers
(`locale.GetDefault`, the file tree) is part of the call. -/
inductive Op (α : Type) where
  | newTranslations (dflt : Str)
  | newTranslation (domain : Str) (tors : List (Tor α))
  | global
  | d (i : Nat) (domain : Str)
  | l (i : Nat) (lang dflt : Str)
  | withContext (ctx : Ctx) (dflt : Str)
  | setGlobal (i : Nat)
  | bindFS (i : Nat) (domain : Str) (fsys : Option Node)
  | removeDomain (i : Nat) (domain : Str)
  | clearDomains (i : Nat)
  | setDomain (i : Nat) (domain : Str)
  | setLocale (i : Nat) (lang dflt : Str)
  | setSourceCodeLocale (i : Nat) (lang : Str)
  /-- `AddOrReplace` on a `Translation` -/
  | addOrReplace (p : Nat) (tor : Tor α)
  /-- `LoadFS` on a `Translation` -/
  | loadFS (p : Nat) (fsys : Option Node)

/-- The call refers to values that exist. -/
def Op.Valid (w : World α) : Op α → Prop
  | .d i _ | .l i _ _ | .setGlobal i | .bindFS i _ _ | .removeDomain i _ | .clearDomains i | .setDomain i _
  | .setLocale i _ _ | .setSourceCodeLocale i _ => i < w.tss.length
  | .addOrReplace p _ | .loadFS p _ => p < w.trs.length
  | .newTranslations _ | .newTranslation _ _ | .global | .withContext _ _ => True

/-- Perform a call. -/
def Op.exec (c : Cfg α) (w : World α) : Op α → World α
  | .newTranslations dflt => (w.newTranslations dflt).1
  | .newTranslation domain tors => { w with trs := w.trs ++ [W.newTranslation c domain tors] }
  | .global => w.global.1
  | .d i domain => (w.d i domain).1
  | .l i lang dflt => (w.l c i lang dflt).1
  | .withContext ctx dflt => (w.withContext c ctx dflt).1
  | .setGlobal i => w.setGlobal i
  | .bindFS i domain fsys => w.bindFS c i domain fsys
  | .removeDomain i domain => (w.removeDomain i domain).2
  | .clearDomains i => w.clearDomains i
  | .setDomain i domain => w.setDomain i domain
  | .setLocale i lang dflt => w.setLocale c i lang dflt
  | .setSourceCodeLocale i lang => w.setSourceCodeLocale c i lang
  | .addOrReplace p tor => { w with trs := w.trs.set p ((w.tr p).addOrReplace c tor).2 }
  | .loadFS p fsys => { w with trs := w.trs.set p ((w.tr p).loadFS c fsys).2 }

/-- The worlds a program can reach. -/
inductive Reach (c : Cfg α) : World α → Prop where
  | init (dflt : Str) : Reach c (World.init c dflt)
  | step (w : World α) (o : Op α) : Reach c w → o.Valid w → Reach c (o.exec c w)

/-- A sequence of valid calls. -/
inductive Run (c : Cfg α) : World α → List (Op α) → World α → Prop where
  | nil (w : World α) : Run c w [] w
  | cons (w : World α) (o : Op α) (os : List (Op α)) (w' : World α) :
      o.Valid w → Run c (o.exec c w) os w' → Run c w (o :: os) w'

/-- The `Translations` value a call is a setter of. -/
def Op.target : Op α → Option Nat
  | .bindFS i _ _ | .removeDomain i _ | .clearDomains i | .setDomain i _ | .setLocale i _ _
  | .setSourceCodeLocale i _ => some i
  | _ => none

/-- The `Translation` object a call changes. -/
def Op.changes : Op α → Option Nat
  | .addOrReplace p _ | .loadFS p _ => some p
  | _ => none

/-- What can be seen of a `Translations` value: its locales, its current domain, and which
`Translation` object each domain has. -/
structure View where
  locale : Str
  domain : Str
  src : Str
  doms : Str → Option Nat

@[ext] theorem View.ext' {a b : View} (h1 : a.locale = b.locale) (h2 : a.domain = b.domain) (h3 : a.src = b.src)
    (h4 : ∀ d, a.doms d = b.doms d) : a = b := by
  cases a; cases b
  simp only [View.mk.injEq] at *
  exact ⟨h1, h2, h3, funext h4⟩

def World.view (w : World α) (i : Nat) : View where
  locale := w.locale i
  domain := w.domain i
  src := w.sourceCodeLocale i
  doms := w.get i

/-- Two `Translations` values, possibly in different states of the program, give the same answers. -/
structure SameAnswers (c : Cfg α) (w : World α) (i : Nat) (w' : World α) (j : Nat) : Prop where
  locale : w'.locale j = w.locale i
  domain : w'.domain j = w.domain i
  sourceCodeLocale : w'.sourceCodeLocale j = w.sourceCodeLocale i
  usedLocale : w'.usedLocale j = w.usedLocale i
  hasDomain : ∀ d, w'.hasDomain j d = w.hasDomain i d
  domains : ∀ ds, w'.Domains j ds ↔ w.Domains i ds
  get : ∀ d, w'.get j d = w.get i d
  locales : ∀ ls, w'.Locales c j ls ↔ w.Locales c i ls
  x : ∀ ctxt id args, w'.x c j ctxt id args = w.x c i ctxt id args
  xn64 : ∀ ctxt id id2 n args, w'.xn64 c j ctxt id id2 n args = w.xn64 c i ctxt id id2 n args

/-- The `Translation` objects a `Translations` value uses: those of its domains, and the shared one of
unknown domains. -/
def Uses (w : World α) (i p : Nat) : Prop := p = 0 ∨ ∃ d, w.get i d = some p

/-- The call removes this domain (if it is there) from this `Translations`. -/
def Drops (i : Nat) (d : Str) (o : Op α) : Prop := (o = .removeDomain i d ∧ d ≠ []) ∨ o = .clearDomains i

/-- The current domain the call gives to this `Translations`, if it changes it. -/
def newDomain (w : World α) (i : Nat) : Op α → Option Str
  | .setDomain j d => if j = i then some d else none
  | .clearDomains j => if j = i then some b!"default" else none
  | .removeDomain j d =>
    if j = i ∧ d ≠ [] ∧ w.hasDomain i d = true ∧ d = w.domain i then some b!"default" else none
  | _ => none

/-- The locale the call gives to this `Translations`, if it is one that does. -/
def newLocale (c : Cfg α) (i : Nat) : Op α → Option Str
  | .setLocale j lang dflt => if j = i then some (if lang = [] then dflt else c.norm lang) else none
  | _ => none

/-- The source-code locale the call gives to this `Translations`, if it is one that does. -/
def newSrc (c : Cfg α) (i : Nat) : Op α → Option Str
  | .setSourceCodeLocale j lang => if j = i then some (c.norm lang) else none
  | _ => none

/-- One step of building a context. -/
inductive Setting where
  | other
  | locale (l : Str)
  | domain (d : Str)

/-- The context after these steps (`SetCtxLocale`, `SetCtxDomain`, others). -/
def ctxOf (ss : List Setting) : Ctx :=
  ss.foldl (fun p s => match s with
    | .other => .other p
    | .locale l => .lang p l
    | .domain d => .domain p d) .base

/-- The locale set last. -/
def lastLocale (ss : List Setting) : Option Str :=
  (ss.filterMap fun s => match s with | .locale l => some l | _ => none).getLast?

/-- The domain set last. -/
def lastDomain (ss : List Setting) : Option Str :=
  (ss.filterMap fun s => match s with | .domain d => some d | _ => none).getLast?

/-! ## Files of a tree -/

mutual
/-- The files of a tree in walk order, up to the first directory that cannot be read. -/
def filesOf : Node → List (Str × Option Opened)
  | .file name o => [(name, o)]
  | .dir _ readable entries => if readable then filesOfList entries else []
/-- See `filesOf`. -/
def filesOfList : List Node → List (Str × Option Opened)
  | [] => []
  | n :: ns => filesOf n ++ (if complete n then filesOfList ns else [])
/-- Every directory of the tree can be read. -/
def complete : Node → Bool
  | .file _ _ => true
  | .dir _ readable entries => readable && completeList entries
/-- See `complete`. -/
def completeList : List Node → Bool
  | [] => true
  | n :: ns => complete n && completeList ns
end

mutual
/-- All files of a tree in walk order. -/
def allFiles : Node → List (Str × Option Opened)
  | .file name o => [(name, o)]
  | .dir _ _ entries => allFilesList entries
/-- See `allFiles`. -/
def allFilesList : List Node → List (Str × Option Opened)
  | [] => []
  | n :: ns => allFiles n ++ allFilesList ns
end

/-- The files visited from a root. -/
def filesFrom : Option Node → List (Str × Option Opened)
  | none => []
  | some n => filesOf n

/-- The translator in an open file: `some none` if it loads without giving one with a language. -/
def contentTor (c : Cfg α) (o : Opened) : Option (Option (Tor α)) :=
  match o.stat, o.content with
  | some name, some content =>
    let file := if b!".po" <:+ name then some (Tr.readPo content)
      else if b!".mo" <:+ name then some (Tr.readMo content) else none
    match file with
    | none => some none
    | some (.ok f) => some (if f.lang.1 = [] then none else some (fileTor c f))
    | some _ => none
  | _, _ => none

/-- The files with this extension that load, with their translators. -/
def loadable (c : Cfg α) (ext : Str) (files : List (Str × Option Opened)) : List (Option (Tor α)) :=
  files.filterMap fun p => if ext <:+ p.1 then p.2.bind (contentTor c) else none

/-- Some file of the tree loads. -/
def Loads (c : Cfg α) (fsys : Option Node) : Prop :=
  ∃ p ∈ filesFrom fsys, (b!".po" <:+ p.1 ∨ b!".mo" <:+ p.1) ∧ ∃ o, p.2 = some o ∧ (contentTor c o).isSome

/-- The last of these translators for a (normalized) language. -/
def lastFor (c : Cfg α) (lang : Str) (tors : List (Tor α)) : Option (Tor α) :=
  (tors.filter fun t => t.lang ≠ [] ∧ c.norm t.lang = lang).getLast?

end Verif.W
