import Verif.Spec.World
/-!
# The package as an abstract machine

The interface of the package (init.go, gettext.go, translations.go, context.go) with `Translations` being
plain records: no addresses, no maps shared or copied.  A record is known by the order in which the
program made it; number 0 is the value the package starts with.
-/
namespace Verif.W
open Verif
variable {α : Type}

/-- Whom a function is called on: the package, or a `Translations` value. -/
inductive Who where
  | pkg
  | val (k : Nat)

/-- A call that makes or changes something, with what the environment answers. -/
inductive Call where
  | newTranslations (dflt : Str)
  | global
  | setGlobal (k : Nat)
  | d (on : Who) (domain : Str)
  | l (on : Who) (lang dflt : Str)
  | withContext (ctx : Ctx) (dflt : Str)
  | setLocale (on : Who) (lang dflt : Str)
  | setDomain (on : Who) (domain : Str)
  | setSourceCodeLocale (on : Who) (lang : Str)
  | bindFS (on : Who) (domain : Str) (fsys : Option Node)
  /-- `LoadFS` of the package -/
  | loadFS (fsys : Option Node)
  | removeDomain (on : Who) (domain : Str)
  | clearDomains (on : Who)

/-! ## The machine -/

/-- A record; a domain gives each of its languages a translator. -/
structure Record (α : Type) where
  locale : Str
  domain : Str
  src : Str
  doms : Str → Option (Str → Option (Tor α))

/-- The translator in force. -/
def Record.tor (v : Record α) : Option (Tor α) := (v.doms v.domain).bind fun dom => dom v.locale

/-- A record as `NewTranslations` makes it. -/
def Record.fresh (dflt : Str) : Record α := { locale := dflt, domain := b!"default", src := b!"en_US", doms := fun _ => none }

/-- The records the program has made, and which of them the package uses. -/
structure Plain (α : Type) where
  vals : List (Record α)
  glob : Nat

/-- The number of the record. -/
def Plain.no (s : Plain α) : Who → Nat
  | .pkg => s.glob
  | .val k => k

/-- The record. -/
def Plain.val (s : Plain α) (on : Who) : Record α := s.vals.getD (s.no on) (Record.fresh [])

/-- Another record. -/
def Plain.make (s : Plain α) (v : Record α) : Plain α := { s with vals := s.vals ++ [v] }

/-- A change of a record. -/
def Plain.put (s : Plain α) (on : Who) (v : Record α) : Plain α := { s with vals := s.vals.set (s.no on) v }

/-- What a tree gives: nothing if no file loads; else for each language the translator of its last PO file,
or of its last MO file if there is no PO file for it. -/
def domainOf (c : Cfg α) (fsys : Option Node) : Option (Str → Option (Tor α)) :=
  let po := loadable c b!".po" (filesFrom fsys)
  let mo := loadable c b!".mo" (filesFrom fsys)
  if po = [] ∧ mo = [] then none
  else some fun lang => (lastFor c lang (po.filterMap id)).or (lastFor c lang (mo.filterMap id))

/-- The record after a tree was bound to a domain. -/
def Record.bind (c : Cfg α) (v : Record α) (domain : Str) (fsys : Option Node) : Record α :=
  match domainOf c fsys with
  | none => v
  | some dom => { v with doms := fun d => if d = domain then some dom else v.doms d }

/-- The record with the locale of this name; the empty name is the default locale. -/
def Record.inLocale (c : Cfg α) (v : Record α) (lang dflt : Str) : Record α :=
  { v with locale := if lang = [] then dflt else c.norm lang }

/-- A call.  The result is the answer of `RemoveDomain`. -/
def Call.plain (c : Cfg α) (s : Plain α) : Call → Plain α × Option Bool
  | .newTranslations dflt => (s.make (Record.fresh dflt), none)
  | .global => (s.make (s.val .pkg), none)
  | .setGlobal k => ({ s with glob := k }, none)
  | .d on domain => (s.make { s.val on with domain := domain }, none)
  | .l on lang dflt => (s.make ((s.val on).inLocale c lang dflt), none)
  | .withContext ctx dflt =>
    let v := s.val .pkg
    let v := match ctx.getLocale with | some lang => v.inLocale c lang dflt | none => v
    let v := match ctx.getDomain with | some domain => { v with domain := domain } | none => v
    (s.make v, none)
  | .setLocale on lang dflt => (s.put on ((s.val on).inLocale c lang dflt), none)
  | .setDomain on domain => (s.put on { s.val on with domain := domain }, none)
  | .setSourceCodeLocale on lang => (s.put on { s.val on with src := c.norm lang }, none)
  | .bindFS on domain fsys => (s.put on ((s.val on).bind c domain fsys), none)
  | .loadFS fsys => (s.put .pkg ((s.val .pkg).bind c (s.val .pkg).domain fsys), none)
  | .removeDomain on domain =>
    let v := s.val on
    if domain = [] ∨ v.doms domain = none then (s, some false)
    else (s.put on { v with
      domain := if v.domain = domain then b!"default" else v.domain
      doms := fun d => if d = domain then none else v.doms d }, some true)
  | .clearDomains on => (s.put on { s.val on with domain := b!"default", doms := fun _ => none }, none)

/-- The value exists. -/
def Who.Known (n : Nat) : Who → Prop
  | .pkg => True
  | .val k => k < n

/-- The call is on values that exist. -/
def Call.Known (n : Nat) : Call → Prop
  | .newTranslations _ | .global | .withContext _ _ | .loadFS _ => True
  | .setGlobal k => k < n
  | .d on _ | .l on _ _ | .setLocale on _ _ | .setDomain on _ | .setSourceCodeLocale on _ | .bindFS on _ _
  | .removeDomain on _ | .clearDomains on => on.Known n

/-! ## The program -/

/-- The program's memory, and the addresses of the values in the order they were made. -/
structure Prog (α : Type) where
  w : World α
  made : List Nat

/-- The address. -/
def Prog.addr (p : Prog α) (k : Nat) : Nat := p.made.getD k 0

/-- A function that returns a new value. -/
def Prog.returns (p : Prog α) (r : World α × Nat) : Prog α × Option Bool := ({ w := r.1, made := p.made ++ [r.2] }, none)

/-- A function that returns nothing. -/
def Prog.does (p : Prog α) (w : World α) : Prog α × Option Bool := ({ p with w := w }, none)

/-- The same call of the package. -/
def Call.real (c : Cfg α) (p : Prog α) : Call → Prog α × Option Bool
  | .newTranslations dflt => p.returns (p.w.newTranslations dflt)
  | .global => p.returns p.w.global
  | .setGlobal k => p.does (p.w.setGlobal (p.addr k))
  | .d .pkg domain => p.returns (p.w.gD domain)
  | .d (.val k) domain => p.returns (p.w.d (p.addr k) domain)
  | .l .pkg lang dflt => p.returns (p.w.gL c lang dflt)
  | .l (.val k) lang dflt => p.returns (p.w.l c (p.addr k) lang dflt)
  | .withContext ctx dflt => p.returns (p.w.withContext c ctx dflt)
  | .setLocale .pkg lang dflt => p.does (p.w.gSetLocale c lang dflt)
  | .setLocale (.val k) lang dflt => p.does (p.w.setLocale c (p.addr k) lang dflt)
  | .setDomain .pkg domain => p.does (p.w.gSetDomain domain)
  | .setDomain (.val k) domain => p.does (p.w.setDomain (p.addr k) domain)
  | .setSourceCodeLocale .pkg lang => p.does (p.w.gSetSourceCodeLocale c lang)
  | .setSourceCodeLocale (.val k) lang => p.does (p.w.setSourceCodeLocale c (p.addr k) lang)
  | .bindFS .pkg domain fsys => p.does (p.w.gBindFS c domain fsys)
  | .bindFS (.val k) domain fsys => p.does (p.w.bindFS c (p.addr k) domain fsys)
  | .loadFS fsys => p.does (p.w.gLoadFS c fsys)
  | .removeDomain .pkg domain =>
    let r := p.w.gRemoveDomain domain
    ({ p with w := r.2 }, some r.1)
  | .removeDomain (.val k) domain =>
    let r := p.w.removeDomain (p.addr k) domain
    ({ p with w := r.2 }, some r.1)
  | .clearDomains .pkg => p.does p.w.gClearDomains
  | .clearDomains (.val k) => p.does (p.w.clearDomains (p.addr k))

/-- The machine and the program at the start. -/
def Plain.start (α : Type) (dflt : Str) : Plain α := { vals := [Record.fresh dflt], glob := 0 }
def Prog.start (c : Cfg α) (dflt : Str) : Prog α := { w := World.init c dflt, made := [0] }

/-- A sequence of calls and their results. -/
def playPlain (c : Cfg α) : Plain α → List Call → Plain α × List (Option Bool)
  | s, [] => (s, [])
  | s, o :: os => ((playPlain c (o.plain c s).1 os).1, (o.plain c s).2 :: (playPlain c (o.plain c s).1 os).2)
def playReal (c : Cfg α) : Prog α → List Call → Prog α × List (Option Bool)
  | p, [] => (p, [])
  | p, o :: os => ((playReal c (o.real c p).1 os).1, (o.real c p).2 :: (playReal c (o.real c p).1 os).2)

/-- How many values the call makes. -/
def Call.makes : Call → Nat
  | .newTranslations _ | .global | .d _ _ | .l _ _ _ | .withContext _ _ => 1
  | _ => 0

/-- Each call is on values that exist by then. -/
def AllKnown : Nat → List Call → Prop
  | _, [] => True
  | n, o :: os => o.Known n ∧ AllKnown (n + o.makes) os

/-! ## What can be asked -/

def Prog.locale (p : Prog α) : Who → Str
  | .pkg => p.w.gLocale
  | .val k => p.w.locale (p.addr k)
def Prog.domain (p : Prog α) : Who → Str
  | .pkg => p.w.gDomain
  | .val k => p.w.domain (p.addr k)
def Prog.sourceCodeLocale (p : Prog α) : Who → Str
  | .pkg => p.w.gSourceCodeLocale
  | .val k => p.w.sourceCodeLocale (p.addr k)
def Prog.usedLocale (p : Prog α) : Who → Str
  | .pkg => p.w.gUsedLocale
  | .val k => p.w.usedLocale (p.addr k)
def Prog.hasDomain (p : Prog α) (d : Str) : Who → Bool
  | .pkg => p.w.gHasDomain d
  | .val k => p.w.hasDomain (p.addr k) d
def Prog.Domains (p : Prog α) (ds : List Str) : Who → Prop
  | .pkg => p.w.GDomains ds
  | .val k => p.w.Domains (p.addr k) ds
def Prog.Locales (c : Cfg α) (p : Prog α) (ls : List Str) : Who → Prop
  | .pkg => p.w.GLocales c ls
  | .val k => p.w.Locales c (p.addr k) ls

/-- The ten lookup functions. -/
inductive Lookup (α : Type) where
  | t (id : Str) (args : List α)
  | x (ctxt id : Str) (args : List α)
  | n (id id2 : Str) (k : Int64) (args : List α)
  | n64 (id id2 : Str) (k : Int64) (args : List α)
  | n1 (id : Str) (k : Int64) (args : List α)
  | n1_64 (id : Str) (k : Int64) (args : List α)
  | xn (ctxt id id2 : Str) (k : Int64) (args : List α)
  | xn64 (ctxt id id2 : Str) (k : Int64) (args : List α)
  | xn1 (ctxt id : Str) (k : Int64) (args : List α)
  | xn1_64 (ctxt id : Str) (k : Int64) (args : List α)

def Lookup.real (c : Cfg α) (p : Prog α) : Who → Lookup α → Res Str
  | .pkg, .t id args => p.w.gT c id args
  | .pkg, .x ctxt id args => p.w.gX c ctxt id args
  | .pkg, .n id id2 k args => p.w.gN c id id2 k args
  | .pkg, .n64 id id2 k args => p.w.gN64 c id id2 k args
  | .pkg, .n1 id k args => p.w.gN1 c id k args
  | .pkg, .n1_64 id k args => p.w.gN1_64 c id k args
  | .pkg, .xn ctxt id id2 k args => p.w.gXN c ctxt id id2 k args
  | .pkg, .xn64 ctxt id id2 k args => p.w.gXN64 c ctxt id id2 k args
  | .pkg, .xn1 ctxt id k args => p.w.gXN1 c ctxt id k args
  | .pkg, .xn1_64 ctxt id k args => p.w.gXN1_64 c ctxt id k args
  | .val i, .t id args => p.w.t c (p.addr i) id args
  | .val i, .x ctxt id args => p.w.x c (p.addr i) ctxt id args
  | .val i, .n id id2 k args => p.w.n c (p.addr i) id id2 k args
  | .val i, .n64 id id2 k args => p.w.n64 c (p.addr i) id id2 k args
  | .val i, .n1 id k args => p.w.n1 c (p.addr i) id k args
  | .val i, .n1_64 id k args => p.w.n1_64 c (p.addr i) id k args
  | .val i, .xn ctxt id id2 k args => p.w.xn c (p.addr i) ctxt id id2 k args
  | .val i, .xn64 ctxt id id2 k args => p.w.xn64 c (p.addr i) ctxt id id2 k args
  | .val i, .xn1 ctxt id k args => p.w.xn1 c (p.addr i) ctxt id k args
  | .val i, .xn1_64 ctxt id k args => p.w.xn1_64 c (p.addr i) ctxt id k args

/-- The message: context, id, and plural id with the number if it is a plural lookup. -/
def Lookup.message : Lookup α → Str × Str × Option (Str × Int64) × List α
  | .t id args => ([], id, none, args)
  | .x ctxt id args => (ctxt, id, none, args)
  | .n id id2 k args | .n64 id id2 k args => ([], id, some (id2, k), args)
  | .n1 id k args | .n1_64 id k args => ([], id, some ([], k), args)
  | .xn ctxt id id2 k args | .xn64 ctxt id id2 k args => (ctxt, id, some (id2, k), args)
  | .xn1 ctxt id k args | .xn1_64 ctxt id k args => (ctxt, id, some ([], k), args)

/-- The translator in force answers, or else the source text is shown. -/
def Record.lookup (c : Cfg α) (v : Record α) (q : Lookup α) : Res Str :=
  match q.message, v.tor with
  | (ctxt, id, none, args), some t => t.x ctxt id args
  | (ctxt, id, some (id2, k), args), some t => t.xn ctxt id id2 k args
  | (_, id, none, args), none => .ok (Fmt.format c.fmt id args)
  | (_, id, some (id2, k), args), none => .ok (Fmt.defaultPlural c.fmt id id2 k args)

/-- Everything the program can ask of the package or of a value is what the record says. -/
structure Says (c : Cfg α) (p : Prog α) (on : Who) (v : Record α) : Prop where
  locale : p.locale on = v.locale
  domain : p.domain on = v.domain
  sourceCodeLocale : p.sourceCodeLocale on = v.src
  usedLocale : p.usedLocale on = if v.tor.isSome then v.locale else v.src
  hasDomain : ∀ d, p.hasDomain d on = (v.doms d).isSome
  domains : ∀ ds, p.Domains ds on ↔ ds.Nodup ∧ ∀ d, d ∈ ds ↔ (v.doms d).isSome
  locales : ∀ ls, p.Locales c ls on ↔ ls.Pairwise (· < ·) ∧
    ∀ l, l ∈ ls ↔ l = v.src ∨ ∃ dom k, v.doms v.domain = some dom ∧ (dom k).isSome ∧ c.norm k = l
  lookup : ∀ q : Lookup α, q.real c p on = v.lookup c q

end Verif.W
