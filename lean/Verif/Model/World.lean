import Verif.Model.Domain
/-!
# Translations values and the global one
(translations.go, init.go, gettext.go, context.go, http.go, matcher.go, mark.go)

Pointers and maps are addresses in a heap, so that aliasing is visible: `trs` are the `*Translation`
objects (address 0 is `trNoop`), `maps` the `map[string]*Translation` objects, `tss` the
`*Translations` objects.  The `langs` map of a `Translation` is never shared and is part of the object.
Not modelled: nil receivers, `SetGlobal(nil)`, and zero `Translations` values not made by
`NewTranslations` (whose nil map makes `BindFS` panic).  `language.Make`, the matcher,
`language.ParseAcceptLanguage`, the request's cookies and `locale.GetDefault` are parameters.
-/
namespace Verif.W
open Verif
variable {α : Type}

/-- `Translations` (translations.go:18-24); `domains` is the address of the map. -/
structure Translations where
  locale : Str
  domain : Str
  domains : Nat
  src : Str
  deriving DecidableEq, Repr, Inhabited

/-- The heap, and the global variable (init.go:7). -/
structure World (α : Type) where
  trs : List (Translation α)
  maps : List (GMap Nat)
  tss : List Translations
  glob : Nat

/-- `DefaultDomain` (translations.go:11). -/
def defaultDomain : Str := b!"default"
/-- `DefaultSourceCodeLocale` (translations.go:14). -/
def defaultSrc : Str := b!"en_US"

namespace World

/-- Dereference a `*Translations`.  For translations.go:18-24. -/
def ts (w : World α) (i : Nat) : Translations := w.tss.getD i default
/-- Dereference a map.  For translations.go:18-24. -/
def mapAt (w : World α) (r : Nat) : GMap Nat := w.maps.getD r []
/-- Dereference a `*Translation`.  For translaton.go:22-25. -/
def tr (w : World α) (p : Nat) : Translation α := w.trs.getD p { domain := [], langs := [] }
/-- The content of `ts.domains`.  For translations.go:18-24. -/
def doms (w : World α) (i : Nat) : GMap Nat := w.mapAt (w.ts i).domains
/-- Assign to the fields of `*ts`.  For translations.go:18-24. -/
def setTs (w : World α) (i : Nat) (t : Translations) : World α := { w with tss := w.tss.set i t }
/-- Change the map `ts.domains` in place.  For translations.go:18-24. -/
def setDoms (w : World α) (i : Nat) (m : GMap Nat) : World α :=
  { w with maps := w.maps.set (w.ts i).domains m }

/-- `NewTranslations` (translations.go:27-34); `dflt` is what `locale.GetDefault` returns. -/
def newTranslations (w : World α) (dflt : Str) : World α × Nat :=
  ({ w with
      maps := w.maps ++ [[]]
      tss := w.tss ++ [{ locale := dflt, domain := defaultDomain, domains := w.maps.length, src := defaultSrc }] },
   w.tss.length)

/-- The package variables `trNoop` (translaton.go:18) and `global` (init.go:7). -/
def init (c : Cfg α) (dflt : Str) : World α :=
  (World.newTranslations { trs := [newTranslation c [] []], maps := [], tss := [], glob := 0 } dflt).1

/-- `(*Translations).clone` (translations.go:37-50). -/
def clone (w : World α) (i : Nat) : World α × Nat :=
  let m : GMap Nat := (w.doms i).foldl (fun m p => m.set p.1 p.2) []
  ({ w with
      maps := w.maps ++ [m]
      tss := w.tss ++ [{ locale := (w.ts i).locale, domain := (w.ts i).domain, domains := w.maps.length,
                         src := (w.ts i).src }] },
   w.tss.length)

/-- `(*Translations).BindFS` (translations.go:54-59). -/
def bindFS (c : Cfg α) (w : World α) (i : Nat) (domain : Str) (fsys : Option Node) : World α :=
  let (loaded, tr) := (newTranslation c domain []).loadFS c fsys
  let w := { w with trs := w.trs ++ [tr] }
  if loaded then w.setDoms i ((w.doms i).set domain (w.trs.length - 1)) else w

/-- `(*Translations).HasDomain` (translations.go:96-103). -/
def hasDomain (w : World α) (i : Nat) (domain : Str) : Bool := (w.doms i).keys.any fun d => d = domain

/-- `(*Translations).RemoveDomain` (translations.go:63-75). -/
def removeDomain (w : World α) (i : Nat) (domain : Str) : Bool × World α :=
  if domain = [] then (false, w)
  else if !w.hasDomain i domain then (false, w)
  else
    let w := w.setDoms i ((w.doms i).erase domain)
    let w := if (w.ts i).domain = domain then w.setTs i { w.ts i with domain := defaultDomain } else w
    (true, w)

/-- `(*Translations).ClearDomains` (translations.go:80-83). -/
def clearDomains (w : World α) (i : Nat) : World α :=
  let w : World α := { w with maps := w.maps ++ [[]] }
  w.setTs i { w.ts i with domains := w.maps.length - 1, domain := defaultDomain }

/-- `(*Translations).Domain` (translations.go:86-88). -/
def domain (w : World α) (i : Nat) : Str := (w.ts i).domain

/-- `(*Translations).SetDomain` (translations.go:91-93). -/
def setDomain (w : World α) (i : Nat) (domain : Str) : World α := w.setTs i { w.ts i with domain := domain }

/-- `(*Translations).Domains` (translations.go:106-111): the keys in an arbitrary order. -/
def Domains (w : World α) (i : Nat) (ds : List Str) : Prop := ds.Perm (w.doms i).keys

/-- `(*Translations).Locale` (translations.go:114-116). -/
def locale (w : World α) (i : Nat) : Str := (w.ts i).locale

/-- `(*Translations).SetLocale` (translations.go:156-163). -/
def setLocale (c : Cfg α) (w : World α) (i : Nat) (lang dflt : Str) : World α :=
  let lang := if lang = [] then dflt else c.norm lang
  w.setTs i { w.ts i with locale := lang }

/-- `(*Translations).SourceCodeLocale` (translations.go:166). -/
def sourceCodeLocale (w : World α) (i : Nat) : Str := (w.ts i).src

/-- `(*Translations).SetSourceCodeLocale` (translations.go:169-172). -/
def setSourceCodeLocale (c : Cfg α) (w : World α) (i : Nat) (lang : Str) : World α :=
  w.setTs i { w.ts i with src := c.norm lang }

/-- `(*Translations).Get` (translations.go:176-179). -/
def get (w : World α) (i : Nat) (domain : Str) : Option Nat := (w.doms i).get? domain

/-- `(*Translations).GetOrNoop` (translations.go:183-188). -/
def getOrNoop (w : World α) (i : Nat) (domain : Str) : Nat :=
  match (w.doms i).get? domain with
  | some p => p
  | none => 0

/-- The loop of `(*Translations).Locales` (translations.go:121-130) over the languages in the order
they are ranged over. -/
def collectLocales (c : Cfg α) (src : Str) (langs : List Str) : List Str :=
  langs.foldl (fun locales lang =>
    let lang := c.norm lang
    if lang ∈ locales then locales else locales ++ [lang]) [src]

/-- `(*Translations).Locales` (translations.go:119-133): a possible result, whatever the map iteration
order and the sorting algorithm. -/
def Locales (c : Cfg α) (w : World α) (i : Nat) (ls : List Str) : Prop :=
  ∃ order, order.Perm (w.tr (w.getOrNoop i (w.ts i).domain)).langs.keys ∧
    ls.Perm (collectLocales c (w.ts i).src order) ∧ ls.Pairwise fun a b => ¬ b < a

/-- `(*Translations).UsedLocale` (translations.go:143-153). -/
def usedLocale (w : World α) (i : Nat) : Str :=
  match w.get i (w.ts i).domain with
  | none => (w.ts i).src
  | some p =>
    match (w.tr p).get (w.ts i).locale with
    | none => (w.ts i).src
    | some _ => (w.ts i).locale

/-- `(*Translations).D` (translations.go:191-195). -/
def d (w : World α) (i : Nat) (domain : Str) : World α × Nat :=
  let (w, r) := w.clone i
  (w.setDomain r domain, r)

/-- `(*Translations).L` (translations.go:198-202). -/
def l (c : Cfg α) (w : World α) (i : Nat) (locale dflt : Str) : World α × Nat :=
  let (w, r) := w.clone i
  (w.setLocale c r locale dflt, r)

/-- `(*Translations).X` (translations.go:230-234). -/
def x (c : Cfg α) (w : World α) (i : Nat) (ctxt id : Str) (args : List α) : Res Str :=
  ((w.tr (w.getOrNoop i (w.ts i).domain)).getOrNoop c (w.ts i).locale).x ctxt id args

/-- `(*Translations).XN64` (translations.go:247-251). -/
def xn64 (c : Cfg α) (w : World α) (i : Nat) (ctxt id id2 : Str) (n : Int64) (args : List α) : Res Str :=
  ((w.tr (w.getOrNoop i (w.ts i).domain)).getOrNoop c (w.ts i).locale).xn ctxt id id2 n args

/-- `(*Translations).T` (translations.go:205-207). -/
def t (c : Cfg α) (w : World α) (i : Nat) (id : Str) (args : List α) : Res Str := w.x c i [] id args
/-- `(*Translations).N` (translations.go:210-212); `int` has 64 bits. -/
def n (c : Cfg α) (w : World α) (i : Nat) (id id2 : Str) (k : Int64) (args : List α) : Res Str :=
  w.xn64 c i [] id id2 k args
/-- `(*Translations).N1` (translations.go:215-217). -/
def n1 (c : Cfg α) (w : World α) (i : Nat) (id : Str) (k : Int64) (args : List α) : Res Str :=
  w.xn64 c i [] id [] k args
/-- `(*Translations).N1_64` (translations.go:220-222). -/
def n1_64 (c : Cfg α) (w : World α) (i : Nat) (id : Str) (k : Int64) (args : List α) : Res Str :=
  w.xn64 c i [] id [] k args
/-- `(*Translations).N64` (translations.go:225-227). -/
def n64 (c : Cfg α) (w : World α) (i : Nat) (id id2 : Str) (k : Int64) (args : List α) : Res Str :=
  w.xn64 c i [] id id2 k args
/-- `(*Translations).XN` (translations.go:237-239). -/
def xn (c : Cfg α) (w : World α) (i : Nat) (ctxt id id2 : Str) (k : Int64) (args : List α) : Res Str :=
  w.xn64 c i ctxt id id2 k args
/-- `(*Translations).XN1` (translations.go:242-244). -/
def xn1 (c : Cfg α) (w : World α) (i : Nat) (ctxt id : Str) (k : Int64) (args : List α) : Res Str :=
  w.xn64 c i ctxt id [] k args
/-- `(*Translations).XN1_64` (translations.go:254-256). -/
def xn1_64 (c : Cfg α) (w : World α) (i : Nat) (ctxt id : Str) (k : Int64) (args : List α) : Res Str :=
  w.xn64 c i ctxt id [] k args

/-! ## The package functions (init.go, gettext.go) -/

/-- `Global` (init.go:10-12). -/
def global (w : World α) : World α × Nat := w.clone w.glob
/-- `SetGlobal` (init.go:15-17). -/
def setGlobal (w : World α) (i : Nat) : World α := { w with glob := i }
/-- `BindFS` (init.go:35-37); `Bind` and `Load`, `LoadFS` (init.go:20-32) call it with the tree at a
path and with the current domain. -/
def gBindFS (c : Cfg α) (w : World α) (domain : Str) (fsys : Option Node) : World α := w.bindFS c w.glob domain fsys
/-- `LoadFS` (init.go:25-27). -/
def gLoadFS (c : Cfg α) (w : World α) (fsys : Option Node) : World α := w.gBindFS c (w.domain w.glob) fsys
/-- `RemoveDomain` (init.go:41-43). -/
def gRemoveDomain (w : World α) (domain : Str) : Bool × World α := w.removeDomain w.glob domain
/-- `ClearDomains` (init.go:47-49). -/
def gClearDomains (w : World α) : World α := w.clearDomains w.glob
/-- `Locale` (init.go:52-54). -/
def gLocale (w : World α) : Str := w.locale w.glob
/-- `SetLocale` (init.go:62-64). -/
def gSetLocale (c : Cfg α) (w : World α) (lang dflt : Str) : World α := w.setLocale c w.glob lang dflt
/-- `Locales` (init.go:83-85). -/
def GLocales (c : Cfg α) (w : World α) (ls : List Str) : Prop := w.Locales c w.glob ls
/-- `SourceCodeLocale` (init.go:67-69). -/
def gSourceCodeLocale (w : World α) : Str := w.sourceCodeLocale w.glob
/-- `SetSourceCodeLocale` (init.go:72-74). -/
def gSetSourceCodeLocale (c : Cfg α) (w : World α) (lang : Str) : World α := w.setSourceCodeLocale c w.glob lang
/-- `UsedLocale` (init.go:77-79). -/
def gUsedLocale (w : World α) : Str := w.usedLocale w.glob
/-- `Domain` (init.go:88-90). -/
def gDomain (w : World α) : Str := w.domain w.glob
/-- `SetDomain` (init.go:93-95). -/
def gSetDomain (w : World α) (domain : Str) : World α := w.setDomain w.glob domain
/-- `HasDomain` (init.go:98-100). -/
def gHasDomain (w : World α) (domain : Str) : Bool := w.hasDomain w.glob domain
/-- `Domains` (init.go:103-105). -/
def GDomains (w : World α) (ds : List Str) : Prop := w.Domains w.glob ds
/-- `D` (gettext.go:4). -/
def gD (w : World α) (domain : Str) : World α × Nat := w.d w.glob domain
/-- `L` (gettext.go:7). -/
def gL (c : Cfg α) (w : World α) (lang dflt : Str) : World α × Nat := w.l c w.glob lang dflt
/-- `T` (gettext.go:10-12). -/
def gT (c : Cfg α) (w : World α) (id : Str) (args : List α) : Res Str := w.x c w.glob [] id args
/-- `N` (gettext.go:15-17). -/
def gN (c : Cfg α) (w : World α) (id id2 : Str) (k : Int64) (args : List α) : Res Str :=
  w.xn64 c w.glob [] id id2 k args
/-- `N1` (gettext.go:22-24). -/
def gN1 (c : Cfg α) (w : World α) (id : Str) (k : Int64) (args : List α) : Res Str :=
  w.xn64 c w.glob [] id [] k args
/-- `N1_64` (gettext.go:27-29). -/
def gN1_64 (c : Cfg α) (w : World α) (id : Str) (k : Int64) (args : List α) : Res Str :=
  w.xn64 c w.glob [] id [] k args
/-- `N64` (gettext.go:32-34). -/
def gN64 (c : Cfg α) (w : World α) (id id2 : Str) (k : Int64) (args : List α) : Res Str :=
  w.xn64 c w.glob [] id id2 k args
/-- `X` (gettext.go:37-39). -/
def gX (c : Cfg α) (w : World α) (ctxt id : Str) (args : List α) : Res Str := w.x c w.glob ctxt id args
/-- `XN` (gettext.go:42-44). -/
def gXN (c : Cfg α) (w : World α) (ctxt id id2 : Str) (k : Int64) (args : List α) : Res Str :=
  w.xn64 c w.glob ctxt id id2 k args
/-- `XN1` (gettext.go:47-49). -/
def gXN1 (c : Cfg α) (w : World α) (ctxt id : Str) (k : Int64) (args : List α) : Res Str :=
  w.xn64 c w.glob ctxt id [] k args
/-- `XN64` (gettext.go:52-54). -/
def gXN64 (c : Cfg α) (w : World α) (ctxt id id2 : Str) (k : Int64) (args : List α) : Res Str :=
  w.xn64 c w.glob ctxt id id2 k args
/-- `XN1_64` (gettext.go:57-59). -/
def gXN1_64 (c : Cfg α) (w : World α) (ctxt id : Str) (k : Int64) (args : List α) : Res Str :=
  w.xn64 c w.glob ctxt id [] k args

/-! ## Contexts (context.go) -/

end World

/-- A `context.Context`: the chain of values, of which only ours are named.  For context.go:5-33. -/
inductive Ctx where
  | base
  | other (parent : Ctx)
  /-- `SetCtxLocale` (context.go:15-17) -/
  | lang (parent : Ctx) (lang : Str)
  /-- `SetCtxDomain` (context.go:19-21) -/
  | domain (parent : Ctx) (domain : Str)

/-- `GetCtxLocale` (context.go:23-27). -/
def Ctx.getLocale : Ctx → Option Str
  | .base => none
  | .other p => p.getLocale
  | .lang _ l => some l
  | .domain p _ => p.getLocale

/-- `GetCtxDomain` (context.go:29-33). -/
def Ctx.getDomain : Ctx → Option Str
  | .base => none
  | .other p => p.getDomain
  | .lang p _ => p.getDomain
  | .domain _ d => some d

/-- `WithContext` (context.go:35-44). -/
def World.withContext (c : Cfg α) (w : World α) (ctx : Ctx) (dflt : Str) : World α × Nat :=
  let (w, t) := w.global
  let (w, t) := match ctx.getLocale with
    | some lang => w.l c t lang dflt
    | none => (w, t)
  match ctx.getDomain with
    | some domain => w.d t domain
    | none => (w, t)

/-! ## Matching (matcher.go, translations.go:136-140, http.go) -/

/-- `golang.org/x/text/language`: tags, `language.Make`, the index `NewMatcher(supported).Match(wanted)`
returns, `ParseAcceptLanguage` without its error.  For tag.go:11-18, matcher.go:5-12 and http.go:35-36. -/
structure Lang where
  Tag : Type
  make : Str → Tag
  index : List Tag → List Tag → Nat
  parseAccept : Str → List Tag

/-- The documentation of `Matcher`: the index is that of a supported tag.  For matcher.go:5-12. -/
def Lang.InRange (g : Lang) : Prop := ∀ supported wanted, supported ≠ [] → g.index supported wanted < supported.length

/-- `(*Translations).MostMatchLocale` (translations.go:136-140) when `Locales()` returned `supported`;
both `Locales` and `Locale` are the package functions. -/
def World.mostMatch (g : Lang) (w : World α) (supported : List Str) : Res Str :=
  match supported[g.index (supported.map g.make) [g.make w.gLocale]]? with
  | some s => .ok s
  | none => .panic

/-- `(*Translations).MostMatchLocale` (translations.go:136-140): a possible result. -/
def World.MostMatchLocale (g : Lang) (c : Cfg α) (w : World α) (_i : Nat) (r : Res Str) : Prop :=
  ∃ supported, w.GLocales c supported ∧ r = w.mostMatch g supported

/-- What the code reads from an `*http.Request`: its first cookie of a name, its Accept-Language
header.  For http.go:20-39. -/
structure Request where
  cookie : Str → Option Str
  accept : Str

/-- The configuration after the options (http.go:21-24); an option is a cookie name. -/
def cookieName (opts : List Str) : Str := opts.foldl (fun _ o => o) b!"lang"

/-- `GetUserLang` (http.go:20-39): a possible result. -/
def World.GetUserLang (g : Lang) (c : Cfg α) (w : World α) (req : Request) (opts : List Str) (r : Res Str) : Prop :=
  match req.cookie (cookieName opts) with
  | some v => r = .ok v
  | none => ∃ langs, w.GLocales c langs ∧
      r = match langs[g.index (langs.map g.make) (g.parseAccept req.accept)]? with
        | some s => .ok s
        | none => .panic

/-! ## Marking (mark.go) -/

/-- `Mark.T` (mark.go:10). -/
def markT (id : Str) : Str := id
/-- `Mark.N` (mark.go:11-13). -/
def markN (id id2 : Str) : Str × Str := (id, id2)
/-- `Mark.X` (mark.go:14-16). -/
def markX (ctxt id : Str) : Str × Str := (ctxt, id)
/-- `Mark.XN` (mark.go:17-19). -/
def markXN (ctxt id id2 : Str) : Str × Str × Str := (ctxt, id, id2)

end Verif.W
