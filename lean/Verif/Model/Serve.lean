import Verif.Model.World
/-!
# Goroutines that use Translations values
(translations.go, init.go, gettext.go, context.go, one memory access at a time)

The heap is that of `Model/World.lean`.  A call is a program of single accesses to the fields of
`Translations` objects, to the maps of domains, to `Translation` objects and to the global variable.
A goroutine is any program that makes calls, on the package or on the `Translations` values it has made
itself, and may decide by the answers what it does next.

Simplified: an object is allocated together with its content (in Go it is filled before anyone else can
have its address); a loop over a map, or an assignment to it, reads it once; memory is sequentially
consistent.  What a lookup does inside of a translator is a function (C17; the accesses to the fields of
a `File` are the subject of C51 and C77, those of the tag cache of C50).  Not here: `AddOrReplace` and
`LoadFS` on a `Translation` object (C78), and `Domains`, whose order is arbitrary.
-/
namespace Verif.Serve
open Verif Verif.W
variable {α : Type}

/-- A variable in memory.  For translations.go:18-256, init.go:7-105 and context.go:15-44. -/
inductive Loc where
  | locale (i : Nat)
  | domain (i : Nat)
  | domains (i : Nat)
  | src (i : Nat)
  | map (r : Nat)
  | tr (p : Nat)
  | glob
  deriving DecidableEq

/-- The content of a variable.  For translations.go:18-256, init.go:7-105 and context.go:15-44. -/
inductive Val (α : Type) where
  | str (s : Str)
  | addr (n : Nat)
  | map (m : GMap Nat)
  | tr (t : Translation α)

/-- Read a variable.  For translations.go:18-256, init.go:7-105 and context.go:15-44. -/
def load (w : World α) : Loc → Val α
  | .locale i => .str (w.ts i).locale
  | .domain i => .str (w.ts i).domain
  | .domains i => .addr (w.ts i).domains
  | .src i => .str (w.ts i).src
  | .map r => .map (w.mapAt r)
  | .tr p => .tr (w.tr p)
  | .glob => .addr w.glob

/-- Write a variable.  For translations.go:18-256, init.go:7-105 and context.go:15-44. -/
def store (w : World α) : Loc → Val α → World α
  | .locale i, .str s => w.setTs i { w.ts i with locale := s }
  | .domain i, .str s => w.setTs i { w.ts i with domain := s }
  | .domains i, .addr r => w.setTs i { w.ts i with domains := r }
  | .src i, .str s => w.setTs i { w.ts i with src := s }
  | .map r, .map m => { w with maps := w.maps.set r m }
  | .tr p, .tr t => { w with trs := w.trs.set p t }
  | .glob, .addr i => { w with glob := i }
  | _, _ => w

/-- For translations.go:18-256, init.go:7-105 and context.go:15-44. -/
def Val.toStr : Val α → Str
  | .str s => s
  | _ => []
/-- For translations.go:18-256, init.go:7-105 and context.go:15-44. -/
def Val.toAddr : Val α → Nat
  | .addr n => n
  | _ => 0
/-- For translations.go:18-256, init.go:7-105 and context.go:15-44. -/
def Val.toMap : Val α → GMap Nat
  | .map m => m
  | _ => []
/-- For translations.go:18-256, init.go:7-105 and context.go:15-44. -/
def Val.toTr : Val α → Translation α
  | .tr t => t
  | _ => { domain := [], langs := [] }

/-- What a call returns besides a new value.  For translations.go:18-256, init.go:7-105 and context.go:15-44. -/
inductive Answer where
  | done
  | str (s : Str)
  | bool (b : Bool)
  | strs (l : List Str)
  | text (r : Res Str)
  deriving DecidableEq

/-- What is left to do of a call; it ends with the address of the value it has made, if any, and an answer.
For translations.go:18-256, init.go:7-105 and context.go:15-44. -/
inductive Prog (α : Type) where
  | ret (made : Option Nat) (a : Answer)
  | load (l : Loc) (k : Val α → Prog α)
  | store (l : Loc) (v : Val α) (k : Prog α)
  | newMap (m : GMap Nat) (k : Nat → Prog α)
  | newTs (t : Translations) (k : Nat → Prog α)
  | newTr (t : Translation α) (k : Nat → Prog α)

/-- On what a call is made: the package (the global value) or the value the goroutine has made as its
`k`-th one.  For translations.go:18-256, init.go:7-105 and context.go:15-44. -/
inductive Ref where
  | global
  | own (k : Nat)

/-- A call.  What the environment answers is part of it.  For translations.go:18-256, init.go:7-105 and context.go:15-44. -/
inductive Call (α : Type) where
  | newTranslations (dflt : Str)
  | global
  | d (r : Ref) (domain : Str)
  | l (r : Ref) (lang dflt : Str)
  | withContext (ctx : Ctx) (dflt : Str)
  | setDomain (r : Ref) (domain : Str)
  | setLocale (r : Ref) (lang dflt : Str)
  | setSourceCodeLocale (r : Ref) (lang : Str)
  | bindFS (r : Ref) (domain : Str) (fsys : Option Node)
  | removeDomain (r : Ref) (domain : Str)
  | clearDomains (r : Ref)
  | setGlobal (k : Nat)
  | locale (r : Ref)
  | domain (r : Ref)
  | sourceCodeLocale (r : Ref)
  | usedLocale (r : Ref)
  | hasDomain (r : Ref) (domain : Str)
  /-- with the order in which the map of languages is ranged over, and the sorting -/
  | locales (r : Ref) (order sort : List Str → List Str)
  /-- the receiver is not used; `pick` is the matcher -/
  | mostMatchLocale (order sort : List Str → List Str) (pick : List Str → Str → Res Str)
  | x (r : Ref) (ctxt id : Str) (args : List α)
  | xn64 (r : Ref) (ctxt id id2 : Str) (n : Int64) (args : List α)

/-- The receiver of a call, or the global variable (init.go, gettext.go). -/
def deref (regs : List Nat) (r : Ref) (k : Nat → Prog α) : Prog α :=
  match r with
  | .own j => k (regs.getD j 0)
  | .global => .load .glob fun v => k v.toAddr

/-- `(*Translations).clone` (translations.go:37-50). -/
def cloneP (i : Nat) (k : Nat → Prog α) : Prog α :=
  .load (.locale i) fun lo =>
  .load (.domain i) fun dom =>
  .load (.domains i) fun ds =>
  .load (.map ds.toAddr) fun m =>
  .load (.src i) fun s =>
  .newMap (m.toMap.foldl (fun m p => m.set p.1 p.2) []) fun r =>
  .newTs { locale := lo.toStr, domain := dom.toStr, domains := r, src := s.toStr } k

/-- `SetLocale` (translations.go:156-163). -/
def setLocaleP (c : Cfg α) (i : Nat) (lang dflt : Str) (k : Prog α) : Prog α :=
  .store (.locale i) (.str (if lang = [] then dflt else c.norm lang)) k

/-- `GetOrNoop(ts.domain)` (translations.go:183-188, 231). -/
def currentP (i : Nat) (k : Nat → Prog α) : Prog α :=
  .load (.domain i) fun dom =>
  .load (.domains i) fun ds =>
  .load (.map ds.toAddr) fun m =>
  k (match m.toMap.get? dom.toStr with
    | some p => p
    | none => 0)

/-- The translator of the current domain and locale (translations.go:231-232, 248-249). -/
def torP (c : Cfg α) (i : Nat) (k : Tor α → Prog α) : Prog α :=
  currentP i fun p =>
  .load (.locale i) fun lo =>
  .load (.tr p) fun t =>
  k (t.toTr.getOrNoop c lo.toStr)

/-- `Locales` (translations.go:119-133). -/
def localesP (c : Cfg α) (i : Nat) (order sort : List Str → List Str) (k : List Str → Prog α) : Prog α :=
  currentP i fun p =>
  .load (.tr p) fun _ =>
  .load (.src i) fun _ =>
  .load (.src i) fun s =>
  .load (.tr p) fun t =>
  k (sort (World.collectLocales c s.toStr (order t.toTr.langs.keys)))

/-- The accesses of a call.  For translations.go:18-256, init.go:7-105 and context.go:15-44. -/
def Call.prog (c : Cfg α) (regs : List Nat) : Call α → Prog α
  /- translations.go:27-34 -/
  | .newTranslations dflt =>
    .newMap [] fun r => .newTs { locale := dflt, domain := defaultDomain, domains := r, src := defaultSrc } fun t =>
    .ret (some t) .done
  /- init.go:10-12 -/
  | .global => .load .glob fun g => cloneP g.toAddr fun t => .ret (some t) .done
  /- translations.go:191-195, gettext.go:4 -/
  | .d r dom => deref regs r fun i => cloneP i fun t => .store (.domain t) (.str dom) (.ret (some t) .done)
  /- translations.go:198-202, gettext.go:7 -/
  | .l r lang dflt => deref regs r fun i => cloneP i fun t => setLocaleP c t lang dflt (.ret (some t) .done)
  /- context.go:35-44 -/
  | .withContext ctx dflt => .load .glob fun g => cloneP g.toAddr fun t =>
    let inDomain : Nat → Prog α := fun t =>
      match ctx.getDomain with
      | some dom => cloneP t fun u => .store (.domain u) (.str dom) (.ret (some u) .done)
      | none => .ret (some t) .done
    match ctx.getLocale with
    | some lang => cloneP t fun u => setLocaleP c u lang dflt (inDomain u)
    | none => inDomain t
  /- translations.go:91-93 -/
  | .setDomain r dom => deref regs r fun i => .store (.domain i) (.str dom) (.ret none .done)
  /- translations.go:156-163 -/
  | .setLocale r lang dflt => deref regs r fun i => setLocaleP c i lang dflt (.ret none .done)
  /- translations.go:169-172 -/
  | .setSourceCodeLocale r lang => deref regs r fun i => .store (.src i) (.str (c.norm lang)) (.ret none .done)
  /- translations.go:54-59 -/
  | .bindFS r dom fsys => deref regs r fun i =>
    .newTr ((newTranslation c dom []).loadFS c fsys).2 fun p =>
    if ((newTranslation c dom []).loadFS c fsys).1 then
      .load (.domains i) fun ds => .load (.map ds.toAddr) fun m =>
      .store (.map ds.toAddr) (.map (m.toMap.set dom p)) (.ret none .done)
    else .ret none .done
  /- translations.go:63-75 -/
  | .removeDomain r dom => deref regs r fun i =>
    if dom = [] then .ret none (.bool false)
    else .load (.domains i) fun ds => .load (.map ds.toAddr) fun m =>
      if !(m.toMap.keys.any fun e => e = dom) then .ret none (.bool false)
      else .load (.domains i) fun ds => .load (.map ds.toAddr) fun m =>
        .store (.map ds.toAddr) (.map (m.toMap.erase dom)) (
        .load (.domain i) fun cur =>
        if cur.toStr = dom then .store (.domain i) (.str defaultDomain) (.ret none (.bool true)) else .ret none (.bool true))
  /- translations.go:80-83 -/
  | .clearDomains r => deref regs r fun i =>
    .newMap [] fun m => .store (.domains i) (.addr m) (.store (.domain i) (.str defaultDomain) (.ret none .done))
  /- init.go:15-17 -/
  | .setGlobal k => .store .glob (.addr (regs.getD k 0)) (.ret none .done)
  /- translations.go:114-116 -/
  | .locale r => deref regs r fun i => .load (.locale i) fun v => .ret none (.str v.toStr)
  /- translations.go:86-88 -/
  | .domain r => deref regs r fun i => .load (.domain i) fun v => .ret none (.str v.toStr)
  /- translations.go:166 -/
  | .sourceCodeLocale r => deref regs r fun i => .load (.src i) fun v => .ret none (.str v.toStr)
  /- translations.go:143-153 -/
  | .usedLocale r => deref regs r fun i =>
    .load (.domain i) fun dom => .load (.domains i) fun ds => .load (.map ds.toAddr) fun m =>
    match m.toMap.get? dom.toStr with
    | none => .load (.src i) fun s => .ret none (.str s.toStr)
    | some p => .load (.locale i) fun lo => .load (.tr p) fun t =>
      match t.toTr.get lo.toStr with
      | none => .load (.src i) fun s => .ret none (.str s.toStr)
      | some _ => .load (.locale i) fun lo => .ret none (.str lo.toStr)
  /- translations.go:96-103 -/
  | .hasDomain r dom => deref regs r fun i =>
    .load (.domains i) fun ds => .load (.map ds.toAddr) fun m => .ret none (.bool (m.toMap.keys.any fun e => e = dom))
  /- translations.go:119-133 -/
  | .locales r order sort => deref regs r fun i => localesP c i order sort fun ls => .ret none (.strs ls)
  /- translations.go:136-140, init.go:57-59 -/
  | .mostMatchLocale order sort pick => .load .glob fun g => localesP c g.toAddr order sort fun ls =>
    .load .glob fun g => .load (.locale g.toAddr) fun lo => .ret none (.text (pick ls lo.toStr))
  /- translations.go:230-234, gettext.go -/
  | .x r ctxt id args => deref regs r fun i => torP c i fun tor => .ret none (.text (tor.x ctxt id args))
  /- translations.go:247-251, gettext.go -/
  | .xn64 r ctxt id id2 n args => deref regs r fun i => torP c i fun tor => .ret none (.text (tor.xn ctxt id id2 n args))

/-- The code of a goroutine: it stops, or makes a call and goes on according to the answer.
For translations.go:18-256, init.go:7-105 and context.go:15-44. -/
inductive Code (α : Type) where
  | stop
  | call (o : Call α) (k : Answer → Code α)

/-- Where a goroutine is: between two calls, or within one.  For translations.go:18-256, init.go:7-105 and context.go:15-44. -/
inductive Pc (α : Type) where
  | idle (h : Code α)
  | within (p : Prog α) (k : Answer → Code α)

/-- A goroutine: the values it has made, where it is, the answers so far.
For translations.go:18-256, init.go:7-105 and context.go:15-44. -/
structure Thread (α : Type) where
  regs : List Nat
  pc : Pc α
  said : List Answer

/-- The program: the heap and the goroutines.  For translations.go:18-256, init.go:7-105 and context.go:15-44. -/
structure Sys (α : Type) where
  w : World α
  threads : List (Thread α)

/-- One step of a goroutine.  For translations.go:18-256, init.go:7-105 and context.go:15-44. -/
inductive TStep (c : Cfg α) : World α → Thread α → World α → Thread α → Prop
  | call {w regs o k said} : TStep c w ⟨regs, .idle (.call o k), said⟩ w ⟨regs, .within (o.prog c regs) k, said⟩
  | ret {w regs made a k said} :
      TStep c w ⟨regs, .within (.ret made a) k, said⟩ w ⟨regs ++ made.toList, .idle (k a), said ++ [a]⟩
  | load {w regs l p k said} :
      TStep c w ⟨regs, .within (.load l p) k, said⟩ w ⟨regs, .within (p (load w l)) k, said⟩
  | store {w regs l v p k said} :
      TStep c w ⟨regs, .within (.store l v p) k, said⟩ (store w l v) ⟨regs, .within p k, said⟩
  | newMap {w regs m p k said} : TStep c w ⟨regs, .within (.newMap m p) k, said⟩
      { w with maps := w.maps ++ [m] } ⟨regs, .within (p w.maps.length) k, said⟩
  | newTs {w regs t p k said} : TStep c w ⟨regs, .within (.newTs t p) k, said⟩
      { w with tss := w.tss ++ [t] } ⟨regs, .within (p w.tss.length) k, said⟩
  | newTr {w regs t p k said} : TStep c w ⟨regs, .within (.newTr t p) k, said⟩
      { w with trs := w.trs ++ [t] } ⟨regs, .within (p w.trs.length) k, said⟩

/-- One step of the program: some goroutine makes one.  For translations.go:18-256, init.go:7-105 and context.go:15-44. -/
inductive Step (c : Cfg α) : Sys α → Sys α → Prop
  | mk {s : Sys α} {g : Nat} {t t' : Thread α} {w' : World α} : s.threads[g]? = some t → TStep c s.w t w' t' →
      Step c s ⟨w', s.threads.set g t'⟩

/-- Any number of steps, in any order of the goroutines.  For translations.go:18-256, init.go:7-105 and context.go:15-44. -/
inductive Steps (c : Cfg α) : Sys α → Sys α → Prop
  | refl (s : Sys α) : Steps c s s
  | tail {s s' s'' : Sys α} : Steps c s s' → Step c s' s'' → Steps c s s''

/-- The goroutines start.  For translations.go:18-256, init.go:7-105 and context.go:15-44. -/
def start (w : World α) (hs : List (Code α)) : Sys α := ⟨w, hs.map fun h => ⟨[], .idle h, []⟩⟩

end Verif.Serve
