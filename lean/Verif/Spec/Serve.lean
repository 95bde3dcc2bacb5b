import Verif.Model.Serve
/-!
# Specification vocabulary for goroutines that use Translations values

What a goroutine would be told if `Translations` values were plain values: there is no memory and nobody
else.
-/
namespace Verif.Serve
open Verif Verif.W
variable {α : Type}

/-- A `Translations` value, as a value. -/
structure Value (α : Type) where
  locale : Str
  domain : Str
  src : Str
  doms : Str → Option (Translation α)

/-- What a `Translations` object is at the moment. -/
def valueOf (w : World α) (i : Nat) : Value α where
  locale := w.locale i
  domain := w.domain i
  src := w.sourceCodeLocale i
  doms d := (w.get i d).map w.tr

/-- The value with the locale that `SetLocale` gives it. -/
def Value.inLocale (c : Cfg α) (v : Value α) (lang dflt : Str) : Value α :=
  { v with locale := if lang = [] then dflt else c.norm lang }

/-- The translations of the current domain; none if it is unknown. -/
def Value.current (noop : Translation α) (v : Value α) : Translation α := (v.doms v.domain).getD noop

/-- The languages of the current domain and that of the source code, in some order. -/
def Value.locales (c : Cfg α) (noop : Translation α) (v : Value α) (order : List Str → List Str) : List Str :=
  World.collectLocales c v.src (order (v.current noop).langs.keys)

/-- What the goroutine knows: the global value as it was at the start, what unknown domains are, and the
values it has made. -/
structure Known (α : Type) where
  glob : Value α
  noop : Translation α
  made : List (Value α)

def Known.value (s : Known α) : Ref → Value α
  | .global => s.glob
  | .own k => s.made.getD k s.glob

/-- A new value. -/
def Known.make (s : Known α) (v : Value α) : Known α := { s with made := s.made ++ [v] }

/-- Change a value. -/
def Known.change (s : Known α) (r : Ref) (f : Value α → Value α) : Known α :=
  match r with
  | .global => { s with glob := f s.glob }
  | .own k => { s with made := s.made.modify k f }

/-- A call when nobody else is there. -/
def Call.plain (c : Cfg α) (s : Known α) : Call α → Known α × Answer
  | .newTranslations dflt =>
    (s.make { locale := dflt, domain := b!"default", src := b!"en_US", doms := fun _ => none }, .done)
  | .global => (s.make s.glob, .done)
  | .d r dom => (s.make { s.value r with domain := dom }, .done)
  | .l r lang dflt => (s.make ((s.value r).inLocale c lang dflt), .done)
  | .withContext ctx dflt =>
    let v := match ctx.getLocale with
      | some lang => s.glob.inLocale c lang dflt
      | none => s.glob
    (s.make (match ctx.getDomain with
      | some dom => { v with domain := dom }
      | none => v), .done)
  | .setDomain r dom => (s.change r fun v => { v with domain := dom }, .done)
  | .setLocale r lang dflt => (s.change r fun v => v.inLocale c lang dflt, .done)
  | .setSourceCodeLocale r lang => (s.change r fun v => { v with src := c.norm lang }, .done)
  | .bindFS r dom fsys =>
    let (loaded, t) := (newTranslation c dom []).loadFS c fsys
    (if loaded then s.change r fun v => { v with doms := fun d => if d = dom then some t else v.doms d } else s, .done)
  | .removeDomain r dom =>
    if dom = [] ∨ (s.value r).doms dom = none then (s, .bool false)
    else (s.change r fun v => { v with
      domain := if v.domain = dom then b!"default" else v.domain
      doms := fun d => if d = dom then none else v.doms d }, .bool true)
  | .clearDomains r => (s.change r fun v => { v with domain := b!"default", doms := fun _ => none }, .done)
  | .setGlobal k => ({ s with glob := s.value (.own k) }, .done)
  | .locale r => (s, .str (s.value r).locale)
  | .domain r => (s, .str (s.value r).domain)
  | .sourceCodeLocale r => (s, .str (s.value r).src)
  | .usedLocale r => (s, .str (match (s.value r).doms (s.value r).domain with
      | none => (s.value r).src
      | some t => if (t.get (s.value r).locale).isSome then (s.value r).locale else (s.value r).src))
  | .hasDomain r dom => (s, .bool ((s.value r).doms dom).isSome)
  | .locales r order sort => (s, .strs (sort ((s.value r).locales c s.noop order)))
  | .mostMatchLocale order sort pick => (s, .text (pick (sort (s.glob.locales c s.noop order)) s.glob.locale))
  | .x r ctxt id args => (s, .text ((((s.value r).current s.noop).getOrNoop c (s.value r).locale).x ctxt id args))
  | .xn64 r ctxt id id2 n args =>
    (s, .text ((((s.value r).current s.noop).getOrNoop c (s.value r).locale).xn ctxt id id2 n args))

/-- All the answers the code gets when nobody else is there. -/
def alone (c : Cfg α) : Code α → Known α → List Answer
  | .stop, _ => []
  | .call o k, s => (o.plain c s).2 :: alone c (k (o.plain c s).2) (o.plain c s).1

/-- How many values the call makes. -/
def Call.makes : Call α → Nat
  | .newTranslations _ | .global | .d _ _ | .l _ _ _ | .withContext _ _ => 1
  | _ => 0

/-- The goroutine has made the value. -/
def Ref.Made (n : Nat) : Ref → Prop
  | .global => True
  | .own k => k < n

/-- It is a value the goroutine has made itself. -/
def Ref.Own (n : Nat) : Ref → Prop
  | .global => False
  | .own k => k < n

/-- A call of a goroutine that has made `n` values: it refers to one of them or to the package, and changes
only its own. -/
def Call.Polite (n : Nat) : Call α → Prop
  | .newTranslations _ | .global | .withContext _ _ | .mostMatchLocale _ _ _ => True
  | .d r _ | .l r _ _ | .locale r | .domain r | .sourceCodeLocale r | .usedLocale r | .hasDomain r _ | .locales r _ _
  | .x r _ _ _ | .xn64 r _ _ _ _ _ => r.Made n
  | .setDomain r _ | .setLocale r _ _ | .setSourceCodeLocale r _ | .bindFS r _ _ | .removeDomain r _ | .clearDomains r => r.Own n
  | .setGlobal _ => False

/-- The code makes such calls only, whatever the answers are. -/
inductive Polite : Nat → Code α → Prop
  | stop {n} : Polite n .stop
  | call {n o k} : o.Polite n → (∀ a, Polite (n + o.makes) (k a)) → Polite n (.call o k)

/-- The next access of a goroutine to memory that others may have, and whether it writes. -/
def Thread.access (t : Thread α) : Option (Loc × Bool) :=
  match t.pc with
  | .within (.load l _) _ => some (l, false)
  | .within (.store l _ _) _ => some (l, true)
  | _ => none

/-- Two goroutines are about to access the same variable, one of them to write it. -/
def Race (s : Sys α) : Prop :=
  ∃ (i j : Nat) (a b : Thread α) (v : Loc) (e : Bool), i ≠ j ∧ s.threads[i]? = some a ∧ s.threads[j]? = some b ∧
    a.access = some (v, true) ∧ b.access = some (v, e)

/-- What a goroutine knows at its start. -/
def atStart (w : World α) : Known α := { glob := valueOf w w.glob, noop := w.tr 0, made := [] }

/-- What is left of a call, in one go. -/
def Prog.run : Prog α → World α → World α × Option Nat × Answer
  | .ret made a, w => (w, made, a)
  | .load l k, w => (k (Serve.load w l)).run w
  | .store l v k, w => k.run (Serve.store w l v)
  | .newMap m k, w => (k w.maps.length).run { w with maps := w.maps ++ [m] }
  | .newTs t k, w => (k w.tss.length).run { w with tss := w.tss ++ [t] }
  | .newTr t k, w => (k w.trs.length).run { w with trs := w.trs ++ [t] }

/-- The object a call is made on. -/
def Ref.addr (w : World α) (regs : List Nat) : Ref → Nat
  | .global => w.glob
  | .own k => regs.getD k 0

/-- The call by the functions of `Model/World.lean`, which are not divided into accesses. -/
def Call.whole (c : Cfg α) (w : World α) (regs : List Nat) : Call α → World α × Option Nat × Answer
  | .newTranslations dflt => ((w.newTranslations dflt).1, some (w.newTranslations dflt).2, .done)
  | .global => (w.global.1, some w.global.2, .done)
  | .d r dom => ((w.d (r.addr w regs) dom).1, some (w.d (r.addr w regs) dom).2, .done)
  | .l r lang dflt => ((w.l c (r.addr w regs) lang dflt).1, some (w.l c (r.addr w regs) lang dflt).2, .done)
  | .withContext ctx dflt => ((w.withContext c ctx dflt).1, some (w.withContext c ctx dflt).2, .done)
  | .setDomain r dom => (w.setDomain (r.addr w regs) dom, none, .done)
  | .setLocale r lang dflt => (w.setLocale c (r.addr w regs) lang dflt, none, .done)
  | .setSourceCodeLocale r lang => (w.setSourceCodeLocale c (r.addr w regs) lang, none, .done)
  | .bindFS r dom fsys => (w.bindFS c (r.addr w regs) dom fsys, none, .done)
  | .removeDomain r dom => ((w.removeDomain (r.addr w regs) dom).2, none, .bool (w.removeDomain (r.addr w regs) dom).1)
  | .clearDomains r => (w.clearDomains (r.addr w regs), none, .done)
  | .setGlobal k => (w.setGlobal (regs.getD k 0), none, .done)
  | .locale r => (w, none, .str (w.locale (r.addr w regs)))
  | .domain r => (w, none, .str (w.domain (r.addr w regs)))
  | .sourceCodeLocale r => (w, none, .str (w.sourceCodeLocale (r.addr w regs)))
  | .usedLocale r => (w, none, .str (w.usedLocale (r.addr w regs)))
  | .hasDomain r dom => (w, none, .bool (w.hasDomain (r.addr w regs) dom))
  | .locales r order sort => (w, none, .strs (sort (World.collectLocales c (w.ts (r.addr w regs)).src
      (order (w.tr (w.getOrNoop (r.addr w regs) (w.ts (r.addr w regs)).domain)).langs.keys))))
  | .mostMatchLocale order sort pick => (w, none, .text (pick (sort (World.collectLocales c (w.ts w.glob).src
      (order (w.tr (w.getOrNoop w.glob (w.ts w.glob).domain)).langs.keys))) w.gLocale))
  | .x r ctxt id args => (w, none, .text (w.x c (r.addr w regs) ctxt id args))
  | .xn64 r ctxt id id2 n args => (w, none, .text (w.xn64 c (r.addr w regs) ctxt id id2 n args))

/-- The order and the sorting of a call are possible ones: the first is some order of what it is given,
the second sorts. -/
def SortsLocales (order sort : List Str → List Str) : Prop :=
  (∀ l, (order l).Perm l) ∧ ∀ l, (sort l).Perm l ∧ (sort l).Pairwise fun a b => ¬ b < a

end Verif.Serve
