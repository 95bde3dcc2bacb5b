import Verif.Model.File
/-!
# Goroutines: the tag cache (tag.go) and lookups on a shared File (translator/file.go)

Small-step models: one step is one access to shared memory (or a local computation), and any
goroutine may take the next step, so memory is sequentially consistent.  `sync.Map` operations are
atomic (that is its documentation).  Weaker memory orders matter only for races
(`Spec/Race.lean`).  Not modelled: shared state inside the ANTLR runtime that `plurals.Eval` uses.
-/
namespace Verif.Conc
open Verif

/-! ## The tag cache -/

/-- Where a goroutine is in `Tag` (tag.go:11-18). -/
inductive TagPc (T : Type) where
  /-- before `cachedTag.Load` (tag.go:12) -/
  | load
  /-- before `language.Make` (tag.go:15) -/
  | make
  /-- before `cachedTag.Store` (tag.go:16) -/
  | store (tag : T)

/-- A goroutine in `Tags` (tag.go:20-25): the locales it was called with, those left (the first is the
one being looked up), the tags so far.  `Tag(l)` is `Tags` of one locale.  It has returned when no
locale is left. -/
structure TagThread (T : Type) where
  args : List Str
  todo : List Str
  pc : TagPc T
  acc : List T

/-- A call of `Tags`.  For tag.go:11-25. -/
def TagThread.call {T : Type} (args : List Str) : TagThread T := { args := args, todo := args, pc := .load, acc := [] }

/-- One step of a goroutine that has not returned.  For tag.go:11-25. -/
def TagThread.step {T : Type} (mk : Str → T) (cache : GMap T) (t : TagThread T) : GMap T × TagThread T :=
  match t.todo with
  | [] => (cache, t)
  | l :: rest =>
    match t.pc with
    | .load =>
      match cache.get? l with
      | some v => (cache, { t with todo := rest, pc := .load, acc := t.acc ++ [v] })
      | none => (cache, { t with pc := .make })
    | .make => (cache, { t with pc := .store (mk l) })
    | .store tag => (cache.set l tag, { t with todo := rest, pc := .load, acc := t.acc ++ [tag] })

/-- The cache and all goroutines.  For tag.go:11-25. -/
structure TagSys (T : Type) where
  cache : GMap T
  threads : List (TagThread T)

/-- What can happen next: a new call, or a step of some goroutine.  For tag.go:11-25. -/
inductive TagSys.Step {T : Type} (mk : Str → T) : TagSys T → TagSys T → Prop where
  | call (s : TagSys T) (args : List Str) : Step mk s { s with threads := s.threads ++ [TagThread.call args] }
  | run (s : TagSys T) (i : Nat) (t : TagThread T) : s.threads[i]? = some t →
      Step mk s { cache := (t.step mk s.cache).1, threads := s.threads.set i (t.step mk s.cache).2 }

/-- The states some interleaving reaches, starting with an empty cache.  For tag.go:11-25. -/
inductive TagSys.Reach {T : Type} (mk : Str → T) : TagSys T → Prop where
  | init : Reach mk { cache := [], threads := [] }
  | step (s s' : TagSys T) : Reach mk s → Step mk s s' → Reach mk s'

/-! ## Lookups on a shared File -/

variable {α : Type}

/-- A call on a `File` that is not being changed.  For translator/file.go:29-66, 94-135. -/
inductive Call (α : Type) where
  | x (ctxt id : Str) (args : List α)
  | xn (ctxt id id2 : Str) (n : Int64) (args : List α)
  | getHeader (key : Str)
  | lang

/-- What a call returns.  For translator/file.go:29-66, 94-135. -/
inductive Ret where
  | str (r : Res Str)
  | header (v : Option Str)
  deriving DecidableEq

/-- What is waiting for `initHeader` to finish.  For translator/file.go:29-66, 94-135. -/
inductive Wait (α : Type) where
  /-- `GetHeader(key)` (translator/file.go:96) -/
  | header (key : Str)
  /-- `Lang` (translator/file.go:30) -/
  | lang
  /-- `GetHeader(HeaderPluralForms)` in `initPlural` (translator/file.go:132), called for this entry -/
  | plural (e : Tr.Entry) (id id2 : Str) (n : Int64) (args : List α)

/-- Where a goroutine is.  For translator/file.go:29-66, 94-135. -/
inductive Pc (α : Type) where
  | start (c : Call α)
  /-- before the test of `file.headers` (translator/file.go:101) -/
  | hCheck (k : Wait α)
  /-- the local map is built, before it is assigned (translator/file.go:121) -/
  | hWrite (h : GMap Str) (k : Wait α)
  /-- before `file.headers[key]` (translator/file.go:96) -/
  | hRead (k : Wait α)
  /-- before the test of `file.plural` (translator/file.go:131) -/
  | pCheck (e : Tr.Entry) (id id2 : Str) (n : Int64) (args : List α)
  /-- before the assignment to `file.plural` (translator/file.go:133) -/
  | pWrite (p : Tr.Plural) (e : Tr.Entry) (id id2 : Str) (n : Int64) (args : List α)
  /-- before `return file.plural` (translator/file.go:127) -/
  | pRead (e : Tr.Entry) (id id2 : Str) (n : Int64) (args : List α)
  | done (r : Ret)

/-- The map `initHeader` builds (translator/file.go:102-120). -/
def localHeaders (f : Tr.File) : GMap Str :=
  match f.entries.get? (Tr.key [] []) with
  | some e => Tr.parseHeaders e.str
  | none => []

/-- One step of a goroutine.  For translator/file.go:29-66, 94-135. -/
def step (E : Fmt.Env α) (dg : Plural.Diag) (f : Tr.File) : Pc α → Tr.File × Pc α
  | .start (.x ctxt id args) => (f, .done (.str (.ok (f.x E ctxt id args))))
  | .start (.xn ctxt id id2 n args) =>
    match f.entries.get? (Tr.key ctxt id) with
    | none => (f, .done (.str (.ok (Fmt.defaultPlural E id id2 n args))))
    | some e =>
      if e.id2 = [] ∧ e.strN.length = 0 then
        (f, .done (.str (.ok (if e.str ≠ [] then Fmt.format E e.str args else Fmt.format E id args))))
      else (f, .pCheck e id id2 n args)
  | .start (.getHeader key) => (f, .hCheck (.header key))
  | .start .lang => (f, .hCheck .lang)
  | .hCheck k =>
    match f.headers with
    | none => (f, .hWrite (localHeaders f) k)
    | some _ => (f, .hRead k)
  | .hWrite h k => ({ f with headers := some h }, .hRead k)
  | .hRead (.header key) => (f, .done (.header ((f.headers.getD []).get? key)))
  | .hRead .lang => (f, .done (.str (.ok (((f.headers.getD []).get? Tr.hLanguage).getD []))))
  | .hRead (.plural e id id2 n args) =>
    (f, .pWrite (Tr.parsePlural (((f.headers.getD []).get? Tr.hPluralForms).getD [])) e id id2 n args)
  | .pCheck e id id2 n args =>
    match f.plural with
    | none => (f, .hCheck (.plural e id id2 n args))
    | some _ => (f, .pRead e id id2 n args)
  | .pWrite p e id id2 n args => ({ f with plural := some p }, .pRead e id id2 n args)
  | .pRead e id id2 n args =>
    (f, .done (.str (Tr.chooseForm E dg (f.plural.getD { totalForms := 0, expr := none }) e id id2 n args)))
  | .done r => (f, .done r)

/-- The shared file and all goroutines, each with the call it was started for.  For translator/file.go:29-66, 94-135. -/
structure Sys (α : Type) where
  file : Tr.File
  threads : List (Call α × Pc α)

/-- What can happen next: a new call, or a step of some goroutine.  A goroutine making several calls is
several of these, one after the other.  For translator/file.go:29-66, 94-135. -/
inductive Sys.Step (E : Fmt.Env α) (dg : Plural.Diag) : Sys α → Sys α → Prop where
  | call (s : Sys α) (c : Call α) : Step E dg s { s with threads := s.threads ++ [(c, .start c)] }
  | run (s : Sys α) (i : Nat) (c : Call α) (pc : Pc α) : s.threads[i]? = some (c, pc) →
      Step E dg s { file := (step E dg s.file pc).1, threads := s.threads.set i (c, (step E dg s.file pc).2) }

/-- The states some interleaving reaches from a file.  For translator/file.go:29-66, 94-135. -/
inductive Sys.Reach (E : Fmt.Env α) (dg : Plural.Diag) (f : Tr.File) : Sys α → Prop where
  | init : Reach E dg f { file := f, threads := [] }
  | step (s s' : Sys α) : Reach E dg f s → Step E dg s s' → Reach E dg f s'

/-- What a call returns when nothing else runs.  For translator/file.go:29-66, 94-135. -/
def alone (E : Fmt.Env α) (dg : Plural.Diag) (f : Tr.File) : Call α → Ret
  | .x ctxt id args => .str (.ok (f.x E ctxt id args))
  | .xn ctxt id id2 n args => .str (f.xn E dg ctxt id id2 n args).1
  | .getHeader key => .header (f.getHeader key).1
  | .lang => .str (.ok f.lang.1)

end Verif.Conc
