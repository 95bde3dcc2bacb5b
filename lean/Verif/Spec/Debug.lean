import Verif.Spec.Run
import Verif.Model.Debug
/-!
# Specification vocabulary for what a run with -d prints

Of the model only the types of events, runs and disks are used.
-/
namespace Verif.Xt
open Verif

/-! ## Lines -/

/-- A number in decimal digits. -/
def inDigits (n : Nat) : Str := Num.natDigits n

/-- Texts with blanks between them, in brackets. -/
def inBrackets (l : List Str) : Str := b!"[" ++ List.intercalate b!" " l ++ b!"]"

/-- A truth value. -/
def word (b : Bool) : Str := if b then b!"true" else b!"false"

/-- The line for an event. -/
inductive LineFor (p : Param) : Event → Str → Prop
  | param : LineFor p .param (b!"run param=&{Input:" ++ p.input ++ b!" Left:" ++ p.left ++ b!" Right:" ++ p.right ++ b!" Keyword:" ++
      p.keyword ++ b!" Function:" ++ p.function ++ b!" OutputFile:" ++ p.output ++ b!" Debug:true}\n")
  | files (fs : List Str) : LineFor p (.glob (some fs)) (b!"Glob files=" ++ inBrackets fs ++ b!" err=<nil>\n")
  | bad : LineFor p (.glob none) b!"Glob files=[] err=syntax error in pattern\n"
  | done (n : Nat) : LineFor p (.done n) (b!"extract done, " ++ inDigits n ++ b!" entries\n")
  | file (f : Str) : LineFor p (.file f) (b!"resolve one file: filename=" ++ f ++ b!"\n")
  | template (f name : Str) : LineFor p (.template f)
      (b!"process template: [filename=" ++ f ++ b!"] [template name=" ++ name ++ b!"]\n")
  | noPipe (n : Nat) : LineFor p (.noPipe n) (b!"  > line " ++ inDigits n ++ b!": Pipe is nil\n")
  | pipe (n : Nat) : LineFor p (.pipe n) (b!"  >  Pipe: Line=" ++ inDigits n ++ b!"\n")
  | cmd (n pos : Nat) (h : pos < 2 ^ 63) : LineFor p (.cmd n) (b!"  >  >  Cmd: Line=" ++ inDigits n ++ b!" Pos=" ++ inDigits pos ++ b!"\n")
  | arg (node : Str) : LineFor p .arg (b!"  >  >  >  Cmd.Arg: " ++ node ++ b!"\n")
  | tooFew (name : Str) : LineFor p (.tooFew name) (b!"  >  >  >  ID=" ++ name ++ b!" too few args\n")
  | notString (name : Str) (i : Nat) : LineFor p (.notString name i)
      (b!"  >  >  >  ID=" ++ name ++ b!" args[" ++ inDigits i ++ b!"] is not string node\n")
  | noCtxt (name : Str) : LineFor p (.missing name .ctxt) (b!"  >  >  >  ID=" ++ name ++ b!" missing ctxt\n")
  | noId (name : Str) : LineFor p (.missing name .id) (b!"  >  >  >  ID=" ++ name ++ b!" missing msg id\n")
  | noPlural (name : Str) : LineFor p (.missing name .plural) (b!"  >  >  >  ID=" ++ name ++ b!" missing msg plural\n")
  | ok (name : Str) (e : Tr.Entry) : LineFor p (.ok name e) (b!"【ok】  >  >  ID=" ++ name ++ b!" entry=&{MsgCmts:" ++
      inBrackets e.cmts ++ b!" MsgCtxt:" ++ e.ctxt ++ b!" MsgID:" ++ e.id ++ b!" IsPlural:" ++ word e.isPlural ++ b!" MsgID2:" ++
      e.id2 ++ b!" MsgStr:" ++ e.str ++ b!" MsgStrN:" ++ inBrackets e.strN ++ b!"}\n")

/-- The numbers of lines, entries and arguments in the event are less than 2⁶³. -/
def Event.Small : Event → Prop
  | .done n | .noPipe n | .pipe n | .cmd n | .notString _ n => n < 2 ^ 63
  | _ => True

/-! ## Verdicts -/

/-- The event is about a call of a keyword. -/
def Event.IsVerdict : Event → Prop
  | .tooFew _ | .notString _ _ | .missing _ _ | .ok _ _ => True
  | _ => False

instance : DecidablePred Event.IsVerdict := fun e => by cases e <;> unfold Event.IsVerdict <;> infer_instance

/-- The entry the event announces. -/
def Event.entry : Event → Option Tr.Entry
  | .ok _ e => some e
  | _ => none

/-- The positions the keyword declares. -/
def declared (kw : Keyword) : List Int :=
  ([kw.msgID] ++ (if 0 < kw.msgCtxt then [kw.msgCtxt] else []) ++ if 0 < kw.msgID2 then [kw.msgID2] else []).dedup

/-- What is said about the call of the keyword by the argument at position `i`: there are not as many arguments behind it as positions; the
first that is no literal; the position for which there is none of these arguments; or the entry. -/
inductive Verdict (kw : Keyword) (ref : Str) (args : List Arg) (i : Nat) : Event → Prop
  | tooFew : args.length ≤ i + (declared kw).length → Verdict kw ref args i (.tooFew kw.name)
  | notString {j : Nat} {a : Arg} : i + (declared kw).length < args.length → i < j → j ≤ i + (declared kw).length →
      args[j]? = some a → (∀ t, ¬ Lit a t) → (∀ k b, i < k → k < j → args[k]? = some b → ∃ t, Lit b t) →
      Verdict kw ref args i (.notString kw.name j)
  | missing {what : Missing} : i + (declared kw).length < args.length →
      (∀ k b, i < k → k ≤ i + (declared kw).length → args[k]? = some b → ∃ t, Lit b t) →
      (match what with
        | .ctxt => (declared kw).length < kw.msgCtxt
        | .id => kw.msgCtxt ≤ (declared kw).length ∧ (kw.msgID < 1 ∨ (declared kw).length < kw.msgID)
        | .plural => kw.msgCtxt ≤ (declared kw).length ∧ 1 ≤ kw.msgID ∧ kw.msgID ≤ (declared kw).length ∧
            (declared kw).length < kw.msgID2) →
      Verdict kw ref args i (.missing kw.name what)
  | ok {e : Tr.Entry} : EntryFor kw ref (args.drop (i + 1)) e → Verdict kw ref args i (.ok kw.name e)

open Classical in
/-- The keywords the argument at position `i` calls. -/
noncomputable def called (kws : List Keyword) (args : List Arg) (i : Nat) : List Keyword :=
  kws.filter fun kw => ∃ a, args[i]? = some a ∧ Calls a kw.name

/-- One verdict on each of the calls by the argument at position `i`. -/
def Verdicts (kws : List Keyword) (ref : Str) (args : List Arg) (i : Nat) (evs : List Event) : Prop :=
  List.Forall₂ (fun kw => Verdict kw ref args i) (called kws args i) evs

/-- Where arguments stand in a template: the reference, the command and the position in it. -/
noncomputable def places (filename : Str) (root : List Stmt) : List (Str × List Arg × Nat) :=
  (pipesOfAll root).flatMap fun lp => (subPipes lp.2).flatMap fun q => (received none q).flatMap fun args =>
    (List.range args.length).map fun i => (filename ++ b!":" ++ Num.natDigits lp.1, args, i)

/-- The events of a template: that it is processed, then exactly one verdict on each call in it, and steps of the way to them; the
verdicts announce its entries. -/
def TemplateEvents (kws : List Keyword) (f : Str) (root : List Stmt) (evs : List Event) : Prop :=
  ∃ rest verdicts, evs = .template f :: rest ∧
    List.Forall₂ (fun (place : Str × List Arg × Nat) => Verdicts kws place.1 place.2.1 place.2.2) (places f root) verdicts ∧
    (rest.filter fun e => decide e.IsVerdict).Perm verdicts.flatten ∧
    (rest.filterMap Event.entry).Perm (allEntries kws f root)

/-- The events of a file. -/
inductive FileEvents (E : Env) (p : Param) (kws : List Keyword) (d : Disk) (f : Str) : List Event → Prop
  | fails {e : RunErr} : FileFails E p kws d f e → FileEvents E p kws d f [.file f]
  | ok {src : Str} {roots : List (List Stmt)} {parts : List (List Event)} : d.files (E.canon f) = some src →
      parsed E p kws src = some roots → List.Forall₂ (TemplateEvents kws f) roots parts →
      FileEvents E p kws d f (.file f :: parts.flatten)

/-- The number of different messages that are announced. -/
def messages (evs : List Event) : Nat := (((evs.filterMap Event.entry).map fun e => (e.ctxt, e.id)).dedup).length

/-! ## The run -/

/-- The disk at the end. -/
def Outcome.disk : Outcome → Disk
  | .returned _ _ d => d
  | .panicked d => d

/-- The outcomes differ in nothing but stdout, where the first has this text in front of what the run writes. -/
def Outcome.Differs (d : Disk) (text : Str) (o o' : Outcome) : Prop :=
  (match o, o' with
    | .returned err printed _, .returned err' printed' _ => err = err' ∧ printed = printed'
    | .panicked _, .panicked _ => True
    | _, _ => False) ∧
  o.disk.files = o'.disk.files ∧ ∃ pot, o.disk.stdout = d.stdout ++ text ++ pot ∧ o'.disk.stdout = d.stdout ++ pot

end Verif.Xt
