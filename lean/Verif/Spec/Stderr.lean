import Verif.Spec.Run
import Verif.Model.Stderr
/-!
# Specification vocabulary for what is written to stderr

Of the model only the types and the parameters are used: the messages are given as phrases, texts with places for arguments.
-/
namespace Verif.Xt
open Verif

/-- A text with places for arguments: a text, and behind each place (given as the directive for it) another one. -/
structure Phrase where
  first : Str
  rest : List (Str × Str) := []

/-- How the phrase is written in a program or translation. -/
def Phrase.written (ph : Phrase) : Str := ph.first ++ ph.rest.flatMap fun q => q.1 ++ q.2

/-- The directives in it. -/
def Phrase.places (ph : Phrase) : List Str := ph.rest.map (·.1)

/-- The phrase with something in its places. -/
def Phrase.filled (ph : Phrase) (xs : List Str) : Str := ph.first ++ ((ph.rest.zip xs).flatMap fun q => q.2 ++ q.1.2)

/-- There are no percent signs but those of the directives. -/
def Phrase.Wf (ph : Phrase) : Prop := 37 ∉ ph.first ∧ ∀ q ∈ ph.rest, 37 ∉ q.2

/-- The translations of the messages. -/
structure Phrases where
  process : Phrase
  conflict : Phrase
  warning : Phrase
  run : Phrase
  read : Phrase
  parse : Phrase
  pattern : Str
  output : Phrase
  unexpected : Phrase
  keywords : Phrase

/-- The directive for errors. -/
def errorVerb (debug : Bool) : Str := if debug then b!"%+v" else b!"%v"

/-- The phrase is what the message is translated to, and it has these places. -/
def Translates (tr : Str → Str) (msgid : Str) (ph : Phrase) (places : List Str) : Prop :=
  tr msgid = ph.written ∧ ph.places = places ∧ ph.Wf

/-- The translations of all the messages have their places in the order of the messages. -/
structure Speaks (tr : Str → Str) (debug : Bool) (v : Phrases) : Prop where
  process : Translates tr (b!"failed to process file %v. error message: " ++ errorVerb debug) v.process [b!"%v", errorVerb debug]
  conflict : Translates tr b!"msgid '%v' is used without plural and with plural.\nLine    =%v\nPrevious=%v" v.conflict
    [b!"%v", b!"%v", b!"%v"]
  warning : Translates tr (b!"Warning: " ++ errorVerb debug) v.warning [errorVerb debug]
  run : Translates tr (b!"run error: " ++ errorVerb debug) v.run [errorVerb debug]
  read : Translates tr b!"failed to read file %v" v.read [b!"%v"]
  parse : Translates tr b!"failed to parse file %v" v.parse [b!"%v"]
  pattern : tr b!"invalid input pattern" = v.pattern ∧ 37 ∉ v.pattern
  output : Translates tr b!"can not open output file: %s" v.output [b!"%s"]
  unexpected : Translates tr b!"unexpected error: %+v\n" v.unexpected [b!"%+v"]
  keywords : Translates tr b!"invalid keywords: %s" v.keywords [b!"%s"]

/-- Texts are shown as they are. -/
def ShowsTexts (fmt : Fmt.Env Str) : Prop :=
  (∀ a, fmt.render {} b!"v" a = a) ∧ (∀ a, fmt.render {} b!"s" a = a) ∧ fmt.empty = []

/-- How an error is shown. -/
def shownError (fmt : Fmt.Env Str) (debug : Bool) (text : Str) : Str :=
  if debug then fmt.render { plus := true } b!"v" text else text

/-- A list in brackets. -/
def bracketed (l : List Str) : Str := b!"[" ++ List.intercalate b!" " l ++ b!"]"

section
variable (v : Phrases) (L : Lang) (debug : Bool)

/-- What is said about a failure; for keywords see C73. -/
inductive FailText : RunErr → Str → Prop
  | glob : FailText .glob (v.pattern ++ b!": syntax error in pattern")
  | read (f : Str) : FailText (.read f) (v.read.filled [f] ++ b!": " ++ L.cause (.read f))
  | parse (f : Str) : FailText (.parse f) (v.parse.filled [f] ++ b!": " ++ L.cause (.parse f))
  | write : FailText .write (L.cause .write)
  | close : FailText .close (L.cause .close)

/-- The line about an entry, given the entries before. -/
inductive WarnLine (before : List Tr.Entry) (e : Tr.Entry) : Str → Prop
  | fresh : merged before e.ctxt e.id = none → WarnLine before e []
  | agrees {m : Tr.Entry} : merged before e.ctxt e.id = some m → m.isPlural = e.isPlural → WarnLine before e []
  | differs {m : Tr.Entry} : merged before e.ctxt e.id = some m → m.isPlural ≠ e.isPlural →
      WarnLine before e (v.warning.filled [shownError L.fmt debug
        (v.conflict.filled [e.id, bracketed e.cmts, bracketed m.cmts])] ++ b!"\n")

/-- The lines about some entries. -/
inductive WarnLines : List Tr.Entry → List Tr.Entry → Str → Prop
  | nil (before : List Tr.Entry) : WarnLines before [] []
  | cons {before : List Tr.Entry} {e : Tr.Entry} {es : List Tr.Entry} {s t : Str} : WarnLine v L debug before e s →
      WarnLines (before ++ [e]) es t → WarnLines before (e :: es) (s ++ t)

/-- The line about a file that fails. -/
def FailLine (f : Str) (e : RunErr) (s : Str) : Prop :=
  ∃ text, FailText v L e text ∧ s = v.process.filled [f, shownError L.fmt debug text] ++ b!"\n"

variable (E : Env) (p : Param) (kws : List Keyword) (d : Disk)

/-- The lines about the files, given the entries before. -/
inductive FileLines : List Tr.Entry → List Str → Str → Prop
  | nil (before : List Tr.Entry) : FileLines before [] []
  | ok {before es : List Tr.Entry} {f : Str} {fs : List Str} {s t : Str} : FileOk E p kws d f es → WarnLines v L debug before es s →
      FileLines (before ++ es) fs t → FileLines before (f :: fs) (s ++ t)
  | fails {before : List Tr.Entry} {f : Str} {fs : List Str} {e : RunErr} {s t : Str} : FileFails E p kws d f e →
      FailLine v L debug f e s → FileLines before fs t → FileLines before (f :: fs) (s ++ t)

end

/-- The entries for one message are all plural or none of them is. -/
def Uniform (es : List Tr.Entry) : Prop := ∀ a ∈ es, ∀ b ∈ es, a.ctxt = b.ctxt → a.id = b.id → a.isPlural = b.isPlural

end Verif.Xt
