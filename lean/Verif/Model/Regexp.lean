import Verif.Model.Utf8
import Verif.Model.File
import Verif.Model.Run
/-!
# Regular expressions (Go's package `regexp`)

The repository uses three patterns (translator/file.go:19, translator/plural.go:19,
cmd/xtemplate/internal/run.go:26).  Modelled here: the syntax they are written in, matching, and the loop of
`FindAllString` and `FindAllStringSubmatch`.  Package `regexp` promises the match that a backtracking search finds
first (leftmost, then by preference); this search is the model, not the automata by which `regexp` finds the same
match.  Supported are characters, classes, `.`, `*` and `*?` behind one of these, groups, `^` and `$`; `parse` gives
`none` for everything else.
-/
namespace Verif.Re
open Verif

/-- A class of characters; `neg`: all but these.
For translator/file.go:19, 108, plural.go:19, 29 and cmd/xtemplate/internal/run.go:26, 31 (package regexp). -/
structure Cls where
  neg : Bool
  ranges : List (Nat × Nat)
  deriving DecidableEq, Repr

/-- Is the rune in the class?.
For translator/file.go:19, 108, plural.go:19, 29 and cmd/xtemplate/internal/run.go:26, 31 (package regexp). -/
def Cls.has (c : Cls) (r : Nat) : Bool := (c.ranges.any fun x => x.1 ≤ r && r ≤ x.2) != c.neg

/-- A step of a pattern: one character, many of them (as many or as few as possible), the begin or end of a group
(slots `2k` and `2k + 1` for group `k`), the begin and the end of the text.
For translator/file.go:19, 108, plural.go:19, 29 and cmd/xtemplate/internal/run.go:26, 31 (package regexp). -/
inductive Op where
  | one (c : Cls)
  | star (c : Cls) (greedy : Bool)
  | save (slot : Nat)
  | bot
  | eot
  deriving DecidableEq, Repr

/-! ## Syntax (`regexp/syntax`) -/

/-- `.` without the flag `s`.
For translator/file.go:19, 108, plural.go:19, 29 and cmd/xtemplate/internal/run.go:26, 31 (package regexp). -/
def anyCls : Cls := ⟨true, [(10, 10)]⟩

/-- The classes `\s`, `\d`, `\w`.
For translator/file.go:19, 108, plural.go:19, 29 and cmd/xtemplate/internal/run.go:26, 31 (package regexp). -/
def perlClass (c : UInt8) : Option Cls :=
  if c = 115 then some ⟨false, [(9, 10), (12, 13), (32, 32)]⟩
  else if c = 100 then some ⟨false, [(48, 57)]⟩
  else if c = 119 then some ⟨false, [(48, 57), (65, 90), (95, 95), (97, 122)]⟩
  else none

/-- The inside of `[...]`: characters and ranges.
For translator/file.go:19, 108, plural.go:19, 29 and cmd/xtemplate/internal/run.go:26, 31 (package regexp). -/
def classItems : Nat → Str → Option (List (Nat × Nat) × Str)
  | 0, _ => none
  | _ + 1, [] => none
  | f + 1, c :: r =>
    if c = 93 then some ([], r)
    else if c = 92 ∨ c = 94 ∨ c = 91 ∨ c = 45 ∨ 128 ≤ c then none
    else match r with
      | 45 :: d :: r =>
        if d = 93 ∨ d = 92 ∨ d = 91 ∨ 128 ≤ d then none
        else (classItems f r).map fun x => ((c.toNat, d.toNat) :: x.1, x.2)
      | _ => (classItems f r).map fun x => ((c.toNat, c.toNat) :: x.1, x.2)

/-- One character or a class.
For translator/file.go:19, 108, plural.go:19, 29 and cmd/xtemplate/internal/run.go:26, 31 (package regexp). -/
def atom : Str → Option (Cls × Str)
  | [] => none
  | c :: r =>
    if c = 46 then some (anyCls, r)
    else if c = 92 then
      match r with
      | [] => none
      | d :: r => (perlClass d).map fun x => (x, r)
    else if c = 91 then (classItems r.length r).map fun x => (⟨false, x.1⟩, x.2)
    else if c ∈ [36, 40, 41, 42, 43, 63, 94, 123, 124, 125, 93] ∨ 128 ≤ c then none
    else some (⟨false, [(c.toNat, c.toNat)]⟩, r)

/-- `syntax.Parse` and `syntax.Compile` of a pattern; `groups`: the groups that are open, `next`: the number of the next
group.  For translator/file.go:19, 108, plural.go:19, 29 and cmd/xtemplate/internal/run.go:26, 31 (package regexp). -/
def parse : Nat → List Nat → Nat → Str → Option (List Op)
  | _, [], _, [] => some []
  | _, _ :: _, _, [] => none
  | 0, _, _, _ :: _ => none
  | f + 1, groups, next, c :: r =>
    if c = 94 then (parse f groups next r).map (.bot :: ·)
    else if c = 36 then (parse f groups next r).map (.eot :: ·)
    else if c = 40 then
      if r.head? = some 63 then none
      else (parse f (next :: groups) (next + 1) r).map (.save (2 * next) :: ·)
    else if c = 41 then
      match groups with
      | [] => none
      | k :: groups => (parse f groups next r).map (.save (2 * k + 1) :: ·)
    else match atom (c :: r) with
      | none => none
      | some (x, 42 :: 63 :: r) => (parse f groups next r).map (.star x false :: ·)
      | some (x, 42 :: r) => (parse f groups next r).map (.star x true :: ·)
      | some (x, r) => (parse f groups next r).map (.one x :: ·)

/-- `regexp.MustCompile`; `none`: not supported here, or a panic.
For translator/file.go:19, 108, plural.go:19, 29 and cmd/xtemplate/internal/run.go:26, 31 (package regexp). -/
def compile (pattern : Str) : Option (List Op) := parse pattern.length [] 1 pattern

/-! ## Matching -/

/-- Read a rune (`inputString.step`): the rune and what follows.  An invalid byte is U+FFFD.
For translator/file.go:19, 108, plural.go:19, 29 and cmd/xtemplate/internal/run.go:26, 31 (package regexp). -/
def step : Str → Option (Nat × Str)
  | [] => none
  | c :: s => some ((Utf8.decode (c :: s)).1, (c :: s).drop (Utf8.decode (c :: s)).2)

/-- A position is given by what follows it.  The positions reached by reading characters of a class, from none on.
For translator/file.go:19, 108, plural.go:19, 29 and cmd/xtemplate/internal/run.go:26, 31 (package regexp). -/
def stars (c : Cls) : Nat → Str → List Str
  | 0, s => [s]
  | f + 1, s => s :: match step s with
    | none => []
    | some (r, s') => if c.has r then stars c f s' else []

/-- The slots of groups, the last first.
For translator/file.go:19, 108, plural.go:19, 29 and cmd/xtemplate/internal/run.go:26, 31 (package regexp). -/
abbrev Slots := List (Nat × Str)

/-- All ways to match the pattern from a position on, in the order of preference: the end and the slots.
For translator/file.go:19, 108, plural.go:19, 29 and cmd/xtemplate/internal/run.go:26, 31 (package regexp). -/
def runs (whole : Str) : List Op → Str → Slots → List (Str × Slots)
  | [], s, m => [(s, m)]
  | .one c :: ops, s, m =>
    match step s with
    | none => []
    | some (r, s') => if c.has r then runs whole ops s' m else []
  | .star c greedy :: ops, s, m =>
    (if greedy then (stars c s.length s).reverse else stars c s.length s).flatMap fun s' => runs whole ops s' m
  | .save k :: ops, s, m => runs whole ops s ((k, s) :: m)
  | .bot :: ops, s, m => if s.length = whole.length then runs whole ops s m else []
  | .eot :: ops, s, m => if s = [] then runs whole ops s m else []

/-- The leftmost match, of the first preference: where it begins, where it ends, the slots.
For translator/file.go:19, 108, plural.go:19, 29 and cmd/xtemplate/internal/run.go:26, 31 (package regexp). -/
def search (whole : Str) (ops : List Op) : Nat → Str → Option (Str × Str × Slots)
  | 0, s => (runs whole ops s []).head?.map fun x => (s, x)
  | f + 1, s =>
    match (runs whole ops s []).head? with
    | some x => some (s, x)
    | none =>
      match step s with
      | some (_, s') => search whole ops f s'
      | none => none

/-- The text between two positions.
For translator/file.go:19, 108, plural.go:19, 29 and cmd/xtemplate/internal/run.go:26, 31 (package regexp). -/
def between (a b : Str) : Str := a.take (a.length - b.length)

/-- The text of group `k`; empty if it takes no part.
For translator/file.go:19, 108, plural.go:19, 29 and cmd/xtemplate/internal/run.go:26, 31 (package regexp). -/
def group (m : Slots) (k : Nat) : Str :=
  match m.lookup (2 * k), m.lookup (2 * k + 1) with
  | some a, some b => between a b
  | _, _ => []

/-- The number of groups.  For translator/file.go:19, 108, plural.go:19, 29 and cmd/xtemplate/internal/run.go:26, 31 (package regexp). -/
def numGroups (ops : List Op) : Nat :=
  (ops.filter fun o => match o with
    | .save _ => true
    | _ => false).length / 2

/-- `allMatches`: match after match; an empty match right behind the last one does not count.  `prev`: the end of the
last match.  For translator/file.go:19, 108, plural.go:19, 29 and cmd/xtemplate/internal/run.go:26, 31 (package regexp). -/
def allMatches (whole : Str) (ops : List Op) : Nat → Str → Option Str → List (List Str)
  | 0, _, _ => []
  | f + 1, s, prev =>
    match search whole ops s.length s with
    | none => []
    | some (b, e, m) =>
      let found := between b e :: (List.range' 1 (numGroups ops)).map (group m)
      if e.length = s.length then
        let next := match step s with
          | none => []
          | some (_, s') => allMatches whole ops f s' (some e)
        if prev.map List.length = some b.length then next else found :: next
      else found :: allMatches whole ops f e (some e)

/-- `FindAllStringSubmatch(s, -1)`.
For translator/file.go:19, 108, plural.go:19, 29 and cmd/xtemplate/internal/run.go:26, 31 (package regexp). -/
def findAllSubmatch (ops : List Op) (s : Str) : List (List Str) := allMatches s ops (s.length + 1) s none

/-- `FindAllString(s, -1)`.  For translator/file.go:19, 108, plural.go:19, 29 and cmd/xtemplate/internal/run.go:26, 31 (package regexp). -/
def findAll (ops : List Op) (s : Str) : List Str := (findAllSubmatch ops s).map fun x => x.headD []

/-! ## The three uses -/

/-- translator/file.go:19 -/
def reHeader : Option (List Op) := compile b!"(.*?): (.*)"

/-- translator/plural.go:19 -/
def rePlurals : Option (List Op) := compile b!"^\\s*nplurals\\s*=\\s*(\\d)\\s*;\\s*plural\\s*=\\s*(.*)\\s*;$"

/-- cmd/xtemplate/internal/run.go:26 -/
def identPattern : Option (List Op) := compile b!"[a-zA-Z_]\\w*"

/-- One line of the header text (translator/file.go:105-119). -/
def headerLine (h : GMap Str) (kv : Str) : Option (GMap Str) :=
  reHeader.map fun re =>
    if kv = [] then h
    else match findAllSubmatch re kv with
      | [[_, k, v]] =>
        let k := GoStr.trimSpace k
        let v := GoStr.trimSpace v
        match h.get? k with
        | some _ => h
        | none => h.set k v
      | _ => h

/-- `parsePlural` (translator/plural.go:23-46). -/
def parsePlural (forms : Str) : Option Tr.Plural :=
  rePlurals.map fun re =>
    if forms = [] then { totalForms := 0, expr := none }
    else match findAllSubmatch re forms with
      | [[_, n, exp]] =>
        match Num.parseInt n with
        | some total => { totalForms := total, expr := some exp }
        | none => { totalForms := 0, expr := none }
      | _ => { totalForms := 0, expr := none }

/-- `scanFuncNames` (run.go:29-37). -/
def scanFuncNames (src : Str) : Option (List Str) :=
  identPattern.map fun re => (findAll re src).filter fun n => !Xt.templateBuiltins.contains n

end Verif.Re
