import Verif.Model.Path
import Verif.Model.Utf8
/-!
# filepath.Glob (called at cmd/xtemplate/internal/run.go:52)

`Match`, `Glob` and what they call, from the published source of Go 1.23 (path/filepath/match.go, standard
library, not in /repo) on Unix.  `Join` and `Clean` are those of `Model/Path.lean`.  The operating system is a
parameter (`Fs`).  Simplified: the loops of `Match` and `matchChunk` are recursions with a bound that is never
reached; `names` is what `Readdirnames` gives, also if it fails in the middle.
-/
namespace Verif.Glob
open Verif

/-- The loop of `scanChunk`: the chunk and the rest of the pattern.  For cmd/xtemplate/internal/run.go:52 (`filepath.Glob`). -/
def scan (inrange : Bool) : Str → Str × Str
  | [] => ([], [])
  | 92 :: c :: s => (92 :: c :: (scan inrange s).1, (scan inrange s).2)
  | c :: s =>
    if c = 42 ∧ inrange = false then ([], c :: s)
    else
      let r := scan (if c = 91 then true else if c = 93 then false else inrange) s
      (c :: r.1, r.2)

/-- `scanChunk`.  For cmd/xtemplate/internal/run.go:52 (`filepath.Glob`). -/
def scanChunk (pattern : Str) : Bool × Str × Str :=
  (pattern.head? == some 42, scan false (pattern.dropWhile (· == 42)))

/-- `getEsc`; `none` is `ErrBadPattern`.  For cmd/xtemplate/internal/run.go:52 (`filepath.Glob`). -/
def getEsc : Str → Option (Nat × Str)
  | [] => none
  | c :: s =>
    if c = 45 ∨ c = 93 then none
    else
      let chunk := if c = 92 then s else c :: s
      if chunk = [] then none
      else
        let r := Utf8.decode chunk
        if r.1 = Utf8.runeError ∧ r.2 = 1 then none
        else if chunk.drop r.2 = [] then none
        else some (r.1, chunk.drop r.2)

/-- The loop over the ranges of a class: is the rune in one of them, and what follows the class.
For cmd/xtemplate/internal/run.go:52 (`filepath.Glob`). -/
def ranges (r : Nat) : Nat → Str → Bool → Bool → Option (Bool × Str)
  | 0, _, _, _ => none
  | n + 1, chunk, first, found =>
    if chunk.head? = some 93 ∧ first = false then some (found, chunk.tail)
    else
      match getEsc chunk with
      | none => none
      | some (lo, chunk) =>
        if chunk.head? = some 45 then
          match getEsc chunk.tail with
          | none => none
          | some (hi, chunk) => ranges r n chunk false (found || (decide (lo ≤ r) && decide (r ≤ hi)))
        else ranges r n chunk false (found || (decide (lo ≤ r) && decide (r ≤ lo)))

/-- `matchChunk`: `none` is `ErrBadPattern`; the text is `none` once the match has failed.
For cmd/xtemplate/internal/run.go:52 (`filepath.Glob`). -/
def matchChunk : Nat → Str → Option Str → Option (Option Str)
  | 0, _, _ => none
  | _ + 1, [], s => some s
  | n + 1, c :: chunk, s =>
    let s := if s = some [] then none else s
    if c = 91 then
      let neg := chunk.head? == some 94
      let chunk := if neg then chunk.tail else chunk
      let r := match s with
        | some s => (Utf8.decode s).1
        | none => 0
      match ranges r (chunk.length + 1) chunk true false with
      | none => none
      | some (found, chunk) =>
        matchChunk n chunk (if found = neg then none else s.map fun s => s.drop (Utf8.decode s).2)
    else if c = 63 then
      matchChunk n chunk (s.bind fun s => if s.head? = some 47 then none else some (s.drop (Utf8.decode s).2))
    else if c = 92 then
      match chunk with
      | [] => none
      | c :: chunk => matchChunk n chunk (s.bind fun s => if s.head? = some c then some s.tail else none)
    else matchChunk n chunk (s.bind fun s => if s.head? = some c then some s.tail else none)

/-- A chunk at the beginning of a text.  For cmd/xtemplate/internal/run.go:52 (`filepath.Glob`). -/
def chunkAt (chunk s : Str) : Option (Option Str) := matchChunk (chunk.length + 1) chunk (some s)

/-- The loop of `Match` that skips bytes.  For cmd/xtemplate/internal/run.go:52 (`filepath.Glob`). -/
def skipping (chunk : Str) (last : Bool) : Str → Option (Option Str)
  | [] => some none
  | c :: name =>
    if c = 47 then some none
    else
      match chunkAt chunk name with
      | none => none
      | some none => skipping chunk last name
      | some (some t) => if last = true ∧ t ≠ [] then skipping chunk last name else some (some t)

/-- The check of the remainder of a pattern.  For cmd/xtemplate/internal/run.go:52 (`filepath.Glob`). -/
def remainder : Nat → Str → Bool
  | 0, _ => false
  | n + 1, pattern =>
    if pattern = [] then true
    else
      let (_, chunk, rest) := scanChunk pattern
      match chunkAt chunk [] with
      | none => false
      | some _ => remainder n rest

/-- The loop of `Match`.  For cmd/xtemplate/internal/run.go:52 (`filepath.Glob`). -/
def matchN : Nat → Str → Str → Option Bool
  | 0, _, _ => none
  | n + 1, pattern, name =>
    if pattern = [] then some (decide (name = []))
    else
      let (star, chunk, rest) := scanChunk pattern
      if star = true ∧ chunk = [] then some (!name.contains 47)
      else
        match chunkAt chunk name with
        | none => none
        | some r =>
          if r.any (fun t => t = [] || rest ≠ []) = true then
            matchN n rest (r.getD [])
          else
            match (if star then skipping chunk (rest = []) name else some none) with
            | none => none
            | some (some t) => matchN n rest t
            | some none => if remainder n rest then some false else none

/-- `Match`; `none` is `ErrBadPattern`.  For cmd/xtemplate/internal/run.go:52 (`filepath.Glob`). -/
def matches? (pattern name : Str) : Option Bool := matchN (pattern.length + 1) pattern name

/-- The operating system: can a path be found (`Lstat`), and, if it is a directory that can be opened (`Stat`,
`Open`), the names in it.  For cmd/xtemplate/internal/run.go:52 (`filepath.Glob`). -/
structure Fs where
  found : Str → Bool
  names : Str → Option (List Str)

/-- `slices.Sort` on names, by insertion.  For cmd/xtemplate/internal/run.go:52 (`filepath.Glob`). -/
def insert (n : Str) : List Str → List Str
  | [] => [n]
  | m :: ms => if m < n then m :: insert n ms else n :: m :: ms

/-- For cmd/xtemplate/internal/run.go:52 (`filepath.Glob`). -/
def sort (ns : List Str) : List Str := ns.foldr insert []

/-- The loop of `glob`.  For cmd/xtemplate/internal/run.go:52 (`filepath.Glob`). -/
def select (dir pattern : Str) : List Str → List Str → Option (List Str)
  | [], m => some m
  | n :: ns, m =>
    match matches? pattern n with
    | none => none
    | some true => select dir pattern ns (m ++ [W.joinPath [dir, n]])
    | some false => select dir pattern ns m

/-- `glob`.  For cmd/xtemplate/internal/run.go:52 (`filepath.Glob`). -/
def globIn (fs : Fs) (dir pattern : Str) (m : List Str) : Option (List Str) :=
  match fs.names dir with
  | none => some m
  | some ns => select dir pattern (sort ns) m

/-- The last loop of `globWithLimit`.  For cmd/xtemplate/internal/run.go:52 (`filepath.Glob`). -/
def globAll (fs : Fs) (pattern : Str) : List Str → List Str → Option (List Str)
  | [], m => some m
  | d :: ds, m =>
    match globIn fs d pattern m with
    | none => none
    | some m => globAll fs pattern ds m

/-- `hasMeta`.  For cmd/xtemplate/internal/run.go:52 (`filepath.Glob`). -/
def hasMeta (path : Str) : Bool := path.any fun c => c = 42 || c = 63 || c = 91 || c = 92

/-- `Split`: up to and behind the last slash.  For cmd/xtemplate/internal/run.go:52 (`filepath.Glob`). -/
def split (path : Str) : Str × Str :=
  ((path.reverse.dropWhile (· ≠ 47)).reverse, (path.reverse.takeWhile (· ≠ 47)).reverse)

/-- `cleanGlobPath`.  For cmd/xtemplate/internal/run.go:52 (`filepath.Glob`). -/
def cleanGlobPath (path : Str) : Str := if path = [] then b!"." else if path = b!"/" then path else path.dropLast

/-- `globWithLimit`, by the remaining depth.  For cmd/xtemplate/internal/run.go:52 (`filepath.Glob`). -/
def globN (fs : Fs) : Nat → Str → Option (List Str)
  | 0, _ => none
  | n + 1, pattern =>
    match matches? pattern [] with
    | none => none
    | some _ =>
      if hasMeta pattern = false then some (if fs.found pattern then [pattern] else [])
      else
        let dir := cleanGlobPath (split pattern).1
        let file := (split pattern).2
        if hasMeta dir = false then globIn fs dir file []
        else if dir = pattern then none
        else
          match globN fs n dir with
          | none => none
          | some ds => globAll fs file ds []

/-- `Glob`; `none` is `ErrBadPattern`.  For cmd/xtemplate/internal/run.go:52 (`filepath.Glob`). -/
def glob (fs : Fs) (pattern : Str) : Option (List Str) := globN fs 10000 pattern

end Verif.Glob
