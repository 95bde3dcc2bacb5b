import Verif.Model.World
/-!
# Paths as file systems (fs.go, init.go, translaton.go:67-91)

`filepath.Join`, `filepath.Clean` and `path.Join` of Go's standard library on Unix, the type `pathFS`,
and `fs.WalkDir`, `fs.Stat`, `fs.ReadDir` on it, by the names they hand to `Open`.  The operating system
is a function from path to what opening it gives.  Simplified: `lazybuf` is the list of bytes written
(its sharing with the path is an optimisation); volume names are those of Unix (none); what
opening a path gives does not change during a walk.
-/
namespace Verif.W
open Verif
variable {α : Type}

/-- The backtracking loop of `filepath.Clean`; the bytes written so far are given in reverse.  For fs.go:10-20 (`filepath.Join`). -/
def back (dotdot : Nat) : Str → Str
  | [] => []
  | c :: o => if o.length > dotdot ∧ c ≠ 47 then back dotdot o else o

/-- The loop of `filepath.Clean` (called by `filepath.Join`, fs.go:19): the bytes written in reverse,
the index where `..` must stop, the rest of the path. -/
def cleanLoop (rooted : Bool) (o : Str) (dotdot : Nat) (p : Str) : Str :=
  match p with
  | [] => o
  | c :: p =>
    if c = 47 then cleanLoop rooted o dotdot p
    else if c = 46 ∧ (p = [] ∨ p.head? = some 47) then cleanLoop rooted o dotdot p
    else if c = 46 ∧ p.head? = some 46 ∧ (p.tail = [] ∨ p.tail.head? = some 47) then
      if o.length > dotdot then cleanLoop rooted (back dotdot o) dotdot p.tail
      else if rooted then cleanLoop rooted o dotdot p.tail
      else
        let o := 46 :: 46 :: (if o.length > 0 then 47 :: o else o)
        cleanLoop rooted o o.length p.tail
    else
      let o := if (rooted = true ∧ o.length ≠ 1) ∨ (rooted = false ∧ o.length ≠ 0) then 47 :: o else o
      cleanLoop rooted ((c :: p.takeWhile (· ≠ 47)).reverse ++ o) dotdot (p.dropWhile (· ≠ 47))
termination_by p.length
decreasing_by
  all_goals simp only [List.length_cons, List.length_tail]
  all_goals first
    | omega
    | exact Nat.lt_succ_of_le (List.dropWhile_sublist _).length_le

/-- `filepath.Clean` and `path.Clean`.  For fs.go:10-20 (`filepath.Join`). -/
def clean (path : Str) : Str :=
  if path = [] then b!"."
  else
    let out := if path.head? = some 47 then cleanLoop true [47] 1 path.tail else cleanLoop false [] 0 path
    if out = [] then b!"." else out.reverse

/-- `filepath.Join` and `path.Join`: leading empty elements are dropped.  For fs.go:10-20 (`filepath.Join`). -/
def joinPath : List Str → Str
  | [] => []
  | e :: es => if e = [] then joinPath es else clean (GoStr.join [47] (e :: es))

/-- What opening a path gives: a file, or a directory with the names of its entries in any order, each
with whether it is a directory; `none` is that it cannot be read.  For fs.go:16-20. -/
inductive Handle where
  | file (o : Opened)
  | dir (entries : Option (List (Str × Bool)))

/-- `os.Open`; `none` is an error.  For fs.go:16-20. -/
abbrev Os := Str → Option Handle

/-- `pathFS.Open` (fs.go:16-20). -/
def Os.openFS (os : Os) (path name : Str) : Option Handle := os (joinPath [path, name])

/-- What `LoadFile` gets from an open file (translaton.go:94-101): reading a directory fails. -/
def Handle.opened : Handle → Opened
  | .file o => o
  | .dir _ => { stat := none, content := none }

/-- The result of `fs.ReadDir`: the entries sorted by name.  For translaton.go:88-89 (`fs.WalkDir`). -/
def ReadDir (entries ds : List (Str × Bool)) : Prop := ds.Perm entries ∧ ds.Pairwise fun a b => ¬ b.1 < a.1

mutual
/-- `fs.walkDir` on a `pathFS` with the callback of `LoadFS` (translaton.go:69-87): on the name, the
base name and the kind of a directory entry; the paths given to `os.Open` in order, whether an error is
returned, and the state. -/
inductive WalkDir (c : Cfg α) (os : Os) (path ext : Str) :
    Str → Str → Bool → Bool × Translation α → List Str → Bool → Bool × Translation α → Prop where
  /-- a file that does not have the extension -/
  | skip (name base : Str) (st : Bool × Translation α) : GoStr.hasSuffix base ext = false →
      WalkDir c os path ext name base false st [] false st
  /-- a file that has it (translaton.go:76-83) -/
  | load (name base : Str) (st : Bool × Translation α) : GoStr.hasSuffix base ext = true →
      WalkDir c os path ext name base false st [joinPath [path, name]] false
        (visitFile c ext base ((os.openFS path name).map Handle.opened) st)
  /-- a directory that cannot be read -/
  | fail (name base : Str) (st : Bool × Translation α) :
      (∀ entries, os.openFS path name ≠ some (.dir (some entries))) →
      WalkDir c os path ext name base true st [joinPath [path, name]] true st
  /-- a directory -/
  | dir (name base : Str) (st : Bool × Translation α) (entries ds : List (Str × Bool)) (tr : List Str) (e : Bool)
      (st' : Bool × Translation α) :
      os.openFS path name = some (.dir (some entries)) → ReadDir entries ds → WalkAll c os path ext name ds st tr e st' →
      WalkDir c os path ext name base true st (joinPath [path, name] :: tr) e st'
/-- The loop of `fs.walkDir`.  For translaton.go:88-89 (`fs.WalkDir`). -/
inductive WalkAll (c : Cfg α) (os : Os) (path ext : Str) :
    Str → List (Str × Bool) → Bool × Translation α → List Str → Bool → Bool × Translation α → Prop where
  | nil (name : Str) (st : Bool × Translation α) : WalkAll c os path ext name [] st [] false st
  | stop (name : Str) (d : Str × Bool) (ds : List (Str × Bool)) (st st' : Bool × Translation α) (tr : List Str) :
      WalkDir c os path ext (joinPath [name, d.1]) d.1 d.2 st tr true st' →
      WalkAll c os path ext name (d :: ds) st tr true st'
  | next (name : Str) (d : Str × Bool) (ds : List (Str × Bool)) (st st' st'' : Bool × Translation α) (tr tr' : List Str)
      (e : Bool) :
      WalkDir c os path ext (joinPath [name, d.1]) d.1 d.2 st tr false st' →
      WalkAll c os path ext name ds st' tr' e st'' →
      WalkAll c os path ext name (d :: ds) st (tr ++ tr') e st''
end

/-- `fs.WalkDir(f, ".", fn(ext))` on a `pathFS` (translaton.go:88-89). -/
inductive WalkRoot (c : Cfg α) (os : Os) (path ext : Str) :
    Bool × Translation α → List Str → Bool × Translation α → Prop where
  /-- `Stat` fails, and so does the callback -/
  | fail (st : Bool × Translation α) :
      (os.openFS path b!"." = none ∨ ∃ o, os.openFS path b!"." = some (.file o) ∧ o.stat = none) →
      WalkRoot c os path ext st [joinPath [path, b!"."]] st
  | file (st : Bool × Translation α) (o : Opened) (base : Str) (tr : List Str) (e : Bool) (st' : Bool × Translation α) :
      os.openFS path b!"." = some (.file o) → o.stat = some base →
      WalkDir c os path ext b!"." base false st tr e st' →
      WalkRoot c os path ext st (joinPath [path, b!"."] :: tr) st'
  | dir (st : Bool × Translation α) (base : Str) (l : Option (List (Str × Bool))) (tr : List Str) (e : Bool)
      (st' : Bool × Translation α) : os.openFS path b!"." = some (.dir l) →
      WalkDir c os path ext b!"." base true st tr e st' →
      WalkRoot c os path ext st (joinPath [path, b!"."] :: tr) st'

/-- `LoadFS(asFS(path))` on a `Translation` (translaton.go:67-91, fs.go:10-12): the paths opened, whether
something loaded, and the new state. -/
def LoadPath (c : Cfg α) (os : Os) (tr : Translation α) (path : Str) (opened : List Str)
    (r : Bool × Translation α) : Prop :=
  ∃ o1 o2 st, WalkRoot c os path extMo (false, tr) o1 st ∧ WalkRoot c os path extPo st o2 r ∧ opened = o1 ++ o2

/-- `Bind(domain, path)` (init.go:30-32); `Load(path)` (init.go:20-22) is this with the current domain. -/
def World.GBind (c : Cfg α) (os : Os) (w : World α) (domain path : Str) (opened : List Str) (w' : World α) : Prop :=
  ∃ r, LoadPath c os (newTranslation c domain []) path opened r ∧
    w' = (let w1 : World α := { w with trs := w.trs ++ [r.2] }
      if r.1 then w1.setDoms w.glob ((w1.doms w.glob).set domain (w1.trs.length - 1)) else w1)

end Verif.W
