import Verif.Spec.Glob
import Verif.Model.Glob
/-!
# The paths a pattern stands for

Of the model only the type of file systems is used.
-/
namespace Verif.Glob
open Verif

/-- A text without special bytes. -/
def Plain (p : Str) : Prop := ∀ c ∈ p, c ≠ 42 ∧ c ≠ 63 ∧ c ≠ 91 ∧ c ≠ 92

/-- What stands before the last part of a pattern, and the directory it means. -/
inductive Before : Str → Str → Prop
  | nothing : Before [] b!"."
  | root : Before b!"/" b!"/"
  | dir (d : Str) : d ≠ [] → Before (d ++ b!"/") d

/-- `x` is the path, in shortest form, to the file of that name in a directory. -/
def InDir (d n x : Str) : Prop :=
  W.Canonical x ∧ (W.Absolute x ↔ W.Absolute d) ∧ ∀ cwd loc, W.LeadsTo cwd d loc → W.LeadsTo cwd x (loc ++ [n])

/-- `x` is a name in the directory `d` that fits. -/
def Inside (exact : Bool) (fs : Fs) (file d x : Str) : Prop :=
  ∃ ps ns n, Pattern file ps ∧ fs.names d = some ns ∧ n ∈ ns ∧ Fits exact ps n ∧ InDir d n x

/-- The pattern stands for the path: the last part is sought in the directories that the parts before stand for. -/
inductive Named (exact : Bool) (fs : Fs) : Str → Str → Prop
  | itself {p : Str} : Plain p → fs.found p = true → Named exact fs p p
  | inDir {pre file dir x : Str} : ¬ Plain (pre ++ file) → 47 ∉ file → Before pre dir → Plain dir → Inside exact fs file dir x →
      Named exact fs (pre ++ file) x
  | inDirs {pre file dir d x : Str} : ¬ Plain (pre ++ file) → 47 ∉ file → Before pre dir → ¬ Plain dir → Named exact fs dir d →
      Inside exact fs file d x → Named exact fs (pre ++ file) x

/-- The pattern is written well, and so is what stands before any of its slashes. -/
def WellFormed (p : Str) : Prop := (∃ ps, Pattern p ps) ∧ ∀ q r, p = q ++ 47 :: r → ∃ ps, Pattern q ps

/-- Directories list names of files, each once. -/
def Fs.Proper (fs : Fs) : Prop := ∀ d ns, fs.names d = some ns → ns.Nodup ∧ ∀ n ∈ ns, W.FileName n

/-- Two file systems that differ in the order in which directories are listed at most. -/
def Fs.Same (fs fs' : Fs) : Prop :=
  (∀ p, fs.found p = fs'.found p) ∧
  ∀ d, (fs.names d = none ∧ fs'.names d = none) ∨ ∃ ns ns', fs.names d = some ns ∧ fs'.names d = some ns' ∧ ns.Perm ns'

end Verif.Glob
