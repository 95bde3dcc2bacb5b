import Verif.Model.Path
import Verif.Spec.World
/-!
# Specification vocabulary for paths

Where a path leads, which paths are written in shortest form, and what a tree of files is to the
operating system.  Locations are lists of names from the root.  There are no links: `..` leads to the
directory that holds the current one.
-/
namespace Verif.W
open Verif

/-- The parts of a path between its slashes. -/
def Parts (path : Str) (ps : List Str) : Prop := ps ≠ [] ∧ (∀ p ∈ ps, 47 ∉ p) ∧ path = List.intercalate [47] ps

/-- The path starts at the root. -/
def Absolute (path : Str) : Prop := ∃ p, path = 47 :: p

/-- Go from a location along the parts of a path. -/
def follow : List Str → List Str → List Str
  | loc, [] => loc
  | loc, p :: ps =>
    if p = [] ∨ p = b!"." then follow loc ps
    else if p = b!".." then follow loc.dropLast ps
    else follow (loc ++ [p]) ps

/-- The path leads to this location, from this working directory. -/
def LeadsTo (cwd : List Str) (path : Str) (loc : List Str) : Prop :=
  ∃ ps, Parts path ps ∧ ((Absolute path ∧ loc = follow [] ps) ∨ (¬ Absolute path ∧ loc = follow cwd ps))

/-- The name of a file or directory. -/
def FileName (n : Str) : Prop := n ≠ [] ∧ n ≠ b!"." ∧ n ≠ b!".." ∧ 47 ∉ n

/-- A path in shortest form: `/`, `.`, names separated by single slashes after `/`, or names after any
number of `..`. -/
def Canonical (path : Str) : Prop :=
  path = b!"/" ∨ path = b!"." ∨
  ∃ k names, (∀ n ∈ names, FileName n) ∧
    ((k = 0 ∧ names ≠ [] ∧ path = b!"/" ++ List.intercalate [47] names) ∨
     (k + names.length ≠ 0 ∧ path = List.intercalate [47] (List.replicate k b!".." ++ names)))

/-- The name of a node of a tree. -/
def Node.name : Node → Str
  | .file n _ => n
  | .dir n _ _ => n

/-- Is the node a directory? -/
def Node.isDir : Node → Bool
  | .file _ _ => false
  | .dir _ _ _ => true

/-- The node at a location below a node. -/
inductive At : Node → List Str → Node → Prop where
  | here (n : Node) : At n [] n
  | under (name : Str) (r : Bool) (es : List Node) (e n : Node) (loc : List Str) :
      e ∈ es → At e loc n → At (.dir name r es) (e.name :: loc) n

/-- A tree as it can be on a disk: entries have names, listed in order and once each; a file that can be
opened and asked tells its name. -/
inductive Proper : Node → Prop where
  | file (name : Str) (o : Option Opened) : (∀ x, o = some x → x.stat = none ∨ x.stat = some name) → Proper (.file name o)
  | dir (name : Str) (r : Bool) (es : List Node) : (∀ e ∈ es, FileName e.name) → (∀ e ∈ es, Proper e) →
      (es.Pairwise fun a b => a.name < b.name) → Proper (.dir name r es)

/-- What the operating system answers for a node. -/
def Node.Handles : Node → Option Handle → Prop
  | .file _ o, h => h = o.map Handle.file
  | .dir _ true es, h => ∃ entries, entries.Perm (es.map fun e => (e.name, e.isDir)) ∧ h = some (.dir (some entries))
  | .dir _ false _, h => h = none ∨ h = some (.dir none)

/-- The operating system serves this tree, with this working directory: whatever path in shortest form
it is asked for, it answers for the node the path leads to, or with an error if there is none. -/
def Serves (os : Os) (cwd : List Str) (root : Node) : Prop :=
  ∀ path loc, Canonical path → LeadsTo cwd path loc →
    (∀ n, At root loc n → n.Handles (os path)) ∧ ((∀ n, ¬ At root loc n) → os path = none)

/-- What is at a location: a node of the tree, or nothing. -/
def TreeAt (root : Node) (loc : List Str) (fsys : Option Node) : Prop :=
  (∀ n, fsys = some n → At root loc n) ∧ (fsys = none → ∀ n, ¬ At root loc n)

end Verif.W
