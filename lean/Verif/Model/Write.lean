import Verif.Model.Po
import Verif.Model.Mo
import Verif.Model.Run
/-!
# How a saved file reaches its destination

`SaveAsPo`, `SaveAsPot` and `SaveAsMo` collect their text in a `bytes.Buffer` and end with `buf.WriteTo(w)`.  `bytes.Buffer.WriteTo`,
`os.File.Write` and `internal/poll.FD.Write` are those of Go 1.23 on Unix (standard library, not in /repo).  A destination that keeps the
writer waiting for ever has no outcome, so these are relations.
-/
namespace Verif.Write
open Verif

/-- How a call of `Write` ends: a count and perhaps an error, or a panic.  For translator/po.go:71, pot.go:50 and mo.go:276 (`WriteTo`). -/
inductive Wrote (E : Type) where
  | done (n : Int) (e : Option E)
  | panicked

/-- An `io.Writer` with its state.  For translator/po.go:71, pot.go:50 and mo.go:276 (`WriteTo`). -/
abbrev Writer (S E : Type) := S → Str → Wrote E → S → Prop

/-- The error of `WriteTo`: the writer's, or `io.ErrShortWrite`.  For translator/po.go:71, pot.go:50 and mo.go:276 (`WriteTo`). -/
inductive SaveErr (E : Type) where
  | writer (e : E)
  | short

/-- How a save ends: with an error or none, or with a panic.  For translator/po.go:71, pot.go:50 and mo.go:276 (`WriteTo`). -/
inductive Saved (E : Type) where
  | returned (e : Option (SaveErr E))
  | panicked

/-- `bytes.Buffer.WriteTo` (bytes/buffer.go of Go 1.23), called at translator/po.go:71, pot.go:50 and mo.go:276; the count is not used. -/
inductive WriteTo {S E : Type} (w : Writer S E) (buf : Str) (s : S) : Saved E → S → Prop
  | empty : buf = [] → WriteTo w buf s (.returned none) s
  | panicked {s'} : buf ≠ [] → w s buf .panicked s' → WriteTo w buf s .panicked s'
  | count {n e s'} : buf ≠ [] → w s buf (.done n e) s' → (buf.length : Int) < n → WriteTo w buf s .panicked s'
  | error {n e s'} : buf ≠ [] → w s buf (.done n (some e)) s' → n ≤ buf.length → WriteTo w buf s (.returned (some (.writer e))) s'
  | short {n s'} : buf ≠ [] → w s buf (.done n none) s' → n < buf.length → WriteTo w buf s (.returned (some .short)) s'
  | all {n s'} : buf ≠ [] → w s buf (.done n none) s' → n = buf.length → WriteTo w buf s (.returned none) s'

/-- `SaveAsPo` (translator/po.go:49-73). -/
def SaveAsPo {S E : Type} (P : Nat → Bool) (f : Tr.File) (w : Writer S E) (s : S) (r : Saved E) (s' : S) : Prop :=
  ∃ es, Tr.SortedEntry f es ∧ WriteTo w (Tr.savePo P es) s r s'

/-- `SaveAsPot` (translator/pot.go:25-52). -/
def SaveAsPot {S E : Type} (P : Nat → Bool) (f : Tr.File) (w : Writer S E) (s : S) (r : Saved E) (s' : S) : Prop :=
  ∃ es, Tr.SortedEntry f es ∧ WriteTo w (Tr.savePot P es) s r s'

/-- `SaveAsMo` (translator/mo.go:214-278); the writes to the buffer before `WriteTo` do not fail. -/
def SaveAsMo {S E : Type} (f : Tr.File) (w : Writer S E) (s : S) (r : Saved E) (s' : S) : Prop :=
  ∃ es, Tr.SortedEntry f es ∧ WriteTo w (Tr.saveMo es) s r s'

/-! ## Files -/

/-- Error numbers of the operating system.
For cmd/xtemplate/internal/keyword.go:126-135 and param.go:99-102 (the output is an `os.File`). -/
inductive Errno where
  | again
  | intr
  | other (no : Nat)
  deriving DecidableEq

/-- The errors of `os.File.Write`.  For cmd/xtemplate/internal/keyword.go:126-135 and param.go:99-102 (the output is an `os.File`). -/
inductive FileErr where
  | errno (e : Errno)
  | eof
  | shortWrite
  | notReady (no : Nat)
  deriving DecidableEq

/-- `write(2)` as `syscall.Write` returns it: -1 and an error number, or how many bytes from the beginning of the buffer were taken.  The
last part is what was added to the file.  For cmd/xtemplate/internal/keyword.go:126-135 and param.go:99-102 (the output is an `os.File`). -/
inductive Sys (p : Str) : Int → Option Errno → Str → Prop
  | failed (e : Errno) : Sys p (-1) (some e) []
  | took (k : Nat) : k ≤ p.length → Sys p k none (p.take k)

/-- `ignoringEINTRIO` (internal/poll/fd_unix.go). -/
inductive Call (p : Str) : Int → Option Errno → Str → Prop
  | interrupted {n a n' e a'} : Sys p n (some .intr) a → Call p n' e a' → Call p n' e (a ++ a')
  | returned {n e a} : Sys p n e a → e ≠ some .intr → Call p n e a

/-- `maxRW` (internal/poll/fd_unix.go). -/
def maxRW : Nat := 1073741824

/-- What is handed to the system next.  For cmd/xtemplate/internal/keyword.go:126-135 and param.go:99-102 (the output is an `os.File`). -/
def chunk (p : Str) (nn : Nat) : Str := (p.drop nn).take maxRW

/-- `nn += n` if `n > 0`.  For cmd/xtemplate/internal/keyword.go:126-135 and param.go:99-102 (the output is an `os.File`). -/
def advance (nn : Nat) (n : Int) : Nat := nn + n.toNat

/-- The loop of `FD.Write` (internal/poll/fd_unix.go) after `nn` bytes; the last parts are its results and what it added to the file. -/
inductive Loop (p : Str) : Nat → Nat → Option FileErr → Str → Prop
  | complete {nn n e a} : Call (chunk p nn) n e a → advance nn n = p.length → Loop p nn (advance nn n) (e.map .errno) a
  | wait {nn n a nn' e' a'} : Call (chunk p nn) n (some .again) a → advance nn n ≠ p.length →
      Loop p (advance nn n) nn' e' a' → Loop p nn nn' e' (a ++ a')
  | noWait {nn n a} (no : Nat) : Call (chunk p nn) n (some .again) a → advance nn n ≠ p.length →
      Loop p nn (advance nn n) (some (.notReady no)) a
  | error {nn n e a} : Call (chunk p nn) n (some e) a → advance nn n ≠ p.length → Loop p nn (advance nn n) (some (.errno e)) a
  | zero {nn n a} : Call (chunk p nn) n none a → advance nn n ≠ p.length → n = 0 → Loop p nn (advance nn n) (some .eof) a
  | more {nn n a nn' e' a'} : Call (chunk p nn) n none a → advance nn n ≠ p.length → n ≠ 0 →
      Loop p (advance nn n) nn' e' a' → Loop p nn nn' e' (a ++ a')

/-- `os.File.Write` (os/file.go); the state is what the file received so far.  `closed`: `writeLock` or `prepareWrite` fails. -/
inductive FileWrite : Writer Str FileErr
  | closed {s p} (no : Nat) : FileWrite s p (.done 0 (some (.notReady no))) s
  | wrote {s p nn e a} : Loop p 0 nn e a →
      FileWrite s p (.done nn (e.or (if nn ≠ p.length then some .shortWrite else none))) (s ++ a)

/-- The sink of a run (`Model/Run.lean`) is this: for each text an outcome of writing it to the opened file or to stdout.
For cmd/xtemplate/internal/keyword.go:126-135 and param.go:99-102 (the output is an `os.File`). -/
def IsFile (sink : Str → Str × Bool) : Prop :=
  ∀ text, ∃ e, WriteTo FileWrite text [] (.returned e) (sink text).1 ∧ ((sink text).2 = true ↔ e = none)

end Verif.Write
