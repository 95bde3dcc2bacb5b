import Verif.Model.Domain
import Verif.Model.Write
/-!
# How the bytes of a file reach the readers

`LoadFile` and the extraction read a whole file before they look at it.  `io.ReadAll`, `os.ReadFile`, `os.File.Read`,
`internal/poll.FD.Read` and the files of `embed.FS` are those of Go 1.23 on Unix (standard library, not in /repo).  A source that keeps the
reader waiting for ever, or returns nothing and no error for ever, has no outcome, so these are relations.
-/
namespace Verif.Read
open Verif W

/-- The error of a `Read`.  For translaton.go:100 (`io.ReadAll`). -/
inductive ReadErr (E : Type) where
  | eof
  | other (e : E)
  deriving DecidableEq

/-- How a call of `Read` ends: a count, what the buffer holds then, and perhaps an error; or a panic.  For translaton.go:100
(`io.ReadAll`). -/
inductive Got (E : Type) where
  | done (n : Int) (buf : Str) (e : Option (ReadErr E))
  | panicked

/-- An `io.Reader` with its state, given the length of the buffer.  For translaton.go:100 (`io.ReadAll`). -/
abbrev Reader (S E : Type) := S → Nat → Got E → S → Prop

/-- How `io.ReadAll` ends.  For translaton.go:100. -/
inductive All (E : Type) where
  | returned (b : Str) (e : Option E)
  | panicked

/-- `b[:len(b)+n]` after a `Read` into the rest of the buffer.  For translaton.go:100 (`io.ReadAll`). -/
def extend (b buf : Str) (n : Int) : Str := (b ++ buf).take (b.length + n).toNat

/-- Is `b[:len(b)+n]` in the range of a buffer of capacity `cap`?  For translaton.go:100 (`io.ReadAll`). -/
def InRange (b : Str) (cap : Nat) (n : Int) : Prop := 0 ≤ b.length + n ∧ b.length + n ≤ cap

/-- The loop of `io.ReadAll` (io/io.go) with `b` read so far in a buffer of capacity `cap`, called at translaton.go:100; that of
`os.ReadFile` (os/file.go), called at cmd/xtemplate/internal/run.go:91, is the same.  `append` to a full buffer gives some larger one. -/
inductive Loop {S E : Type} (r : Reader S E) : Str → Nat → S → All E → S → Prop
  | panicked {b cap s s'} : r s (cap - b.length) .panicked s' → Loop r b cap s .panicked s'
  | range {b cap s n buf e s'} : r s (cap - b.length) (.done n buf e) s' → ¬ InRange b cap n → Loop r b cap s .panicked s'
  | eof {b cap s n buf s'} : r s (cap - b.length) (.done n buf (some .eof)) s' → InRange b cap n →
      Loop r b cap s (.returned (extend b buf n) none) s'
  | error {b cap s n buf e s'} : r s (cap - b.length) (.done n buf (some (.other e))) s' → InRange b cap n →
      Loop r b cap s (.returned (extend b buf n) (some e)) s'
  | full {b cap s n buf s' cap' o s''} : r s (cap - b.length) (.done n buf none) s' → InRange b cap n →
      (extend b buf n).length = cap → cap < cap' → Loop r (extend b buf n) cap' s' o s'' → Loop r b cap s o s''
  | more {b cap s n buf s' o s''} : r s (cap - b.length) (.done n buf none) s' → InRange b cap n →
      (extend b buf n).length ≠ cap → Loop r (extend b buf n) cap s' o s'' → Loop r b cap s o s''

/-- `io.ReadAll` (io/io.go), called at translaton.go:100. -/
def ReadAll {S E : Type} (r : Reader S E) (s : S) (o : All E) (s' : S) : Prop := Loop r [] 512 s o s'

/-- `(*Translation).LoadFile` (translaton.go:94-110) on a file with a `Stat` and a `Read`: success and the new state, or a panic (`none`). -/
inductive LoadFile {α S E : Type} (c : Cfg α) (tr : Translation α) (stat : Option Str) (r : Reader S E) (s : S) :
    Option (Bool × Translation α) → Prop
  | stat : stat = none → LoadFile c tr stat r s (some (false, tr))
  | panicked {name s'} : stat = some name → ReadAll r s .panicked s' → LoadFile c tr stat r s none
  | error {name b e s'} : stat = some name → ReadAll r s (.returned b (some e)) s' → LoadFile c tr stat r s (some (false, tr))
  | po {name b s'} : stat = some name → ReadAll r s (.returned b none) s' → GoStr.hasSuffix name extPo = true →
      LoadFile c tr stat r s (some (tr.loadPo c b))
  | mo {name b s'} : stat = some name → ReadAll r s (.returned b none) s' → GoStr.hasSuffix name extPo = false →
      GoStr.hasSuffix name extMo = true → LoadFile c tr stat r s (some (tr.loadMo c b))
  | neither {name b s'} : stat = some name → ReadAll r s (.returned b none) s' → GoStr.hasSuffix name extPo = false →
      GoStr.hasSuffix name extMo = false → LoadFile c tr stat r s (some (true, tr))

/-! ## Files -/

/-- The errors of `os.File.Read` other than `io.EOF`.  For translaton.go:76 (`f.Open`) and cmd/xtemplate/internal/run.go:91. -/
inductive FileErr where
  | errno (e : Write.Errno)
  | notReady (no : Nat)
  deriving DecidableEq

/-- `read(2)` as `syscall.Read` returns it, with `left` the part of the file not yet read: -1 and an error number, or how many bytes were
put into a buffer of `k` bytes (none only at the end of the file).  The last parts are the buffer and what is left then.
For translaton.go:76 (`f.Open`) and cmd/xtemplate/internal/run.go:91. -/
inductive Sys (left : Str) (k : Nat) : Int → Option Write.Errno → Str → Str → Prop
  | failed (e : Write.Errno) (buf : Str) : buf.length = k → Sys left k (-1) (some e) buf left
  | took (j : Nat) (rest : Str) : j ≤ k → j ≤ left.length → (j = 0 → k = 0 ∨ left = []) → (left.take j ++ rest).length = k →
      Sys left k j none (left.take j ++ rest) (left.drop j)

/-- `ignoringEINTRIO` (internal/poll/fd_unix.go). -/
inductive Call (k : Nat) : Str → Int → Option Write.Errno → Str → Str → Prop
  | interrupted {left n buf left' n' e buf' left''} : Sys left k n (some .intr) buf left' → Call k left' n' e buf' left'' →
      Call k left n' e buf' left''
  | returned {left n e buf left'} : Sys left k n e buf left' → e ≠ some .intr → Call k left n e buf left'

/-- `eofError` (internal/poll/fd_posix.go), with `ZeroReadIsEOF`. -/
def eofError (n : Int) : Option (ReadErr FileErr) := if n = 0 then some .eof else none

/-- The part of the buffer `FD.Read` hands to the system; `stream` is `IsStream` (internal/poll/fd_unix.go). -/
def portion (stream : Bool) (k : Nat) : Nat := if stream && decide (Write.maxRW < k) then Write.maxRW else k

/-- The loop of `FD.Read` (internal/poll/fd_unix.go), given the length of the buffer. -/
inductive FdLoop (k : Nat) : Str → Int → Str → Option (ReadErr FileErr) → Str → Prop
  | wait {left n buf left' n' buf' e' left''} : Call k left n (some .again) buf left' → FdLoop k left' n' buf' e' left'' →
      FdLoop k left n' buf' e' left''
  | noWait {left n buf left'} (no : Nat) : Call k left n (some .again) buf left' → FdLoop k left 0 buf (some (.other (.notReady no))) left'
  | error {left n e buf left'} : Call k left n (some e) buf left' → FdLoop k left 0 buf (some (.other (.errno e))) left'
  | ok {left n buf left'} : Call k left n none buf left' → FdLoop k left n buf (eofError n) left'

/-- `os.File.Read` (os/file.go); the state is what is left of the file.  `closed`: `readLock` or `prepareRead` fails.  The part of the
buffer that is not handed to the system holds anything. -/
inductive FileRead : Reader Str FileErr
  | closed {left k} (no : Nat) (buf : Str) : buf.length = k → FileRead left k (.done 0 buf (some (.other (.notReady no)))) left
  | nothing {left} : FileRead left 0 (.done 0 [] none) left
  | read {left k n buf e left'} (stream : Bool) (rest : Str) : k ≠ 0 → FdLoop (portion stream k) left n buf e left' →
      (buf ++ rest).length = k → FileRead left k (.done n (buf ++ rest) e) left'

/-- `os.ReadFile` (os/file.go) of a file that can be opened, called at cmd/xtemplate/internal/run.go:91; the first buffer has at least
512 bytes. -/
def ReadFile (left : Str) (o : All FileErr) : Prop := ∃ cap left', 512 ≤ cap ∧ Loop FileRead [] cap left o left'

/-- `openFile.Read` of an embedded file (embed/embed.go); the state is what is left of it.
For cmd/xtemplate/main.go:22-32 (`embed.FS`). -/
inductive EmbedRead : Reader Str FileErr
  | eof {k} (buf : Str) : buf.length = k → EmbedRead [] k (.done 0 buf (some .eof)) []
  | copied {left k} (rest : Str) : left ≠ [] → (left.take k ++ rest).length = k →
      EmbedRead left k (.done (left.take k).length (left.take k ++ rest) none) (left.drop k)

/-- What opening gives in `Model/Domain.lean` is this: the name, and an outcome of reading everything.  For translaton.go:94-103. -/
def IsOpened {S E : Type} (stat : Option Str) (r : Reader S E) (s : S) (o : Opened) : Prop :=
  o.stat = stat ∧ ∃ b e s', ReadAll r s (.returned b e) s' ∧ o.content = if e.isSome then none else some b

end Verif.Read
