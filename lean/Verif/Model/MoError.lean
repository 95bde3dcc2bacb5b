import Verif.Model.Mo
import Verif.Model.Errors
/-!
# The errors of the MO reader (translator/mo.go:91-196, errors/errors.go)

`ReadMo` again, with the error it returns: the text of its format, and the error of package `io` it wraps.  A short
read of `io.ReadFull` is `io.EOF` if nothing was left to read and `io.ErrUnexpectedEOF` if something was.
`bytes.Reader.Seek` does not fail for offsets that are not negative.
-/
namespace Verif.Tr
open Verif

/-- `io.ErrUnexpectedEOF`; see `Errors.eof`. -/
def unexpectedEof : Nat := 5

/-- The second operand of `errors.WithSecondaryError(errReadMo, ...)`: `errors.Errorf(what)`, or
`errors.Wrapf(cause, what)`.  For translator/mo.go:92-211. -/
structure MoErr where
  what : Str
  cause : Option Nat
  deriving DecidableEq, Repr

/-- `Error()` of the errors of package io.  For translator/mo.go:92-211. -/
def ioText (id : Nat) : Str := if id = Errors.eof then b!"EOF" else b!"unexpected EOF"

/-- What `Error()` returns for the error of `ReadMo` (errors/errors.go:12-19; `errReadMo`, translator/mo.go:74). -/
def MoErr.text (e : MoErr) : Str :=
  b!"read mo" ++ b!": " ++ match e.cause with
    | none => e.what
    | some id => e.what ++ b!": " ++ ioText id

/-- The error of `ReadMo` as a tree of causes.  For translator/mo.go:92-211. -/
def MoErr.err (e : MoErr) : Errors.Err :=
  Errors.withSecondary (Errors.sentinel Errors.readMo) (match e.cause with
    | none => Errors.errorf
    | some id => Errors.wrapf (Errors.sentinel id))

/-- `binary.Read` of `n` bytes at `pos`, with the error it returns.  For translator/mo.go:92-211. -/
def readE (c : Str) (pos n : Nat) : Except Nat Str :=
  match readFull c pos n with
  | some s => .ok s
  | none => .error (if c.length ≤ pos then Errors.eof else unexpectedEof)

/-- The loops over the tables (translator/mo.go:127-136, 143-151) from index `i` on, `k` descriptors. -/
def readTableE (be : Bool) (c name : Str) : Nat → Nat → Nat → Except MoErr (List LenOff)
  | _, _, 0 => .ok []
  | pos, i, k + 1 =>
    match readE c pos 8 with
    | .error id => .error ⟨b!"failed to read " ++ name ++ b!"[" ++ Num.natDigits i ++ b!"] length & offset", some id⟩
    | .ok s =>
      match readTableE be c name (pos + 8) (i + 1) k with
      | .error e => .error e
      | .ok t => .ok ({ len := uintOf be (s.take 4), off := uintOf be (s.drop 4) } :: t)

/-- The loop over the messages (translator/mo.go:154-194); `none` is a panic. -/
def readMsgsE (c : Str) (ids strs : List LenOff) : Nat → Nat → File → Option (Except MoErr File)
  | _, 0, f => some (.ok f)
  | i, k + 1, f =>
    match ids[i]? with
    | none => none
    | some a =>
      match readE c a.off a.len with
      | .error id => some (.error ⟨b!"failed to read msg_id[" ++ Num.natDigits i ++ b!"]", some id⟩)
      | .ok id =>
        match strs[i]? with
        | none => none
        | some b =>
          match readE c b.off b.len with
          | .error id => some (.error ⟨b!"failed to read msg_str[" ++ Num.natDigits i ++ b!"]", some id⟩)
          | .ok str => readMsgsE c ids strs (i + 1) k (f.addEntry (moEntry id str))

/-- `ReadMo` after the magic number (translator/mo.go:110-195). -/
def readMoBodyE (be : Bool) (c : Str) : Option (Except MoErr File) :=
  match readE c 4 24 with
  | .error id => some (.error ⟨b!"failed to read mo header", some id⟩)
  | .ok h =>
    let major := uintOf be (h.take 2)
    let minor := uintOf be ((h.drop 2).take 2)
    let n := uintOf be ((h.drop 4).take 4)
    let offsetID := uintOf be ((h.drop 8).take 4)
    let offsetStr := uintOf be ((h.drop 12).take 4)
    if major ≠ 0 ∧ major ≠ 1 then some (.error ⟨b!"unsopported major version: " ++ Num.natDigits major, none⟩)
    else if minor ≠ 0 ∧ minor ≠ 1 then some (.error ⟨b!"unsopported minor version: " ++ Num.natDigits minor, none⟩)
    else match readTableE be c b!"msg_id" offsetID 0 n with
      | .error e => some (.error e)
      | .ok ids =>
        match readTableE be c b!"msg_str" offsetStr 0 n with
        | .error e => some (.error e)
        | .ok strs => readMsgsE c ids strs 0 n {}

/-- `ReadMo` (translator/mo.go:92-196). -/
def readMoE (c : Str) : Option (Except MoErr File) :=
  match readE c 0 4 with
  | .error id => some (.error ⟨b!"failed to read magic number", some id⟩)
  | .ok m =>
    let magic := uintOf false m
    if magic = moMagicBig then readMoBodyE true c
    else if magic = moMagic then readMoBodyE false c
    else some (.error ⟨b!"invalid magic number: " ++ Num.natDigits magic, none⟩)

end Verif.Tr
