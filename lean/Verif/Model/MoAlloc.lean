import Verif.Model.Mo
/-!
# What `ReadMo` asks for while it reads (translator/mo.go)

The reader of `Model/Mo.lean` with the reads of descriptors and the requests for buffers in order.  `binary.Read` (encoding/binary, not in
/repo) makes another buffer of the same length for every buffer of `ReadMo`; it is not counted.
-/
namespace Verif.Tr
open Verif

/-- A read of a descriptor (translator/mo.go:129, 144), or a request for a buffer (translator/mo.go:160, 171). -/
inductive MoEv where
  | descr
  | make (n : Nat)
  deriving DecidableEq

/-- The loops over the tables (translator/mo.go:127-136, 143-151). -/
def readTableM (be : Bool) (c : Str) : Nat → Nat → List MoEv × Option (List LenOff)
  | _, 0 => ([], some [])
  | pos, n + 1 =>
    match readFull c pos 8 with
    | none => ([.descr], none)
    | some s =>
      let r := readTableM be c (pos + 8) n
      (.descr :: r.1, r.2.map fun t => { len := uintOf be (s.take 4), off := uintOf be (s.drop 4) } :: t)

/-- The loop over the messages (translator/mo.go:154-194). -/
def readMsgsM (c : Str) (ids strs : List LenOff) : Nat → Nat → File → List MoEv × Res File
  | _, 0, f => ([], .ok f)
  | i, k + 1, f =>
    match ids[i]? with
    | none => ([], .panic)
    | some a =>
      match readFull c a.off a.len with
      | none => ([.make a.len], .err)
      | some id =>
        match strs[i]? with
        | none => ([.make a.len], .panic)
        | some b =>
          match readFull c b.off b.len with
          | none => ([.make a.len, .make b.len], .err)
          | some str =>
            let r := readMsgsM c ids strs (i + 1) k (f.addEntry (moEntry id str))
            (.make a.len :: .make b.len :: r.1, r.2)

/-- `ReadMo` after the magic number (translator/mo.go:110-195). -/
def readMoBodyM (be : Bool) (c : Str) : List MoEv × Res File :=
  match readFull c 4 24 with
  | none => ([], .err)
  | some h =>
    let major := uintOf be (h.take 2)
    let minor := uintOf be ((h.drop 2).take 2)
    let n := uintOf be ((h.drop 4).take 4)
    let offsetID := uintOf be ((h.drop 8).take 4)
    let offsetStr := uintOf be ((h.drop 12).take 4)
    if major ≠ 0 ∧ major ≠ 1 then ([], .err)
    else if minor ≠ 0 ∧ minor ≠ 1 then ([], .err)
    else
      let a := readTableM be c offsetID n
      match a.2 with
      | none => (a.1, .err)
      | some ids =>
        let b := readTableM be c offsetStr n
        match b.2 with
        | none => (a.1 ++ b.1, .err)
        | some strs =>
          let r := readMsgsM c ids strs 0 n {}
          (a.1 ++ b.1 ++ r.1, r.2)

/-- `ReadMo` (translator/mo.go:92-196). -/
def readMoM (c : Str) : List MoEv × Res File :=
  match readFull c 0 4 with
  | none => ([], .err)
  | some m =>
    let magic := uintOf false m
    if magic = moMagicBig then readMoBodyM true c
    else if magic = moMagic then readMoBodyM false c
    else ([], .err)

end Verif.Tr
