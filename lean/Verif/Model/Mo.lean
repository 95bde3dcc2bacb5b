import Verif.Model.Po
/-!
# MO files (translator/mo.go)

Simplified: all errors are one outcome; sizes and offsets are natural numbers when written, truncated
to 32 bits where the code converts to `uint32` (an `int` has 64 bits and does not overflow for data
that fits in memory); the allocation of a buffer of the announced length (up to 4 GiB, twice) always
succeeds; writing is to a `bytes.Buffer`, and the write of the buffer to the caller's writer succeeds.
-/
namespace Verif.Tr
open Verif

/-- The number with these little-endian bytes.  For translator/mo.go:92-211. -/
def leNat : Str → Nat
  | [] => 0
  | b :: s => b.toNat + 256 * leNat s

/-- An unsigned number in byte order `be` (`binary.BigEndian` or `binary.LittleEndian`).  For translator/mo.go:92-211. -/
def uintOf (be : Bool) (s : Str) : Nat := leNat (if be then s.reverse else s)

/-- `binary.Read` of `n` bytes from a `bytes.Reader` at `pos` (`io.ReadFull`): reading nothing
succeeds everywhere, a short read is an error.  For translator/mo.go:92-211. -/
def readFull (c : Str) (pos n : Nat) : Option Str :=
  if n = 0 then some []
  else if pos + n ≤ c.length then some ((c.drop pos).take n)
  else none

/-- `lenOff` (translator/mo.go:86-89). -/
structure LenOff where
  len : Nat
  off : Nat
  deriving DecidableEq, Repr

/-- The loops over the tables (translator/mo.go:127-136, 143-151): `n` descriptors from `pos` on. -/
def readTable (be : Bool) (c : Str) : Nat → Nat → Option (List LenOff)
  | _, 0 => some []
  | pos, n + 1 =>
    match readFull c pos 8 with
    | none => none
    | some s =>
      match readTable be c (pos + 8) n with
      | none => none
      | some t => some ({ len := uintOf be (s.take 4), off := uintOf be (s.drop 4) } :: t)

/-- The entry made of an id and a string (translator/mo.go:177-192). -/
def moEntry (id str : Str) : Entry :=
  let (ctxt, id) := match GoStr.indexByte 4 id with
    | some i => (id.take i, id.drop (i + 1))
    | none => ([], id)
  match GoStr.indexByte 0 id with
  | some i =>
    { ctxt := ctxt, id := id.take i, id2 := id.drop (i + 1), isPlural := true,
      strN := GoStr.splitByte 0 str }
  | none => { ctxt := ctxt, id := id, str := str }

/-- The loop over the messages (translator/mo.go:154-194): `k` messages from index `i` on. -/
def readMsgs (c : Str) (ids strs : List LenOff) : Nat → Nat → File → Res File
  | _, 0, f => .ok f
  | i, k + 1, f =>
    match ids[i]? with
    | none => .panic
    | some a =>
      match readFull c a.off a.len with
      | none => .err
      | some id =>
        match strs[i]? with
        | none => .panic
        | some b =>
          match readFull c b.off b.len with
          | none => .err
          | some str => readMsgs c ids strs (i + 1) k (f.addEntry (moEntry id str))

/-- `moMagic` (translator/mo.go:67). -/
def moMagic : Nat := 0x950412de
/-- `moMagicBig` (translator/mo.go:68). -/
def moMagicBig : Nat := 0xde120495

/-- `ReadMo` after the magic number (translator/mo.go:110-195). -/
def readMoBody (be : Bool) (c : Str) : Res File :=
  match readFull c 4 24 with
  | none => .err
  | some h =>
    let major := uintOf be (h.take 2)
    let minor := uintOf be ((h.drop 2).take 2)
    let n := uintOf be ((h.drop 4).take 4)
    let offsetID := uintOf be ((h.drop 8).take 4)
    let offsetStr := uintOf be ((h.drop 12).take 4)
    if major ≠ 0 ∧ major ≠ 1 then .err
    else if minor ≠ 0 ∧ minor ≠ 1 then .err
    else match readTable be c offsetID n with
      | none => .err
      | some ids =>
        match readTable be c offsetStr n with
        | none => .err
        | some strs => readMsgs c ids strs 0 n {}

/-- `ReadMo` (translator/mo.go:92-196). -/
def readMo (c : Str) : Res File :=
  match readFull c 0 4 with
  | none => .err
  | some m =>
    let magic := uintOf false m
    if magic = moMagicBig then readMoBody true c
    else if magic = moMagic then readMoBody false c
    else .err

/-- `binary.Write` of `uint32(n)` in little-endian order.  For translator/mo.go:214-316. -/
def put32 (n : Nat) : Str :=
  [UInt8.ofNat n, UInt8.ofNat (n / 256), UInt8.ofNat (n / 65536), UInt8.ofNat (n / 16777216)]

/-- `flag` (translator/mo.go:69). -/
def moFlag : Str := b!"ThisFileIsGenerateBy:github.com/youthlin/t" ++ [0]

/-- `offsetO` (translator/mo.go:71). -/
def offsetO : Nat := 28 + 4 + moFlag.length

/-- `writeMoHeader` (translator/mo.go:280-316). -/
def moHeader (count : Nat) : Str :=
  put32 moMagic ++ put32 0 ++ put32 count ++ put32 offsetO ++ put32 (offsetO + count * 8)
    ++ put32 0 ++ put32 0 ++ put32 moFlag.length ++ moFlag

/-- `moMsgID` (translator/mo.go:318-327). -/
def moMsgID (e : Entry) : Str :=
  (if e.ctxt ≠ [] then e.ctxt ++ [4] ++ e.id else e.id) ++ (if e.isPlural then [0] ++ e.id2 else [])

/-- `moMsgStr` (translator/mo.go:329-335). -/
def moMsgStr (e : Entry) : Str :=
  if e.strN.length > 0 then GoStr.join [0] e.strN else e.str

/-- The loops writing a table (translator/mo.go:225-237, 242-254): lengths and offsets of
NUL-terminated strings from `off` on. -/
def writeTable : Nat → List Str → Str
  | _, [] => []
  | off, s :: ss => put32 s.length ++ put32 off ++ writeTable (off + (s.length + 1)) ss

/-- The offset after these NUL-terminated strings (translator/mo.go:236, 253). -/
def offsetAfter : Nat → List Str → Nat
  | off, [] => off
  | off, s :: ss => offsetAfter (off + (s.length + 1)) ss

/-- The loops writing the strings (translator/mo.go:260-274). -/
def writeStrings (ss : List Str) : Str := ss.flatMap fun s => s ++ [0]

/-- `SaveAsMo` (translator/mo.go:214-278) for the entries in the order `SortedEntry` gave. -/
def saveMo (es : List Entry) : Str :=
  let offsetID := offsetO + es.length * 8 * 2
  let ids := es.map moMsgID
  let strs := es.map moMsgStr
  moHeader es.length ++ writeTable offsetID ids ++ writeTable (offsetAfter offsetID ids) strs
    ++ writeStrings ids ++ writeStrings strs

end Verif.Tr
