import Verif.Model.Mo
import Verif.Model.Keyword
/-!
# Where `int` has `w` bits

`int` has 32 or 64 bits, depending on the platform; the other models say 64.  These are the functions whose result depends on it, because
they convert a 64-bit number to `int` or calculate with sizes: the choice of a plural form, the positions of a keyword, and the offsets and
buffers of MO files.  Lengths of strings and slices fit in an `int` and are written as they are.
-/
namespace Verif.Word
open Verif

/-- `int(i)` of an integer, and the result of `+` and `*` on `int`: the low `w` bits with a sign.  For translator/plural.go:34,41,
translator/mo.go:223-253,281 and cmd/xtemplate/internal/keyword.go:60-115. -/
def toInt (w : Nat) (i : Int) : Int := i.bmod (2 ^ w)

/-! ## Plural forms -/

/-- `parsePlural` (translator/plural.go:23-46). -/
def parsePlural (w : Nat) (forms : Str) : Tr.Plural :=
  if forms = [] then { totalForms := 0, expr := none }
  else match Tr.matchPlurals forms with
    | some (d, e) =>
      match Num.parseInt [d] with
      | some total => { totalForms := toInt w total, expr := some e }
      | none => { totalForms := 0, expr := none }
    | none => { totalForms := 0, expr := none }

/-- The function value `plural.fn` (translator/plural.go:20,36-42). -/
def fn (w : Nat) (dg : Plural.Diag) (p : Tr.Plural) (n : Int64) : Res Int :=
  match p.expr with
  | none => .ok (-1)
  | some e =>
    match Plural.eval dg e n with
    | .ok i => .ok (toInt w i.toInt)
    | .err => .ok (-1)
    | .panic => .panic

variable {α : Type}

/-- The choice of a form (translator/file.go:56-65) once the plural rule is known. -/
def chooseForm (w : Nat) (E : Fmt.Env α) (dg : Plural.Diag) (p : Tr.Plural) (e : Tr.Entry) (id id2 : Str)
    (n : Int64) (args : List α) : Res Str :=
  if p.totalForms ≤ 0 then .ok (Fmt.defaultPlural E id id2 n args)
  else (fn w dg p n).bind fun index =>
    if index < 0 ∨ index ≥ p.totalForms ∨ index > e.strN.length then
      .ok (Fmt.defaultPlural E id id2 n args)
    else (Tr.strAt e.strN index).bind fun s =>
      if s = [] then .ok (Fmt.defaultPlural E id id2 n args) else .ok (Fmt.format E s args)

/-- `getPlural` (translator/file.go:125-135) on a file that was filled where `int` has 64 bits: the rule is parsed anew. -/
def rule (w : Nat) (f : Tr.File) : Tr.Plural :=
  match f.plural with
  | some p => { p with totalForms := toInt w p.totalForms }
  | none => parsePlural w ((f.getHeader Tr.hPluralForms).1.getD [])

/-- `(*File).XN64` (translator/file.go:44-66). -/
def xn (w : Nat) (E : Fmt.Env α) (dg : Plural.Diag) (f : Tr.File) (ctxt id id2 : Str) (n : Int64) (args : List α) : Res Str :=
  match f.entries.get? (Tr.key ctxt id) with
  | none => .ok (Fmt.defaultPlural E id id2 n args)
  | some e =>
    if e.id2 = [] ∧ e.strN.length = 0 then .ok (if e.str ≠ [] then Fmt.format E e.str args else Fmt.format E id args)
    else chooseForm w E dg (rule w f) e id id2 n args

/-! ## Keywords -/

/-- The switch on the number of positions (cmd/xtemplate/internal/keyword.go:54-118). -/
def parsePositions (w : Nat) (k : Xt.Keyword) (index : List Str) : Option Xt.Keyword :=
  match index with
  | [i1] =>
    match Num.parseInt i1 with
    | none => none
    | some i => some { k with msgID := toInt w i }
  | [i1, i2] =>
    if GoStr.hasSuffix i1 b!"c" then
      match Num.parseInt (i1.take (i1.length - 1)) with
      | none => none
      | some c =>
        match Num.parseInt i2 with
        | none => none
        | some i => some { k with msgCtxt := toInt w c, msgID := toInt w i }
    else
      match Num.parseInt i1 with
      | none => none
      | some i =>
        match Num.parseInt i2 with
        | none => none
        | some j => some { k with msgID := toInt w i, msgID2 := toInt w j }
  | [i1, i2, i3] =>
    if !GoStr.hasSuffix i1 b!"c" then none
    else
      match Num.parseInt (i1.take (i1.length - 1)) with
      | none => none
      | some c =>
        match Num.parseInt i2 with
        | none => none
        | some i =>
          match Num.parseInt i3 with
          | none => none
          | some j => some { k with msgCtxt := toInt w c, msgID := toInt w i, msgID2 := toInt w j }
  | _ => none

/-- The body of the loop of `ParseKeywords` for one item (cmd/xtemplate/internal/keyword.go:26-119). -/
def parseKeyword (w : Nat) (item : Str) : Option Xt.Keyword :=
  match GoStr.splitByte 58 (GoStr.trimSpace item) with
  | [n] =>
    let name := GoStr.trimSpace n
    if name = [] then none else some { name := name, msgID := 1 }
  | [n, ps] =>
    let name := GoStr.trimSpace n
    if name = [] then none
    else parsePositions w { name := name } ((GoStr.splitByte 44 ps).map GoStr.trimSpace)
  | _ => none

/-- The loop of `ParseKeywords` (cmd/xtemplate/internal/keyword.go:25-120). -/
def parseItems (w : Nat) : List Str → Option (List Xt.Keyword)
  | [] => some []
  | item :: items =>
    match parseKeyword w item with
    | none => none
    | some k =>
      match parseItems w items with
      | none => none
      | some ks => some (k :: ks)

/-- `ParseKeywords` (cmd/xtemplate/internal/keyword.go:22-122). -/
def parseKeywords (w : Nat) (s : Str) : Option (List Xt.Keyword) := parseItems w (GoStr.splitByte 59 s)

/-! ## MO files -/

/-- `binary.Write` of `uint32(i)` of an `int` (translator/mo.go:229-250, 291-299). -/
def put (i : Int) : Str := Tr.put32 (i % 2 ^ 32).toNat

/-- `writeMoHeader` (translator/mo.go:280-316); `offsetT` wraps around. -/
def moHeader (w : Nat) (count : Nat) : Str :=
  let offsetT := toInt w (Tr.offsetO + toInt w (count * 8))
  Tr.put32 Tr.moMagic ++ Tr.put32 0 ++ put count ++ put Tr.offsetO ++ put offsetT
    ++ Tr.put32 0 ++ Tr.put32 0 ++ Tr.put32 Tr.moFlag.length ++ Tr.moFlag

/-- The loops writing a table (translator/mo.go:225-237, 242-254). -/
def writeTable (w : Nat) : Int → List Str → Str
  | _, [] => []
  | off, s :: ss => put s.length ++ put off ++ writeTable w (toInt w (off + toInt w (s.length + 1))) ss

/-- The offset after these NUL-terminated strings (translator/mo.go:236, 253). -/
def offsetAfter (w : Nat) : Int → List Str → Int
  | off, [] => off
  | off, s :: ss => offsetAfter w (toInt w (off + toInt w (s.length + 1))) ss

/-- `SaveAsMo` (translator/mo.go:214-278) for the entries in the order `SortedEntry` gave. -/
def saveMo (w : Nat) (es : List Tr.Entry) : Str :=
  let offsetID := toInt w (Tr.offsetO + toInt w (toInt w (es.length * 8) * 2))
  let ids := es.map Tr.moMsgID
  let strs := es.map Tr.moMsgStr
  moHeader w es.length ++ writeTable w offsetID ids ++ writeTable w (offsetAfter w offsetID ids) strs
    ++ Tr.writeStrings ids ++ Tr.writeStrings strs

/-- `make([]byte, n)` (translator/mo.go:160, 171) panics if the length does not fit in an `int`. -/
def canMake (w n : Nat) : Bool := n < 2 ^ (w - 1)

/-- The loop over the messages (translator/mo.go:154-194). -/
def readMsgs (w : Nat) (c : Str) (ids strs : List Tr.LenOff) : Nat → Nat → Tr.File → Res Tr.File
  | _, 0, f => .ok f
  | i, k + 1, f =>
    match ids[i]? with
    | none => .panic
    | some a =>
      if !canMake w a.len then .panic
      else match Tr.readFull c a.off a.len with
        | none => .err
        | some id =>
          match strs[i]? with
          | none => .panic
          | some b =>
            if !canMake w b.len then .panic
            else match Tr.readFull c b.off b.len with
              | none => .err
              | some str => readMsgs w c ids strs (i + 1) k (f.addEntry (Tr.moEntry id str))

/-- `ReadMo` after the magic number (translator/mo.go:110-195). -/
def readMoBody (w : Nat) (be : Bool) (c : Str) : Res Tr.File :=
  match Tr.readFull c 4 24 with
  | none => .err
  | some h =>
    let major := Tr.uintOf be (h.take 2)
    let minor := Tr.uintOf be ((h.drop 2).take 2)
    let n := Tr.uintOf be ((h.drop 4).take 4)
    let offsetID := Tr.uintOf be ((h.drop 8).take 4)
    let offsetStr := Tr.uintOf be ((h.drop 12).take 4)
    if major ≠ 0 ∧ major ≠ 1 then .err
    else if minor ≠ 0 ∧ minor ≠ 1 then .err
    else match Tr.readTable be c offsetID n with
      | none => .err
      | some ids =>
        match Tr.readTable be c offsetStr n with
        | none => .err
        | some strs => readMsgs w c ids strs 0 n {}

/-- `ReadMo` (translator/mo.go:92-196). -/
def readMo (w : Nat) (c : Str) : Res Tr.File :=
  match Tr.readFull c 0 4 with
  | none => .err
  | some m =>
    let magic := Tr.uintOf false m
    if magic = Tr.moMagicBig then readMoBody w true c
    else if magic = Tr.moMagic then readMoBody w false c
    else .err

end Verif.Word
