import Verif.Model.GoStr
import Verif.Model.Num
import Verif.Model.Fmt
import Verif.Model.Plural
/-!
# Translation files: entries, headers, lookups (translator/file.go, entry.go, plural.go, util.go)

Simplified: entries are values (the code stores `*Entry`; it never modifies an entry after
`AddEntry`, and neither may the caller); a nil map and an empty map are the same association list;
`int` has 64 bits.
-/
namespace Verif.Tr
open Verif

/-- `Entry` (translator/entry.go:10-18). -/
structure Entry where
  cmts : List Str := []
  ctxt : Str := []
  id : Str := []
  isPlural : Bool := false
  id2 : Str := []
  str : Str := []
  strN : List Str := []
  deriving DecidableEq, Repr

/-- `key` (translator/util.go:9-11); `eot` is byte 4 (translator/mo.go:66). -/
def key (ctxt id : Str) : Str := ctxt ++ [4] ++ id

/-- `(*Entry).Key` (translator/entry.go:21-23). -/
def Entry.key (e : Entry) : Str := Tr.key e.ctxt e.id

/-- `(*Entry).isHeader` (translator/entry.go:26-28). -/
def Entry.isHeader (e : Entry) : Bool := e.id = []

/-- `(*Entry).isValid` on a non-nil entry (translator/entry.go:31-34). -/
def Entry.isValid (e : Entry) : Bool := e.str ≠ [] || e.strN.length > 0

/-- One element of a reference (translator/entry.go:56-62): numbers are padded to ten columns. -/
def lineItem (n : Str) : Str :=
  match Num.parseInt n with
  | none => n
  | some i => Num.pad10 i

/-- One comment line of `getLineString` (translator/entry.go:47-67): the pieces it contributes. -/
def cmtPieces (cmt : Str) : List Str :=
  if GoStr.hasPrefix cmt b!"#:" then
    b!"#:" :: (GoStr.splitByte 32 (GoStr.trimPrefix cmt b!"#:")).flatMap fun item =>
      (GoStr.splitByte 58 item).map lineItem
  else []

/-- `(*Entry).getLineString` (translator/entry.go:45-70). -/
def Entry.lineString (e : Entry) : Str := GoStr.join [] (e.cmts.flatMap cmtPieces)

/-- `(*Entry).getSortKey` (translator/entry.go:37-42). -/
def Entry.sortKey (e : Entry) : Str :=
  if e.isHeader then [] else e.lineString ++ e.key

/-- `plural` (translator/plural.go:12-16).  The function value is represented by the expression it
closes over; `none` is `invalidPluralFn`. -/
structure Plural where
  totalForms : Int
  expr : Option Str
  deriving DecidableEq, Repr

/-- `\s` of Go regular expressions.  For translator/plural.go:19. -/
def isReWs (c : UInt8) : Bool := c == 9 || c == 10 || c == 12 || c == 13 || c == 32

/-- Match a literal at the head.  For translator/plural.go:19. -/
def stripLit : Str → Str → Option Str
  | [], s => some s
  | _ :: _, [] => none
  | c :: l, d :: s => if c = d then stripLit l s else none

/-- `\s*` followed by a literal.  For translator/plural.go:19. -/
def wsLit (l s : Str) : Option Str := stripLit l (s.dropWhile isReWs)

/-- `(.*)\s*;$` on the rest of the text: the longest group 1.  For translator/plural.go:19. -/
def exprTail (s : Str) : Option Str :=
  match s.reverse with
  | 59 :: r =>
    let t := r.reverse
    if (t.dropWhile (· != 10)).all isReWs then some (t.takeWhile (· != 10)) else none
  | _ => none

/-- `rePlurals.FindAllStringSubmatch` (translator/plural.go:19,29): the digit and the expression. -/
def matchPlurals (s : Str) : Option (UInt8 × Str) :=
  (wsLit b!"nplurals" s).bind fun s =>
  (wsLit b!"=" s).bind fun s =>
  match s.dropWhile isReWs with
  | [] => none
  | d :: s =>
    if Num.isDigit d then
      (wsLit b!";" s).bind fun s =>
      (wsLit b!"plural" s).bind fun s =>
      (wsLit b!"=" s).bind fun s =>
      (exprTail (s.dropWhile isReWs)).map fun e => (d, e)
    else none

/-- `parsePlural` (translator/plural.go:23-46). -/
def parsePlural (forms : Str) : Plural :=
  if forms = [] then { totalForms := 0, expr := none }
  else match matchPlurals forms with
    | some (d, e) =>
      match Num.parseInt [d] with
      | some total => { totalForms := total, expr := some e }
      | none => { totalForms := 0, expr := none }
    | none => { totalForms := 0, expr := none }

/-- The function value `plural.fn` (translator/plural.go:20,36-42). -/
def Plural.fn (dg : Plural.Diag) (p : Plural) (n : Int64) : Res Int :=
  match p.expr with
  | none => .ok (-1)
  | some e =>
    match Plural.eval dg e n with
    | .ok i => .ok i.toInt
    | .err => .ok (-1)
    | .panic => .panic

/-- `File` (translator/file.go:22-26); `none` is a nil map or pointer. -/
structure File where
  entries : GMap Entry := []
  headers : Option (GMap Str) := none
  plural : Option Plural := none
  deriving DecidableEq, Repr

/-- The keys of the two headers the code looks at (translator/file.go:12-15). -/
def hPluralForms : Str := b!"Plural-Forms"
/-- See `hPluralForms`. -/
def hLanguage : Str := b!"Language"

/-- `reHeader.FindAllStringSubmatch` (translator/file.go:19,109) on a line without newline: split at
the first `": "`.  The match ends at the end of the line, so there is at most one. -/
def cutHeader : Str → Option (Str × Str)
  | [] => none
  | [_] => none
  | a :: b :: s =>
    if a = 58 ∧ b = 32 then some ([], s)
    else (cutHeader (b :: s)).map fun p => (a :: p.1, p.2)

/-- One line of the header text (translator/file.go:105-119). -/
def headerLine (h : GMap Str) (kv : Str) : GMap Str :=
  if kv = [] then h
  else match cutHeader kv with
    | none => h
    | some (k, v) =>
      let k := GoStr.trimSpace k
      let v := GoStr.trimSpace v
      match h.get? k with
      | some _ => h
      | none => h.set k v

/-- The loop of `initHeader` (translator/file.go:104-120). -/
def parseHeaders (msgStr : Str) : GMap Str := (GoStr.splitByte 10 msgStr).foldl headerLine []

/-- `(*File).initHeader` (translator/file.go:100-123). -/
def File.initHeader (f : File) : File :=
  match f.headers with
  | some _ => f
  | none =>
    match f.entries.get? (key [] []) with
    | some e => { f with headers := some (parseHeaders e.str) }
    | none => { f with headers := some [] }

/-- `(*File).GetHeader` (translator/file.go:94-98); `none` is `"", false`. -/
def File.getHeader (f : File) (k : Str) : Option Str × File :=
  let f := f.initHeader
  ((f.headers.getD []).get? k, f)

/-- `(*File).initPlural` (translator/file.go:130-135). -/
def File.initPlural (f : File) : File :=
  match f.plural with
  | some _ => f
  | none =>
    let (v, f) := f.getHeader hPluralForms
    { f with plural := some (parsePlural (v.getD [])) }

/-- `(*File).Lang` (translator/file.go:29-32). -/
def File.lang (f : File) : Str × File :=
  let (v, f) := f.getHeader hLanguage
  (v.getD [], f)

/-- `(*File).AddEntry` of a non-nil entry (translator/file.go:82-91). -/
def File.addEntry (f : File) (e : Entry) : File :=
  let f := { f with entries := f.entries.set e.key e }
  if e.isHeader then f.initHeader.initPlural else f

variable {α : Type}

/-- `(*File).X` (translator/file.go:35-41). -/
def File.x (E : Fmt.Env α) (f : File) (ctxt id : Str) (args : List α) : Str :=
  match f.entries.get? (key ctxt id) with
  | none => Fmt.format E id args
  | some e => if e.str = [] then Fmt.format E id args else Fmt.format E e.str args

/-- `entry.MsgStrN[index]` for a non-negative index; panics when out of range.  For translator/file.go:44-66. -/
def strAt (l : List Str) (i : Int) : Res Str :=
  match l[i.toNat]? with
  | some s => .ok s
  | none => .panic

/-- The choice of a form (translator/file.go:56-65) once the plural rule is known. -/
def chooseForm (E : Fmt.Env α) (dg : Plural.Diag) (p : Plural) (e : Entry) (id id2 : Str)
    (n : Int64) (args : List α) : Res Str :=
  if p.totalForms ≤ 0 then .ok (Fmt.defaultPlural E id id2 n args)
  else (p.fn dg n).bind fun index =>
    if index < 0 ∨ index ≥ p.totalForms ∨ index > e.strN.length then
      .ok (Fmt.defaultPlural E id id2 n args)
    else (strAt e.strN index).bind fun s =>
      if s = [] then .ok (Fmt.defaultPlural E id id2 n args) else .ok (Fmt.format E s args)

/-- `(*File).XN64` (translator/file.go:44-66). -/
def File.xn (E : Fmt.Env α) (dg : Plural.Diag) (f : File) (ctxt id id2 : Str) (n : Int64)
    (args : List α) : Res Str × File :=
  match f.entries.get? (key ctxt id) with
  | none => (.ok (Fmt.defaultPlural E id id2 n args), f)
  | some e =>
    if e.id2 = [] ∧ e.strN.length = 0 then
      (.ok (if e.str ≠ [] then Fmt.format E e.str args else Fmt.format E id args), f)
    else
      let f := f.initPlural
      (chooseForm E dg (f.plural.getD { totalForms := 0, expr := none }) e id id2 n args, f)

end Verif.Tr
