import Verif.Model.File
import Verif.Model.Quote
import Verif.Model.Errors
/-!
# PO files: reading and writing (translator/reader.go, po.go, pot.go, wrap.go, util.go)

Simplified: error messages are modelled apart, in `Model/PoError.lean`; writing is to a
`bytes.Buffer`, and the write of the buffer to the caller's writer succeeds.
-/
namespace Verif.Tr
open Verif

/-- `split0` (translator/wrap.go:15-35).  It recurses on strictly shorter texts. -/
def split0 (long : Str) (threshold : Int) (depth : Nat) : List Str :=
  let byBlank : List Str :=
    if (long.length : Int) ≤ threshold then [long]
    else match GoStr.lastIndexByte 32 long with
      | some i =>
        if _hi : i + 1 < long.length then
          split0 (long.take (i + 1)) threshold (depth + 1) ++ [long.drop (i + 1)]
        else [long]
      | none => [long]
  match GoStr.indexByte 10 long with
  | some i =>
    if _hi : i + 1 < long.length then
      (if depth = 0 then [[], long.take (i + 1)] else [long.take (i + 1)])
        ++ split0 (long.drop (i + 1)) threshold (depth + 1)
    else byBlank
  | none => byBlank
  termination_by long.length
  decreasing_by
    all_goals simp only [List.length_take, List.length_drop]
    all_goals omega

/-- `split` (translator/wrap.go:10-12). -/
def split (long : Str) (threshold : Int) : List Str := split0 long threshold 0

/-- `lineThreshold` (translator/wrap.go:7). -/
def lineThreshold : Int := 77

/-- `writeString` (translator/pot.go:17-22). -/
def writeString (P : Nat → Bool) (key content : Str) : Str :=
  key ++ [32] ++ (split content lineThreshold).flatMap fun line => Quote.quote P line ++ [10]

/-- `fmt.Sprintf(msgstrN, i)` (translator/pot.go:14, po.go:67). -/
def msgstrN (i : Nat) : Str := b!"msgstr[" ++ Num.natDigits i ++ b!"]"

/-- The comment lines of an entry (translator/po.go:52-55, pot.go:28-31). -/
def writeComments (e : Entry) : Str := e.cmts.flatMap fun c => c ++ [10]

/-- The loop over `MsgStrN` (translator/po.go:66-68), starting at index `i`. -/
def writeForms (P : Nat → Bool) : Nat → List Str → Str
  | _, [] => []
  | i, s :: ss => writeString P (msgstrN i) s ++ writeForms P (i + 1) ss

/-- One entry of `SaveAsPo` (translator/po.go:52-69). -/
def poEntry (P : Nat → Bool) (e : Entry) : Str :=
  writeComments e
    ++ (if e.ctxt ≠ [] then writeString P b!"msgctxt" e.ctxt else [])
    ++ writeString P b!"msgid" e.id
    ++ (if e.isPlural then writeString P b!"msgid_plural" e.id2 else [])
    ++ (if e.str ≠ [] then writeString P b!"msgstr" e.str else [])
    ++ writeForms P 0 e.strN
    ++ [10]

/-- `SaveAsPo` (translator/po.go:49-73) for the entries in the order `SortedEntry` gave. -/
def savePo (P : Nat → Bool) (es : List Entry) : Str := es.flatMap (poEntry P)

/-- One entry of `SaveAsPot` (translator/pot.go:28-48). -/
def potEntry (P : Nat → Bool) (e : Entry) : Str :=
  writeComments e
    ++ (if e.ctxt ≠ [] then writeString P b!"msgctxt" e.ctxt else [])
    ++ writeString P b!"msgid" e.id
    ++ (if e.isPlural then
          writeString P b!"msgid_plural" e.id2 ++ writeString P (msgstrN 0) []
            ++ writeString P (msgstrN 1) []
        else if e.id = [] then writeString P b!"msgstr" e.str
        else writeString P b!"msgstr" [])
    ++ [10]

/-- `SaveAsPot` (translator/pot.go:25-52) for the entries in the order `SortedEntry` gave. -/
def savePot (P : Nat → Bool) (es : List Entry) : Str := es.flatMap (potEntry P)

/-- `SortedEntry` (translator/file.go:69-79): `sort.Slice` returns some arrangement of the entries, in
whatever order the map was ranged over, in which no entry has a smaller sort key than one before it.
The sort is not stable, so nothing more is known. -/
def SortedEntry (f : File) (es : List Entry) : Prop :=
  es.Perm f.entries.vals ∧ es.Pairwise fun a b => ¬ b.sortKey < a.sortKey

/-- `reader` (translator/reader.go:9-21); `totalLine` is the number of lines. -/
structure Reader where
  lines : List Str
  lineNo : Int

/-- `newReader` (translator/reader.go:15-21). -/
def newReader (lines : List Str) : Reader := { lines := lines, lineNo := -1 }

/-- Result of reading a line: the line, `io.EOF`, another error, or an index panic.  For translator/reader.go:9-44. -/
inductive LineRes where
  | line (s : Str)
  | eof
  | err
  | panic
  deriving DecidableEq, Repr

/-- `currentLine` (translator/reader.go:23-31). -/
def Reader.currentLine (r : Reader) : LineRes :=
  if r.lineNo < 0 then .err
  else if r.lineNo ≥ r.lines.length then .eof
  else match r.lines[r.lineNo.toNat]? with
    | some s => .line s
    | none => .panic

/-- `nextLine` (translator/reader.go:33-36). -/
def Reader.nextLine (r : Reader) : LineRes × Reader :=
  let r := { r with lineNo := r.lineNo + 1 }
  (r.currentLine, r)

/-- `unGetLine` (translator/reader.go:38-44); its error is ignored by the callers. -/
def Reader.unGetLine (r : Reader) : Reader :=
  if r.lineNo < 0 then r else { r with lineNo := r.lineNo - 1 }

/-- The lines not read yet.  For translator/reader.go:9-44. -/
def Reader.rest (r : Reader) : List Str := r.lines.drop (r.lineNo + 1).toNat

/-- `previousLineState` (translator/po.go:79-98). -/
inductive PState where
  | start | ctxt | id2 | id | strN | str
  deriving DecidableEq, Repr

/-- `removePrefixAndUnquote` (translator/util.go:14-18). -/
def removePrefixAndUnquote (line pre : Str) : Option Str :=
  Quote.unquote (GoStr.trimSpace (GoStr.trimPrefix line pre))

/-- What one line does to the entry being read: go on, the entry ended before this line, an error, or
a panic.  For translator/po.go:78-226. -/
inductive Step where
  | cont (e : Entry) (st : PState)
  | done
  | bad (err : Errors.Err)
  | panic

/-- The error for a string that cannot be unquoted (translator/po.go:133 and others). -/
def badQuote : Errors.Err :=
  Errors.withSecondary (Errors.sentinel Errors.invalidEntry)
    (Errors.wrapf (Errors.sentinel Errors.syntaxErr))

/-- The error for an unexpected line (translator/po.go:222-223). -/
def badLine : Errors.Err :=
  Errors.withSecondary (Errors.sentinel Errors.invalidEntry) Errors.errorf

/-- A keyword line that belongs to the entry being read.  For translator/po.go:125-200. -/
def keywordLine (line pre : Str) (k : Str → Step) : Step :=
  match removePrefixAndUnquote line pre with
  | some data => k data
  | none => .bad badQuote

/-- `prefix` for the next plural form (translator/po.go:171). -/
def formPrefix (e : Entry) : Str := msgstrN e.strN.length ++ [32]

/-- `entry.MsgStrN[len(entry.MsgStrN)-1] += data` (translator/po.go:217); `none` is an index panic. -/
def appendLast (l : List Str) (data : Str) : Option (List Str) :=
  match l.reverse with
  | [] => none
  | s :: r => some ((s ++ data) :: r).reverse

/-- A quoted continuation line (translator/po.go:203-220). -/
def contLine (e : Entry) (st : PState) (line : Str) : Step :=
  match removePrefixAndUnquote line [] with
  | none => .bad badQuote
  | some data =>
    match st with
    | .start => .cont e st
    | .ctxt => .cont { e with ctxt := e.ctxt ++ data } st
    | .id2 => .cont { e with id2 := e.id2 ++ data } st
    | .id => .cont { e with id := e.id ++ data } st
    | .strN =>
      match appendLast e.strN data with
      | some l => .cont { e with strN := l } st
      | none => .panic
    | .str => .cont { e with str := e.str ++ data } st

/-- The body of the loop of `readEntry` for one line (translator/po.go:109-224). -/
def step (e : Entry) (st : PState) (line : Str) : Step :=
  if GoStr.trimSpace line = [] then .cont e st
  else if GoStr.hasPrefix line b!"#" then
    if st ≠ .start then .done else .cont { e with cmts := e.cmts ++ [line] } st
  else if GoStr.hasPrefix line b!"msgctxt " then
    if st ≠ .start then .done
    else keywordLine line b!"msgctxt " fun d => .cont { e with ctxt := e.ctxt ++ d } .ctxt
  else if GoStr.hasPrefix line b!"msgid_plural " then
    if st = .id2 ∨ st = .str ∨ st = .strN then .done
    else keywordLine line b!"msgid_plural " fun d =>
      .cont { e with id2 := e.id2 ++ d, isPlural := true } .id2
  else if GoStr.hasPrefix line b!"msgid " then
    if st = .id ∨ st = .id2 ∨ st = .str ∨ st = .strN then .done
    else keywordLine line b!"msgid " fun d => .cont { e with id := e.id ++ d } .id
  else if GoStr.hasPrefix line (formPrefix e) then
    if st = .str then .done
    else keywordLine line (formPrefix e) fun d => .cont { e with strN := e.strN ++ [d] } .strN
  else if GoStr.hasPrefix line b!"msgstr " then
    if st = .strN then .done
    else keywordLine line b!"msgstr " fun d => .cont { e with str := e.str ++ d } .str
  else if GoStr.hasPrefix line b!"\"" then contLine e st line
  else .bad badLine

/-- Result of `readEntry`: the last entry and `io.EOF`, an entry, an error (with a nil entry), or a
panic; with the reader as it is left.  For translator/po.go:78-226. -/
inductive ReadRes where
  | eof (e : Entry)
  | entry (e : Entry) (r : Reader)
  | bad (err : Errors.Err)
  | panic

/-- The error for a line that cannot be read (translator/po.go:107-108); reading a line fails only
before the first line. -/
def badRead : Errors.Err :=
  Errors.withSecondary (Errors.sentinel Errors.invalidEntry) (Errors.wrapf Errors.errorf)

/-- A line was read. -/
theorem Reader.nextLine_line (r r' : Reader) (s : Str) (h : r.nextLine = (.line s, r')) :
    r'.lines = r.lines ∧ r'.lineNo = r.lineNo + 1 ∧ 0 ≤ r'.lineNo ∧ r'.lineNo < r.lines.length := by
  obtain ⟨lines, no⟩ := r
  simp only [Reader.nextLine, Reader.currentLine, Prod.mk.injEq] at h
  obtain ⟨h1, rfl⟩ := h
  split at h1
  · cases h1
  · split at h1
    · cases h1
    · exact ⟨rfl, rfl, by simp only; omega, by simp only; omega⟩

/-- `readEntry` (translator/po.go:78-226) from the point where `e` and `st` have been reached. -/
def Reader.readEntry (r : Reader) (e : Entry) (st : PState) : ReadRes :=
  match _h : r.nextLine with
  | (.line line, r) =>
    match step e st line with
    | .cont e st => r.readEntry e st
    | .done => .entry e r.unGetLine
    | .bad err => .bad err
    | .panic => .panic
  | (.eof, _) => .eof e
  | (.err, _) => .bad badRead
  | (.panic, _) => .panic
  termination_by (r.lines.length - r.lineNo).toNat
  decreasing_by
    have := Reader.nextLine_line _ _ _ _h
    rw [this.1]
    omega

theorem step_start_not_done (e : Entry) (line : Str) : step e .start line ≠ .done := by
  unfold step keywordLine contLine
  repeat' split
  all_goals simp_all

/-- Every entry but the last consumes a line. -/
theorem Reader.readEntry_le (r : Reader) (e : Entry) (st : PState) (e' : Entry) (r' : Reader)
    (h : r.readEntry e st = .entry e' r') :
    r'.lines = r.lines ∧ r'.lineNo < r.lines.length ∧ r.lineNo ≤ r'.lineNo ∧
      (st = .start → r.lineNo < r'.lineNo) := by
  induction hn : (r.lines.length - r.lineNo).toNat using Nat.strongRecOn generalizing r e st with
  | _ n ih =>
    rw [Reader.readEntry] at h
    split at h
    · rename_i line r1 hl
      obtain ⟨h1, h2, h3, h4⟩ := Reader.nextLine_line _ _ _ hl
      split at h
      · have := ih _ (by rw [h1]; omega) _ _ _ h rfl
        rw [h1] at this
        refine ⟨this.1, this.2.1, by omega, by intro _; omega⟩
      · rename_i hd
        cases h
        have h5 : ¬ r1.lineNo < 0 := by omega
        simp only [Reader.unGetLine, if_neg h5]
        refine ⟨h1, by omega, by omega, ?_⟩
        rintro rfl
        exact absurd hd (step_start_not_done _ _)
      · cases h
      · cases h
    · cases h
    · cases h
    · cases h

/-- `if pot || entry.isValid() { file.AddEntry(entry) }` (translator/po.go:36-38). -/
def addRead (pot : Bool) (f : File) (e : Entry) : File :=
  if pot || e.isValid then f.addEntry e else f

/-- The loop of `readPo` (translator/po.go:34-45).  With an error the entry is nil: `AddEntry(nil)`
panics, `isValid` of nil is false. -/
def Reader.readLoop (pot : Bool) (r : Reader) (f : File) : Res File :=
  match _h : r.readEntry {} .start with
  | .eof e => .ok (addRead pot f e)
  | .entry e r => r.readLoop pot (addRead pot f e)
  | .bad err => if pot then .panic else if Errors.is Errors.eof err then .ok f else .err
  | .panic => .panic
  termination_by (r.lines.length - r.lineNo).toNat
  decreasing_by
    have := Reader.readEntry_le _ _ _ _ _ _h
    rw [this.1]
    have h2 := this.2.2.2 rfl
    omega

/-- `readPo` (translator/po.go:26-46). -/
def readPo0 (pot : Bool) (content : Str) : Res File :=
  if content = [] then .err
  else (newReader (GoStr.splitByte 10 (GoStr.removeByte 13 content))).readLoop pot {}

/-- `ReadPo` (translator/po.go:18-20). -/
def readPo (content : Str) : Res File := readPo0 false content

/-- `ReadPot` (translator/po.go:22-24). -/
def readPot (content : Str) : Res File := readPo0 true content

end Verif.Tr
