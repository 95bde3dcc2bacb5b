import Verif.Model.Po
/-!
# The messages of the PO reader (translator/po.go, reader.go, errors/errors.go)

What `err.Error()` returns for the error of `ReadPo`.  `fmt.Errorf` puts the texts of its operands one after the other;
`%d` of the line number is `Num.intDigits`.  `strconv.Unquote` fails with "invalid syntax" only.
-/
namespace Verif.Tr
open Verif

/-- `errors.WithSecondaryError(errInvalidEntry, errors.Wrapf(err, "unquote " + what + " failed|line %d: %s", no, line))`
(translator/po.go:133-134, 150-151, 165-166, 179-180, 193-194, 207-208; errors/errors.go:12-19). -/
def quoteText (what : Str) (no : Int) (line : Str) : Str :=
  b!"invalid entry" ++ b!": " ++ (b!"unquote " ++ what ++ b!" failed|line " ++ Num.intDigits no ++ b!": " ++ line ++ b!": " ++
    b!"invalid syntax")

/-- `errors.WithSecondaryError(errInvalidEntry, errors.Errorf("unexpected line %d: %s", no, line))`
(translator/po.go:222-223). -/
def junkText (no : Int) (line : Str) : Str :=
  b!"invalid entry" ++ b!": " ++ (b!"unexpected line " ++ Num.intDigits no ++ b!": " ++ line)

/-- The message for a keyword line, if its text cannot be unquoted.  For translator/po.go:125-200. -/
def keywordText (line pre what : Str) (no : Int) : Option Str :=
  match removePrefixAndUnquote line pre with
  | some _ => none
  | none => some (quoteText what no line)

/-- `previousLineState` as it is printed (translator/po.go:79-85). -/
def PState.name : PState → Str
  | .start => []
  | .ctxt => b!"ctxt"
  | .id2 => b!"msgid_plural"
  | .id => b!"msgid"
  | .strN => b!"msgstr[]"
  | .str => b!"msgstr"

/-- The message of the loop body of `readEntry` for one line (translator/po.go:109-224), if it returns an error. -/
def stepText (e : Entry) (st : PState) (line : Str) (no : Int) : Option Str :=
  if GoStr.trimSpace line = [] then none
  else if GoStr.hasPrefix line b!"#" then none
  else if GoStr.hasPrefix line b!"msgctxt " then
    if st ≠ .start then none else keywordText line b!"msgctxt " b!"msgctxt" no
  else if GoStr.hasPrefix line b!"msgid_plural " then
    if st = .id2 ∨ st = .str ∨ st = .strN then none else keywordText line b!"msgid_plural " b!"msgid_plural" no
  else if GoStr.hasPrefix line b!"msgid " then
    if st = .id ∨ st = .id2 ∨ st = .str ∨ st = .strN then none else keywordText line b!"msgid " b!"msgid" no
  else if GoStr.hasPrefix line (formPrefix e) then
    if st = .str then none else keywordText line (formPrefix e) (formPrefix e) no
  else if GoStr.hasPrefix line b!"msgstr " then
    if st = .strN then none else keywordText line b!"msgstr " b!"msgstr" no
  else if GoStr.hasPrefix line b!"\"" then keywordText line [] st.name no
  else some (junkText no line)

/-- The message of `readEntry` (translator/po.go:78-226) from the point where `e` and `st` have been reached, if it
returns an error other than `io.EOF`. -/
def Reader.entryText (r : Reader) (e : Entry) (st : PState) : Option Str :=
  match _h : r.nextLine with
  | (.line line, r) =>
    match step e st line with
    | .cont e st => r.entryText e st
    | .bad _ => stepText e st line r.lineNo
    | .done => none
    | .panic => none
  | (.eof, _) => none
  | (.err, _) => some (b!"invalid entry" ++ b!": " ++ (b!"read entry failed" ++ b!": " ++ b!"you should call nextLine() first"))
  | (.panic, _) => none
  termination_by (r.lines.length - r.lineNo).toNat
  decreasing_by
    have := Reader.nextLine_line _ _ _ _h
    rw [this.1]
    omega

/-- The message of the loop of `readPo` (translator/po.go:34-45). -/
def Reader.loopText (r : Reader) : Option Str :=
  match _h : r.readEntry {} .start with
  | .eof _ => none
  | .entry _ r => r.loopText
  | .bad _ => r.entryText {} .start
  | .panic => none
  termination_by (r.lines.length - r.lineNo).toNat
  decreasing_by
    have := Reader.readEntry_le _ _ _ _ _ _h
    rw [this.1]
    have h2 := this.2.2.2 rfl
    omega

/-- The message of `ReadPo` (translator/po.go:18-46), if it returns an error. -/
def readPoText (content : Str) : Option Str :=
  if content = [] then some (b!"read po file failed" ++ b!": " ++ b!"empty po file")
  else (newReader (GoStr.splitByte 10 (GoStr.removeByte 13 content))).loopText

end Verif.Tr
