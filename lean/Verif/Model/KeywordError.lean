import Verif.Model.Keyword
import Verif.Model.Quote
import Verif.Model.Fmt
/-!
# The messages about keyword declarations (cmd/xtemplate/internal/keyword.go)

What `err.Error()` returns for the error of `ParseKeywords`.  `errors.Errorf` and `errors.Wrapf` (cockroachdb/errors) are
taken to be `fmt.Sprintf` of their format and arguments, for the latter followed by `": "` and the text of the cause; the
stack trace and the redaction of that package are not part of `Error()`.  `T` is the function `t.T`.
-/
namespace Verif.Xt
open Verif

/-- What `strconv.ParseInt` returns.  For cmd/xtemplate/internal/keyword.go:22-122. -/
inductive IntRes where
  | ok (i : Int)
  | malformed
  | range
  deriving DecidableEq, Repr

/-- The digit loop of `strconv.ParseUint(s, 10, 64)`.  For cmd/xtemplate/internal/keyword.go:22-122. -/
def uintLoop (n : Nat) : Str → IntRes
  | [] => .ok n
  | c :: s =>
    if !Num.isDigit c then .malformed
    else if 18446744073709551615 / 10 + 1 ≤ n then .range
    else
      let n1 := n * 10 + (c.toNat - 48)
      if 18446744073709551615 < n1 then .range else uintLoop n1 s

/-- `strconv.ParseInt(s, 10, 64)` behind the sign.  For cmd/xtemplate/internal/keyword.go:22-122. -/
def signedRes (neg : Bool) (ds : Str) : IntRes :=
  match (if ds = [] then .malformed else uintLoop 0 ds) with
  | .malformed => .malformed
  | .range => .range
  | .ok un =>
    if !neg && 9223372036854775808 ≤ un then .range
    else if neg && 9223372036854775808 < un then .range
    else .ok (if neg then - un else un)

/-- `strconv.ParseInt(s, 10, 64)`.  For cmd/xtemplate/internal/keyword.go:22-122. -/
def parseIntRes (s : Str) : IntRes :=
  match s with
  | [] => .malformed
  | c :: ds =>
    if c = 43 then signedRes false ds
    else if c = 45 then signedRes true ds
    else signedRes false (c :: ds)

/-- `(*strconv.NumError).Error`; `P` is `unicode.IsPrint`.  For cmd/xtemplate/internal/keyword.go:22-122. -/
def numError (P : Nat → Bool) (s reason : Str) : Str :=
  b!"strconv." ++ b!"ParseInt" ++ b!": " ++ b!"parsing " ++ Quote.quote P s ++ b!": " ++ reason

/-- The text of the error of `strconv.ParseInt(s, 10, 64)`, if it returns one.  For cmd/xtemplate/internal/keyword.go:22-122. -/
def intError (P : Nat → Bool) (s : Str) : Option Str :=
  match parseIntRes s with
  | .ok _ => none
  | .malformed => some (numError P s b!"invalid syntax")
  | .range => some (numError P s b!"value out of range")

section
variable (P : Nat → Bool) (E : Fmt.Env Str) (T : Str → List Str → Str)

/-- `errors.Errorf(format)` without arguments.  For cmd/xtemplate/internal/keyword.go:22-122. -/
def errorf (format : Str) : Str := Fmt.sprintf E format []

/-- `errors.Wrapf(err, format)` without arguments.  For cmd/xtemplate/internal/keyword.go:22-122. -/
def wrapf (err format : Str) : Str := Fmt.sprintf E format [] ++ b!": " ++ err

/-- The switch on the number of positions (keyword.go:54-118); `index` has been trimmed. -/
def positionsText (msg : Str) (index : List Str) : Option Str :=
  match index with
  | [i1] =>
    match intError P i1 with
    | some err => some (wrapf E err (msg ++ T b!"msg id index is not a number" []))
    | none => none
  | [i1, i2] =>
    if GoStr.hasSuffix i1 b!"c" then
      let c := i1.take (i1.length - 1)
      match intError P c with
      | some err => some (wrapf E err (msg ++ T b!"context index is not a number: %v" [c]))
      | none =>
        match intError P i2 with
        | some err => some (wrapf E err (msg ++ T b!"msg id index is not a number: %v" [i2]))
        | none => none
    else
      match intError P i1 with
      | some err => some (wrapf E err (msg ++ T b!"msg id index is not a number: %v" [i1]))
      | none =>
        match intError P i2 with
        | some err => some (wrapf E err (msg ++ T b!"msg plural index is not a number: %v" [i2]))
        | none => none
  | [i1, i2, i3] =>
    if !GoStr.hasSuffix i1 b!"c" then
      some (errorf E (msg ++ T b!"context index must end with 'c': %v" [i1]))
    else
      let c := i1.take (i1.length - 1)
      match intError P c with
      | some err => some (wrapf E err (msg ++ T b!"msg context index is not a number: %v" [c]))
      | none =>
        match intError P i2 with
        | some err => some (wrapf E err (msg ++ T b!"msg id index is not a number: %v" [i2]))
        | none =>
          match intError P i3 with
          | some err => some (wrapf E err (msg ++ T b!"msg id index is not a number: %v" [i3]))
          | none => none
  | _ => some (errorf E (msg ++ T b!"too much keyword index" []))

/-- The message of the body of the loop of `ParseKeywords` for one item, if it returns an error (keyword.go:26-119). -/
def keywordText (msg item : Str) : Option Str :=
  match GoStr.splitByte 58 (GoStr.trimSpace item) with
  | [n] => if GoStr.trimSpace n = [] then some (errorf E msg) else none
  | [n, ps] =>
    if GoStr.trimSpace n = [] then some (errorf E msg)
    else positionsText P E T msg ((GoStr.splitByte 44 ps).map GoStr.trimSpace)
  | _ => some (errorf E msg)

/-- The message of `ParseKeywords` (keyword.go:22-122), if it returns an error: that of the first item for which the loop
returns. -/
def keywordsText (s : Str) : Option Str :=
  (GoStr.splitByte 59 s).findSome? (keywordText P E T (T b!"invalid keywords: %s" [s]))

end

/-- Strings under `%s` and `%v` without flags; there are no other arguments in the messages.
For cmd/xtemplate/internal/keyword.go:22-122. -/
def strEnv : Fmt.Env Str where
  render _ _ a := a
  asInt _ := none
  empty := []
  extra _ := []

/-- `t.T` if no translation is loaded (translator/translation.go:25-30, f/format.go:12-23). -/
def untranslated (f : Str) (args : List Str) : Str := Fmt.format strEnv f args

end Verif.Xt
