import Verif.Model.GoStr
import Verif.Model.Num
/-!
# Keyword declarations of xtemplate (cmd/xtemplate/internal/keyword.go)

Simplified: `none` is a non-nil error (its message is in `Model/KeywordError.lean`); `int` has 64 bits, so the
conversion of the parsed int64 is the identity.
-/
namespace Verif.Xt
open Verif

/-- `Keyword` (cmd/xtemplate/internal/keyword.go:13-18). -/
structure Keyword where
  name : Str
  msgCtxt : Int := 0
  msgID : Int := 0
  msgID2 : Int := 0
  deriving DecidableEq, Repr

/-- The switch on the number of positions (keyword.go:54-118); `index` has been trimmed. -/
def parsePositions (k : Keyword) (index : List Str) : Option Keyword :=
  match index with
  | [i1] =>
    match Num.parseInt i1 with
    | none => none
    | some i => some { k with msgID := i }
  | [i1, i2] =>
    if GoStr.hasSuffix i1 b!"c" then
      match Num.parseInt (i1.take (i1.length - 1)) with
      | none => none
      | some c =>
        match Num.parseInt i2 with
        | none => none
        | some i => some { k with msgCtxt := c, msgID := i }
    else
      match Num.parseInt i1 with
      | none => none
      | some i =>
        match Num.parseInt i2 with
        | none => none
        | some j => some { k with msgID := i, msgID2 := j }
  | [i1, i2, i3] =>
    if !GoStr.hasSuffix i1 b!"c" then none
    else
      match Num.parseInt (i1.take (i1.length - 1)) with
      | none => none
      | some c =>
        match Num.parseInt i2 with
        | none => none
        | some i =>
          match Num.parseInt i3 with
          | none => none
          | some j => some { k with msgCtxt := c, msgID := i, msgID2 := j }
  | _ => none

/-- The body of the loop of `ParseKeywords` for one item (keyword.go:26-119). -/
def parseKeyword (item : Str) : Option Keyword :=
  match GoStr.splitByte 58 (GoStr.trimSpace item) with
  | [n] =>
    let name := GoStr.trimSpace n
    if name = [] then none else some { name := name, msgID := 1 }
  | [n, ps] =>
    let name := GoStr.trimSpace n
    if name = [] then none
    else parsePositions { name := name } ((GoStr.splitByte 44 ps).map GoStr.trimSpace)
  | _ => none

/-- The loop of `ParseKeywords`.  For cmd/xtemplate/internal/keyword.go:22-122. -/
def parseItems : List Str → Option (List Keyword)
  | [] => some []
  | item :: items =>
    match parseKeyword item with
    | none => none
    | some k =>
      match parseItems items with
      | none => none
      | some ks => some (k :: ks)

/-- `ParseKeywords` (keyword.go:22-122). -/
def parseKeywords (s : Str) : Option (List Keyword) := parseItems (GoStr.splitByte 59 s)

end Verif.Xt
