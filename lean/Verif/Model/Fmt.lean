import Verif.Model.GoStr
import Verif.Model.Num
import Verif.Model.Utf8
/-!
# Formatting: `f.Format`, `f.DefaultPlural` and the directive loop of `fmt.Sprintf`

The loop of `(*fmt.pp).doPrintf` (Go standard library) is modelled: flags, explicit argument
indexes, width, precision, verb, the MISSING/BADINDEX/NOVERB/BADWIDTH/BADPREC reports and the final
EXTRA check.  How one argument is rendered under a verb is a parameter.  Simplified: the loop's fast
path for lower-case verbs is not modelled separately (it prints the same argument with the same
flags as the general path); index arithmetic on `format` is replaced by suffixes of the string.
-/
namespace Verif.Fmt

/-- Flags, width and precision of one directive (`fmt.fmtFlags`, `wid`, `prec`).  For f/format.go:21-22 (`fmt.Sprintf`). -/
structure Opts where
  sharp : Bool := false
  zero : Bool := false
  plus : Bool := false
  minus : Bool := false
  space : Bool := false
  wid : Option Nat := none
  prec : Option Nat := none
  deriving DecidableEq, Repr

/-- What the model leaves open: rendering of an argument under options and verb, integer arguments
(for `*`), the empty string as an argument, and the text of the EXTRA report.  For f/format.go:21-22 (`fmt.Sprintf`). -/
structure Env (α : Type) where
  render : Opts → Str → α → Str
  asInt : α → Option Int
  empty : α
  extra : List α → Str

/-- What the loop writes.  For f/format.go:21-22 (`fmt.Sprintf`). -/
inductive Piece (α : Type) where
  | lit (c : UInt8)
  | arg (o : Opts) (verb : Str) (a : α)
  | missing (verb : Str)
  | badIndex (verb : Str)
  | noVerb
  | badWidth
  | badPrec
  deriving DecidableEq, Repr

/-- Text of a piece (`missingString`, `badIndexString`, ... of package fmt).  For f/format.go:21-22 (`fmt.Sprintf`). -/
def Piece.text {α : Type} (E : Env α) : Piece α → Str
  | .lit c => [c]
  | .arg o v a => E.render o v a
  | .missing v => b!"%!" ++ v ++ b!"(MISSING)"
  | .badIndex v => b!"%!" ++ v ++ b!"(BADINDEX)"
  | .noVerb => b!"%!(NOVERB)"
  | .badWidth => b!"%!(BADWIDTH)"
  | .badPrec => b!"%!(BADPREC)"

/-- The flag loop of `doPrintf`.  For f/format.go:21-22 (`fmt.Sprintf`). -/
def flagsLoop : Opts → Str → Opts × Str
  | o, [] => (o, [])
  | o, c :: s =>
    if c = 35 then flagsLoop { o with sharp := true } s
    else if c = 48 then flagsLoop { o with zero := true } s
    else if c = 43 then flagsLoop { o with plus := true } s
    else if c = 45 then flagsLoop { o with minus := true } s
    else if c = 32 then flagsLoop { o with space := true } s
    else (o, c :: s)

/-- `fmt.parsenum(s, start, end)`: a decimal number, `none` if there is none or if it grows beyond
10^6 before its last digit, in which case everything up to `end` is skipped.  For f/format.go:21-22 (`fmt.Sprintf`). -/
def parsenum : Nat → Bool → Str → Option Nat × Str
  | n, b, [] => (if b then some n else none, [])
  | n, b, c :: s =>
    if Num.isDigit c then
      if 1000000 < n then (none, []) else parsenum (n * 10 + (c.toNat - 48)) true s
    else (if b then some n else none, c :: s)

/-- Split at the first `]`.  For f/format.go:21-22 (`fmt.Sprintf`). -/
def splitClose : Str → Option (Str × Str)
  | [] => none
  | c :: s => if c = 93 then some ([], s) else (splitClose s).map fun p => (c :: p.1, p.2)

/-- `fmt.parseArgNumber` on a string that starts with `[`, given the part after it: the index, the
rest of the string, and whether the index was well formed.  For f/format.go:21-22 (`fmt.Sprintf`). -/
def parseArgNumber (t : Str) : Option Nat × Str :=
  if t.length < 2 then (none, t)
  else match splitClose t with
    | none => (none, t)
    | some (body, r) =>
      match parsenum 0 false body with
      | (some n, []) => (some n, r)
      | _ => (none, r)

/-- The state of the loop that concerns argument indexes: `argNum`, `p.reordered`,
`p.goodArgNum`, `afterIndex`.  `inRange` is a ghost field: no argument outside the list was asked
for so far. -/
structure St where
  argNum : Nat
  reordered : Bool
  good : Bool
  after : Bool
  inRange : Bool
  deriving DecidableEq, Repr

/-- `(*pp).argNumber`.  For f/format.go:21-22 (`fmt.Sprintf`). -/
def argNumber (numArgs : Nat) (st : St) (s : Str) : St × Str :=
  match s with
  | 91 :: t =>
    match parseArgNumber t with
    | (some n, r) =>
      if 1 ≤ n ∧ n - 1 < numArgs then
        ({ st with argNum := n - 1, reordered := true, after := true }, r)
      else ({ st with reordered := true, good := false, after := true, inRange := false }, r)
    | (none, r) =>
      ({ st with reordered := true, good := false, after := false, inRange := false }, r)
  | s => ({ st with after := false }, s)

/-- `fmt.intFromArg`: the number if there is one, and the next argument number.  For f/format.go:21-22 (`fmt.Sprintf`). -/
def intFromArg {α : Type} (E : Env α) (args : List α) (st : St) : Option Int × St :=
  match args[st.argNum]? with
  | some a => (E.asInt a, { st with argNum := st.argNum + 1 })
  | none => (none, { st with inRange := false })

/-- The width part of a directive.  For f/format.go:21-22 (`fmt.Sprintf`). -/
def widthPart {α : Type} (E : Env α) (args : List α) (o : Opts) (st : St) (s : Str) :
    List (Piece α) × Opts × St × Str :=
  match s with
  | 42 :: r =>
    let (w, st) := intFromArg E args st
    let st := { st with after := false }
    match w with
    | none => ([.badWidth], { o with wid := none }, st, r)
    | some i =>
      if i < 0 then ([], { o with wid := some i.natAbs, minus := true, zero := false }, st, r)
      else ([], { o with wid := some i.natAbs }, st, r)
  | s =>
    let (n, r) := parsenum 0 false s
    let st := if st.after && n.isSome then { st with good := false } else st
    ([], { o with wid := n }, st, r)

/-- The precision part of a directive.  For f/format.go:21-22 (`fmt.Sprintf`). -/
def precPart {α : Type} (E : Env α) (args : List α) (o : Opts) (st : St) (s : Str) :
    List (Piece α) × Opts × St × Str :=
  match s with
  | 46 :: r =>
    let st := if st.after then { st with good := false } else st
    let (st, r) := argNumber args.length st r
    match r with
    | 42 :: r =>
      let (w, st) := intFromArg E args st
      let st := { st with after := false }
      match w with
      | some (.ofNat n) => ([], { o with prec := some n }, st, r)
      | _ => ([.badPrec], { o with prec := none }, st, r)
    | r =>
      let (n, r) := parsenum 0 false r
      ([], { o with prec := some (n.getD 0) }, st, r)
  | s => ([], o, st, s)

/-- The verb part of a directive.  For f/format.go:21-22 (`fmt.Sprintf`). -/
def verbPart {α : Type} (args : List α) (o : Opts) (st : St) (s : Str) :
    List (Piece α) × St × Str :=
  match s with
  | [] => ([.noVerb], st, [])
  | s =>
    let (rune, size) := Utf8.decode s
    let r := s.drop size
    if rune = 37 then ([.lit 37], st, r)
    else if !st.good then ([.badIndex (Utf8.encode rune)], st, r)
    else match args[st.argNum]? with
      | none => ([.missing (Utf8.encode rune)], { st with inRange := false }, r)
      | some a => ([.arg o (Utf8.encode rune) a], { st with argNum := st.argNum + 1 }, r)

/-- One directive, `s` being what follows the `%`.  For f/format.go:21-22 (`fmt.Sprintf`). -/
def directive {α : Type} (E : Env α) (args : List α) (st : St) (s : Str) :
    List (Piece α) × St × Str :=
  let (o, s) := flagsLoop {} s
  let (st, s) := argNumber args.length { st with good := true } s
  let (p1, o, st, s) := widthPart E args o st s
  let (p2, o, st, s) := precPart E args o st s
  let (st, s) := if st.after then (st, s) else argNumber args.length st s
  let (p3, st, s) := verbPart args o st s
  (p1 ++ p2 ++ p3, st, s)

/-- The loop of `doPrintf` with fuel.  For f/format.go:21-22 (`fmt.Sprintf`). -/
def run {α : Type} (E : Env α) (args : List α) : Nat → St → Str → List (Piece α) × St
  | 0, st, _ => ([], st)
  | _ + 1, st, [] => ([], st)
  | f + 1, st, c :: s =>
    if c = 37 then
      let (p, st, s) := directive E args st s
      let (q, st) := run E args f st s
      (p ++ q, st)
    else
      let (q, st) := run E args f st s
      (.lit c :: q, st)

/-- The initial state of `doPrintf`.  For f/format.go:21-22 (`fmt.Sprintf`). -/
def st0 : St := { argNum := 0, reordered := false, good := true, after := false, inRange := true }

/-- The pieces written by the loop and its final state.  For f/format.go:21-22 (`fmt.Sprintf`). -/
def pieces {α : Type} (E : Env α) (s : Str) (args : List α) : List (Piece α) × St :=
  run E args (s.length + 1) st0 s

/-- `fmt.Sprintf(s, args...)`: the loop, then the EXTRA report
`!p.reordered && argNum < len(a)`.  For f/format.go:21-22 (`fmt.Sprintf`). -/
def sprintf {α : Type} (E : Env α) (s : Str) (args : List α) : Str :=
  let (ps, st) := pieces E s args
  ps.flatMap (Piece.text E) ++
    if !st.reordered && st.argNum < args.length then E.extra (args.drop st.argNum) else []

/-- `f.Format` (f/format.go:12-23): `fmt.Sprintf("%s%%[%d]s", format, length+1)` is written out as a
concatenation. -/
def format {α : Type} (E : Env α) (s : Str) (args : List α) : Str :=
  if args.length = 0 then s
  else sprintf E (s ++ b!"%[" ++ Num.natDigits (args.length + 1) ++ b!"]s") (args ++ [E.empty])

/-- `f.DefaultPlural` (f/format.go:27-35). -/
def defaultPlural {α : Type} (E : Env α) (msgID msgIDPlural : Str) (n : Int64) (args : List α) :
    Str :=
  if msgIDPlural = [] then format E msgID args
  else if n ≠ 1 then format E msgIDPlural args
  else format E msgID args

end Verif.Fmt
