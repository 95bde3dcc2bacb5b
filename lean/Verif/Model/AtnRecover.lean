import Verif.Model.AtnParser
import Verif.Model.PluralError
/-!
# The generated parser on malformed text: what is reported, and the tree that is built

`Model/AtnParser.lean` stops at the first error.  Here the rules of plurals/parser/plural_parser.go go on behind it, as
`DefaultErrorStrategy` of the ANTLR runtime makes them do (`Sync`, `RecoverInline`, `ReportError`, `Recover`); the runtime is not part of the
repository.  Tokens have positions, and the lexer's errors are reported when the stream of tokens fetches what is behind them.  Error nodes
of the tree are left out: the listener of plurals/exp.go does not look at them.
-/
namespace Verif.Antlr
open Verif

/-! ## The stream of tokens -/

/-- What the lexer delivers: a token with its position, or the report of an error.  For plurals/exp.go:30-37. -/
inductive Elem where
  | tok (type : Nat) (text : List Nat) (line column : Nat)
  | bad (line column : Nat) (text : List Nat)
  deriving DecidableEq

/-- Line and column behind a text: columns count characters from zero (`Consume` of the lexer's simulator).  For plurals/exp.go:30-37. -/
def position (before : List Nat) : Nat × Nat :=
  before.foldl (fun x c => if c = 10 then (x.1 + 1, 0) else (x.1, x.2 + 1)) (1, 0)

/-- `lexTokens` with positions: `before` is the text in front of the rest.  The text of an error goes up to the character at which the lexer
stopped, if there is one (`notifyListeners`).  For plurals/parser/plural_lexer.go:144 and plurals/exp.go:31-37. -/
def lexElems (A : Atn) : Nat → List Nat → List Nat → Option (List Elem)
  | _, _, [] => some []
  | 0, _, _ :: _ => none
  | f + 1, before, c :: cs =>
    let at_ := position before
    match lexMatch A (c :: cs) with
    | none => none
    | some (none, pos) =>
      let w := (c :: cs).take (pos + 1)
      (lexElems A f (before ++ w) ((c :: cs).drop (pos + 1))).map (.bad at_.1 at_.2 w :: ·)
    | some (some a, _) =>
      let w := (c :: cs).take a.len
      let r := lexElems A f (before ++ w) ((c :: cs).drop a.len)
      if 6 ∈ a.acts then r else r.map (.tok a.type w at_.1 at_.2 :: ·)

/-- `string(runes)`.  For plurals/exp.go:30. -/
def text (w : List Nat) : Str := w.flatMap Utf8.encode

/-- What the lexer reports (`notifyListeners`).  For plurals/exp.go:33. -/
def lexReport (line column : Nat) (w : List Nat) : Plural.Report :=
  .syntaxError line column (b!"token recognition error at: '" ++ text w ++ b!"'")

/-- Fetching the next token reports the errors in front of it.  For plurals/exp.go:33-37. -/
def settle : List Elem → List Plural.Report × List Elem
  | .bad l c w :: r => (lexReport l c w :: (settle r).1, (settle r).2)
  | es => ([], es)

/-! ## The state of the parser and of its error strategy -/

/-- The stream from the current token on, the position of the end of the file, the number of tokens consumed, the fields of
`DefaultErrorStrategy`, and what was reported.  For plurals/parser/plural_parser.go:240-1095. -/
structure Rec where
  rest : List Elem
  eof : Nat × Nat
  index : Nat
  recovering : Bool
  lastIndex : Option Nat
  lastStates : List Nat
  reports : List Plural.Report

/-- The current token is fetched.  For plurals/parser/plural_parser.go:240-1095. -/
def Rec.fetch (σ : Rec) : Rec := { σ with rest := (settle σ.rest).2, reports := σ.reports ++ (settle σ.rest).1 }

/-- The token behind the current one is fetched (`LA(2)`).  For plurals/parser/plural_parser.go:240-1095. -/
def Rec.fetch2 (σ : Rec) : Rec :=
  match σ.rest with
  | .tok ty w l c :: r => { σ with rest := .tok ty w l c :: (settle r).2, reports := σ.reports ++ (settle r).1 }
  | _ => σ

/-- The type of the first token.  For plurals/parser/plural_parser.go:240-1095. -/
def typeOf : List Elem → Option Nat
  | .tok ty _ _ _ :: _ => some ty
  | _ => none

/-- `LA(1)` of a fetched token.  For plurals/parser/plural_parser.go:440. -/
def Rec.la (σ : Rec) : Option Nat := typeOf σ.rest

/-- `LA(2)` of a fetched token.  For plurals/parser/plural_parser.go:240-1095. -/
def Rec.la2 (σ : Rec) : Option Nat := typeOf (σ.rest.drop 1)

/-- `Consume`; at the end of the file nothing moves.  For plurals/parser/plural_parser.go:240-1095. -/
def Rec.consume (σ : Rec) : Rec :=
  match σ.rest with
  | [] => σ
  | _ :: r => { σ with rest := r, index := σ.index + 1 }.fetch

/-- `ReportMatch`: the error is over.  For plurals/parser/plural_parser.go:462. -/
def Rec.matched (σ : Rec) : Rec := { σ with recovering := false, lastIndex := none, lastStates := [] }

/-! ## Messages -/

/-- `'<EOF>'` or the text of the token (`GetTokenErrorDisplay`; tokens of plurals/plural.g4 have no white space to be escaped).
For plurals/parser/plural_parser.go:240-1095. -/
def Rec.display (σ : Rec) : Str :=
  match σ.rest with
  | .tok _ w _ _ :: _ => b!"'" ++ text w ++ b!"'"
  | _ => b!"'<EOF>'"

/-- The position of the current token.  For plurals/parser/plural_parser.go:240-1095. -/
def Rec.place (σ : Rec) : Nat × Nat :=
  match σ.rest with
  | .tok _ _ l c :: _ => (l, c)
  | _ => σ.eof

/-- `LiteralNames`, `SymbolicNames` (plurals/parser/plural_parser.go:35-46). -/
def names : List Str := [b!"", b!"'++'", b!"'--'", b!"'+'", b!"'-'", b!"'~'", b!"'!'", b!"'*'", b!"'/'", b!"'%'", b!"'>>'", b!"'<<'",
  b!"'>'", b!"'<'", b!"'>='", b!"'<='", b!"'=='", b!"'!='", b!"'&'", b!"'^'", b!"'|'", b!"'&&'", b!"'||'", b!"'?'", b!"':'", b!"'('",
  b!"')'", b!"'n'", b!"INT", b!"WS"]

/-- A set of token types, and whether the end of the file (or of the rule) belongs to it.  For plurals/parser/plural_parser.go:240-1095. -/
abbrev Tokens := List Nat × Bool

/-- `IntervalSet.StringVerbose`: in increasing order, the end of the file first.  For plurals/parser/plural_parser.go:240-1095. -/
def setText (s : Tokens) : Str :=
  let ns := (if s.2 then [b!"<EOF>"] else []) ++ s.1.map fun ty => (names[ty]?).getD []
  match ns with
  | [x] => x
  | _ => b!"{" ++ GoStr.join b!", " ns ++ b!"}"

/-- `NotifyErrorListeners` at the current token, unless an error is being recovered from (`ReportError`, `ReportUnwantedToken`,
`ReportMissingToken`).  For plurals/parser/plural_parser.go:240-1095. -/
def Rec.report (msg : Str) (σ : Rec) : Rec :=
  if σ.recovering then σ
  else { σ with recovering := true, reports := σ.reports ++ [.syntaxError σ.place.1 σ.place.2 msg] }

/-! ## Sets of tokens

`chain` is the list of the states from which the rules that are being parsed were called, innermost first. -/

/-- The state behind a call of a rule.  For plurals/parser/plural_parser.go:240-1095. -/
def follow (A : Atn) (s : Nat) : Nat :=
  match A.trans s with
  | .rule _ _ f :: _ => f
  | _ => s

/-- `LL1Analyzer.Look` as a set (`NextTokens`): what can be read next; the stack are the states to go on with at the end of the rule.
For plurals/parser/plural_parser.go:240-1095. -/
def next (A : Atn) (s : Nat) (stack : List Nat) : Tokens :=
  match look A (depthP A * (stack.length + 1)) s stack with
  | none => ([], false)
  | some (ts, e) => ((List.range 30).filter fun ty => ts.any (·.reads ty), e)

/-- A token type (or the end of the file) belongs to the set.  For plurals/parser/plural_parser.go:240-1095. -/
def Tokens.has (s : Tokens) : Option Nat → Bool
  | none => s.2
  | some ty => s.1.contains ty

/-- `getExpectedTokens`: through the chain of calls as long as the rules may end.  For plurals/parser/plural_parser.go:240-1095. -/
def expected (A : Atn) : Nat → List Nat → Tokens
  | s, [] => next A s []
  | s, q :: chain =>
    let a := next A s []
    if a.2 then
      let b := expected A (follow A q) chain
      ((List.range 30).filter fun ty => a.1.contains ty || b.1.contains ty, b.2)
    else a

/-- `GetErrorRecoverySet`: what may follow one of the rules that are being parsed.  For plurals/parser/plural_parser.go:240-1095. -/
def resumes (A : Atn) (chain : List Nat) (ty : Nat) : Bool := chain.any fun s => (next A (follow A s) []).1.contains ty

/-! ## The error strategy -/

/-- `SingleTokenDeletion` in a state: if the token behind the current one is expected, the current one is dropped.
For plurals/parser/plural_parser.go:240-1095. -/
def deletion (A : Atn) (s : Nat) (chain : List Nat) (σ : Rec) : Rec × Bool :=
  let σ := σ.fetch2
  if (expected A s chain).has σ.la2 then
    (((σ.report (b!"extraneous input " ++ σ.display ++ b!" expecting " ++ setText (expected A s chain))).consume).matched, true)
  else (σ, false)

/-- `SingleTokenInsertion` in a state: if the current token could follow the missing one, that is reported as missing.
For plurals/parser/plural_parser.go:240-1095. -/
def insertion (A : Atn) (s : Nat) (chain : List Nat) (σ : Rec) : Rec × Bool :=
  match A.trans s with
  | [] => (σ, false)
  | t :: _ =>
    if (next A t.target (chain.map (follow A))).has σ.la then
      (σ.report (b!"missing " ++ setText (expected A s chain) ++ b!" at " ++ σ.display), true)
    else (σ, false)

/-- `Match` with `RecoverInline`: whether the rule can go on.  For plurals/parser/plural_parser.go:240-1095. -/
def matchTok (A : Atn) (ty s : Nat) (chain : List Nat) (σ : Rec) : Rec × Bool :=
  if σ.la = some ty then (σ.matched.consume, true)
  else
    let (σ, ok) := deletion A s chain σ
    if ok then (σ.consume, true) else insertion A s chain σ

/-- `Sync` in a state: whether the rule can go on.  A token may be dropped at the beginning of a block or of a loop; after an iteration of a
loop the parser only looks at states where the rule may end.  For plurals/parser/plural_parser.go:240-1095. -/
def syncTok (A : Atn) (s : Nat) (chain : List Nat) (σ : Rec) : Rec × Bool :=
  if σ.recovering then (σ, true)
  else if (next A s []).2 ∨ (next A s []).has σ.la then (σ, true)
  else if A.kind s ∈ [3, 4, 5, 10] then deletion A s chain σ
  else (σ, true)

/-- `consumeUntil` the set.  For plurals/parser/plural_parser.go:240-1095. -/
def skipTo (A : Atn) (chain : List Nat) : Nat → Rec → Rec
  | 0, σ => σ
  | f + 1, σ =>
    match σ.la with
    | none => σ
    | some ty => if resumes A chain ty then σ else skipTo A chain f σ.consume

/-- `Recover` in a state: if the same error has been met at this token, the token is dropped; then tokens are dropped up to one with which a
calling rule can go on.  For plurals/parser/plural_parser.go:240-1095. -/
def recover (A : Atn) (s : Nat) (chain : List Nat) (σ : Rec) : Rec :=
  let σ := if σ.lastIndex = some σ.index ∧ s ∈ σ.lastStates then σ.consume else σ
  let σ := { σ with lastIndex := some σ.index, lastStates := s :: σ.lastStates }
  skipTo A chain σ.rest.length σ

/-- `errorExit` of a rule after `InputMisMatchException` (plurals/parser/plural_parser.go:924-932, 1080-1087). -/
def mismatch (A : Atn) (s : Nat) (chain : List Nat) (σ : Rec) : Rec :=
  recover A s chain (σ.report (b!"mismatched input " ++ σ.display ++ b!" expecting " ++ setText (expected A s chain)))

/-- `errorExit` of a rule after `NoViableAltException` (plurals/parser/plural_parser.go:493-495, 924-932). -/
def noViable (A : Atn) (s : Nat) (chain : List Nat) (σ : Rec) : Rec :=
  recover A s chain (σ.report (b!"no viable alternative at input " ++ σ.display))

/-! ## The rules -/

/-- The parse tree: that of `Plural.Exp`, with operands that were not found, and conditional expressions whose colon was not found.
For plurals/parser/plural_parser.go:240-1095. -/
inductive Tree where
  | hole
  | n
  | int (digits : Str)
  | paren (e : Tree)
  | post (o : Plural.Post) (e : Tree)
  | pre (o : Plural.Pre) (e : Tree)
  | bin (o : Plural.Op) (l r : Tree)
  | tern (c a b : Tree)
  | cut (c a : Tree)
  deriving DecidableEq

/-- The tree of an expression.  For plurals/parser/plural_parser.go:240-1095. -/
def treeOf : Plural.Exp → Tree
  | .n => .n
  | .int ds => .int ds
  | .paren e => .paren (treeOf e)
  | .post o e => .post o (treeOf e)
  | .pre o e => .pre o (treeOf e)
  | .bin o l r => .bin o (treeOf l) (treeOf r)
  | .tern c a b => .tern (treeOf c) (treeOf a) (treeOf b)

mutual
/-- `exp(_p)` (plurals/parser/plural_parser.go:424-932); `chain` begins with the state of the call.  The first argument bounds the
recursion; `none` is something not supported. -/
def rExp (A : Atn) : Nat → Nat → List Nat → Rec → Option (Tree × Rec)
  | 0, _, _, _ => none
  | f + 1, p, chain, σ =>
    match syncTok A 14 chain σ with
    | (σ, false) => some (.hole, mismatch A 14 chain σ)
    | (σ, true) =>
      match rAtom A f chain σ with
      | none => none
      | some (none, σ) => some (.hole, noViable A 14 chain σ)
      | some (some a, σ) => rLoop A f 59 p chain a σ

/-- The `switch` at the beginning of `exp` (plurals/parser/plural_parser.go:440-497) and `Primary`
(plurals/parser/plural_parser.go:1024-1095); without a tree if no case fits. -/
def rAtom (A : Atn) : Nat → List Nat → Rec → Option (Option Tree × Rec)
  | 0, _, _ => none
  | f + 1, chain, σ =>
    match σ.rest with
    | .tok ty w _ _ :: _ =>
      if ty = 25 ∨ ty = 27 ∨ ty = 28 then
        match syncTok A 68 (9 :: chain) σ with
        | (_, false) => none
        | (σ, true) =>
          if ty = 25 then
            match rExp A f 0 (63 :: 9 :: chain) σ.matched.consume with
            | none => none
            | some (e, σ) =>
              match matchTok A 26 64 (9 :: chain) σ with
              | (σ, true) => some (some (.paren e), σ)
              | (σ, false) => some (some (.paren e), mismatch A 64 (9 :: chain) σ)
          else some (some (treeOf (leaf w)), σ.matched.consume)
      else if ty = 1 ∨ ty = 2 ∨ ty = 3 ∨ ty = 4 then
        if inMask 30 ty then
          match preText w with
          | none => none
          | some o => (rExp A f 14 (11 :: chain) σ.matched.consume).map fun x => (some (.pre o x.1), x.2)
        else none
      else if ty = 5 ∨ ty = 6 then
        match preText w with
        | none => none
        | some o => (rExp A f 13 (13 :: chain) σ.matched.consume).map fun x => (some (.pre o x.1), x.2)
      else some (none, σ)
    | _ => some (none, σ)

/-- The loop of `exp` (plurals/parser/plural_parser.go:498-922); `s` is the state set before `Sync`. -/
def rLoop (A : Atn) : Nat → Nat → Nat → List Nat → Tree → Rec → Option (Tree × Rec)
  | 0, _, _, _, _, _ => none
  | f + 1, s, p, chain, l, σ =>
    match syncTok A s chain σ with
    | (_, false) => none
    | (σ, true) =>
      match predict A p 59 σ.la with
      | some (.alt 2) => some (l, σ)
      | some (.alt 1) =>
        match syncTok A 57 chain σ with
        | (_, false) => none
        | (σ, true) =>
          match predict A p 57 σ.la, σ.rest with
          | some (.alt k), .tok ty w _ _ :: _ =>
            if k = 12 then
              if p ≤ 1 ∧ ty = 23 then
                match rExp A f 0 (51 :: chain) σ.matched.consume with
                | none => none
                | some (a, σ) =>
                  match matchTok A 24 52 chain σ with
                  | (σ, false) => some (.cut l a, mismatch A 52 chain σ)
                  | (σ, true) =>
                    match rExp A f 1 (53 :: chain) σ with
                    | none => none
                    | some (b, σ) => rLoop A f 61 p chain (.tern l a b) σ
              else none
            else if k = 13 then
              if p ≤ 15 ∧ (ty = 1 ∨ ty = 2) then
                match postText w with
                | none => none
                | some o => rLoop A f 61 p chain (.post o l) σ.matched.consume
              else none
            else
              match binAlts[k - 1]? with
              | none => none
              | some (level, types, next) =>
                if p ≤ level ∧ types ty then
                  match opText w with
                  | none => none
                  | some o =>
                    match rExp A f next ((15 + 3 * k) :: chain) σ.matched.consume with
                    | none => none
                    | some (e, σ) => rLoop A f 61 p chain (.bin o l e) σ
                else none
          | _, _ => none
      | _ => none
end

/-- The parser before the first token (plurals/exp.go:38). -/
def Rec.init (eof : Nat × Nat) (es : List Elem) : Rec :=
  { rest := es, eof := eof, index := 0, recovering := false, lastIndex := none, lastStates := [], reports := [] }

/-- `Start_` (plurals/parser/plural_parser.go:240-260): what follows the expression is left unread. -/
def rParse (A : Atn) (eof : Nat × Nat) (es : List Elem) : Option (Tree × Rec) :=
  rExp A (2 * es.length + 3) 0 [6] (Rec.init eof es).fetch

/-- The tree walk with `ExitPrimary` (plurals/exp.go:309-327) and `ExitExp` (plurals/exp.go:81-91); for what was not found nothing is
pushed. -/
def walkR (n : Int64) : Tree → Plural.Stack → Except Plural.Panic Plural.Stack
  | .hole, s => .ok s
  | .n, s => Plural.walkP n .n s
  | .int ds, s => Plural.walkP n (.int ds) s
  | .paren e, s => walkR n e s
  | .post o e, s => (walkR n e s).bind fun s => .ok (Plural.onPostfix o s)
  | .pre o e, s => (walkR n e s).bind fun s => .ok (Plural.onPrefix o s)
  | .bin o l r, s => (walkR n l s).bind fun s => (walkR n r s).bind fun s => Plural.onBopP o s
  | .tern c a b, s => (walkR n c s).bind fun s => (walkR n a s).bind fun s => (walkR n b s).bind fun s => .ok (Plural.onTern s)
  | .cut c a, s => (walkR n c s).bind fun s => (walkR n a s).bind fun s => .ok (Plural.onTern s)

/-- The tree and the reports of a text (plurals/exp.go:29-41). -/
def parseText (exp : Str) : Option (Tree × List Plural.Report) :=
  match deserialize lexerData, deserialize parserData with
  | some L, some A =>
    let rs := runes exp.length exp
    (lexElems L rs.length [] rs).bind fun es => (rParse A (position rs) es).map fun x => (x.1, x.2.reports)
  | _, _ => none

/-- `Eval` (plurals/exp.go:15-47) with nothing left open. -/
def evalR (L : Fmt.Lib) (exp : Str) (n : Int64) : Option (Int64 × Option Plural.Error) :=
  match Plural.commonsGet (GoStr.removeByte 32 exp) with
  | some f => some (f n, none)
  | none => (parseText exp).map fun x =>
    match walkR n x.1 [] with
    | .ok s => (Plural.exitStart s, Plural.listenerErr L x.2)
    | .error p => Plural.recovered L p

end Verif.Antlr
