import Verif.Model.AtnLexer
/-!
# The generated parser (plurals/parser/plural_parser.go) with the runtime's predictions

`ParserATNSimulator`, `LL1Analyzer` and `DefaultErrorStrategy` of the ANTLR runtime as far as the generated
parser uses them, and the rules `start`, `exp`, `primary`; see `Model/Atn.lean` for what is left out.  A
token is given by its type, `none` is the end of the file.
-/
namespace Verif.Antlr
open Verif

/-! ## Predictions (`ParserATNSimulator`) -/

/-- A configuration: the state, the alternative, the precedences that are required, whether the precedence
filter is suppressed, whether the rule of the decision was left.  The stack of calls is always empty, as
calls are not supported.  For plurals/parser/plural_parser.go:505-525 (`Sync`, `AdaptivePredict`). -/
structure PCfg where
  state : Nat
  alt : Nat
  sem : List Nat
  supp : Bool
  outer : Bool
  deriving DecidableEq, Repr

/-- `ATNConfigSet.Add`: configurations with the same state, alternative and predicates are merged.
For plurals/parser/plural_parser.go:505-525 (`Sync`, `AdaptivePredict`). -/
def addP : List PCfg → PCfg → List PCfg
  | [], c => [c]
  | x :: cs, c =>
    if x.state = c.state ∧ x.alt = c.alt ∧ x.sem = c.sem then
      { x with supp := x.supp || c.supp, outer := x.outer || c.outer } :: cs
    else x :: addP cs c

/-- The equality of `closureBusy` ignores how far the rule was left.
For plurals/parser/plural_parser.go:505-525 (`Sync`, `AdaptivePredict`). -/
def PCfg.key (c : PCfg) : Nat × Nat × List Nat × Bool := (c.state, c.alt, c.sem, c.supp)

/-- `closureWork` with `getEpsilonTarget` and `precedenceTransition`, not with full context: what is reached
without reading, and `closureBusy`.  `rule`: the rule of the decision if it is one about precedence;
`collect`: collect predicates; `left`: the number of rules left (minus the depth).  The first argument
bounds the depth of the recursion.  For plurals/parser/plural_parser.go:505-525 (`Sync`, `AdaptivePredict`). -/
def closure (A : Atn) (rule : Option Nat) : Nat → Bool → Nat → PCfg → List PCfg × List PCfg →
    Option (List PCfg × List PCfg)
  | 0, _, _, _, _ => none
  | f + 1, collect, left, c, st =>
    (A.trans c.state).foldl (fun r t => r.bind fun st =>
      let go (collect : Bool) (outer : Option Nat) (c' : PCfg) :=
        if A.kind c.state = 7 then
          let c' := { c' with supp := c'.supp || (rule.isSome && outer == rule), outer := true }
          if c'.key ∈ st.2.map PCfg.key then some st
          else closure A rule f collect (left + 1) c' (st.1, c' :: st.2)
        else closure A rule f collect left c' st
      match t with
      | .eps target outer => go collect outer { c with state := target }
      | .action target _ => go false none { c with state := target }
      | .prec target level =>
        go collect none { c with state := target, sem := if collect ∧ left = 0 then c.sem ++ [level] else c.sem }
      | .atom _ _ | .set _ _ => some st
      | .rule _ _ _ => none) (some (if A.epsOnly c.state then st.1 else addP st.1 c, st.2))

/-- `precedenceRuleDecision` (`markPrecedenceDecisions`): the rule if the state decides about going on with the
operators of a left-recursive rule.  For plurals/parser/plural_parser.go:505-525 (`Sync`, `AdaptivePredict`). -/
def precRule (A : Atn) (d : Nat) : Option Nat :=
  match ruleOf A.states d, (A.trans d).getLast? with
  | some r, some t =>
    if A.kind d = 10 ∧ ((A.rules[r]?).map Prod.fst).any (· ∈ A.precStates) ∧ A.kind t.target = 12 ∧
        A.epsOnly t.target ∧ ((A.trans t.target).head?.any fun t => A.kind t.target = 7) then some r
    else none
  | _, _ => none

/-- A bound for the depth of closures: every state with every suppression.
For plurals/parser/plural_parser.go:505-525 (`Sync`, `AdaptivePredict`). -/
def depthP (A : Atn) : Nat := 2 * A.states.length + 1

/-- `computeStartState`.  For plurals/parser/plural_parser.go:505-525 (`Sync`, `AdaptivePredict`). -/
def startP (A : Atn) (d : Nat) : Option (List PCfg) :=
  ((A.trans d).zipIdx 1).foldl (fun cs t => cs.bind fun cs =>
    (closure A (precRule A d) (depthP A) true 0
      { state := t.1.target, alt := t.2, sem := [], supp := false, outer := false } (cs, [])).map Prod.fst) (some [])

/-- `Precpred` of the runtime for all required precedences; `p` is the top of the precedence stack.
For plurals/parser/plural_parser.go:505-525 (`Sync`, `AdaptivePredict`). -/
def PCfg.valid (p : Nat) (c : PCfg) : Bool := c.sem.all (p ≤ ·)

/-- `applyPrecedenceFilter`.  For plurals/parser/plural_parser.go:505-525 (`Sync`, `AdaptivePredict`). -/
def filterP (p : Nat) (cs : List PCfg) : List PCfg :=
  let first := (cs.filter fun c => c.alt == 1 && c.valid p).map fun c => { c with sem := [] }
  let rest := cs.filter fun c => c.alt != 1 && (c.supp || !(first.any fun x => x.state == c.state))
  (first ++ rest).foldl addP []

/-- `computeReachSet` for one token, up to the closure that is not needed if the alternative is clear.
For plurals/parser/plural_parser.go:505-525 (`Sync`, `AdaptivePredict`). -/
def reachP (A : Atn) (cs : List PCfg) (t : Option Nat) : List PCfg :=
  match t with
  | none => cs.filter fun c => A.kind c.state == 7
  | some t => ((cs.filter fun c => A.kind c.state != 7).flatMap fun c =>
      ((A.trans c.state).filter (·.reads t)).map fun tr => { c with state := tr.target }).foldl addP []

/-- What is found by reading one token: an alternative, an error, or that more tokens must be read.
For plurals/parser/plural_parser.go:505-525 (`Sync`, `AdaptivePredict`). -/
inductive Pred where
  | alt (k : Nat)
  | fail
  | more
  deriving DecidableEq, Repr

/-- `getAltThatFinishedDecisionEntryRule`.  For plurals/parser/plural_parser.go:505-525 (`Sync`, `AdaptivePredict`). -/
def finished (A : Atn) (cs : List PCfg) : Option Nat :=
  ((cs.filter fun c => c.outer || A.kind c.state == 7).map PCfg.alt).min?

/-- `getSynValidOrSemInvalidAltThatFinishedDecisionEntryRule`.  For plurals/parser/plural_parser.go:505-525 (`Sync`, `AdaptivePredict`). -/
def fallback (A : Atn) (p : Nat) (cs : List PCfg) : Pred :=
  match finished A (cs.filter (·.valid p)) with
  | some k => .alt k
  | none =>
    match finished A (cs.filter fun c => !c.valid p) with
    | some k => .alt k
    | none => .fail

/-- The first round of `execATN` with `computeTargetState`, `getUniqueAlt`, `predicateDFAState` and
`evalSemanticContext`.  For plurals/parser/plural_parser.go:505-525 (`Sync`, `AdaptivePredict`). -/
def decideP (A : Atn) (p : Nat) (cs : List PCfg) (t : Option Nat) : Pred :=
  match reachP A cs t with
  | [] => fallback A p cs
  | c :: r =>
    if r.all fun x => x.alt == c.alt then
      if (c :: r).any (·.valid p) then .alt c.alt else .fail
    else .more

/-- `AdaptivePredict` for a decision state, with `p` the top of the precedence stack.
For plurals/parser/plural_parser.go:505-525 (`Sync`, `AdaptivePredict`). -/
def predict (A : Atn) (p d : Nat) (t : Option Nat) : Option Pred :=
  match startP A d with
  | none => none
  | some cs => some (decideP A p (if (precRule A d).isSome then filterP p cs else cs) t)

/-! ## Checks before a decision (`DefaultErrorStrategy.Sync`) -/

/-- `LL1Analyzer.Look`: the transitions that read the next token, and whether the end of the rule is reached.
`stack`: the states after calls of rules.  For plurals/parser/plural_parser.go:505-525 (`Sync`, `AdaptivePredict`). -/
def look (A : Atn) : Nat → Nat → List Nat → Option (List Trans × Bool)
  | 0, _, _ => none
  | f + 1, s, stack =>
    if A.kind s = 7 then
      match stack with
      | [] => some ([], true)
      | s' :: stack => look A f s' stack
    else (A.trans s).foldl (fun r t => r.bind fun (ts, e) =>
      match t with
      | .atom _ _ | .set _ _ => some (ts ++ [t], e)
      | .eps target _ | .action target _ | .prec target _ =>
        (look A f target stack).map fun (ts', e') => (ts ++ ts', e || e')
      | .rule target _ follow =>
        (look A f target (follow :: stack)).map fun (ts', e') => (ts ++ ts', e || e')) (some ([], false))

/-- `Sync` in a state: nothing is reported if the next token is expected or the rule may end.
For plurals/parser/plural_parser.go:505-525 (`Sync`, `AdaptivePredict`). -/
def sync (A : Atn) (s : Nat) (t : Option Nat) : Option Unit :=
  match look A (depthP A) s [] with
  | none => none
  | some (ts, e) => if e ∨ (t.any fun t => ts.any (·.reads t)) then some () else none

/-! ## The rules of the generated parser

`none` is an error that was reported (or something not supported).  The parser's input are the items of the
lexer; looking at an error of the lexer reports it. -/

/-- `LA(1)`.  For plurals/parser/plural_parser.go:424-470. -/
def peek : List Item → Option (Option Nat)
  | [] => some none
  | .tok ty _ :: _ => some (some ty)
  | .bad :: _ => none

/-- `Match`.  For plurals/parser/plural_parser.go:424-470. -/
def accept (ty : Nat) : List Item → Option (List Item)
  | .tok ty' _ :: r => if ty' = ty then some r else none
  | _ => none

/-- A prefix operator by its text (plurals/exp.go:99-122). -/
def preText (w : List Nat) : Option Plural.Pre :=
  if w = [43] then some .plus else if w = [45] then some .minus
  else if w = [43, 43] then some .inc else if w = [45, 45] then some .dec
  else if w = [126] then some .bnot else if w = [33] then some .lnot
  else none

/-- A binary operator by its text (plurals/exp.go:131-271). -/
def opText (w : List Nat) : Option Plural.Op :=
  if w = [42] then some .mul else if w = [47] then some .div else if w = [37] then some .mod
  else if w = [43] then some .add else if w = [45] then some .sub
  else if w = [62, 62] then some .shr else if w = [60, 60] then some .shl
  else if w = [62] then some .gt else if w = [60] then some .lt
  else if w = [62, 61] then some .ge else if w = [60, 61] then some .le
  else if w = [61, 61] then some .eq else if w = [33, 61] then some .ne
  else if w = [38] then some .band else if w = [124] then some .bor else if w = [94] then some .bxor
  else if w = [38, 38] then some .land else if w = [124, 124] then some .lor
  else none

/-- A postfix operator by its text (plurals/exp.go:296-305). -/
def postText (w : List Nat) : Option Plural.Post :=
  if w = [43, 43] then some .inc else if w = [45, 45] then some .dec else none

/-- What `ExitPrimary` makes of the text of a token (plurals/exp.go:312-325). -/
def leaf (w : List Nat) : Plural.Exp := if w = [110] then .n else .int (w.map UInt8.ofNat)

/-- `(int64(_la) & ^0x3f) == 0 && ((int64(1)<<_la)&mask) != 0`.  For plurals/parser/plural_parser.go:424-500. -/
def inMask (mask ty : Nat) : Bool := ty < 64 && mask.testBit ty

/-- The binary alternatives 1 to 11 of the loop of `exp` (plurals/parser/plural_parser.go:527-826): the level of
`Precpred`, the token types, the level of the recursive call. -/
def binAlts : List (Nat × (Nat → Bool) × Nat) := [
  (12, inMask 896, 13),
  (11, fun ty => ty == 3 || ty == 4, 12),
  (10, fun ty => ty == 10 || ty == 11, 11),
  (9, fun ty => ty == 12 || ty == 13, 10),
  (8, fun ty => ty == 14 || ty == 15, 9),
  (7, fun ty => ty == 16 || ty == 17, 8),
  (6, fun ty => ty == 18, 7),
  (5, fun ty => ty == 19, 6),
  (4, fun ty => ty == 20, 5),
  (3, fun ty => ty == 21, 4),
  (2, fun ty => ty == 22, 3)]

mutual
/-- `exp(_p)` up to the loop (plurals/parser/plural_parser.go:424-503).  The first argument bounds the recursion. -/
def gExp (A : Atn) : Nat → Nat → List Item → Option (Plural.Exp × List Item)
  | 0, _, _ => none
  | f + 1, p, ts =>
    match gAtom A f ts with
    | none => none
    | some (a, r) => gLoop A f 59 p a r

/-- The `switch` at the beginning of `exp` (plurals/parser/plural_parser.go:439-497) and `Primary`
(plurals/parser/plural_parser.go:1024-1095). -/
def gAtom (A : Atn) : Nat → List Item → Option (Plural.Exp × List Item)
  | 0, _ => none
  | f + 1, ts =>
    match peek ts with
    | none => none
    | some la =>
      match sync A 14 la with
      | none => none
      | some () =>
        match ts with
        | .tok ty w :: r =>
          if ty = 25 ∨ ty = 27 ∨ ty = 28 then
            match sync A 68 la with
            | none => none
            | some () =>
              if ty = 25 then
                match gExp A f 0 r with
                | none => none
                | some (e, r') =>
                  match accept 26 r' with
                  | none => none
                  | some r'' => some (.paren e, r'')
              else some (leaf w, r)
          else if ty = 1 ∨ ty = 2 ∨ ty = 3 ∨ ty = 4 then
            if inMask 30 ty then
              match preText w with
              | none => none
              | some o =>
                match gExp A f 14 r with
                | none => none
                | some (e, r') => some (.pre o e, r')
            else none
          else if ty = 5 ∨ ty = 6 then
            match preText w with
            | none => none
            | some o =>
              match gExp A f 13 r with
              | none => none
              | some (e, r') => some (.pre o e, r')
          else none
        | _ => none

/-- The loop of `exp` (plurals/parser/plural_parser.go:504-922); `s` is the state set before `Sync`. -/
def gLoop (A : Atn) : Nat → Nat → Nat → Plural.Exp → List Item → Option (Plural.Exp × List Item)
  | 0, _, _, _, _ => none
  | f + 1, s, p, l, ts =>
    match peek ts with
    | none => none
    | some la =>
      match sync A s la, predict A p 59 la with
      | some (), some (.alt 2) => some (l, ts)
      | some (), some (.alt 1) =>
        match sync A 57 la, predict A p 57 la with
        | some (), some (.alt k) =>
          match ts with
          | .tok ty w :: r =>
            if k = 12 then
              if p ≤ 1 ∧ ty = 23 then
                match gExp A f 0 r with
                | none => none
                | some (a, r') =>
                  match accept 24 r' with
                  | none => none
                  | some r'' =>
                    match gExp A f 1 r'' with
                    | none => none
                    | some (b, r''') => gLoop A f 61 p (.tern l a b) r'''
              else none
            else if k = 13 then
              if p ≤ 15 ∧ (ty = 1 ∨ ty = 2) then
                match postText w with
                | none => none
                | some o => gLoop A f 61 p (.post o l) r
              else none
            else
              match binAlts[k - 1]? with
              | none => none
              | some (level, types, next) =>
                if p ≤ level ∧ types ty then
                  match opText w with
                  | none => none
                  | some o =>
                    match gExp A f next r with
                    | none => none
                    | some (e, r') => gLoop A f 61 p (.bin o l e) r'
                else none
          | _ => none
        | _, _ => none
      | _, _ => none
end

/-- `Start_` (plurals/parser/plural_parser.go:240-260): what follows the expression is left unread. -/
def gParse (ts : List Item) : Option (Plural.Exp × List Item) :=
  match deserialize parserData with
  | none => none
  | some A => gExp A (2 * ts.length + 3) 0 ts

/-! ## Eval through the tables -/

/-- Steps 2-4 of `Eval` (plurals/exp.go:29-46). -/
def evalTables (exp : Str) (n : Int64) : Res Int64 :=
  match (tokens exp).bind gParse with
  | none => .err
  | some (t, _) => (Plural.walk n t []).bind fun s => .ok (Plural.exitStart s)

/-- The body of `Eval` before `recover` (plurals/exp.go:22-46). -/
def evalBody (exp : Str) (n : Int64) : Res Int64 :=
  match Plural.commonsGet (GoStr.removeByte 32 exp) with
  | some f => .ok (f n)
  | none => evalTables exp n

/-- `plurals.Eval` (plurals/exp.go:15-47). -/
def eval (exp : Str) (n : Int64) : Res Int64 :=
  match evalBody exp n with
  | .panic => .err
  | r => r

end Verif.Antlr
