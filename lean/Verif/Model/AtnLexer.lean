import Verif.Model.Atn
import Verif.Spec.Lexeme
/-!
# The generated lexer (plurals/parser/plural_lexer.go) as the runtime interprets it

`LexerATNSimulator` and `BaseLexer` of the ANTLR runtime; see `Model/Atn.lean` for what is left out.
-/
namespace Verif.Antlr
open Verif

/-- A configuration of the lexer: a state, the alternative (rule) it belongs to, the actions passed.
For plurals/parser/plural_lexer.go:144 (the simulator of the lexer) and plurals/exp.go:31-37. -/
structure LCfg where
  state : Nat
  alt : Nat
  acts : List Nat
  deriving DecidableEq, Repr

/-- `OrderedATNConfigSet.Add`.  For plurals/parser/plural_lexer.go:144 (the simulator of the lexer) and plurals/exp.go:31-37. -/
def addL (cs : List LCfg) (c : LCfg) : List LCfg := if c ∈ cs then cs else cs ++ [c]

/-- `LexerATNSimulator.closure` with `getEpsilonTarget`: what is reached without reading.  The first argument
bounds the depth.  For plurals/parser/plural_lexer.go:144 (the simulator of the lexer) and plurals/exp.go:31-37. -/
def lexClosure (A : Atn) : Nat → LCfg → List LCfg → Option (List LCfg)
  | 0, _, _ => none
  | f + 1, c, cs =>
    if A.kind c.state = 7 then some (addL cs c)
    else (A.trans c.state).foldl (fun r t => r.bind fun cs =>
      match t with
      | .eps target _ => lexClosure A f { c with state := target } cs
      | .action target index =>
        match A.actions[index]? with
        | none => none
        | some a => lexClosure A f { c with state := target, acts := c.acts ++ [a] } cs
      | .atom _ _ | .set _ _ => some cs
      | .rule _ _ _ | .prec _ _ => none) (some (if A.epsOnly c.state then cs else addL cs c))

/-- A bound for the depth of closures.  For plurals/parser/plural_lexer.go:144 (the simulator of the lexer) and plurals/exp.go:31-37. -/
def depth (A : Atn) : Nat := A.states.length + 1

/-- `LexerATNSimulator.computeStartState` for the mode `DEFAULT_MODE`.
For plurals/parser/plural_lexer.go:144 (the simulator of the lexer) and plurals/exp.go:31-37. -/
def lexStart (A : Atn) : Option (List LCfg) :=
  match A.modes with
  | [] => none
  | m :: _ => ((A.trans m).zipIdx 1).foldl
      (fun cs t => cs.bind (lexClosure A (depth A) { state := t.1.target, alt := t.2, acts := [] })) (some [])

/-- The transitions of a configuration that read a character, in `getReachableConfigSet`.
For plurals/parser/plural_lexer.go:144 (the simulator of the lexer) and plurals/exp.go:31-37. -/
def lexSteps (A : Atn) (cs : List LCfg) (t : Nat) : List LCfg :=
  cs.flatMap fun c => ((A.trans c.state).filter (·.reads t)).map fun tr => { c with state := tr.target }

/-- `getReachableConfigSet`: what is reached by reading a character.
For plurals/parser/plural_lexer.go:144 (the simulator of the lexer) and plurals/exp.go:31-37. -/
def lexReach (A : Atn) (cs : List LCfg) (t : Nat) : Option (List LCfg) :=
  (lexSteps A cs t).foldl (fun r c => r.bind (lexClosure A (depth A) c)) (some [])

/-- `firstConfigWithRuleStopState`, and what `addDFAState` makes of it: the token type and the actions.
For plurals/parser/plural_lexer.go:144 (the simulator of the lexer) and plurals/exp.go:31-37. -/
def lexAccept (A : Atn) (cs : List LCfg) : Option (Nat × List Nat) :=
  match cs.find? fun c => A.kind c.state == 7 with
  | none => none
  | some c =>
    match ruleOf A.states c.state with
    | none => none
    | some r => (A.rules[r]?).map fun x => (x.2, c.acts)

/-- The end of a token: the number of characters read, the token type and the actions.
For plurals/parser/plural_lexer.go:144 (the simulator of the lexer) and plurals/exp.go:31-37. -/
structure Accept where
  len : Nat
  type : Nat
  acts : List Nat
  deriving DecidableEq, Repr

/-- `captureSimState` if the state accepts.
For plurals/parser/plural_lexer.go:144 (the simulator of the lexer) and plurals/exp.go:31-37. -/
def capture (A : Atn) (cs : List LCfg) (pos : Nat) (prev : Option Accept) : Option Accept :=
  match lexAccept A cs with
  | none => prev
  | some (ty, acts) => some { len := pos, type := ty, acts := acts }

/-- The loop of `execATN`: the last accepting state passed and the number of characters read; end of file
leads nowhere.  For plurals/parser/plural_lexer.go:144 (the simulator of the lexer) and plurals/exp.go:31-37. -/
def lexRun (A : Atn) : List LCfg → Option Accept → Nat → List Nat → Option (Option Accept × Nat)
  | _, prev, pos, [] => some (prev, pos)
  | cs, prev, pos, t :: ts =>
    match lexReach A cs t with
    | none => none
    | some [] => some (prev, pos)
    | some cs => lexRun A cs (capture A cs (pos + 1) prev) (pos + 1) ts

/-- `LexerATNSimulator.Match`.  For plurals/parser/plural_lexer.go:144 (the simulator of the lexer) and plurals/exp.go:31-37. -/
def lexMatch (A : Atn) (inp : List Nat) : Option (Option Accept × Nat) :=
  match lexStart A with
  | none => none
  | some cs => lexRun A cs (capture A cs 0 none) 0 inp

/-- `NextToken` of the lexer, called until the end of the input: a token is dropped if it has the action
`skip` (6); after an error the lexer goes on behind the next character (`safeMatch`, `Recover`). The
first argument bounds the number of tokens.
For plurals/parser/plural_lexer.go:144 (the simulator of the lexer) and plurals/exp.go:31-37. -/
def lexTokens (A : Atn) : Nat → List Nat → Option (List Item)
  | _, [] => some []
  | 0, _ :: _ => none
  | f + 1, c :: cs =>
    match lexMatch A (c :: cs) with
    | none => none
    | some (none, pos) => (lexTokens A f ((c :: cs).drop (pos + 1))).map (.bad :: ·)
    | some (some a, _) =>
      if 6 ∈ a.acts then lexTokens A f ((c :: cs).drop a.len)
      else (lexTokens A f ((c :: cs).drop a.len)).map (.tok a.type ((c :: cs).take a.len) :: ·)

/-- `[]rune(s)`, as `antlr.NewInputStream` does (plurals/exp.go:30).  The first argument bounds the
number of runes. -/
def runes : Nat → Str → List Nat
  | _, [] => []
  | 0, _ :: _ => []
  | f + 1, s@(_ :: _) => (Utf8.decode s).1 :: runes f (s.drop (Utf8.decode s).2)

/-- The tokens of an expression (plurals/exp.go:30-37). -/
def tokens (s : Str) : Option (List Item) :=
  match deserialize lexerData with
  | none => none
  | some A => lexTokens A (runes s.length s).length (runes s.length s)

end Verif.Antlr
