import Verif.Model.AtnRecover
/-!
# Eval with a limited number of nested calls

Go ends the process when the stack of a goroutine grows beyond its limit; `recover` does not see that.  This is the parser of
`Model/AtnRecover.lean` and the tree walk once more, with the number of calls of rules (of `Walk`) that may still be nested.  Other calls are
not counted: they are nested at most as deep as the rules.
-/
namespace Verif.Antlr
open Verif

/-- A result, or the end of the process.  For plurals/exp.go:15-47. -/
inductive Lim (α : Type) where
  | over
  | ret (a : α)

/-- Go on with the result.  For plurals/exp.go:15-47. -/
def Lim.bind {α β : Type} : Lim α → (α → Lim β) → Lim β
  | .over, _ => .over
  | .ret a, f => f a

/-- `Tree` with the number of tokens that were dropped where an operand was not found; they are nodes of the tree, too.  (Where others are
dropped there are nodes beside them.)  For plurals/parser/plural_parser.go:424-932. -/
inductive Nodes where
  | hole (dropped : Nat)
  | n
  | int (digits : Str)
  | paren (e : Nodes)
  | post (o : Plural.Post) (e : Nodes)
  | pre (o : Plural.Pre) (e : Nodes)
  | bin (o : Plural.Op) (l r : Nodes)
  | tern (c a b : Nodes)
  | cut (c a : Nodes)

/-- The tree without these numbers. -/
def Nodes.tree : Nodes → Tree
  | .hole _ => .hole
  | .n => .n
  | .int ds => .int ds
  | .paren e => .paren e.tree
  | .post o e => .post o e.tree
  | .pre o e => .pre o e.tree
  | .bin o l r => .bin o l.tree r.tree
  | .tern c a b => .tern c.tree a.tree b.tree
  | .cut c a => .cut c.tree a.tree

/-- The operand that a token is (plurals/parser/plural_parser.go:1024-1095). -/
def leafNodes (w : List Nat) : Nodes := if w = [110] then .n else .int (w.map UInt8.ofNat)

mutual
/-- `rExp` with `k` calls left, this one included (plurals/parser/plural_parser.go:424-932). -/
def sExp (A : Atn) : Nat → Nat → Nat → List Nat → Rec → Lim (Option (Nodes × Rec))
  | 0, _, _, _, _ => .ret none
  | _ + 1, 0, _, _, _ => .over
  | f + 1, k + 1, p, chain, σ₀ =>
    match syncTok A 14 chain σ₀ with
    | (σ, false) => .ret (some (.hole ((mismatch A 14 chain σ).index - σ₀.index), mismatch A 14 chain σ))
    | (σ, true) =>
      match sAtom A f k chain σ with
      | .over => .over
      | .ret none => .ret none
      | .ret (some (none, σ)) => .ret (some (.hole ((noViable A 14 chain σ).index - σ₀.index), noViable A 14 chain σ))
      | .ret (some (some a, σ)) => sLoop A f k 59 p chain a σ

/-- `rAtom` with `k` calls left; `Primary` is one (plurals/parser/plural_parser.go:440-497, 1024-1095). -/
def sAtom (A : Atn) : Nat → Nat → List Nat → Rec → Lim (Option (Option Nodes × Rec))
  | 0, _, _, _ => .ret none
  | f + 1, k, chain, σ =>
    match σ.rest with
    | .tok ty w _ _ :: _ =>
      if ty = 25 ∨ ty = 27 ∨ ty = 28 then
        match k with
        | 0 => .over
        | k + 1 =>
          match syncTok A 68 (9 :: chain) σ with
          | (_, false) => .ret none
          | (σ, true) =>
            if ty = 25 then
              match sExp A f k 0 (63 :: 9 :: chain) σ.matched.consume with
              | .over => .over
              | .ret none => .ret none
              | .ret (some (e, σ)) =>
                match matchTok A 26 64 (9 :: chain) σ with
                | (σ, true) => .ret (some (some (.paren e), σ))
                | (σ, false) => .ret (some (some (.paren e), mismatch A 64 (9 :: chain) σ))
            else .ret (some (some (leafNodes w), σ.matched.consume))
      else if ty = 1 ∨ ty = 2 ∨ ty = 3 ∨ ty = 4 then
        if inMask 30 ty then
          match preText w with
          | none => .ret none
          | some o => (sExp A f k 14 (11 :: chain) σ.matched.consume).bind fun x => .ret (x.map fun x => (some (.pre o x.1), x.2))
        else .ret none
      else if ty = 5 ∨ ty = 6 then
        match preText w with
        | none => .ret none
        | some o => (sExp A f k 13 (13 :: chain) σ.matched.consume).bind fun x => .ret (x.map fun x => (some (.pre o x.1), x.2))
      else .ret (some (none, σ))
    | _ => .ret (some (none, σ))

/-- `rLoop` with `k` calls left (plurals/parser/plural_parser.go:498-922). -/
def sLoop (A : Atn) : Nat → Nat → Nat → Nat → List Nat → Nodes → Rec → Lim (Option (Nodes × Rec))
  | 0, _, _, _, _, _, _ => .ret none
  | f + 1, k, s, p, chain, l, σ =>
    match syncTok A s chain σ with
    | (_, false) => .ret none
    | (σ, true) =>
      match predict A p 59 σ.la with
      | some (.alt 2) => .ret (some (l, σ))
      | some (.alt 1) =>
        match syncTok A 57 chain σ with
        | (_, false) => .ret none
        | (σ, true) =>
          match predict A p 57 σ.la, σ.rest with
          | some (.alt j), .tok ty w _ _ :: _ =>
            if j = 12 then
              if p ≤ 1 ∧ ty = 23 then
                match sExp A f k 0 (51 :: chain) σ.matched.consume with
                | .over => .over
                | .ret none => .ret none
                | .ret (some (a, σ)) =>
                  match matchTok A 24 52 chain σ with
                  | (σ, false) => .ret (some (.cut l a, mismatch A 52 chain σ))
                  | (σ, true) =>
                    match sExp A f k 1 (53 :: chain) σ with
                    | .over => .over
                    | .ret none => .ret none
                    | .ret (some (b, σ)) => sLoop A f k 61 p chain (.tern l a b) σ
              else .ret none
            else if j = 13 then
              if p ≤ 15 ∧ (ty = 1 ∨ ty = 2) then
                match postText w with
                | none => .ret none
                | some o => sLoop A f k 61 p chain (.post o l) σ.matched.consume
              else .ret none
            else
              match binAlts[j - 1]? with
              | none => .ret none
              | some (level, types, next) =>
                if p ≤ level ∧ types ty then
                  match opText w with
                  | none => .ret none
                  | some o =>
                    match sExp A f k next ((15 + 3 * j) :: chain) σ.matched.consume with
                    | .over => .over
                    | .ret none => .ret none
                    | .ret (some (e, σ)) => sLoop A f k 61 p chain (.bin o l e) σ
                else .ret none
          | _, _ => .ret none
      | _ => .ret none
end

/-- `Start_` with `k` calls left, this one included (plurals/parser/plural_parser.go:240-260). -/
def sParse (A : Atn) (k : Nat) (eof : Nat × Nat) (es : List Elem) : Lim (Option (Nodes × Rec)) :=
  match k with
  | 0 => .over
  | k + 1 => sExp A (2 * es.length + 3) k 0 [6] (Rec.init eof es).fetch

/-- `ParseTreeWalker.Walk` on a child that is a token, with `k` calls left.  For plurals/exp.go:45. -/
def visit (k : Nat) (s : Except Plural.Panic Plural.Stack) : Lim (Except Plural.Panic Plural.Stack) :=
  match k with
  | 0 => .over
  | _ + 1 => .ret s

/-- Go on unless there was a panic.  For plurals/exp.go:45. -/
def andThen (r : Lim (Except Plural.Panic Plural.Stack)) (f : Plural.Stack → Lim (Except Plural.Panic Plural.Stack)) :
    Lim (Except Plural.Panic Plural.Stack) :=
  match r with
  | .over => .over
  | .ret (.error p) => .ret (.error p)
  | .ret (.ok s) => f s

/-- `ParseTreeWalker.Walk` with `k` calls left, this one included: a node of rule `exp` calls it for its children one after the other, as does
a node of rule `primary`.  For plurals/exp.go:45. -/
def walkS (n : Int64) : Nat → Nodes → Plural.Stack → Lim (Except Plural.Panic Plural.Stack)
  | 0, _, _ => .over
  | k + 1, .hole d, s => if d = 0 then .ret (.ok s) else visit k (.ok s)
  | k + 1, .n, s =>
    match k with
    | 0 => .over
    | k + 1 => visit k (Plural.walkP n .n s)
  | k + 1, .int ds, s =>
    match k with
    | 0 => .over
    | k + 1 => visit k (Plural.walkP n (.int ds) s)
  | k + 1, .paren e, s =>
    match k with
    | 0 => .over
    | k + 1 => andThen (visit k (.ok s)) fun s => walkS n k e s
  | k + 1, .post o e, s => andThen (walkS n k e s) fun s => visit k (.ok (Plural.onPostfix o s))
  | k + 1, .pre o e, s => andThen (visit k (.ok s)) fun s => andThen (walkS n k e s) fun s => .ret (.ok (Plural.onPrefix o s))
  | k + 1, .bin o l r, s =>
    andThen (walkS n k l s) fun s => andThen (visit k (.ok s)) fun s => andThen (walkS n k r s) fun s => .ret (Plural.onBopP o s)
  | k + 1, .tern c a b, s =>
    andThen (walkS n k c s) fun s => andThen (visit k (.ok s)) fun s => andThen (walkS n k a s) fun s =>
      andThen (visit k (.ok s)) fun s => andThen (walkS n k b s) fun s => .ret (.ok (Plural.onTern s))
  | k + 1, .cut c a, s =>
    andThen (walkS n k c s) fun s => andThen (visit k (.ok s)) fun s => andThen (walkS n k a s) fun s => .ret (.ok (Plural.onTern s))

/-- The tree and the reports of a text with `k` calls left (plurals/exp.go:29-44). -/
def parseTextS (k : Nat) (exp : Str) : Lim (Option (Nodes × List Plural.Report)) :=
  match deserialize lexerData, deserialize parserData with
  | some L, some A =>
    let rs := runes exp.length exp
    match lexElems L rs.length [] rs with
    | none => .ret none
    | some es => (sParse A k (position rs) es).bind fun x => .ret (x.map fun x => (x.1, x.2.reports))
  | _, _ => .ret none

/-- `Eval` (plurals/exp.go:15-47) with at most `k` nested calls of rules, or of `Walk`. -/
def evalS (L : Fmt.Lib) (k : Nat) (exp : Str) (n : Int64) : Lim (Option (Int64 × Option Plural.Error)) :=
  match Plural.commonsGet (GoStr.removeByte 32 exp) with
  | some f => .ret (some (f n, none))
  | none => (parseTextS k exp).bind fun x =>
    match x with
    | none => .ret none
    | some (t, reports) =>
      match k with
      | 0 => .over
      | k + 1 => (walkS n k t []).bind fun r => .ret <| some <|
        match r with
        | .ok s => (Plural.exitStart s, Plural.listenerErr L reports)
        | .error p => Plural.recovered L p

end Verif.Antlr
