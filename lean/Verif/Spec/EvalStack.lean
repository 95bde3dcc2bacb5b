import Verif.Model.EvalStack
/-!
# How deep the tree of an expression is
-/
namespace Verif.Antlr

/-- The nested calls of rules that parse a tree: an operand is a call of `exp` and one of `primary`; what stands on the left of an operator is
parsed by the call that finds the operator, what stands on the right by a further one. -/
def Nodes.calls : Nodes → Nat
  | .hole _ => 1
  | .n => 2
  | .int _ => 2
  | .paren e => e.calls + 2
  | .post _ e => e.calls
  | .pre _ e => e.calls + 1
  | .bin _ l r => max l.calls (r.calls + 1)
  | .tern c a b => max c.calls (max (a.calls + 1) (b.calls + 1))
  | .cut c a => max c.calls (a.calls + 1)

/-- The height of the tree: its tokens are the lowest level, above them there is a node for each operand, operator and pair of parentheses, and
a further one for operands and parentheses. -/
def Nodes.levels : Nodes → Nat
  | .hole d => if d = 0 then 1 else 2
  | .n => 3
  | .int _ => 3
  | .paren e => e.levels + 2
  | .post _ e => e.levels + 1
  | .pre _ e => e.levels + 1
  | .bin _ l r => max l.levels r.levels + 1
  | .tern c a b => max c.levels (max a.levels b.levels) + 1
  | .cut c a => max c.levels a.levels + 1

end Verif.Antlr
