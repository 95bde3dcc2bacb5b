import Verif.Lemmas.TmplEats
/-!
# The bound on the depth of calls is large enough

The functions of the parser of templates take a number that bounds the depth of calls.  Beyond eight times
the number of items and some more, it makes no difference.
-/
namespace Verif.Tmpl
open Verif Verif.Xt

variable {P : PCfg}

/-- From `n` on, the bound makes no difference to the functions for pipelines. -/
structure PipeFuel (P : PCfg) (n : Nat) : Prop where
  pipeline : ∀ p is vars, 8 * is.length + 5 ≤ n → P.pipeline (n + 1) p is vars = P.pipeline n p is vars
  cmds : ∀ p is vars, 8 * is.length + 4 ≤ n → P.cmds (n + 1) p is vars = P.cmds n p is vars
  command : ∀ is vars, 8 * is.length + 3 ≤ n → P.command (n + 1) is vars = P.command n is vars
  operand : ∀ is vars, 8 * is.length + 2 ≤ n → P.operand (n + 1) is vars = P.operand n is vars
  term : ∀ is vars, 8 * is.length + 1 ≤ n → P.term (n + 1) is vars = P.term n is vars

theorem skip_le (is : List Item) : (skip is).length ≤ is.length := (skip_eats is).1

theorem skip_lt {is r : List Item} {i : Item} (h : skip is = i :: r) : r.length + 1 ≤ is.length := by
  have := skip_le is; rw [h] at this; simpa using this

theorem term_fuel {n : Nat} (ih : PipeFuel P n) (is : List Item) (vars : List Str) (h : 8 * is.length + 1 ≤ n + 1) :
    P.term (n + 2) is vars = P.term (n + 1) is vars := by
  conv => lhs; rw [PCfg.term]
  conv => rhs; rw [PCfg.term]
  cases hs : skip is with
  | nil => rfl
  | cons i r =>
    have hl := skip_lt hs
    dsimp only
    rw [ih.pipeline .paren r vars (by omega)]

theorem operand_fuel {n : Nat} (ih : PipeFuel P n) (is : List Item) (vars : List Str) (h : 8 * is.length + 2 ≤ n + 1) :
    P.operand (n + 2) is vars = P.operand (n + 1) is vars := by
  conv => lhs; rw [PCfg.operand]
  conv => rhs; rw [PCfg.operand]
  rw [ih.term is vars (by omega)]

theorem command_fuel {n : Nat} (ih : PipeFuel P n) (is : List Item) (vars : List Str) (h : 8 * is.length + 3 ≤ n + 1) :
    P.command (n + 2) is vars = P.command (n + 1) is vars := by
  conv => lhs; rw [PCfg.command]
  conv => rhs; rw [PCfg.command]
  have hl := skip_le is
  rw [ih.operand (skip is) vars (by omega)]
  cases ho : P.operand n (skip is) vars with
  | none => rfl
  | some r =>
    obtain ⟨a, is1, vars1⟩ := r
    have h1 := ((pipeEats n).operand ho).1
    dsimp only
    split
    · next r =>
      rw [ih.command r vars1 (by simp only [List.length_cons] at h1; omega)]
    all_goals rfl

theorem cmds_fuel {n : Nat} (ih : PipeFuel P n) (p : Place) (is : List Item) (vars : List Str) (h : 8 * is.length + 4 ≤ n + 1) :
    P.cmds (n + 2) p is vars = P.cmds (n + 1) p is vars := by
  conv => lhs; rw [PCfg.cmds]
  conv => rhs; rw [PCfg.cmds]
  cases hs : skip is with
  | nil => rfl
  | cons i r =>
    have hl := skip_lt hs
    dsimp only
    rw [ih.command (i :: r) vars (by simp only [List.length_cons]; omega)]
    cases hc : P.command n (i :: r) vars with
    | none => rfl
    | some x =>
      obtain ⟨c, is1, vars1⟩ := x
      have h1 := ((pipeEats n).command hc).1
      cases c with
      | nil => rfl
      | cons a c =>
        dsimp only
        rw [ih.cmds p is1 vars1 (by simp at h1; omega)]

theorem pipeline_fuel {n : Nat} (ih : PipeFuel P n) (p : Place) (is : List Item) (vars : List Str)
    (h : 8 * is.length + 5 ≤ n + 1) : P.pipeline (n + 2) p is vars = P.pipeline (n + 1) p is vars := by
  conv => lhs; rw [PCfg.pipeline]
  conv => rhs; rw [PCfg.pipeline]
  cases hd : decls p is vars with
  | none => rfl
  | some r =>
    obtain ⟨is1, vars1⟩ := r
    have h1 := (decls_eats hd).1
    dsimp only
    rw [ih.cmds p is1 vars1 (by omega)]

theorem pipeFuel : ∀ n, PipeFuel P n
  | 0 => ⟨fun _ _ _ h => by omega, fun _ _ _ h => by omega, fun _ _ h => by omega, fun _ _ h => by omega, fun _ _ h => by omega⟩
  | n + 1 => ⟨pipeline_fuel (pipeFuel n), cmds_fuel (pipeFuel n), command_fuel (pipeFuel n), operand_fuel (pipeFuel n),
      term_fuel (pipeFuel n)⟩

/-- From `n` on, the bound makes no difference to the functions for nodes. -/
structure NodeFuel (P : PCfg) (n : Nat) : Prop where
  itemList : ∀ d s, 8 * s.is.length + 2 ≤ n → P.itemList (n + 1) d s = P.itemList n d s
  textOrAction : ∀ d s, 8 * s.is.length + 1 ≤ n → P.textOrAction (n + 1) d s = P.textOrAction n d s
  action : ∀ d s, 8 * s.is.length + 6 ≤ n → P.action (n + 1) d s = P.action n d s
  control : ∀ c d s, 8 * s.is.length + 6 ≤ n → P.control (n + 1) c d s = P.control n c d s

theorem itemList_fuel {n : Nat} (ih : NodeFuel P n) (d : Nat) (s : PS) (h : 8 * s.is.length + 2 ≤ n + 1) :
    P.itemList (n + 2) d s = P.itemList (n + 1) d s := by
  conv => lhs; rw [PCfg.itemList]
  conv => rhs; rw [PCfg.itemList]
  cases hs : skip s.is with
  | nil => rfl
  | cons i r =>
    have hl := skip_lt hs
    dsimp only
    rw [ih.textOrAction d _ (by simp only [List.length_cons]; omega)]
    cases ht : P.textOrAction n d { s with is := i :: r } with
    | none => rfl
    | some x =>
      obtain ⟨x, s1⟩ := x
      have h1 := ((nodeEats n).textOrAction ht).1
      simp only [List.length_cons] at h1
      cases x with
      | fin => rfl
      | els => rfl
      | stmt x e =>
        dsimp only
        rw [ih.itemList d s1 (by omega)]

theorem textOrAction_fuel {n : Nat} (ih : NodeFuel P n) (d : Nat) (s : PS) (h : 8 * s.is.length + 1 ≤ n + 1) :
    P.textOrAction (n + 2) d s = P.textOrAction (n + 1) d s := by
  conv => lhs; rw [PCfg.textOrAction]
  conv => rhs; rw [PCfg.textOrAction]
  cases hs : skip s.is with
  | nil => rfl
  | cons i r =>
    have hl := skip_lt hs
    dsimp only
    rw [ih.action d _ (by dsimp only; omega)]

theorem control_fuel {n : Nat} (ih : NodeFuel P n) (c : Ctl) (d : Nat) (s : PS) (h : 8 * s.is.length + 6 ≤ n + 1) :
    P.control (n + 2) c d s = P.control (n + 1) c d s := by
  conv => lhs; rw [PCfg.control]
  conv => rhs; rw [PCfg.control]
  rw [(pipeFuel n).pipeline c.place s.is s.vars (by omega)]
  cases hp : P.pipeline n c.place s.is s.vars with
  | none => rfl
  | some x =>
    obtain ⟨pipe, r, vars⟩ := x
    have h1 := ((pipeEats n).pipeline hp).1
    dsimp only
    rw [ih.itemList _ _ (by dsimp only; omega)]
    cases hl : P.itemList n (if c = .rangeC then d + 1 else d) { s with is := r, vars } with
    | none => rfl
    | some x =>
      obtain ⟨body, b, s'⟩ := x
      have h2 := ((nodeEats n).itemList hl).1
      dsimp only at h2
      cases b with
      | false => rfl
      | true =>
        dsimp only
        cases ha : c.again s'.is with
        | some r =>
          have h3 := (again_eats ha).1
          dsimp only
          rw [ih.control c d _ (by dsimp only; omega)]
        | none =>
          dsimp only
          rw [ih.itemList _ _ (by omega)]

theorem action_fuel {n : Nat} (ih : NodeFuel P n) (d : Nat) (s : PS) (h : 8 * s.is.length + 6 ≤ n + 1) :
    P.action (n + 2) d s = P.action (n + 1) d s := by
  conv => lhs; rw [PCfg.action]
  conv => rhs; rw [PCfg.action]
  cases hs : skip s.is with
  | nil => rfl
  | cons i r =>
    have hl := skip_lt hs
    dsimp only
    rw [ih.control .ifC d _ (by dsimp only; omega), ih.control .rangeC d _ (by dsimp only; omega),
      ih.control .withC d _ (by dsimp only; omega), (pipeFuel n).pipeline .command (i :: r) s.vars (by simp only [List.length_cons]; omega)]
    cases hr : skip r with
    | nil => rfl
    | cons j r' =>
      have hl' := skip_lt hr
      dsimp only
      rw [(pipeFuel n).pipeline .blockP r' s.vars (by omega), (pipeFuel n).pipeline .templateP r' s.vars (by omega)]
      cases hp : P.pipeline n .blockP r' s.vars with
      | none => rfl
      | some x =>
        obtain ⟨pipe, r2, vars⟩ := x
        have h1 := ((pipeEats n).pipeline hp).1
        dsimp only
        rw [ih.itemList 0 _ (by dsimp only; omega)]

theorem nodeFuel : ∀ n, NodeFuel P n
  | 0 => ⟨fun _ _ h => by omega, fun _ _ h => by omega, fun _ _ h => by omega, fun _ _ _ h => by omega⟩
  | n + 1 => ⟨itemList_fuel (nodeFuel n), textOrAction_fuel (nodeFuel n), action_fuel (nodeFuel n), control_fuel (nodeFuel n)⟩

theorem definition_fuel {n : Nat} (is : List Item) (trees : GMap Root) (h : 8 * is.length + 2 ≤ n) :
    P.definition (n + 1) is trees = P.definition n is trees := by
  unfold PCfg.definition
  cases hs : skip is with
  | nil => rfl
  | cons i r =>
    have hl := skip_lt hs
    dsimp only
    cases he : expectRight r with
    | none => rfl
    | some r1 =>
      have h1 := (expectRight_eats he).1
      dsimp only
      rw [(nodeFuel n).itemList 0 _ (by dsimp only; omega)]

theorem top_fuel : ∀ (n : Nat) (s : PS) (root : Root), 8 * s.is.length + 2 ≤ n → P.top (n + 1) s root = P.top n s root
  | 0, s, root, h => by omega
  | n + 1, s, root, h => by
    conv => lhs; rw [PCfg.top]
    conv => rhs; rw [PCfg.top]
    cases hs : s.is with
    | nil => rfl
    | cons i r =>
      have hl : s.is.length = r.length + 1 := by rw [hs]; rfl
      dsimp only
      have hdef : ∀ is trees, is.length ≤ r.length →
          (match P.definition (n + 1) is trees with
            | none => none
            | some (is, trees) => P.top (n + 1) { s with is, trees } root) =
          (match P.definition n is trees with
            | none => none
            | some (is, trees) => P.top n { s with is, trees } root) := by
        intro is trees hle
        rw [definition_fuel is trees (by omega)]
        cases hd : P.definition n is trees with
        | none => rfl
        | some x =>
          obtain ⟨is1, trees1⟩ := x
          have := (definition_eats hd).1
          exact top_fuel n _ _ (by dsimp only; omega)
      have hact : (match P.textOrAction (n + 1) 0 s with
            | some (.stmt x e, s) => P.top (n + 1) s (root ++ [(x, e)])
            | _ => none) =
          (match P.textOrAction n 0 s with
            | some (.stmt x e, s) => P.top n s (root ++ [(x, e)])
            | _ => none) := by
        rw [(nodeFuel n).textOrAction 0 s (by omega)]
        cases ht : P.textOrAction n 0 s with
        | none => rfl
        | some x =>
          obtain ⟨x, s1⟩ := x
          have := ((nodeEats n).textOrAction ht).1
          cases x with
          | fin => rfl
          | els => rfl
          | stmt x e => exact top_fuel n _ _ (by omega)
      split
      · rfl
      · split
        · next hr => exact hdef _ _ (by have := skip_lt hr; omega)
        · exact hact

/-- A larger bound makes no difference. -/
theorem top_enough {n : Nat} {s : PS} (h : 8 * s.is.length + 2 ≤ n) (root : Root) : ∀ k, P.top (n + k) s root = P.top n s root
  | 0 => rfl
  | k + 1 => by rw [← Nat.add_assoc, top_fuel (n + k) s root (by omega), top_enough h root k]

end Verif.Tmpl
