import Verif.Lemmas.TmplReadTag
/-!
# The parser on actions and lists of nodes
-/
namespace Verif.Tmpl
open Verif Verif.Xt

variable {P : PCfg}

theorem expect_right {sp : List Item} (h : Sp sp) (l : Nat) (r : List Item) : expectRight (sp ++ ⟨.right, l⟩ :: r) = some r := by
  rw [expectRight, skip_sp h, skip_solid (by simp)]

theorem expect_other {sp : List Item} (h : Sp sp) {i : Item} (hi : i.tok ≠ .space) (hr : i.tok ≠ .right) (r : List Item) :
    expectRight (sp ++ i :: r) = none := by
  rw [expectRight, skip_sp h, skip_solid hi]
  split
  · next heq => cases heq; exact absurd rfl hr
  · rfl

theorem tmplName_of {q name : Str} {t : Tok} (h : LitTok q name t) (l : Nat) : tmplName ⟨t, l⟩ = some name := by
  obtain ⟨rfl | rfl, hu⟩ := h <;> exact hu

theorem litTok_ne {q name : Str} {t : Tok} (h : LitTok q name t) : t ≠ .space := by
  rcases h.1 with rfl | rfl <;> simp

/-! ## `textOrAction` -/

theorem toa_left {d : Nat} {l : Nat} {r : List Item} {vars : List Str} {trees : GMap Root} {x : Option (Node × PS)}
    (h : Ev fun n => P.action n d ⟨r, vars, trees⟩ = x) : Ev fun n => P.textOrAction n d ⟨⟨.left, l⟩ :: r, vars, trees⟩ = x := by
  refine h.succ fun n hn => ?_
  rw [PCfg.textOrAction]
  exact hn

theorem toa_text {d : Nat} {l : Nat} {t : Str} {r : List Item} {vars : List Str} {trees : GMap Root} :
    Ev fun n => P.textOrAction n d ⟨⟨.text t, l⟩ :: r, vars, trees⟩ = some (.stmt .other (GoStr.trimSpace t = []), ⟨r, vars, trees⟩) := by
  refine Ev.of fun n => ?_
  rw [PCfg.textOrAction]
  rfl

theorem toa_end {d : Nat} {toks r : List Item} (h : KwToks .fin toks) (vars : List Str) (trees : GMap Root) :
    Ev fun n => P.textOrAction n d ⟨toks ++ r, vars, trees⟩ = some (.fin, ⟨r, vars, trees⟩) := by
  obtain ⟨l, sp, l1, sp', l2, hs, hs', rfl⟩ := h
  have e : ⟨.left, l⟩ :: (sp ++ ⟨.kw .fin, l1⟩ :: (sp' ++ [⟨.right, l2⟩])) ++ r =
      (⟨.left, l⟩ : Item) :: (sp ++ ⟨.kw .fin, l1⟩ :: (sp' ++ ⟨.right, l2⟩ :: r)) := by simp
  rw [e]
  refine toa_left (Ev.of fun n => ?_)
  rw [PCfg.action, skip_sp hs, skip_solid (by simp)]
  dsimp only
  rw [expect_right hs']
  rfl

theorem toa_else {d : Nat} {toks r : List Item} (h : KwToks .els toks) (vars : List Str) (trees : GMap Root) :
    Ev fun n => P.textOrAction n d ⟨toks ++ r, vars, trees⟩ = some (.els, ⟨r, vars, trees⟩) := by
  obtain ⟨l, sp, l1, sp', l2, hs, hs', rfl⟩ := h
  have e : ⟨.left, l⟩ :: (sp ++ ⟨.kw .els, l1⟩ :: (sp' ++ [⟨.right, l2⟩])) ++ r =
      (⟨.left, l⟩ : Item) :: (sp ++ ⟨.kw .els, l1⟩ :: (sp' ++ ⟨.right, l2⟩ :: r)) := by simp
  rw [e]
  refine toa_left (Ev.of fun n => ?_)
  rw [PCfg.action, skip_sp hs, skip_solid (by simp)]
  dsimp only
  rw [skip_sp hs', skip_solid (by simp), expect_right hs']
  rfl

theorem toa_leave {d : Nat} (hd : 0 < d) {k : Kw} (hk : k = .brk ∨ k = .cont) {toks r : List Item} (h : KwToks k toks) (vars : List Str)
    (trees : GMap Root) :
    Ev fun n => P.textOrAction n d ⟨toks ++ r, vars, trees⟩ = some (.stmt .other false, ⟨r, vars, trees⟩) := by
  obtain ⟨l, sp, l1, sp', l2, hs, hs', rfl⟩ := h
  have e : ⟨.left, l⟩ :: (sp ++ ⟨.kw k, l1⟩ :: (sp' ++ [⟨.right, l2⟩])) ++ r =
      (⟨.left, l⟩ : Item) :: (sp ++ ⟨.kw k, l1⟩ :: (sp' ++ ⟨.right, l2⟩ :: r)) := by simp
  rw [e]
  refine toa_left (Ev.of fun n => ?_)
  rw [PCfg.action, skip_sp hs, skip_solid (by simp)]
  rcases hk with rfl | rfl <;>
  · dsimp only
    rw [if_neg (by omega), expect_right hs']
    rfl

theorem action_pipe {n d : Nat} {i : Item} (hi : ∀ k, i.tok ≠ .kw k) (hs : i.tok ≠ .space) {r : List Item} {vars : List Str} {trees : GMap Root} :
    P.action (n + 1) d ⟨i :: r, vars, trees⟩ = match P.pipeline n .command (i :: r) vars with
        | none => none
        | some (pipe, r, vars) => some (.stmt (.action i.line pipe) false, ⟨r, vars, trees⟩) := by
  rw [PCfg.action, skip_solid hs]
  dsimp only
  obtain ⟨t, l⟩ := i
  cases t with
  | kw k => exact absurd rfl (hi k)
  | _ => rfl

theorem action_sp {n d : Nat} {sp is : List Item} (h : Sp sp) {vars : List Str} {trees : GMap Root} :
    P.action n d ⟨sp ++ is, vars, trees⟩ = P.action n d ⟨is, vars, trees⟩ := by
  cases n with
  | zero => rw [PCfg.action, PCfg.action]
  | succ n =>
    rw [PCfg.action, PCfg.action]
    dsimp only
    rw [skip_sp h]

theorem toa_action {d l : Nat} {sp : List Item} (hs : Sp sp) {i : Item} (hi : starts i.tok = true) {r r' : List Item} {vars vars' : List Str}
    {trees : GMap Root} {p : Pipe} (h : Ev fun n => P.pipeline n .command (i :: r) vars = some (p, r', vars')) :
    Ev fun n => P.textOrAction n d ⟨⟨.left, l⟩ :: (sp ++ i :: r), vars, trees⟩ = some (.stmt (.action i.line p) false, ⟨r', vars', trees⟩) := by
  refine toa_left (h.succ fun n hn => ?_)
  obtain ⟨h1, -, -, -, -, -, -, h8, -⟩ := starts_ne hi
  rw [action_sp hs, action_pipe h8 h1, hn]

/-- `template` without a pipeline. -/
theorem toa_template {d l l1 l2 l3 : Nat} {sp sp' sp'' : List Item} (hs : Sp sp) (hs' : Sp sp') (hs'' : Sp sp'') {q name : Str} {t : Tok}
    (ht : LitTok q name t) (r : List Item) (vars : List Str) (trees : GMap Root) :
    Ev fun n => P.textOrAction n d ⟨⟨.left, l⟩ :: (sp ++ ⟨.kw .template, l1⟩ :: (sp' ++ ⟨t, l2⟩ :: (sp'' ++ ⟨.right, l3⟩ :: r))), vars, trees⟩ =
      some (.stmt (.template l2 []) false, ⟨r, vars, trees⟩) := by
  refine toa_left (Ev.of fun n => ?_)
  rw [action_sp hs, PCfg.action, skip_solid (by simp)]
  dsimp only
  rw [skip_sp hs', skip_solid (litTok_ne ht)]
  dsimp only
  rw [tmplName_of ht]
  dsimp only
  rw [expect_right hs'']

theorem pipeline_sp {place : Place} {sp is : List Item} (h : Sp sp) (vars : List Str) (n : Nat) :
    P.pipeline n place (sp ++ is) vars = P.pipeline n place is vars := by
  cases n with
  | zero => rfl
  | succ n => rw [PCfg.pipeline, PCfg.pipeline, decls_sp h]

theorem toa_templatePipe {d l l1 l2 : Nat} {sp sp' sp'' : List Item} (hs : Sp sp) (hs' : Sp sp') (hs'' : Sp sp'') {q name : Str} {t : Tok}
    (ht : LitTok q name t) {i : Item} (hi : starts i.tok = true) {r r' : List Item} {vars vars' : List Str} {p : Pipe} (trees : GMap Root)
    (h : Ev fun n => P.pipeline n .templateP (i :: r) vars = some (p, r', vars')) :
    Ev fun n => P.textOrAction n d ⟨⟨.left, l⟩ :: (sp ++ ⟨.kw .template, l1⟩ :: (sp' ++ ⟨t, l2⟩ :: (sp'' ++ i :: r))), vars, trees⟩ =
      some (.stmt (.template l2 p) false, ⟨r', vars', trees⟩) := by
  refine toa_left (h.succ fun n hn => ?_)
  obtain ⟨h1, h2, -⟩ := starts_ne hi
  rw [action_sp hs, PCfg.action, skip_solid (by simp)]
  dsimp only
  rw [skip_sp hs', skip_solid (litTok_ne ht)]
  dsimp only
  rw [tmplName_of ht]
  dsimp only
  rw [expect_other hs'' h1 h2]
  dsimp only
  rw [pipeline_sp hs'', hn]

theorem toa_block {d l l1 l2 : Nat} {sp sp' sp'' : List Item} (hs : Sp sp) (hs' : Sp sp') (hs'' : Sp sp'') {q name : Str} {t : Tok}
    (ht : LitTok q name t) {is r : List Item} {vars vars' : List Str} {p : Pipe} {trees trees' : GMap Root} {root : Root} {s' : PS}
    (h : Ev fun n => P.pipeline n .blockP is vars = some (p, r, vars'))
    (hl : Ev fun n => P.itemList n 0 ⟨r, [[36]], trees⟩ = some (root, false, s')) (ha : addTree s'.trees name root = some trees') :
    Ev fun n => P.textOrAction n d ⟨⟨.left, l⟩ :: (sp ++ ⟨.kw .block, l1⟩ :: (sp' ++ ⟨t, l2⟩ :: (sp'' ++ is))), vars, trees⟩ =
      some (.stmt (.template l2 p) false, ⟨s'.is, vars', trees'⟩) := by
  refine toa_left ((h.and hl).succ fun n hn => ?_)
  rw [action_sp hs, PCfg.action, skip_solid (by simp)]
  dsimp only
  rw [skip_sp hs', skip_solid (litTok_ne ht)]
  dsimp only
  rw [tmplName_of ht]
  dsimp only
  rw [pipeline_sp hs'', hn.1]
  dsimp only
  rw [hn.2]
  dsimp only
  rw [ha]
  rfl

/-- The keyword of a control structure. -/
def Ctl.kw : Ctl → Kw
  | .ifC => .ifK
  | .rangeC => .range
  | .withC => .withK

theorem toa_control {d l l1 : Nat} {sp : List Item} (hs : Sp sp) (c : Ctl) {r : List Item} {vars : List Str} {trees : GMap Root}
    {x : Option (Node × PS)} (h : Ev fun n => P.control n c d ⟨r, vars, trees⟩ = x) :
    Ev fun n => P.textOrAction n d ⟨⟨.left, l⟩ :: (sp ++ ⟨.kw c.kw, l1⟩ :: r), vars, trees⟩ = x := by
  refine toa_left (h.succ fun n hn => ?_)
  rw [action_sp hs, PCfg.action, skip_solid (by simp)]
  cases c <;> exact hn

theorem toa_again {d l l1 l2 : Nat} {sp sp' : List Item} (hs : Sp sp) (hs' : Sp sp') {k : Kw} (hk : k = .ifK ∨ k = .withK) (r : List Item)
    (vars : List Str) (trees : GMap Root) :
    Ev fun n => P.textOrAction n d ⟨⟨.left, l⟩ :: (sp ++ ⟨.kw .els, l1⟩ :: (sp' ++ ⟨.kw k, l2⟩ :: r)), vars, trees⟩ =
      some (.els, ⟨⟨.kw k, l2⟩ :: r, vars, trees⟩) := by
  refine toa_left (Ev.of fun n => ?_)
  rw [action_sp hs, PCfg.action, skip_solid (by simp)]
  dsimp only
  rw [skip_sp hs', skip_solid (by simp)]
  rcases hk with rfl | rfl <;> rfl

/-! ## Lists -/

/-- The items begin with a node that is not a definition. -/
def Plain (is : List Item) : Prop :=
  ∃ i r, is = i :: r ∧ ((∃ t, i.tok = .text t) ∨ i.tok = .left ∧ ∃ j r', skip r = j :: r' ∧ j.tok ≠ .kw .define)

theorem plain_left {l : Nat} {sp : List Item} (hs : Sp sp) {j : Item} (h1 : j.tok ≠ .space) (h2 : j.tok ≠ .kw .define) (r : List Item) :
    Plain (⟨.left, l⟩ :: (sp ++ j :: r)) :=
  ⟨_, _, rfl, .inr ⟨rfl, j, r, by rw [skip_sp hs, skip_solid h1], h2⟩⟩

theorem plain_ne {is : List Item} (h : Plain is) : ∃ i r, is = i :: r ∧ i.tok ≠ .space ∧ i.tok ≠ .eof ∧ ∀ k, i.tok ≠ .kw k := by
  obtain ⟨i, r, rfl, ⟨t, h⟩ | ⟨h, -⟩⟩ := h
  · exact ⟨i, r, rfl, by simp [h], by simp [h], by simp [h]⟩
  · exact ⟨i, r, rfl, by simp [h], by simp [h], by simp [h]⟩

/-- The parser reads these nodes one after the other. -/
inductive Steps (P : PCfg) (d : Nat) : PS → Root → PS → Prop
  | nil {s : PS} : Steps P d s [] s
  | cons {s s' s'' : PS} {x : Stmt} {e : Bool} {xs : Root} : Plain s.is → (Ev fun n => P.textOrAction n d s = some (.stmt x e, s')) →
      Steps P d s' xs s'' → Steps P d s ((x, e) :: xs) s''

theorem Steps.append {d : Nat} {s s' s'' : PS} {xs ys : Root} (h : Steps P d s xs s') (h' : Steps P d s' ys s'') :
    Steps P d s (xs ++ ys) s'' := by
  induction h with
  | nil => exact h'
  | cons h1 h2 _ ih => exact .cons h1 h2 (ih h')

theorem Steps.one {d : Nat} {s s' : PS} {x : Stmt} {e : Bool} (h1 : Plain s.is) (h2 : Ev fun n => P.textOrAction n d s = some (.stmt x e, s')) :
    Steps P d s [(x, e)] s' := .cons h1 h2 .nil

/-- The end of a list. -/
inductive Ends (P : PCfg) (d : Nat) (s : PS) : Bool → PS → Prop
  | fin {s' : PS} : (Ev fun n => P.textOrAction n d s = some (.fin, s')) → Ends P d s false s'
  | els {s' : PS} : (Ev fun n => P.textOrAction n d s = some (.els, s')) → Ends P d s true s'

theorem list_steps {d : Nat} {s s' s'' : PS} {xs : Root} {b : Bool} (h : Steps P d s xs s') (hp : ∃ l r, s'.is = ⟨.left, l⟩ :: r)
    (he : Ends P d s' b s'') : Ev fun n => P.itemList n d s = some (xs, b, s'') := by
  induction h with
  | @nil s =>
    obtain ⟨l, r, hp⟩ := hp
    obtain ⟨is, vars, trees⟩ := s
    cases hp
    cases he with
    | fin he =>
      refine he.succ fun n hn => ?_
      rw [PCfg.itemList, skip_solid (by simp)]
      simp only [reduceCtorEq, if_false]
      rw [hn]
    | els he =>
      refine he.succ fun n hn => ?_
      rw [PCfg.itemList, skip_solid (by simp)]
      simp only [reduceCtorEq, if_false]
      rw [hn]
  | @cons s s' s2 x e xs h1 h2 _ ih =>
    refine (h2.and (ih hp he)).succ fun n hn => ?_
    obtain ⟨is, vars, trees⟩ := s
    obtain ⟨i, r, hi, h3, h4, -⟩ := plain_ne h1
    cases hi
    rw [PCfg.itemList, skip_solid h3]
    dsimp only
    rw [if_neg h4, hn.1]
    dsimp only
    rw [hn.2]

theorem steps_again {d : Nat} {s s' : PS} {xs : Root} (h : Steps P d s xs s') (hp : ∃ l r, s'.is = ⟨.left, l⟩ :: r) (c : Ctl) :
    c.again s.is = none := by
  have key : ∀ i r, (∀ k, i.tok ≠ .kw k) → c.again (i :: r) = none := by
    intro i r hi
    obtain ⟨t, l⟩ := i
    unfold Ctl.again
    split
    · next heq => cases heq; exact absurd rfl (hi _)
    · next heq => cases heq; exact absurd rfl (hi _)
    · rfl
  cases h with
  | nil =>
    obtain ⟨l, r, hp⟩ := hp
    rw [hp]; exact key _ _ (by simp)
  | cons h1 _ _ =>
    obtain ⟨i, r, hi, -, -, h⟩ := plain_ne h1
    rw [hi]; exact key i r h

/-- The end of a control structure; `d` is the number of loops around it, `d'` that around its body. -/
inductive Closes (P : PCfg) (c : Ctl) (d d' : Nat) (s : PS) : Root → PS → Prop
  | fin {s' : PS} : (Ev fun n => P.textOrAction n d' s = some (.fin, s')) → Closes P c d d' s [] s'
  | els {s1 s' : PS} {els : Root} : (Ev fun n => P.textOrAction n d' s = some (.els, s1)) → c.again s1.is = none →
      (Ev fun n => P.itemList n d s1 = some (els, false, s')) → Closes P c d d' s els s'
  | again {s1 s' : PS} {r : List Item} {x : Stmt} {e : Bool} : (Ev fun n => P.textOrAction n d' s = some (.els, s1)) →
      c.again s1.is = some r → (Ev fun n => P.control n c d { s1 with is := r } = some (.stmt x e, s')) → Closes P c d d' s [(x, e)] s'

theorem control_of {c : Ctl} {d : Nat} {is r : List Item} {vars vars' : List Str} {trees : GMap Root} {p : Pipe} {body els : Root} {s1 s2 : PS}
    (hp : Ev fun n => P.pipeline n c.place is vars = some (p, r, vars'))
    (hb : Steps P (if c = .rangeC then d + 1 else d) ⟨r, vars', trees⟩ body s1) (hl : ∃ l r, s1.is = ⟨.left, l⟩ :: r)
    (hc : Closes P c d (if c = .rangeC then d + 1 else d) s1 els s2) :
    Ev fun n => P.control n c d ⟨is, vars, trees⟩ = some (.stmt (c.stmt (lineOf is) p body els) false, { s2 with vars }) := by
  cases hc with
  | fin h =>
    refine (hp.and (list_steps hb hl (.fin h))).succ fun n hn => ?_
    rw [PCfg.control]
    dsimp only
    rw [hn.1]
    dsimp only
    rw [hn.2]
  | els h h1 h2 =>
    refine ((hp.and (list_steps hb hl (.els h))).and h2).succ fun n hn => ?_
    rw [PCfg.control]
    dsimp only
    rw [hn.1.1]
    dsimp only
    rw [hn.1.2]
    dsimp only
    rw [h1]
    dsimp only
    rw [hn.2]
  | again h h1 h2 =>
    refine ((hp.and (list_steps hb hl (.els h))).and h2).succ fun n hn => ?_
    rw [PCfg.control]
    dsimp only
    rw [hn.1.1]
    dsimp only
    rw [hn.1.2]
    dsimp only
    rw [h1]
    dsimp only
    rw [hn.2]

theorem top_steps {s s' : PS} {xs : Root} (h : Steps P 0 s xs s') : ∀ {root : Root} {x : Option (GMap Root)},
    (Ev fun n => P.top n s' (root ++ xs) = x) → Ev fun n => P.top n s root = x := by
  induction h with
  | nil => intro root x h; simpa using h
  | @cons s s' s2 x e xs h1 h2 _ ih =>
    intro root z hz
    refine (h2.and (ih (root := root ++ [(x, e)]) (by simpa using hz))).succ fun n hn => ?_
    obtain ⟨is, vars, trees⟩ := s
    obtain ⟨i, r, hi, h3⟩ := h1
    cases hi
    have h4 : i.tok ≠ .eof := by
      rcases h3 with ⟨t, h⟩ | ⟨h, -⟩ <;> simp [h]
    rw [PCfg.top]
    dsimp only
    rw [if_neg h4]
    split
    · next heq1 heq2 =>
      rcases h3 with ⟨t, h⟩ | ⟨-, j, r', hj, hne⟩
      · rw [h] at heq1; cases heq1
      · rw [hj] at heq2; cases heq2; exact absurd rfl hne
    · rw [hn.1]
      exact hn.2

theorem top_define {l l1 l2 l3 : Nat} {sp sp' sp'' : List Item} (hs : Sp sp) (hs' : Sp sp') (hs'' : Sp sp'') {q name : Str} {t : Tok}
    (ht : LitTok q name t) {r : List Item} {vars : List Str} {trees trees' : GMap Root} {body root : Root} {s' : PS} {x : Option (GMap Root)}
    (hl : Ev fun n => P.itemList n 0 ⟨r, [[36]], trees⟩ = some (body, false, s')) (ha : addTree s'.trees name body = some trees')
    (hx : Ev fun n => P.top n ⟨s'.is, vars, trees'⟩ root = x) :
    Ev fun n => P.top n ⟨⟨.left, l⟩ :: (sp ++ ⟨.kw .define, l1⟩ :: (sp' ++ ⟨t, l2⟩ :: (sp'' ++ ⟨.right, l3⟩ :: r))), vars, trees⟩ root = x := by
  refine (hl.and hx).succ fun n hn => ?_
  rw [PCfg.top]
  dsimp only
  rw [if_neg (by simp), skip_sp hs, skip_solid (by simp)]
  dsimp only
  rw [PCfg.definition, skip_sp hs', skip_solid (litTok_ne ht)]
  dsimp only
  rw [tmplName_of ht]
  dsimp only
  rw [expect_right hs'']
  dsimp only
  rw [hn.1]
  dsimp only
  rw [ha]
  exact hn.2

end Verif.Tmpl
