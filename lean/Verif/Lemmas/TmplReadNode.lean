import Verif.Lemmas.TmplReadList
import Verif.Lemmas.GMap
/-!
# What the scanner and the parser make of written nodes
-/
namespace Verif.Tmpl
open Verif Verif.Xt

variable {C : Cfg} {P : PCfg} {K : Str → Prop}

/-! ## Templates by name -/

/-- The templates without the marks of empty ones. -/
def Er (R : GMap Root) (ds : Defs) : Prop := R.map (fun t => (t.1, t.2.map (·.1))) = ds

/-- The names differ from each other and from those of the templates. -/
def Fresh (trees : GMap Root) (ds : Defs) : Prop := (trees.map (·.1) ++ ds.map (·.1)).Nodup

theorem Er.names {R : GMap Root} {ds : Defs} (h : Er R ds) : ds.map (·.1) = R.map (·.1) := by
  rw [← h, List.map_map]; rfl

theorem Er.append {R R' : GMap Root} {ds ds' : Defs} (h : Er R ds) (h' : Er R' ds') : Er (R ++ R') (ds ++ ds') := by
  rw [Er, List.map_append, h, h']

theorem Fresh.left {trees : GMap Root} {ds ds' : Defs} (h : Fresh trees (ds ++ ds')) : Fresh trees ds := by
  rw [Fresh, List.map_append, ← List.append_assoc] at h
  exact (List.nodup_append.mp h).1

theorem Fresh.right {trees R : GMap Root} {ds ds' : Defs} (h : Fresh trees (ds ++ ds')) (hR : Er R ds) : Fresh (trees ++ R) ds' := by
  rw [Fresh, List.map_append, ← List.append_assoc, hR.names] at h
  rw [Fresh, List.map_append]; exact h

theorem add_fresh {trees : GMap Root} {name : Str} {ns : List Stmt} (h : Fresh trees [(name, ns)]) (root : Root) :
    addTree trees name root = some (trees ++ [(name, root)]) := by
  have hn : name ∉ trees.map (·.1) := by
    intro hm
    exact (List.nodup_append.mp h).2.2 name hm name (by simp) rfl
  have set_new : ∀ m : GMap Root, name ∉ m.map (·.1) → m.set name root = m ++ [(name, root)] := by
    intro m
    induction m with
    | nil => intro _; rfl
    | cons x m ih =>
      intro hm
      obtain ⟨k, v⟩ := x
      simp only [List.map_cons, List.mem_cons, not_or] at hm
      rw [GMap.set, if_neg (Ne.symm hm.1), ih hm.2]; rfl
  rw [addTree, (GMap.get?_eq_none trees name).mpr hn, set_new trees hn]

/-! ## Pipelines up to the right delimiter -/

theorem decl_solid {rg : Prop} {vars vars' : List Str} {dc core : Str} (hd : SpellDecl rg vars dc vars') (h : Solid core) : Solid (dc ++ core) := by
  cases hd with
  | none => exact h
  | one => exact .of (by decide)
  | two => exact .of (by decide)

/-- What the scanner and the parser make of a pipeline with the right delimiter. -/
def PipeOk (C : Cfg) (P : PCfg) (place : Place) (vars : List Str) (s : Str) (p : Pipe) (vars' : List Str) (c : Bool) : Prop :=
  (∀ r, Solid (s ++ r)) ∧ ∀ line r, ∃ i toks, i.line = line ∧ starts i.tok = true ∧ (∀ j ∈ i :: toks, Good j) ∧
    C.run (.at (s ++ r) line 0) = i :: toks ++ C.run (.out c r (line + breaks s)) ∧
    ∀ rest, Ev fun n => P.pipeline n place (i :: toks ++ rest) vars = some (p, rest, vars')

theorem pipe_ok (hC : Std C) (hK : Knows C K) (hN : Accepts P.num) {rg : Prop} {vars vars' : List Str} {dc s e : Str}
    {p : Pipe} {c : Bool} {place : Place} (hd : SpellDecl rg vars dc vars') (hrg : rg → place = .rangeP) (hpl : place ≠ .paren)
    (h : SpellPipe K vars' s p) (he : Close C.delims c e) : PipeOk C P place vars (dc ++ s ++ e) p vars' c := by
  have hp := pipe_check h
  obtain ⟨core, sp, rfl, hsp, hs, hr⟩ := read_pipe (P := P) hC hK hN h
  have e1 : ∀ r, dc ++ (core ++ sp) ++ e ++ r = dc ++ core ++ (sp ++ (e ++ r)) := by intro r; simp
  refine ⟨fun r => by rw [e1]; exact (decl_solid hd hs).append _, fun line r => ?_⟩
  obtain ⟨i, tl, hh⟩ := read_head (P := P) (place := place) hC hd hrg hs hp (fun line => hr line 0) line
  obtain ⟨k, hk⟩ := lex_blank_close hC hsp he r (line + breaks (dc ++ core))
  refine ⟨i, tl ++ (spaceTok sp (line + breaks (dc ++ core)) ++ [⟨.right, k⟩]), hh.ln, hh.start, ?_, ?_, fun rest => ?_⟩
  · rw [← List.cons_append]
    exact good_append hh.good (good_append (good_space _ _) (good_cons (good_of (by simp)) (by simp)))
  · rw [e1, hh.scan _ (follow_blank_close hC hsp he r), ← List.append_assoc sp, hk]
    have : line + breaks (dc ++ core) + breaks (sp ++ e) = line + breaks (dc ++ (core ++ sp) ++ e) := by
      simp only [breaks_append]; omega
    rw [this]
    simp
  · have := hh.pipe (spaceTok sp (line + breaks (dc ++ core))) ⟨.right, k⟩ rest (spaceTok_sp _ _) (by cases place <;> first | rfl | exact absurd rfl hpl)
    simpa using this

theorem close_ok (hC : Std C) {c : Bool} {sp e : Str} (hs : Blank sp) (he : Close C.delims c e) (r : Str) (line : Nat) :
    ∃ k, C.run (.at (sp ++ (e ++ r)) line 0) = spaceTok sp line ++ ⟨.right, k⟩ :: C.run (.out c r (line + breaks (sp ++ e))) := by
  rw [← List.append_assoc]; exact lex_blank_close hC hs he r line

/-- The keyword and the name at the beginning of `template`, `block` and `define`. -/
theorem read_named (hC : Std C) {b : Bool} {o sp w sp' q name : Str} {k : Kw} (ho : Open C.delims b o) (hsp : Blank sp) (hw : Ident w)
    (hk : C.word w = .kw k) (hsp' : Spaces sp') (hq : Literal q name) :
    ∃ t, LitTok q name t ∧ ∀ line y, OpenAt C b (o ++ sp ++ w ++ sp' ++ q ++ y) ∧
      C.run { rest := o ++ sp ++ w ++ sp' ++ q ++ y, line } =
        ⟨.left, line⟩ :: (spaceTok sp (line + breaks o) ++ ⟨.kw k, line + breaks (o ++ sp)⟩ :: (spaceTok sp' (line + breaks (o ++ sp)) ++
          ⟨t, line + breaks (o ++ sp ++ sp')⟩ :: C.run (.at y (line + breaks (o ++ sp ++ w ++ sp' ++ q)) 0))) := by
  obtain ⟨t, ht, hl⟩ := lex_literal hC hq
  refine ⟨t, ht, fun line y => ?_⟩
  have e1 : o ++ sp ++ w ++ sp' ++ q ++ y = o ++ (sp ++ (w ++ (sp' ++ (q ++ y)))) := by simp
  rw [e1]
  refine ⟨open_head ho hsp ((ident_solid hw).append _), ?_⟩
  rw [read_open hC ho hsp ((ident_solid hw).append _), lex_word hC hw (follow_spaces hsp' _).stop, hk,
    lex_spaces hC hsp'.1 ((literal_solid hq).append y), hl]
  have e2 : line + breaks (o ++ sp) + breaks sp' = line + breaks (o ++ sp ++ sp') := by
    simp only [breaks_append]; omega
  have e3 : line + breaks (o ++ sp ++ sp') + breaks q = line + breaks (o ++ sp ++ w ++ sp' ++ q) := by
    simp only [breaks_append, breaks_ident hw]; omega
  rw [e2, e3]

theorem good_lit {q name : Str} {t : Tok} (h : LitTok q name t) (l : Nat) : Good ⟨t, l⟩ := by
  rcases h.1 with rfl | rfl <;> exact good_of (by simp)

theorem good_left (l : Nat) : Good ⟨.left, l⟩ := good_of (by simp)
theorem good_right (l : Nat) : Good ⟨.right, l⟩ := good_of (by simp)
theorem good_key (k : Kw) (l : Nat) : Good ⟨.kw k, l⟩ := good_of (by simp)

/-! ## Nodes -/

/-- What the scanner and the parser make of a list of nodes. -/
def NodesOk (C : Cfg) (P : PCfg) (d : Nat) (vars : List Str) (before : Bool) (l : Nat) (s : Str) (ns : List Stmt) (ds : Defs) (vars' : List Str)
    (after : Bool) : Prop :=
  ∀ r, OpenAt C after r → ∃ toks xs R, (∀ j ∈ toks, Good j) ∧ xs.map (·.1) = ns ∧ Er R ds ∧
    C.run (.out before (s ++ r) l) = toks ++ C.run { rest := r, line := l + breaks s } ∧
    ∀ rest trees, Fresh trees ds → Steps P d ⟨toks ++ rest, vars, trees⟩ xs ⟨rest, vars', trees ++ R⟩

/-- What the scanner and the parser make of a text and a comment or node. -/
def PieceOk (C : Cfg) (P : PCfg) (d : Nat) (vars : List Str) (before : Bool) (l : Nat) (s : Str) (ns : List Stmt) (ds : Defs) (vars' : List Str)
    (after : Bool) : Prop :=
  ∀ r, ∃ toks xs R, (∀ j ∈ toks, Good j) ∧ xs.map (·.1) = ns ∧ Er R ds ∧
    C.run (.out before (s ++ r) l) = toks ++ C.run (.out after r (l + breaks s)) ∧
    ∀ rest trees, Fresh trees ds → Steps P d ⟨toks ++ rest, vars, trees⟩ xs ⟨rest, vars', trees ++ R⟩

/-- What the scanner and the parser make of a node. -/
def NodeOk (C : Cfg) (P : PCfg) (d : Nat) (vars : List Str) (b : Bool) (l : Nat) (s : Str) (n : Stmt) (ds : Defs) (vars' : List Str) (c : Bool) :
    Prop :=
  (∀ r, OpenAt C b (s ++ r)) ∧ ∀ r, ∃ toks R, (∀ j ∈ toks, Good j) ∧ Er R ds ∧
    C.run { rest := s ++ r, line := l } = toks ++ C.run (.out c r (l + breaks s)) ∧ (∀ rest, Plain (toks ++ rest)) ∧
    ∀ rest trees, Fresh trees ds → Ev fun m => P.textOrAction m d ⟨toks ++ rest, vars, trees⟩ = some (.stmt n false, ⟨rest, vars', trees ++ R⟩)

/-- The control structure of a keyword. -/
def Kwd (kw : Str) (c : Ctl) : Prop := kw = b!"if" ∧ c = .ifC ∨ kw = b!"range" ∧ c = .rangeC ∨ kw = b!"with" ∧ c = .withC

/-- What the scanner and the parser make of a control structure. -/
def ControlOk (C : Cfg) (P : PCfg) (kw : Str) (d : Nat) (vars : List Str) (l : Nat) (s : Str) (n : Stmt) (ds : Defs) (c : Bool) : Prop :=
  ∃ ctl, Kwd kw ctl ∧ (∀ r, Solid (s ++ r)) ∧ ∀ r, ∃ toks R, (∀ j ∈ toks, Good j) ∧ Er R ds ∧
    C.run (.at (s ++ r) l 0) = ⟨.kw ctl.kw, l⟩ :: toks ++ C.run (.out c r (l + breaks s)) ∧
    ∀ rest trees, Fresh trees ds → Ev fun m => P.control m ctl d ⟨toks ++ rest, vars, trees⟩ = some (.stmt n false, ⟨rest, vars, trees ++ R⟩)

/-- What the scanner and the parser make of the end of a control structure. -/
def TailOk (C : Cfg) (P : PCfg) (kw : Str) (d : Nat) (vars : List Str) (b : Bool) (l : Nat) (s : Str) (els : List Stmt) (ds : Defs) (c : Bool) :
    Prop :=
  (∀ r, OpenAt C b (s ++ r)) ∧ ∀ ctl, Kwd kw ctl → ∀ r, ∃ k tl xs R, (∀ j ∈ (⟨.left, k⟩ : Item) :: tl, Good j) ∧ xs.map (·.1) = els ∧ Er R ds ∧
    C.run { rest := s ++ r, line := l } = ⟨.left, k⟩ :: tl ++ C.run (.out c r (l + breaks s)) ∧
    ∀ rest trees, Fresh trees ds → ∃ vars', ∀ d', Closes P ctl d d' ⟨⟨.left, k⟩ :: tl ++ rest, vars, trees⟩ xs ⟨rest, vars', trees ++ R⟩

theorem gap_steps {toks : List Item} {ns : List Stmt} (h : GapToks toks ns) (d : Nat) : (∀ j ∈ toks, Good j) ∧ ∃ xs : Root, xs.map (·.1) = ns ∧
    ∀ rest vars trees, Steps P d ⟨toks ++ rest, vars, trees⟩ xs ⟨rest, vars, trees⟩ := by
  rcases h with ⟨rfl, rfl⟩ | ⟨s, k, rfl, rfl⟩
  · exact ⟨by simp, [], rfl, fun _ _ _ => .nil⟩
  · refine ⟨good_cons (good_of (by simp)) (by simp), [(.other, decide (GoStr.trimSpace s = []))], rfl, fun rest vars trees => ?_⟩
    exact .one ⟨_, _, rfl, .inl ⟨s, rfl⟩⟩ toa_text

theorem nodes_last (hC : Std C) {d : Nat} {vars : List Str} {before after : Bool} {l : Nat} {t : Str} {ns : List Stmt} (hf : Free C.left t)
    (hg : Gap before after t ns) : NodesOk C P d vars before l t ns [] vars after := by
  intro r hr
  obtain ⟨toks, ht, hs⟩ := lex_gap hC hf hg hr l
  obtain ⟨hgood, xs, hx, hst⟩ := gap_steps (P := P) ht d
  exact ⟨toks, xs, [], hgood, hx, rfl, hs, fun rest trees _ => by rw [List.append_nil]; exact hst rest vars trees⟩

theorem nodes_cons {d : Nat} {vars vars' vars'' : List Str} {before b after : Bool} {l : Nat} {s rest : Str} {ns ns' : List Stmt} {ds ds' : Defs}
    (h : PieceOk C P d vars before l s ns ds vars' b) (h' : NodesOk C P d vars' b (l + breaks s) rest ns' ds' vars'' after) :
    NodesOk C P d vars before l (s ++ rest) (ns ++ ns') (ds ++ ds') vars'' after := by
  intro r hr
  obtain ⟨t1, x1, R1, g1, m1, e1, s1, p1⟩ := h (rest ++ r)
  obtain ⟨t2, x2, R2, g2, m2, e2, s2, p2⟩ := h' r hr
  refine ⟨t1 ++ t2, x1 ++ x2, R1 ++ R2, good_append g1 g2, by rw [List.map_append, m1, m2], e1.append e2, ?_, fun more trees hfr => ?_⟩
  · rw [List.append_assoc, s1, s2, breaks_append]
    simp [Nat.add_assoc]
  · have h1 := p1 (t2 ++ more) trees hfr.left
    have h2 := p2 more (trees ++ R1) (hfr.right e1)
    rw [List.append_assoc, ← List.append_assoc trees]
    exact h1.append h2

theorem piece_comment (hC : Std C) {d : Nat} {vars : List Str} {before b after : Bool} {l : Nat} {t s : Str} {ns : List Stmt}
    (hf : Free C.left t) (hg : Gap before b t ns) (hc : Comment C.delims b s after) : PieceOk C P d vars before l (t ++ s) ns [] vars after := by
  intro r
  obtain ⟨toks, ht, hs⟩ := lex_gap hC hf hg (comment_open hC hc r) l
  obtain ⟨hgood, xs, hx, hst⟩ := gap_steps (P := P) ht d
  refine ⟨toks, xs, [], hgood, hx, rfl, ?_, fun rest trees _ => by rw [List.append_nil]; exact hst rest vars trees⟩
  rw [List.append_assoc, hs, lex_comment hC hc, breaks_append, Nat.add_assoc]

theorem piece_node (hC : Std C) {d : Nat} {vars vars' : List Str} {before b after : Bool} {l : Nat} {t s : Str} {ns : List Stmt} {n : Stmt}
    {ds : Defs} (hf : Free C.left t) (hg : Gap before b t ns) (h : NodeOk C P d vars b (l + breaks t) s n ds vars' after) :
    PieceOk C P d vars before l (t ++ s) (ns ++ [n]) ds vars' after := by
  intro r
  obtain ⟨toks, ht, hs⟩ := lex_gap hC hf hg (h.1 r) l
  obtain ⟨hgood, xs, hx, hst⟩ := gap_steps (P := P) ht d
  obtain ⟨t2, R, g2, e2, s2, hp, p2⟩ := h.2 r
  refine ⟨toks ++ t2, xs ++ [(n, false)], R, good_append hgood g2, by simp [hx], e2, ?_, fun rest trees hfr => ?_⟩
  · rw [List.append_assoc, hs, s2, breaks_append]
    simp [Nat.add_assoc]
  · rw [List.append_assoc]
    exact (hst (t2 ++ rest) vars trees).append (.one (hp rest) (p2 rest trees hfr))

theorem node_action (hC : Std C) {d : Nat} {vars vars' : List Str} {b c : Bool} {l : Nat} {o sp y : Str} {p : Pipe} (ho : Open C.delims b o)
    (hsp : Blank sp) (h : PipeOk C P .command vars y p vars' c) :
    NodeOk C P d vars b l (o ++ sp ++ y) (.action (l + breaks (o ++ sp)) p) [] vars' c := by
  have e1 : ∀ r, o ++ sp ++ y ++ r = o ++ (sp ++ (y ++ r)) := by intro r; simp
  refine ⟨fun r => by rw [e1]; exact open_head ho hsp (h.1 r), fun r => ?_⟩
  obtain ⟨i, toks, hi, hst, hg, hs, hp⟩ := h.2 (l + breaks (o ++ sp)) r
  refine ⟨⟨.left, l⟩ :: (spaceTok sp (l + breaks o) ++ i :: toks), [], ?_, rfl, ?_, fun rest => ?_, fun rest trees _ => ?_⟩
  · exact good_cons (good_left _) (good_append (good_space _ _) hg)
  · rw [e1, read_open hC ho hsp (h.1 r), hs, breaks_append (o ++ sp)]
    simp [Nat.add_assoc]
  · obtain ⟨h1, -, -, -, -, -, -, h8, -⟩ := starts_ne hst
    have := plain_left (l := l) (spaceTok_sp sp (l + breaks o)) h1 (h8 _) (toks ++ rest)
    simpa using this
  · have := toa_action (l := l) (d := d) (trees := trees) (spaceTok_sp sp (l + breaks o)) hst (hp rest)
    rw [hi] at this
    simpa using this

theorem node_leave (hC : Std C) (hK : Knows C K) {d : Nat} {vars : List Str} {b c : Bool} {l : Nat} {w s : Str}
    (hw : w = b!"break" ∨ w = b!"continue") (hn : ¬ K w) (hd : 0 < d) (h : Word C.delims w b s c) : NodeOk C P d vars b l s .other [] vars c := by
  have key : ∃ k, (k = .brk ∨ k = .cont) ∧ C.word w = .kw k := by
    rcases hw with rfl | rfl
    · refine ⟨.brk, .inl rfl, ?_⟩
      have : C.has b!"break" = false := by
        rw [Bool.eq_false_iff]; exact fun h => hn (hK.brk.mp h)
      simp [Cfg.word, keyword, this]
    · refine ⟨.cont, .inr rfl, ?_⟩
      have : C.has b!"continue" = false := by
        rw [Bool.eq_false_iff]; exact fun h => hn (hK.cont.mp h)
      simp [Cfg.word, keyword, this]
  have hid : Ident w := by
    rcases hw with rfl | rfl <;> exact ident_of (by simp) (by decide +kernel)
  obtain ⟨k, hk, hwk⟩ := key
  obtain ⟨h1, h2⟩ := read_word hC hid hwk h l
  refine ⟨h1, fun r => ?_⟩
  obtain ⟨toks, ht, hs⟩ := h2 r
  refine ⟨toks, [], good_kw ht, rfl, hs, fun rest => ?_, fun rest trees _ => ?_⟩
  · obtain ⟨l, sp, l1, sp', l2, h3, h4, rfl⟩ := ht
    have := plain_left (l := l) h3 (j := ⟨.kw k, l1⟩) (by simp) (by rcases hk with rfl | rfl <;> simp) (sp' ++ ⟨.right, l2⟩ :: rest)
    simpa using this
  · rw [List.append_nil]; exact toa_leave hd hk ht vars trees

theorem node_template (hC : Std C) {d : Nat} {vars : List Str} {b c : Bool} {l : Nat} {o sp sp' q name sp'' e : Str} (ho : Open C.delims b o)
    (hsp : Blank sp) (hsp' : Spaces sp') (hq : Literal q name) (hsp'' : Blank sp'') (he : Close C.delims c e) :
    NodeOk C P d vars b l (o ++ sp ++ b!"template" ++ sp' ++ q ++ sp'' ++ e) (.template (l + breaks (o ++ sp ++ sp')) []) [] vars c := by
  obtain ⟨t, ht, hh⟩ := read_named (C := C) (k := .template) hC ho hsp (ident_of (w := b!"template") (by simp) (by decide +kernel)) rfl hsp' hq
  have e1 : ∀ r, o ++ sp ++ b!"template" ++ sp' ++ q ++ sp'' ++ e ++ r = o ++ sp ++ b!"template" ++ sp' ++ q ++ (sp'' ++ (e ++ r)) := by
    intro r; simp
  refine ⟨fun r => by rw [e1]; exact (hh l _).1, fun r => ?_⟩
  obtain ⟨k, hk⟩ := close_ok hC hsp'' he r (l + breaks (o ++ sp ++ b!"template" ++ sp' ++ q))
  have e2 : l + breaks (o ++ sp ++ b!"template" ++ sp' ++ q) + breaks (sp'' ++ e) = l + breaks (o ++ sp ++ b!"template" ++ sp' ++ q ++ sp'' ++ e) := by
    simp only [breaks_append]; omega
  refine ⟨⟨.left, l⟩ :: (spaceTok sp (l + breaks o) ++ ⟨.kw .template, l + breaks (o ++ sp)⟩ :: (spaceTok sp' (l + breaks (o ++ sp)) ++
    ⟨t, l + breaks (o ++ sp ++ sp')⟩ :: (spaceTok sp'' (l + breaks (o ++ sp ++ b!"template" ++ sp' ++ q)) ++ [⟨.right, k⟩]))), [], ?_, rfl, ?_,
    fun rest => ?_, fun rest trees _ => ?_⟩
  · exact good_cons (good_left _) (good_append (good_space _ _) (good_cons (good_key _ _) (good_append (good_space _ _)
      (good_cons (good_lit ht _) (good_append (good_space _ _) (good_cons (good_right _) (by simp)))))))
  · rw [e1, (hh l _).2, hk, e2]
    simp
  · rw [List.cons_append, List.append_assoc, List.cons_append]
    exact plain_left (spaceTok_sp _ _) (by simp) (by simp) _
  · have := toa_template (P := P) (d := d) (l := l) (l1 := l + breaks (o ++ sp)) (l2 := l + breaks (o ++ sp ++ sp')) (l3 := k)
      (spaceTok_sp sp (l + breaks o)) (spaceTok_sp sp' (l + breaks (o ++ sp)))
      (spaceTok_sp sp'' (l + breaks (o ++ sp ++ b!"template" ++ sp' ++ q))) ht rest vars trees
    simpa using this

theorem node_templatePipe (hC : Std C) {d : Nat} {vars : List Str} {b c : Bool} {l : Nat} {o sp sp' q name sp'' y : Str} {p : Pipe} (ho : Open C.delims b o)
    (hsp : Blank sp) (hsp' : Spaces sp') (hq : Literal q name) (hsp'' : Spaces sp'') (h : PipeOk C P .templateP vars y p vars c) :
    NodeOk C P d vars b l (o ++ sp ++ b!"template" ++ sp' ++ q ++ sp'' ++ y) (.template (l + breaks (o ++ sp ++ sp')) p) [] vars c := by
  obtain ⟨t, ht, hh⟩ := read_named (C := C) (k := .template) hC ho hsp (ident_of (w := b!"template") (by simp) (by decide +kernel)) rfl hsp' hq
  have e1 : ∀ r, o ++ sp ++ b!"template" ++ sp' ++ q ++ sp'' ++ y ++ r = o ++ sp ++ b!"template" ++ sp' ++ q ++ (sp'' ++ (y ++ r)) := by
    intro r; simp
  refine ⟨fun r => by rw [e1]; exact (hh l _).1, fun r => ?_⟩
  obtain ⟨i, toks, hi, hst, hg, hs, hp⟩ := h.2 (l + breaks (o ++ sp ++ b!"template" ++ sp' ++ q) + breaks sp'') r
  have e2 : l + breaks (o ++ sp ++ b!"template" ++ sp' ++ q) + breaks sp'' + breaks y = l + breaks (o ++ sp ++ b!"template" ++ sp' ++ q ++ sp'' ++ y) := by
    simp only [breaks_append]; omega
  refine ⟨⟨.left, l⟩ :: (spaceTok sp (l + breaks o) ++ ⟨.kw .template, l + breaks (o ++ sp)⟩ :: (spaceTok sp' (l + breaks (o ++ sp)) ++
    ⟨t, l + breaks (o ++ sp ++ sp')⟩ :: (spaceTok sp'' (l + breaks (o ++ sp ++ b!"template" ++ sp' ++ q)) ++ i :: toks))), [], ?_, rfl, ?_,
    fun rest => ?_, fun rest trees _ => ?_⟩
  · exact good_cons (good_left _) (good_append (good_space _ _) (good_cons (good_key _ _) (good_append (good_space _ _)
      (good_cons (good_lit ht _) (good_append (good_space _ _) hg)))))
  · rw [e1, (hh l _).2, lex_spaces hC hsp''.1 (h.1 r), hs, e2]
    simp
  · rw [List.cons_append, List.append_assoc, List.cons_append]
    exact plain_left (spaceTok_sp _ _) (by simp) (by simp) _
  · have := toa_templatePipe (P := P) (d := d) (l := l) (l1 := l + breaks (o ++ sp)) (l2 := l + breaks (o ++ sp ++ sp'))
      (spaceTok_sp sp (l + breaks o)) (spaceTok_sp sp' (l + breaks (o ++ sp)))
      (spaceTok_sp sp'' (l + breaks (o ++ sp ++ b!"template" ++ sp' ++ q))) ht hst trees (hp rest)
    simpa using this

/-- The `end` of a list. -/
theorem word_end (hC : Std C) {b c : Bool} {s : Str} (h : Word C.delims b!"end" b s c) (line : Nat) : (∀ r, OpenAt C b (s ++ r)) ∧
    ∀ r, ∃ toks, KwToks .fin toks ∧ C.run { rest := s ++ r, line } = toks ++ C.run (.out c r (line + breaks s)) :=
  read_word hC (ident_of (by simp) (by decide +kernel)) rfl h line

theorem word_else (hC : Std C) {b c : Bool} {s : Str} (h : Word C.delims b!"else" b s c) (line : Nat) : (∀ r, OpenAt C b (s ++ r)) ∧
    ∀ r, ∃ toks, KwToks .els toks ∧ C.run { rest := s ++ r, line } = toks ++ C.run (.out c r (line + breaks s)) :=
  read_word hC (ident_of (by simp) (by decide +kernel)) rfl h line

theorem kwToks_left {k : Kw} {toks : List Item} (h : KwToks k toks) : ∃ l tl, toks = ⟨.left, l⟩ :: tl := by
  obtain ⟨l, sp, l1, sp', l2, hs, hs', rfl⟩ := h
  exact ⟨_, _, rfl⟩

/-- A list and its `end`. -/
theorem list_end (hC : Std C) {d : Nat} {vars vars' : List Str} {b' b'' c : Bool} {l : Nat} {body fin : Str} {ns : List Stmt} {ds : Defs}
    (h : NodesOk C P d vars b' l body ns ds vars' b'') (hw : Word C.delims b!"end" b'' fin c) (r : Str) :
    ∃ toks xs R, (∀ j ∈ toks, Good j) ∧ xs.map (·.1) = ns ∧ Er R ds ∧
      C.run (.out b' (body ++ fin ++ r) l) = toks ++ C.run (.out c r (l + breaks (body ++ fin))) ∧
      ∀ rest trees, Fresh trees ds → (∀ ctl : Ctl, ctl.again (toks ++ rest) = none) ∧
        Ev fun n => P.itemList n d ⟨toks ++ rest, vars, trees⟩ = some (xs, false, ⟨rest, vars', trees ++ R⟩) := by
  obtain ⟨h1, h2⟩ := word_end hC hw (l + breaks body)
  obtain ⟨toks, ht, hs⟩ := h2 r
  obtain ⟨t1, xs, R, g, m, e, s1, p⟩ := h (fin ++ r) (h1 r)
  refine ⟨t1 ++ toks, xs, R, good_append g (good_kw ht), m, e, ?_, fun rest trees hfr => ?_⟩
  · rw [List.append_assoc body, s1, hs, breaks_append]
    simp [Nat.add_assoc]
  · have hl : ∃ l r, (⟨toks ++ rest, vars', trees ++ R⟩ : PS).is = ⟨.left, l⟩ :: r := by
      obtain ⟨l, tl, rfl⟩ := kwToks_left ht
      exact ⟨_, _, rfl⟩
    have hst := p (toks ++ rest) trees hfr
    rw [List.append_assoc]
    exact ⟨fun ctl => steps_again hst hl ctl, list_steps hst hl (.fin (toa_end ht vars' (trees ++ R)))⟩

theorem node_block (hC : Std C) {d : Nat} {vars vars' : List Str} {b b' b'' c : Bool} {l : Nat} {o sp sp' q name sp'' y body fin : Str} {p : Pipe}
    {ns : List Stmt} {ds : Defs} (ho : Open C.delims b o) (hsp : Blank sp) (hsp' : Spaces sp') (hq : Literal q name) (hsp'' : Spaces sp'')
    (h : PipeOk C P .blockP vars y p vars b')
    (hb : NodesOk C P 0 [b!"$"] b' (l + breaks (o ++ sp ++ b!"block" ++ sp' ++ q ++ sp'' ++ y)) body ns ds vars' b'')
    (hw : Word C.delims b!"end" b'' fin c) :
    NodeOk C P d vars b l (o ++ sp ++ b!"block" ++ sp' ++ q ++ sp'' ++ y ++ body ++ fin) (.template (l + breaks (o ++ sp ++ sp')) p)
      (ds ++ [(name, ns)]) vars c := by
  obtain ⟨t, ht, hh⟩ := read_named (C := C) (k := .block) hC ho hsp (ident_of (w := b!"block") (by simp) (by decide +kernel)) rfl hsp' hq
  have e1 : ∀ r, o ++ sp ++ b!"block" ++ sp' ++ q ++ sp'' ++ y ++ body ++ fin ++ r =
      o ++ sp ++ b!"block" ++ sp' ++ q ++ (sp'' ++ (y ++ (body ++ fin ++ r))) := by
    intro r; simp
  refine ⟨fun r => by rw [e1]; exact (hh l _).1, fun r => ?_⟩
  obtain ⟨i, toks, hi, hst, hg, hs, hp⟩ := h.2 (l + breaks (o ++ sp ++ b!"block" ++ sp' ++ q) + breaks sp'') (body ++ fin ++ r)
  have e2 : l + breaks (o ++ sp ++ b!"block" ++ sp' ++ q) + breaks sp'' + breaks y = l + breaks (o ++ sp ++ b!"block" ++ sp' ++ q ++ sp'' ++ y) := by
    simp only [breaks_append]; omega
  have e3 : l + breaks (o ++ sp ++ b!"block" ++ sp' ++ q ++ sp'' ++ y) + breaks (body ++ fin) =
      l + breaks (o ++ sp ++ b!"block" ++ sp' ++ q ++ sp'' ++ y ++ body ++ fin) := by
    simp only [breaks_append]; omega
  obtain ⟨t2, xs, R, g2, m2, er, s2, p2⟩ := list_end hC hb hw r
  refine ⟨⟨.left, l⟩ :: (spaceTok sp (l + breaks o) ++ ⟨.kw .block, l + breaks (o ++ sp)⟩ :: (spaceTok sp' (l + breaks (o ++ sp)) ++
    ⟨t, l + breaks (o ++ sp ++ sp')⟩ :: (spaceTok sp'' (l + breaks (o ++ sp ++ b!"block" ++ sp' ++ q)) ++ (i :: toks ++ t2)))),
    R ++ [(name, xs)], ?_, er.append (by rw [← m2]; rfl), ?_, fun rest => ?_, fun rest trees hfr => ?_⟩
  · exact good_cons (good_left _) (good_append (good_space _ _) (good_cons (good_key _ _) (good_append (good_space _ _)
      (good_cons (good_lit ht _) (good_append (good_space _ _) (good_append hg g2))))))
  · rw [e1, (hh l _).2, lex_spaces hC hsp''.1 (h.1 _), hs, e2, s2, e3]
    simp
  · rw [List.cons_append, List.append_assoc, List.cons_append]
    exact plain_left (spaceTok_sp _ _) (by simp) (by simp) _
  · have hadd := add_fresh (hfr.right er) xs
    have := toa_block (P := P) (d := d) (l := l) (l1 := l + breaks (o ++ sp)) (l2 := l + breaks (o ++ sp ++ sp'))
      (spaceTok_sp sp (l + breaks o)) (spaceTok_sp sp' (l + breaks (o ++ sp)))
      (spaceTok_sp sp'' (l + breaks (o ++ sp ++ b!"block" ++ sp' ++ q))) ht (hp (t2 ++ rest)) (p2 rest trees hfr.left).2 hadd
    simpa using this

theorem node_control (hC : Std C) {d : Nat} {vars : List Str} {b c : Bool} {l : Nat} {o sp kw s : Str} {n : Stmt} {ds : Defs} (ho : Open C.delims b o)
    (hsp : Blank sp) (h : ControlOk C P kw d vars (l + breaks (o ++ sp)) s n ds c) : NodeOk C P d vars b l (o ++ sp ++ s) n ds vars c := by
  obtain ⟨ctl, -, hsol, h⟩ := h
  have e1 : ∀ r, o ++ sp ++ s ++ r = o ++ (sp ++ (s ++ r)) := by intro r; simp
  refine ⟨fun r => by rw [e1]; exact open_head ho hsp (hsol r), fun r => ?_⟩
  obtain ⟨toks, R, g, er, hs, p⟩ := h r
  refine ⟨⟨.left, l⟩ :: (spaceTok sp (l + breaks o) ++ ⟨.kw ctl.kw, l + breaks (o ++ sp)⟩ :: toks), R, ?_, er, ?_, fun rest => ?_,
    fun rest trees hfr => ?_⟩
  · exact good_cons (good_left _) (good_append (good_space _ _) (good_cons (good_key _ _) g))
  · rw [e1, read_open hC ho hsp (hsol r), hs, breaks_append (o ++ sp)]
    simp [Nat.add_assoc]
  · rw [List.cons_append, List.append_assoc, List.cons_append]
    exact plain_left (spaceTok_sp _ _) (by simp) (by cases ctl <;> simp [Ctl.kw]) _
  · have := toa_control (P := P) (l := l) (l1 := l + breaks (o ++ sp)) (spaceTok_sp sp (l + breaks o)) ctl (p rest trees hfr)
    simpa using this

theorem kwd_ident {kw : Str} {c : Ctl} (h : Kwd kw c) : Ident kw ∧ C.word kw = .kw c.kw := by
  rcases h with ⟨rfl, rfl⟩ | ⟨rfl, rfl⟩ | ⟨rfl, rfl⟩ <;> exact ⟨ident_of (by simp) (by decide +kernel), rfl⟩

theorem control_mk (hC : Std C) {d : Nat} {vars vars' vars'' : List Str} {b' b'' c : Bool} {l : Nat} {kw sp' y body tail : Str} {p : Pipe}
    {ns els : List Stmt} {ds ds' : Defs} {mk : Nat → Pipe → List Stmt → List Stmt → Stmt} (hk : Control kw mk) (hsp' : Spaces sp')
    (h : ∀ place, (kw = b!"range" → place = .rangeP) → place ≠ .paren → PipeOk C P place vars y p vars' b')
    (hb : NodesOk C P (if kw = b!"range" then d + 1 else d) vars' b' (l + breaks (kw ++ sp' ++ y)) body ns ds vars'' b'')
    (ht : TailOk C P kw d vars'' b'' (l + breaks (kw ++ sp' ++ y ++ body)) tail els ds' c) :
    ControlOk C P kw d vars l (kw ++ sp' ++ y ++ body ++ tail) (mk (l + breaks (kw ++ sp')) p ns els) (ds ++ ds') c := by
  obtain ⟨ctl, hctl, hd, hmk, hrg⟩ : ∃ ctl, Kwd kw ctl ∧ (if kw = b!"range" then d + 1 else d) = (if ctl = Ctl.rangeC then d + 1 else d) ∧
      (∀ line body els, ctl.stmt line p body els = mk line p (body.map (·.1)) (els.map (·.1))) ∧ (kw = b!"range" → ctl.place = .rangeP) := by
    cases hk with
    | ifC => exact ⟨.ifC, .inl ⟨rfl, rfl⟩, by simp, fun _ _ _ => rfl, by simp⟩
    | rangeC => exact ⟨.rangeC, .inr (.inl ⟨rfl, rfl⟩), by simp, fun _ _ _ => rfl, fun _ => rfl⟩
    | withC => exact ⟨.withC, .inr (.inr ⟨rfl, rfl⟩), by simp, fun _ _ _ => rfl, by simp⟩
  have hpl : ctl.place ≠ .paren := by cases ctl <;> simp [Ctl.place]
  obtain ⟨hid, hwd⟩ := kwd_ident (C := C) hctl
  have h := h ctl.place hrg hpl
  rw [hd] at hb
  have e1 : ∀ r, kw ++ sp' ++ y ++ body ++ tail ++ r = kw ++ (sp' ++ (y ++ (body ++ (tail ++ r)))) := by intro r; simp
  refine ⟨ctl, hctl, fun r => by rw [e1]; exact (ident_solid hid).append _, fun r => ?_⟩
  obtain ⟨i, toks, hi, hst, hg, hs, hp⟩ := h.2 (l + breaks sp') (body ++ (tail ++ r))
  obtain ⟨k, tl, els', R', g3, m3, er3, s3, p3⟩ := ht.2 ctl hctl r
  obtain ⟨t2, xs, R, g2, m2, er, s2, p2⟩ := hb (tail ++ r) (ht.1 r)
  refine ⟨spaceTok sp' l ++ (i :: toks ++ (t2 ++ ⟨.left, k⟩ :: tl)), R ++ R', ?_, er.append er3, ?_, fun rest trees hfr => ?_⟩
  · exact good_append (good_space _ _) (good_append hg (good_append g2 g3))
  · have hz := breaks_ident hid
    have e2 : l + breaks sp' + breaks y = l + breaks (kw ++ sp' ++ y) := by simp only [breaks_append]; omega
    have e3 : l + breaks (kw ++ sp' ++ y) + breaks body = l + breaks (kw ++ sp' ++ y ++ body) := by simp only [breaks_append]; omega
    have e4 : l + breaks (kw ++ sp' ++ y ++ body) + breaks tail = l + breaks (kw ++ sp' ++ y ++ body ++ tail) := by
      simp only [breaks_append]; omega
    rw [e1, lex_word hC hid (follow_spaces hsp' _).stop, hwd, lex_spaces hC hsp'.1 (h.1 _), hs, e2, s2, e3, s3, e4]
    simp
  · obtain ⟨vars3, hcl⟩ := p3 rest (trees ++ R) (hfr.right er)
    have hc := control_of (P := P) (c := ctl) (d := d) (is := i :: toks ++ (t2 ++ ((⟨.left, k⟩ : Item) :: tl ++ rest))) (vars := vars) (hp _)
      (p2 _ trees hfr.left) ⟨_, _, rfl⟩ (hcl _)
    rw [hmk, m2, m3] at hc
    have hline : lineOf (i :: toks ++ (t2 ++ ((⟨.left, k⟩ : Item) :: tl ++ rest))) = l + breaks (kw ++ sp') := by
      rw [lineOf, List.cons_append, skip_solid (starts_ne hst).1]
      dsimp only
      rw [hi, breaks_append, breaks_ident hid, Nat.zero_add]
    rw [hline] at hc
    have e5 : spaceTok sp' l ++ (i :: toks ++ (t2 ++ ⟨.left, k⟩ :: tl)) ++ rest =
        spaceTok sp' l ++ (i :: toks ++ (t2 ++ ((⟨.left, k⟩ : Item) :: tl ++ rest))) := by simp
    rw [e5]
    refine hc.mono fun n hn => ?_
    have : P.control n ctl d ⟨spaceTok sp' l ++ (i :: toks ++ (t2 ++ ((⟨.left, k⟩ : Item) :: tl ++ rest))), vars, trees⟩ =
        P.control n ctl d ⟨i :: toks ++ (t2 ++ ((⟨.left, k⟩ : Item) :: tl ++ rest)), vars, trees⟩ := by
      cases n with
      | zero => rw [PCfg.control, PCfg.control]
      | succ n =>
        rw [PCfg.control, PCfg.control]
        dsimp only
        rw [pipeline_sp (spaceTok_sp _ _), lineOf, lineOf, skip_sp (spaceTok_sp _ _)]
    rw [this, hn]
    simp

theorem tail_fin (hC : Std C) {kw : Str} {d : Nat} {vars : List Str} {b c : Bool} {l : Nat} {s : Str} (h : Word C.delims b!"end" b s c) :
    TailOk C P kw d vars b l s [] [] c := by
  obtain ⟨h1, h2⟩ := word_end hC h l
  refine ⟨h1, fun ctl _ r => ?_⟩
  obtain ⟨toks, ht, hs⟩ := h2 r
  obtain ⟨k, tl, rfl⟩ := kwToks_left ht
  refine ⟨k, tl, [], [], good_kw ht, rfl, rfl, hs, fun rest trees _ => ⟨vars, fun d' => ?_⟩⟩
  rw [List.append_nil]
  exact .fin (toa_end ht vars trees)

theorem tail_els (hC : Std C) {kw : Str} {d : Nat} {vars vars' : List Str} {b b' b'' c : Bool} {l : Nat} {s body fin : Str} {ns : List Stmt}
    {ds : Defs} (h : Word C.delims b!"else" b s b') (hb : NodesOk C P d vars b' (l + breaks s) body ns ds vars' b'') (hw : Word C.delims b!"end" b'' fin c) :
    TailOk C P kw d vars b l (s ++ body ++ fin) ns ds c := by
  obtain ⟨h1, h2⟩ := word_else hC h l
  have e1 : ∀ r, s ++ body ++ fin ++ r = s ++ (body ++ fin ++ r) := by intro r; simp
  refine ⟨fun r => by rw [e1]; exact h1 _, fun ctl _ r => ?_⟩
  obtain ⟨toks, ht, hs⟩ := h2 (body ++ fin ++ r)
  obtain ⟨t2, xs, R, g2, m2, er, s2, p2⟩ := list_end hC hb hw r
  obtain ⟨k, tl, rfl⟩ := kwToks_left ht
  refine ⟨k, tl ++ t2, xs, R, good_append (good_kw ht) g2, m2, er, ?_, fun rest trees hfr => ⟨vars', fun d' => ?_⟩⟩
  · rw [e1, hs, s2]
    have : l + breaks s + breaks (body ++ fin) = l + breaks (s ++ body ++ fin) := by simp only [breaks_append]; omega
    rw [this]
    simp
  · have := toa_else (P := P) (d := d') ht vars trees (r := t2 ++ rest)
    refine .els (s1 := ⟨t2 ++ rest, vars, trees⟩) ?_ ((p2 rest trees hfr).1 ctl) (p2 rest trees hfr).2
    simpa using this

theorem tail_again (hC : Std C) {kw : Str} {d : Nat} {vars : List Str} {b c : Bool} {l : Nat} {o sp sp' s : Str} {n : Stmt} {ds : Defs}
    (hkw : kw = b!"if" ∨ kw = b!"with") (ho : Open C.delims b o) (hsp : Blank sp) (hsp' : Spaces sp')
    (h : ControlOk C P kw d vars (l + breaks (o ++ sp ++ sp')) s n ds c) :
    TailOk C P kw d vars b l (o ++ sp ++ b!"else" ++ sp' ++ s) [n] ds c := by
  obtain ⟨ctl, hctl, hsol, h⟩ := h
  have hid : Ident b!"else" := ident_of (by simp) (by decide +kernel)
  have e1 : ∀ r, o ++ sp ++ b!"else" ++ sp' ++ s ++ r = o ++ (sp ++ (b!"else" ++ (sp' ++ (s ++ r)))) := by intro r; simp
  refine ⟨fun r => by rw [e1]; exact open_head ho hsp ((ident_solid hid).append _), fun ctl' hctl' r => ?_⟩
  have hk : ctl.kw = .ifK ∨ ctl.kw = .withK := by
    rcases hkw with rfl | rfl <;> rcases hctl with ⟨hx, rfl⟩ | ⟨hx, rfl⟩ | ⟨hx, rfl⟩ <;> simp [Ctl.kw] at hx ⊢
  have heq : ctl' = ctl := by
    rcases hctl with ⟨rfl, rfl⟩ | ⟨rfl, rfl⟩ | ⟨rfl, rfl⟩ <;> rcases hctl' with ⟨hx, rfl⟩ | ⟨hx, rfl⟩ | ⟨hx, rfl⟩ <;> simp at hx ⊢
  subst heq
  obtain ⟨toks, R, g, er, hs, p⟩ := h r
  refine ⟨l, spaceTok sp (l + breaks o) ++ ⟨.kw .els, l + breaks (o ++ sp)⟩ :: (spaceTok sp' (l + breaks (o ++ sp)) ++
    ⟨.kw ctl'.kw, l + breaks (o ++ sp ++ sp')⟩ :: toks), [(n, false)], R, ?_, rfl, er, ?_, fun rest trees hfr => ⟨vars, fun d' => ?_⟩⟩
  · exact good_cons (good_left _) (good_append (good_space _ _) (good_cons (good_key _ _) (good_append (good_space _ _)
      (good_cons (good_key _ _) g))))
  · have e2 : l + breaks (o ++ sp) + breaks sp' = l + breaks (o ++ sp ++ sp') := by simp only [breaks_append]; omega
    have e3 : l + breaks (o ++ sp ++ sp') + breaks s = l + breaks (o ++ sp ++ b!"else" ++ sp' ++ s) := by
      simp only [breaks_append, breaks_ident hid]; omega
    rw [e1, read_open hC ho hsp ((ident_solid hid).append _), lex_word hC hid (follow_spaces hsp' _).stop, show C.word b!"else" = .kw .els from rfl,
      lex_spaces hC hsp'.1 (hsol _), e2, hs, e3]
    simp
  · have := toa_again (P := P) (d := d') (l := l) (l1 := l + breaks (o ++ sp)) (l2 := l + breaks (o ++ sp ++ sp'))
      (spaceTok_sp sp (l + breaks o)) (spaceTok_sp sp' (l + breaks (o ++ sp))) hk (toks ++ rest) vars trees
    refine .again (s1 := ⟨⟨.kw ctl'.kw, l + breaks (o ++ sp ++ sp')⟩ :: (toks ++ rest), vars, trees⟩) (r := toks ++ rest) ?_ ?_ (p rest trees hfr)
    · simpa using this
    · cases ctl' with
      | rangeC => simp [Ctl.kw] at hk
      | _ => rfl

mutual
theorem read_nodes (hC : Std C) (hK : Knows C K) (hN : Accepts P.num) :
    ∀ {d vars before l s ns ds vars' after}, SpellNodes K C.delims d vars before l s ns ds vars' after → NodesOk C P d vars before l s ns ds vars' after
  | _, _, _, _, _, _, _, _, _, .last hf hg => nodes_last hC hf hg
  | _, _, _, _, _, _, _, _, _, .cons h h' => nodes_cons (read_piece hC hK hN h) (read_nodes hC hK hN h')
theorem read_piece (hC : Std C) (hK : Knows C K) (hN : Accepts P.num) :
    ∀ {d vars before l s ns ds vars' after}, SpellPiece K C.delims d vars before l s ns ds vars' after → PieceOk C P d vars before l s ns ds vars' after
  | _, _, _, _, _, _, _, _, _, .comment hf hg hc => piece_comment hC hf hg hc
  | _, _, _, _, _, _, _, _, _, .node hf hg h => piece_node hC hf hg (read_node hC hK hN h)
theorem read_node (hC : Std C) (hK : Knows C K) (hN : Accepts P.num) :
    ∀ {d vars b l s n ds vars' c}, SpellNode K C.delims d vars b l s n ds vars' c → NodeOk C P d vars b l s n ds vars' c
  | d, _, _, l, _, _, _, _, _, .action ho hsp hd hp he => by
    have := node_action (l := l) (d := d) hC ho hsp (pipe_ok (P := P) (place := .command) hC hK hN hd (by simp) (by simp) hp he)
    simpa [List.append_assoc] using this
  | _, _, _, _, _, _, _, _, _, .leave hw hn hd h => node_leave hC hK hw hn hd h
  | _, _, _, _, _, _, _, _, _, .template ho hsp hsp' hq hsp'' he => node_template hC ho hsp hsp' hq hsp'' he
  | d, _, _, l, _, _, _, _, _, .templatePipe ho hsp hsp' hq hsp'' hp he => by
    have := node_templatePipe (l := l) (d := d) hC ho hsp hsp' hq hsp''
      (pipe_ok (P := P) (place := .templateP) hC hK hN (.none (range := False)) (by simp) (by simp) hp he)
    simpa [List.append_assoc] using this
  | d, _, _, l, _, _, _, _, _, .block ho hsp hsp' hq hsp'' hp he hb hw => by
    have hb := read_nodes hC hK hN hb
    have := node_block (l := l) (d := d) hC ho hsp hsp' hq hsp''
      (pipe_ok (P := P) (place := .blockP) hC hK hN (.none (range := False)) (by simp) (by simp) hp he)
      (by simpa [List.append_assoc] using hb) hw
    simpa [List.append_assoc] using this
  | _, _, _, _, _, _, _, _, _, .control ho hsp h => node_control hC ho hsp (read_control hC hK hN h)
theorem read_control (hC : Std C) (hK : Knows C K) (hN : Accepts P.num) :
    ∀ {kw d vars l s n ds c}, SpellControl K C.delims kw d vars l s n ds c → ControlOk C P kw d vars l s n ds c
  | _, d, _, l, _, _, _, _, .mk (mk := m) hk hsp' hd hp he hb ht => by
    have hb := read_nodes hC hK hN hb
    have ht := read_tail hC hK hN ht
    have := control_mk (l := l) (d := d) hC hk hsp' (fun place h1 h2 => pipe_ok (P := P) (place := place) hC hK hN hd h1 h2 hp he)
      (by simpa [List.append_assoc] using hb) (by simpa [List.append_assoc] using ht)
    simpa [List.append_assoc] using this
theorem read_tail (hC : Std C) (hK : Knows C K) (hN : Accepts P.num) :
    ∀ {kw d vars b l s els ds c}, SpellTail K C.delims kw d vars b l s els ds c → TailOk C P kw d vars b l s els ds c
  | _, _, _, _, _, _, _, _, _, .fin h => tail_fin hC h
  | _, _, _, _, _, _, _, _, _, .els h hb hw => tail_els hC h (read_nodes hC hK hN hb) hw
  | _, _, _, _, _, _, _, _, _, .again hkw ho hsp hsp' h => tail_again hC hkw ho hsp hsp' (read_control hC hK hN h)
end

end Verif.Tmpl
