import Verif.Model.TmplParse
/-!
# What the parser of templates reads

Every function of the parser leaves a part of its items, and never reads over the name of an unknown
function.
-/
namespace Verif.Tmpl
open Verif Verif.Xt

/-- The item is an identifier that is not a function. -/
def Unknown (i : Item) : Prop := ∃ w, i.tok = .ident w false

/-- There is an identifier that is not a function. -/
def Bad (is : List Item) : Prop := ∃ i ∈ is, Unknown i

/-- At least `k` of the items are read, and no unknown function. -/
def Eats (k : Nat) (is is' : List Item) : Prop :=
  is'.length + k ≤ is.length ∧ (Bad is → Bad is') ∧ is'.Sublist is

theorem Eats.refl (is : List Item) : Eats 0 is is := ⟨Nat.le_refl _, id, .refl _⟩

theorem Eats.trans {j k : Nat} {a b c : List Item} (h : Eats j a b) (h' : Eats k b c) : Eats (j + k) a c :=
  ⟨by have := h.1; have := h'.1; omega, fun hb => h'.2.1 (h.2.1 hb), h'.2.2.trans h.2.2⟩

theorem Eats.le {j k : Nat} {a b : List Item} (h : Eats j a b) (hk : k ≤ j) : Eats k a b :=
  ⟨by have := h.1; omega, h.2⟩

theorem Eats.cons {i : Item} (h : ¬Unknown i) (is : List Item) : Eats 1 (i :: is) is := by
  refine ⟨by simp, ?_, List.sublist_cons_self _ _⟩
  rintro ⟨j, hj, hu⟩
  rcases List.mem_cons.mp hj with rfl | hj
  · exact absurd hu h
  · exact ⟨j, hj, hu⟩

theorem Eats.of_cons {i : Item} {t : Tok} (h : i.tok = t) (ht : ∀ w, t ≠ .ident w false) (is : List Item) :
    Eats 1 (i :: is) is := Eats.cons (fun ⟨w, hw⟩ => ht w (h ▸ hw)) is

theorem Eats.tok {t : Tok} {l : Nat} (ht : ∀ w, t ≠ .ident w false) (is : List Item) : Eats 1 (⟨t, l⟩ :: is) is :=
  Eats.of_cons rfl ht is

theorem skip_eats : ∀ is : List Item, Eats 0 is (skip is)
  | [] => Eats.refl _
  | i :: is => by
    rw [skip.eq_def]
    split
    · next l is' h =>
      cases h
      exact ((Eats.tok (by simp) is).trans (skip_eats is)).le (by omega)
    · exact Eats.refl _

theorem skip_cons {is r : List Item} {i : Item} (h : skip is = i :: r) : Eats 0 is (i :: r) := h ▸ skip_eats is

theorem skip_tok {is r : List Item} {i : Item} {t : Tok} (h : skip is = i :: r) (hi : i.tok = t)
    (ht : ∀ w, t ≠ .ident w false) : Eats 1 is r := ((skip_cons h).trans (Eats.of_cons hi ht r)).le (by omega)

theorem decl_eats {p : Place} {second b : Bool} {is is' : List Item} {vars vars' : List Str}
    (h : decl p second is vars = some (is', vars', b)) : Eats 0 is is' := by
  unfold decl at h
  split at h
  · next v vl r hs =>
    have h1 := skip_cons hs
    have h2 : Eats 1 (⟨.var v, vl⟩ :: r) r := Eats.tok (by simp) r
    split at h
    · next hr => cases h; exact (h1.trans (h2.trans (skip_tok hr rfl (by simp)))).le (by omega)
    · next hr => cases h; exact (h1.trans (h2.trans (skip_tok hr rfl (by simp)))).le (by omega)
    · next r' hr =>
      have h3 := (h1.trans (h2.trans (skip_tok hr rfl (by simp)))).le (k := 0) (by omega)
      split at h
      · split at h
        · cases h; exact h3
        · cases h; exact h3
        · cases h; exact h3
        · cases h
      · cases h
    · split at h
      · next sl r' _ _ _ =>
        cases h
        refine Eats.trans (k := 0) h1 ?_
        have h4 : Eats 0 r' (skip (⟨.space, sl⟩ :: r')) := by
          rw [skip]; exact skip_eats r'
        refine ⟨by have := h4.1; simp only [List.length_cons]; omega, ?_, (((h4.2.2.cons_cons _)).cons_cons _)⟩
        rintro ⟨i, hi, hu⟩
        have : Bad (skip (⟨.space, sl⟩ :: r')) := by
          apply h4.2.1
          rcases List.mem_cons.mp hi with rfl | hi
          · obtain ⟨w, hw⟩ := hu; cases hw
          rcases List.mem_cons.mp hi with rfl | hi
          · obtain ⟨w, hw⟩ := hu; cases hw
          · exact ⟨i, hi, hu⟩
        obtain ⟨j, hj, hu⟩ := this
        exact ⟨j, by simp [hj], hu⟩
      · cases h
        refine Eats.trans (k := 0) h1 ?_
        have h4 := skip_eats r
        refine ⟨by have := h4.1; simp only [List.length_cons]; omega, ?_, h4.2.2.cons_cons _⟩
        intro hb
        obtain ⟨j, hj, hu⟩ := h4.2.1 (h2.2.1 hb)
        exact ⟨j, by simp [hj], hu⟩
  · cases h; exact skip_eats is

theorem decls_eats {p : Place} {is is' : List Item} {vars vars' : List Str} (h : decls p is vars = some (is', vars')) :
    Eats 0 is is' := by
  unfold decls at h
  split at h
  · cases h
  · next h1 => cases h; exact decl_eats h1
  · next h1 =>
    rw [Option.map_eq_some_iff] at h
    obtain ⟨⟨a, b, c⟩, h2, h3⟩ := h
    cases h3
    exact (decl_eats h1).trans (decl_eats h2)

theorem expectRight_eats {is r : List Item} (h : expectRight is = some r) : Eats 1 is r := by
  unfold expectRight at h
  split at h
  · next h' => cases h; exact skip_tok h' rfl (by simp)
  · cases h

theorem fieldRun_eats : ∀ is : List Item, Eats 0 is (fieldRun is).2
  | [] => Eats.refl _
  | i :: is => by
    rw [fieldRun.eq_def]
    split
    · next f l is' h =>
      cases h
      exact ((Eats.tok (by simp) is).trans (fieldRun_eats is)).le (by omega)
    · exact Eats.refl _

variable {P : PCfg}

/-- What the functions for pipelines read. -/
structure PipeEats (P : PCfg) (n : Nat) : Prop where
  pipeline : ∀ {p is vars cs is' vars'}, P.pipeline n p is vars = some (cs, is', vars') → Eats 1 is is'
  cmds : ∀ {p is vars cs is' vars'}, P.cmds n p is vars = some (cs, is', vars') → Eats 1 is is'
  command : ∀ {is vars c is' vars'}, P.command n is vars = some (c, is', vars') → Eats (if c = [] then 0 else 1) is is'
  operand : ∀ {is vars a is' vars'}, P.operand n is vars = some (a, is', vars') → Eats (if a = none then 0 else 1) is is'
  term : ∀ {is vars a is' vars'}, P.term n is vars = some (a, is', vars') → Eats (if a = none then 0 else 1) is is'

theorem ends_tok {p : Place} {t : Tok} (h : p.ends t = true) : ∀ w, t ≠ .ident w false := by
  rintro w rfl
  cases p <;> simp [Place.ends] at h

theorem term_eats {n : Nat} (ih : PipeEats P n) {is is' : List Item} {vars vars' : List Str} {a : Option Arg}
    (h : P.term (n + 1) is vars = some (a, is', vars')) : Eats (if a = none then 0 else 1) is is' := by
  rw [PCfg.term] at h
  split at h
  · cases h
  · next i r hs =>
    split at h
    · next hi =>
      split at h
      · next hk =>
        cases h
        rw [hk] at hi
        exact skip_tok hs hi (by simp)
      · cases h
    · next hi => cases h; exact skip_tok hs hi (by simp)
    · next hi => cases h; exact skip_tok hs hi (by simp)
    · next hi =>
      split at h
      · cases h; exact skip_tok hs hi (by simp)
      · cases h
    · next hi => cases h; exact skip_tok hs hi (by simp)
    · next hi => cases h; exact skip_tok hs hi (by simp)
    · next hi =>
      split at h
      · cases h; exact skip_tok hs hi (by simp)
      · cases h
    · next hi =>
      split at h
      · cases h; exact skip_tok hs hi (by simp)
      · cases h
    · next hi =>
      split at h
      · cases h; exact skip_tok hs hi (by simp)
      · cases h
    · next hi =>
      split at h
      · cases h
      · next hp =>
        cases h
        exact ((skip_tok hs hi (by simp)).trans (ih.pipeline hp)).le (by simp)
    · next hi =>
      rw [Option.map_eq_some_iff] at h
      obtain ⟨t, -, h⟩ := h
      cases h; exact skip_tok hs hi (by simp)
    · next hi =>
      rw [Option.map_eq_some_iff] at h
      obtain ⟨t, -, h⟩ := h
      cases h; exact skip_tok hs hi (by simp)
    · cases h; exact skip_cons hs

theorem operand_eats {n : Nat} (ih : PipeEats P n) {is is' : List Item} {vars vars' : List Str} {a : Option Arg}
    (h : P.operand (n + 1) is vars = some (a, is', vars')) : Eats (if a = none then 0 else 1) is is' := by
  rw [PCfg.operand] at h
  split at h
  · cases h
  · next ht => cases h; exact ih.term ht
  · next ht =>
    dsimp only at h
    rw [Option.map_eq_some_iff] at h
    obtain ⟨t, -, h⟩ := h
    cases h
    exact Eats.trans (j := 1) (ih.term ht) (fieldRun_eats _)

theorem command_eats {n : Nat} (ih : PipeEats P n) {is is' : List Item} {vars vars' : List Str} {c : Cmd}
    (h : P.command (n + 1) is vars = some (c, is', vars')) : Eats (if c = [] then 0 else 1) is is' := by
  rw [PCfg.command] at h
  split at h
  · cases h
  · next a is1 vars1 ho =>
    have h1 := (skip_eats is).trans (ih.operand ho)
    have h0 : ∀ as : Cmd, (if a.toList ++ as = [] then 0 else 1) ≤ 0 + (if a = none then 0 else 1) + 1 ∧
        (if a.toList = [] then 0 else 1) ≤ 0 + (if a = none then 0 else 1) := by
      intro as
      cases a with
      | none => by_cases h : as = [] <;> simp [h]
      | some a => simp
    split at h
    · split at h
      · cases h
      · next r as is2 vars2 hc =>
        cases h
        exact (h1.trans ((Eats.tok (by simp) _).trans (ih.command hc))).le (by have := (h0 as).1; omega)
    · cases h; exact h1.le (h0 []).2
    · cases h; exact h1.le (h0 []).2
    · cases h; exact (h1.trans (Eats.tok (by simp) _)).le (by have := (h0 []).2; omega)
    · cases h

theorem cmds_eats {n : Nat} (ih : PipeEats P n) {p : Place} {is is' : List Item} {vars vars' : List Str} {cs : Pipe}
    (h : P.cmds (n + 1) p is vars = some (cs, is', vars')) : Eats 1 is is' := by
  rw [PCfg.cmds] at h
  split at h
  · cases h
  · next i r hs =>
    split at h
    · next he => cases h; exact skip_tok hs rfl (ends_tok he)
    · split at h
      · split at h
        · cases h
        · cases h
        · next c is1 vars1 hne hc =>
          split at h
          · cases h
          · next hcs =>
            cases h
            exact ((skip_cons hs).trans ((ih.command hc).trans (ih.cmds hcs))).le (by omega)
      · cases h

theorem pipeline_eats {n : Nat} (ih : PipeEats P n) {p : Place} {is is' : List Item} {vars vars' : List Str} {cs : Pipe}
    (h : P.pipeline (n + 1) p is vars = some (cs, is', vars')) : Eats 1 is is' := by
  rw [PCfg.pipeline] at h
  split at h
  · cases h
  · next hd =>
    split at h
    · cases h
    · next hc =>
      split at h
      · cases h; exact ((decls_eats hd).trans (ih.cmds hc)).le (by omega)
      · cases h

theorem pipeEats : ∀ n, PipeEats P n
  | 0 => ⟨(by intro _ _ _ _ _ _ h; rw [PCfg.pipeline] at h; cases h), (by intro _ _ _ _ _ _ h; rw [PCfg.cmds] at h; cases h),
      (by intro _ _ _ _ _ h; rw [PCfg.command] at h; cases h), (by intro _ _ _ _ _ h; rw [PCfg.operand] at h; cases h),
      (by intro _ _ _ _ _ h; rw [PCfg.term] at h; cases h)⟩
  | n + 1 => ⟨pipeline_eats (pipeEats n), cmds_eats (pipeEats n), command_eats (pipeEats n), operand_eats (pipeEats n),
      term_eats (pipeEats n)⟩

/-! ## Statements -/

/-- What the functions for nodes read. -/
structure NodeEats (P : PCfg) (n : Nat) : Prop where
  itemList : ∀ {d s root b s'}, P.itemList n d s = some (root, b, s') → Eats 1 s.is s'.is
  textOrAction : ∀ {d s x s'}, P.textOrAction n d s = some (x, s') → Eats 1 s.is s'.is
  action : ∀ {d s x s'}, P.action n d s = some (x, s') → Eats 1 s.is s'.is
  control : ∀ {c d s x s'}, P.control n c d s = some (x, s') → Eats 1 s.is s'.is

theorem itemList_eats {n : Nat} (ih : NodeEats P n) {d : Nat} {s s' : PS} {root : Root} {b : Bool}
    (h : P.itemList (n + 1) d s = some (root, b, s')) : Eats 1 s.is s'.is := by
  rw [PCfg.itemList] at h
  split at h
  · cases h
  · next i r hs =>
    split at h
    · cases h
    · split at h
      · cases h
      · next ht => cases h; exact ((skip_cons hs).trans (ih.textOrAction ht)).le (by omega)
      · next ht => cases h; exact ((skip_cons hs).trans (ih.textOrAction ht)).le (by omega)
      · next ht =>
        split at h
        · cases h
        · next hl =>
          cases h
          exact ((skip_cons hs).trans ((ih.textOrAction ht).trans (ih.itemList hl))).le (by omega)

theorem textOrAction_eats {n : Nat} (ih : NodeEats P n) {d : Nat} {s s' : PS} {x : Node}
    (h : P.textOrAction (n + 1) d s = some (x, s')) : Eats 1 s.is s'.is := by
  rw [PCfg.textOrAction] at h
  split at h
  · cases h
  · next i r hs =>
    split at h
    · next hi => cases h; exact skip_tok hs hi (by simp)
    · next hi => exact ((skip_tok hs hi (by simp)).trans (ih.action h)).le (by omega)
    · cases h

theorem tmplName_tok {i : Item} {name : Str} (h : tmplName i = some name) : ¬Unknown i := by
  rintro ⟨w, hw⟩
  rw [tmplName, hw] at h
  cases h

theorem skip_name {is r : List Item} {i : Item} {name : Str} (h : skip is = i :: r) (hi : tmplName i = some name) :
    Eats 1 is r := ((skip_cons h).trans (Eats.cons (tmplName_tok hi) r)).le (by omega)

theorem action_eats {n : Nat} (ih : NodeEats P n) {d : Nat} {s s' : PS} {x : Node}
    (h : P.action (n + 1) d s = some (x, s')) : Eats 1 s.is s'.is := by
  have ihp := pipeEats (P := P) n
  rw [PCfg.action] at h
  split at h
  · cases h
  · next i r hs =>
    split at h
    · next hi =>
      have h1 : Eats 1 s.is r := skip_tok hs hi (by simp)
      split at h
      · cases h
      · next hj =>
        split at h
        · cases h
        · next hn =>
          have h2 := skip_name hj hn
          split at h
          · cases h
          · next hp =>
            split at h
            · cases h
            · next hl =>
              split at h
              · cases h
              · rw [Option.map_eq_some_iff] at h
                obtain ⟨t, -, h⟩ := h
                cases h
                exact (h1.trans (h2.trans ((ihp.pipeline hp).trans (ih.itemList hl)))).le (by omega)
    · next hi =>
      have h1 : Eats 1 s.is r := skip_tok hs hi (by simp)
      split at h
      · cases h
      · rw [Option.map_eq_some_iff] at h
        obtain ⟨t, ht, h⟩ := h
        cases h
        exact (h1.trans (expectRight_eats ht)).le (by omega)
    · next hi =>
      have h1 : Eats 1 s.is r := skip_tok hs hi (by simp)
      split at h
      · cases h
      · rw [Option.map_eq_some_iff] at h
        obtain ⟨t, ht, h⟩ := h
        cases h
        exact (h1.trans (expectRight_eats ht)).le (by omega)
    · next hi =>
      have h1 : Eats 1 s.is r := skip_tok hs hi (by simp)
      split at h
      · next hj => cases h; exact (h1.trans (skip_cons hj)).le (by omega)
      · next hj => cases h; exact (h1.trans (skip_cons hj)).le (by omega)
      · rw [Option.map_eq_some_iff] at h
        obtain ⟨t, ht, h⟩ := h
        cases h
        exact (h1.trans (expectRight_eats ht)).le (by omega)
    · next hi =>
      have h1 : Eats 1 s.is r := skip_tok hs hi (by simp)
      rw [Option.map_eq_some_iff] at h
      obtain ⟨t, ht, h⟩ := h
      cases h
      exact (h1.trans (expectRight_eats ht)).le (by omega)
    · next hi => exact ((skip_tok hs hi (by simp)).trans (ih.control h)).le (by omega)
    · next hi => exact ((skip_tok hs hi (by simp)).trans (ih.control h)).le (by omega)
    · next hi => exact ((skip_tok hs hi (by simp)).trans (ih.control h)).le (by omega)
    · next hi =>
      have h1 : Eats 1 s.is r := skip_tok hs hi (by simp)
      split at h
      · cases h
      · next hj =>
        split at h
        · cases h
        · next hn =>
          have h2 := skip_name hj hn
          split at h
          · next he => cases h; exact (h1.trans (h2.trans (expectRight_eats he))).le (by omega)
          · split at h
            · cases h
            · next hp => cases h; exact (h1.trans (h2.trans (ihp.pipeline hp))).le (by omega)
    · split at h
      · cases h
      · next hp => cases h; exact ((skip_cons hs).trans (ihp.pipeline hp)).le (by omega)

theorem again_eats {c : Ctl} {is r : List Item} (h : c.again is = some r) : Eats 1 is r := by
  unfold Ctl.again at h
  split at h
  · cases h; exact Eats.tok (by simp) _
  · cases h; exact Eats.tok (by simp) _
  · cases h

theorem control_eats {n : Nat} (ih : NodeEats P n) {c : Ctl} {d : Nat} {s s' : PS} {x : Node}
    (h : P.control (n + 1) c d s = some (x, s')) : Eats 1 s.is s'.is := by
  have ihp := pipeEats (P := P) n
  rw [PCfg.control] at h
  split at h
  · cases h
  · next hp =>
    split at h
    · cases h
    · next hl =>
      cases h
      exact ((ihp.pipeline hp).trans (ih.itemList hl)).le (by omega)
    · next s1 hl =>
      have h1 := (ihp.pipeline hp).trans (ih.itemList hl)
      split at h
      · next ha =>
        split at h
        · next hc => cases h; exact (h1.trans ((again_eats ha).trans (ih.control hc))).le (by omega)
        · cases h
      · split at h
        · next he => cases h; exact (h1.trans (ih.itemList he)).le (by omega)
        · cases h

theorem nodeEats : ∀ n, NodeEats P n
  | 0 => ⟨(by intro _ _ _ _ _ h; rw [PCfg.itemList] at h; cases h), (by intro _ _ _ _ h; rw [PCfg.textOrAction] at h; cases h),
      (by intro _ _ _ _ h; rw [PCfg.action] at h; cases h), (by intro _ _ _ _ _ h; rw [PCfg.control] at h; cases h)⟩
  | n + 1 => ⟨itemList_eats (nodeEats n), textOrAction_eats (nodeEats n), action_eats (nodeEats n), control_eats (nodeEats n)⟩

theorem definition_eats {n : Nat} {is is' : List Item} {trees trees' : GMap Root}
    (h : P.definition n is trees = some (is', trees')) : Eats 1 is is' := by
  unfold PCfg.definition at h
  split at h
  · cases h
  · next hs =>
    split at h
    · cases h
    · next hn =>
      split at h
      · cases h
      · next he =>
        split at h
        · next hl =>
          rw [Option.map_eq_some_iff] at h
          obtain ⟨t, -, h⟩ := h
          cases h
          exact ((skip_name hs hn).trans ((expectRight_eats he).trans ((nodeEats n).itemList hl))).le (by omega)
        · cases h

/-- If the whole is accepted, what the parser stops at is the end of the text. -/
theorem top_eats : ∀ {n : Nat} {s : PS} {root : Root} {trees : GMap Root}, P.top n s root = some trees →
    ∃ l r, Eats 0 s.is (⟨.eof, l⟩ :: r)
  | 0, s, root, trees, h => by rw [PCfg.top] at h; cases h
  | n + 1, s, root, trees, h => by
    rw [PCfg.top] at h
    split at h
    · cases h
    · next i r hs =>
      split at h
      · next hi =>
        obtain ⟨t, l⟩ := i
        change t = .eof at hi
        subst hi
        exact ⟨l, r, hs ▸ Eats.refl _⟩
      · split at h
        · next r' hi hr =>
          split at h
          · cases h
          · next hd =>
            obtain ⟨l, r2, h2⟩ := top_eats h
            refine ⟨l, r2, ?_⟩
            rw [hs]
            exact ((Eats.of_cons hi (by simp) r).trans ((skip_tok hr rfl (by simp)).trans
              ((definition_eats hd).trans h2))).le (by omega)
        · split at h
          · next ht =>
            obtain ⟨l, r2, h2⟩ := top_eats h
            exact ⟨l, r2, (((nodeEats n).textOrAction ht).trans h2).le (by omega)⟩
          · cases h

/-- Only the last item of a text is the end of it or an error. -/
theorem itemsN_last (C : Cfg) : ∀ (n : Nat) (l : Lx), ∀ i ∈ (C.itemsN n l).dropLast, i.tok ≠ .eof ∧ i.tok ≠ .err
  | 0, l, i, hi => by rw [Cfg.itemsN] at hi; cases hi
  | n + 1, l, i, hi => by
    rw [Cfg.itemsN] at hi
    dsimp only at hi
    split at hi
    · cases hi
    · next hne =>
      cases hm : C.itemsN n (C.next l).2 with
      | nil => rw [hm] at hi; cases hi
      | cons j js =>
        rw [hm, List.dropLast_cons_of_ne_nil (by simp)] at hi
        rcases List.mem_cons.mp hi with rfl | hi
        · exact ⟨fun h => hne (.inl h), fun h => hne (.inr h)⟩
        · exact itemsN_last C n _ i (hm ▸ hi)

theorem mem_dropLast {x y : Item} {ys : List Item} : ∀ {L : List Item}, List.Sublist (x :: y :: ys) L → x ∈ L.dropLast
  | [], h => by cases h
  | a :: L, h => by
    have hne : L ≠ [] := by
      rintro rfl
      have := h.length_le
      simp at this
    rw [List.dropLast_cons_of_ne_nil hne]
    cases h with
    | cons _ h => exact List.mem_cons_of_mem _ (mem_dropLast h)
    | cons_cons _ h => exact List.mem_cons_self

/-- An accepted text has no identifier that is not a function. -/
theorem parse_known {num : Tok → Bool} {C : Cfg} {src : Str} {roots : List (List Stmt)} (h : parse num C src = some roots) :
    ¬Bad (C.items src) := by
  intro hb
  unfold parse at h
  dsimp only at h
  rw [Option.map_eq_some_iff] at h
  obtain ⟨trees, ht, -⟩ := h
  obtain ⟨l, r, -, h2, h3⟩ := top_eats ht
  obtain ⟨i, hi, w, hw⟩ := h2 hb
  have hr : r = [] := by
    have hl := itemsN_last C (src.length + 1) { rest := src }
    change ∀ i ∈ (C.items src).dropLast, _ at hl
    change List.Sublist _ (C.items src) at h3
    cases hx : r with
    | nil => rfl
    | cons j js =>
      exfalso
      rw [hx] at h3
      exact (hl ⟨.eof, l⟩ (mem_dropLast h3)).1 rfl
  subst hr
  have : i = ⟨.eof, l⟩ := by simpa using hi
  subst this
  cases hw

end Verif.Tmpl
