import Verif.Spec.TmplPlace
import Verif.Spec.Xtemplate
import Verif.Model.TmplParse
import Verif.Lemmas.Strings
/-!
# Where the names and literals of a syntax tree come from
-/
namespace Verif.Tmpl
open Verif Verif.Xt

theorem solid_cons {i : Item} (h : i.tok ≠ .space) (is : List Item) : solid (i :: is) = i :: solid is := by
  simp [solid, h]

theorem solid_space (l : Nat) (is : List Item) : solid (⟨.space, l⟩ :: is) = solid is := by simp [solid]

theorem solid_skip : ∀ is : List Item, solid (skip is) = solid is
  | [] => rfl
  | i :: is => by
    rw [skip.eq_def]
    split
    · next l is' h => cases h; rw [solid_space]; exact solid_skip is
    · rfl

theorem skip_head : ∀ {is : List Item} {i : Item} {r : List Item}, skip is = i :: r → i.tok ≠ .space
  | [], _, _, h => by cases h
  | j :: is, i, r, h => by
    rw [skip.eq_def] at h
    split at h
    · next l is' h' => cases h'; exact skip_head h
    · next hne =>
      cases h
      intro hs
      exact hne j.line is (by rw [← hs])

theorem solid_of_skip {is r : List Item} {i : Item} (h : skip is = i :: r) : solid is = i :: solid r := by
  rw [← solid_skip, h, solid_cons (skip_head h)]

/-- The item is not a delimiter. -/
def Inner (i : Item) : Prop := i.tok ≠ .left ∧ i.tok ≠ .right

/-- The items read. -/
structure ReadsItems (is is' seg : List Item) : Prop where
  eq : solid is = seg ++ solid is'
  inner : ∀ i ∈ seg, Inner i

theorem ReadsItems.refl (is : List Item) : ReadsItems is is [] := ⟨rfl, by simp⟩

theorem ReadsItems.trans {a b c s t : List Item} (h : ReadsItems a b s) (h' : ReadsItems b c t) : ReadsItems a c (s ++ t) :=
  ⟨by rw [h.eq, h'.eq, List.append_assoc], fun i hi => (List.mem_append.mp hi).elim (h.inner i) (h'.inner i)⟩

theorem ReadsItems.skip {is r : List Item} {i : Item} (h : skip is = i :: r) (hi : Inner i) : ReadsItems is r [i] :=
  ⟨solid_of_skip h, by simpa using hi⟩

theorem ReadsItems.one {i : Item} (hs : i.tok ≠ .space) (hi : Inner i) (r : List Item) : ReadsItems (i :: r) r [i] :=
  ⟨solid_cons hs r, by simpa using hi⟩

theorem ReadsItems.same {is is' : List Item} (h : solid is = solid is') : ReadsItems is is' [] := ⟨h, by simp⟩

/-- The fields and variables are written as such. -/
def NameOk (i : Item) : Prop :=
  (∀ f, i.tok = .field f → ∃ w, f = 46 :: w ∧ 46 ∉ w) ∧ (∀ v, i.tok = .var v → 46 ∉ v)

/-- The names and literals of an argument are among the items. -/
inductive WrittenArg (seg : List Item) : Arg → Prop
  | str {t : Str} {i : Item} : i ∈ seg → IsLit i t → WrittenArg seg (.str t)
  | pipe {cmds : Pipe} : (∀ c, c ∈ cmds → ∀ a, a ∈ c → WrittenArg seg a) → WrittenArg seg (.pipe cmds)
  | ident {n : Str} {i : Item} : i ∈ seg → IsName i n → WrittenArg seg (.ident n)
  | field {ids : List Str} : (∀ n, ids.getLast? = some n → ∃ i ∈ seg, IsName i n) → WrittenArg seg (.field ids)
  | var {ids : List Str} : (∀ n, ids.getLast? = some n → ∃ i ∈ seg, IsName i n) → WrittenArg seg (.var ids)
  | chain {a : Arg} {ids : List Str} : (∀ n, ids.getLast? = some n → ∃ i ∈ seg, IsName i n) → WrittenArg seg (.chain a ids)
  | other : WrittenArg seg .other

theorem WrittenArg.mono {s t : List Item} (h : ∀ i ∈ s, i ∈ t) {a : Arg} (hw : WrittenArg s a) : WrittenArg t a := by
  induction hw with
  | str hi hl => exact .str (h _ hi) hl
  | pipe _ ih => exact .pipe ih
  | ident hi hn => exact .ident (h _ hi) hn
  | field hn => exact .field fun n h' => let ⟨i, hi, h2⟩ := hn n h'; ⟨i, h i hi, h2⟩
  | var hn => exact .var fun n h' => let ⟨i, hi, h2⟩ := hn n h'; ⟨i, h i hi, h2⟩
  | chain hn => exact .chain fun n h' => let ⟨i, hi, h2⟩ := hn n h'; ⟨i, h i hi, h2⟩
  | other => exact .other

/-- The arguments are among the items, provided these are proper ones. -/
def Holds (seg : List Item) (as : List Arg) : Prop := (∀ i ∈ seg, NameOk i) → ∀ a ∈ as, WrittenArg seg a

theorem Holds.mono {s t : List Item} (h : ∀ i ∈ s, i ∈ t) {as : List Arg} (hh : Holds s as) : Holds t as :=
  fun hok a ha => (hh (fun i hi => hok i (h i hi)) a ha).mono h

theorem Holds.append {s : List Item} {as bs : List Arg} (ha : Holds s as) (hb : Holds s bs) : Holds s (as ++ bs) :=
  fun hok a h => (List.mem_append.mp h).elim (ha hok a) (hb hok a)

theorem Holds.nil (s : List Item) : Holds s [] := fun _ a h => by cases h

theorem split_last {c : UInt8} {w : Str} (hw : c ∉ w) : ∀ x : Str, (GoStr.splitByte c (x ++ c :: w)).getLast? = some w
  | [] => by
    rw [List.nil_append, GoStr.splitByte, if_pos rfl, GoStr.splitByte_no_sep c w hw]; rfl
  | y :: x => by
    have ih := split_last hw x
    have hne := GoStr.splitByte_ne_nil c (x ++ c :: w)
    rw [List.cons_append, GoStr.splitByte]
    split
    · cases h : GoStr.splitByte c (x ++ c :: w) with
      | nil => exact absurd h hne
      | cons p ps => rw [h] at ih; rw [List.getLast?_cons_cons]; exact ih
    · cases h : GoStr.splitByte c (x ++ c :: w) with
      | nil => exact absurd h hne
      | cons p ps =>
        rw [h] at ih
        cases ps with
        | nil =>
          exfalso
          have hm := GoStr.splitByte_not_mem c (x ++ c :: w)
          have hi := GoStr.intercalate_splitByte c (x ++ c :: w)
          rw [h] at hi hm
          have : p = x ++ c :: w := by simpa using hi
          exact hm p (by simp) (by rw [this]; simp)
        | cons q qs => simpa using ih

theorem fieldRun_reads : ∀ is : List Item, ∃ seg, ReadsItems is (fieldRun is).2 seg ∧
    ∀ f ∈ (fieldRun is).1, ∃ i ∈ seg, i.tok = .field f
  | [] => ⟨[], ReadsItems.refl _, by simp [fieldRun]⟩
  | i :: is => by
    rw [fieldRun.eq_def]
    split
    · next f l is' h =>
      cases h
      obtain ⟨seg, h1, h2⟩ := fieldRun_reads is
      refine ⟨_, (ReadsItems.one (i := ⟨.field f, l⟩) (by simp) ⟨by simp, by simp⟩ is).trans h1, ?_⟩
      intro g hg
      rcases List.mem_cons.mp hg with rfl | hg
      · exact ⟨⟨.field g, l⟩, by simp, rfl⟩
      · obtain ⟨j, hj, h⟩ := h2 g hg
        exact ⟨j, by simp [hj], h⟩
    · exact ⟨[], ReadsItems.refl _, by simp⟩

theorem chained_holds {node a : Arg} {fields : List Str} {seg : List Item} (hn : Holds seg [node])
    (hf : ∀ f ∈ fields, ∃ i ∈ seg, i.tok = .field f) (h : chained node fields = some a) : Holds seg [a] := by
  intro hok b hb
  have hb : b = a := by simpa using hb
  subst hb
  have hnode := hn hok node (by simp)
  unfold chained at h
  split at h
  · cases h; exact hnode
  · next hne =>
    obtain ⟨fs, f, rfl⟩ : ∃ fs f, fields = fs ++ [f] := ⟨_, _, (List.dropLast_append_getLast hne).symm⟩
    obtain ⟨i, hi, ht⟩ := hf f (by simp)
    obtain ⟨w, rfl, hw⟩ := (hok i hi).1 f ht
    have hnm : IsName i w := .inr (.inl ht)
    split at h
    · next ids =>
      cases h
      refine .field fun n hl => ⟨i, hi, ?_⟩
      have h3 := split_last hw (GoStr.join [46] ids ++ fs.flatten)
      have h4 : ((46 :: GoStr.join [46] ids) ++ (fs ++ [46 :: w]).flatten).tail = GoStr.join [46] ids ++ fs.flatten ++ 46 :: w := by
        simp
      rw [dotted, h4, h3] at hl
      cases hl; exact hnm
    · next ids =>
      cases h
      refine .var fun n hl => ⟨i, hi, ?_⟩
      have h3 := split_last hw (GoStr.join [46] ids ++ fs.flatten)
      have h4 : GoStr.join [46] ids ++ (fs ++ [46 :: w]).flatten = GoStr.join [46] ids ++ fs.flatten ++ 46 :: w := by
        simp
      rw [dotted, h4, h3] at hl
      cases hl; exact hnm
    · cases h
    · cases h
    · cases h
      refine .chain fun n hl => ⟨i, hi, ?_⟩
      have : n = w := by simpa using hl.symm
      subst this; exact hnm

theorem decl_reads {p : Place} {second b : Bool} {is is' : List Item} {vars vars' : List Str}
    (h : decl p second is vars = some (is', vars', b)) : ∃ seg, ReadsItems is is' seg ∧
      (seg = [] ∨ ∃ i rest, seg = i :: rest ∧ ¬IsKw i) := by
  unfold decl at h
  split at h
  · next v vl r hs =>
    have h1 : ReadsItems is r [⟨.var v, vl⟩] := .skip hs ⟨by simp, by simp⟩
    have hk : ¬IsKw ⟨.var v, vl⟩ := by rintro ⟨k, hk⟩; cases hk
    split at h
    · next hr => cases h; exact ⟨_, h1.trans (.skip hr ⟨by simp, by simp⟩), .inr ⟨_, _, rfl, hk⟩⟩
    · next hr => cases h; exact ⟨_, h1.trans (.skip hr ⟨by simp, by simp⟩), .inr ⟨_, _, rfl, hk⟩⟩
    · next r' hr =>
      split at h
      · split at h
        · cases h; exact ⟨_, h1.trans (.skip hr ⟨by simp, by simp⟩), .inr ⟨_, _, rfl, hk⟩⟩
        · cases h; exact ⟨_, h1.trans (.skip hr ⟨by simp, by simp⟩), .inr ⟨_, _, rfl, hk⟩⟩
        · cases h; exact ⟨_, h1.trans (.skip hr ⟨by simp, by simp⟩), .inr ⟨_, _, rfl, hk⟩⟩
        · cases h
      · cases h
    · split at h
      · next sl r' _ _ _ =>
        cases h
        refine ⟨[], .same ?_, .inl rfl⟩
        rw [solid_of_skip hs, solid_cons (i := ⟨.var v, vl⟩) (by simp), solid_space, solid_space, solid_skip, solid_space]
      · cases h
        refine ⟨[], .same ?_, .inl rfl⟩
        rw [solid_of_skip hs, solid_cons (by simp), solid_skip]
  · cases h; exact ⟨[], .same (solid_skip is).symm, .inl rfl⟩

theorem decls_reads {p : Place} {is is' : List Item} {vars vars' : List Str} (h : decls p is vars = some (is', vars')) :
    ∃ seg, ReadsItems is is' seg ∧ (seg = [] ∨ ∃ i rest, seg = i :: rest ∧ ¬IsKw i) := by
  unfold decls at h
  split at h
  · cases h
  · next h1 => cases h; exact decl_reads h1
  · next h1 =>
    rw [Option.map_eq_some_iff] at h
    obtain ⟨⟨a, b, c⟩, h2, h3⟩ := h
    cases h3
    obtain ⟨s1, r1, k1⟩ := decl_reads h1
    obtain ⟨s2, r2, k2⟩ := decl_reads h2
    refine ⟨_, r1.trans r2, ?_⟩
    rcases k1 with rfl | ⟨i, rest, rfl, hi⟩
    · exact k2
    · exact .inr ⟨i, rest ++ s2, rfl, hi⟩

variable {P : PCfg}

/-- What the functions for pipelines read. -/
structure PipeReads (P : PCfg) (n : Nat) : Prop where
  pipeline : ∀ {p is vars cs is' vars'}, P.pipeline n p is vars = some (cs, is', vars') →
    ∃ seg e, solid is = seg ++ e :: solid is' ∧ p.ends e.tok = true ∧ (∀ i ∈ seg, Inner i) ∧ Holds seg cs.flatten ∧
      ∃ i rest, seg = i :: rest ∧ ¬IsKw i
  cmds : ∀ {p is vars cs is' vars'}, P.cmds n p is vars = some (cs, is', vars') →
    ∃ seg e, solid is = seg ++ e :: solid is' ∧ p.ends e.tok = true ∧ (∀ i ∈ seg, Inner i) ∧ Holds seg cs.flatten ∧
      (cs ≠ [] → ∃ i rest, seg = i :: rest ∧ ¬IsKw i)
  command : ∀ {is vars c is' vars'}, P.command n is vars = some (c, is', vars') → ∃ seg, ReadsItems is is' seg ∧ Holds seg c
  operand : ∀ {is vars a is' vars'}, P.operand n is vars = some (a, is', vars') →
    ∃ seg, ReadsItems is is' seg ∧ Holds seg a.toList
  term : ∀ {is vars a is' vars'}, P.term n is vars = some (a, is', vars') → ∃ seg, ReadsItems is is' seg ∧ Holds seg a.toList

theorem reads_tok {is r : List Item} {i : Item} {t : Tok} (hs : skip is = i :: r) (hi : i.tok = t) (h1 : t ≠ .left)
    (h2 : t ≠ .right) : ReadsItems is r [i] := .skip hs ⟨hi ▸ h1, hi ▸ h2⟩

theorem holds_one {seg : List Item} {a : Arg} (h : (∀ i ∈ seg, NameOk i) → WrittenArg seg a) : Holds seg (some a).toList :=
  fun hok b hb => by
    have : b = a := by simpa using hb
    subst this; exact h hok

theorem term_reads {n : Nat} (ih : PipeReads P n) {is is' : List Item} {vars vars' : List Str} {a : Option Arg}
    (h : P.term (n + 1) is vars = some (a, is', vars')) : ∃ seg, ReadsItems is is' seg ∧ Holds seg a.toList := by
  rw [PCfg.term] at h
  split at h
  · cases h
  · next i r hs =>
    split at h
    · next hi =>
      split at h
      · cases h
        exact ⟨_, reads_tok hs hi (by simp) (by simp), holds_one fun _ => .ident (by simp) (.inl ⟨_, hi⟩)⟩
      · cases h
    · next hi => cases h; exact ⟨_, reads_tok hs hi (by simp) (by simp), holds_one fun _ => .other⟩
    · next hi => cases h; exact ⟨_, reads_tok hs hi (by simp) (by simp), holds_one fun _ => .other⟩
    · next v hi =>
      split at h
      · cases h
        refine ⟨_, reads_tok hs hi (by simp) (by simp), holds_one fun hok => .var fun n hn => ⟨i, by simp, ?_⟩⟩
        have := (hok i (by simp)).2 v hi
        rw [dotted, GoStr.splitByte_no_sep _ _ this] at hn
        cases hn; exact .inr (.inr hi)
      · cases h
    · next f hi =>
      cases h
      refine ⟨_, reads_tok hs hi (by simp) (by simp), holds_one fun hok => .field fun n hn => ⟨i, by simp, ?_⟩⟩
      obtain ⟨w, rfl, hw⟩ := (hok i (by simp)).1 f hi
      rw [List.tail_cons, dotted, GoStr.splitByte_no_sep _ _ hw] at hn
      cases hn; exact .inr (.inl hi)
    · next hi => cases h; exact ⟨_, reads_tok hs hi (by simp) (by simp), holds_one fun _ => .other⟩
    · next hi =>
      split at h
      · cases h; exact ⟨_, reads_tok hs hi (by simp) (by simp), holds_one fun _ => .other⟩
      · cases h
    · next hi =>
      split at h
      · cases h; exact ⟨_, reads_tok hs hi (by simp) (by simp), holds_one fun _ => .other⟩
      · cases h
    · next hi =>
      split at h
      · cases h; exact ⟨_, reads_tok hs hi (by simp) (by simp), holds_one fun _ => .other⟩
      · cases h
    · next hi =>
      split at h
      · cases h
      · next cs r' vars1 hp =>
        cases h
        obtain ⟨seg, e, h1, h2, h3, h4, -⟩ := ih.pipeline hp
        have he : e.tok = .rparen := by simpa [Place.ends] using h2
        have hr : ReadsItems r is' (seg ++ [e]) := ⟨by rw [h1]; simp, fun j hj => by
          rcases List.mem_append.mp hj with hj | hj
          · exact h3 j hj
          · have : j = e := by simpa using hj
            subst this; exact ⟨by rw [he]; simp, by rw [he]; simp⟩⟩
        refine ⟨_, (reads_tok hs hi (by simp) (by simp)).trans hr, holds_one fun hok => .pipe ?_⟩
        intro c hc a ha
        refine WrittenArg.mono (s := seg) (fun j hj => by simp [hj]) ?_
        exact h4 (fun j hj => hok j (by simp [hj])) a (List.mem_flatten.mpr ⟨c, hc, ha⟩)
    · next hi =>
      rw [Option.map_eq_some_iff] at h
      obtain ⟨t, hu, h⟩ := h
      cases h
      exact ⟨_, reads_tok hs hi (by simp) (by simp), holds_one fun _ => .str (i := i) (by simp) ⟨_, .inl hi, hu⟩⟩
    · next hi =>
      rw [Option.map_eq_some_iff] at h
      obtain ⟨t, hu, h⟩ := h
      cases h
      exact ⟨_, reads_tok hs hi (by simp) (by simp), holds_one fun _ => .str (i := i) (by simp) ⟨_, .inr hi, hu⟩⟩
    · cases h
      exact ⟨[], .same (by rw [← hs, solid_skip]), Holds.nil _⟩

theorem operand_reads {n : Nat} (ih : PipeReads P n) {is is' : List Item} {vars vars' : List Str} {a : Option Arg}
    (h : P.operand (n + 1) is vars = some (a, is', vars')) : ∃ seg, ReadsItems is is' seg ∧ Holds seg a.toList := by
  rw [PCfg.operand] at h
  split at h
  · cases h
  · next ht => cases h; exact ih.term ht
  · next ht =>
    dsimp only at h
    rw [Option.map_eq_some_iff] at h
    obtain ⟨t, hc, h⟩ := h
    cases h
    obtain ⟨s1, r1, h1⟩ := ih.term ht
    obtain ⟨s2, r2, h2⟩ := fieldRun_reads _
    refine ⟨_, r1.trans r2, chained_holds (h1.mono fun i hi => by simp [hi]) ?_ hc⟩
    intro f hf
    obtain ⟨i, hi, ht⟩ := h2 f hf
    exact ⟨i, by simp [hi], ht⟩

theorem command_reads {n : Nat} (ih : PipeReads P n) {is is' : List Item} {vars vars' : List Str} {c : Cmd}
    (h : P.command (n + 1) is vars = some (c, is', vars')) : ∃ seg, ReadsItems is is' seg ∧ Holds seg c := by
  rw [PCfg.command] at h
  split at h
  · cases h
  · next a is1 vars1 ho =>
    obtain ⟨s1, r1, h1⟩ := ih.operand ho
    have r1 : ReadsItems is is1 s1 := ⟨by rw [← solid_skip, r1.eq], r1.inner⟩
    split at h
    · next l r =>
      split at h
      · cases h
      · next as is2 vars2 hc =>
        cases h
        obtain ⟨s2, r2, h2⟩ := ih.command hc
        exact ⟨_, r1.trans ⟨by rw [solid_space, r2.eq], r2.inner⟩,
          (h1.mono fun i hi => by simp [hi]).append (h2.mono fun i hi => by simp [hi])⟩
    · cases h; exact ⟨_, r1, h1⟩
    · cases h; exact ⟨_, r1, h1⟩
    · cases h
      exact ⟨_, r1.trans (.one (by simp) ⟨by simp, by simp⟩ _), h1.mono fun i hi => by simp [hi]⟩
    · cases h

theorem ends_delim {p : Place} {t : Tok} (h : p.ends t = true) : t = .right ∨ t = .rparen := by
  cases p <;> simp [Place.ends] at h <;> tauto

theorem cmds_reads {n : Nat} (ih : PipeReads P n) {p : Place} {is is' : List Item} {vars vars' : List Str} {cs : Pipe}
    (h : P.cmds (n + 1) p is vars = some (cs, is', vars')) :
    ∃ seg e, solid is = seg ++ e :: solid is' ∧ p.ends e.tok = true ∧ (∀ i ∈ seg, Inner i) ∧ Holds seg cs.flatten ∧
      (cs ≠ [] → ∃ i rest, seg = i :: rest ∧ ¬IsKw i) := by
  rw [PCfg.cmds] at h
  split at h
  · cases h
  · next i r hs =>
    split at h
    · next he =>
      cases h
      exact ⟨[], i, solid_of_skip hs, he, by simp, Holds.nil _, by simp⟩
    · split at h
      · next hst =>
        split at h
        · cases h
        · cases h
        · next c is1 vars1 hne hc =>
          split at h
          · cases h
          · next cs' is2 vars2 hcs =>
            cases h
            obtain ⟨s1, r1, h1⟩ := ih.command hc
            obtain ⟨s2, e, e2, he, hin, h2, -⟩ := ih.cmds hcs
            refine ⟨s1 ++ s2, e, ?_, he, ?_, ?_, ?_⟩
            · rw [← solid_skip, hs, r1.eq, e2]; simp
            · exact fun i hi => (List.mem_append.mp hi).elim (r1.inner i) (hin i)
            · rw [List.flatten_cons]
              exact (h1.mono fun i hi => by simp [hi]).append (h2.mono fun i hi => by simp [hi])
            · intro _
              have hk : ¬IsKw i := by
                rintro ⟨k, hk⟩; rw [hk] at hst; cases hst
              have hall : i :: solid r = s1 ++ (s2 ++ e :: solid is') := by
                rw [← e2, ← r1.eq, solid_cons (skip_head hs)]
              cases s1 with
              | cons x s1 => rw [List.cons_append, List.cons.injEq] at hall; exact ⟨x, s1 ++ s2, rfl, hall.1 ▸ hk⟩
              | nil =>
                cases s2 with
                | cons x s2 =>
                  rw [List.nil_append, List.cons_append, List.cons.injEq] at hall
                  exact ⟨x, s2, rfl, hall.1 ▸ hk⟩
                | nil =>
                  exfalso
                  rw [List.nil_append, List.nil_append, List.cons.injEq] at hall
                  rw [hall.1] at hst
                  rcases ends_delim he with h | h <;> rw [h] at hst <;> cases hst
      · cases h

theorem pipeline_reads {n : Nat} (ih : PipeReads P n) {p : Place} {is is' : List Item} {vars vars' : List Str} {cs : Pipe}
    (h : P.pipeline (n + 1) p is vars = some (cs, is', vars')) :
    ∃ seg e, solid is = seg ++ e :: solid is' ∧ p.ends e.tok = true ∧ (∀ i ∈ seg, Inner i) ∧ Holds seg cs.flatten ∧
      ∃ i rest, seg = i :: rest ∧ ¬IsKw i := by
  rw [PCfg.pipeline] at h
  split at h
  · cases h
  · next hd =>
    split at h
    · cases h
    · next hc =>
      split at h
      · next hck =>
        cases h
        obtain ⟨s1, r1, h1⟩ := decls_reads hd
        obtain ⟨s2, e, e2, he, hin, h2, h3⟩ := ih.cmds hc
        have hne : cs ≠ [] := by rintro rfl; cases hck
        refine ⟨s1 ++ s2, e, by rw [r1.eq, e2]; simp, he, fun i hi => (List.mem_append.mp hi).elim (r1.inner i) (hin i),
          h2.mono fun i hi => by simp [hi], ?_⟩
        rcases h1 with rfl | ⟨i, rest, rfl, hi⟩
        · exact h3 hne
        · exact ⟨i, rest ++ s2, rfl, hi⟩
      · cases h

theorem pipeReads : ∀ n, PipeReads P n
  | 0 => ⟨(by intro _ _ _ _ _ _ h; rw [PCfg.pipeline] at h; cases h), (by intro _ _ _ _ _ _ h; rw [PCfg.cmds] at h; cases h),
      (by intro _ _ _ _ _ h; rw [PCfg.command] at h; cases h), (by intro _ _ _ _ _ h; rw [PCfg.operand] at h; cases h),
      (by intro _ _ _ _ _ h; rw [PCfg.term] at h; cases h)⟩
  | n + 1 => ⟨pipeline_reads (pipeReads n), cmds_reads (pipeReads n), command_reads (pipeReads n), operand_reads (pipeReads n),
      term_reads (pipeReads n)⟩

/-! ## Statements -/

/-- The pipeline comes from an action of the items, that starts on the line. -/
def FromAct (T : List Item) (line : Nat) (p : Pipe) : Prop :=
  ∃ act, ActionIn T act ∧ StartsOn act line ∧ Holds act p.flatten

/-- The pipelines of a node come from actions. -/
def GoodS (T : List Item) (x : Stmt) : Prop := ∀ line p, PipeAt line p x → FromAct T line p

def GoodR (T : List Item) (root : Root) : Prop := ∀ x ∈ root, GoodS T x.1

def GoodT (T : List Item) (trees : GMap Root) : Prop := ∀ t ∈ trees, GoodR T t.2

/-- The items are the last ones of the whole. -/
def Tail (T is : List Item) : Prop := ∃ pre, T = pre ++ solid is

/-- Before the items there is the left delimiter of an action and some keywords. -/
def OpenAct (T ks is : List Item) : Prop :=
  ∃ pre l, T = pre ++ ⟨.left, l⟩ :: (ks ++ solid is) ∧ ∀ k ∈ ks, IsKw k

/-- What follows a right delimiter is not a keyword. -/
def AfterRight (T : List Item) : Prop := ∀ pre l i post, T = pre ++ ⟨.right, l⟩ :: i :: post → ¬IsKw i

theorem Tail.drop {T is is' seg : List Item} (h : Tail T is) (hs : solid is = seg ++ solid is') : Tail T is' := by
  obtain ⟨pre, rfl⟩ := h
  exact ⟨pre ++ seg, by rw [hs, List.append_assoc]⟩

theorem OpenAct.tail {T ks is : List Item} (h : OpenAct T ks is) : Tail T is := by
  obtain ⟨pre, l, rfl, -⟩ := h
  exact ⟨pre ++ ⟨.left, l⟩ :: ks, by simp⟩

theorem goodS_other (T : List Item) : GoodS T .other := by
  intro line p h; cases h

theorem goodR_cons {T : List Item} {x : Stmt} {e : Bool} {xs : Root} (h : GoodS T x) (hs : GoodR T xs) : GoodR T ((x, e) :: xs) := by
  intro y hy
  rcases List.mem_cons.mp hy with rfl | hy
  · exact h
  · exact hs y hy

theorem roots_mem_set : ∀ {m : GMap Root} {k : Str} {v : Root} {t : Str × Root}, t ∈ m.set k v → t.2 = v ∨ t ∈ m
  | [], k, v, t, h => by
    have : t = (k, v) := by simpa [GMap.set] using h
    exact .inl (by rw [this])
  | (k', v') :: m, k, v, t, h => by
    rw [GMap.set] at h
    split at h
    · rcases List.mem_cons.mp h with rfl | h
      · exact .inl rfl
      · exact .inr (by simp [h])
    · rcases List.mem_cons.mp h with rfl | h
      · exact .inr (by simp)
      · exact (roots_mem_set h).imp_right fun h => by simp [h]

theorem addTree_good {T : List Item} {trees trees' : GMap Root} {name : Str} {root : Root} (ht : GoodT T trees)
    (hr : GoodR T root) (h : addTree trees name root = some trees') : GoodT T trees' := by
  have hset : GoodT T (trees.set name root) := by
    intro t hm
    rcases roots_mem_set hm with h | h
    · rw [h]; exact hr
    · exact ht t h
  unfold addTree at h
  split at h
  · cases h; exact hset
  · split at h
    · cases h; exact hset
    · split at h
      · cases h; exact ht
      · cases h

theorem starts_kw {ks rest : List Item} {i : Item} (hk : ∀ k ∈ ks, IsKw k) (hi : ¬IsKw i) :
    StartsOn (ks ++ i :: rest) i.line := ⟨ks, i, rest, rfl, hk, hi, rfl⟩

theorem inner_kw {i : Item} (h : IsKw i) : Inner i := by
  obtain ⟨k, hk⟩ := h
  exact ⟨by rw [hk]; simp, by rw [hk]; simp⟩

/-- A pipeline after a left delimiter and some keywords. -/
theorem fromAct_pipe {T ks is is' : List Item} {p : Place} (hp : p ≠ .paren) {n : Nat} {vars vars' : List Str} {cs : Pipe}
    (ho : OpenAct T ks is) (h : P.pipeline n p is vars = some (cs, is', vars')) :
    (∃ i rest, solid is = i :: rest ∧ FromAct T i.line cs) ∧ Tail T is' := by
  obtain ⟨seg, e, h1, h2, h3, h4, i, rest, rfl, hi⟩ := (pipeReads n).pipeline h
  obtain ⟨pre, l, rfl, hk⟩ := ho
  have he : e.tok = .right := by
    cases p <;> simp [Place.ends] at h2 hp <;> exact h2
  obtain ⟨t, el⟩ := e
  dsimp only at he
  subst he
  refine ⟨⟨i, rest ++ ⟨.right, el⟩ :: solid is', by rw [h1]; rfl, ks ++ i :: rest, ⟨pre, solid is', l, el, ?_, ?_⟩, starts_kw hk hi, ?_⟩, ?_⟩
  · rw [h1]; simp
  · intro j hj
    rcases List.mem_append.mp hj with hj | hj
    · exact inner_kw (hk j hj)
    · exact h3 j hj
  · exact h4.mono fun j hj => List.mem_append_right _ hj
  · exact ⟨pre ++ ⟨.left, l⟩ :: (ks ++ i :: rest ++ [⟨.right, el⟩]), by rw [h1]; simp⟩

/-- A pipeline after the name of a template. -/
theorem fromAct_name {T ks is is' : List Item} {p : Place} (hp : p ≠ .paren) {n : Nat} {vars vars' : List Str} {cs : Pipe}
    {j : Item} (hj : Inner j) (hjk : ¬IsKw j) {pre : List Item} {l : Nat} (hT : T = pre ++ ⟨.left, l⟩ :: (ks ++ j :: solid is))
    (hk : ∀ k ∈ ks, IsKw k) (h : P.pipeline n p is vars = some (cs, is', vars')) :
    FromAct T j.line cs ∧ Tail T is' := by
  obtain ⟨seg, e, h1, h2, h3, h4, -⟩ := (pipeReads n).pipeline h
  have he : e.tok = .right := by
    cases p <;> simp [Place.ends] at h2 hp <;> exact h2
  obtain ⟨t, el⟩ := e
  dsimp only at he
  subst he hT
  refine ⟨⟨ks ++ j :: seg, ⟨pre, solid is', l, el, ?_, ?_⟩, starts_kw hk hjk, ?_⟩, ?_⟩
  · rw [h1]; simp
  · intro i hi
    rcases List.mem_append.mp hi with hi | hi
    · exact inner_kw (hk i hi)
    · rcases List.mem_cons.mp hi with rfl | hi
      · exact hj
      · exact h3 i hi
  · exact h4.mono fun j hj => by simp [hj]
  · exact ⟨pre ++ ⟨.left, l⟩ :: (ks ++ j :: seg ++ [⟨.right, el⟩]), by rw [h1]; simp⟩

theorem expectRight_solid {is r : List Item} (h : expectRight is = some r) : ∃ l, solid is = ⟨.right, l⟩ :: solid r := by
  unfold expectRight at h
  split at h
  · next h' => cases h; exact ⟨_, solid_of_skip h'⟩
  · cases h

theorem lineOf_solid {is rest : List Item} {i : Item} (h : solid is = i :: rest) : lineOf is = i.line := by
  unfold lineOf
  split
  · next j r hs => rw [solid_of_skip hs] at h; cases h; rfl
  · next hs => rw [← solid_skip, hs] at h; cases h

/-- What holds after a node that ends with `else`: it is followed by a keyword only in the same action. -/
def ElseOk (T is : List Item) : Prop := ∀ i rest, is = i :: rest → IsKw i → ∃ ks, OpenAct T ks is

/-- What a node says about its pipelines and what follows. -/
def GoodN (T : List Item) (x : Node) (is : List Item) : Prop :=
  match x with
  | .stmt s _ => GoodS T s
  | .fin => True
  | .els => ElseOk T is

structure NodeReads (T : List Item) (P : PCfg) (n : Nat) : Prop where
  itemList : ∀ {d s root b s'}, P.itemList n d s = some (root, b, s') → Tail T s.is → GoodT T s.trees →
    GoodR T root ∧ GoodT T s'.trees ∧ Tail T s'.is ∧ (b = true → ElseOk T s'.is)
  textOrAction : ∀ {d s x s'}, P.textOrAction n d s = some (x, s') → Tail T s.is → GoodT T s.trees →
    GoodN T x s'.is ∧ GoodT T s'.trees ∧ Tail T s'.is
  action : ∀ {d s x s'}, P.action n d s = some (x, s') → OpenAct T [] s.is → GoodT T s.trees →
    GoodN T x s'.is ∧ GoodT T s'.trees ∧ Tail T s'.is
  control : ∀ {c d s x s'}, P.control n c d s = some (x, s') → (∃ ks, OpenAct T ks s.is) → GoodT T s.trees →
    GoodN T x s'.is ∧ GoodT T s'.trees ∧ Tail T s'.is

variable {T : List Item}

theorem itemList_reads {n : Nat} (ih : NodeReads T P n) {d : Nat} {s s' : PS} {root : Root} {b : Bool}
    (h : P.itemList (n + 1) d s = some (root, b, s')) (ht : Tail T s.is) (hg : GoodT T s.trees) :
    GoodR T root ∧ GoodT T s'.trees ∧ Tail T s'.is ∧ (b = true → ElseOk T s'.is) := by
  rw [PCfg.itemList] at h
  split at h
  · cases h
  · next i r hs =>
    have ht' : Tail T (i :: r) := by rw [← hs]; exact ht.drop (seg := []) (by rw [solid_skip]; rfl)
    split at h
    · cases h
    · split at h
      · cases h
      · next hx =>
        cases h
        obtain ⟨-, h2, h3⟩ := ih.textOrAction hx ht' hg
        exact ⟨(by intro x hx; cases hx), h2, h3, by simp⟩
      · next hx =>
        cases h
        obtain ⟨h1, h2, h3⟩ := ih.textOrAction hx ht' hg
        exact ⟨(by intro x hx; cases hx), h2, h3, fun _ => h1⟩
      · next hx =>
        obtain ⟨h1, h2, h3⟩ := ih.textOrAction hx ht' hg
        split at h
        · cases h
        · next hl =>
          cases h
          obtain ⟨k1, k2, k3, k4⟩ := ih.itemList hl h3 h2
          exact ⟨goodR_cons h1 k1, k2, k3, k4⟩

theorem textOrAction_reads {n : Nat} (ih : NodeReads T P n) {d : Nat} {s s' : PS} {x : Node}
    (h : P.textOrAction (n + 1) d s = some (x, s')) (ht : Tail T s.is) (hg : GoodT T s.trees) :
    GoodN T x s'.is ∧ GoodT T s'.trees ∧ Tail T s'.is := by
  rw [PCfg.textOrAction] at h
  split at h
  · cases h
  · next i r hs =>
    have hsol := solid_of_skip hs
    split at h
    · cases h
      exact ⟨goodS_other T, hg, ht.drop (seg := [i]) hsol⟩
    · next hi =>
      refine ih.action h ?_ hg
      obtain ⟨pre, hT⟩ := ht
      refine ⟨pre, i.line, ?_, by simp⟩
      rw [hT, hsol, ← hi]; rfl
    · cases h

theorem open_kw {is r : List Item} {i : Item} {k : Kw} {ks : List Item} (ho : OpenAct T ks is) (hs : skip is = i :: r)
    (hi : i.tok = .kw k) : OpenAct T (ks ++ [i]) r := by
  obtain ⟨pre, l, hT, hk⟩ := ho
  refine ⟨pre, l, ?_, ?_⟩
  · rw [hT, solid_of_skip hs]; simp
  · intro j hj
    rcases List.mem_append.mp hj with hj | hj
    · exact hk j hj
    · have : j = i := by simpa using hj
      subst this; exact ⟨k, hi⟩

theorem tail_right {is r : List Item} (ht : Tail T is) (h : expectRight is = some r) : Tail T r := by
  obtain ⟨l, hl⟩ := expectRight_solid h
  exact ht.drop (seg := [⟨.right, l⟩]) (by rw [hl]; rfl)

/-- After a right delimiter there is no keyword. -/
theorem else_right (hT : AfterRight T) {is r : List Item} (ht : Tail T is) (h : expectRight is = some r) : ElseOk T r := by
  intro i rest hr hk
  exfalso
  obtain ⟨l, hl⟩ := expectRight_solid h
  obtain ⟨pre, rfl⟩ := ht
  have hns : i.tok ≠ .space := by obtain ⟨k, hk⟩ := hk; rw [hk]; simp
  exact hT pre l i (solid rest) (by rw [hl, hr, solid_cons hns]) hk

theorem name_inner {j : Item} {name : Str} (h : tmplName j = some name) : Inner j ∧ ¬IsKw j := by
  unfold tmplName at h
  split at h
  · next hj => exact ⟨⟨by rw [hj]; simp, by rw [hj]; simp⟩, by rintro ⟨k, hk⟩; rw [hj] at hk; cases hk⟩
  · next hj => exact ⟨⟨by rw [hj]; simp, by rw [hj]; simp⟩, by rintro ⟨k, hk⟩; rw [hj] at hk; cases hk⟩
  · cases h

theorem goodS_template {line : Nat} {p : Pipe} (h : FromAct T line p) : GoodS T (.template line p) := by
  intro l q hq; cases hq; exact h

theorem goodS_action {line : Nat} {p : Pipe} (h : FromAct T line p) : GoodS T (.action line p) := by
  intro l q hq; cases hq; exact h

theorem action_reads (hT : AfterRight T) {n : Nat} (ih : NodeReads T P n) {d : Nat} {s s' : PS} {x : Node}
    (h : P.action (n + 1) d s = some (x, s')) (ho : OpenAct T [] s.is) (hg : GoodT T s.trees) :
    GoodN T x s'.is ∧ GoodT T s'.trees ∧ Tail T s'.is := by
  rw [PCfg.action] at h
  split at h
  · cases h
  · next i r hs =>
    split at h
    · next hi =>
      have ho1 := open_kw ho hs hi
      split at h
      · cases h
      · next j r1 hj =>
        split at h
        · cases h
        · next hn =>
          obtain ⟨n1, n2⟩ := name_inner hn
          obtain ⟨pre, l, hTe, hk⟩ := ho1
          rw [solid_of_skip hj] at hTe
          split at h
          · cases h
          · next hp =>
            obtain ⟨f1, f2⟩ := fromAct_name (by simp) n1 n2 hTe hk hp
            split at h
            · cases h
            · next hl =>
              obtain ⟨k1, k2, k3, k4⟩ := ih.itemList hl f2 hg
              split at h
              · cases h
              · rw [Option.map_eq_some_iff] at h
                obtain ⟨t, ht, h⟩ := h
                cases h
                exact ⟨goodS_template f1, addTree_good k2 k1 ht, k3⟩
    · next hi =>
      have ho1 := open_kw ho hs hi
      split at h
      · cases h
      · rw [Option.map_eq_some_iff] at h
        obtain ⟨t, ht, h⟩ := h
        cases h
        exact ⟨goodS_other T, hg, tail_right ho1.tail ht⟩
    · next hi =>
      have ho1 := open_kw ho hs hi
      split at h
      · cases h
      · rw [Option.map_eq_some_iff] at h
        obtain ⟨t, ht, h⟩ := h
        cases h
        exact ⟨goodS_other T, hg, tail_right ho1.tail ht⟩
    · next hi =>
      have ho1 := open_kw ho hs hi
      split at h
      · next hj =>
        cases h
        have h2 : OpenAct T ([] ++ [i]) (skip r) := by
          obtain ⟨pre, l, h1, h2⟩ := ho1
          exact ⟨pre, l, by rw [solid_skip]; exact h1, h2⟩
        rw [hj] at h2
        exact ⟨fun _ _ _ _ => ⟨_, h2⟩, hg, h2.tail⟩
      · next hj =>
        cases h
        have h2 : OpenAct T ([] ++ [i]) (skip r) := by
          obtain ⟨pre, l, h1, h2⟩ := ho1
          exact ⟨pre, l, by rw [solid_skip]; exact h1, h2⟩
        rw [hj] at h2
        exact ⟨fun _ _ _ _ => ⟨_, h2⟩, hg, h2.tail⟩
      · rw [Option.map_eq_some_iff] at h
        obtain ⟨t, ht, h⟩ := h
        cases h
        exact ⟨else_right hT ho1.tail ht, hg, tail_right ho1.tail ht⟩
    · next hi =>
      have ho1 := open_kw ho hs hi
      rw [Option.map_eq_some_iff] at h
      obtain ⟨t, ht, h⟩ := h
      cases h
      exact ⟨trivial, hg, tail_right ho1.tail ht⟩
    · next hi => exact ih.control h ⟨_, open_kw ho hs hi⟩ hg
    · next hi => exact ih.control h ⟨_, open_kw ho hs hi⟩ hg
    · next hi => exact ih.control h ⟨_, open_kw ho hs hi⟩ hg
    · next hi =>
      have ho1 := open_kw ho hs hi
      split at h
      · cases h
      · next j r1 hj =>
        split at h
        · cases h
        · next hn =>
          obtain ⟨n1, n2⟩ := name_inner hn
          obtain ⟨pre, l, hTe, hk⟩ := ho1
          rw [solid_of_skip hj] at hTe
          split at h
          · next he =>
            cases h
            obtain ⟨rl, hr⟩ := expectRight_solid he
            rw [hr] at hTe
            refine ⟨goodS_template ⟨([] ++ [i]) ++ [j], ⟨pre, _, l, rl, by rw [hTe, List.append_assoc]; rfl, ?_⟩, starts_kw hk n2, fun _ a ha => by cases ha⟩, hg,
              ⟨pre ++ ⟨.left, l⟩ :: ([i] ++ [j, ⟨.right, rl⟩]), by rw [hTe]; simp⟩⟩
            intro y hy
            rcases List.mem_append.mp hy with hy | hy
            · exact inner_kw (hk y hy)
            · have : y = j := by simpa using hy
              subst this; exact n1
          · split at h
            · cases h
            · next hp =>
              cases h
              obtain ⟨f1, f2⟩ := fromAct_name (by simp) n1 n2 hTe hk hp
              exact ⟨goodS_template f1, hg, f2⟩
    · split at h
      · cases h
      · next hp =>
        cases h
        have ho' : OpenAct T [] (i :: r) := by
          obtain ⟨pre, l, h1, h2⟩ := ho
          exact ⟨pre, l, by rw [← hs, solid_skip]; exact h1, h2⟩
        obtain ⟨⟨i', rest, e1, f1⟩, f2⟩ := fromAct_pipe (by simp) ho' hp
        rw [solid_cons (skip_head hs)] at e1
        cases e1
        exact ⟨goodS_action f1, hg, f2⟩

theorem goodS_ctl {c : Ctl} {line : Nat} {p : Pipe} {body els : Root} (h : FromAct T line p) (hb : GoodR T body)
    (he : GoodR T els) : GoodS T (c.stmt line p body els) := by
  have hm : ∀ n, n ∈ body.map (·.1) ∨ n ∈ els.map (·.1) → GoodS T n := by
    intro n hn
    rcases hn with hn | hn
    · obtain ⟨y, hy, rfl⟩ := List.mem_map.mp hn; exact hb y hy
    · obtain ⟨y, hy, rfl⟩ := List.mem_map.mp hn; exact he y hy
  intro l q hq
  cases c <;> dsimp only [Ctl.stmt] at hq <;> cases hq
  all_goals first | exact h | (next hq hn => exact hm _ hn l q hq)

theorem again_kw {c : Ctl} {is r : List Item} (h : c.again is = some r) : ∃ i, is = i :: r ∧ IsKw i := by
  unfold Ctl.again at h
  split at h
  · cases h; exact ⟨_, rfl, _, rfl⟩
  · cases h; exact ⟨_, rfl, _, rfl⟩
  · cases h

theorem control_reads {n : Nat} (ih : NodeReads T P n) {c : Ctl} {d : Nat} {s s' : PS} {x : Node}
    (h : P.control (n + 1) c d s = some (x, s')) (ho : ∃ ks, OpenAct T ks s.is) (hg : GoodT T s.trees) :
    GoodN T x s'.is ∧ GoodT T s'.trees ∧ Tail T s'.is := by
  obtain ⟨ks, ho⟩ := ho
  rw [PCfg.control] at h
  split at h
  · cases h
  · next pipe r vars hp =>
    obtain ⟨⟨i', rest, e1, f1⟩, f2⟩ := fromAct_pipe (by cases c <;> simp [Ctl.place]) ho hp
    rw [← lineOf_solid e1] at f1
    have hnil : GoodR T [] := by intro x hx; cases hx
    split at h
    · cases h
    · next hl =>
      cases h
      obtain ⟨k1, k2, k3, k4⟩ := ih.itemList hl f2 hg
      exact ⟨goodS_ctl f1 k1 hnil, k2, k3⟩
    · next s1 hl =>
      obtain ⟨k1, k2, k3, k4⟩ := ih.itemList hl f2 hg
      split at h
      · next r' ha =>
        split at h
        · next hc =>
          cases h
          obtain ⟨j, hj, hk⟩ := again_kw ha
          obtain ⟨ks', ho'⟩ := k4 rfl j r' hj hk
          rw [hj] at ho'
          have hns : j.tok ≠ .space := by obtain ⟨k, hk⟩ := hk; rw [hk]; simp
          have ho2 : OpenAct T (ks' ++ [j]) r' := by
            obtain ⟨pre, l, h1, h2⟩ := ho'
            refine ⟨pre, l, by rw [h1, solid_cons hns]; simp, ?_⟩
            intro y hy
            rcases List.mem_append.mp hy with hy | hy
            · exact h2 y hy
            · have : y = j := by simpa using hy
              subst this; exact hk
          obtain ⟨c1, c2, c3⟩ := ih.control hc ⟨_, ho2⟩ k2
          exact ⟨goodS_ctl f1 k1 (goodR_cons c1 hnil), c2, c3⟩
        · cases h
      · split at h
        · next he =>
          cases h
          obtain ⟨c1, c2, c3, -⟩ := ih.itemList he k3 k2
          exact ⟨goodS_ctl f1 k1 c1, c2, c3⟩
        · cases h

theorem nodeReads (hT : AfterRight T) : ∀ n, NodeReads T P n
  | 0 => ⟨(by intro _ _ _ _ _ h; rw [PCfg.itemList] at h; cases h), (by intro _ _ _ _ h; rw [PCfg.textOrAction] at h; cases h),
      (by intro _ _ _ _ h; rw [PCfg.action] at h; cases h), (by intro _ _ _ _ _ h; rw [PCfg.control] at h; cases h)⟩
  | n + 1 => ⟨itemList_reads (nodeReads hT n), textOrAction_reads (nodeReads hT n), action_reads hT (nodeReads hT n),
      control_reads (nodeReads hT n)⟩

theorem definition_reads (hT : AfterRight T) {n : Nat} {is is' : List Item} {trees trees' : GMap Root}
    (h : P.definition n is trees = some (is', trees')) (ht : Tail T is) (hg : GoodT T trees) : GoodT T trees' ∧ Tail T is' := by
  unfold PCfg.definition at h
  split at h
  · cases h
  · next i r hs =>
    split at h
    · cases h
    · split at h
      · cases h
      · next he =>
        have h1 := tail_right (ht.drop (seg := [i]) (solid_of_skip hs)) he
        split at h
        · next hl =>
          rw [Option.map_eq_some_iff] at h
          obtain ⟨t, hadd, h⟩ := h
          cases h
          obtain ⟨k1, k2, k3, -⟩ := (nodeReads hT n).itemList hl h1 hg
          exact ⟨addTree_good k2 k1 hadd, k3⟩
        · cases h

theorem top_reads (hT : AfterRight T) : ∀ {n : Nat} {s : PS} {root : Root} {trees : GMap Root}, P.top n s root = some trees →
    Tail T s.is → GoodT T s.trees → GoodR T root → GoodT T trees
  | 0, s, root, trees, h => by rw [PCfg.top] at h; cases h
  | n + 1, s, root, trees, h => by
    intro ht hg hr
    rw [PCfg.top] at h
    split at h
    · cases h
    · next i r his =>
      split at h
      · exact addTree_good hg hr h
      · split at h
        · next l r' hi hsk =>
          split at h
          · cases h
          · next is1 trees1 hd =>
            have h1 : Tail T r' := by
              rw [his] at ht
              have h2 := ht.drop (seg := [i]) (solid_cons (is := r) (by rw [hi]; simp))
              exact h2.drop (seg := [⟨.kw .define, l⟩]) (solid_of_skip hsk)
            obtain ⟨d1, d2⟩ := definition_reads hT hd h1 hg
            exact top_reads hT h d2 d1 hr
        · split at h
          · next x e s1 hx =>
            obtain ⟨c1, c2, c3⟩ := (nodeReads hT n).textOrAction hx ht hg
            refine top_reads hT h c3 c2 ?_
            intro y hy
            rcases List.mem_append.mp hy with hy | hy
            · exact hr y hy
            · have : y = (x, e) := by simpa using hy
              subst this; exact c1
          · cases h

/-- The pipelines of the templates of a text come from actions of it. -/
theorem parse_reads {num : Tok → Bool} {C : Cfg} {src : Str} (hT : AfterRight (solid (C.items src)))
    {roots : List (List Stmt)} (h : parse num C src = some roots) :
    ∀ root ∈ roots, ∀ x ∈ root, GoodS (solid (C.items src)) x := by
  unfold parse at h
  dsimp only at h
  rw [Option.map_eq_some_iff] at h
  obtain ⟨trees, htop, rfl⟩ := h
  have hg := top_reads hT htop ⟨[], rfl⟩ (by intro t ht; cases ht) (by intro t ht; cases ht)
  intro root hroot x hx
  obtain ⟨t, ht, rfl⟩ := List.mem_map.mp hroot
  obtain ⟨y, hy, rfl⟩ := List.mem_map.mp hx
  exact hg t ht y hy

end Verif.Tmpl
