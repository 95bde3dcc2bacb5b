import Verif.Spec.Xtemplate
/-! # C54, C55: extraction from templates -/
namespace Verif.Xt
open Verif
set_option linter.unusedSimpArgs false

/-! ## Literals and names -/

theorem lit_iff (a : Arg) (t : Str) : Lit a t ↔ stringLiteral a = some t := by
  constructor
  · intro h
    induction h with
    | str t => simp [stringLiteral]
    | paren h ih => simpa [stringLiteral] using ih
  · intro h
    fun_induction stringLiteral a with
    | case1 text => simp at h; subst h; exact .str _
    | case2 a ih => exact .paren (ih h)
    | case3 => simp at h

theorem lit_unique (a : Arg) (t t' : Str) (h : Lit a t) (h' : Lit a t') : t = t' := by
  rw [lit_iff] at h h'; rw [h] at h'; exact Option.some.inj h'

theorem literals_iff (as : List Arg) (ts : List Str) : literals as = some ts ↔ List.Forall₂ Lit as ts := by
  induction as generalizing ts with
  | nil => simp [literals, eq_comm]
  | cons a as ih =>
    simp only [literals]
    constructor
    · intro h
      cases ha : stringLiteral a with
      | none => simp [ha] at h
      | some t =>
        cases hr : literals as with
        | none => simp [ha, hr] at h
        | some ts' =>
          simp only [ha, hr, Option.some.injEq] at h
          subst h
          exact .cons ((lit_iff _ _).mpr ha) ((ih _).mp hr)
    · intro h
      cases h with
      | cons h1 h2 =>
        rw [lit_iff] at h1; rw [← ih] at h2
        simp [h1, h2]

theorem piped_iff (prev : Option Cmd) (a : Arg) :
    pipedStringArg prev = some a ↔ prev = some [a] ∧ ∃ t, Lit a t := by
  simp only [lit_iff, ← Option.isSome_iff_exists]
  unfold pipedStringArg
  split
  · rename_i b
    split
    · rename_i hb
      simp only [Option.some.injEq, List.cons.injEq, and_true]
      constructor
      · rintro rfl; exact ⟨rfl, hb⟩
      · rintro ⟨rfl, -⟩; rfl
    · rename_i hb
      simp only [reduceCtorEq, Option.some.injEq, List.cons.injEq, and_true, false_iff, not_and]
      rintro rfl; exact hb
  · rename_i hne
    simp only [reduceCtorEq, false_iff, not_and]
    intro h; exact absurd h (hne a)

/-- The name by which an argument calls. -/
def lastName : Arg → Option Str
  | .ident n => some n
  | .field ids => ids.getLast?
  | .var ids => ids.getLast?
  | .chain _ ids => ids.getLast?
  | _ => none

theorem getLast_snoc (ids : List Str) (n : Str) (h : ids.getLast? = some n) : ∃ l, ids = l ++ [n] := by
  exact ⟨ids.dropLast, (List.dropLast_append_getLast? n (by simpa using h)).symm⟩

theorem calls_iff (a : Arg) (n : Str) : Calls a n ↔ lastName a = some n := by
  constructor
  · intro h; cases h <;> simp [lastName]
  · intro h
    cases a with
    | str => simp [lastName] at h
    | pipe => simp [lastName] at h
    | ident m => simp [lastName] at h; subst h; exact .ident _
    | field ids => obtain ⟨l, rfl⟩ := getLast_snoc ids n h; exact .field l n
    | var ids => obtain ⟨l, rfl⟩ := getLast_snoc ids n h; exact .var l n
    | chain b ids => obtain ⟨l, rfl⟩ := getLast_snoc ids n h; exact .chain b l n
    | other => simp [lastName] at h

/-! ## One call -/

theorem posArg_iff (m : List Str) (k : Int) (t : Str) : posArg m k = some t ↔ At m k t := by
  unfold posArg At
  constructor
  · intro h
    split at h
    · rename_i hk
      obtain ⟨hl, rfl⟩ := List.getElem?_eq_some_iff.mp h
      refine ⟨m.take (k - 1).toNat, m.drop ((k - 1).toNat + 1), ?_, ?_⟩
      · simp
      · simp only [List.length_take]; omega
    · simp at h
  · rintro ⟨pre, post, rfl, rfl⟩
    rw [if_pos (by omega)]
    have : ((pre.length : Int) + 1 - 1).toNat = pre.length := by omega
    rw [this]; simp

theorem at_range (m : List Str) (k : Int) (t : Str) (h : At m k t) : 1 ≤ k ∧ k ≤ m.length := by
  obtain ⟨pre, post, rfl, rfl⟩ := h
  simp; omega

theorem at_exists (m : List Str) (k : Int) (h1 : 1 ≤ k) (h2 : k ≤ m.length) : ∃ t, At m k t := by
  have hl : (k - 1).toNat < m.length := by omega
  exact ⟨m[(k - 1).toNat], (posArg_iff _ _ _).mp (by simp [posArg, h1, hl])⟩

/-- The number of arguments the code asks for is the number of declared positions, if these have no
gaps. -/
theorem argCount_eq (kw : Keyword) (n : Nat) (h : ∀ k, Declared kw k ↔ 1 ≤ k ∧ k ≤ (n : Int)) :
    argCount kw = n := by
  have h1 := h 1; have h2 := h 2; have h3 := h 3; have h4 := h 4
  have ha := h kw.msgID; have hb := h kw.msgCtxt; have hc := h kw.msgID2
  clear h
  obtain ⟨_, c, i, d⟩ := kw
  simp only [Declared, argCount, true_or, true_iff, true_and] at *
  by_cases h5 : 0 < c <;> by_cases h6 : 0 < d <;> by_cases h7 : c = i <;> by_cases h8 : d = i <;>
    by_cases h9 : d = c <;> simp only [h5, h6, h7, h8, h9, eq_self, true_or, false_or, or_self, and_self, gt_iff_lt, and_true, and_false, or_false,
      true_and, false_and, not_true, not_false_eq_true, if_true, if_false, ne_eq, or_true,
      true_iff] at h1 h2 h3 h4 ha hb hc ⊢ <;> omega

theorem declared_of (kw : Keyword) (h : ∀ k, Declared kw k → 1 ≤ k ∧ k ≤ (argCount kw : Int)) :
    ∀ k, Declared kw k ↔ 1 ≤ k ∧ k ≤ (argCount kw : Int) := by
  intro k
  refine ⟨h k, ?_⟩
  have ha := h kw.msgID; have hb := h kw.msgCtxt; have hc := h kw.msgID2
  clear h
  obtain ⟨_, c, i, d⟩ := kw
  simp only [Declared, argCount, true_or, true_and, forall_const] at *
  by_cases h5 : 0 < c <;> by_cases h6 : 0 < d <;> by_cases h7 : c = i <;> by_cases h8 : d = i <;>
    by_cases h9 : d = c <;> simp only [h5, h6, h7, h8, h9, eq_self, true_or, false_or, or_self, and_self, gt_iff_lt, and_true, and_false, or_false,
      true_and, false_and, not_true, not_false_eq_true, if_true, if_false, ne_eq, or_true,
      forall_const] at ha hb hc ⊢ <;> omega

/-- The entry of `extract`. -/
def mkEntry (line : Str) (kw : Keyword) (ctxt id id2 : Str) : Tr.Entry :=
  { cmts := [b!"#: " ++ line] ++ if 37 ∈ id ∨ 37 ∈ id2 then [b!"#, go-format"] else [], ctxt := ctxt,
    id := id, id2 := id2, isPlural := kw.msgID2 > 0 }

/-- The entry before the check for a format. -/
def rawEntry (line : Str) (kw : Keyword) (ctxt id id2 : Str) : Tr.Entry :=
  { cmts := [b!"#: " ++ line], ctxt := ctxt, id := id, id2 := id2, isPlural := kw.msgID2 > 0 }

theorem extract_iff (line : Str) (kw : Keyword) (m : List Str) (e : Tr.Entry) :
    extract line kw m = some e ↔ ∃ ctxt id id2, e = mkEntry line kw ctxt id id2 ∧ At m kw.msgID id ∧
      (if 0 < kw.msgCtxt then At m kw.msgCtxt ctxt else ctxt = []) ∧
      (if 0 < kw.msgID2 then At m kw.msgID2 id2 else id2 = []) := by
  have hc : ∀ ctxt, (if kw.msgCtxt > 0 then posArg m kw.msgCtxt else some []) = some ctxt ↔
      (if 0 < kw.msgCtxt then At m kw.msgCtxt ctxt else ctxt = []) := by
    intro ctxt
    by_cases h : 0 < kw.msgCtxt
    · simp [h, posArg_iff]
    · simp [h, eq_comm]
  have h2 : ∀ id2, (if kw.msgID2 > 0 then posArg m kw.msgID2 else some []) = some id2 ↔
      (if 0 < kw.msgID2 then At m kw.msgID2 id2 else id2 = []) := by
    intro ctxt
    by_cases h : 0 < kw.msgID2
    · simp [h, posArg_iff]
    · simp [h, eq_comm]
  have hfmt : ∀ ctxt id id2, (if isGoFormat (rawEntry line kw ctxt id id2) then
      { rawEntry line kw ctxt id id2 with
        cmts := (rawEntry line kw ctxt id id2).cmts ++ [b!"#, go-format"] }
      else rawEntry line kw ctxt id id2) = mkEntry line kw ctxt id id2 := by
    intro ctxt id id2
    simp only [isGoFormat, mkEntry, rawEntry, Bool.or_eq_true, List.contains_iff_mem]
    split <;> simp
  unfold extract
  constructor
  · intro h
    cases hcx : (if kw.msgCtxt > 0 then posArg m kw.msgCtxt else some []) with
    | none => simp [hcx] at h
    | some ctxt =>
      cases hid : posArg m kw.msgID with
      | none => simp [hcx, hid] at h
      | some id =>
        cases hi2 : (if kw.msgID2 > 0 then posArg m kw.msgID2 else some []) with
        | none => simp [hcx, hid, hi2] at h
        | some id2 =>
          rw [hcx, hid, hi2] at h
          replace h := (congrArg some (hfmt ctxt id id2)).symm.trans h
          rw [Option.some.injEq] at h
          exact ⟨ctxt, id, id2, h.symm, (posArg_iff _ _ _).mp hid, (hc _).mp hcx, (h2 _).mp hi2⟩
  · rintro ⟨ctxt, id, id2, rfl, hid, hcx, hi2⟩
    rw [(hc ctxt).mpr hcx, (posArg_iff _ _ _).mpr hid, (h2 id2).mpr hi2]
    exact congrArg some (hfmt ctxt id id2)

theorem entryFor_mk (kw : Keyword) (line : Str) (after : List Arg) (e : Tr.Entry) :
    EntryFor kw line after e ↔ ∃ (ctxt id id2 : Str) (lits rest : List Arg) (m : List Str),
      e = mkEntry line kw ctxt id id2 ∧ after = lits ++ rest ∧
      List.Forall₂ Lit lits m ∧ (∀ k, Declared kw k ↔ 1 ≤ k ∧ k ≤ m.length) ∧
      At m kw.msgID id ∧ (if 0 < kw.msgCtxt then At m kw.msgCtxt ctxt else ctxt = []) ∧
      (if 0 < kw.msgID2 then At m kw.msgID2 id2 else id2 = []) := by
  constructor
  · rintro ⟨⟨lits, rest, m, h1, h2, h3, h4, h5, h6⟩, hp, hcm, hs, hn⟩
    refine ⟨e.ctxt, e.id, e.id2, lits, rest, m, ?_, h1, h2, h3, h4, h5, h6⟩
    obtain ⟨cmts, ctxt, id, isPlural, id2, str, strN⟩ := e
    dsimp only at hp hcm hs hn
    subst hs; subst hn
    have : isPlural = decide (kw.msgID2 > 0) := by
      rw [Bool.eq_iff_iff, hp]; simp
    simp only [mkEntry, this, hcm]
  · rintro ⟨ctxt, id, id2, lits, rest, m, rfl, h1, h2, h3, h4, h5, h6⟩
    exact ⟨⟨lits, rest, m, h1, h2, h3, h4, h5, h6⟩, by simp [mkEntry], rfl, rfl, rfl⟩

/-- One keyword at one position. -/
theorem filterOne_iff (line name : Str) (i : Nat) (args : List Arg) (kw : Keyword) (e : Tr.Entry) :
    filterOne line name i args kw = some e ↔ kw.name = name ∧ EntryFor kw line (args.drop (i + 1)) e := by
  unfold filterOne
  by_cases hn : kw.name = name
  · rw [if_pos hn]
    simp only [hn, true_and]
    rw [entryFor_mk]
    constructor
    · intro h
      split at h
      · simp at h
      · rename_i hlen
        cases hl : literals ((args.drop (i + 1)).take (argCount kw)) with
        | none => simp [hl] at h
        | some m =>
          rw [hl] at h
          dsimp only at h
          obtain ⟨ctxt, id, id2, rfl, h1, h2, h3⟩ := (extract_iff _ _ _ _).mp h
          rw [literals_iff] at hl
          have hm : m.length = argCount kw := by
            rw [← hl.length_eq]; simp; omega
          refine ⟨ctxt, id, id2, _, args.drop (i + 1) |>.drop (argCount kw), m, rfl,
            (List.take_append_drop _ _).symm, hl, ?_, h1, h2, h3⟩
          rw [hm]
          apply declared_of
          rw [← hm]
          rintro k (rfl | ⟨rfl, hk⟩ | ⟨rfl, hk⟩)
          · exact at_range _ _ _ h1
          · rw [if_pos hk] at h2; exact at_range _ _ _ h2
          · rw [if_pos hk] at h3; exact at_range _ _ _ h3
    · rintro ⟨ctxt, id, id2, lits, rest, m, rfl, hd, hl, hk, h1, h2, h3⟩
      have hac := argCount_eq kw m.length hk
      have hlen := congrArg List.length hd
      have hll := hl.length_eq
      simp only [List.length_drop, List.length_append] at hlen
      have hpos : 1 ≤ m.length := by
        have := at_range _ _ _ h1; omega
      rw [if_neg (by omega), hd, hac, ← hll, List.take_left, (literals_iff _ _).mpr hl]
      exact (extract_iff _ _ _ _).mpr ⟨ctxt, id, id2, rfl, h1, h2, h3⟩
  · simp [hn]

theorem entryFor_unique (kw : Keyword) (line : Str) (after : List Arg) (e e' : Tr.Entry)
    (h : EntryFor kw line after e) (h' : EntryFor kw line after e') : e = e' := by
  have f := (filterOne_iff line kw.name 0 (.other :: after) kw e).mpr ⟨rfl, by simpa using h⟩
  have f' := (filterOne_iff line kw.name 0 (.other :: after) kw e').mpr ⟨rfl, by simpa using h'⟩
  rw [f] at f'; exact Option.some.inj f'

theorem entryAt_iff (ref : Str) (args : List Arg) (i : Nat) (kw : Keyword) (e : Tr.Entry) :
    entryAt ref args i kw = some e ↔
      ∃ f, args[i]? = some f ∧ Calls f kw.name ∧ EntryFor kw ref (args.drop (i + 1)) e := by
  unfold entryAt
  split
  · rename_i h
    simp only [Option.some.injEq]
    obtain ⟨f, hf, hc, he⟩ := h.choose_spec
    constructor
    · rintro rfl; exact ⟨f, hf, hc, he⟩
    · rintro ⟨f', hf', hc', he'⟩
      exact entryFor_unique kw ref _ _ _ he he'
  · rename_i h
    simp only [reduceCtorEq, false_iff]
    intro hf; exact h ⟨e, hf⟩

/-- What the switch on an argument does when it is not a pipeline. -/
theorem filter_eq (kws : List Keyword) (line : Str) (args : List Arg) (i : Nat) (a : Arg)
    (ha : args[i]? = some a) (name : Str) (hn : lastName a = some name) :
    filter kws line name i args = kws.filterMap (entryAt line args i) := by
  unfold filter
  congr 1
  funext kw
  apply Option.ext
  intro e
  rw [filterOne_iff, entryAt_iff]
  constructor
  · rintro ⟨rfl, h⟩
    exact ⟨a, ha, (calls_iff _ _).mpr hn, h⟩
  · rintro ⟨f, hf, hc, h⟩
    rw [ha] at hf
    obtain rfl := Option.some.inj hf
    rw [calls_iff, hn] at hc
    exact ⟨(Option.some.inj hc).symm, h⟩

theorem filter_none (kws : List Keyword) (line : Str) (args : List Arg) (i : Nat) (a : Arg)
    (ha : args[i]? = some a) (hn : lastName a = none) :
    kws.filterMap (entryAt line args i) = [] := by
  rw [List.filterMap_eq_nil_iff]
  intro kw _
  rw [← Option.not_isSome_iff_eq_none]
  intro h
  obtain ⟨e, he⟩ := Option.isSome_iff_exists.mp h
  obtain ⟨f, hf, hc, -⟩ := (entryAt_iff _ _ _ _ _).mp he
  rw [ha] at hf
  obtain rfl := Option.some.inj hf
  rw [calls_iff, hn] at hc
  simp at hc

/-! ## Pipelines -/

/-- Resolving a literal asks for nothing. -/
theorem resolveArg_lit (kws : List Keyword) (line : Str) (args : List Arg) (i : Nat) (a : Arg) (t : Str)
    (h : Lit a t) : resolveArg kws line args i a = [] := by
  induction h generalizing args i with
  | str t => simp [resolveArg]
  | paren h ih =>
    rw [resolveArg]
    simp only [resolveCmds, pipedStringArg, resolveArgs, ih, List.append_nil]

theorem parens_lit (a : Arg) (t : Str) (h : Lit a t) (kws : List Keyword) (line : Str) :
    ((parens a).flatMap fun q => (received none q).flatMap (entriesOf kws line)) = [] := by
  induction h with
  | str t => simp [parens]
  | @paren a t h ih =>
    have h1 : received none [[a]] = [[a]] := by simp [received]
    have h2 : entriesOf kws line [a] = [] := by
      have hn : lastName a = none := by cases h <;> rfl
      simp only [entriesOf, List.length_cons, List.length_nil, List.range_succ, List.range_zero,
        List.nil_append, List.flatMap_cons, List.flatMap_nil, List.append_nil]
      exact filter_none kws line [a] 0 a rfl hn
    simp only [parens, parensCmds, parensArgs, List.append_nil, List.flatMap_cons, h1, h2, ih,
      List.flatMap_nil]

/-- The command with the literal piped into it. -/
def withPiped (prev : Option Cmd) (c : Cmd) : List Arg :=
  match pipedStringArg prev with
  | some a => c ++ [a]
  | none => c

theorem received_cons (prev : Option Cmd) (c : Cmd) (cs : Pipe) :
    received prev (c :: cs) = withPiped prev c :: received (some c) cs := by
  unfold withPiped
  rw [received]
  congr 1
  split
  · rename_i h
    obtain ⟨h1, h2⟩ := h.choose_spec
    have := (piped_iff prev h.choose).mpr ⟨h1, h2⟩
    rw [this]
  · rename_i h
    cases hp : pipedStringArg prev with
    | none => rfl
    | some a => exact absurd ⟨a, (piped_iff _ _).mp hp⟩ h

theorem resolveCmds_cons (kws : List Keyword) (line : Str) (prev : Option Cmd) (c : Cmd) (cs : List Cmd) :
    resolveCmds kws line prev (c :: cs) =
      resolveArgs kws line (withPiped prev c) 0 (withPiped prev c) ++ resolveCmds kws line (some c) cs := by
  rw [resolveCmds]
  unfold withPiped
  split <;> rename_i h <;> rw [h]

theorem range_succ_append (n : Nat) (k : Nat) {β : Type} (f : Nat → List β) :
    ((List.range' k (n + 1)).flatMap f) = f k ++ (List.range' (k + 1) n).flatMap f := by
  simp [List.range'_succ]

/-- The entries of the parenthesised pipelines in some commands. -/
noncomputable def innerEntries (kws : List Keyword) (line : Str) (ps : List Pipe) : List Tr.Entry :=
  ps.flatMap fun q => (received none q).flatMap (entriesOf kws line)

theorem innerEntries_append (kws : List Keyword) (line : Str) (ps qs : List Pipe) :
    innerEntries kws line (ps ++ qs) = innerEntries kws line ps ++ innerEntries kws line qs := by
  simp [innerEntries]

theorem parensArgs_append (as bs : List Arg) : parensArgs (as ++ bs) = parensArgs as ++ parensArgs bs := by
  induction as with
  | nil => simp [parensArgs]
  | cons a as ih => simp [parensArgs, ih]

/-- The part of the entries of a command from position `i` on. -/
noncomputable def entriesFrom (kws : List Keyword) (line : Str) (args : List Arg) (i n : Nat) :
    List Tr.Entry := (List.range' i n).flatMap fun i => kws.filterMap (entryAt line args i)

theorem entriesOf_eq (kws : List Keyword) (line : Str) (args : List Arg) :
    entriesOf kws line args = entriesFrom kws line args 0 args.length := by
  simp [entriesOf, entriesFrom, List.range_eq_range']

theorem innerEntries_withPiped (kws : List Keyword) (line : Str) (prev : Option Cmd) (c : Cmd) :
    innerEntries kws line (parensArgs (withPiped prev c)) = innerEntries kws line (parensArgs c) := by
  unfold withPiped
  split
  · rename_i a ha
    obtain ⟨-, t, ht⟩ := (piped_iff _ _).mp ha
    rw [parensArgs_append, innerEntries_append]
    have : innerEntries kws line (parensArgs [a]) = [] := by
      have := parens_lit a t ht kws line
      simpa [innerEntries, parensArgs] using this
    rw [this, List.append_nil]
  · rfl

theorem perm_swap_mid {β : Type} (a b c d : List β) : (a ++ b ++ (c ++ d)).Perm (a ++ c ++ (b ++ d)) := by
  simp only [List.append_assoc]
  refine List.Perm.append_left a ?_
  rw [← List.append_assoc, ← List.append_assoc]
  exact List.Perm.append_right d List.perm_append_comm

mutual
theorem resolveArg_perm (kws : List Keyword) (line : Str) (args : List Arg) (i : Nat) (a : Arg)
    (ha : args[i]? = some a) : (resolveArg kws line args i a).Perm
      (kws.filterMap (entryAt line args i) ++ innerEntries kws line (parens a)) := by
  match a, ha with
  | .pipe cmds, ha =>
    rw [resolveArg, filter_none kws line args i _ ha rfl, List.nil_append]
    refine (resolveCmds_perm kws line none cmds).trans ?_
    simp only [parens, innerEntries, List.flatMap_cons]
    exact List.Perm.refl _
  | .ident name, ha =>
    rw [resolveArg, filter_eq kws line args i _ ha name rfl]
    simp [parens, innerEntries]
  | .field ids, ha =>
    rw [resolveArg]
    cases hl : ids.getLast? with
    | none => simp [parens, innerEntries, filter_none kws line args i _ ha hl]
    | some name => simp [parens, innerEntries, filter_eq kws line args i _ ha name hl]
  | .var ids, ha =>
    rw [resolveArg]
    cases hl : ids.getLast? with
    | none => simp [parens, innerEntries, filter_none kws line args i _ ha hl]
    | some name => simp [parens, innerEntries, filter_eq kws line args i _ ha name hl]
  | .chain b ids, ha =>
    rw [resolveArg]
    cases hl : ids.getLast? with
    | none => simp [parens, innerEntries, filter_none kws line args i _ ha hl]
    | some name => simp [parens, innerEntries, filter_eq kws line args i _ ha name hl]
  | .str t, ha => rw [resolveArg, filter_none kws line args i _ ha rfl]; simp [parens, innerEntries]
  | .other, ha => rw [resolveArg, filter_none kws line args i _ ha rfl]; simp [parens, innerEntries]
  termination_by sizeOf a
theorem resolveArgs_perm (kws : List Keyword) (line : Str) (args : List Arg) (i : Nat) (as : List Arg)
    (ha : args.drop i = as) : (resolveArgs kws line args i as).Perm
      (entriesFrom kws line args i as.length ++ innerEntries kws line (parensArgs as)) := by
  match as, ha with
  | [], _ => rw [resolveArgs]; simp [entriesFrom, parensArgs, innerEntries]
  | a :: as, ha =>
    have h1 : args[i]? = some a := by
      have := congrArg (·[0]?) ha
      simpa using this
    have h2 : args.drop (i + 1) = as := by
      have := congrArg (List.drop 1) ha
      simpa using this
    rw [resolveArgs]
    refine ((resolveArg_perm kws line args i a h1).append
      (resolveArgs_perm kws line args (i + 1) as h2)).trans ?_
    refine (perm_swap_mid _ _ _ _).trans ?_
    simp only [entriesFrom, List.length_cons, List.range'_succ, List.flatMap_cons, parensArgs,
      innerEntries_append]
    exact List.Perm.refl _
  termination_by sizeOf as
theorem resolveCmds_perm (kws : List Keyword) (line : Str) (prev : Option Cmd) (cs : List Cmd) :
    (resolveCmds kws line prev cs).Perm
      ((received prev cs).flatMap (entriesOf kws line) ++ innerEntries kws line (parensCmds cs)) := by
  match cs with
  | [] => rw [resolveCmds]; simp [received, parensCmds, innerEntries]
  | c :: cs =>
    rw [resolveCmds_cons, received_cons]
    refine ((resolveArgs_perm kws line (withPiped prev c) 0 (withPiped prev c) rfl).append
      (resolveCmds_perm kws line (some c) cs)).trans ?_
    refine (perm_swap_mid _ _ _ _).trans ?_
    rw [innerEntries_withPiped, ← entriesOf_eq]
    simp only [List.flatMap_cons, parensCmds, innerEntries_append, List.append_assoc]
    exact List.Perm.refl _
  termination_by (match prev with | none => 0 | some c => sizeOf c) + sizeOf cs
  decreasing_by
    · unfold withPiped
      split
      · rename_i a h
        obtain ⟨rfl, -⟩ := (piped_iff _ _).mp h
        have := sizeOf_snoc c a
        simp at this ⊢
        omega
      · simp; omega
    · simp; omega
end

/-! ## Templates -/

mutual
theorem resolveNode_eq (kws : List Keyword) (filename : Str) (n : Stmt) :
    resolveNode kws filename n = (pipesOf n).flatMap fun lp => resolvePipe kws filename lp.1 lp.2 := by
  match n with
  | .list ns => simp only [resolveNode, pipesOf, resolveNodes_eq kws filename ns]
  | .action l p => simp [resolveNode, pipesOf]
  | .ifN l p body els =>
    simp [resolveNode, pipesOf, resolveNodes_eq kws filename body, resolveNodes_eq kws filename els]
  | .rangeN l p body els =>
    simp [resolveNode, pipesOf, resolveNodes_eq kws filename body, resolveNodes_eq kws filename els]
  | .withN l p body els =>
    simp [resolveNode, pipesOf, resolveNodes_eq kws filename body, resolveNodes_eq kws filename els]
  | .template l p => simp [resolveNode, pipesOf]
  | .other => simp [resolveNode, pipesOf]
theorem resolveNodes_eq (kws : List Keyword) (filename : Str) (ns : List Stmt) :
    resolveNodes kws filename ns =
      (pipesOfAll ns).flatMap fun lp => resolvePipe kws filename lp.1 lp.2 := by
  match ns with
  | [] => simp [resolveNodes, pipesOfAll]
  | n :: ns =>
    simp [resolveNodes, pipesOfAll, resolveNode_eq kws filename n, resolveNodes_eq kws filename ns]
end

theorem flatMap_perm {α β : Type} (l : List α) (f g : α → List β) (h : ∀ a ∈ l, (f a).Perm (g a)) :
    (l.flatMap f).Perm (l.flatMap g) := by
  induction l with
  | nil => exact .refl _
  | cons a l ih =>
    rw [List.flatMap_cons, List.flatMap_cons]
    exact (h a (by simp)).append (ih fun b hb => h b (by simp [hb]))

/-- **C54**: every call site of a template contributes its entry exactly once, and nothing else is
extracted. -/
theorem C54_count (kws : List Keyword) (filename : Str) (root : List Stmt) :
    (resolveNodes kws filename root).Perm (allEntries kws filename root) := by
  rw [resolveNodes_eq]
  unfold allEntries
  refine flatMap_perm _ _ _ fun lp _ => ?_
  refine (resolveCmds_perm kws (refText filename lp.1) none lp.2).trans ?_
  simp only [subPipes, List.flatMap_cons, innerEntries, refText]
  exact List.Perm.refl _

theorem mem_parensArgs (q : Pipe) (as : List Arg) : q ∈ parensArgs as ↔ ∃ a ∈ as, q ∈ parens a := by
  induction as with
  | nil => simp [parensArgs]
  | cons a as ih => simp [parensArgs, ih]

theorem mem_parensCmds (q : Pipe) (cs : List Cmd) :
    q ∈ parensCmds cs ↔ ∃ c ∈ cs, ∃ a ∈ c, q ∈ parens a := by
  induction cs with
  | nil => simp [parensCmds]
  | cons c cs ih => simp [parensCmds, ih, mem_parensArgs]

theorem parens_in (q : Pipe) (a : Arg) (h : q ∈ parens a) : ∃ r, a = .pipe r ∧ InPipe q r := by
  match a, h with
  | .pipe cmds, h =>
    refine ⟨cmds, rfl, ?_⟩
    simp only [parens, List.mem_cons] at h
    rcases h with rfl | h
    · exact .self
    · obtain ⟨c, hc, b, hb, hq⟩ := (mem_parensCmds _ _).mp h
      have h1 := List.sizeOf_lt_of_mem hb
      have h2 := List.sizeOf_lt_of_mem hc
      obtain ⟨r, rfl, hr⟩ := parens_in q b hq
      exact .arg hc hb hr
  | .str _, h => simp [parens] at h
  | .ident _, h => simp [parens] at h
  | .field _, h => simp [parens] at h
  | .var _, h => simp [parens] at h
  | .chain _ _, h => simp [parens] at h
  | .other, h => simp [parens] at h
  termination_by sizeOf a
  decreasing_by simp; omega

theorem mem_subPipes (q p : Pipe) : q ∈ subPipes p ↔ InPipe q p := by
  unfold subPipes
  constructor
  · intro h
    rcases List.mem_cons.mp h with rfl | h
    · exact .self
    · obtain ⟨c, hc, b, hb, hq⟩ := (mem_parensCmds _ _).mp h
      obtain ⟨r, rfl, hr⟩ := parens_in q b hq
      exact .arg hc hb hr
  · intro h
    induction h with
    | self => simp
    | @arg p r cmd hc hb _ ih =>
      refine List.mem_cons_of_mem _ ((mem_parensCmds _ _).mpr ⟨cmd, hc, _, hb, ?_⟩)
      simpa [parens] using ih

/-- The command before the position after `pre`. -/
def before (prev : Option Cmd) (pre : List Cmd) : Option Cmd :=
  match pre.getLast? with
  | some c => some c
  | none => prev

theorem mem_received (prev : Option Cmd) (cs : Pipe) (args : List Arg) : args ∈ received prev cs ↔
    ∃ pre c post, cs = pre ++ c :: post ∧ args = withPiped (before prev pre) c := by
  induction cs generalizing prev with
  | nil => simp [received]
  | cons c cs ih =>
    rw [received_cons, List.mem_cons, ih]
    constructor
    · rintro (rfl | ⟨pre, d, post, rfl, rfl⟩)
      · exact ⟨[], c, cs, rfl, rfl⟩
      · refine ⟨c :: pre, d, post, rfl, ?_⟩
        congr 1
        unfold before
        cases pre with
        | nil => simp
        | cons x pre => rw [List.getLast?_cons_cons, List.getLast?_cons]
    · rintro ⟨pre, d, post, h, rfl⟩
      cases pre with
      | nil =>
        simp at h
        obtain ⟨rfl, rfl⟩ := h
        exact .inl rfl
      | cons x pre =>
        simp at h
        obtain ⟨rfl, rfl⟩ := h
        refine .inr ⟨pre, d, post, rfl, ?_⟩
        congr 1
        unfold before
        cases pre with
        | nil => simp
        | cons x pre => rw [List.getLast?_cons_cons, List.getLast?_cons]

theorem mem_received_none (cs : Pipe) (args : List Arg) : args ∈ received none cs ↔ Receives cs args := by
  rw [mem_received]
  constructor
  · rintro ⟨pre, c, post, rfl, rfl⟩
    unfold withPiped
    split
    · rename_i a ha
      obtain ⟨hb, t, ht⟩ := (piped_iff _ _).mp ha
      unfold before at hb
      split at hb
      · rename_i x hx
        obtain rfl := Option.some.inj hb
        have : pre = pre.dropLast ++ [[a]] := (List.dropLast_append_getLast? _ (by simpa using hx)).symm
        exact .piped pre.dropLast post a t c (by rw [this]; simp) ht
      · simp at hb
    · rename_i hnone
      refine .alone pre post c rfl ?_
      rintro pre' a t rfl ht
      have : pipedStringArg (before none (pre' ++ [[a]])) = some a :=
        (piped_iff _ _).mpr ⟨by simp [before], t, ht⟩
      rw [this] at hnone; simp at hnone
  · intro h
    cases h with
    | alone pre post args h hno =>
      refine ⟨pre, args, post, h, ?_⟩
      unfold withPiped
      split
      · rename_i a ha
        obtain ⟨hb, t, ht⟩ := (piped_iff _ _).mp ha
        unfold before at hb
        split at hb
        · rename_i x hx
          obtain rfl := Option.some.inj hb
          exact absurd ht (hno pre.dropLast a t
            (List.dropLast_append_getLast? _ (by simpa using hx)).symm)
        · simp at hb
      · rfl
    | piped pre post a t args h ht =>
      refine ⟨pre ++ [[a]], args, post, by simpa using h, ?_⟩
      have : pipedStringArg (before none (pre ++ [[a]])) = some a :=
        (piped_iff _ _).mpr ⟨by simp [before], t, ht⟩
      simp [withPiped, this]

mutual
theorem pipeAt_of (l : Nat) (p : Pipe) (n : Stmt) (h : (l, p) ∈ pipesOf n) : PipeAt l p n := by
  match n, h with
  | .list ns, h =>
    obtain ⟨n, hn, hp⟩ := pipeAt_all l p ns (by simpa [pipesOf] using h)
    exact .list hn hp
  | .action l' p', h => simp [pipesOf] at h; obtain ⟨rfl, rfl⟩ := h; exact .action
  | .ifN l' p' body els, h =>
    simp only [pipesOf, List.cons_append, List.mem_cons, Prod.mk.injEq, List.mem_append] at h
    rcases h with ⟨rfl, rfl⟩ | h | h
    · exact .ifCond body els
    · obtain ⟨n, hn, hp⟩ := pipeAt_all l p body h; exact .ifBody (.inl hn) hp
    · obtain ⟨n, hn, hp⟩ := pipeAt_all l p els h; exact .ifBody (.inr hn) hp
  | .rangeN l' p' body els, h =>
    simp only [pipesOf, List.cons_append, List.mem_cons, Prod.mk.injEq, List.mem_append] at h
    rcases h with ⟨rfl, rfl⟩ | h | h
    · exact .rangeCond body els
    · obtain ⟨n, hn, hp⟩ := pipeAt_all l p body h; exact .rangeBody (.inl hn) hp
    · obtain ⟨n, hn, hp⟩ := pipeAt_all l p els h; exact .rangeBody (.inr hn) hp
  | .withN l' p' body els, h =>
    simp only [pipesOf, List.cons_append, List.mem_cons, Prod.mk.injEq, List.mem_append] at h
    rcases h with ⟨rfl, rfl⟩ | h | h
    · exact .withCond body els
    · obtain ⟨n, hn, hp⟩ := pipeAt_all l p body h; exact .withBody (.inl hn) hp
    · obtain ⟨n, hn, hp⟩ := pipeAt_all l p els h; exact .withBody (.inr hn) hp
  | .template l' p', h => simp [pipesOf] at h; obtain ⟨rfl, rfl⟩ := h; exact .template
  | .other, h => simp [pipesOf] at h
theorem pipeAt_all (l : Nat) (p : Pipe) (ns : List Stmt) (h : (l, p) ∈ pipesOfAll ns) :
    ∃ n ∈ ns, PipeAt l p n := by
  match ns, h with
  | [], h => simp [pipesOfAll] at h
  | n :: ns, h =>
    simp only [pipesOfAll, List.mem_append] at h
    rcases h with h | h
    · exact ⟨n, by simp, pipeAt_of l p n h⟩
    · obtain ⟨m, hm, hp⟩ := pipeAt_all l p ns h
      exact ⟨m, by simp [hm], hp⟩
end

theorem mem_pipesOfAll_of (l : Nat) (p : Pipe) (ns : List Stmt) (n : Stmt) (hn : n ∈ ns)
    (h : (l, p) ∈ pipesOf n) : (l, p) ∈ pipesOfAll ns := by
  induction ns with
  | nil => simp at hn
  | cons m ns ih =>
    simp only [pipesOfAll, List.mem_append]
    rcases List.mem_cons.mp hn with rfl | hn
    · exact .inl h
    · exact .inr (ih hn)

theorem mem_pipesOf (l : Nat) (p : Pipe) (n : Stmt) (h : PipeAt l p n) : (l, p) ∈ pipesOf n := by
  induction h with
  | list hn _ ih => simpa only [pipesOf] using mem_pipesOfAll_of l p _ _ hn ih
  | action => simp [pipesOf]
  | template => simp [pipesOf]
  | ifCond => simp [pipesOf]
  | rangeCond => simp [pipesOf]
  | withCond => simp [pipesOf]
  | ifBody hn _ ih | rangeBody hn _ ih | withBody hn _ ih =>
    simp only [pipesOf, List.cons_append, List.mem_cons, List.mem_append]
    rcases hn with hn | hn
    · exact .inr (.inl (mem_pipesOfAll_of l p _ _ hn ih))
    · exact .inr (.inr (mem_pipesOfAll_of l p _ _ hn ih))

theorem mem_entriesOf (kws : List Keyword) (ref : Str) (args : List Arg) (e : Tr.Entry) :
    e ∈ entriesOf kws ref args ↔ ∃ before f after name, args = before ++ f :: after ∧ Calls f name ∧
      ∃ kw ∈ kws, kw.name = name ∧ EntryFor kw ref after e := by
  simp only [entriesOf, List.mem_flatMap, List.mem_range, List.mem_filterMap, entryAt_iff]
  constructor
  · rintro ⟨i, hi, kw, hkw, f, hf, hc, he⟩
    obtain ⟨hl, rfl⟩ := List.getElem?_eq_some_iff.mp hf
    exact ⟨args.take i, args[i], args.drop (i + 1), kw.name, by simp, hc, kw, hkw, rfl, he⟩
  · rintro ⟨before, f, after, name, rfl, hc, kw, hkw, rfl, he⟩
    refine ⟨before.length, by simp, kw, hkw, f, by simp, hc, ?_⟩
    have : (before ++ f :: after).drop (before.length + 1) = after := by
      rw [← List.drop_drop, List.drop_left]; rfl
    rwa [this]

/-- **C54**: the entries extracted from a template are exactly those its call sites ask for. -/
theorem C54_exact (kws : List Keyword) (filename : Str) (root : List Stmt) (e : Tr.Entry) :
    e ∈ resolveNodes kws filename root ↔ TemplateEntry kws filename root e := by
  rw [(C54_count kws filename root).mem_iff]
  simp only [allEntries, List.mem_flatMap, mem_subPipes, mem_received_none, mem_entriesOf,
    TemplateEntry, PipeEntry]
  constructor
  · rintro ⟨⟨l, p⟩, hlp, h⟩
    obtain ⟨n, hn, hp⟩ := pipeAt_all l p root hlp
    exact ⟨l, p, n, hn, hp, h⟩
  · rintro ⟨l, p, n, hn, hp, h⟩
    exact ⟨(l, p), mem_pipesOfAll_of l p root n hn (mem_pipesOf l p n hp), h⟩

/-- **C54**: all the templates of a file, in any order. -/
theorem C54_file (kws : List Keyword) (filename : Str) (roots : List (List Stmt)) (e : Tr.Entry) :
    e ∈ resolveTemplates kws filename roots ↔ ∃ root ∈ roots, TemplateEntry kws filename root e := by
  simp only [resolveTemplates, List.mem_flatMap, C54_exact]

/-- A keyword whose declared positions have a gap is never extracted. -/
theorem C54_gaps (kw : Keyword) (n : Nat) (h : ∃ k : Int, 1 ≤ k ∧ k < n ∧ ¬ Declared kw k) (hn : Declared kw n)
    (ref : Str) (after : List Arg) (e : Tr.Entry) : ¬ EntryFor kw ref after e := by
  rintro ⟨⟨lits, rest, texts, h1, h2, h3, h4⟩, -⟩
  obtain ⟨k, hk1, hk2, hk⟩ := h
  have := (h3 n).mp hn
  exact hk ((h3 k).mpr ⟨hk1, by omega⟩)

/-- Example: an `if` with a call in its condition, a piped call in a `range` and a method call with
context and plural in parentheses in the `else` branch. -/
def exKws : List Keyword := [⟨b!"T", 0, 1, 0⟩, ⟨b!"XN", 1, 2, 3⟩]

/-- See `exKws`. -/
def exRoot : List Stmt :=
  [.ifN 2 [[.ident b!"T", .str b!"a"]]
    [.rangeN 3 [[.field [b!"L"]]] [.action 4 [[.str b!"50%"], [.field [b!"x", b!"T"]]]] []]
    [.action 6 [[.ident b!"printf", .pipe [[.var [b!"$t", b!"XN"], .str b!"c", .str b!"o",
      .pipe [[.str b!"m"]], .field [b!"n"]]]]]]]

theorem exRoot_entries : resolveNodes exKws b!"f" exRoot =
    [{ cmts := [b!"#: f:2"], id := b!"a" },
     { cmts := [b!"#: f:4", b!"#, go-format"], id := b!"50%" },
     { cmts := [b!"#: f:6"], ctxt := b!"c", id := b!"o", id2 := b!"m", isPlural := true }] := by
  decide +kernel

example : TemplateEntry exKws b!"f" exRoot
    { cmts := [b!"#: f:6"], ctxt := b!"c", id := b!"o", id2 := b!"m", isPlural := true } :=
  (C54_exact _ _ _ _).mp (by rw [exRoot_entries]; decide)

/-- `{{ (T "a").Field }}`: the call in the receiver of a field is not found. -/
theorem C54_receiver : resolveNodes exKws b!"f"
    [.action 1 [[.chain (.pipe [[.ident b!"T", .str b!"a"]]) [b!"Field"]]]] = [] := by decide +kernel

/-- `{{ T .x "a" }}` with `T:2` is not extracted although there is a literal at the position. -/
theorem C54_gap_example : resolveNodes [⟨b!"T", 0, 2, 0⟩] b!"f"
    [.action 1 [[.ident b!"T", .field [b!"x"], .str b!"a"]]] = [] := by decide +kernel

example : ∀ ref after e, ¬ EntryFor ⟨b!"T", 0, 2, 0⟩ ref after e :=
  C54_gaps ⟨b!"T", 0, 2, 0⟩ 2 ⟨1, by decide, by decide, by simp [Declared]⟩ (by simp [Declared])

/-! ## C55 -/

/-- **C55**: a literal piped into a command is extracted like a literal as its last argument, whatever
follows in the pipeline.  The command is not itself a literal (`"a" | "b"` is not a valid pipeline). -/
theorem C55_piped (kws : List Keyword) (filename : Str) (line : Nat) (a : Arg) (t : Str) (ha : Lit a t)
    (cmd : Cmd) (hne : cmd ≠ []) (hcmd : ∀ b s, cmd = [b] → ¬ Lit b s) (rest : Pipe) :
    resolvePipe kws filename line ([a] :: cmd :: rest) =
      resolvePipe kws filename line ((cmd ++ [a]) :: rest) := by
  unfold resolvePipe
  rw [resolveCmds_cons, resolveCmds_cons, resolveCmds_cons]
  have h1 : withPiped none [a] = [a] := rfl
  have h2 : withPiped none (cmd ++ [a]) = cmd ++ [a] := rfl
  have h3 : withPiped (some [a]) cmd = cmd ++ [a] := by
    simp [withPiped, (piped_iff (some [a]) a).mpr ⟨rfl, t, ha⟩]
  have h4 : resolveArgs kws (refText filename line) [a] 0 [a] = [] := by
    simp [resolveArgs, resolveArg_lit kws _ [a] 0 a t ha]
  have h5 : pipedStringArg (some cmd) = none := by
    cases hp : pipedStringArg (some cmd) with
    | none => rfl
    | some b =>
      obtain ⟨hb, s, hs⟩ := (piped_iff _ _).mp hp
      exact absurd hs (hcmd b s (Option.some.inj hb))
  have h6 : pipedStringArg (some (cmd ++ [a])) = none := by
    cases hp : pipedStringArg (some (cmd ++ [a])) with
    | none => rfl
    | some b =>
      obtain ⟨hb, s, hs⟩ := (piped_iff _ _).mp hp
      have := congrArg List.length (Option.some.inj hb)
      simp at this
      exact absurd this hne
  rw [h1, h2, h3, h4, List.nil_append]
  congr 1
  cases rest with
  | nil => simp [resolveCmds]
  | cons c cs =>
    rw [resolveCmds_cons, resolveCmds_cons]
    simp only [withPiped, h5, h6]

/-- Two arguments are the same or literals for the same text. -/
def SameArg (a b : Arg) : Prop := a = b ∨ ∃ t, Lit a t ∧ Lit b t

theorem sameArg_literal (a b : Arg) (h : SameArg a b) : stringLiteral a = stringLiteral b := by
  rcases h with rfl | ⟨t, h1, h2⟩
  · rfl
  · rw [lit_iff] at h1 h2; rw [h1, h2]

theorem same_literals (as bs : List Arg) (h : List.Forall₂ SameArg as bs) : literals as = literals bs := by
  induction h with
  | nil => rfl
  | cons h _ ih => simp only [literals, sameArg_literal _ _ h, ih]

theorem same_filter (kws : List Keyword) (line name : Str) (i : Nat) (as bs : List Arg)
    (h : List.Forall₂ SameArg as bs) : filter kws line name i as = filter kws line name i bs := by
  unfold filter
  congr 1
  funext kw
  unfold filterOne
  rw [h.length_eq, same_literals _ _ (List.forall₂_take _ (List.forall₂_drop _ h))]

theorem same_resolveArgs (kws : List Keyword) (line : Str) (as bs : List Arg)
    (h : List.Forall₂ SameArg as bs) (i : Nat) (xs ys : List Arg) (hxy : List.Forall₂ SameArg xs ys) :
    resolveArgs kws line as i xs = resolveArgs kws line bs i ys := by
  induction hxy generalizing i with
  | nil => simp [resolveArgs]
  | @cons x y xs ys hxy _ ih =>
    rw [resolveArgs, resolveArgs, ih]
    congr 1
    rcases hxy with rfl | ⟨t, h1, h2⟩
    · cases x with
      | str => simp [resolveArg]
      | pipe => simp [resolveArg]
      | ident => simp [resolveArg, same_filter kws line _ i as bs h]
      | field ids => simp only [resolveArg, same_filter kws line _ i as bs h]
      | var ids => simp only [resolveArg, same_filter kws line _ i as bs h]
      | chain b ids => simp only [resolveArg, same_filter kws line _ i as bs h]
      | other => simp [resolveArg]
    · rw [resolveArg_lit kws line as i x t h1, resolveArg_lit kws line bs i y t h2]

theorem same_piped (prev prev' : Option Cmd) (h : Option.Rel (List.Forall₂ SameArg) prev prev') (c d : Cmd)
    (hcd : List.Forall₂ SameArg c d) :
    List.Forall₂ SameArg (withPiped prev c) (withPiped prev' d) := by
  cases h with
  | none => exact hcd
  | @some a b h =>
    cases h with
    | nil => exact hcd
    | @cons x y as bs hxy hr =>
      cases hr with
      | cons => exact hcd
      | nil =>
        have hs := sameArg_literal x y hxy
        simp only [withPiped, pipedStringArg, hs]
        by_cases hy : (stringLiteral y).isSome
        · simp only [hy, if_true]
          exact List.rel_append hcd (.cons hxy .nil)
        · simp only [hy, Bool.false_eq_true, if_false]
          exact hcd

theorem same_resolveCmds (kws : List Keyword) (line : Str) (prev prev' : Option Cmd)
    (hp : Option.Rel (List.Forall₂ SameArg) prev prev') (cs ds : List Cmd)
    (h : List.Forall₂ (List.Forall₂ SameArg) cs ds) :
    resolveCmds kws line prev cs = resolveCmds kws line prev' ds := by
  induction h generalizing prev prev' with
  | nil => simp [resolveCmds]
  | @cons c d cs ds hcd _ ih =>
    rw [resolveCmds_cons, resolveCmds_cons, ih (some c) (some d) (.some hcd)]
    have := same_piped prev prev' hp c d hcd
    rw [same_resolveArgs kws line _ _ this 0 _ _ this]

/-- **C55**: parentheses around literals make no difference. -/
theorem C55_parens (kws : List Keyword) (filename : Str) (line : Nat) (p q : Pipe)
    (h : List.Forall₂ (List.Forall₂ SameArg) p q) :
    resolvePipe kws filename line p = resolvePipe kws filename line q :=
  same_resolveCmds kws _ none none .none p q h

/-- Examples: `"a" | T | printf "%s"`, and `XN "c" ("o") "m"`. -/
example : resolvePipe exKws b!"f" 1 [[.str b!"a"], [.ident b!"T"], [.ident b!"printf", .str b!"%s"]] =
    resolvePipe exKws b!"f" 1 [[.ident b!"T", .str b!"a"], [.ident b!"printf", .str b!"%s"]] :=
  C55_piped exKws b!"f" 1 (.str b!"a") b!"a" (.str _) [.ident b!"T"] (by simp)
    (by rintro b s h; simp at h; subst h; rintro ⟨⟩) _
example : resolvePipe exKws b!"f" 1 [[.str b!"a"], [.ident b!"T"], [.ident b!"printf", .str b!"%s"]] =
    [{ cmts := [b!"#: f:1"], id := b!"a" }] := by decide +kernel
example : resolvePipe exKws b!"f" 1 [[.ident b!"XN", .str b!"c", .pipe [[.str b!"o"]], .str b!"m"]] =
    resolvePipe exKws b!"f" 1 [[.ident b!"XN", .str b!"c", .str b!"o", .str b!"m"]] :=
  C55_parens exKws b!"f" 1 _ _ (.cons (.cons (.inl rfl) (.cons (.inl rfl)
    (.cons (.inr ⟨b!"o", .paren (.str _), .str _⟩) (.cons (.inl rfl) .nil)))) .nil)
example : resolvePipe exKws b!"f" 1 [[.ident b!"XN", .str b!"c", .pipe [[.str b!"o"]], .str b!"m"]] =
    [{ cmts := [b!"#: f:1"], ctxt := b!"c", id := b!"o", id2 := b!"m", isPlural := true }] := by
  decide +kernel

end Verif.Xt
