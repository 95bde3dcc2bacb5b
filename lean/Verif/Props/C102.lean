import Verif.Spec.Debug
import Verif.Props.C54_C55
import Verif.Props.C58
import Verif.Props.C65
import Verif.Props.C101
/-! # C102: what a run with -d prints -/
namespace Verif.Xt
open Verif
set_option linter.unusedSimpArgs false

/-! ## Texts -/

theorem aux_loop (k n : Nat) (h : n < 10 ^ k) (h0 : 0 < k) (f : Nat) (hf : n < f) :
    Num.digitsAux f n = Fmt.digitLoop 10 false k n [] := by
  induction k generalizing n f with
  | zero => omega
  | succ k ih =>
    cases f with
    | zero => omega
    | succ f =>
      rw [Num.digitsAux, Fmt.digitLoop]
      by_cases hn : n < 10
      · rw [if_pos hn, if_pos hn]
        simp [Fmt.digit, hn]
      · rw [if_neg hn, if_neg hn, Fmt.digitLoop_acc]
        have hk : 0 < k := by
          rcases Nat.eq_zero_or_pos k with rfl | hk
          · simp at h; omega
          · exact hk
        rw [ih (n / 10) (by rw [Nat.pow_succ] at h; omega) hk f (by omega)]
        simp [Fmt.digit, Nat.mod_lt]

theorem num_text (n : Nat) (h : n < 2 ^ 63) : Fmt.fmtInteger {} (Int64.ofNat n).toUInt64 10 true false false = inDigits n := by
  have hu : (Int64.ofNat n).toUInt64.toNat = n := by
    show (UInt64.ofNat n).toNat = n
    simp
    omega
  unfold Fmt.fmtInteger
  rw [hu]
  have h1 : (true && decide (2 ^ 63 ≤ n)) = false := by simp; omega
  simp only [h1]
  have h2 : ((({} : Fmt.Opts).prec = some 0) ∧ (if false = true then 0 - (Int64.ofNat n).toUInt64 else (Int64.ofNat n).toUInt64) = 0) ↔ False := by simp
  simp only [h2, if_false]
  simp only [Fmt.pad, Fmt.intPrec, hu, Bool.false_eq_true, if_false, Nat.zero_sub, List.replicate_zero, List.nil_append, inDigits]
  exact (aux_loop 64 n (by omega) (by omega) (n + 1) (by omega)).symm

theorem num_v (L : Fmt.Lib) (n : Nat) (h : n < 2 ^ 63) : (dEnv L).render {} b!"v" (.num n) = inDigits n := num_text n h
theorem num_d (L : Fmt.Lib) (n : Nat) (h : n < 2 ^ 63) : (dEnv L).render {} b!"d" (.num n) = inDigits n := num_text n h

theorem join_eq (l : List Str) : GoStr.join b!" " l = List.intercalate b!" " l := by
  induction l with
  | nil => rfl
  | cons x l ih =>
    cases l with
    | nil => simp [GoStr.join, List.intercalate]
    | cons y l => rw [GoStr.join, ih]; simp [List.intercalate]

theorem list_text (l : List Str) : listText l = inBrackets l := by rw [listText, inBrackets, join_eq]

/-- **C102**: the texts of the lines. -/
theorem C102_lines (L : Fmt.Lib) (p : Param) (ev : Event) (h : ev.Small) (s : Str) : Prints L p true ev s ↔ LineFor p ev s := by
  have pr : ∀ f args, debugPrint L true f args = Fmt.sprintf (dEnv L) (f ++ b!"\n") args := fun _ _ => rfl
  have e1 : ∀ p : Param, debugPrint L true b!"run param=%+v" [.shown (paramText p true)] = b!"run param=&{Input:" ++ p.input ++ b!" Left:" ++
      p.left ++ b!" Right:" ++ p.right ++ b!" Keyword:" ++
      p.keyword ++ b!" Function:" ++ p.function ++ b!" OutputFile:" ++ p.output ++ b!" Debug:true}\n" := by
    intro p
    rw [pr]
    have : Fmt.sprintf (dEnv L) (b!"run param=%+v" ++ b!"\n") [.shown (paramText p true)] =
      (b!"run param=" ++ (paramText p true ++ b!"\n")) ++ [] := rfl
    rw [this]
    simp [paramText, boolText]
  have e2 : ∀ fs, debugPrint L true b!"Glob files=%v err=%+v" [.shown (listText fs), .val .nil] =
      b!"Glob files=" ++ inBrackets fs ++ b!" err=<nil>\n" := by
    intro fs
    rw [pr, list_text]
    have : Fmt.sprintf (dEnv L) (b!"Glob files=%v err=%+v" ++ b!"\n") [.shown (inBrackets fs), .val .nil] =
      (b!"Glob files=" ++ (inBrackets fs ++ b!" err=<nil>\n")) ++ [] := rfl
    rw [this]
    simp
  have e3 : debugPrint L true b!"Glob files=%v err=%+v" [.shown (listText []), .shown b!"syntax error in pattern"] =
      b!"Glob files=[] err=syntax error in pattern\n" := rfl
  have e4 : ∀ n, n < 2 ^ 63 → debugPrint L true b!"extract done, %d entries" [.num n] = b!"extract done, " ++ inDigits n ++ b!" entries\n" := by
    intro n h
    rw [pr, ← num_d L n h]
    have : Fmt.sprintf (dEnv L) (b!"extract done, %d entries" ++ b!"\n") [.num n] =
      (b!"extract done, " ++ ((dEnv L).render {} b!"d" (.num n) ++ b!" entries\n")) ++ [] := rfl
    rw [this]
    simp
  have e5 : ∀ f, debugPrint L true b!"resolve one file: filename=%v" [.str f] = b!"resolve one file: filename=" ++ f ++ b!"\n" := by
    intro f
    rw [pr]
    have : Fmt.sprintf (dEnv L) (b!"resolve one file: filename=%v" ++ b!"\n") [.str f] =
      (b!"resolve one file: filename=" ++ (f ++ b!"\n")) ++ [] := rfl
    rw [this]
    simp
  have e6 : ∀ f name, debugPrint L true b!"process template: [filename=%v] [template name=%v]" [.str f, .str name] =
      b!"process template: [filename=" ++ f ++ b!"] [template name=" ++ name ++ b!"]\n" := by
    intro f name
    rw [pr]
    have : Fmt.sprintf (dEnv L) (b!"process template: [filename=%v] [template name=%v]" ++ b!"\n") [.str f, .str name] =
      (b!"process template: [filename=" ++ (f ++ (b!"] [template name=" ++ (name ++ b!"]\n")))) ++ [] := rfl
    rw [this]
    simp
  have e7 : ∀ n, n < 2 ^ 63 → debugPrint L true b!"  > line %v: Pipe is nil" [.num n] = b!"  > line " ++ inDigits n ++ b!": Pipe is nil\n" := by
    intro n h
    rw [pr, ← num_v L n h]
    have : Fmt.sprintf (dEnv L) (b!"  > line %v: Pipe is nil" ++ b!"\n") [.num n] =
      (b!"  > line " ++ ((dEnv L).render {} b!"v" (.num n) ++ b!": Pipe is nil\n")) ++ [] := rfl
    rw [this]
    simp
  have e8 : ∀ n, n < 2 ^ 63 → debugPrint L true b!"  >  Pipe: Line=%v" [.num n] = b!"  >  Pipe: Line=" ++ inDigits n ++ b!"\n" := by
    intro n h
    rw [pr, ← num_v L n h]
    have : Fmt.sprintf (dEnv L) (b!"  >  Pipe: Line=%v" ++ b!"\n") [.num n] =
      (b!"  >  Pipe: Line=" ++ ((dEnv L).render {} b!"v" (.num n) ++ b!"\n")) ++ [] := rfl
    rw [this]
    simp
  have e9 : ∀ n pos, n < 2 ^ 63 → pos < 2 ^ 63 → debugPrint L true b!"  >  >  Cmd: Line=%v Pos=%v" [.num n, .num pos] =
      b!"  >  >  Cmd: Line=" ++ inDigits n ++ b!" Pos=" ++ inDigits pos ++ b!"\n" := by
    intro n pos h h'
    rw [pr, ← num_v L n h, ← num_v L pos h']
    have : Fmt.sprintf (dEnv L) (b!"  >  >  Cmd: Line=%v Pos=%v" ++ b!"\n") [.num n, .num pos] =
      (b!"  >  >  Cmd: Line=" ++ ((dEnv L).render {} b!"v" (.num n) ++ (b!" Pos=" ++ ((dEnv L).render {} b!"v" (.num pos) ++ b!"\n")))) ++ [] := rfl
    rw [this]
    simp
  have e10 : ∀ node, debugPrint L true b!"  >  >  >  Cmd.Arg: %#v" [.shown node] = b!"  >  >  >  Cmd.Arg: " ++ node ++ b!"\n" := by
    intro node
    rw [pr]
    have : Fmt.sprintf (dEnv L) (b!"  >  >  >  Cmd.Arg: %#v" ++ b!"\n") [.shown node] =
      (b!"  >  >  >  Cmd.Arg: " ++ (node ++ b!"\n")) ++ [] := rfl
    rw [this]
    simp
  have e11 : ∀ name, debugPrint L true b!"  >  >  >  ID=%v too few args" [.str name] = b!"  >  >  >  ID=" ++ name ++ b!" too few args\n" := by
    intro name
    rw [pr]
    have : Fmt.sprintf (dEnv L) (b!"  >  >  >  ID=%v too few args" ++ b!"\n") [.str name] =
      (b!"  >  >  >  ID=" ++ (name ++ b!" too few args\n")) ++ [] := rfl
    rw [this]
    simp
  have e12 : ∀ name n, n < 2 ^ 63 → debugPrint L true b!"  >  >  >  ID=%v args[%d] is not string node" [.str name, .num n] =
      b!"  >  >  >  ID=" ++ name ++ b!" args[" ++ inDigits n ++ b!"] is not string node\n" := by
    intro name n h
    rw [pr, ← num_d L n h]
    have : Fmt.sprintf (dEnv L) (b!"  >  >  >  ID=%v args[%d] is not string node" ++ b!"\n") [.str name, .num n] =
      (b!"  >  >  >  ID=" ++ (name ++ (b!" args[" ++ ((dEnv L).render {} b!"d" (.num n) ++ b!"] is not string node\n")))) ++ [] := rfl
    rw [this]
    simp
  have e13 : ∀ name, debugPrint L true b!"  >  >  >  ID=%v missing ctxt" [.str name] = b!"  >  >  >  ID=" ++ name ++ b!" missing ctxt\n" := by
    intro name
    rw [pr]
    have : Fmt.sprintf (dEnv L) (b!"  >  >  >  ID=%v missing ctxt" ++ b!"\n") [.str name] =
      (b!"  >  >  >  ID=" ++ (name ++ b!" missing ctxt\n")) ++ [] := rfl
    rw [this]
    simp
  have e14 : ∀ name, debugPrint L true b!"  >  >  >  ID=%v missing msg id" [.str name] = b!"  >  >  >  ID=" ++ name ++ b!" missing msg id\n" := by
    intro name
    rw [pr]
    have : Fmt.sprintf (dEnv L) (b!"  >  >  >  ID=%v missing msg id" ++ b!"\n") [.str name] =
      (b!"  >  >  >  ID=" ++ (name ++ b!" missing msg id\n")) ++ [] := rfl
    rw [this]
    simp
  have e15 : ∀ name, debugPrint L true b!"  >  >  >  ID=%v missing msg plural" [.str name] =
      b!"  >  >  >  ID=" ++ name ++ b!" missing msg plural\n" := by
    intro name
    rw [pr]
    have : Fmt.sprintf (dEnv L) (b!"  >  >  >  ID=%v missing msg plural" ++ b!"\n") [.str name] =
      (b!"  >  >  >  ID=" ++ (name ++ b!" missing msg plural\n")) ++ [] := rfl
    rw [this]
    simp
  have e16 : ∀ name e, debugPrint L true b!"【ok】  >  >  ID=%v entry=%+v" [.str name, .shown (entryText e)] =
      b!"【ok】  >  >  ID=" ++ name ++ b!" entry=&{MsgCmts:" ++
      inBrackets e.cmts ++ b!" MsgCtxt:" ++ e.ctxt ++ b!" MsgID:" ++ e.id ++ b!" IsPlural:" ++ word e.isPlural ++ b!" MsgID2:" ++
      e.id2 ++ b!" MsgStr:" ++ e.str ++ b!" MsgStrN:" ++ inBrackets e.strN ++ b!"}\n" := by
    intro name e
    rw [pr]
    have : Fmt.sprintf (dEnv L) (b!"【ok】  >  >  ID=%v entry=%+v" ++ b!"\n") [.str name, .shown (entryText e)] =
      (b!"【ok】  >  >  ID=" ++ (name ++ (b!" entry=" ++ (entryText e ++ b!"\n")))) ++ [] := rfl
    rw [this]
    simp [entryText, list_text, word, boolText]
  constructor
  · intro hp
    cases hp with
    | param => rw [e1]; exact .param
    | files fs => rw [e2]; exact .files fs
    | bad => rw [e3]; exact .bad
    | done n => rw [e4 n h]; exact .done n
    | file f => rw [e5]; exact .file f
    | template f n => rw [e6]; exact .template f n
    | noPipe n => rw [e7 n h]; exact .noPipe n
    | pipe n => rw [e8 n h]; exact .pipe n
    | cmd n pos hpos => rw [e9 n pos h hpos]; exact .cmd n pos hpos
    | arg t => rw [e10]; exact .arg t
    | tooFew n => rw [e11]; exact .tooFew n
    | notString n i => rw [e12 n i h]; exact .notString n i
    | noCtxt n => rw [e13]; exact .noCtxt n
    | noId n => rw [e14]; exact .noId n
    | noPlural n => rw [e15]; exact .noPlural n
    | ok n e => rw [e16]; exact .ok n e
  · intro hp
    cases hp with
    | param => rw [← e1]; exact .param
    | files fs => rw [← e2]; exact .files fs
    | bad => rw [← e3]; exact .bad
    | done n => rw [← e4 n h]; exact .done n
    | file f => rw [← e5]; exact .file f
    | template f n => rw [← e6]; exact .template f n
    | noPipe n => rw [← e7 n h]; exact .noPipe n
    | pipe n => rw [← e8 n h]; exact .pipe n
    | cmd n pos hpos => rw [← e9 n pos h hpos]; exact .cmd n pos hpos
    | arg t => rw [← e10]; exact .arg t
    | tooFew n => rw [← e11]; exact .tooFew n
    | notString n i => rw [← e12 n i h]; exact .notString n i
    | noCtxt n => rw [← e13]; exact .noCtxt n
    | noId n => rw [← e14]; exact .noId n
    | noPlural n => rw [← e15]; exact .noPlural n
    | ok n e => rw [← e16]; exact .ok n e

/-! ## Verdicts -/

theorem dedup_length (a : Int) (l : List Int) : (a :: l).dedup.length = (if a ∈ l then 0 else 1) + l.dedup.length := by
  by_cases h : a ∈ l
  · simp [List.dedup_cons_of_mem h, h]
  · simp [List.dedup_cons_of_notMem h, h]; omega

theorem argCount_declared (kw : Keyword) : argCount kw = (declared kw).length := by
  obtain ⟨_, c, i, d⟩ := kw
  unfold argCount declared
  dsimp only
  have h0 : ([] : List Int).dedup.length = 0 := rfl
  by_cases h1 : 0 < c <;> by_cases h2 : 0 < d <;>
    simp only [h1, h2, gt_iff_lt, if_true, if_false, true_and, false_and, List.cons_append, List.nil_append, dedup_length, h0,
      List.mem_cons, List.not_mem_nil, or_false, List.append_nil, Nat.add_zero] <;>
    repeat' split
  all_goals omega

theorem literalsEv_inr (i : Nat) (as : List Arg) (ts : List Str) : literalsEv i as = .inr ts ↔ literals as = some ts := by
  induction as generalizing i ts with
  | nil => simp [literalsEv, literals]
  | cons a as ih =>
    simp only [literalsEv, literals]
    cases stringLiteral a with
    | none => simp
    | some t =>
      dsimp only
      cases h : literalsEv (i + 1) as with
      | inl j =>
        cases h' : literals as with
        | none => simp
        | some ts' => rw [(ih (i + 1) ts').mpr h'] at h; cases h
      | inr ts' => rw [(ih _ _).mp h]; simp

theorem literalsEv_inl (i : Nat) (as : List Arg) (j : Nat) : literalsEv i as = .inl j ↔
    ∃ k a, j = i + k ∧ as[k]? = some a ∧ (∀ t, ¬ Lit a t) ∧ ∀ k' b, k' < k → as[k']? = some b → ∃ t, Lit b t := by
  induction as generalizing i with
  | nil => simp [literalsEv]
  | cons a as ih =>
    simp only [literalsEv]
    cases hl : stringLiteral a with
    | none =>
      have hn : ∀ t, ¬ Lit a t := by simp [lit_iff, hl]
      simp only [Sum.inl.injEq]
      constructor
      · rintro rfl
        exact ⟨0, a, rfl, rfl, hn, by omega⟩
      · rintro ⟨k, b, rfl, h1, h2, h3⟩
        cases k with
        | zero => rfl
        | succ k =>
          obtain ⟨t, ht⟩ := h3 0 a (by omega) rfl
          exact absurd ht (hn t)
    | some t =>
      have hlit : Lit a t := (lit_iff _ _).mpr hl
      have key : (∃ k b, j = i + k ∧ (a :: as)[k]? = some b ∧ (∀ t, ¬ Lit b t) ∧ ∀ k' b, k' < k → (a :: as)[k']? = some b → ∃ t, Lit b t) ↔
          ∃ k b, j = i + 1 + k ∧ as[k]? = some b ∧ (∀ t, ¬ Lit b t) ∧ ∀ k' b, k' < k → as[k']? = some b → ∃ t, Lit b t := by
        constructor
        · rintro ⟨k, b, rfl, h1, h2, h3⟩
          cases k with
          | zero =>
            simp only [List.getElem?_cons_zero, Option.some.injEq] at h1
            subst h1
            exact absurd hlit (h2 t)
          | succ k =>
            refine ⟨k, b, by omega, by simpa using h1, h2, fun k' c hk hc => h3 (k' + 1) c (by omega) (by simpa using hc)⟩
        · rintro ⟨k, b, rfl, h1, h2, h3⟩
          refine ⟨k + 1, b, by omega, by simpa using h1, h2, fun k' c hk hc => ?_⟩
          cases k' with
          | zero =>
            simp only [List.getElem?_cons_zero, Option.some.injEq] at hc
            subst hc
            exact ⟨t, hlit⟩
          | succ k' => exact h3 k' c (by omega) (by simpa using hc)
      rw [key, ← ih (i + 1)]
      dsimp only
      cases literalsEv (i + 1) as <;> simp

theorem posArg_none (m : List Str) (k : Int) : posArg m k = none ↔ k < 1 ∨ (m.length : Int) < k := by
  unfold posArg
  split
  · rw [List.getElem?_eq_none_iff]; omega
  · simp; omega

/-- What `extract` says, for the number of texts. -/
theorem extractEv_cases (line name : Str) (kw : Keyword) (m : List Str) :
    (∃ e, extract line kw m = some e ∧ extractEv line name kw m = .ok name e) ∨
    (extract line kw m = none ∧ (m.length : Int) < kw.msgCtxt ∧ extractEv line name kw m = .missing name .ctxt) ∨
    (extract line kw m = none ∧ kw.msgCtxt ≤ m.length ∧ (kw.msgID < 1 ∨ (m.length : Int) < kw.msgID) ∧
      extractEv line name kw m = .missing name .id) ∨
    (extract line kw m = none ∧ kw.msgCtxt ≤ m.length ∧ 1 ≤ kw.msgID ∧ kw.msgID ≤ m.length ∧ (m.length : Int) < kw.msgID2 ∧
      extractEv line name kw m = .missing name .plural) := by
  unfold extract extractEv
  cases hc : (if kw.msgCtxt > 0 then posArg m kw.msgCtxt else some []) with
  | none =>
    right; left
    split at hc
    · rw [posArg_none] at hc
      exact ⟨rfl, by omega, rfl⟩
    · cases hc
  | some ctxt =>
    have hc' : kw.msgCtxt ≤ m.length := by
      split at hc
      · exact (at_range _ _ _ ((posArg_iff _ _ _).mp hc)).2
      · omega
    cases hi : posArg m kw.msgID with
    | none =>
      right; right; left
      exact ⟨rfl, hc', (posArg_none _ _).mp hi, rfl⟩
    | some id =>
      have hi' := at_range _ _ _ ((posArg_iff _ _ _).mp hi)
      cases hd : (if kw.msgID2 > 0 then posArg m kw.msgID2 else some []) with
      | none =>
        right; right; right
        split at hd
        · rw [posArg_none] at hd
          exact ⟨rfl, hc', hi'.1, hi'.2, by omega, rfl⟩
        · cases hd
      | some id2 => exact .inl ⟨_, rfl, rfl⟩

theorem filterOneEv_entry (line name : Str) (i : Nat) (args : List Arg) (kw : Keyword) :
    (filterOneEv line name i args kw).filterMap Event.entry = (filterOne line name i args kw).toList := by
  unfold filterOneEv filterOne
  split
  · split
    · rfl
    · cases h : literalsEv (i + 1) ((args.drop (i + 1)).take (argCount kw)) with
      | inl j =>
        cases h' : literals ((args.drop (i + 1)).take (argCount kw)) with
        | none => rfl
        | some ts => rw [(literalsEv_inr _ _ _).mpr h'] at h; cases h
      | inr m =>
        rw [(literalsEv_inr _ _ _).mp h]
        dsimp only
        rcases extractEv_cases line name kw m with ⟨e, h1, h2⟩ | ⟨h1, _, h2⟩ | ⟨h1, _, _, h2⟩ | ⟨h1, _, _, _, _, h2⟩ <;>
          rw [h1, h2] <;> rfl
  · rfl

theorem take_get (args : List Arg) (i n k : Nat) (hk : k < n) : ((args.drop (i + 1)).take n)[k]? = args[i + 1 + k]? := by
  rw [List.getElem?_take_of_lt hk, List.getElem?_drop]

/-- One call. -/
theorem verdict_iff (kw : Keyword) (ref : Str) (args : List Arg) (i : Nat) (ev : Event) :
    Verdict kw ref args i ev ↔ filterOneEv ref kw.name i args kw = [ev] := by
  have ac := argCount_declared kw
  have hent : ∀ e, EntryFor kw ref (args.drop (i + 1)) e ↔ filterOne ref kw.name i args kw = some e := by
    intro e
    rw [filterOne_iff]
    simp
  have hall : ∀ m, literals ((args.drop (i + 1)).take (argCount kw)) = some m →
      ∀ k b, i < k → k ≤ i + argCount kw → args[k]? = some b → ∃ t, Lit b t := by
    intro m hm k b h1 h2 h3
    rw [literals_iff] at hm
    obtain ⟨k, rfl⟩ : ∃ k', k = i + 1 + k' := ⟨k - (i + 1), by omega⟩
    rw [← take_get args i (argCount kw) k (by omega)] at h3
    obtain ⟨hk, rfl⟩ := List.getElem?_eq_some_iff.mp h3
    have hk' : k < m.length := by rw [← hm.length_eq]; exact hk
    exact ⟨m[k], List.Forall₂.get hm hk hk'⟩
  unfold filterOneEv
  rw [if_pos rfl]
  by_cases hfew : argCount kw + i ≥ args.length
  · rw [if_pos hfew]
    constructor
    · intro h
      cases h with
      | tooFew => rfl
      | notString h => omega
      | missing h => omega
      | ok h =>
        rw [hent] at h
        unfold filterOne at h
        rw [if_pos rfl, if_pos hfew] at h
        cases h
    · intro h
      cases h
      exact .tooFew (by omega)
  · rw [if_neg hfew]
    cases hl : literalsEv (i + 1) ((args.drop (i + 1)).take (argCount kw)) with
    | inl j =>
      have hno : ∀ m, literals ((args.drop (i + 1)).take (argCount kw)) ≠ some m := by
        intro m hm
        rw [(literalsEv_inr _ _ _).mpr hm] at hl
        cases hl
      obtain ⟨k, a, rfl, h1, h2, h3⟩ := (literalsEv_inl _ _ _).mp hl
      have hk : k < argCount kw := by
        have := (List.getElem?_eq_some_iff.mp h1).1
        simp only [List.length_take, List.length_drop] at this
        omega
      rw [take_get _ _ _ _ hk] at h1
      constructor
      · intro h
        cases h with
        | tooFew h => omega
        | @notString j b _ h4 h5 h6 h7 h8 =>
          have : j = i + 1 + k := by
            rcases Nat.lt_trichotomy j (i + 1 + k) with h | h | h
            · exfalso
              obtain ⟨j, rfl⟩ : ∃ j', j = i + 1 + j' := ⟨j - (i + 1), by omega⟩
              obtain ⟨t, ht⟩ := h3 j b (by omega) (by rw [take_get _ _ _ _ (by omega)]; exact h6)
              exact h7 t ht
            · exact h
            · exfalso
              obtain ⟨t, ht⟩ := h8 (i + 1 + k) a (by omega) h h1
              exact h2 t ht
          rw [this]
        | missing _ h4 =>
          exfalso
          obtain ⟨t, ht⟩ := h4 (i + 1 + k) a (by omega) (by omega) h1
          exact h2 t ht
        | ok h =>
          exfalso
          rw [hent] at h
          unfold filterOne at h
          rw [if_pos rfl, if_neg hfew] at h
          cases hm : literals ((args.drop (i + 1)).take (argCount kw)) with
          | none => rw [hm] at h; cases h
          | some m => exact hno m hm
      · intro h
        cases h
        refine .notString (by omega) (by omega) (by omega) h1 h2 fun k' b h4 h5 h6 => ?_
        obtain ⟨k', rfl⟩ : ∃ j, k' = i + 1 + j := ⟨k' - (i + 1), by omega⟩
        exact h3 k' b (by omega) (by rw [take_get _ _ _ _ (by omega)]; exact h6)
    | inr m =>
      have hm := (literalsEv_inr _ _ _).mp hl
      have hlen : m.length = argCount kw := by
        rw [literals_iff] at hm
        rw [← hm.length_eq]
        simp
        omega
      have hf : filterOne ref kw.name i args kw = extract ref kw m := by
        unfold filterOne
        rw [if_pos rfl, if_neg hfew, hm]
      have hno : ∀ j a, i < j → j ≤ i + argCount kw → args[j]? = some a → (∀ t, ¬ Lit a t) → False := by
        intro j a h1 h2 h3 h4
        obtain ⟨t, ht⟩ := hall m hm j a h1 h2 h3
        exact h4 t ht
      have hcs := extractEv_cases ref kw.name kw m
      rw [hlen, ac] at hcs
      dsimp only
      rw [List.cons.injEq]
      simp only [and_true]
      constructor
      · intro h
        cases h with
        | tooFew h => omega
        | notString _ h4 h5 h6 h7 => exact (hno _ _ h4 (by omega) h6 h7).elim
        | @missing what _ h4 h5 =>
          rcases hcs with ⟨e, h1, h2⟩ | ⟨h1, h3, h2⟩ | ⟨h1, h3, h3', h2⟩ | ⟨h1, h3, h3', h3'', h3a, h2⟩
          · exfalso
            rw [← hf, ← hent] at h1
            obtain ⟨⟨lits, rest, texts, _, _, h6, h7, h8, h9⟩, _⟩ := h1
            have h6' := argCount_eq kw texts.length h6
            have := at_range _ _ _ h7
            cases what with
            | ctxt =>
              simp only at h5
              rw [if_pos (by omega)] at h8
              have := at_range _ _ _ h8
              omega
            | id => simp only at h5; omega
            | plural =>
              simp only at h5
              rw [if_pos (by omega)] at h9
              have := at_range _ _ _ h9
              omega
          all_goals
            rw [h2]
            cases what <;> simp only at h5 <;> first | rfl | (exfalso; omega)
        | ok h =>
          rw [hent, hf] at h
          rcases hcs with ⟨e, h1, h2⟩ | ⟨h1, h3, h2⟩ | ⟨h1, h3, h3', h2⟩ | ⟨h1, h3, h3', h3'', h3a, h2⟩
          · rw [h] at h1
            cases h1
            exact h2
          all_goals rw [h] at h1; cases h1
      · intro h
        have hlits : ∀ k b, i < k → k ≤ i + (declared kw).length → args[k]? = some b → ∃ t, Lit b t := by
          intro k b h1 h2 h3
          exact hall m hm k b h1 (by omega) h3
        rcases hcs with ⟨e, h1, h2⟩ | ⟨h1, h3, h2⟩ | ⟨h1, h3, h3', h2⟩ | ⟨h1, h3, h3', h3'', h3a, h2⟩
        · rw [← h, h2]
          exact .ok ((hent e).mpr (by rw [hf, h1]))
        · rw [← h, h2]
          exact .missing (by omega) hlits h3
        · rw [← h, h2]
          exact .missing (by omega) hlits ⟨h3, h3'⟩
        · rw [← h, h2]
          exact .missing (by omega) hlits ⟨h3, h3', h3'', h3a⟩

/-! ## The traversal -/

theorem filterEv_entry (kws : List Keyword) (line name : Str) (i : Nat) (args : List Arg) :
    (filterEv kws line name i args).filterMap Event.entry = filter kws line name i args := by
  unfold filterEv filter
  induction kws with
  | nil => rfl
  | cons kw kws ih =>
    rw [List.flatMap_cons, List.filterMap_append, filterOneEv_entry, ih, List.filterMap_cons]
    cases filterOne line name i args kw <;> rfl

theorem resolveCmdsEv_cons (kws : List Keyword) (f : Str) (l : Nat) (prev : Option Cmd) (c : Cmd) (cs : List Cmd) :
    resolveCmdsEv kws f l prev (c :: cs) =
      .cmd l :: resolveArgsEv kws f l (withPiped prev c) 0 (withPiped prev c) ++ resolveCmdsEv kws f l (some c) cs := by
  rw [resolveCmdsEv]
  unfold withPiped
  split <;> rename_i h <;> rw [h]

theorem pipe_entry (l : Nat) (p : Pipe) : (if p = [] then [Event.noPipe l] else [Event.pipe l]).filterMap Event.entry = [] := by
  split <;> rfl

mutual
theorem argEv_entry (kws : List Keyword) (f : Str) (l : Nat) (args : List Arg) (i : Nat) (a : Arg) :
    (resolveArgEv kws f l args i a).filterMap Event.entry = resolveArg kws (refText f l) args i a := by
  match a with
  | .pipe cmds => rw [resolveArgEv, resolveArg, List.filterMap_append, pipe_entry, cmdsEv_entry kws f l none cmds, List.nil_append]
  | .ident name => rw [resolveArgEv, resolveArg, filterEv_entry]
  | .field ids =>
    rw [resolveArgEv, resolveArg]
    cases ids.getLast? with
    | none => rfl
    | some name => exact filterEv_entry ..
  | .var ids =>
    rw [resolveArgEv, resolveArg]
    cases ids.getLast? with
    | none => rfl
    | some name => exact filterEv_entry ..
  | .chain b ids =>
    rw [resolveArgEv, resolveArg]
    cases ids.getLast? with
    | none => rfl
    | some name => exact filterEv_entry ..
  | .str t => rw [resolveArgEv, resolveArg]; rfl
  | .other => rw [resolveArgEv, resolveArg]; rfl
  termination_by sizeOf a
theorem argsEv_entry (kws : List Keyword) (f : Str) (l : Nat) (args : List Arg) (i : Nat) (as : List Arg) :
    (resolveArgsEv kws f l args i as).filterMap Event.entry = resolveArgs kws (refText f l) args i as := by
  match as with
  | [] => rw [resolveArgsEv, resolveArgs]; rfl
  | a :: as =>
    rw [resolveArgsEv, resolveArgs, List.cons_append, List.filterMap_cons]
    dsimp only [Event.entry]
    rw [List.filterMap_append, argEv_entry kws f l args i a, argsEv_entry kws f l args (i + 1) as]
  termination_by sizeOf as
theorem cmdsEv_entry (kws : List Keyword) (f : Str) (l : Nat) (prev : Option Cmd) (cs : List Cmd) :
    (resolveCmdsEv kws f l prev cs).filterMap Event.entry = resolveCmds kws (refText f l) prev cs := by
  match cs with
  | [] => rw [resolveCmdsEv, resolveCmds]; rfl
  | c :: cs =>
    rw [resolveCmdsEv_cons, resolveCmds_cons, List.cons_append, List.filterMap_cons]
    dsimp only [Event.entry]
    rw [List.filterMap_append, argsEv_entry kws f l (withPiped prev c) 0 (withPiped prev c), cmdsEv_entry kws f l (some c) cs]
  termination_by (match prev with | none => 0 | some c => sizeOf c) + sizeOf cs
  decreasing_by
    · unfold withPiped
      split
      · rename_i a h
        obtain ⟨rfl, -⟩ := (piped_iff _ _).mp h
        have := sizeOf_snoc c a
        simp at this ⊢
        omega
      · simp; omega
    · simp; omega
end

theorem pipeEv_entry (kws : List Keyword) (f : Str) (l : Nat) (p : Pipe) :
    (resolvePipeEv kws f l p).filterMap Event.entry = resolvePipe kws f l p := by
  rw [resolvePipeEv, List.filterMap_append, pipe_entry, cmdsEv_entry]
  rfl

mutual
theorem resolveNodeEv_eq (kws : List Keyword) (f : Str) (n : Stmt) :
    resolveNodeEv kws f n = (pipesOf n).flatMap fun lp => resolvePipeEv kws f lp.1 lp.2 := by
  match n with
  | .list ns => simp only [resolveNodeEv, pipesOf, resolveNodesEv_eq kws f ns]
  | .action l p => simp [resolveNodeEv, pipesOf]
  | .ifN l p body els => simp [resolveNodeEv, pipesOf, resolveNodesEv_eq kws f body, resolveNodesEv_eq kws f els]
  | .rangeN l p body els => simp [resolveNodeEv, pipesOf, resolveNodesEv_eq kws f body, resolveNodesEv_eq kws f els]
  | .withN l p body els => simp [resolveNodeEv, pipesOf, resolveNodesEv_eq kws f body, resolveNodesEv_eq kws f els]
  | .template l p => simp [resolveNodeEv, pipesOf]
  | .other => simp [resolveNodeEv, pipesOf]
theorem resolveNodesEv_eq (kws : List Keyword) (f : Str) (ns : List Stmt) :
    resolveNodesEv kws f ns = (pipesOfAll ns).flatMap fun lp => resolvePipeEv kws f lp.1 lp.2 := by
  match ns with
  | [] => simp [resolveNodesEv, pipesOfAll]
  | n :: ns => simp [resolveNodesEv, pipesOfAll, resolveNodeEv_eq kws f n, resolveNodesEv_eq kws f ns]
end

theorem nodesEv_entry (kws : List Keyword) (f : Str) (ns : List Stmt) :
    (resolveNodesEv kws f ns).filterMap Event.entry = resolveNodes kws f ns := by
  rw [resolveNodesEv_eq, resolveNodes_eq]
  generalize pipesOfAll ns = l
  induction l with
  | nil => rfl
  | cons x l ih => rw [List.flatMap_cons, List.flatMap_cons, List.filterMap_append, pipeEv_entry, ih]

/-- **C102**: the entries announced by the lines about a file are those that are extracted from it, in this order. -/
theorem C102_announced (kws : List Keyword) (f : Str) (roots : List (List Stmt)) :
    (resolveTemplatesEv kws f roots).filterMap Event.entry = resolveTemplates kws f roots := by
  unfold resolveTemplatesEv resolveTemplates
  induction roots with
  | nil => rfl
  | cons r roots ih =>
    rw [List.flatMap_cons, List.flatMap_cons, List.filterMap_append, ih, List.filterMap_cons]
    dsimp only [Event.entry]
    rw [nodesEv_entry]

/-! ## Every call has one verdict -/

theorem filterOneEv_verdict (line name : Str) (i : Nat) (args : List Arg) (kw : Keyword) (h : kw.name = name) :
    ∃ ev, filterOneEv line name i args kw = [ev] ∧ ev.IsVerdict := by
  unfold filterOneEv
  rw [if_pos h]
  split
  · exact ⟨_, rfl, trivial⟩
  · split
    · exact ⟨_, rfl, trivial⟩
    · rename_i m _
      refine ⟨_, rfl, ?_⟩
      rcases extractEv_cases line name kw m with ⟨e, _, h⟩ | ⟨_, _, h⟩ | ⟨_, _, _, h⟩ | ⟨_, _, _, _, _, h⟩ <;> rw [h] <;> trivial

theorem filterEv_all (kws : List Keyword) (line name : Str) (i : Nat) (args : List Arg) :
    (filterEv kws line name i args).filter (fun e => decide e.IsVerdict) = filterEv kws line name i args := by
  rw [List.filter_eq_self]
  intro ev hev
  unfold filterEv at hev
  obtain ⟨kw, _, h⟩ := List.mem_flatMap.mp hev
  by_cases hn : kw.name = name
  · obtain ⟨ev', h1, h2⟩ := filterOneEv_verdict line name i args kw hn
    rw [h1, List.mem_singleton] at h
    subst h
    simpa using h2
  · unfold filterOneEv at h
    rw [if_neg hn] at h
    cases h

/-- What is said about the argument at a position. -/
def verdictsAt (kws : List Keyword) (line : Str) (args : List Arg) (i : Nat) : List Event :=
  match args[i]? with
  | none => []
  | some a =>
    match lastName a with
    | none => []
    | some name => filterEv kws line name i args

theorem verdictsAt_ok (kws : List Keyword) (line : Str) (args : List Arg) (i : Nat) :
    Verdicts kws line args i (verdictsAt kws line args i) := by
  unfold Verdicts called verdictsAt
  cases ha : args[i]? with
  | none => simp
  | some a =>
    simp only [Option.some.injEq, exists_eq_left', calls_iff]
    cases hn : lastName a with
    | none => simp
    | some name =>
      simp only [Option.some.injEq]
      unfold filterEv
      induction kws with
      | nil => exact .nil
      | cons kw kws ih =>
        rw [List.flatMap_cons, List.filter_cons]
        by_cases hk : name = kw.name
        · subst hk
          obtain ⟨ev, h1, _⟩ := filterOneEv_verdict line kw.name i args kw rfl
          rw [if_pos (by simp), h1]
          exact .cons ((verdict_iff ..).mpr h1) ih
        · rw [if_neg (by simpa using hk)]
          have : filterOneEv line name i args kw = [] := by
            unfold filterOneEv
            rw [if_neg (fun h => hk h.symm)]
          rw [this]
          exact ih

/-- The verdicts on a command from position `i` on. -/
def verdictsFrom (kws : List Keyword) (line : Str) (args : List Arg) (i n : Nat) : List Event :=
  (List.range' i n).flatMap (verdictsAt kws line args)

/-- The verdicts in the parenthesised pipelines. -/
noncomputable def innerVerdicts (kws : List Keyword) (line : Str) (ps : List Pipe) : List Event :=
  ps.flatMap fun q => (received none q).flatMap fun args => verdictsFrom kws line args 0 args.length

theorem innerVerdicts_append (kws : List Keyword) (line : Str) (ps qs : List Pipe) :
    innerVerdicts kws line (ps ++ qs) = innerVerdicts kws line ps ++ innerVerdicts kws line qs := by
  simp [innerVerdicts]

theorem lastName_lit (a : Arg) (t : Str) (h : Lit a t) : lastName a = none := by
  cases h <;> rfl

theorem innerVerdicts_lit (a : Arg) (t : Str) (h : Lit a t) (kws : List Keyword) (line : Str) : innerVerdicts kws line (parens a) = [] := by
  induction h with
  | str t => rfl
  | @paren a t h ih =>
    have h1 : received none [[a]] = [[a]] := by
      rw [received_cons]
      rfl
    have h2 : verdictsFrom kws line [a] 0 1 = [] := by
      simp [verdictsFrom, verdictsAt, lastName_lit a t h]
    have h3 : parens (.pipe [[a]]) = [[a]] :: parens a := by simp [parens, parensCmds, parensArgs]
    rw [h3]
    unfold innerVerdicts at ih ⊢
    rw [List.flatMap_cons, ih, h1]
    simpa using h2

theorem innerVerdicts_piped (kws : List Keyword) (line : Str) (prev : Option Cmd) (c : Cmd) :
    innerVerdicts kws line (parensArgs (withPiped prev c)) = innerVerdicts kws line (parensArgs c) := by
  unfold withPiped
  split
  · rename_i a ha
    obtain ⟨-, t, ht⟩ := (piped_iff _ _).mp ha
    rw [parensArgs_append, innerVerdicts_append]
    have : innerVerdicts kws line (parensArgs [a]) = [] := by
      have := innerVerdicts_lit a t ht kws line
      simpa [parensArgs] using this
    rw [this, List.append_nil]
  · rfl

theorem pipe_verdict (l : Nat) (p : Pipe) :
    (if p = [] then [Event.noPipe l] else [Event.pipe l]).filter (fun e => decide e.IsVerdict) = [] := by
  split <;> rfl

mutual
theorem argEv_perm (kws : List Keyword) (f : Str) (l : Nat) (args : List Arg) (i : Nat) (a : Arg) (ha : args[i]? = some a) :
    ((resolveArgEv kws f l args i a).filter fun e => decide e.IsVerdict).Perm
      (verdictsAt kws (refText f l) args i ++ innerVerdicts kws (refText f l) (parens a)) := by
  match a, ha with
  | .pipe cmds, ha =>
    rw [resolveArgEv, List.filter_append, pipe_verdict, List.nil_append]
    refine (cmdsEv_perm kws f l none cmds).trans ?_
    simp only [verdictsAt, ha, lastName, parens, innerVerdicts, List.flatMap_cons, List.nil_append]
    exact List.Perm.refl _
  | .ident name, ha =>
    rw [resolveArgEv, filterEv_all]
    simp [verdictsAt, ha, lastName, parens, innerVerdicts]
  | .field ids, ha =>
    rw [resolveArgEv]
    cases hl : ids.getLast? with
    | none => simp [verdictsAt, ha, lastName, hl, parens, innerVerdicts]
    | some name => dsimp only; rw [filterEv_all]; simp [verdictsAt, ha, lastName, hl, parens, innerVerdicts]
  | .var ids, ha =>
    rw [resolveArgEv]
    cases hl : ids.getLast? with
    | none => simp [verdictsAt, ha, lastName, hl, parens, innerVerdicts]
    | some name => dsimp only; rw [filterEv_all]; simp [verdictsAt, ha, lastName, hl, parens, innerVerdicts]
  | .chain b ids, ha =>
    rw [resolveArgEv]
    cases hl : ids.getLast? with
    | none => simp [verdictsAt, ha, lastName, hl, parens, innerVerdicts]
    | some name => dsimp only; rw [filterEv_all]; simp [verdictsAt, ha, lastName, hl, parens, innerVerdicts]
  | .str t, ha => rw [resolveArgEv]; simp [verdictsAt, ha, lastName, parens, innerVerdicts]
  | .other, ha => rw [resolveArgEv]; simp [verdictsAt, ha, lastName, parens, innerVerdicts]
  termination_by sizeOf a
theorem argsEv_perm (kws : List Keyword) (f : Str) (l : Nat) (args : List Arg) (i : Nat) (as : List Arg) (ha : args.drop i = as) :
    ((resolveArgsEv kws f l args i as).filter fun e => decide e.IsVerdict).Perm
      (verdictsFrom kws (refText f l) args i as.length ++ innerVerdicts kws (refText f l) (parensArgs as)) := by
  match as, ha with
  | [], _ => rw [resolveArgsEv]; simp [verdictsFrom, parensArgs, innerVerdicts]
  | a :: as, ha =>
    have h1 : args[i]? = some a := by
      have := congrArg (·[0]?) ha
      simpa using this
    have h2 : args.drop (i + 1) = as := by
      have := congrArg (List.drop 1) ha
      simpa using this
    rw [resolveArgsEv, List.cons_append, List.filter_cons, if_neg (show ¬ (decide (Event.arg).IsVerdict = true) from by decide), List.filter_append]
    refine ((argEv_perm kws f l args i a h1).append (argsEv_perm kws f l args (i + 1) as h2)).trans ?_
    refine (perm_swap_mid _ _ _ _).trans ?_
    simp only [verdictsFrom, List.length_cons, List.range'_succ, List.flatMap_cons, parensArgs, innerVerdicts_append]
    exact List.Perm.refl _
  termination_by sizeOf as
theorem cmdsEv_perm (kws : List Keyword) (f : Str) (l : Nat) (prev : Option Cmd) (cs : List Cmd) :
    ((resolveCmdsEv kws f l prev cs).filter fun e => decide e.IsVerdict).Perm
      (((received prev cs).flatMap fun args => verdictsFrom kws (refText f l) args 0 args.length) ++
        innerVerdicts kws (refText f l) (parensCmds cs)) := by
  match cs with
  | [] => rw [resolveCmdsEv]; simp [received, parensCmds, innerVerdicts]
  | c :: cs =>
    rw [resolveCmdsEv_cons, received_cons, List.cons_append, List.filter_cons, if_neg (show ¬ (decide (Event.cmd l).IsVerdict = true) from Bool.false_ne_true), List.filter_append]
    refine ((argsEv_perm kws f l (withPiped prev c) 0 (withPiped prev c) rfl).append (cmdsEv_perm kws f l (some c) cs)).trans ?_
    refine (perm_swap_mid _ _ _ _).trans ?_
    rw [innerVerdicts_piped]
    simp only [List.flatMap_cons, parensCmds, innerVerdicts_append, List.append_assoc]
    exact List.Perm.refl _
  termination_by (match prev with | none => 0 | some c => sizeOf c) + sizeOf cs
  decreasing_by
    · unfold withPiped
      split
      · rename_i a h
        obtain ⟨rfl, -⟩ := (piped_iff _ _).mp h
        have := sizeOf_snoc c a
        simp at this ⊢
        omega
      · simp; omega
    · simp; omega
end

/-- **C102**: the lines about calls of keywords: exactly one for each call in the template, and no others. -/
theorem C102_verdicts (kws : List Keyword) (f : Str) (root : List Stmt) :
    ∃ evs, List.Forall₂ (fun (place : Str × List Arg × Nat) => Verdicts kws place.1 place.2.1 place.2.2) (places f root) evs ∧
      ((resolveNodesEv kws f root).filter fun e => decide e.IsVerdict).Perm evs.flatten := by
  refine ⟨(places f root).map fun p => verdictsAt kws p.1 p.2.1 p.2.2, ?_, ?_⟩
  · rw [List.forall₂_map_right_iff, List.forall₂_same]
    intro p _
    exact verdictsAt_ok ..
  · rw [resolveNodesEv_eq, ← List.flatMap_def]
    unfold places
    simp only [List.flatMap_assoc, List.filter_flatMap]
    refine flatMap_perm _ _ _ fun lp _ => ?_
    rw [resolvePipeEv, List.filter_append, pipe_verdict, List.nil_append]
    refine (cmdsEv_perm kws f lp.1 none lp.2).trans ?_
    simp only [subPipes, List.flatMap_cons, innerVerdicts, List.flatMap_map, verdictsFrom, List.range_eq_range', refText]
    exact List.Perm.refl _

/-- **C102**: there is exactly one possible line about a call. -/
theorem C102_one (kw : Keyword) (ref : Str) (args : List Arg) (i : Nat) : ∃! ev, Verdict kw ref args i ev := by
  obtain ⟨ev, h, _⟩ := filterOneEv_verdict ref kw.name i args kw rfl
  refine ⟨ev, (verdict_iff ..).mpr h, fun ev' h' => ?_⟩
  have h' := (verdict_iff ..).mp h'
  rw [h] at h'
  exact ((List.cons.inj h').1).symm

/-! ## The run -/

theorem templates_events (kws : List Keyword) (f : Str) (roots : List (List Stmt)) :
    ∃ parts, List.Forall₂ (TemplateEvents kws f) roots parts ∧ resolveTemplatesEv kws f roots = parts.flatten := by
  refine ⟨roots.map fun root => .template f :: resolveNodesEv kws f root, ?_, ?_⟩
  · rw [List.forall₂_map_right_iff, List.forall₂_same]
    intro root _
    obtain ⟨evs, h1, h2⟩ := C102_verdicts kws f root
    refine ⟨_, evs, rfl, h1, h2, ?_⟩
    rw [nodesEv_entry]
    exact C54_count kws f root
  · rw [← List.flatMap_def]
    rfl

/-- The events of a file, and their entries. -/
theorem file_events (E : Env) (p : Param) (kws : List Keyword) (d : Disk) (f : Str) :
    match resolveOneFile E p kws d f with
    | .entries es => FileEvents E p kws d f (resolveOneFileEv E p kws d f) ∧ (resolveOneFileEv E p kws d f).filterMap Event.entry = es
    | .fail _ => FileEvents E p kws d f (resolveOneFileEv E p kws d f) ∧ (resolveOneFileEv E p kws d f).filterMap Event.entry = []
    | .panic => resolveOneFileEv E p kws d f = [.file f] := by
  have hf := file_fail E p kws d f
  unfold resolveOneFile resolveOneFileEv at *
  cases hs : d.files (E.canon f) with
  | none =>
    rw [hs] at hf
    exact ⟨.fails (hf _ rfl), rfl⟩
  | some src =>
    rw [hs] at hf
    dsimp only at hf ⊢
    by_cases hg : (funcsFor kws p src).all (goodName E.letter E.digit) = true
    · rw [if_pos hg] at hf
      rw [if_pos hg, if_pos hg]
      cases hp : E.parse p.left p.right (funcsFor kws p src).contains src with
      | none =>
        rw [hp] at hf
        exact ⟨.fails (hf _ rfl), rfl⟩
      | some roots =>
        dsimp only
        obtain ⟨parts, h1, h2⟩ := templates_events kws f roots
        refine ⟨?_, ?_⟩
        · rw [h2]
          refine .ok hs ?_ h1
          rw [← parsed_eq]
          exact hp
        · rw [List.filterMap_cons]
          exact C102_announced kws f roots
    · rw [if_neg hg, if_neg hg]

theorem loop_events (E : Env) (p : Param) (kws : List Keyword) (d : Disk) (fs : List Str) (ctx : Ctx)
    (first : Option RunErr) (failed : Bool) (hfl : failed = first.isSome) (r : Ctx × Option RunErr × List RunErr)
    (h : loop E p kws d fs ctx first = some r) :
    ∃ blocks, List.Forall₂ (FileEvents E p kws d) fs blocks ∧
      loopEv E p kws d fs ctx failed = blocks.flatten ++ (if r.2.1.isSome then [] else [.done r.1.entries.length]) ∧
      r.1 = (ctx.addAll (blocks.flatten.filterMap Event.entry)).1 := by
  induction fs generalizing ctx first failed r with
  | nil =>
    simp only [loop, Option.some.injEq] at h
    subst h
    subst hfl
    exact ⟨[], .nil, rfl, rfl⟩
  | cons f fs ih =>
    have hfe := file_events E p kws d f
    rw [loop] at h
    rw [loopEv]
    cases hr : resolveOneFile E p kws d f with
    | entries es =>
      rw [hr] at h hfe
      dsimp only at h hfe ⊢
      obtain ⟨blocks, h1, h2, h3⟩ := ih _ _ _ hfl _ h
      refine ⟨_ :: blocks, .cons hfe.1 h1, ?_, ?_⟩
      · rw [h2, List.flatten_cons, List.append_assoc]
      · rw [h3, List.flatten_cons, List.filterMap_append, hfe.2, addAll_append]
    | fail e =>
      rw [hr] at h hfe
      dsimp only at h hfe ⊢
      cases hl : loop E p kws d fs ctx (first.or (some e)) with
      | none => rw [hl] at h; cases h
      | some r' =>
        rw [hl] at h
        simp only [Option.map_some, Option.some.injEq] at h
        subst h
        obtain ⟨blocks, h1, h2, h3⟩ := ih ctx (first.or (some e)) true (by cases first <;> rfl) _ hl
        refine ⟨_ :: blocks, .cons hfe.1 h1, ?_, ?_⟩
        · rw [h2, List.flatten_cons, List.append_assoc]
        · rw [List.flatten_cons, List.filterMap_append, hfe.2, List.nil_append]
          exact h3
    | panic => rw [hr] at h; cases h

theorem loop_panics (E : Env) (p : Param) (kws : List Keyword) (d : Disk) (fs : List Str) (ctx : Ctx)
    (first : Option RunErr) (failed : Bool) (h : loop E p kws d fs ctx first = none) :
    ∃ done f rest blocks, fs = done ++ f :: rest ∧ List.Forall₂ (FileEvents E p kws d) done blocks ∧
      loopEv E p kws d fs ctx failed = blocks.flatten ++ [.file f] := by
  induction fs generalizing ctx first failed with
  | nil => cases h
  | cons f fs ih =>
    have hfe := file_events E p kws d f
    rw [loop] at h
    rw [loopEv]
    cases hr : resolveOneFile E p kws d f with
    | entries es =>
      rw [hr] at h hfe
      dsimp only at h hfe ⊢
      obtain ⟨done, g, rest, blocks, h1, h2, h3⟩ := ih _ _ failed h
      exact ⟨f :: done, g, rest, _ :: blocks, by rw [h1]; rfl, .cons hfe.1 h2, by rw [h3, List.flatten_cons, List.append_assoc]⟩
    | fail e =>
      rw [hr] at h hfe
      dsimp only at h hfe ⊢
      cases hl : loop E p kws d fs ctx (first.or (some e)) with
      | some r' => rw [hl] at h; cases h
      | none =>
        obtain ⟨done, g, rest, blocks, h1, h2, h3⟩ := ih _ _ true hl
        exact ⟨f :: done, g, rest, _ :: blocks, by rw [h1]; rfl, .cons hfe.1 h2, by rw [h3, List.flatten_cons, List.append_assoc]⟩
    | panic =>
      rw [hr] at hfe
      dsimp only at hfe ⊢
      exact ⟨[], f, fs, [], rfl, .nil, by rw [hfe]; rfl⟩

theorem collection_length (es L : List Tr.Entry) (h : Collection es L) :
    L.length = ((es.map fun e => (e.ctxt, e.id)).dedup).length := by
  have h1 : (L.map fun e => (e.ctxt, e.id)).Perm ((es.map fun e => (e.ctxt, e.id)).dedup) := by
    rw [List.perm_ext_iff_of_nodup h.1 (List.nodup_dedup _)]
    rintro ⟨c, i⟩
    rw [List.mem_dedup, List.mem_map, List.mem_map]
    constructor
    · rintro ⟨e, he, hk⟩
      obtain ⟨c', i', hm⟩ := (h.2 e).mp he
      obtain ⟨f, hf, h1, h2, h3, h4, -⟩ := merged_some es _ _ _ hm
      refine ⟨f, hf, ?_⟩
      rw [← hk, h1, h2, h3, h4]
    · rintro ⟨e, he, hk⟩
      cases hk
      obtain ⟨f, hf⟩ := firstOf_mem es e he
      have hm : ∃ x, merged es e.ctxt e.id = some x := by
        unfold merged
        rw [hf]
        exact ⟨_, rfl⟩
      obtain ⟨x, hx⟩ := hm
      refine ⟨x, (h.2 x).mpr ⟨_, _, hx⟩, ?_⟩
      obtain ⟨f, hf, h1, h2, h3, h4, -⟩ := merged_some es _ _ _ hx
      rw [h3, h4]
  have := h1.length_eq
  rwa [List.length_map] at this

/-- **C102**: a run prints its parameters and the files, then about each file; at the end, unless a file failed, how many
messages were extracted. -/
theorem C102_run (E : Env) (p : Param) (d : Disk) (kws : List Keyword) (hk : DeclaresAll p.keyword kws)
    (ho : OpenOk E p) (d1 : Disk) (h1 : Opened E p d d1) (fs : List Str) (hg : E.glob d1.files p.input = some fs) :
    (∀ err printed d', Run E p d (.returned err printed d') →
      ∃ blocks n, List.Forall₂ (FileEvents E p kws d1) fs blocks ∧
        runEv E p d = .param :: .glob (some fs) :: blocks.flatten ++ (if printed = [] then [.done n] else []) ∧
        (NoEotIn (blocks.flatten.filterMap Event.entry) → n = messages blocks.flatten)) ∧
    (∀ d', Run E p d (.panicked d') → ∃ done f rest blocks, fs = done ++ f :: rest ∧
      List.Forall₂ (FileEvents E p kws d1) done blocks ∧
      runEv E p d = .param :: .glob (some fs) :: blocks.flatten ++ [.file f]) := by
  rw [opened_iff] at h1
  subst h1
  rw [← C53_exact] at hk
  have ho := (openOk_iff E p).mpr ho
  have hev : runEv E p d = .param :: .glob (some fs) :: loopEv E p kws (d.truncate E p) fs {} false := by
    unfold runEv
    rw [hk]
    dsimp only
    rw [if_pos ho, hg]
  rw [hev]
  refine ⟨fun err printed d' h => ?_, fun d' h => ?_⟩
  · have key : ∀ ctx e printed, loop E p kws (d.truncate E p) fs {} none = some (ctx, e, printed) →
        ∃ blocks n, List.Forall₂ (FileEvents E p kws (d.truncate E p)) fs blocks ∧
        Event.param :: .glob (some fs) :: loopEv E p kws (d.truncate E p) fs {} false =
          .param :: .glob (some fs) :: blocks.flatten ++ (if printed = [] then [.done n] else []) ∧
        (NoEotIn (blocks.flatten.filterMap Event.entry) → n = messages blocks.flatten) := by
      intro ctx e printed hl
      obtain ⟨blocks, h1, h2, h3⟩ := loop_events E p kws _ fs {} none false rfl _ hl
      obtain ⟨fates, -, h5, h6, -⟩ := loop_some _ _ _ _ _ _ _ _ hl
      dsimp only at h2 h3 h5 h6
      refine ⟨blocks, ctx.entries.length, h1, ?_, fun hn => ?_⟩
      · rw [h2, List.cons_append, List.cons_append]
        congr 3
        rw [← h5] at h6
        rw [h6]
        cases printed <;> rfl
      · have hc := C56_merge _ hn
        rw [← h3] at hc
        have := collection_length _ _ hc
        unfold messages
        rw [← this]
        simp [GMap.vals]
    cases h with
    | keyword hk' => rw [hk] at hk'; cases hk'
    | openOutput _ h1 h2 => rw [h1, h2] at ho; cases ho
    | glob _ _ hg' => rw [hg] at hg'; cases hg'
    | @failed kws' fs' ctx e _ hk' _ hg' hl =>
      rw [hk] at hk'; rw [hg] at hg'; cases hk'; cases hg'
      exact key _ _ _ hl
    | @written kws' fs' ctx _ text hk' _ hg' hl ht =>
      rw [hk] at hk'; rw [hg] at hg'; cases hk'; cases hg'
      exact key _ _ _ hl
  · cases h with
    | @panic kws' fs' hk' _ hg' hl =>
      rw [hk] at hk'; rw [hg] at hg'; cases hk'; cases hg'
      obtain ⟨done, f, rest, blocks, h1, h2, h3⟩ := loop_panics E p kws _ fs {} none false hl
      exact ⟨done, f, rest, blocks, h1, h2, by rw [h3]; rfl⟩

/-- **C102**: what is printed if no file is looked at. -/
theorem C102_early (E : Env) (p : Param) (d : Disk) :
    ((∀ kws, ¬ DeclaresAll p.keyword kws) → runEv E p d = [.param]) ∧
    (∀ kws, DeclaresAll p.keyword kws → ¬ OpenOk E p → runEv E p d = [.param]) ∧
    (∀ kws d1, DeclaresAll p.keyword kws → OpenOk E p → Opened E p d d1 → E.glob d1.files p.input = none →
      runEv E p d = [.param, .glob none]) := by
  simp only [← C53_exact, ← openOk_iff, opened_iff]
  unfold runEv
  refine ⟨fun hn => ?_, fun kws hk ho => ?_, ?_⟩
  · cases hk : parseKeywords p.keyword with
    | none => rfl
    | some kws => exact absurd hk (hn kws)
  · rw [hk]
    dsimp only
    rw [if_neg ho]
  · rintro kws _ hk ho rfl hg
    rw [hk]
    dsimp only
    rw [if_pos ho, hg]

/-! ## The output -/

theorem debugPrint_quiet (L : Fmt.Lib) (format : Str) (args : List DVal) : debugPrint L false format args = [] := rfl

theorem prints_quiet (L : Fmt.Lib) (p : Param) (ev : Event) (s : Str) (h : Prints L p false ev s) : s = [] := by
  cases h <;> rfl

theorem prints_exists (L : Fmt.Lib) (p : Param) (debug : Bool) (ev : Event) : ∃ s, Prints L p debug ev s := by
  cases ev with
  | glob r => cases r with
    | none => exact ⟨_, .bad⟩
    | some fs => exact ⟨_, .files fs⟩
  | missing name what => cases what with
    | ctxt => exact ⟨_, .noCtxt name⟩
    | id => exact ⟨_, .noId name⟩
    | plural => exact ⟨_, .noPlural name⟩
  | param => exact ⟨_, .param⟩
  | done n => exact ⟨_, .done n⟩
  | file f => exact ⟨_, .file f⟩
  | template f => exact ⟨_, .template f []⟩
  | noPipe l => exact ⟨_, .noPipe l⟩
  | pipe l => exact ⟨_, .pipe l⟩
  | cmd l => exact ⟨_, .cmd l 0 (by decide)⟩
  | arg => exact ⟨_, .arg []⟩
  | tooFew n => exact ⟨_, .tooFew n⟩
  | notString n i => exact ⟨_, .notString n i⟩
  | ok n e => exact ⟨_, .ok n e⟩

theorem lines_exist (L : Fmt.Lib) (p : Param) (debug : Bool) (evs : List Event) :
    ∃ lines, List.Forall₂ (Prints L p debug) evs lines := by
  induction evs with
  | nil => exact ⟨[], .nil⟩
  | cons ev evs ih =>
    obtain ⟨s, h⟩ := prints_exists L p debug ev
    obtain ⟨lines, h'⟩ := ih
    exact ⟨_, .cons h h'⟩

theorem lines_quiet (L : Fmt.Lib) (p : Param) (evs : List Event) (lines : List Str) (h : List.Forall₂ (Prints L p false) evs lines) :
    lines.flatten = [] := by
  induction h with
  | nil => rfl
  | cons h _ ih => rw [List.flatten_cons, prints_quiet _ _ _ _ h, ih]; rfl

/-- **C102**: without -d nothing of this is printed. -/
theorem C102_quiet (L : Fmt.Lib) (E : Env) (p : Param) (d : Disk) (o : Outcome) : DebugRun L E p false d o ↔ Run E p d o := by
  constructor
  · rintro ⟨lines, h1, h2⟩
    rw [lines_quiet _ _ _ _ h1, List.append_nil] at h2
    exact h2
  · intro h
    obtain ⟨lines, hl⟩ := lines_exist L p false (runEv E p d)
    refine ⟨lines, hl, ?_⟩
    rw [lines_quiet _ _ _ _ hl, List.append_nil]
    exact h

theorem truncate_stdout (E : Env) (p : Param) (d : Disk) (s : Str) :
    ({ d with stdout := s } : Disk).truncate E p = { d.truncate E p with stdout := s } := by
  unfold Disk.truncate Disk.put
  split <;> rfl

theorem truncate_keeps (E : Env) (p : Param) (d : Disk) : (d.truncate E p).stdout = d.stdout := by
  unfold Disk.truncate Disk.put
  split <;> rfl

theorem file_stdout (E : Env) (p : Param) (kws : List Keyword) (d : Disk) (s f : Str) :
    resolveOneFile E p kws { d with stdout := s } f = resolveOneFile E p kws d f := rfl

theorem loop_stdout (E : Env) (p : Param) (kws : List Keyword) (d : Disk) (s : Str) (fs : List Str) (ctx : Ctx) (first : Option RunErr) :
    loop E p kws { d with stdout := s } fs ctx first = loop E p kws d fs ctx first := by
  induction fs generalizing ctx first with
  | nil => rfl
  | cons f fs ih => simp only [loop, file_stdout, ih]

theorem run_shift (E : Env) (p : Param) (d : Disk) (text : Str) (o : Outcome) (h : Run E p { d with stdout := d.stdout ++ text } o) :
    ∃ o', Run E p d o' ∧ o.Differs d text o' := by
  have hs := truncate_keeps E p d
  cases h with
  | keyword hk => exact ⟨_, .keyword hk, ⟨rfl, rfl⟩, rfl, [], by simp [Outcome.disk], by simp [Outcome.disk]⟩
  | openOutput hk h1 h2 => exact ⟨_, .openOutput hk h1 h2, ⟨rfl, rfl⟩, rfl, [], by simp [Outcome.disk], by simp [Outcome.disk]⟩
  | glob hk ho hg =>
    rw [truncate_stdout] at hg ⊢
    exact ⟨_, .glob hk ho hg, ⟨rfl, rfl⟩, rfl, [], by simp [Outcome.disk], by simp [Outcome.disk, hs]⟩
  | panic hk ho hg hl =>
    rw [truncate_stdout] at hg hl ⊢
    rw [loop_stdout] at hl
    exact ⟨_, .panic hk ho hg hl, trivial, rfl, [], by simp [Outcome.disk], by simp [Outcome.disk, hs]⟩
  | failed hk ho hg hl =>
    rw [truncate_stdout] at hg hl ⊢
    rw [loop_stdout] at hl
    exact ⟨_, .failed hk ho hg hl, ⟨rfl, rfl⟩, rfl, [], by simp [Outcome.disk], by simp [Outcome.disk, hs]⟩
  | @written kws fs ctx printed pot hk ho hg hl ht =>
    rw [truncate_stdout] at hg hl ⊢
    rw [loop_stdout] at hl
    refine ⟨_, .written hk ho hg hl ht, ⟨rfl, rfl⟩, ?_, if p.toStdout then (E.sink pot).1 else [], ?_, ?_⟩ <;>
      unfold Disk.write Disk.put <;> dsimp only [Outcome.disk] <;> split <;> simp [Outcome.disk, hs]

/-- **C102**: with -d the run does the same, but the lines come on stdout before what it writes. -/
theorem C102_same (L : Fmt.Lib) (E : Env) (p : Param) (d : Disk) (o : Outcome) (h : DebugRun L E p true d o) :
    ∃ lines o', List.Forall₂ (Prints L p true) (runEv E p d) lines ∧ Run E p d o' ∧ o.Differs d lines.flatten o' := by
  obtain ⟨lines, h1, h2⟩ := h
  obtain ⟨o', h3, h4⟩ := run_shift E p d _ o h2
  exact ⟨lines, o', h1, h3, h4⟩

theorem trace_of (L : Fmt.Lib) (E : Env) (p : Param) (d : Disk) (lines : List Str)
    (h : List.Forall₂ (Prints L p true) (runEv E p d) lines) : ∃ t, lines.flatten = b!"run param=" ++ t := by
  unfold runEv at h
  cases h with
  | cons h _ =>
    have := (C102_lines L p .param trivial _).mp h
    cases this
    exact ⟨_, by rw [List.flatten_cons]; simp only [List.append_assoc]; rfl⟩

/-- **C102**: the command with -d does what C65 says, with these lines. -/
theorem C102_main (L : Fmt.Lib) (E : Env) (version : Str) (args : List Str) (d : Disk) (fl : Flags) (o : Outcome)
    (h1 : parseFlags {} args = .ok fl) (h2 : fl.version = false) (h3 : fl.help = false)
    (h4 : ¬ (GoStr.trimSpace fl.input = [] ∨ GoStr.trimSpace fl.keyword = [])) (h : DebugRun L E fl.param fl.debug d o) :
    ∃ trace, Main E version trace args d o.exit := by
  obtain ⟨lines, h5, h6⟩ := h
  cases hd : fl.debug with
  | false =>
    rw [hd] at h5
    rw [lines_quiet _ _ _ _ h5, List.append_nil] at h6
    exact ⟨[], .run h1 h2 h3 h4 (by rw [hd]; exact h6)⟩
  | true =>
    rw [hd] at h5
    obtain ⟨t, ht⟩ := trace_of L E _ d lines h5
    rw [ht] at h6
    exact ⟨t, .run h1 h2 h3 h4 (by rw [hd]; exact h6)⟩

/-- **C102**: a POT on stdout cannot be read. -/
theorem C102_unreadable (L : Fmt.Lib) (E : Env) (p : Param) (d : Disk) (hd : d.stdout = []) (o : Outcome)
    (h : DebugRun L E p true d o) : Tr.readPot o.disk.stdout = .panic ∧ Tr.readPo o.disk.stdout = .err := by
  obtain ⟨lines, o', h1, -, -, -, pot, h2, -⟩ := C102_same L E p d o h
  obtain ⟨t, ht⟩ := trace_of L E _ d lines h1
  rw [h2, hd, ht, List.nil_append, List.append_assoc]
  exact readPot_debug _

/-! ## Examples -/

/-- The events of a run on two files. -/
example : runEv exEnv (exParam b!"T") (exDisk (some b!"bye")) =
    [.param, .glob (some [b!"a", b!"b"]),
      .file b!"a", .template b!"a", .pipe 1, .cmd 1, .arg, .ok b!"T" { cmts := [b!"#: a:1"], id := b!"hello" }, .arg,
      .file b!"b", .template b!"b", .pipe 1, .cmd 1, .arg, .ok b!"T" { cmts := [b!"#: b:1"], id := b!"bye" }, .arg,
      .done 2] := by
  decide +kernel

/-- One file cannot be read. -/
example : runEv exEnv (exParam b!"T") (exDisk none) =
    [.param, .glob (some [b!"a", b!"b"]),
      .file b!"a", .template b!"a", .pipe 1, .cmd 1, .arg, .ok b!"T" { cmts := [b!"#: a:1"], id := b!"hello" }, .arg,
      .file b!"b"] := by
  decide +kernel

/-- Verdicts: `{{ T }}`, `{{ T .X }}` and `{{ N "a" }}` for the keywords `T` and `N:2,2`. -/
example :
    (resolveNodesEv [⟨b!"T", 0, 1, 0⟩, ⟨b!"N", 0, 2, 0⟩] b!"f"
      [.action 3 [[.ident b!"T"]], .action 4 [[.ident b!"T", .field [b!"X"]]], .action 5 [[.ident b!"N", .str b!"a"]]]).filter
        (fun e => decide e.IsVerdict) = [.tooFew b!"T", .notString b!"T" 1, .missing b!"N" .id] := by
  decide +kernel

/-- A line. -/
example (p : Param) : LineFor p (.ok b!"T" { cmts := [b!"#: a:1", b!"#. x"], id := b!"hello" })
    b!"【ok】  >  >  ID=T entry=&{MsgCmts:[#: a:1 #. x] MsgCtxt: MsgID:hello IsPlural:false MsgID2: MsgStr: MsgStrN:[]}\n" :=
  LineFor.ok (p := p) b!"T" { cmts := [b!"#: a:1", b!"#. x"], id := b!"hello" }

/-- The first line. -/
example : LineFor (exParam b!"T") .param b!"run param=&{Input:* Left: Right: Keyword:T Function:f, g OutputFile:o Debug:true}\n" := by
  exact LineFor.param (p := exParam b!"T")

end Verif.Xt
