import Verif.Props.C59
import Verif.Props.C56_C57
import Verif.Props.C54_C55
import Verif.Props.C53
/-!
# C58: runs.  C61: when a run panics.
-/
namespace Verif.Xt
open Verif

/-! ## Names -/

theorem decode_ascii (c : UInt8) (s : Str) (h : LetterByte c ∨ DigitByte c) : Utf8.decode (c :: s) = (c.toNat, 1) := by
  have : c < 0x80 := by
    revert h; unfold LetterByte DigitByte; revert c; apply u8; decide +kernel
  simp [Utf8.decode, this]

theorem runesN_ascii (s : Str) (h : ∀ x ∈ s, LetterByte x ∨ DigitByte x) (n : Nat) (hn : s.length ≤ n) :
    runesN n s = s.map (·.toNat) := by
  induction s generalizing n with
  | nil => cases n <;> rfl
  | cons c s ih =>
    cases n with
    | zero => simp at hn
    | succ n =>
      have hc := decode_ascii c s (h c (by simp))
      rw [runesN]
      · rw [hc]
        simp only [List.drop_succ_cons, List.drop_zero, List.map_cons]
        rw [ih (fun x hx => h x (by simp [hx])) n (by simpa using hn)]
      · simp

theorem letter_nat (E : Env) (hE : Ascii E) (c : UInt8) (h : LetterByte c) :
    (c.toNat == 95 || E.letter c.toNat) = true := by
  have : c.toNat = 95 ∨ (65 ≤ c.toNat ∧ c.toNat ≤ 90 ∨ 97 ≤ c.toNat ∧ c.toNat ≤ 122) := by
    revert h; unfold LetterByte; revert c; apply u8; decide +kernel
  rcases this with h | h
  · simp [h]
  · simp [hE.1 _ h]

theorem digit_nat (E : Env) (hE : Ascii E) (c : UInt8) (h : DigitByte c) : E.digit c.toNat = true := by
  have : 48 ≤ c.toNat ∧ c.toNat ≤ 57 := by
    revert h; unfold DigitByte; revert c; apply u8; decide +kernel
  exact hE.2.1 _ this

/-- Identifiers are good names. -/
theorem ident_good (E : Env) (hE : Ascii E) (n : Str) (h : Ident n) : goodName E.letter E.digit n = true := by
  obtain ⟨c, r, rfl, hc, hr⟩ := h
  have hall : ∀ x ∈ c :: r, LetterByte x ∨ DigitByte x := by
    intro x hx
    rcases List.mem_cons.mp hx with rfl | hx
    · exact .inl hc
    · exact hr x hx
  unfold goodName runes
  rw [runesN_ascii _ hall _ (Nat.le_refl _), List.map_cons]
  simp only [letter_nat E hE c hc, Bool.true_and, List.all_map, List.all_eq_true, Function.comp]
  intro x hx
  rcases hr x hx with h | h
  · simp only [letter_nat E hE x h, Bool.true_or]
  · simp only [digit_nat E hE x h, Bool.or_true]

theorem runesN_encode (rs : List Nat) (h : ∀ x ∈ rs, Utf8.validRune x = true) (n : Nat)
    (hn : (rs.flatMap Utf8.encode).length ≤ n) : runesN n (rs.flatMap Utf8.encode) = rs := by
  induction rs generalizing n with
  | nil => cases n <;> rfl
  | cons r rs ih =>
    have hne : Utf8.encode r ≠ [] := by
      have hd := Utf8.decode_encode r (h r (by simp)) []
      have hw := Utf8.decode_width [0] (by simp)
      unfold Utf8.encode
      split
      · simp
      · split
        · simp
        · split
          · simp
          · split <;> simp
    have hpos : 0 < (Utf8.encode r).length := List.length_pos_of_ne_nil hne
    rw [List.flatMap_cons] at hn ⊢
    cases n with
    | zero => rw [List.length_append] at hn; omega
    | succ n =>
      have hd := Utf8.decode_encode r (h r (by simp)) (rs.flatMap Utf8.encode)
      rw [runesN]
      · rw [hd]
        simp only [List.drop_left]
        rw [ih (fun x hx => h x (by simp [hx])) n (by rw [List.length_append] at hn; omega)]
      · simp [hne]

theorem runesN_good (n : Nat) (s : Str) (hn : s.length ≤ n) (h : 0xFFFD ∉ runesN n s) :
    (∀ x ∈ runesN n s, Utf8.validRune x = true) ∧ s = (runesN n s).flatMap Utf8.encode := by
  induction n generalizing s with
  | zero =>
    have : s = [] := List.length_eq_zero_iff.mp (by omega)
    subst this; simp [runesN]
  | succ n ih =>
    by_cases hs : s = []
    · subst hs; simp [runesN]
    · rw [runesN] at h ⊢
      · simp only [List.mem_cons, not_or] at h
        obtain ⟨h1, h2, h3, h4, -⟩ := Utf8.encode_decode s hs (fun hc => h.1 hc.2.symm)
        obtain ⟨i1, i2⟩ := ih (s.drop (Utf8.decode s).2) (by rw [List.length_drop]; omega) h.2
        refine ⟨?_, ?_⟩
        · intro x hx
          rcases List.mem_cons.mp hx with rfl | hx
          · exact h1
          · exact i1 x hx
        · rw [List.flatMap_cons, h4, ← i2, List.take_append_drop]
      · exact hs
      · exact hs

/-- The check of the template package accepts exactly its names. -/
theorem good_iff (E : Env) (hE : Ascii E) (n : Str) :
    goodName E.letter E.digit n = true ↔ TemplateName E n := by
  unfold goodName runes
  constructor
  · intro h
    cases hr : runesN n.length n with
    | nil => rw [hr] at h; cases h
    | cons r rs =>
      rw [hr] at h
      simp only [Bool.and_eq_true, Bool.or_eq_true, beq_iff_eq, List.all_eq_true] at h
      have hF : 0xFFFD ∉ runesN n.length n := by
        rw [hr]
        intro hm
        rcases List.mem_cons.mp hm with hm | hm
        · rw [← hm, hE.2.2.1] at h
          rcases h.1 with h | h <;> cases h
        · rcases h.2 _ hm with (h | h) | h
          · cases h
          · rw [hE.2.2.1] at h; cases h
          · rw [hE.2.2.2] at h; cases h
      obtain ⟨h1, h2⟩ := runesN_good n.length n (Nat.le_refl _) hF
      rw [hr] at h1 h2
      exact ⟨r, rs, h1, h2, h.1, fun x hx => or_assoc.mp (h.2 x hx)⟩
  · rintro ⟨r, rs, hv, rfl, h1, h2⟩
    rw [runesN_encode _ hv _ (Nat.le_refl _)]
    simp only [Bool.and_eq_true, Bool.or_eq_true, beq_iff_eq, List.all_eq_true]
    exact ⟨h1, fun x hx => or_assoc.mpr (h2 x hx)⟩

/-- Only given names can make registration panic. -/
theorem all_good_iff (E : Env) (hE : Ascii E) (p : Param) (kws : List Keyword) (src : Str) :
    (funcsFor kws p src).all (goodName E.letter E.digit) = true ↔ GoodNames E p kws := by
  rw [List.all_eq_true]
  constructor
  · intro h n hn
    exact (good_iff E hE n).mp (h n ((C59_registered _ _ _ _).mpr (.inl hn)))
  · intro h n hn
    rcases (C59_registered _ _ _ _).mp hn with hn | ⟨⟨hi, -⟩, -⟩
    · exact (good_iff E hE n).mpr (h n hn)
    · exact ident_good E hE n hi

open Classical in
theorem parsed_eq (E : Env) (p : Param) (kws : List Keyword) (src : Str) :
    E.parse p.left p.right (funcsFor kws p src).contains src = parsed E p kws src := by
  unfold parsed
  congr 1
  funext n
  rw [Bool.eq_iff_iff, List.contains_iff_mem, C59_registered, decide_eq_true_eq]

/-! ## Files -/

theorem templates_perm (kws : List Keyword) (f : Str) (roots : List (List Stmt)) :
    (resolveTemplates kws f roots).Perm (roots.flatMap (allEntries kws f)) := by
  unfold resolveTemplates
  exact flatMap_perm _ _ _ fun root _ => C54_count kws f root

theorem file_entries (E : Env) (p : Param) (kws : List Keyword) (d : Disk)
    (f : Str) (es : List Tr.Entry) (h : resolveOneFile E p kws d f = .entries es) : FileOk E p kws d f es := by
  unfold resolveOneFile at h
  split at h
  · cases h
  · rename_i src hsrc
    dsimp only at h
    split at h
    · rw [parsed_eq] at h
      split at h
      · cases h
      · rename_i roots hr
        cases h
        exact ⟨src, roots, hsrc, hr, templates_perm _ _ _⟩
    · cases h

theorem file_fail (E : Env) (p : Param) (kws : List Keyword) (d : Disk)
    (f : Str) (e : RunErr) (h : resolveOneFile E p kws d f = .fail e) : FileFails E p kws d f e := by
  unfold resolveOneFile at h
  split at h
  · rename_i hr
    cases h
    exact .read hr
  · rename_i src hsrc
    dsimp only at h
    split at h
    · rw [parsed_eq] at h
      split at h
      · rename_i hr
        cases h
        exact .parse hsrc hr
      · cases h
    · cases h

theorem file_panic (E : Env) (hE : Ascii E) (p : Param) (kws : List Keyword) (d : Disk) (f : Str) :
    resolveOneFile E p kws d f = .panic ↔ (∃ src, d.files (E.canon f) = some src) ∧ ¬ GoodNames E p kws := by
  unfold resolveOneFile
  cases hs : d.files (E.canon f) with
  | none => simp
  | some src =>
    dsimp only
    rw [← all_good_iff E hE p kws src]
    by_cases hg : (funcsFor kws p src).all (goodName E.letter E.digit) = true
    · simp only [hg, if_true]
      split <;> simp
    · simp [hg]

/-- What the loop computes. -/
theorem loop_some (E : Env) (p : Param) (kws : List Keyword) (d : Disk) (fs : List Str) (ctx : Ctx)
    (first : Option RunErr) (r : Ctx × Option RunErr × List RunErr) (h : loop E p kws d fs ctx first = some r) :
    ∃ fates : List (Option RunErr), List.Forall₂ (Fate E p kws d) fs fates ∧ r.2.2 = fates.filterMap id ∧
      r.2.1 = first.or (fates.filterMap id).head? ∧
      ((fates.filterMap id) = [] → ∃ ess, List.Forall₂ (FileOk E p kws d) fs ess ∧
        r.1 = (ctx.addAll ess.flatten).1) := by
  induction fs generalizing ctx first r with
  | nil =>
    simp only [loop, Option.some.injEq] at h
    subst h
    exact ⟨[], .nil, rfl, by simp, fun _ => ⟨[], .nil, rfl⟩⟩
  | cons f fs ih =>
    rw [loop] at h
    split at h
    · rename_i es hf
      obtain ⟨fates, h1, h2, h3, h4⟩ := ih _ _ _ h
      have hok := file_entries _ _ _ _ _ _ hf
      refine ⟨none :: fates, .cons ⟨es, hok⟩ h1, by simpa using h2, by simpa using h3, fun hn => ?_⟩
      obtain ⟨ess, h5, h6⟩ := h4 (by simpa using hn)
      refine ⟨es :: ess, .cons hok h5, ?_⟩
      rw [h6, List.flatten_cons, addAll_append]
    · rename_i e hf
      cases hl : loop E p kws d fs ctx (first.or (some e)) with
      | none => rw [hl] at h; cases h
      | some r' =>
        rw [hl] at h
        simp only [Option.map_some, Option.some.injEq] at h
        subst h
        obtain ⟨fates, h1, h2, h3, h4⟩ := ih _ _ _ hl
        refine ⟨some e :: fates, .cons (file_fail _ _ _ _ _ _ hf) h1, ?_, ?_, ?_⟩
        · simp [h2]
        · simp only [h3]
          cases first <;> simp
        · simp
    · cases h

theorem loop_none (E : Env) (hE : Ascii E) (p : Param) (kws : List Keyword) (d : Disk) (fs : List Str) (ctx : Ctx)
    (first : Option RunErr) : loop E p kws d fs ctx first = none ↔
      (∃ f ∈ fs, ∃ src, d.files (E.canon f) = some src) ∧ ¬ GoodNames E p kws := by
  induction fs generalizing ctx first with
  | nil => simp [loop]
  | cons f fs ih =>
    rw [loop]
    have hp := file_panic E hE p kws d f
    split
    · rename_i es hf
      rw [ih]
      have : GoodNames E p kws := by
        by_contra hg
        obtain ⟨src, roots, hs, -⟩ := file_entries _ _ _ _ _ _ hf
        rw [hp.mpr ⟨⟨src, hs⟩, hg⟩] at hf
        cases hf
      simp [this]
    · rename_i e hf
      rw [Option.map_eq_none_iff, ih]
      refine and_congr_left fun hg => ?_
      have : ¬ ∃ src, d.files (E.canon f) = some src := by
        intro hs
        rw [hp.mpr ⟨hs, hg⟩] at hf
        cases hf
      constructor
      · rintro ⟨g, hg, hs⟩; exact ⟨g, by simp [hg], hs⟩
      · rintro ⟨g, hg, hs⟩
        rcases List.mem_cons.mp hg with rfl | hg
        · exact absurd hs this
        · exact ⟨g, hg, hs⟩
    · rename_i hf
      obtain ⟨h1, h2⟩ := hp.mp hf
      simp only [true_iff]
      exact ⟨⟨f, by simp, h1⟩, h2⟩

/-! ## Runs -/

theorem toStdout_iff (p : Param) : p.toStdout = true ↔ ToStdout p := by
  unfold Param.toStdout ToStdout
  simp

theorem opened_iff (E : Env) (p : Param) (d d1 : Disk) : Opened E p d d1 ↔ d1 = d.truncate E p := by
  unfold Opened Disk.truncate
  rw [← toStdout_iff]
  by_cases h : p.toStdout = true
  · simp [h]
  · simp only [h, Bool.false_eq_true, false_implies, true_and, not_false_eq_true, true_implies, if_false]
    obtain ⟨files, stdout⟩ := d1
    constructor
    · rintro ⟨h1, h2, h3⟩
      dsimp only at h1 h2 h3
      subst h1
      unfold Disk.put
      congr 1
      funext f
      by_cases hf : f = E.canon p.output
      · rw [if_pos hf, hf, h2]
      · rw [if_neg hf, h3 f hf]
    · intro he
      rw [he]
      refine ⟨rfl, by simp [Disk.put], fun f hf => by simp [Disk.put, hf]⟩

theorem received_write (E : Env) (p : Param) (d : Disk) (text : Str) : Received E p d text (d.write E p text) := by
  unfold Received Disk.write
  rw [← toStdout_iff]
  by_cases h : p.toStdout = true
  · simp [h]
  · simp only [h, Bool.false_eq_true, false_implies, true_and, not_false_eq_true, true_implies, if_false]
    refine ⟨rfl, by simp [Disk.put], fun f hf => by simp [Disk.put, hf]⟩

/-- Closing the output succeeds (stdout is not closed). -/
def CloseOk (E : Env) (p : Param) : Prop := p.output = [] ∨ p.output = b!"-" ∨ E.closes = true

theorem finish_some (E : Env) (p : Param) (e : RunErr) : finish E p (some e) = some e := by
  unfold finish; split <;> simp

theorem finish_none (E : Env) (p : Param) : finish E p none = none ↔ CloseOk E p := by
  unfold finish CloseOk Param.toStdout
  by_cases h1 : p.output = [] <;> by_cases h2 : p.output = b!"-" <;> by_cases h3 : E.closes <;> simp [h1, h2, h3]

/-- The output can be opened, or is stdout. -/
def OpenOk (E : Env) (p : Param) : Prop := p.output = [] ∨ p.output = b!"-" ∨ E.canOpen = true

theorem openOk_iff (E : Env) (p : Param) : (p.toStdout || E.canOpen) = true ↔ OpenOk E p := by
  unfold OpenOk Param.toStdout
  by_cases h1 : p.output = [] <;> by_cases h2 : p.output = b!"-" <;> by_cases h3 : E.canOpen <;> simp [h1, h2, h3]

/-- **C58**: a run whose output can be opened and whose pattern matches `fs` processes every file; it
prints every failure; with a failure it returns the first one and leaves the output truncated; without
one it writes the POT of all files, and fails only if writing or closing does. -/
theorem C58_run (E : Env) (p : Param) (d : Disk) (kws : List Keyword) (hk : DeclaresAll p.keyword kws)
    (ho : OpenOk E p) (d1 : Disk) (h1 : Opened E p d d1) (fs : List Str) (hg : E.glob d1.files p.input = some fs)
    (err : Option RunErr) (printed : List RunErr) (d' : Disk) (h : Run E p d (.returned err printed d')) :
    ∃ fates, List.Forall₂ (Fate E p kws d1) fs fates ∧ printed = fates.filterMap id ∧
      (printed ≠ [] → err = printed.head? ∧ d' = d1) ∧
      (printed = [] → ∃ ess text, List.Forall₂ (FileOk E p kws d1) fs ess ∧
        (NoEotIn ess.flatten → PotOf E.isPrint p E.now ess.flatten text) ∧
        Received E p d1 text d' ∧ (err = none ↔ (E.sink text).2 = true ∧ CloseOk E p)) := by
  rw [opened_iff] at h1
  subst h1
  rw [← C53_exact] at hk
  have ho := (openOk_iff E p).mpr ho
  cases h with
  | keyword hk' => rw [hk] at hk'; cases hk'
  | openOutput _ h1 h2 => rw [h1, h2] at ho; cases ho
  | glob _ _ hg' => rw [hg] at hg'; cases hg'
  | @failed kws' fs' ctx e _ hk' _ hg' hl =>
    rw [hk] at hk'; rw [hg] at hg'; cases hk'; cases hg'
    obtain ⟨fates, h1, h2, h3, h4⟩ := loop_some _ _ _ _ _ _ _ _ hl
    dsimp only at h2 h3
    refine ⟨fates, h1, h2, fun _ => ⟨?_, rfl⟩, fun hn => ?_⟩
    · rw [finish_some, h3, h2]; rfl
    · rw [← h2, hn] at h3; cases h3
  | @written kws' fs' ctx _ text hk' _ hg' hl ht =>
    rw [hk] at hk'; rw [hg] at hg'; cases hk'; cases hg'
    obtain ⟨fates, h1, h2, h3, h4⟩ := loop_some _ _ _ _ _ _ _ _ hl
    dsimp only at h2 h3
    have hn : fates.filterMap id = [] := by
      cases hf : fates.filterMap id with
      | nil => rfl
      | cons a l => rw [hf] at h3; simp at h3
    obtain ⟨ess, h5, h6⟩ := h4 hn
    dsimp only at h6
    refine ⟨fates, h1, h2, fun hp => absurd (h2.trans hn) hp, fun _ => ⟨ess, text, h5, fun he => ?_, received_write _ _ _ _, ?_⟩⟩
    · subst h6
      exact C57_pot _ _ _ _ he _ ht
    · by_cases hs : (E.sink text).2 = true
      · simp only [hs, if_true, true_and]; exact finish_none E p
      · simp [hs, finish_some]

/-- **C58**: otherwise the run returns before reading any file: with nothing touched if the keywords
are wrong or the output cannot be opened, with the output truncated if the pattern is wrong. -/
theorem C58_early (E : Env) (p : Param) (d : Disk) (o : Outcome) (h : Run E p d o) :
    ((∀ kws, ¬ DeclaresAll p.keyword kws) → o = .returned (some .keyword) [] d) ∧
    (∀ kws, DeclaresAll p.keyword kws → ¬ OpenOk E p → o = .returned (some .openOutput) [] d) ∧
    (∀ kws d1, DeclaresAll p.keyword kws → OpenOk E p → Opened E p d d1 → E.glob d1.files p.input = none →
      o = .returned (some .glob) [] d1) := by
  simp only [← C53_exact, ← openOk_iff, opened_iff]
  refine ⟨fun hn => ?_, fun kws hk ho => ?_, ?_⟩
  · cases h with
    | keyword => rfl
    | openOutput hk | glob hk | panic hk | failed hk | written hk => exact absurd hk (hn _)
  · cases h with
    | keyword hk' => rw [hk] at hk'; cases hk'
    | openOutput => rfl
    | glob _ ho' | panic _ ho' | failed _ ho' | written _ ho' => exact absurd ho' ho
  · rintro kws _ hk ho rfl hg
    cases h with
    | keyword hk' => rw [hk] at hk'; cases hk'
    | openOutput _ h1 h2 => rw [h1, h2] at ho; cases ho
    | glob => rw [finish_some]
    | panic _ _ hg' | failed _ _ hg' | written _ _ hg' => rw [hg] at hg'; cases hg'

/-- **C58**: a run has an outcome. -/
theorem C58_total (E : Env) (p : Param) (d : Disk) : ∃ o, Run E p d o := by
  cases hk : parseKeywords p.keyword with
  | none => exact ⟨_, .keyword hk⟩
  | some kws =>
    by_cases ho : (p.toStdout || E.canOpen) = true
    · cases hg : E.glob (d.truncate E p).files p.input with
      | none => exact ⟨_, .glob hk ho hg⟩
      | some fs =>
        cases hl : loop E p kws (d.truncate E p) fs {} none with
        | none => exact ⟨_, .panic hk ho hg hl⟩
        | some r =>
          obtain ⟨ctx, first, printed⟩ := r
          cases first with
          | some e => exact ⟨_, .failed hk ho hg hl⟩
          | none =>
            obtain ⟨text, ht⟩ := C57_exists E.isPrint p E.now ctx
            exact ⟨_, .written hk ho hg hl ht⟩
    · rw [Bool.not_eq_true, Bool.or_eq_false_iff] at ho
      exact ⟨_, .openOutput hk ho.1 ho.2⟩

/-- **C61**: a run panics iff it reads a file while a keyword or a `-f` name is not an identifier. -/
theorem C61_panic (E : Env) (hE : Ascii E) (p : Param) (d : Disk) :
    (∃ d', Run E p d (.panicked d')) ↔ ∃ kws d1 fs, DeclaresAll p.keyword kws ∧ OpenOk E p ∧ Opened E p d d1 ∧
      E.glob d1.files p.input = some fs ∧ (∃ f ∈ fs, ∃ src, d1.files (E.canon f) = some src) ∧
      ∃ n, Given kws p n ∧ ¬ TemplateName E n := by
  have hgn : ∀ kws, (¬ GoodNames E p kws) ↔ ∃ n, Given kws p n ∧ ¬ TemplateName E n := by
    intro kws
    unfold GoodNames
    constructor
    · intro h
      by_contra hh
      apply h
      intro n hn
      by_contra hg
      exact hh ⟨n, hn, hg⟩
    · rintro ⟨n, hn, hg⟩ h
      exact hg (h n hn)
  simp only [← C53_exact, ← openOk_iff, opened_iff]
  constructor
  · rintro ⟨d', h⟩
    cases h with
    | panic hk ho hg hl =>
      obtain ⟨h1, h2⟩ := (loop_none E hE _ _ _ _ _ _).mp hl
      exact ⟨_, _, _, hk, ho, rfl, hg, h1, (hgn _).mp h2⟩
  · rintro ⟨kws, _, fs, hk, ho, rfl, hg, h1, h2⟩
    exact ⟨_, .panic hk ho hg ((loop_none E hE _ _ _ _ _ _).mpr ⟨h1, (hgn _).mpr h2⟩)⟩

/-- **C61**: and then that is its only outcome; the output has been truncated. -/
theorem C61_only (E : Env) (p : Param) (d d' : Disk) (h : Run E p d (.panicked d')) (o : Outcome)
    (ho : Run E p d o) : o = .panicked d' ∧ Opened E p d d' := by
  rw [opened_iff]
  cases h with
  | panic hk h2 hg hl =>
    refine ⟨?_, rfl⟩
    cases ho with
    | keyword hk' => rw [hk] at hk'; cases hk'
    | openOutput _ h3 h4 => rw [h3, h4] at h2; cases h2
    | glob _ _ hg' => rw [hg] at hg'; cases hg'
    | panic => rfl
    | failed hk' _ hg' hl' => rw [hk] at hk'; cases hk'; rw [hg] at hg'; cases hg'; rw [hl] at hl'; cases hl'
    | written hk' _ hg' hl' => rw [hk] at hk'; cases hk'; rw [hg] at hg'; cases hg'; rw [hl] at hl'; cases hl'

/-! Examples: an environment whose parser takes the text of a file to be a message, with two files. -/

/-- See above. -/
def exEnv : Env where
  isPrint := fun _ => true
  letter := fun r => (65 ≤ r && r ≤ 90) || (97 ≤ r && r ≤ 122)
  digit := fun r => 48 ≤ r && r ≤ 57
  canon := id
  canOpen := true
  glob := fun _ _ => some [b!"a", b!"b"]
  parse := fun _ _ fn src =>
    if src = b!"bad" || !fn b!"T" then none else some [[.action 1 [[.ident b!"T", .str src]]]]
  now := b!"now"
  sink := fun text => (text, true)
  closes := true

/-- See above. -/
def exParam (kw : Str) : Param := ⟨b!"*", [], [], kw, b!"f, g", b!"o"⟩

/-- See above. -/
def exDisk (b : Option Str) : Disk :=
  { files := fun f => if f = b!"a" then some b!"hello" else if f = b!"b" then b else some b!"old"
    stdout := [] }

theorem exEnv_ascii : Ascii exEnv := by
  refine ⟨?_, ?_, by decide, by decide⟩
  · intro r h
    show ((decide (65 ≤ r) && decide (r ≤ 90)) || (decide (97 ≤ r) && decide (r ≤ 122))) = true
    simp only [Bool.or_eq_true, Bool.and_eq_true, decide_eq_true_eq]; omega
  · intro r h
    show (decide (48 ≤ r) && decide (r ≤ 57)) = true
    simp only [Bool.and_eq_true, decide_eq_true_eq]; omega

/-- A run with an unreadable file: the failure is returned and the output is left empty. -/
example : ∃ d', Run exEnv (exParam b!"T") (exDisk none)
    (.returned (some (.read b!"b")) [.read b!"b"] d') ∧ d'.files b!"o" = some [] := by
  have h : (loop exEnv (exParam b!"T") [⟨b!"T", 0, 1, 0⟩] ((exDisk none).truncate exEnv (exParam b!"T"))
      [b!"a", b!"b"] {} none).map (·.2) = some (some (.read b!"b"), [.read b!"b"]) := by decide +kernel
  rw [Option.map_eq_some_iff] at h
  obtain ⟨⟨ctx, e, pr⟩, h1, h2⟩ := h
  cases h2
  exact ⟨_, .failed (kws := [⟨b!"T", 0, 1, 0⟩]) (by decide +kernel) (by decide) rfl h1, by decide⟩

/-- A run without failures: the output is a POT with the two messages. -/
example : ∃ d' text, Run exEnv (exParam b!"T") (exDisk (some b!"bye")) (.returned none [] d') ∧
    d'.files b!"o" = some text := by
  have h : (loop exEnv (exParam b!"T") [⟨b!"T", 0, 1, 0⟩] ((exDisk (some b!"bye")).truncate exEnv (exParam b!"T"))
      [b!"a", b!"b"] {} none).map (fun r => (r.2, r.1.entries.vals)) = some ((none, []),
        [{ cmts := [b!"#: a:1"], id := b!"hello" }, { cmts := [b!"#: b:1"], id := b!"bye" }]) := by decide +kernel
  rw [Option.map_eq_some_iff] at h
  obtain ⟨⟨ctx, e, pr⟩, h1, h2⟩ := h
  simp only [Prod.mk.injEq] at h2
  obtain ⟨⟨rfl, rfl⟩, h2⟩ := h2
  obtain ⟨text, ht⟩ := C57_exists exEnv.isPrint (exParam b!"T") exEnv.now ctx
  exact ⟨_, text, .written (kws := [⟨b!"T", 0, 1, 0⟩]) (by decide +kernel) (by decide) rfl h1 ht, rfl⟩

/-- The keyword `t.T` makes the run panic, with the output truncated. -/
example : ∃ d', Run exEnv (exParam b!"t.T") (exDisk none) (.panicked d') ∧ d'.files b!"o" = some [] := by
  obtain ⟨d', h⟩ := (C61_panic exEnv exEnv_ascii (exParam b!"t.T") (exDisk none)).mpr
    ⟨[⟨b!"t.T", 0, 1, 0⟩], _, _, (C53_exact _ _).mp (by decide +kernel), .inr (.inr rfl),
      (opened_iff _ _ _ _).mpr rfl, rfl,
      ⟨b!"a", by simp, b!"hello", by decide⟩, b!"t.T", .inl ⟨⟨b!"t.T", 0, 1, 0⟩, by simp, rfl⟩,
      fun hn => absurd ((good_iff _ exEnv_ascii _).mpr hn) (by decide +kernel)⟩
  refine ⟨d', h, ?_⟩
  exact ((C61_only _ _ _ _ h _ h).2.2 (by unfold ToStdout; decide)).2.1

end Verif.Xt
