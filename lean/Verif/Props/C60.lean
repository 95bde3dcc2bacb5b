import Verif.Model.Errorf
import Verif.Spec.Errors
import Verif.Lemmas.Bytes
/-!
# C60: wrapped errors keep their causes
-/
namespace Verif.Errors
open Verif

variable {α : Type}

mutual
theorem is_cause (t : Nat) (e : Err) : is t e = true ↔ Cause t e := by
  match e with
  | .node id causes =>
    rw [is, Bool.or_eq_true, isAny_cause t causes, beq_iff_eq]
    constructor
    · rintro (rfl | ⟨c, hc, h⟩)
      · exact .self _
      · exact .step hc h
    · intro h
      cases h with
      | self => exact .inl rfl
      | step hc h => exact .inr ⟨_, hc, h⟩
theorem isAny_cause (t : Nat) (es : List Err) : isAny t es = true ↔ ∃ e ∈ es, Cause t e := by
  match es with
  | [] => simp [isAny]
  | e :: es =>
    rw [isAny, Bool.or_eq_true, is_cause t e, isAny_cause t es]
    simp
end

theorem letter_facts (c : UInt8) (h : Letter c) : c ≠ 35 ∧ c ≠ 48 ∧ c ≠ 43 ∧ c ≠ 45 ∧ c ≠ 32 ∧ c ≠ 91 ∧ c ≠ 42 ∧
    c ≠ 46 ∧ c ≠ 37 ∧ c < 0x80 ∧ Num.isDigit c = false ∧ Utf8.encode c.toNat = [c] ∧ c.toNat ≠ 37 := by
  revert h; unfold Letter; revert c; apply u8; decide +kernel

theorem directive_verb (E : Fmt.Env α) (args : List α) (st : Fmt.St) (c : UInt8) (s : Str) (hc : Letter c)
    (a : α) (ha : args[st.argNum]? = some a) : Fmt.directive E args st (c :: s) =
      ([.arg {} [c] a], { st with good := true, after := false, argNum := st.argNum + 1 }, s) := by
  obtain ⟨h1, h2, h3, h4, h5, h6, h7, h8, h9, h10, h11, h12, h13⟩ := letter_facts c hc
  have ha' : args[st.argNum]? = some a := ha
  have e1 : Fmt.flagsLoop {} (c :: s) = ({}, c :: s) := by simp [Fmt.flagsLoop, h1, h2, h3, h4, h5]
  have e2 : ∀ st' : Fmt.St, Fmt.argNumber args.length st' (c :: s) = ({ st' with after := false }, c :: s) := by
    intro st'
    unfold Fmt.argNumber
    split
    · rename_i t ht; simp at ht; exact absurd ht.1 h6
    · rfl
  have e3 : ∀ (o : Fmt.Opts) (st' : Fmt.St), st'.after = false → o.wid = none →
      Fmt.widthPart E args o st' (c :: s) = ([], o, st', c :: s) := by
    intro o st' hst ho
    unfold Fmt.widthPart
    split
    · rename_i t ht; simp at ht; exact absurd ht.1 h7
    · simp [Fmt.parsenum, h11, hst, ← ho]
  have e4 : ∀ (o : Fmt.Opts) (st' : Fmt.St), Fmt.precPart E args o st' (c :: s) = ([], o, st', c :: s) := by
    intro o st'
    unfold Fmt.precPart
    split
    · rename_i t ht; simp at ht; exact absurd ht.1 h8
    · rfl
  unfold Fmt.directive
  rw [e1]; dsimp only
  rw [e2]; dsimp only
  rw [e3 _ _ rfl rfl]; dsimp only
  rw [e4]; dsimp only
  simp only [Bool.false_eq_true, if_false, e2]
  simp only [Fmt.verbPart, Utf8.decode, h10, if_true, h13, if_false, Bool.not_true, Bool.false_eq_true, ha',
    h12, List.drop_succ_cons, List.drop_zero, List.append_nil, List.nil_append]

theorem directive_percent (E : Fmt.Env α) (args : List α) (st : Fmt.St) (s : Str) :
    Fmt.directive E args st (37 :: s) = ([.lit 37], { st with good := true, after := false }, s) := by
  simp [Fmt.directive, Fmt.flagsLoop, Fmt.argNumber, Fmt.widthPart, Fmt.parsenum, Fmt.precPart, Fmt.verbPart,
    Utf8.decode, Num.isDigit]

/-- The numbers of the `w` verbs, the first verb having number `n`. -/
def wIndices (n : Nat) : Str → List Nat
  | [] => []
  | v :: vs => if v = 119 then n :: wIndices (n + 1) vs else wIndices (n + 1) vs

/-- The loop on a plain format. -/
theorem run_plain (E : Fmt.Env (α × Nat)) (args : List α) (f vs : Str) (h : Directives f vs) (st : Fmt.St)
    (hlen : st.argNum + vs.length ≤ args.length) (fuel : Nat) (hf : f.length ≤ fuel) :
    ((Fmt.run E args.zipIdx fuel st f).1.filterMap wrapIndex) = wIndices st.argNum vs ∧
    (Fmt.run E args.zipIdx fuel st f).2.reordered = st.reordered := by
  induction h generalizing st fuel with
  | nil => cases fuel <;> simp [Fmt.run, wIndices]
  | @lit c s vs hc _ ih =>
    cases fuel with
    | zero => simp at hf
    | succ fuel =>
      simp only [Fmt.run, if_neg hc]
      obtain ⟨h1, h2⟩ := ih st hlen fuel (by simpa using hf)
      refine ⟨?_, h2⟩
      rw [List.filterMap_cons]
      simpa [wrapIndex] using h1
  | @percent s vs _ ih =>
    cases fuel with
    | zero => simp at hf
    | succ fuel =>
      simp only [Fmt.run, if_true, directive_percent]
      obtain ⟨h1, h2⟩ := ih { st with good := true, after := false } hlen fuel (by simp at hf; omega)
      refine ⟨?_, h2⟩
      rw [List.filterMap_append, h1]
      simp [List.filterMap_cons, wrapIndex]
  | @verb c s vs hc _ ih =>
    cases fuel with
    | zero => simp at hf
    | succ fuel =>
      have hlt : st.argNum < args.length := by simp at hlen; omega
      have ha : args.zipIdx[st.argNum]? = some (args[st.argNum], st.argNum) := by
        simp [List.getElem?_zipIdx, List.getElem?_eq_getElem hlt]
      simp only [Fmt.run, if_true, directive_verb E args.zipIdx st c s hc _ ha]
      obtain ⟨h1, h2⟩ := ih { st with good := true, after := false, argNum := st.argNum + 1 }
        (by simp at hlen ⊢; omega) fuel (by simp at hf; omega)
      refine ⟨?_, h2⟩
      rw [List.filterMap_append, h1]
      by_cases hw : c = 119
      · subst hw; simp [wIndices, wrapIndex]
      · simp [wIndices, wrapIndex, hw]

theorem wIndices_lt (n : Nat) (vs : Str) : (∀ i ∈ wIndices n vs, n ≤ i) ∧ (wIndices n vs).Pairwise (· < ·) := by
  induction vs generalizing n with
  | nil => simp [wIndices]
  | cons v vs ih =>
    obtain ⟨h1, h2⟩ := ih (n + 1)
    unfold wIndices
    split
    · refine ⟨?_, List.pairwise_cons.mpr ⟨fun i hi => h1 i hi, h2⟩⟩
      intro i hi
      rcases List.mem_cons.mp hi with rfl | hi
      · exact Nat.le_refl _
      · exact Nat.le_of_succ_le (h1 i hi)
    · exact ⟨fun i hi => Nat.le_of_succ_le (h1 i hi), h2⟩

theorem skipEqual_id (l : List Nat) (h : l.Pairwise (· < ·)) : skipEqual l = l := by
  induction l with
  | nil => rfl
  | cons i l ih =>
    cases l with
    | nil => rfl
    | cons j l =>
      have hij : i ≠ j := by
        have := (List.pairwise_cons.mp h).1 j (by simp)
        omega
      rw [skipEqual, if_neg hij, ih (List.pairwise_cons.mp h).2]

theorem wErrors_eq (asErr : α → Option Err) (vs : Str) (pre args : List α) (h : vs.length ≤ args.length) :
    (wIndices pre.length vs).filterMap (fun i => (pre ++ args)[i]?.bind asErr) = wErrors asErr vs args := by
  induction vs generalizing pre args with
  | nil => simp [wIndices, wErrors]
  | cons v vs ih =>
    cases args with
    | nil => simp at h
    | cons a args =>
      have := ih (pre ++ [a]) args (by simpa using h)
      simp only [List.length_append, List.length_cons, List.length_nil, Nat.zero_add, List.append_assoc,
        List.cons_append, List.nil_append] at this
      unfold wIndices wErrors
      split
      · rw [List.filterMap_cons]
        simp only [List.getElem?_append_right (Nat.le_refl _), Nat.sub_self, List.getElem?_cons_zero,
          Option.bind_some]
        rw [this]
        cases asErr a <;> simp
      · rw [this]; simp

/-- `fmt.Errorf` with a plain format and enough arguments wraps the errors printed with `w`. -/
theorem C60_errorf (E : Fmt.Env α) (asErr : α → Option Err) (f vs : Str) (h : Directives f vs) (args : List α)
    (hlen : vs.length ≤ args.length) : fmtErrorf E asErr f args = .node fresh (wErrors asErr vs args) := by
  obtain ⟨h1, h2⟩ := run_plain (numbered E) args f vs h Fmt.st0 (by simpa [Fmt.st0] using hlen) (f.length + 1)
    (Nat.le_succ _)
  have hw : wrappedErrs E f args = (wIndices 0 vs, false) := by
    unfold wrappedErrs Fmt.pieces
    exact Prod.ext h1 h2
  have he := wErrors_eq asErr vs [] args hlen
  simp only [List.length_nil, List.nil_append] at he
  have hs := skipEqual_id _ (wIndices_lt 0 vs).2
  unfold fmtErrorf
  rw [hw]
  dsimp only
  rw [← he]
  split
  · rename_i hn; rw [hn]; rfl
  · rename_i i hn
    rw [hn]
    simp only [List.filterMap_cons, List.filterMap_nil]
    cases args[i]?.bind asErr <;> simp
  · simp only [Bool.false_eq_true, if_false, hs]

theorem directives_append (f g vs ws : Str) (hf : Directives f vs) (hg : Directives g ws) :
    Directives (f ++ g) (vs ++ ws) := by
  induction hf with
  | nil => exact hg
  | lit hc _ ih => exact .lit hc ih
  | percent _ ih => exact .percent ih
  | verb hc _ ih => exact .verb hc ih

theorem directives_wrap : Directives b!": %w" b!"w" :=
  .lit (by decide) (.lit (by decide) (.verb (by unfold Letter; decide) .nil))

theorem wErrors_append (asErr : α → Option Err) (vs ws : Str) (as bs : List α) (h : vs.length = as.length) :
    wErrors asErr (vs ++ ws) (as ++ bs) = wErrors asErr vs as ++ wErrors asErr ws bs := by
  induction vs generalizing as with
  | nil => cases as with
    | nil => simp [wErrors]
    | cons => simp at h
  | cons v vs ih =>
    cases as with
    | nil => simp at h
    | cons a as => simp only [List.cons_append, wErrors, ih as (by simpa using h), List.append_assoc]

theorem wErrors_none (asErr : α → Option Err) (vs : Str) (as : List α) (h : 119 ∉ vs) : wErrors asErr vs as = [] := by
  induction vs generalizing as with
  | nil => simp [wErrors]
  | cons v vs ih =>
    simp only [List.mem_cons, not_or] at h
    cases as with
    | nil => simp [wErrors]
    | cons a as => simp [wErrors, Ne.symm h.1, ih as h.2]

/-- **C60**: `Wrapf` with a plain format for exactly its arguments wraps the error, besides the errors
the format itself prints with `w`. -/
theorem C60_wrapf (E : Fmt.Env α) (asErr : α → Option Err) (f vs : Str) (h : Directives f vs) (args : List α)
    (hlen : vs.length = args.length) (err : α) :
    wrapfArgs E asErr err f args = .node fresh (wErrors asErr vs args ++ (asErr err).toList) := by
  unfold wrapfArgs
  rw [C60_errorf E asErr _ _ (directives_append _ _ _ _ h directives_wrap) _ (by simp [hlen]),
    wErrors_append _ _ _ _ _ hlen]
  simp [wErrors]

/-- **C60**: `errors.Is` on what `Wrapf` returns finds exactly the causes of the wrapped error. -/
theorem C60_wrapf_is (E : Fmt.Env α) (asErr : α → Option Err) (f vs : Str) (h : Directives f vs) (hw : 119 ∉ vs)
    (args : List α) (hlen : vs.length = args.length) (err : α) (e : Err) (he : asErr err = some e) (t : Nat)
    (ht : t ≠ fresh) : is t (wrapfArgs E asErr err f args) = true ↔ Cause t e := by
  rw [C60_wrapf E asErr f vs h args hlen, wErrors_none _ _ _ hw, he, is_cause]
  constructor
  · intro h
    cases h with
    | self => exact absurd rfl ht
    | step hc h => simp at hc; exact hc ▸ h
  · exact fun h => .step (by simp) h

/-- **C60**: `errors.Is` on what `WithSecondaryError` returns finds exactly the causes of the two errors. -/
theorem C60_secondary_is (E : Fmt.Env α) (asErr : α → Option Err) (a b : α) (e e' : Err) (ha : asErr a = some e)
    (hb : asErr b = some e') (t : Nat) (ht : t ≠ fresh) :
    is t (withSecondaryArgs E asErr a b) = true ↔ Cause t e ∨ Cause t e' := by
  have hd : Directives b!"%w: %w" b!"ww" := .verb (by unfold Letter; decide) directives_wrap
  unfold withSecondaryArgs
  rw [C60_errorf E asErr _ _ hd _ (by simp), is_cause]
  simp only [wErrors, if_true, ha, hb, Option.toList, List.cons_append, List.nil_append]
  constructor
  · intro h
    cases h with
    | self => exact absurd rfl ht
    | step hc h =>
      simp only [List.mem_cons, List.not_mem_nil, or_false] at hc
      rcases hc with rfl | rfl
      · exact .inl h
      · exact .inr h
  · rintro (h | h)
    · exact .step (by simp) h
    · exact .step (by simp) h

/-- **C60**: whatever the format, nothing is found that is not a cause of some argument. -/
theorem C60_only_causes (E : Fmt.Env α) (asErr : α → Option Err) (f : Str) (args : List α) (t : Nat)
    (ht : t ≠ fresh) (h : is t (fmtErrorf E asErr f args) = true) :
    ∃ a ∈ args, ∃ e, asErr a = some e ∧ Cause t e := by
  have key : ∀ (l : List Nat) (c : Err), c ∈ l.filterMap (fun i => args[i]?.bind asErr) →
      ∃ a ∈ args, asErr a = some c := by
    intro l c hc
    obtain ⟨i, -, hi⟩ := List.mem_filterMap.mp hc
    obtain ⟨a, ha, hac⟩ := Option.bind_eq_some_iff.mp hi
    exact ⟨a, List.mem_of_getElem? ha, hac⟩
  have fin : ∀ causes : List Err, (∀ c ∈ causes, ∃ a ∈ args, asErr a = some c) →
      is t (.node fresh causes) = true → ∃ a ∈ args, ∃ e, asErr a = some e ∧ Cause t e := by
    intro causes hc h
    rw [is_cause] at h
    cases h with
    | self => exact absurd rfl ht
    | step hm h =>
      obtain ⟨a, ha, hac⟩ := hc _ hm
      exact ⟨a, ha, _, hac, h⟩
  unfold fmtErrorf at h
  dsimp only at h
  split at h
  · exact fin _ (by simp) h
  · rename_i i _
    refine fin _ ?_ h
    intro c hc
    refine key [i] c ?_
    simp only [List.filterMap_cons, List.filterMap_nil]
    cases hb : args[i]?.bind asErr with
    | none => rw [hb] at hc; simp at hc
    | some x => rw [hb] at hc; simpa using hc
  · exact fin _ (key _) h

/-- The piece with another argument. -/
def onArg {β : Type} (g : α → β) : Fmt.Piece α → Fmt.Piece β
  | .lit c => .lit c
  | .arg o v a => .arg o v (g a)
  | .missing v => .missing v
  | .badIndex v => .badIndex v
  | .noVerb => .noVerb
  | .badWidth => .badWidth
  | .badPrec => .badPrec

section
variable {β : Type} (g : α → β) (E : Fmt.Env α) (E' : Fmt.Env β) (hi : ∀ a, E'.asInt (g a) = E.asInt a)
include hi

theorem intFromArg_on (args : List α) (st : Fmt.St) : Fmt.intFromArg E' (args.map g) st = Fmt.intFromArg E args st := by
  unfold Fmt.intFromArg
  rw [List.getElem?_map]
  cases args[st.argNum]? with
  | none => rfl
  | some a => simp [hi]

theorem widthPart_on (args : List α) (o : Fmt.Opts) (st : Fmt.St) (s : Str) :
    Fmt.widthPart E' (args.map g) o st s =
      ((Fmt.widthPart E args o st s).1.map (onArg g), (Fmt.widthPart E args o st s).2) := by
  unfold Fmt.widthPart
  split
  · rw [intFromArg_on g E E' hi]
    dsimp only
    split
    · rfl
    · split <;> rfl
  · rfl

theorem precPart_on (args : List α) (o : Fmt.Opts) (st : Fmt.St) (s : Str) :
    Fmt.precPart E' (args.map g) o st s =
      ((Fmt.precPart E args o st s).1.map (onArg g), (Fmt.precPart E args o st s).2) := by
  unfold Fmt.precPart
  split
  · rw [List.length_map]
    dsimp only
    split
    · rw [intFromArg_on g E E' hi]
      split <;> rfl
    · rfl
  · rfl

omit hi in
theorem verbPart_on (args : List α) (o : Fmt.Opts) (st : Fmt.St) (s : Str) :
    Fmt.verbPart (args.map g) o st s = ((Fmt.verbPart args o st s).1.map (onArg g), (Fmt.verbPart args o st s).2) := by
  unfold Fmt.verbPart
  split
  · rfl
  · dsimp only
    split
    · rfl
    · split
      · rfl
      · rw [List.getElem?_map]
        cases args[st.argNum]? <;> rfl

theorem directive_on (args : List α) (st : Fmt.St) (s : Str) :
    Fmt.directive E' (args.map g) st s = ((Fmt.directive E args st s).1.map (onArg g), (Fmt.directive E args st s).2) := by
  unfold Fmt.directive
  simp only [List.length_map, widthPart_on g E E' hi, precPart_on g E E' hi, verbPart_on g, List.map_append]

theorem run_on (args : List α) (n : Nat) (st : Fmt.St) (s : Str) :
    Fmt.run E' (args.map g) n st s = ((Fmt.run E args n st s).1.map (onArg g), (Fmt.run E args n st s).2) := by
  induction n generalizing st s with
  | zero => rfl
  | succ n ih =>
    cases s with
    | nil => rfl
    | cons c s =>
      simp only [Fmt.run]
      split
      · simp only [directive_on g E E' hi, ih, List.map_append]
      · simp only [ih, List.map_cons, onArg]

end

theorem mem_skipEqual (l : List Nat) (i : Nat) : i ∈ skipEqual l ↔ i ∈ l := by
  induction l using skipEqual.induct with
  | case1 => rfl
  | case2 => rfl
  | case3 j l ih => rw [skipEqual, if_pos rfl, ih]; simp
  | case4 j k l h ih => rw [skipEqual, if_neg h, List.mem_cons, ih]; simp

/-- Every argument that is printed is one of the list. -/
theorem run_mem (E : Fmt.Env α) (args : List α) (n : Nat) (st : Fmt.St) (s : Str) (o : Fmt.Opts) (v : Str) (a : α)
    (h : .arg o v a ∈ (Fmt.run E args n st s).1) : a ∈ args := by
  have hw : ∀ o' st s, Fmt.Piece.arg o v a ∉ (Fmt.widthPart E args o' st s).1 := by
    intro o' st s
    unfold Fmt.widthPart
    split
    · dsimp only
      split
      · simp
      · split <;> simp
    · simp
  have hp : ∀ o' st s, Fmt.Piece.arg o v a ∉ (Fmt.precPart E args o' st s).1 := by
    intro o' st s
    unfold Fmt.precPart
    split
    · dsimp only
      split
      · split <;> simp
      · simp
    · simp
  have hv : ∀ o' st s, Fmt.Piece.arg o v a ∈ (Fmt.verbPart args o' st s).1 → a ∈ args := by
    intro o' st s h
    unfold Fmt.verbPart at h
    split at h
    · simp at h
    · dsimp only at h
      split at h
      · simp at h
      · split at h
        · simp at h
        · split at h
          · simp at h
          · rename_i x hx
            simp only [List.mem_singleton, Fmt.Piece.arg.injEq] at h
            rw [h.2.2]
            exact List.mem_of_getElem? hx
  have hd : ∀ st s, Fmt.Piece.arg o v a ∈ (Fmt.directive E args st s).1 → a ∈ args := by
    intro st s h
    unfold Fmt.directive at h
    simp only [List.mem_append] at h
    rcases h with (h | h) | h
    · exact absurd h (hw _ _ _)
    · exact absurd h (hp _ _ _)
    · exact hv _ _ _ h
  induction n generalizing st s with
  | zero => simp [Fmt.run] at h
  | succ n ih =>
    cases s with
    | nil => simp [Fmt.run] at h
    | cons c s =>
      simp only [Fmt.run] at h
      split at h
      · rcases List.mem_append.1 h with h | h
        · exact hd _ _ h
        · exact ih _ _ h
      · rcases List.mem_cons.1 h with h | h
        · cases h
        · exact ih _ _ h

/-- **C60**: whatever the format, what is found are exactly the causes of the arguments that `Sprintf` prints with the verb `w`. -/
theorem C60_exact (E : Fmt.Env α) (asErr : α → Option Err) (f : Str) (args : List α) (t : Nat) (ht : t ≠ fresh) :
    is t (fmtErrorf E asErr f args) = true ↔
      ∃ o a e, .arg o b!"w" a ∈ (Fmt.pieces E f args).1 ∧ asErr a = some e ∧ Cause t e := by
  have hz : args.zipIdx.map Prod.fst = args := by simp
  have hrun := run_on Prod.fst (numbered E) E (fun _ => rfl) args.zipIdx (f.length + 1) Fmt.st0 f
  rw [hz] at hrun
  have hidx : ∀ i, i ∈ (wrappedErrs E f args).1 ↔
      ∃ o a, Fmt.Piece.arg o b!"w" (a, i) ∈ (Fmt.pieces (numbered E) f args.zipIdx).1 := by
    intro i
    rw [wrappedErrs]
    dsimp only
    rw [List.mem_filterMap]
    constructor
    · rintro ⟨p, hp, h⟩
      cases p with
      | arg o v a =>
        simp only [wrapIndex] at h
        split at h
        · rename_i hv
          cases h
          exact ⟨o, a.1, hv ▸ hp⟩
        · cases h
      | _ => cases h
    · rintro ⟨o, a, h⟩
      exact ⟨_, h, by simp [wrapIndex]⟩
  have hnum : ∀ o v a i, Fmt.Piece.arg o v (a, i) ∈ (Fmt.pieces (numbered E) f args.zipIdx).1 → args[i]? = some a := by
    intro o v a i h
    have := run_mem _ _ _ _ _ _ _ _ h
    exact List.mem_zipIdx_iff_getElem?.1 this
  have key : ∀ e, (∃ i ∈ (wrappedErrs E f args).1, args[i]?.bind asErr = some e) ↔
      ∃ o a, .arg o b!"w" a ∈ (Fmt.pieces E f args).1 ∧ asErr a = some e := by
    intro e
    constructor
    · rintro ⟨i, hi, he⟩
      obtain ⟨o, a, hp⟩ := (hidx i).1 hi
      rw [hnum _ _ _ _ hp] at he
      refine ⟨o, a, ?_, he⟩
      rw [Fmt.pieces, hrun]
      exact List.mem_map.2 ⟨_, hp, rfl⟩
    · rintro ⟨o, a, hp, he⟩
      rw [Fmt.pieces, hrun] at hp
      obtain ⟨p, hq, h⟩ := List.mem_map.1 hp
      cases p with
      | arg o' v' x =>
        simp only [onArg, Fmt.Piece.arg.injEq] at h
        obtain ⟨rfl, rfl, rfl⟩ := h
        exact ⟨x.2, (hidx _).2 ⟨_, _, hq⟩, by rw [hnum _ _ _ _ hq]; exact he⟩
      | _ => cases h
  have hcs : ∃ cs, fmtErrorf E asErr f args = .node fresh cs ∧
      ∀ e, e ∈ cs ↔ ∃ i ∈ (wrappedErrs E f args).1, args[i]?.bind asErr = some e := by
    unfold fmtErrorf
    dsimp only
    split
    · rename_i h
      exact ⟨_, rfl, fun e => by rw [h]; simp⟩
    · rename_i i h
      exact ⟨_, rfl, fun e => by rw [h]; simp⟩
    · refine ⟨_, rfl, fun e => ?_⟩
      rw [List.mem_filterMap]
      refine exists_congr fun i => and_congr_left fun _ => ?_
      rw [mem_skipEqual]
      split
      · exact List.mem_mergeSort
      · rfl
  obtain ⟨cs, h, hc⟩ := hcs
  rw [h, is_cause]
  constructor
  · intro hcause
    cases hcause with
    | self => exact absurd rfl ht
    | step hm hr =>
      obtain ⟨o, a, hp, he⟩ := (key _).1 ((hc _).1 hm)
      exact ⟨o, a, _, hp, he, hr⟩
  · rintro ⟨o, a, e, hp, he, hr⟩
    exact .step ((hc e).2 ((key e).2 ⟨o, a, hp, he⟩)) hr

/-- A width that is an argument, and a `w` behind it: the error is the second argument. -/
example : Fmt.Piece.arg { wid := some 5 } b!"w" 7 ∈
    (Fmt.pieces ⟨fun _ _ _ => [], fun a => some a, (0 : Int), fun _ => []⟩ b!"%*w" [5, 7]).1 := by decide +kernel

/-- The formats of the calls of `Wrapf` in package translator, with their verbs (translator/po.go:28,107,
134,149,165,180,195,207, translator/mo.go:98,113,125,133,141,148,158,163,169,174). -/
def wrapFormats : List (Str × Str) :=
  [(b!"read po file failed", b!""),
   (b!"read entry failed", b!""),
   (b!"unquote msgctxt failed|line %d: %s", b!"ds"),
   (b!"unquote msgid_plural failed|line %d: %s", b!"ds"),
   (b!"unquote msgid failed|line %d: %s", b!"ds"),
   (b!"unquote %s failed|line %d: %s", b!"sds"),
   (b!"unquote msgstr failed|line %d: %s", b!"ds"),
   (b!"failed to read magic number", b!""),
   (b!"failed to read mo header", b!""),
   (b!"failed to seek to O(message id table): %d", b!"d"),
   (b!"failed to read msg_id[%d] length & offset", b!"d"),
   (b!"failed to seek to O(message string table): %d", b!"d"),
   (b!"failed to read msg_str[%d] length & offset", b!"d"),
   (b!"failed to seek to msg_id[%d]: %d", b!"dd"),
   (b!"failed to read msg_id[%d]", b!"d"),
   (b!"failed to seek to msg_str[%d]: %d", b!"dd"),
   (b!"failed to read msg_str[%d]", b!"d")]

/-- The verbs of a plain format. -/
def verbsOf : Str → Option Str
  | [] => some []
  | 37 :: 37 :: s => verbsOf s
  | 37 :: c :: s =>
    if (65 ≤ c ∧ c ≤ 90) ∨ (97 ≤ c ∧ c ≤ 122) then (verbsOf s).map (c :: ·) else none
  | 37 :: [] => none
  | _ :: s => verbsOf s

theorem verbsOf_directives (f vs : Str) (h : verbsOf f = some vs) : Directives f vs := by
  induction f using verbsOf.induct generalizing vs with
  | case1 => simp [verbsOf] at h; subst h; exact .nil
  | case2 s ih => rw [verbsOf] at h; exact .percent (ih _ h)
  | case3 c s hne hl ih =>
    rw [verbsOf] at h
    · rw [if_pos hl, Option.map_eq_some_iff] at h
      obtain ⟨ws, hw, rfl⟩ := h
      exact .verb hl (ih _ hw)
    · exact hne
  | case4 c s hne hl =>
    rw [verbsOf] at h
    · rw [if_neg hl] at h; cases h
    · exact hne
  | case5 => simp [verbsOf] at h
  | case6 c s h1 h2 h3 ih =>
    rw [verbsOf] at h
    · refine .lit ?_ (ih _ h)
      rintro rfl
      cases s with
      | nil => exact h3 rfl rfl
      | cons d s => exact h2 d s rfl rfl
    · exact h1
    · exact h2
    · exact h3

/-- **C60**: at each of these calls the error is kept, so the simple model of `Wrapf` used for the
readers agrees with the code. -/
theorem C60_call_sites (E : Fmt.Env α) (asErr : α → Option Err) (f vs : Str) (h : (f, vs) ∈ wrapFormats)
    (args : List α) (hlen : args.length = vs.length) (err : α) (e : Err) (he : asErr err = some e) :
    wrapfArgs E asErr err f args = wrapf e := by
  have hall : ∀ p ∈ wrapFormats, verbsOf p.1 = some p.2 ∧ 119 ∉ p.2 := by decide +kernel
  obtain ⟨h1, h2⟩ := hall _ h
  rw [C60_wrapf E asErr f vs (verbsOf_directives _ _ h1) args hlen.symm, wErrors_none _ _ _ h2, he]
  rfl

/-- The claim of C60 for every format. -/
def C60_full : Prop := ∀ (E : Fmt.Env (Option Err)) (f : Str) (args : List (Option Err)) (e : Err) (t : Nat),
  Cause t e → is t (wrapfArgs E id (some e) f args) = true

/-- A formatter for the examples. -/
def exFmt : Fmt.Env (Option Err) := ⟨fun _ _ _ => [], fun _ => none, none, fun _ => []⟩

/-- `Wrapf(e, "text", x)`: the `%w` gets `x`, and the error is lost. -/
theorem C60_unused_argument : is eof (wrapfArgs exFmt id (some (sentinel eof)) b!"text" [none]) = false := by
  decide +kernel

/-- `Wrapf(e, "100%")`: the error is printed with the verb `:`, and lost. -/
theorem C60_stray_percent : is eof (wrapfArgs exFmt id (some (sentinel eof)) b!"100%" []) = false := by
  decide +kernel

theorem C60_false : ¬ C60_full := by
  intro h
  have := h exFmt b!"text" [none] (sentinel eof) eof (.self _)
  rw [C60_unused_argument] at this
  cases this

/-- Example: a cause at depth two is found through `Wrapf` with arguments. -/
example : is eof (wrapfArgs exFmt id (some (withSecondary (sentinel syntaxErr) (sentinel eof)))
    b!"unquote %s failed|line %d: %s" [none, none, none]) = true :=
  (C60_wrapf_is exFmt id b!"unquote %s failed|line %d: %s" b!"sds"
    (verbsOf_directives _ _ (by decide +kernel)) (by decide) [none, none, none] rfl _ _ rfl eof (by decide)).mpr
    (.step (c := sentinel eof) (by simp) (.self _))

end Verif.Errors
