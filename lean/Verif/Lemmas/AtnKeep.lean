import Verif.Lemmas.AtnFirst
import Verif.Spec.AtnTold
/-! # What all steps of the recovering parser preserve -/
namespace Verif.Antlr
open Verif

/-- The steps preserve a property of the state. -/
structure Keeps (I : Rec → Prop) : Prop where
  eat : ∀ σ, Ok σ → σ.rest ≠ [] → I σ → I σ.matched.consume
  consume : ∀ σ, Ok σ → I σ → I σ.consume
  ahead : ∀ σ, Ok σ → I σ → I σ.fetch2
  report : ∀ σ msg, Ok σ → I σ → Phrase σ.display msg → I (σ.report msg)
  mark : ∀ σ i s, I σ → I { σ with lastIndex := i, lastStates := s }

/-- The property, in an admissible state. -/
def Keep (I : Rec → Prop) (σ : Rec) : Prop := Ok σ ∧ I σ

theorem consume_matched (σ : Rec) : σ.consume.matched = σ.matched.consume := by
  unfold Rec.consume
  have : σ.matched.rest = σ.rest := rfl
  rw [this]
  cases σ.rest <;> rfl

theorem report_rest (msg : Str) (σ : Rec) : (σ.report msg).rest = σ.rest := by
  unfold Rec.report
  split <;> rfl

theorem report_again (msg : Str) {σ : Rec} (h : σ.recovering = true) : σ.report msg = σ := by
  unfold Rec.report
  rw [if_pos h]

section
variable {I : Rec → Prop} (K : Keeps I)
include K

theorem keep_deletion {s : Nat} {chain : List Nat} {want : Plural.Want} (he : (expected parAtn s chain).2 = false)
    (hn : setText (expected parAtn s chain) = want.names) {σ : Rec} (h : Keep I σ) : Keep I (deletion parAtn s chain σ).1 := by
  refine ⟨(deletion_step _ _ _ _).ok h.1, ?_⟩
  unfold deletion
  dsimp only
  have ho := (fetch2_step σ).ok h.1
  have hi := K.ahead σ h.1 h.2
  split
  · rename_i hc
    have hne : σ.fetch2.rest ≠ [] := by
      intro hr
      rw [show σ.fetch2.la2 = none by unfold Rec.la2; rw [hr]; rfl] at hc
      rw [show (expected parAtn s chain).has none = (expected parAtn s chain).2 from rfl, he] at hc
      cases hc
    dsimp only
    rw [consume_matched]
    refine K.eat _ ((report_step _ _).ok ho) (by rw [report_rest]; exact hne) (K.report _ _ ho hi ⟨want, .inl ?_⟩)
    rw [hn]
  · exact hi

theorem keep_insertion {s : Nat} {chain : List Nat} {want : Plural.Want} (hw : want ≠ .operand)
    (hn : setText (expected parAtn s chain) = want.names) {σ : Rec} (h : Keep I σ) : Keep I (insertion parAtn s chain σ).1 := by
  refine ⟨(insertion_step _ _ _ _).ok h.1, ?_⟩
  unfold insertion
  split
  · exact h.2
  · split
    · exact K.report _ _ h.1 h.2 ⟨want, .inr (.inl ⟨hw, by rw [hn]⟩)⟩
    · exact h.2

theorem keep_matchTok {ty s : Nat} {chain : List Nat} {want : Plural.Want} (hw : want ≠ .operand) (he : (expected parAtn s chain).2 = false)
    (hn : setText (expected parAtn s chain) = want.names) {σ : Rec} (h : Keep I σ) : Keep I (matchTok parAtn ty s chain σ).1 := by
  unfold matchTok
  split
  · rename_i hla
    refine ⟨eat_ok.ok h.1, K.eat _ h.1 (la_nil (by rw [hla]; simp)) h.2⟩
  · have hd := keep_deletion K he hn h
    generalize deletion parAtn s chain σ = x at hd ⊢
    obtain ⟨σ1, ok⟩ := x
    dsimp only at hd ⊢
    split
    · exact ⟨(consume_step _).ok hd.1, K.consume _ hd.1 hd.2⟩
    · exact keep_insertion K hw hn hd

theorem keep_skipTo (chain : List Nat) : ∀ f σ, Keep I σ → Keep I (skipTo parAtn chain f σ)
  | 0, σ, h => h
  | f + 1, σ, h => by
    rw [skipTo]
    split
    · exact h
    · split
      · exact h
      · exact keep_skipTo chain f _ ⟨(consume_step _).ok h.1, K.consume _ h.1 h.2⟩

theorem keep_recover (s : Nat) (chain : List Nat) {σ : Rec} (h : Keep I σ) : Keep I (recover parAtn s chain σ) := by
  unfold recover
  dsimp only
  refine keep_skipTo K chain _ _ ?_
  have h1 : Keep I (if σ.lastIndex = some σ.index ∧ s ∈ σ.lastStates then σ.consume else σ) := by
    split
    · exact ⟨(consume_step _).ok h.1, K.consume _ h.1 h.2⟩
    · exact h
  exact ⟨⟨h1.1.head, h1.1.good⟩, K.mark _ _ _ h1.2⟩

theorem keep_mismatch {s : Nat} {chain : List Nat} {want : Plural.Want} (hn : setText (expected parAtn s chain) = want.names) {σ : Rec}
    (h : Keep I σ) : Keep I (mismatch parAtn s chain σ) :=
  keep_recover K _ _ ⟨(report_step _ _).ok h.1, K.report _ _ h.1 h.2 ⟨want, .inr (.inr (by rw [hn]))⟩⟩

end

theorem text_14 (chain : List Nat) : setText (expected parAtn 14 chain) = Plural.Want.operand.names := by rw [expected_14]; decide +kernel
theorem text_52 (chain : List Nat) : setText (expected parAtn 52 chain) = Plural.Want.colon.names := by rw [expected_52]; decide +kernel
theorem text_64 (chain : List Nat) : setText (expected parAtn 64 chain) = Plural.Want.paren.names := by rw [expected_64]; decide +kernel

/-- Without an error being recovered from, `Sync` lets only operands pass. -/
theorem sync_14_passes {chain : List Nat} {σ : Rec} (h : σ.recovering = false)
    (hs : (syncTok parAtn 14 chain σ).2 = true) : (next parAtn 14 []).has (syncTok parAtn 14 chain σ).1.la = true := by
  unfold syncTok at hs ⊢
  rw [if_neg (by rw [h]; decide)] at hs ⊢
  by_cases hn : (next parAtn 14 []).has σ.la = true
  · rw [if_pos (.inr hn)]
    exact hn
  · have hc : ¬((next parAtn 14 []).2 = true ∨ (next parAtn 14 []).has σ.la = true) := by
      rw [not_or]
      exact ⟨by rw [next_14]; decide, hn⟩
    rw [if_neg hc, if_pos (by decide +kernel)] at hs ⊢
    unfold deletion at hs ⊢
    dsimp only at hs ⊢
    by_cases hd : (expected parAtn 14 chain).has σ.fetch2.la2 = true
    · rw [if_pos hd]
      dsimp only
      rw [expected_14] at hd
      rw [next_14]
      obtain ⟨ty, hty⟩ : ∃ ty, σ.fetch2.la2 = some ty := by
        cases hla : σ.fetch2.la2 with
        | none => rw [hla] at hd; cases hd
        | some ty => exact ⟨ty, rfl⟩
      have key : ∀ msg, ((σ.fetch2.report msg).consume).matched.la = some ty := by
        intro msg
        unfold Rec.la2 at hty
        cases hr : σ.fetch2.rest with
        | nil => rw [hr] at hty; cases hty
        | cons e r =>
          rw [hr] at hty
          have hr' : (σ.fetch2.report msg).rest = e :: r := by rw [report_rest, hr]
          rw [consume_matched, eat_eq hr']
          unfold Rec.la
          dsimp only
          cases r with
          | nil => cases hty
          | cons e2 r2 =>
            cases e2 with
            | bad => cases hty
            | tok => exact hty
      rw [key, ← hty]
      exact hd
    · rw [if_neg hd] at hs
      cases hs

/-- What is preserved by `exp`. -/
def KeepE (I : Rec → Prop) (f : Nat) : Prop := ∀ p chain σ t σ', rExp parAtn f p chain σ = some (t, σ') → Keep I σ → Keep I σ'

/-- What is preserved by operands. -/
def KeepA (I : Rec → Prop) (f : Nat) : Prop := ∀ chain σ t σ', rAtom parAtn f chain σ = some (t, σ') → Keep I σ →
  Keep I σ' ∧ (t = none → σ' = σ ∧ (next parAtn 14 []).has σ.la = false)

/-- What is preserved by the loop. -/
def KeepL (I : Rec → Prop) (f : Nat) : Prop := ∀ s p chain l σ t σ', s ∈ [59, 61] → rLoop parAtn f s p chain l σ = some (t, σ') → Keep I σ →
  Keep I σ'

section
variable {I : Rec → Prop} (K : Keeps I)
include K

theorem keepE_succ {f : Nat} (ihA : KeepA I f) (ihL : KeepL I f) : KeepE I (f + 1) := by
  intro p chain σ t σ' h hk
  rw [rExp] at h
  have hs : Keep I (syncTok parAtn 14 chain σ).1 := by
    unfold syncTok
    split
    · exact hk
    · split
      · exact hk
      · split
        · exact keep_deletion K (by rw [expected_14]) (text_14 chain) hk
        · exact hk
  have hp := fun hr => sync_14_passes (chain := chain) (σ := σ) hr
  have hq : σ.recovering = true → (syncTok parAtn 14 chain σ).1.recovering = true := by
    intro hr
    unfold syncTok
    rw [if_pos hr]
    exact hr
  generalize syncTok parAtn 14 chain σ = x at h hs hp hq
  obtain ⟨σ1, ok⟩ := x
  dsimp only at hs hp hq
  cases ok with
  | false =>
    cases h
    exact keep_mismatch K (text_14 chain) hs
  | true =>
    dsimp only at h
    cases ha : rAtom parAtn f chain σ1 with
    | none => rw [ha] at h; cases h
    | some x =>
      obtain ⟨o, σ2⟩ := x
      rw [ha] at h
      obtain ⟨k1, k2⟩ := ihA _ _ _ _ ha hs
      cases o with
      | none =>
        cases h
        obtain ⟨rfl, hn⟩ := k2 rfl
        unfold noViable
        have hr : σ2.recovering = true := by
          cases hr : σ.recovering with
          | true => exact hq hr
          | false => rw [hp hr rfl] at hn; cases hn
        rw [report_again _ hr]
        exact keep_recover K _ _ k1
      | some a => exact ihL _ _ _ _ _ _ _ (by simp) h k1

theorem keepA_succ {f : Nat} (ihE : KeepE I f) : KeepA I (f + 1) := by
  intro chain σ t σ' h hk
  by_cases hn : (next parAtn 14 []).has σ.la = true
  · have hne : σ.la ≠ none := by
      intro h
      rw [h, next_14] at hn
      cases hn
    obtain ⟨ty, hla⟩ := Option.ne_none_iff_exists'.1 hne
    obtain ⟨w, l, c, r, hr⟩ := la_cons hla
    have hkc : Keep I σ.matched.consume := ⟨eat_ok.ok hk.1, K.eat _ hk.1 (by rw [hr]; simp) hk.2⟩
    have hgood : Good (.tok ty w) := hk.1.good (.tok ty w l c) (by rw [hr]; simp)
    have hcase : ty ∈ [1, 2, 3, 4, 5, 6] ∨ ty = 25 ∨ ty = 27 ∨ ty = 28 := by
      rw [hla, next_14] at hn
      simp [Tokens.has] at hn ⊢
      omega
    rcases hcase with hpre | rfl | hleaf
    · have hw : w = litText ty := by
        rcases good_cases hgood with ⟨-, -, h⟩ | ⟨rfl, -⟩
        · exact h
        · simp at hpre
      obtain ⟨o, ho, -, -⟩ := pre_class ty (by simp at hpre; omega) hpre
      rw [← hw] at ho
      rw [rAtom_pre hpre ho hr] at h
      obtain ⟨⟨t1, σ1⟩, h1, h2⟩ := Option.map_eq_some_iff.1 h
      cases h2
      exact ⟨ihE _ _ _ _ _ h1 hkc, fun hc => by cases hc⟩
    · rw [rAtom_paren hr] at h
      obtain ⟨⟨t1, σ1⟩, h1, h2⟩ := Option.map_eq_some_iff.1 h
      cases h2
      refine ⟨?_, fun hc => by cases hc⟩
      have h3 := ihE _ _ _ _ _ h1 hkc
      have h4 := keep_matchTok K (ty := 26) (s := 64) (chain := 9 :: chain) (want := .paren) (by decide) (by rw [expected_64]) (text_64 _) h3
      dsimp only
      split
      · exact h4
      · exact keep_mismatch K (text_64 _) h4
    · rw [rAtom_leaf hleaf hr] at h
      cases h
      exact ⟨hkc, fun hc => by cases hc⟩
  · have hn' : (next parAtn 14 []).has σ.la = false := by simpa using hn
    rw [rAtom_other hn'] at h
    cases h
    exact ⟨hk, fun _ => ⟨rfl, hn'⟩⟩

theorem keepL_succ {f : Nat} (ihE : KeepE I f) (ihL : KeepL I f) : KeepL I (f + 1) := by
  intro s p chain l σ t σ' hs h hk
  by_cases hcont : Continues p σ.la
  · obtain ⟨ty, i, hla, hi, hlev⟩ := hcont
    obtain ⟨w, ln, c, r, hr⟩ := la_cons hla
    have hty := (la_lt hk.1 hla).2
    have hcont : Continues p (some ty) := ⟨ty, i, rfl, hi, hlev⟩
    have hkc : Keep I σ.matched.consume := ⟨eat_ok.ok hk.1, K.eat _ hk.1 (by rw [hr]; simp) hk.2⟩
    rw [rLoop_go hs hr hcont hty hi] at h
    split at h
    · split at h
      · obtain ⟨⟨t1, σ1⟩, h1, h⟩ := Option.bind_eq_some_iff.1 h
        have k1 := ihE _ _ _ _ _ h1 hkc
        have k2 := keep_matchTok K (ty := 24) (s := 52) (chain := chain) (want := .colon) (by decide) (by rw [expected_52]) (text_52 _) k1
        dsimp only at h
        split at h
        · obtain ⟨⟨t2, σ2⟩, h2, h⟩ := Option.bind_eq_some_iff.1 h
          exact ihL _ _ _ _ _ _ _ (by simp) h (ihE _ _ _ _ _ h2 k2)
        · cases h
          exact keep_mismatch K (text_52 _) k2
      · cases h
    · split at h
      · split at h
        · obtain ⟨o, -, h⟩ := Option.bind_eq_some_iff.1 h
          exact ihL _ _ _ _ _ _ _ (by simp) h hkc
        · cases h
      · obtain ⟨x, -, h⟩ := Option.bind_eq_some_iff.1 h
        split at h
        · obtain ⟨o, -, h⟩ := Option.bind_eq_some_iff.1 h
          obtain ⟨⟨t2, σ2⟩, h2, h⟩ := Option.bind_eq_some_iff.1 h
          exact ihL _ _ _ _ _ _ _ (by simp) h (ihE _ _ _ _ _ h2 hkc)
        · cases h
  · rw [rLoop_stop hs hcont] at h
    cases h
    exact hk

theorem keep_all : ∀ f, KeepE I f ∧ KeepA I f ∧ KeepL I f
  | 0 => ⟨fun _ _ _ _ _ h => (by rw [rExp] at h; cases h), fun _ _ _ _ h => (by rw [rAtom] at h; cases h),
    fun _ _ _ _ _ _ _ _ h => (by rw [rLoop] at h; cases h)⟩
  | f + 1 =>
    have ⟨h1, h2, h3⟩ := keep_all f
    ⟨keepE_succ K h2 h3, keepA_succ K h1, keepL_succ K h1 h3⟩

end

end Verif.Antlr
