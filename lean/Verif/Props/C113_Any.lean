import Verif.Props.C113
import Verif.Props.C115
/-!
# C113: how long the error is if the evaluation of the expression fails
-/
namespace Verif.Antlr
open Verif

/-- The literals of the tree are not longer. -/
def Tree.Brief (M : Nat) : Tree → Prop
  | .hole => True
  | .n => True
  | .int ds => ds.length ≤ M
  | .paren e => e.Brief M
  | .post _ e => e.Brief M
  | .pre _ e => e.Brief M
  | .bin _ l r => l.Brief M ∧ r.Brief M
  | .tern c a b => c.Brief M ∧ a.Brief M ∧ b.Brief M
  | .cut c a => c.Brief M ∧ a.Brief M

/-- What is left to be read has no longer items. -/
def Small (M : Nat) (σ : Rec) : Prop := ∀ e ∈ σ.rest, e.chars.length ≤ M

theorem small_consume {M : Nat} {σ : Rec} (h : Small M σ) : Small M σ.consume := by
  unfold Rec.consume
  split
  · exact h
  · rename_i hr
    intro e he
    refine h e ?_
    rw [hr]
    exact List.mem_cons_of_mem _ ((settle_suffix _).mem he)

theorem keeps_small (M : Nat) : Keeps (Small M) where
  eat _ _ _ h := small_consume (fun e he => h e he)
  consume _ _ h := small_consume h
  ahead σ _ h := by
    unfold Rec.fetch2
    split
    · rename_i hr
      intro e he
      refine h e ?_
      rw [hr]
      rcases List.mem_cons.1 he with rfl | he
      · exact List.mem_cons_self ..
      · exact List.mem_cons_of_mem _ ((settle_suffix _).mem he)
    · exact h
  report σ msg _ h _ := fun e he => h e (by rwa [report_rest] at he)
  mark _ _ _ h := h

theorem brief_leaf {M ty l c : Nat} {w : List Nat} (h : (Elem.tok ty w l c).chars.length ≤ M) : (treeOf (leaf w)).Brief M := by
  unfold leaf
  split
  · trivial
  · change (w.map UInt8.ofNat).length ≤ M
    rw [List.length_map]
    exact h

def BriefE (M f : Nat) : Prop := ∀ p chain σ t σ', rExp parAtn f p chain σ = some (t, σ') → Keep (Small M) σ → t.Brief M
def BriefA (M f : Nat) : Prop := ∀ chain σ t σ', rAtom parAtn f chain σ = some (some t, σ') → Keep (Small M) σ → t.Brief M
def BriefL (M f : Nat) : Prop := ∀ s p chain l σ t σ', s ∈ [59, 61] → rLoop parAtn f s p chain l σ = some (t, σ') → Keep (Small M) σ → l.Brief M → t.Brief M

theorem briefE_succ {M f : Nat} (ihA : BriefA M f) (ihL : BriefL M f) : BriefE M (f + 1) := by
  intro p chain σ t σ' h hk
  rw [rExp] at h
  have hs : Keep (Small M) (syncTok parAtn 14 chain σ).1 := by
    unfold syncTok
    split
    · exact hk
    · split
      · exact hk
      · split
        · exact keep_deletion (keeps_small M) (by rw [expected_14]) (text_14 chain) hk
        · exact hk
  generalize syncTok parAtn 14 chain σ = x at h hs
  obtain ⟨σ1, ok⟩ := x
  dsimp only at hs
  cases ok with
  | false => cases h; trivial
  | true =>
    dsimp only at h
    cases ha : rAtom parAtn f chain σ1 with
    | none => rw [ha] at h; cases h
    | some x =>
      obtain ⟨o, σ2⟩ := x
      rw [ha] at h
      cases o with
      | none => cases h; trivial
      | some a => exact ihL _ _ _ _ _ _ _ (by simp) h (((keep_all (keeps_small M) f).2.1 _ _ _ _ ha hs).1) (ihA _ _ _ _ ha hs)

theorem briefA_succ {M f : Nat} (ihE : BriefE M f) : BriefA M (f + 1) := by
  intro chain σ t σ' h hk
  by_cases hn : (next parAtn 14 []).has σ.la = true
  · have hne : σ.la ≠ none := by
      intro h
      rw [h, next_14] at hn
      cases hn
    obtain ⟨ty, hla⟩ := Option.ne_none_iff_exists'.1 hne
    obtain ⟨w, l, c, r, hr⟩ := la_cons hla
    have hkc : Keep (Small M) σ.matched.consume := ⟨eat_ok.ok hk.1, (keeps_small M).eat _ hk.1 (by rw [hr]; simp) hk.2⟩
    have hgood : Good (.tok ty w) := hk.1.good (.tok ty w l c) (by rw [hr]; simp)
    have hcase : ty ∈ [1, 2, 3, 4, 5, 6] ∨ ty = 25 ∨ ty = 27 ∨ ty = 28 := by
      rw [hla, next_14] at hn
      simp [Tokens.has] at hn ⊢
      omega
    rcases hcase with hpre | rfl | hleaf
    · have hw : w = litText ty := by
        rcases good_cases hgood with ⟨-, -, h⟩ | ⟨rfl, -⟩
        · exact h
        · simp at hpre
      obtain ⟨o, ho, -, -⟩ := pre_class ty (by simp at hpre; omega) hpre
      rw [← hw] at ho
      rw [rAtom_pre hpre ho hr] at h
      obtain ⟨⟨t1, σ1⟩, h1, h2⟩ := Option.map_eq_some_iff.1 h
      cases h2
      have := ihE _ _ _ _ _ h1 hkc
      exact this
    · rw [rAtom_paren hr] at h
      obtain ⟨⟨t1, σ1⟩, h1, h2⟩ := Option.map_eq_some_iff.1 h
      cases h2
      have := ihE _ _ _ _ _ h1 hkc
      exact this
    · rw [rAtom_leaf hleaf hr] at h
      cases h
      exact brief_leaf (hk.2 (.tok ty w l c) (by rw [hr]; simp))
  · have hn' : (next parAtn 14 []).has σ.la = false := by simpa using hn
    rw [rAtom_other hn'] at h
    cases h

theorem briefL_succ {M f : Nat} (ihE : BriefE M f) (ihL : BriefL M f) : BriefL M (f + 1) := by
  intro s p chain l σ t σ' hs h hk hl
  by_cases hcont : Continues p σ.la
  · obtain ⟨ty, i, hla, hi, hlev⟩ := hcont
    obtain ⟨w, ln, c, r, hr⟩ := la_cons hla
    have hty := (la_lt hk.1 hla).2
    have hcont : Continues p (some ty) := ⟨ty, i, rfl, hi, hlev⟩
    have hkc : Keep (Small M) σ.matched.consume := ⟨eat_ok.ok hk.1, (keeps_small M).eat _ hk.1 (by rw [hr]; simp) hk.2⟩
    rw [rLoop_go hs hr hcont hty hi] at h
    split at h
    · split at h
      · obtain ⟨⟨t1, σ1⟩, h1, h⟩ := Option.bind_eq_some_iff.1 h
        have k1 := (keep_all (keeps_small M) f).1 _ _ _ _ _ h1 hkc
        have k2 := keep_matchTok (keeps_small M) (ty := 24) (s := 52) (chain := chain) (want := .colon) (by decide) (by rw [expected_52]) (text_52 _)
          k1
        have g1 := ihE _ _ _ _ _ h1 hkc
        dsimp only at h
        split at h
        · obtain ⟨⟨t2, σ2⟩, h2, h⟩ := Option.bind_eq_some_iff.1 h
          exact ihL _ _ _ _ _ _ _ (by simp) h ((keep_all (keeps_small M) f).1 _ _ _ _ _ h2 k2) ⟨hl, g1, ihE _ _ _ _ _ h2 k2⟩
        · cases h
          exact ⟨hl, g1⟩
      · cases h
    · split at h
      · split at h
        · obtain ⟨o, -, h⟩ := Option.bind_eq_some_iff.1 h
          exact ihL _ _ _ _ _ _ _ (by simp) h hkc hl
        · cases h
      · obtain ⟨x, -, h⟩ := Option.bind_eq_some_iff.1 h
        split at h
        · obtain ⟨o, -, h⟩ := Option.bind_eq_some_iff.1 h
          obtain ⟨⟨t2, σ2⟩, h2, h⟩ := Option.bind_eq_some_iff.1 h
          exact ihL _ _ _ _ _ _ _ (by simp) h ((keep_all (keeps_small M) f).1 _ _ _ _ _ h2 hkc) ⟨hl, ihE _ _ _ _ _ h2 hkc⟩
        · cases h
  · rw [rLoop_stop hs hcont] at h
    cases h
    exact hl

theorem brief_all (M : Nat) : ∀ f, BriefE M f ∧ BriefA M f ∧ BriefL M f
  | 0 => ⟨fun _ _ _ _ _ h => (by rw [rExp] at h; cases h), fun _ _ _ _ h => (by rw [rAtom] at h; cases h),
    fun _ _ _ _ _ _ _ _ h => (by rw [rLoop] at h; cases h)⟩
  | f + 1 =>
    have ⟨h1, h2, h3⟩ := brief_all M f
    ⟨briefE_succ h2 h3, briefA_succ h1, briefL_succ h1 h3⟩

theorem parseText_brief {exp : Str} {t : Tree} {reports : List Plural.Report} (h : parseText exp = some (t, reports)) :
    t.Brief exp.length := by
  obtain ⟨es, he, -, hg, -⟩ := elems_of exp
  rw [parseText_eq, he, Option.bind_some] at h
  obtain ⟨⟨t', σ⟩, h1, h2⟩ := Option.map_eq_some_iff.1 h
  cases h2
  refine (brief_all _ _).1 _ _ _ _ _ h1 ⟨fetch_init_ok _ hg, fun e he' => ?_⟩
  have hs := (stream_size (lexElems_stream _ _ _ _ he)).2
  have le : ∀ (l : List Elem), e ∈ l → e.chars.length ≤ (l.map fun e => e.chars.length).sum := by
    intro l
    induction l with
    | nil => intro h; cases h
    | cons x l ih =>
      intro h
      rw [List.map_cons, List.sum_cons]
      rcases List.mem_cons.1 h with rfl | h
      · omega
      · have := ih h
        omega
  have h3 := le es ((settle_suffix _).mem he')
  have h4 := rs_length exp
  omega

/-- The text of a panic of the walk. -/
theorem walk_panic {M : Nat} (n : Int64) (t : Tree) : t.Brief M → ∀ s p, walkR n t s = .error p → p.text.length ≤ M + 37 := by
  have first : ∀ {α : Type} (x : Except Plural.Panic α) (f : α → Except Plural.Panic Plural.Stack) (p : Plural.Panic),
      x.bind f = .error p → x = .error p ∨ ∃ s, x = .ok s ∧ f s = .error p := by
    intro α x f p h
    cases x with
    | error e => exact .inl (by cases h; rfl)
    | ok s => exact .inr ⟨s, rfl, h⟩
  induction t with
  | hole => intro _ s p h; cases h
  | n => intro _ s p h; cases h
  | int ds =>
    intro hb s p h
    unfold walkR Plural.walkP at h
    cases hp : Num.parseInt ds with
    | some i => rw [hp] at h; cases h
    | none =>
      rw [hp] at h
      cases h
      change (b!"assert error: not a number: " ++ ds).length ≤ _
      rw [List.length_append]
      have : (b!"assert error: not a number: ").length = 28 := rfl
      have hb : ds.length ≤ M := hb
      omega
  | paren e ih => intro hb s p h; exact ih hb s p h
  | post o e ih =>
    intro hb s p h
    rcases first _ _ _ h with h | ⟨s', -, h⟩
    · exact ih hb s p h
    · cases h
  | pre o e ih =>
    intro hb s p h
    rcases first _ _ _ h with h | ⟨s', -, h⟩
    · exact ih hb s p h
    · cases h
  | bin o l r ihl ihr =>
    intro hb s p h
    rcases first _ _ _ h with h | ⟨s', -, h⟩
    · exact ihl hb.1 s p h
    · rcases first _ _ _ h with h | ⟨s', -, h⟩
      · exact ihr hb.2 _ p h
      · unfold Plural.onBopP Plural.bopP at h
        dsimp only at h
        rcases first _ _ _ h with h | ⟨x, -, h⟩
        · split at h
          · cases h
          · cases h
            cases o <;> (change List.length _ ≤ M + 37; simp [Plural.Panic.text])
        · cases h
  | tern c a b ihc iha ihb =>
    intro hb s p h
    rcases first _ _ _ h with h | ⟨s', -, h⟩
    · exact ihc hb.1 s p h
    · rcases first _ _ _ h with h | ⟨s', -, h⟩
      · exact iha hb.2.1 _ p h
      · rcases first _ _ _ h with h | ⟨s', -, h⟩
        · exact ihb hb.2.2 _ p h
        · cases h
  | cut c a ihc iha =>
    intro hb s p h
    rcases first _ _ _ h with h | ⟨s', -, h⟩
    · exact ihc hb.1 s p h
    · rcases first _ _ _ h with h | ⟨s', -, h⟩
      · exact iha hb.2 _ p h
      · cases h

/-- **C113** Every error of `Eval` is at most 160 times as long as the text with one more byte; that of a panic has at most 55 bytes more
than the text. -/
theorem C113_any (L : Fmt.Lib) (exp : Str) (n : Int64) (hlen : exp.length + 1 < 2 ^ 63) (v : Int64) (e : Plural.Error)
    (h : evalR L exp n = some (v, some e)) : e.text.length ≤ 160 * (exp.length + 1) ∧
      (Errors.is Plural.antlrId e.err = false → e.text.length ≤ exp.length + 55) := by
  by_cases ha : Errors.is Plural.antlrId e.err = true
  · exact ⟨C113_size L exp n hlen v e h ha, fun h' => by rw [ha] at h'; cases h'⟩
  · have key : e.text.length ≤ exp.length + 55 := by
      cases hc : Plural.commonsGet (GoStr.removeByte 32 exp) with
      | some f =>
        unfold evalR at h
        rw [hc] at h
        cases h
      | none =>
        obtain ⟨t, reports, h1, h2, -⟩ := C111_reported exp
        have hw : ∀ p, walkR n t [] = .error p → e.text.length ≤ exp.length + 55 := by
          intro p hp
          unfold evalR at h
          rw [hc, h1] at h
          dsimp only [Option.map_some] at h
          rw [hp] at h
          simp only [Option.some.injEq] at h
          rw [Plural.unexpected_text] at h
          cases h
          have := walk_panic n t (parseText_brief h1) [] p hp
          rw [List.length_append]
          have e1 : (b!"unexpected error: ").length = 18 := rfl
          omega
        cases hx : walkR n t [] with
        | error p => exact hw p hx
        | ok s =>
          exfalso
          by_cases hm : Plural.Malformed exp
          · obtain ⟨t', reports', r1, -, r3⟩ := C111_error L exp n hc hm hlen
            rw [h1] at r1
            cases r1
            rcases r3 with ⟨s', e', -, g1, g2, -⟩ | ⟨p, e', g1, -⟩
            · rw [h] at g1
              cases g1
              exact ha g2
            · rw [hx] at g1
              cases g1
          · have hnil : reports = [] := by
              by_contra hne
              exact hm (h2.1 hne)
            unfold evalR at h
            rw [hc, h1, hnil] at h
            dsimp only [Option.map_some] at h
            rw [hx] at h
            cases h
    exact ⟨by omega, fun _ => key⟩

/-- A literal that does not fit: the digits are in the error. -/
example (L : Fmt.Lib) : ∃ v e, evalR L b!"99999999999999999999" 1 = some (v, some e) ∧ Errors.is Plural.antlrId e.err = false := by
  have h := C111_tree b!"99999999999999999999" (.int b!"99999999999999999999") [] (by decide +kernel) trivial (by intro t ht; cases ht)
  unfold evalR
  rw [show Plural.commonsGet (GoStr.removeByte 32 b!"99999999999999999999") = none by decide +kernel, h]
  dsimp only [Option.map_some]
  rw [show walkR 1 (treeOf (.int b!"99999999999999999999")) [] = .error (.assert (b!"assert error: not a number: " ++ b!"99999999999999999999")) by decide +kernel]
  dsimp only
  rw [Plural.unexpected_text]
  exact ⟨_, _, rfl, rfl⟩

end Verif.Antlr
