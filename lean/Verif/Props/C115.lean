import Verif.Spec.PluralGaps
import Verif.Lemmas.AtnKeep
import Verif.Props.C111
/-!
# C115 What `Eval` returns next to the error about a malformed expression
-/
namespace Verif.Antlr
open Verif

/-! ## The literals of the tree -/

/-- The literals of the tree are sequences of digits. -/
def Tree.Lits : Tree → Prop
  | .hole => True
  | .n => True
  | .int ds => ds ≠ [] ∧ ds.all Num.isDigit = true
  | .paren e => e.Lits
  | .post _ e => e.Lits
  | .pre _ e => e.Lits
  | .bin _ l r => l.Lits ∧ r.Lits
  | .tern c a b => c.Lits ∧ a.Lits ∧ b.Lits
  | .cut c a => c.Lits ∧ a.Lits

theorem keeps_true : Keeps fun _ => True :=
  ⟨fun _ _ _ _ => trivial, fun _ _ _ => trivial, fun _ _ _ => trivial, fun _ _ _ _ _ => trivial, fun _ _ _ _ => trivial⟩

theorem ok_exp {f p : Nat} {chain : List Nat} {σ σ' : Rec} {t : Tree} (h : rExp parAtn f p chain σ = some (t, σ')) (hk : Ok σ) : Ok σ' :=
  ((keep_all keeps_true f).1 _ _ _ _ _ h ⟨hk, trivial⟩).1

theorem ok_atom {f : Nat} {chain : List Nat} {σ σ' : Rec} {t : Option Tree} (h : rAtom parAtn f chain σ = some (t, σ')) (hk : Ok σ) : Ok σ' :=
  ((keep_all keeps_true f).2.1 _ _ _ _ h ⟨hk, trivial⟩).1.1

theorem lits_leaf {ty : Nat} {w : List Nat} (hg : Good (.tok ty w)) (hty : ty = 27 ∨ ty = 28) : (treeOf (leaf w)).Lits := by
  unfold leaf
  by_cases h : w = [110]
  · rw [if_pos h]; trivial
  · rw [if_neg h]
    rcases good_cases hg with ⟨h1, h2, h3⟩ | ⟨-, h1, h2⟩
    · have : ty = 27 := by omega
      subst this
      exact absurd h3 h
    · refine ⟨by simpa using h1, ?_⟩
      rw [List.all_eq_true]
      intro c hc
      obtain ⟨x, hx, rfl⟩ := List.mem_map.1 hc
      have := h2 x hx
      have hx' : x = 48 ∨ x = 49 ∨ x = 50 ∨ x = 51 ∨ x = 52 ∨ x = 53 ∨ x = 54 ∨ x = 55 ∨ x = 56 ∨ x = 57 := by omega
      rcases hx' with rfl | rfl | rfl | rfl | rfl | rfl | rfl | rfl | rfl | rfl <;> decide

def LitsE (f : Nat) : Prop := ∀ p chain σ t σ', rExp parAtn f p chain σ = some (t, σ') → Ok σ → t.Lits
def LitsA (f : Nat) : Prop := ∀ chain σ t σ', rAtom parAtn f chain σ = some (some t, σ') → Ok σ → t.Lits
def LitsL (f : Nat) : Prop := ∀ s p chain l σ t σ', s ∈ [59, 61] → rLoop parAtn f s p chain l σ = some (t, σ') → Ok σ → l.Lits → t.Lits

theorem litsE_succ {f : Nat} (ihA : LitsA f) (ihL : LitsL f) : LitsE (f + 1) := by
  intro p chain σ t σ' h hk
  rw [rExp] at h
  have hs : Ok (syncTok parAtn 14 chain σ).1 := by
    unfold syncTok
    split
    · exact hk
    · split
      · exact hk
      · split
        · exact (keep_deletion keeps_true (by rw [expected_14]) (text_14 chain) ⟨hk, trivial⟩).1
        · exact hk
  generalize syncTok parAtn 14 chain σ = x at h hs
  obtain ⟨σ1, ok⟩ := x
  dsimp only at hs
  cases ok with
  | false => cases h; trivial
  | true =>
    dsimp only at h
    cases ha : rAtom parAtn f chain σ1 with
    | none => rw [ha] at h; cases h
    | some x =>
      obtain ⟨o, σ2⟩ := x
      rw [ha] at h
      cases o with
      | none => cases h; trivial
      | some a => exact ihL _ _ _ _ _ _ _ (by simp) h (ok_atom ha hs) (ihA _ _ _ _ ha hs)

theorem litsA_succ {f : Nat} (ihE : LitsE f) : LitsA (f + 1) := by
  intro chain σ t σ' h hk
  by_cases hn : (next parAtn 14 []).has σ.la = true
  · have hne : σ.la ≠ none := by
      intro h
      rw [h, next_14] at hn
      cases hn
    obtain ⟨ty, hla⟩ := Option.ne_none_iff_exists'.1 hne
    obtain ⟨w, l, c, r, hr⟩ := la_cons hla
    have hkc : Ok σ.matched.consume := eat_ok.ok hk
    have hgood : Good (.tok ty w) := hk.good (.tok ty w l c) (by rw [hr]; simp)
    have hcase : ty ∈ [1, 2, 3, 4, 5, 6] ∨ ty = 25 ∨ ty = 27 ∨ ty = 28 := by
      rw [hla, next_14] at hn
      simp [Tokens.has] at hn ⊢
      omega
    rcases hcase with hpre | rfl | hleaf
    · have hw : w = litText ty := by
        rcases good_cases hgood with ⟨-, -, h⟩ | ⟨rfl, -⟩
        · exact h
        · simp at hpre
      obtain ⟨o, ho, -, -⟩ := pre_class ty (by simp at hpre; omega) hpre
      rw [← hw] at ho
      rw [rAtom_pre hpre ho hr] at h
      obtain ⟨⟨t1, σ1⟩, h1, h2⟩ := Option.map_eq_some_iff.1 h
      cases h2
      have := ihE _ _ _ _ _ h1 hkc
      exact this
    · rw [rAtom_paren hr] at h
      obtain ⟨⟨t1, σ1⟩, h1, h2⟩ := Option.map_eq_some_iff.1 h
      cases h2
      have := ihE _ _ _ _ _ h1 hkc
      exact this
    · rw [rAtom_leaf hleaf hr] at h
      cases h
      exact lits_leaf hgood hleaf
  · have hn' : (next parAtn 14 []).has σ.la = false := by simpa using hn
    rw [rAtom_other hn'] at h
    cases h

theorem litsL_succ {f : Nat} (ihE : LitsE f) (ihL : LitsL f) : LitsL (f + 1) := by
  intro s p chain l σ t σ' hs h hk hl
  by_cases hcont : Continues p σ.la
  · obtain ⟨ty, i, hla, hi, hlev⟩ := hcont
    obtain ⟨w, ln, c, r, hr⟩ := la_cons hla
    have hty := (la_lt hk hla).2
    have hcont : Continues p (some ty) := ⟨ty, i, rfl, hi, hlev⟩
    have hkc : Ok σ.matched.consume := eat_ok.ok hk
    rw [rLoop_go hs hr hcont hty hi] at h
    split at h
    · split at h
      · obtain ⟨⟨t1, σ1⟩, h1, h⟩ := Option.bind_eq_some_iff.1 h
        have k1 := ok_exp h1 hkc
        have k2 := (keep_matchTok keeps_true (ty := 24) (s := 52) (chain := chain) (want := .colon) (by decide) (by rw [expected_52]) (text_52 _)
          ⟨k1, trivial⟩).1
        have g1 := ihE _ _ _ _ _ h1 hkc
        dsimp only at h
        split at h
        · obtain ⟨⟨t2, σ2⟩, h2, h⟩ := Option.bind_eq_some_iff.1 h
          exact ihL _ _ _ _ _ _ _ (by simp) h (ok_exp h2 k2) ⟨hl, g1, ihE _ _ _ _ _ h2 k2⟩
        · cases h
          exact ⟨hl, g1⟩
      · cases h
    · split at h
      · split at h
        · obtain ⟨o, -, h⟩ := Option.bind_eq_some_iff.1 h
          exact ihL _ _ _ _ _ _ _ (by simp) h hkc hl
        · cases h
      · obtain ⟨x, -, h⟩ := Option.bind_eq_some_iff.1 h
        split at h
        · obtain ⟨o, -, h⟩ := Option.bind_eq_some_iff.1 h
          obtain ⟨⟨t2, σ2⟩, h2, h⟩ := Option.bind_eq_some_iff.1 h
          exact ihL _ _ _ _ _ _ _ (by simp) h (ok_exp h2 hkc) ⟨hl, ihE _ _ _ _ _ h2 hkc⟩
        · cases h
  · rw [rLoop_stop hs hcont] at h
    cases h
    exact hl

theorem lits_all : ∀ f, LitsE f ∧ LitsA f ∧ LitsL f
  | 0 => ⟨fun _ _ _ _ _ h => (by rw [rExp] at h; cases h), fun _ _ _ _ h => (by rw [rAtom] at h; cases h),
    fun _ _ _ _ _ _ _ _ h => (by rw [rLoop] at h; cases h)⟩
  | f + 1 =>
    have ⟨h1, h2, h3⟩ := lits_all f
    ⟨litsE_succ h2 h3, litsA_succ h1, litsL_succ h1 h3⟩

theorem parseText_lits {exp : Str} {t : Tree} {reports : List Plural.Report} (h : parseText exp = some (t, reports)) : t.Lits := by
  obtain ⟨es, he, -, hg, -⟩ := elems_of exp
  rw [parseText_eq, he, Option.bind_some] at h
  obtain ⟨⟨t', σ⟩, h1, h2⟩ := Option.map_eq_some_iff.1 h
  cases h2
  exact (lits_all _).1 _ _ _ _ _ h1 (fetch_init_ok _ hg)

/-! ## The calculator -/

theorem calculates_unique {s : List Int64} {r : List Calc} {a b : Except Plural.Cause (List Int64)} (ha : Calculates s r a)
    (hb : Calculates s r b) : a = b := by
  induction ha with
  | done => cases hb; rfl
  | num _ ih => cases hb with | num h => exact ih h
  | big => cases hb; rfl
  | pre _ ih => cases hb with | pre h => exact ih h
  | post _ ih => cases hb with | post h => exact ih h
  | cond _ ih => cases hb with | cond h => exact ih h
  | bin hx _ ih =>
    cases hb with
    | bin hy h => rw [hx] at hy; cases hy; exact ih h
    | div h => simp only [Plural.opVal, if_pos h] at hx; cases hx
    | mod h => simp only [Plural.opVal, if_pos h] at hx; cases hx
    | shr h => simp only [Plural.opVal, if_pos h] at hx; cases hx
    | shl h => simp only [Plural.opVal, if_pos h] at hx; cases hx
  | div h =>
    cases hb with
    | bin hx _ => simp only [Plural.opVal, if_pos h] at hx; cases hx
    | div => rfl
  | mod h =>
    cases hb with
    | bin hx _ => simp only [Plural.opVal, if_pos h] at hx; cases hx
    | mod => rfl
  | shr h =>
    cases hb with
    | bin hx _ => simp only [Plural.opVal, if_pos h] at hx; cases hx
    | shr => rfl
  | shl h =>
    cases hb with
    | bin hx _ => simp only [Plural.opVal, if_pos h] at hx; cases hx
    | shl => rfl

theorem pop_eq (s : List Int64) : Plural.pop s = (s.getD 0 0, s.drop 1) := by cases s <;> rfl

theorem getD_drop (s : List Int64) (i j : Nat) : (s.drop i).getD j 0 = s.getD (i + j) 0 := by
  simp [List.getD_eq_getElem?_getD]

/-- A binary operator is applied to the two numbers on top. -/
theorem bin_step (o : Plural.Op) (s : List Int64) :
    (∃ x, Plural.onBopP o s = .ok (x :: s.drop 2) ∧ Plural.opVal o (s.getD 1 0) (s.getD 0 0) = some x) ∨
    (∃ c : Plural.Cause, Plural.onBopP o s = .error c.panic ∧ ∀ r, Calculates s (.bin o :: r) (.error c)) := by
  unfold Plural.onBopP
  simp only [pop_eq, getD_drop, List.drop_drop]
  generalize hx : s.getD (1 + 0) 0 = x
  generalize hy : s.getD 0 0 = y
  have fin : ∀ v, Plural.bopP o x y = .ok v → Plural.opVal o x y = some v →
      (∃ x_1, (Plural.bopP o x y).bind (fun v => Except.ok (v :: s.drop (1 + 1))) = .ok (x_1 :: s.drop 2) ∧ Plural.opVal o x y = some x_1) ∨
      (∃ c : Plural.Cause, (Plural.bopP o x y).bind (fun v => Except.ok (v :: s.drop (1 + 1))) = .error c.panic ∧
        ∀ r, Calculates s (.bin o :: r) (.error c)) := by
    intro v h1 h2
    exact .inl ⟨v, by rw [h1]; rfl, h2⟩
  have bad : ∀ c : Plural.Cause, Plural.bopP o x y = .error c.panic → (∀ r, Calculates s (.bin o :: r) (.error c)) →
      (∃ x_1, (Plural.bopP o x y).bind (fun v => Except.ok (v :: s.drop (1 + 1))) = .ok (x_1 :: s.drop 2) ∧ Plural.opVal o x y = some x_1) ∨
      (∃ c : Plural.Cause, (Plural.bopP o x y).bind (fun v => Except.ok (v :: s.drop (1 + 1))) = .error c.panic ∧
        ∀ r, Calculates s (.bin o :: r) (.error c)) := by
    intro c h1 h2
    exact .inr ⟨c, by rw [h1]; rfl, h2⟩
  cases o with
  | div =>
    by_cases h : y = 0
    · exact bad .divide (by subst h; rfl) fun r => .div (hy.trans h)
    · exact fin _ (by simp [Plural.bopP, Plural.bop, h]; rfl) (by simp [Plural.opVal, h])
  | mod =>
    by_cases h : y = 0
    · exact bad .divide (by subst h; rfl) fun r => .mod (hy.trans h)
    · exact fin _ (by simp [Plural.bopP, Plural.bop, h]; rfl) (by simp [Plural.opVal, h])
  | shr =>
    by_cases h : y < 0
    · exact bad .shift (by simp [Plural.bopP, Plural.bop, h]; rfl) fun r => .shr (hy ▸ h)
    · exact fin _ (by simp [Plural.bopP, Plural.bop, h]; rfl) (by simp [Plural.opVal, h])
  | shl =>
    by_cases h : y < 0
    · exact bad .shift (by simp [Plural.bopP, Plural.bop, h]; rfl) fun r => .shl (hy ▸ h)
    · exact fin _ (by simp [Plural.bopP, Plural.bop, h]; rfl) (by simp [Plural.opVal, h])
  | _ => exact fin _ (by simp only [Plural.bopP, Plural.bop, Plural.b2i]; rfl) (by simp [Plural.opVal])


theorem pre_step (o : Plural.Pre) (ho : o ≠ .plus) (s : List Int64) : Plural.onPrefix o s = Plural.preVal o (s.getD 0 0) :: s.drop 1 := by
  cases o with
  | plus => exact absurd rfl ho
  | _ => cases s <;> rfl

theorem post_step (o : Plural.Post) (s : List Int64) : Plural.onPostfix o s = Plural.postVal o (s.getD 0 0) :: s.drop 1 := by
  cases o <;> cases s <;> rfl

theorem cond_step (s : List Int64) :
    Plural.onTern s = (if s.getD 2 0 = 1 then s.getD 1 0 else s.getD 0 0) :: s.drop 3 := by
  rcases s with _ | ⟨a, _ | ⟨b, _ | ⟨c, s⟩⟩⟩ <;> rfl

/-- The walk of a tree does what the calculator does. -/
def Computes (n : Int64) (t : Tree) (s : List Int64) : Prop :=
  (∀ s', walkR n t s = .ok s' → ∀ r out, Calculates s' r out → Calculates s (t.steps n ++ r) out) ∧
  (∀ p, walkR n t s = .error p → ∃ c : Plural.Cause, p = c.panic ∧ ∀ r, Calculates s (t.steps n ++ r) (.error c))

/-- The steps of a tree and then one more step that cannot fail. -/
theorem follows_then {n : Int64} {e t : Tree} {step : Calc} {g : List Int64 → List Int64} {s : List Int64} (he : Computes n e s)
    (hw : walkR n t s = (walkR n e s).bind fun s => .ok (g s)) (hs : t.steps n = e.steps n ++ [step])
    (hg : ∀ s r out, Calculates (g s) r out → Calculates s (step :: r) out) : Computes n t s := by
  unfold Computes
  rw [hw, hs]
  cases h : walkR n e s with
  | error p =>
    obtain ⟨c, hc, h2⟩ := he.2 p h
    refine ⟨fun s' hx => (by cases hx), fun p' hp => ?_⟩
    cases hp
    exact ⟨c, hc, fun r => by rw [List.append_assoc]; exact h2 _⟩
  | ok s1 =>
    refine ⟨fun s' hx r out hr => ?_, fun p' hp => by cases hp⟩
    cases hx
    rw [List.append_assoc]
    exact he.1 s1 h _ _ (hg _ _ _ hr)

/-- First the steps of one tree, then what follows. -/
theorem follows_first {n : Int64} {e t : Tree} {rest : List Calc} {g : List Int64 → Except Plural.Panic (List Int64)} {s : List Int64}
    (he : Computes n e s) (hw : walkR n t s = (walkR n e s).bind g) (hs : t.steps n = e.steps n ++ rest)
    (hg : ∀ s1, walkR n e s = .ok s1 → (∀ s', g s1 = .ok s' → ∀ r out, Calculates s' r out → Calculates s1 (rest ++ r) out) ∧
      (∀ p, g s1 = .error p → ∃ c : Plural.Cause, p = c.panic ∧ ∀ r, Calculates s1 (rest ++ r) (.error c))) : Computes n t s := by
  unfold Computes
  rw [hw, hs]
  cases h : walkR n e s with
  | error p =>
    obtain ⟨c, hc, h2⟩ := he.2 p h
    refine ⟨fun s' hx => (by cases hx), fun p' hp => ?_⟩
    cases hp
    exact ⟨c, hc, fun r => by rw [List.append_assoc]; exact h2 _⟩
  | ok s1 =>
    obtain ⟨g1, g2⟩ := hg s1 h
    refine ⟨fun s' hx r out hr => ?_, fun p' hp => ?_⟩
    · rw [List.append_assoc]
      exact he.1 s1 h _ _ (g1 s' hx r out hr)
    · obtain ⟨c, hc, h2⟩ := g2 p' hp
      exact ⟨c, hc, fun r => by rw [List.append_assoc]; exact he.1 s1 h _ _ (h2 r)⟩

/-- The same with the outcome of the steps of a tree in front. -/
theorem first {n : Int64} {e : Tree} {rest : List Calc} {g : List Int64 → Except Plural.Panic (List Int64)} {s : List Int64}
    (he : Computes n e s)
    (hg : ∀ s1, walkR n e s = .ok s1 → (∀ s', g s1 = .ok s' → ∀ r out, Calculates s' r out → Calculates s1 (rest ++ r) out) ∧
      (∀ p, g s1 = .error p → ∃ c : Plural.Cause, p = c.panic ∧ ∀ r, Calculates s1 (rest ++ r) (.error c))) :
    (∀ s', (walkR n e s).bind g = .ok s' → ∀ r out, Calculates s' r out → Calculates s ((e.steps n ++ rest) ++ r) out) ∧
      (∀ p, (walkR n e s).bind g = .error p → ∃ c : Plural.Cause, p = c.panic ∧ ∀ r, Calculates s ((e.steps n ++ rest) ++ r) (.error c)) := by
  cases h : walkR n e s with
  | error p =>
    obtain ⟨c, hc, h2⟩ := he.2 p h
    refine ⟨fun s' hx => (by cases hx), fun p' hp => ?_⟩
    cases hp
    exact ⟨c, hc, fun r => by rw [List.append_assoc]; exact h2 _⟩
  | ok s1 =>
    obtain ⟨g1, g2⟩ := hg s1 h
    refine ⟨fun s' hx r out hr => ?_, fun p' hp => ?_⟩
    · rw [List.append_assoc]
      exact he.1 s1 h _ _ (g1 s' hx r out hr)
    · obtain ⟨c, hc, h2⟩ := g2 p' hp
      exact ⟨c, hc, fun r => by rw [List.append_assoc]; exact he.1 s1 h _ _ (h2 r)⟩

theorem follows (n : Int64) (t : Tree) : t.Lits → ∀ s, Computes n t s := by
  have condStep : ∀ s1 : List Int64, (∀ s', Except.ok (ε := Plural.Panic) (Plural.onTern s1) = .ok s' → ∀ r out, Calculates s' r out →
        Calculates s1 ([.cond] ++ r) out) ∧
      (∀ p, Except.ok (ε := Plural.Panic) (Plural.onTern s1) = .error p → ∃ c : Plural.Cause, p = c.panic ∧
        ∀ r, Calculates s1 ([.cond] ++ r) (.error c)) := by
    intro s1
    refine ⟨fun s' hx r out hr => ?_, fun p hp => by cases hp⟩
    cases hx
    rw [cond_step] at hr
    exact .cond hr
  induction t with
  | hole =>
    intro _ s
    exact ⟨fun s' h r out hr => (by cases h; exact hr), fun p hp => by cases hp⟩
  | n =>
    intro _ s
    exact ⟨fun s' h r out hr => (by cases h; exact .num hr), fun p hp => by cases hp⟩
  | int ds =>
    intro h s
    have h1 := Plural.litVal_eq ds h.1 h.2
    unfold Computes Tree.steps walkR Plural.walkP
    rw [← h1]
    cases Num.parseInt ds with
    | none =>
      refine ⟨fun s' hx => (by cases hx), fun p hp => ?_⟩
      cases hp
      exact ⟨.tooBig ds, rfl, fun r => .big⟩
    | some i =>
      refine ⟨fun s' hx r out hr => ?_, fun p hp => by cases hp⟩
      cases hx
      exact .num hr
  | paren e ih => intro h s; exact ih h s
  | post o e ih =>
    intro h s
    exact follows_then (ih h s) rfl rfl fun s r out hr => .post (by rw [← post_step]; exact hr)
  | pre o e ih =>
    intro h s
    by_cases ho : o = .plus
    · subst ho
      have := ih h s
      unfold Computes Tree.steps walkR
      have hb : ((walkR n e s).bind fun s => Except.ok (Plural.onPrefix .plus s)) = walkR n e s := by
        cases walkR n e s <;> rfl
      rw [hb]
      exact this
    · refine follows_then (step := .pre o) (ih h s) rfl ?_ fun s r out hr => .pre (by rw [← pre_step o ho]; exact hr)
      cases o with
      | plus => exact absurd rfl ho
      | _ => rfl
  | bin o l r ihl ihr =>
    intro h s
    refine follows_first (ihl h.1 s) rfl rfl fun s1 _ => first (ihr h.2 s1) fun s2 _ => ?_
    rcases bin_step o s2 with ⟨x, h1, h2⟩ | ⟨c, h1, h2⟩
    · rw [h1]
      refine ⟨fun s' hx r out hr => ?_, fun p hp => by cases hp⟩
      cases hx
      exact .bin h2 hr
    · rw [h1]
      refine ⟨fun s' hx => (by cases hx), fun p hp => ?_⟩
      cases hp
      exact ⟨c, rfl, h2⟩
  | tern c a b ihc iha ihb =>
    intro h s
    exact follows_first (ihc h.1 s) rfl rfl fun s1 _ => first (iha h.2.1 s1) fun s2 _ => first (ihb h.2.2 s2) fun s3 _ => condStep s3
  | cut c a ihc iha =>
    intro h s
    exact follows_first (ihc h.1 s) rfl rfl fun s1 _ => first (iha h.2 s1) fun s2 _ => condStep s2

/-! ## Eval -/

/-- **C115** What `Eval` returns for a malformed text: the tree that was put together is worked through from left to right, operands before
operators, with nothing for what is missing and 0 for a number that is not there; this has one outcome, the number on top (or 0) is
returned with `ErrAntlr`, or 0 is returned with what went wrong. -/
theorem C115_value (L : Fmt.Lib) (exp : Str) (n : Int64) (hc : Plural.commonsGet (GoStr.removeByte 32 exp) = none)
    (hm : Plural.Malformed exp) (hlen : exp.length + 1 < 2 ^ 63) : ∃ t reports out, parseText exp = some (t, reports) ∧ reports ≠ [] ∧
    Calculates [] (t.steps n) out ∧ (∀ out', Calculates [] (t.steps n) out' → out' = out) ∧
    match out with
    | .ok s => ∃ e, evalR L exp n = some (s.headD 0, some e) ∧ Errors.is Plural.antlrId e.err = true ∧
        e.text = b!"err antlr" ++ (reports.map fun r => b!": " ++ r.says).flatten
    | .error c => ∃ e, evalR L exp n = some (0, some e) ∧ Errors.is Plural.antlrId e.err = false ∧
        e.text = b!"unexpected error: " ++ c.text := by
  obtain ⟨t, reports, hp, hr, h⟩ := C111_error L exp n hc hm hlen
  have hf := follows n t (parseText_lits hp) []
  rcases h with ⟨s, e, h1, h2, h3, h4⟩ | ⟨p, e, h1, h2, h3, h4⟩
  · have hcalc := hf.1 s h1 [] (.ok s) .done
    rw [List.append_nil] at hcalc
    refine ⟨t, reports, .ok s, hp, hr, hcalc, fun o ho => calculates_unique ho hcalc, e, ?_, h3, h4⟩
    rw [h2]
    cases s <;> rfl
  · obtain ⟨c, rfl, hcalc⟩ := hf.2 p h1
    have hcalc := hcalc []
    rw [List.append_nil] at hcalc
    exact ⟨t, reports, .error c, hp, hr, hcalc, fun o ho => calculates_unique ho hcalc, e, h2, h3, by rw [h4, Plural.Cause.panic_text]⟩

/-- **C115** For an expression without gaps the calculator gives the value of the expression or what goes wrong in it first. -/
theorem C115_whole (n : Int64) (e : Plural.Exp) (hl : Plural.GoodLits e) (s : List Int64) (r : List Calc) :
    (∀ v out, Plural.den n e = some v → Calculates (v :: s) r out → Calculates s ((treeOf e).steps n ++ r) out) ∧
    ∀ c, Plural.Fails n e c → Calculates s ((treeOf e).steps n ++ r) (.error c) := by
  have lits : ∀ e, Plural.GoodLits e → (treeOf e).Lits := by
    intro e
    induction e with
    | n => exact fun _ => trivial
    | int ds => exact fun h => h
    | paren e ih => exact ih
    | post o e ih => exact ih
    | pre o e ih => exact ih
    | bin o l r ihl ihr => exact fun h => ⟨ihl h.1, ihr h.2⟩
    | tern c a b ihc iha ihb => exact fun h => ⟨ihc h.1, iha h.2.1, ihb h.2.2⟩
  have hf := follows n (treeOf e) (lits e hl) s
  constructor
  · intro v out hv ho
    exact hf.1 _ (by rw [walkR_treeOf, Plural.walkP_ok hl hv]) r out ho
  · intro c hc
    obtain ⟨c', h1, h2⟩ := hf.2 _ (by rw [walkR_treeOf, Plural.walkP_fails hc hl])
    rw [Plural.Cause.panic_inj h1]
    exact h2 r

/-- **C115** If only the right operand of the last operator is missing, the left operand is taken for it and 0 for the left one. -/
theorem C115_right (L : Fmt.Lib) (exp : Str) (n : Int64) (hc : Plural.commonsGet (GoStr.removeByte 32 exp) = none)
    (hm : Plural.Malformed exp) (hlen : exp.length + 1 < 2 ^ 63) (o : Plural.Op) (e : Plural.Exp) (hl : Plural.GoodLits e)
    (reports : List Plural.Report) (hp : parseText exp = some (.bin o (treeOf e) .hole, reports)) (v x : Int64)
    (hv : Plural.den n e = some v) (hx : Plural.opVal o 0 v = some x) :
    ∃ err, evalR L exp n = some (x, some err) ∧ Errors.is Plural.antlrId err.err = true := by
  obtain ⟨t, reports', out, h1, -, -, h2, h3⟩ := C115_value L exp n hc hm hlen
  rw [hp] at h1
  simp only [Option.some.injEq, Prod.mk.injEq] at h1
  obtain ⟨rfl, rfl⟩ := h1
  have : Calculates [] ((Tree.bin o (treeOf e) .hole).steps n) (.ok [x]) :=
    (C115_whole n e hl [] _).1 v _ hv (.bin (by exact hx) .done)
  cases h2 _ this
  obtain ⟨err, e1, e2, -⟩ := h3
  exact ⟨err, e1, e2⟩

/-- **C115** If a conditional expression ends before its colon, its value is that of the second part, whatever the condition. -/
theorem C115_colon (L : Fmt.Lib) (exp : Str) (n : Int64) (hc : Plural.commonsGet (GoStr.removeByte 32 exp) = none)
    (hm : Plural.Malformed exp) (hlen : exp.length + 1 < 2 ^ 63) (c a : Plural.Exp) (hlc : Plural.GoodLits c) (hla : Plural.GoodLits a)
    (reports : List Plural.Report) (hp : parseText exp = some (.cut (treeOf c) (treeOf a), reports)) (x y : Int64)
    (hx : Plural.den n c = some x) (hy : Plural.den n a = some y) :
    ∃ err, evalR L exp n = some (y, some err) ∧ Errors.is Plural.antlrId err.err = true := by
  obtain ⟨t, reports', out, h1, -, -, h2, h3⟩ := C115_value L exp n hc hm hlen
  rw [hp] at h1
  simp only [Option.some.injEq, Prod.mk.injEq] at h1
  obtain ⟨rfl, rfl⟩ := h1
  have : Calculates [] ((Tree.cut (treeOf c) (treeOf a)).steps n) (.ok [y]) :=
    (C115_whole n c hlc [] _).1 x _ hx ((C115_whole n a hla [x] _).1 y _ hy (.cond (by exact .done)))
  cases h2 _ this
  obtain ⟨err, e1, e2, -⟩ := h3
  exact ⟨err, e1, e2⟩

/-! ## Examples -/

/-- What is reported about is malformed. -/
theorem malformed_of {exp : Str} {t : Tree} {reports : List Plural.Report} (h : parseText exp = some (t, reports)) (h' : reports ≠ []) :
    Plural.Malformed exp := by
  obtain ⟨t', reports', hp, hr, -⟩ := C111_reported exp
  rw [h] at hp
  cases hp
  exact hr.1 h'

theorem minus_parse : parseText b!"n-" = some (.bin .sub (treeOf .n) .hole,
    [.syntaxError 1 2 b!"mismatched input '<EOF>' expecting {'++', '--', '+', '-', '~', '!', '(', 'n', INT}"]) := by
  rw [parseText_eq]; decide +kernel

/-- `Eval("n-", n)` returns `-n` (with an error), for every `n`. -/
example (L : Fmt.Lib) (n : Int64) : ∃ err, evalR L b!"n-" n = some (0 - n, some err) ∧ Errors.is Plural.antlrId err.err = true :=
  C115_right L b!"n-" n (by decide +kernel) (malformed_of minus_parse (by decide)) (by decide) .sub .n trivial _ minus_parse n (0 - n) rfl rfl

theorem cut_parse : parseText b!"n?2" = some (.cut (treeOf .n) (treeOf (.int b!"2")),
    [.syntaxError 1 3 b!"mismatched input '<EOF>' expecting ':'"]) := by
  rw [parseText_eq]; decide +kernel

/-- `Eval("n?2", n)` returns 2, also if `n` is not 1. -/
example (L : Fmt.Lib) (n : Int64) : ∃ err, evalR L b!"n?2" n = some (2, some err) ∧ Errors.is Plural.antlrId err.err = true :=
  C115_colon L b!"n?2" n (by decide +kernel) (malformed_of cut_parse (by decide)) (by decide) .n (.int b!"2") trivial ⟨by decide, by decide⟩ _
    cut_parse n 2 rfl (by show Plural.litVal b!"2" = some 2; decide +kernel)

/-- The steps for `(n?n?n)+1`: the inner conditional uses up all three numbers. -/
example : (Tree.bin .add (.paren (.cut .n (.cut .n .n))) (.int b!"1")).steps 5 =
    [.num 5, .num 5, .num 5, .cond, .cond, .num 1, .bin .add] := by decide +kernel

/-- Of `5?(7?9)` the inner conditional finds three numbers, so the outer condition counts. -/
example : Calculates [] ((Tree.cut (.int b!"5") (.paren (.cut (.int b!"7") (.int b!"9")))).steps 0) (.ok [9]) := by
  rw [show (Tree.cut (.int b!"5") (.paren (.cut (.int b!"7") (.int b!"9")))).steps 0 = [.num 5, .num 7, .num 9, .cond, .cond] from by
    decide +kernel]
  exact .num (.num (.num (.cond (.cond .done))))

end Verif.Antlr
