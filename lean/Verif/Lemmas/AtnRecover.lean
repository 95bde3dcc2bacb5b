import Verif.Model.AtnRecover
import Verif.Lemmas.AtnEval
/-! # The parser that goes on behind errors -/
namespace Verif.Antlr
open Verif

/-! ## The tables -/

theorem next_14 : next parAtn 14 [] = ([1, 2, 3, 4, 5, 6, 25, 27, 28], false) := by decide +kernel
theorem next_52 : next parAtn 52 [] = ([24], false) := by decide +kernel
theorem next_64 : next parAtn 64 [] = ([26], false) := by decide +kernel
theorem next_end : ∀ s ∈ [59, 61], (next parAtn s []).2 = true := by decide +kernel
theorem next_57 : ∀ ty < 29, goesOn ty ≠ none → (next parAtn 57 []).has (some ty) = true := by decide +kernel
theorem next_68 : ∀ ty ∈ [25, 27, 28], (next parAtn 68 []).has (some ty) = true := by decide +kernel

theorem expected_of {s : Nat} (h : (next parAtn s []).2 = false) (chain : List Nat) : expected parAtn s chain = next parAtn s [] := by
  cases chain with
  | nil => rfl
  | cons q chain =>
    rw [expected]
    dsimp only
    rw [if_neg (by rw [h]; decide)]

/-! ## Steps -/

/-- The token without its position. -/
def erase : Elem → Item
  | .tok ty w _ _ => .tok ty w
  | .bad _ _ _ => .bad

/-- The current token is fetched, and all tokens are the lexer's. -/
structure Ok (σ : Rec) : Prop where
  head : (settle σ.rest).1 = []
  good : ∀ e ∈ σ.rest, Good (erase e)

/-- The position of a piece of the stream. -/
def Elem.place : Elem → Nat × Nat
  | .tok _ _ l c => (l, c)
  | .bad l c _ => (l, c)

/-- A report about a syntax error at a place. -/
def SaysAt (P : Nat × Nat → Prop) (r : Plural.Report) : Prop := ∃ l c msg, r = .syntaxError l c msg ∧ P (l, c)

/-- All positions that may be reported, or were, are of a kind. -/
structure Places (P : Nat × Nat → Prop) (σ : Rec) : Prop where
  rest : ∀ e ∈ σ.rest, P e.place
  eof : P σ.eof
  reports : ∀ r ∈ σ.reports, SaysAt P r

/-- What every step of the parser preserves. -/
structure Step (σ σ' : Rec) : Prop where
  ok : Ok σ → Ok σ'
  place : ∀ P, Places P σ → Places P σ'
  len : σ'.rest.length ≤ σ.rest.length
  rep : σ.reports <+: σ'.reports
  eof : σ'.eof = σ.eof

theorem Step.refl (σ : Rec) : Step σ σ := ⟨id, fun _ h => h, le_refl _, List.prefix_rfl, rfl⟩

theorem Step.trans {a b c : Rec} (h : Step a b) (g : Step b c) : Step a c :=
  ⟨fun x => g.ok (h.ok x), fun P x => g.place P (h.place P x), g.len.trans h.len, h.rep.trans g.rep, g.eof.trans h.eof⟩

/-- Something was reported. -/
def Grew (σ σ' : Rec) : Prop := σ.reports.length < σ'.reports.length

theorem Grew.left {a b c : Rec} (h : Grew a b) (g : Step b c) : Grew a c := Nat.lt_of_lt_of_le h g.rep.length_le

theorem Grew.right {a b c : Rec} (h : Step a b) (g : Grew b c) : Grew a c := Nat.lt_of_le_of_lt h.rep.length_le g

theorem settle_suffix : ∀ es : List Elem, (settle es).2 <:+ es
  | [] => List.suffix_rfl
  | .tok _ _ _ _ :: _ => List.suffix_rfl
  | .bad _ _ _ :: r => (settle_suffix r).trans (List.suffix_cons _ _)

theorem settle_settled : ∀ es : List Elem, (settle (settle es).2).1 = []
  | [] => rfl
  | .tok _ _ _ _ :: _ => rfl
  | .bad _ _ _ :: r => settle_settled r

theorem settle_none : ∀ {es : List Elem}, (settle es).1 = [] → (settle es).2 = es
  | [], _ => rfl
  | .tok _ _ _ _ :: _, _ => rfl
  | .bad _ _ _ :: _, h => by cases h

/-- Nothing is reported exactly if the next item is not an error. -/
theorem settle_peek : ∀ es : List Elem, (settle es).1 = [] ↔ peek (es.map erase) ≠ none
  | [] => by simp [settle, peek]
  | .tok _ _ _ _ :: _ => by simp [settle, peek, erase]
  | .bad _ _ _ :: _ => by simp [settle, peek, erase]

theorem settle_says {P : Nat × Nat → Prop} : ∀ {es : List Elem}, (∀ e ∈ es, P e.place) → ∀ r ∈ (settle es).1, SaysAt P r
  | [], _ => by simp [settle]
  | .tok _ _ _ _ :: _, _ => by simp [settle]
  | .bad l c w :: es, h => by
    intro r hr
    rcases List.mem_cons.1 hr with rfl | hr
    · exact ⟨l, c, _, rfl, h (.bad l c w) List.mem_cons_self⟩
    · exact settle_says (fun e he => h e (List.mem_cons_of_mem _ he)) r hr

theorem says_append {P : Nat × Nat → Prop} {a b : List Plural.Report} (ha : ∀ r ∈ a, SaysAt P r) (hb : ∀ r ∈ b, SaysAt P r) :
    ∀ r ∈ a ++ b, SaysAt P r := by
  intro r hr
  rcases List.mem_append.1 hr with hr | hr
  · exact ha r hr
  · exact hb r hr

theorem fetch_step (σ : Rec) : Step σ σ.fetch where
  ok h := ⟨settle_settled _, fun e he => h.good e ((settle_suffix _).mem he)⟩
  place _ h := ⟨fun e he => h.rest e ((settle_suffix _).mem he), h.eof, says_append h.reports (settle_says h.rest)⟩
  len := (settle_suffix _).length_le
  rep := List.prefix_append _ _
  eof := rfl

theorem fetch2_step (σ : Rec) : Step σ σ.fetch2 := by
  unfold Rec.fetch2
  split
  · rename_i ty w l c r hr
    have hsub : ∀ e ∈ Elem.tok ty w l c :: (settle r).2, e ∈ σ.rest := by
      intro e he
      rw [hr]
      rcases List.mem_cons.1 he with rfl | he
      · exact List.mem_cons_self
      · exact List.mem_cons_of_mem _ ((settle_suffix _).mem he)
    refine ⟨fun h => ⟨rfl, fun e he => h.good e (hsub e he)⟩, fun P h => ⟨fun e he => h.rest e (hsub e he), h.eof, ?_⟩, ?_,
      List.prefix_append _ _, rfl⟩
    · exact says_append h.reports (settle_says fun e he => h.rest e (by rw [hr]; exact List.mem_cons_of_mem _ he))
    · rw [hr]
      simpa using (settle_suffix r).length_le
  · exact .refl σ

/-- Consuming drops a token and fetches the next one. -/
theorem consume_step (σ : Rec) : Step σ σ.consume := by
  unfold Rec.consume
  split
  · exact .refl σ
  · rename_i e r hr
    have h := fetch_step { σ with rest := r, index := σ.index + 1 }
    refine ⟨fun g => ?_, fun P g => ?_, ?_, h.rep, rfl⟩
    · exact ⟨settle_settled _, fun e he => g.good e (by rw [hr]; exact List.mem_cons_of_mem _ ((settle_suffix r).mem he))⟩
    · exact h.place P ⟨fun e he => g.rest e (by rw [hr]; exact List.mem_cons_of_mem _ he), g.eof, g.reports⟩
    · rw [hr]
      exact h.len.trans (Nat.le_succ _)

theorem consume_len {σ : Rec} (h : σ.rest ≠ []) : σ.consume.rest.length < σ.rest.length := by
  unfold Rec.consume
  split
  · contradiction
  · rename_i e r hr
    rw [hr]
    exact Nat.lt_succ_of_le (fetch_step { σ with rest := r, index := σ.index + 1 }).len

theorem matched_step (σ : Rec) : Step σ σ.matched := ⟨fun h => ⟨h.head, h.good⟩, fun _ h => ⟨h.rest, h.eof, h.reports⟩, le_refl _, List.prefix_rfl, rfl⟩

theorem place_of {P : Nat × Nat → Prop} {σ : Rec} (h : Places P σ) : P σ.place := by
  unfold Rec.place
  split
  · rename_i ty w l c r hr
    exact h.rest (.tok ty w l c) (by rw [hr]; exact List.mem_cons_self)
  · exact h.eof

theorem report_step (msg : Str) (σ : Rec) : Step σ (σ.report msg) := by
  unfold Rec.report
  split
  · exact .refl σ
  · refine ⟨fun h => ⟨h.head, h.good⟩, fun P h => ⟨h.rest, h.eof, says_append h.reports ?_⟩, le_refl _, List.prefix_append _ _, rfl⟩
    intro r hr
    rw [List.mem_singleton.1 hr]
    exact ⟨_, _, _, rfl, place_of h⟩

theorem report_grew (msg : Str) {σ : Rec} (h : σ.recovering = false) : Grew σ (σ.report msg) := by
  unfold Rec.report Grew
  rw [if_neg (by rw [h]; decide)]
  simp

theorem fetch2_recovering (σ : Rec) : σ.fetch2.recovering = σ.recovering := by
  unfold Rec.fetch2
  split <;> rfl

theorem deletion_step (A : Atn) (s : Nat) (chain : List Nat) (σ : Rec) : Step σ (deletion A s chain σ).1 := by
  unfold deletion
  dsimp only
  split
  · exact (((fetch2_step σ).trans (report_step _ _)).trans (consume_step _)).trans (matched_step _)
  · exact fetch2_step σ

theorem deletion_grew (A : Atn) (s : Nat) (chain : List Nat) {σ : Rec} (h : σ.recovering = false)
    (hd : (deletion A s chain σ).2 = true) : Grew σ (deletion A s chain σ).1 := by
  unfold deletion at hd ⊢
  dsimp only at hd ⊢
  split
  · refine .left (.right (fetch2_step σ) (report_grew _ ?_)) ((consume_step _).trans (matched_step _))
    rw [fetch2_recovering, h]
  · rename_i hn
    rw [if_neg hn] at hd
    cases hd

theorem deletion_recovering (A : Atn) (s : Nat) (chain : List Nat) {σ : Rec} (h : σ.recovering = false) :
    (deletion A s chain σ).1.recovering = false := by
  unfold deletion
  dsimp only
  split
  · rfl
  · rw [fetch2_recovering, h]

theorem insertion_step (A : Atn) (s : Nat) (chain : List Nat) (σ : Rec) : Step σ (insertion A s chain σ).1 := by
  unfold insertion
  split
  · exact .refl σ
  · split
    · exact report_step _ _
    · exact .refl σ

theorem insertion_grew (A : Atn) (s : Nat) (chain : List Nat) {σ : Rec} (h : σ.recovering = false)
    (hd : (insertion A s chain σ).2 = true) : Grew σ (insertion A s chain σ).1 := by
  unfold insertion at hd ⊢
  split at hd
  · cases hd
  · split
    · exact report_grew _ h
    · rename_i hc
      rw [if_neg hc] at hd
      cases hd

theorem insertion_recovering (A : Atn) (s : Nat) (chain : List Nat) {σ : Rec} (h : σ.recovering = false)
    (hd : (insertion A s chain σ).2 = false) : (insertion A s chain σ).1.recovering = false := by
  unfold insertion at hd ⊢
  split at hd
  · exact h
  · split at hd
    · cases hd
    · rename_i hc
      rw [if_neg hc]
      exact h

theorem matchTok_step (A : Atn) (ty s : Nat) (chain : List Nat) (σ : Rec) : Step σ (matchTok A ty s chain σ).1 := by
  unfold matchTok
  split
  · exact (matched_step _).trans (consume_step _)
  · have h := deletion_step A s chain σ
    generalize deletion A s chain σ = x at h ⊢
    obtain ⟨σ1, ok⟩ := x
    dsimp only at h ⊢
    split
    · exact h.trans (consume_step _)
    · exact h.trans (insertion_step _ _ _ _)

/-- If the token does not match, something is reported, or the rule cannot go on and can report. -/
theorem matchTok_grew (A : Atn) (ty s : Nat) (chain : List Nat) {σ : Rec} (h : σ.recovering = false) (hn : σ.la ≠ some ty) :
    ((matchTok A ty s chain σ).2 = true → Grew σ (matchTok A ty s chain σ).1) ∧
    ((matchTok A ty s chain σ).2 = false → (matchTok A ty s chain σ).1.recovering = false) := by
  unfold matchTok
  rw [if_neg hn]
  have h1 := deletion_step A s chain σ
  have h2 := deletion_grew A s chain h
  have h3 := deletion_recovering A s chain h
  generalize deletion A s chain σ = x at h1 h2 h3 ⊢
  obtain ⟨σ1, ok⟩ := x
  dsimp only at h1 h2 h3 ⊢
  cases ok with
  | true => exact ⟨fun _ => (h2 rfl).left (consume_step _), fun hc => by cases hc⟩
  | false =>
    exact ⟨fun hc => .right h1 (insertion_grew A s chain h3 hc), fun hc => insertion_recovering A s chain h3 hc⟩

theorem skipTo_step (A : Atn) (chain : List Nat) : ∀ f σ, Step σ (skipTo A chain f σ)
  | 0, σ => .refl σ
  | f + 1, σ => by
    rw [skipTo]
    split
    · exact .refl σ
    · split
      · exact .refl σ
      · exact (consume_step σ).trans (skipTo_step A chain f _)

theorem recover_step (A : Atn) (s : Nat) (chain : List Nat) (σ : Rec) : Step σ (recover A s chain σ) := by
  unfold recover
  dsimp only
  refine .trans (b := if σ.lastIndex = some σ.index ∧ s ∈ σ.lastStates then σ.consume else σ) ?_ (.trans ?_ (skipTo_step _ _ _ _))
  · split
    · exact consume_step σ
    · exact .refl σ
  · exact ⟨fun h => ⟨h.head, h.good⟩, fun _ h => ⟨h.rest, h.eof, h.reports⟩, le_refl _, List.prefix_rfl, rfl⟩

theorem mismatch_step (A : Atn) (s : Nat) (chain : List Nat) (σ : Rec) : Step σ (mismatch A s chain σ) :=
  (report_step _ _).trans (recover_step _ _ _ _)

theorem mismatch_grew (A : Atn) (s : Nat) (chain : List Nat) {σ : Rec} (h : σ.recovering = false) : Grew σ (mismatch A s chain σ) :=
  (report_grew _ h).left (recover_step _ _ _ _)

theorem noViable_step (A : Atn) (s : Nat) (chain : List Nat) (σ : Rec) : Step σ (noViable A s chain σ) :=
  (report_step _ _).trans (recover_step _ _ _ _)

theorem syncTok_step (A : Atn) (s : Nat) (chain : List Nat) (σ : Rec) : Step σ (syncTok A s chain σ).1 := by
  unfold syncTok
  split
  · exact .refl σ
  · split
    · exact .refl σ
    · split
      · exact deletion_step _ _ _ _
      · exact .refl σ

theorem syncTok_end {s : Nat} (hs : s ∈ [59, 61]) (chain : List Nat) (σ : Rec) : syncTok parAtn s chain σ = (σ, true) := by
  unfold syncTok
  split
  · rfl
  · rw [if_pos (.inl (next_end s hs))]

theorem syncTok_has {s : Nat} {chain : List Nat} {σ : Rec} (h : (next parAtn s []).has σ.la = true) : syncTok parAtn s chain σ = (σ, true) := by
  unfold syncTok
  split
  · rfl
  · rw [if_pos (.inr h)]

/-! ## Consuming a token -/

/-- The state after a token was matched. -/
theorem eat_ok {σ : Rec} : Step σ σ.matched.consume := (matched_step σ).trans (consume_step _)

theorem eat_len {σ : Rec} (h : σ.rest ≠ []) : σ.matched.consume.rest.length < σ.rest.length := consume_len (σ := σ.matched) h

theorem eat_eq {σ : Rec} {e : Elem} {r : List Elem} (h : σ.rest = e :: r) :
    σ.matched.consume = { σ with rest := (settle r).2, index := σ.index + 1, recovering := false, lastIndex := none, lastStates := [],
                                 reports := σ.reports ++ (settle r).1 } := by
  unfold Rec.consume
  have : σ.matched.rest = e :: r := h
  split
  · rename_i h'; rw [h'] at this; cases this
  · rename_i e' r' h'
    rw [h'] at this
    cases this
    rfl

/-- Either the next item is a token (or the end) and nothing else changes, or it is an error that is reported. -/
theorem eat_cases {σ : Rec} {e : Elem} {r : List Elem} (h : σ.rest = e :: r) :
    (peek (r.map erase) ≠ none ∧ σ.matched.consume.rest = r ∧ σ.matched.consume.reports = σ.reports ∧ σ.matched.consume.recovering = false) ∨
    (peek (r.map erase) = none ∧ Grew σ σ.matched.consume) := by
  by_cases hs : (settle r).1 = []
  · refine .inl ⟨(settle_peek r).1 hs, ?_, ?_, ?_⟩
    · rw [eat_eq h]; exact settle_none hs
    · rw [eat_eq h]; dsimp only; rw [hs, List.append_nil]
    · rw [eat_eq h]
  · refine .inr ⟨?_, ?_⟩
    · by_contra hp
      exact hs ((settle_peek r).2 hp)
    · rw [eat_eq h]
      unfold Grew
      rw [List.length_append]
      have := List.length_pos_iff.2 hs
      omega


/-! ## The rules -/

/-- The parse went as that of `Model/AtnParser.lean`, without a report. -/
def Clean (σ σ' : Rec) (t : Tree) (g : Option (Plural.Exp × List Item)) : Prop :=
  σ'.reports = σ.reports ∧ σ'.recovering = false ∧ g = (g.map Prod.fst).map (·, σ'.rest.map erase) ∧ (g.map fun x => treeOf x.1) = some t ∧
  σ'.rest <:+ σ.rest

theorem Clean.intro {σ σ' : Rec} {t : Tree} {g : Option (Plural.Exp × List Item)} {e : Plural.Exp} (h1 : σ'.reports = σ.reports)
    (h2 : σ'.recovering = false) (h3 : g = some (e, σ'.rest.map erase)) (h4 : t = treeOf e) (h5 : σ'.rest <:+ σ.rest) :
    Clean σ σ' t g := by
  subst h3 h4
  exact ⟨h1, h2, rfl, rfl, h5⟩

theorem Clean.elim {σ σ' : Rec} {t : Tree} {g : Option (Plural.Exp × List Item)} (h : Clean σ σ' t g) :
    ∃ e, σ'.reports = σ.reports ∧ σ'.recovering = false ∧ g = some (e, σ'.rest.map erase) ∧ t = treeOf e := by
  obtain ⟨h1, h2, h3, h4, -⟩ := h
  cases g with
  | none => cases h4
  | some x =>
    obtain ⟨e, r⟩ := x
    simp only [Option.map_some, Option.some.injEq, Prod.mk.injEq, true_and] at h3 h4
    exact ⟨e, h1, h2, by rw [h3], h4.symm⟩

/-- What the recovering parser finds, compared with what the other one does. -/
def Follows (σ σ' : Rec) (t : Tree) (g : Option (Plural.Exp × List Item)) : Prop :=
  σ.recovering = false → Clean σ σ' t g ∨ (Grew σ σ' ∧ g = none)

/-- The same for an operand; an error behind it is noticed later by the other parser. -/
def FollowsA (σ σ' : Rec) (t : Tree) (g : Option (Plural.Exp × List Item)) : Prop :=
  σ.recovering = false → Clean σ σ' t g ∨ (Grew σ σ' ∧ ∀ x, g = some x → peek x.2 = none)

theorem gLoop_bad {f s p : Nat} {l : Plural.Exp} {is : List Item} (h : peek is = none) : gLoop parAtn f s p l is = none := by
  cases f with
  | zero => rw [gLoop]
  | succ f => rw [gLoop, h]

theorem gExp_bad {f p : Nat} {is : List Item} (h : peek is = none) : gExp parAtn f p is = none := by
  cases f with
  | zero => rw [gExp]
  | succ f =>
    rw [gExp]
    cases f with
    | zero => rw [gAtom]
    | succ f => rw [gAtom, h]

theorem peek_ok {σ : Rec} (h : Ok σ) : peek (σ.rest.map erase) = some σ.la := by
  have := h.head
  unfold Rec.la
  cases hr : σ.rest with
  | nil => rfl
  | cons e r =>
    rw [hr] at this
    cases e with
    | tok => rfl
    | bad => cases this

theorem la_lt {σ : Rec} (h : Ok σ) {ty : Nat} (hl : σ.la = some ty) : 1 ≤ ty ∧ ty < 29 := by
  unfold Rec.la at hl
  have hg := h.good
  cases hr : σ.rest with
  | nil => rw [hr] at hl; cases hl
  | cons e r =>
    rw [hr] at hl hg
    cases e with
    | bad => cases hl
    | tok ty' w l c =>
      cases hl
      rcases good_cases (hg _ List.mem_cons_self) with ⟨h1, h2, -⟩ | ⟨rfl, -⟩
      · omega
      · omega

/-- The tokens with which an operand begins. -/
def firstExp : List Nat := [1, 2, 3, 4, 5, 6, 25, 27, 28]

theorem sync14_iff {σ : Rec} (h : Ok σ) : sync parAtn 14 σ.la = if (next parAtn 14 []).has σ.la = true then some () else none := by
  cases hl : σ.la with
  | none => rw [sync_14_eof, next_14]; rfl
  | some ty =>
    rw [sync_14 ty (la_lt h hl).2, next_14]
    simp [Tokens.has]

/-- The loop stops. -/
theorem rLoop_stop {f s p : Nat} {chain : List Nat} {l : Tree} {σ : Rec} (hs : s ∈ [59, 61]) (h : ¬Continues p σ.la) :
    rLoop parAtn (f + 1) s p chain l σ = some (l, σ) := by
  rw [rLoop.eq_def]
  dsimp only
  rw [syncTok_end hs]
  dsimp only
  rw [predict_59, if_neg h]
  rfl

/-- The loop goes on. -/
theorem rLoop_go {f s p ty i l' c' : Nat} {chain : List Nat} {l : Tree} {σ : Rec} {w : List Nat} {r : List Elem} (hs : s ∈ [59, 61])
    (hr : σ.rest = .tok ty w l' c' :: r) (h : Continues p (some ty)) (hty : ty < 29) (hi : goesOn ty = some i) :
    rLoop parAtn (f + 1) s p chain l σ =
      if loopAlt i = 12 then
        if p ≤ 1 ∧ ty = 23 then
          (rExp parAtn f 0 (51 :: chain) σ.matched.consume).bind fun x =>
            if (matchTok parAtn 24 52 chain x.2).2 then
              (rExp parAtn f 1 (53 :: chain) (matchTok parAtn 24 52 chain x.2).1).bind fun y =>
                rLoop parAtn f 61 p chain (.tern l x.1 y.1) y.2
            else some (.cut l x.1, mismatch parAtn 52 chain (matchTok parAtn 24 52 chain x.2).1)
        else none
      else if loopAlt i = 13 then
        if p ≤ 15 ∧ (ty = 1 ∨ ty = 2) then
          (postText w).bind fun o => rLoop parAtn f 61 p chain (.post o l) σ.matched.consume
        else none
      else (binAlts[loopAlt i - 1]?).bind fun x =>
        if p ≤ x.1 ∧ x.2.1 ty then
          (opText w).bind fun o => (rExp parAtn f x.2.2 ((15 + 3 * loopAlt i) :: chain) σ.matched.consume).bind fun y =>
            rLoop parAtn f 61 p chain (.bin o l y.1) y.2
        else none := by
  have hla : σ.la = some ty := by unfold Rec.la; rw [hr]; rfl
  rw [rLoop.eq_def]
  dsimp only
  rw [syncTok_end hs]
  dsimp only
  rw [hla, predict_59, if_pos h]
  simp only []
  rw [syncTok_has (by rw [hla]; exact next_57 ty hty (by rw [hi]; simp))]
  dsimp only
  rw [hla, predict_57, if_pos h, hr, Option.bind_some, hi]
  change (if loopAlt i = 12 then _ else _) = _
  by_cases h12 : loopAlt i = 12
  · rw [if_pos h12, if_pos h12]
    by_cases hc : p ≤ 1 ∧ ty = 23
    · rw [if_pos hc, if_pos hc]
      cases rExp parAtn f 0 (51 :: chain) σ.matched.consume with
      | none => rfl
      | some x =>
        dsimp only [Option.bind_some]
        rcases matchTok parAtn 24 52 chain x.2 with ⟨σ1, ok⟩
        cases ok with
        | false => rfl
        | true =>
          dsimp only
          rw [if_pos rfl]
          cases rExp parAtn f 1 (53 :: chain) σ1 with
          | none => rfl
          | some y => rfl
    · rw [if_neg hc, if_neg hc]
  · rw [if_neg h12, if_neg h12]
    simp only [Option.getD_some]
    by_cases h13 : loopAlt i = 13
    · rw [if_pos h13, if_pos h13]
      by_cases hc : p ≤ 15 ∧ (ty = 1 ∨ ty = 2)
      · rw [if_pos hc, if_pos hc]
        cases postText w with
        | none => rfl
        | some o => rfl
      · rw [if_neg hc, if_neg hc]
    · rw [if_neg h13, if_neg h13]
      cases binAlts[loopAlt i - 1]? with
      | none => rfl
      | some x =>
        dsimp only [Option.bind_some]
        by_cases hc : p ≤ x.1 ∧ x.2.1 ty
        · rw [if_pos hc, if_pos hc]
          cases opText w with
          | none => rfl
          | some o =>
            dsimp only [Option.bind_some]
            cases rExp parAtn f x.2.2 ((15 + 3 * loopAlt i) :: chain) σ.matched.consume with
            | none => rfl
            | some y => rfl
        · rw [if_neg hc, if_neg hc]


/-! ### Operands -/

theorem gAtom_leaf {f ty : Nat} {w : List Nat} {r : List Item} (h : ty = 27 ∨ ty = 28) :
    gAtom parAtn (f + 1) (.tok ty w :: r) = some (leaf w, r) := by
  rw [gAtom]
  dsimp only [peek]
  rcases h with rfl | rfl
  · rw [sync_14 27 (by decide), if_pos (by decide)]
    dsimp only
    rw [if_pos (by decide), sync_68 27 (by decide), if_neg (by decide)]
  · rw [sync_14 28 (by decide), if_pos (by decide)]
    dsimp only
    rw [if_pos (by decide), sync_68 28 (by decide), if_neg (by decide)]

theorem gAtom_paren {f : Nat} {w : List Nat} {r : List Item} : gAtom parAtn (f + 1) (.tok 25 w :: r) =
    (gExp parAtn f 0 r).bind fun x => (accept 26 x.2).bind fun r' => some (.paren x.1, r') := by
  rw [gAtom]
  dsimp only [peek]
  rw [sync_14 25 (by decide), if_pos (by decide)]
  dsimp only
  rw [if_pos (by decide), sync_68 25 (by decide), if_pos rfl]
  cases gExp parAtn f 0 r with
  | none => rfl
  | some x =>
    dsimp only [Option.bind_some]
    cases accept 26 x.2 <;> rfl

theorem gAtom_pre {f ty : Nat} {w : List Nat} {r : List Item} {o : Plural.Pre} (h : ty ∈ [1, 2, 3, 4, 5, 6]) (ho : preText w = some o) :
    gAtom parAtn (f + 1) (.tok ty w :: r) = (gExp parAtn f (if ty ≤ 4 then 14 else 13) r).map fun x => (.pre o x.1, x.2) := by
  have h' : 1 ≤ ty ∧ ty ≤ 6 := by simp at h; omega
  rw [gAtom]
  dsimp only [peek]
  rw [sync_14 ty (by omega), if_pos (by simp at h ⊢; omega)]
  dsimp only
  rw [if_neg (by omega), ho]
  by_cases h4 : ty ≤ 4
  · have hk : inMask 30 ty = true := by
      have : ty = 1 ∨ ty = 2 ∨ ty = 3 ∨ ty = 4 := by omega
      rcases this with rfl | rfl | rfl | rfl <;> decide
    rw [if_pos (by omega), if_pos hk, if_pos h4]
    dsimp only
    cases gExp parAtn f 14 r <;> rfl
  · rw [if_neg (by omega), if_pos (by omega), if_neg h4]
    dsimp only
    cases gExp parAtn f 13 r <;> rfl

theorem gAtom_other {f : Nat} {is : List Item} {la : Option Nat} (hp : peek is = some la) (h : sync parAtn 14 la = none) :
    gAtom parAtn f is = none := by
  cases f with
  | zero => rw [gAtom]
  | succ f => rw [gAtom, hp]; dsimp only; rw [h]

theorem rAtom_leaf {f ty l c : Nat} {chain : List Nat} {σ : Rec} {w : List Nat} {r : List Elem} (h : ty = 27 ∨ ty = 28)
    (hr : σ.rest = .tok ty w l c :: r) : rAtom parAtn (f + 1) chain σ = some (some (treeOf (leaf w)), σ.matched.consume) := by
  have hla : σ.la = some ty := by unfold Rec.la; rw [hr]; rfl
  have hs : syncTok parAtn 68 (9 :: chain) σ = (σ, true) :=
    syncTok_has (by rw [hla]; exact next_68 ty (by rcases h with rfl | rfl <;> decide))
  rw [rAtom, hr]
  dsimp only
  rw [if_pos (by omega), hs]
  dsimp only
  rw [if_neg (by omega)]

theorem rAtom_paren {f l c : Nat} {chain : List Nat} {σ : Rec} {w : List Nat} {r : List Elem} (hr : σ.rest = .tok 25 w l c :: r) :
    rAtom parAtn (f + 1) chain σ = (rExp parAtn f 0 (63 :: 9 :: chain) σ.matched.consume).map fun x =>
      (some (.paren x.1), if (matchTok parAtn 26 64 (9 :: chain) x.2).2 then (matchTok parAtn 26 64 (9 :: chain) x.2).1
        else mismatch parAtn 64 (9 :: chain) (matchTok parAtn 26 64 (9 :: chain) x.2).1) := by
  have hla : σ.la = some 25 := by unfold Rec.la; rw [hr]; rfl
  have hs : syncTok parAtn 68 (9 :: chain) σ = (σ, true) := syncTok_has (by rw [hla]; exact next_68 25 (by decide))
  rw [rAtom, hr]
  dsimp only
  rw [if_pos (by decide), hs]
  dsimp only
  rw [if_pos rfl]
  cases rExp parAtn f 0 (63 :: 9 :: chain) σ.matched.consume with
  | none => rfl
  | some x =>
    dsimp only [Option.map_some]
    rcases matchTok parAtn 26 64 (9 :: chain) x.2 with ⟨σ1, ok⟩
    cases ok <;> rfl

theorem rAtom_pre {f ty l c : Nat} {chain : List Nat} {σ : Rec} {w : List Nat} {r : List Elem} {o : Plural.Pre}
    (h : ty ∈ [1, 2, 3, 4, 5, 6]) (ho : preText w = some o) (hr : σ.rest = .tok ty w l c :: r) :
    rAtom parAtn (f + 1) chain σ = (rExp parAtn f (if ty ≤ 4 then 14 else 13) ((if ty ≤ 4 then 11 else 13) :: chain) σ.matched.consume).map
      fun x => (some (.pre o x.1), x.2) := by
  have h' : 1 ≤ ty ∧ ty ≤ 6 := by simp at h; omega
  rw [rAtom, hr]
  dsimp only
  rw [if_neg (by omega), ho]
  by_cases h4 : ty ≤ 4
  · have hk : inMask 30 ty = true := by
      have : ty = 1 ∨ ty = 2 ∨ ty = 3 ∨ ty = 4 := by omega
      rcases this with rfl | rfl | rfl | rfl <;> decide
    rw [if_pos (by omega), if_pos hk, if_pos h4, if_pos h4]
  · rw [if_neg (by omega), if_pos (by omega), if_neg h4, if_neg h4]

theorem rAtom_other {f : Nat} {chain : List Nat} {σ : Rec} (h : (next parAtn 14 []).has σ.la = false) :
    rAtom parAtn (f + 1) chain σ = some (none, σ) := by
  rw [rAtom]
  rw [next_14] at h
  unfold Rec.la typeOf at h
  split
  · rename_i ty w l c r hr
    rw [hr] at h
    simp [Tokens.has] at h
    rw [if_neg (by omega), if_neg (by omega), if_neg (by omega)]
  · rfl


/-! ### All rules together -/

theorem la_nil {σ : Rec} (h : σ.la ≠ none) : σ.rest ≠ [] := by
  intro hr
  apply h
  unfold Rec.la
  rw [hr]
  rfl

theorem accept_la {ty : Nat} {σ : Rec} (h : σ.la ≠ some ty) : accept ty (σ.rest.map erase) = none := by
  unfold Rec.la at h
  cases hr : σ.rest with
  | nil => rfl
  | cons e r =>
    rw [hr] at h
    cases e with
    | bad => rfl
    | tok ty' w l c =>
      change accept ty (.tok ty' w :: _) = none
      rw [accept, if_neg]
      intro he
      subst he
      exact h rfl

theorem la_cons {ty : Nat} {σ : Rec} (h : σ.la = some ty) : ∃ w l c r, σ.rest = .tok ty w l c :: r := by
  unfold Rec.la at h
  cases hr : σ.rest with
  | nil => rw [hr] at h; cases h
  | cons e r =>
    rw [hr] at h
    cases e with
    | bad => cases h
    | tok ty' w l c => cases h; exact ⟨w, l, c, r, rfl⟩

theorem Clean.suffix {σ σ' : Rec} {t : Tree} {g : Option (Plural.Exp × List Item)} (h : Clean σ σ' t g) : σ'.rest <:+ σ.rest := h.2.2.2.2

theorem Clean.trans {σ σ1 σ2 : Rec} {t : Tree} {g : Option (Plural.Exp × List Item)} (h : σ1.reports = σ.reports)
    (hs : σ1.rest <:+ σ.rest) (hc : Clean σ1 σ2 t g) : Clean σ σ2 t g := ⟨hc.1.trans h, hc.2.1, hc.2.2.1, hc.2.2.2.1, hc.suffix.trans hs⟩

theorem Grew.of_eq {σ σ1 σ2 : Rec} (h : σ1.reports = σ.reports) (hc : Grew σ1 σ2) : Grew σ σ2 := by
  unfold Grew at *
  rwa [h] at hc

/-- What is proved about `exp`. -/
def AtE (f : Nat) : Prop := ∀ p chain σ, Ok σ → 2 * σ.rest.length + 2 ≤ f → ∃ t σ', rExp parAtn f p chain σ = some (t, σ') ∧ Step σ σ' ∧
  Follows σ σ' t (gExp parAtn f p (σ.rest.map erase))

/-- What is proved about operands. -/
def AtA (f : Nat) : Prop := ∀ chain σ, Ok σ → 2 * σ.rest.length + 1 ≤ f → ∃ o σ', rAtom parAtn f chain σ = some (o, σ') ∧ Step σ σ' ∧
  (o = none → σ' = σ ∧ (next parAtn 14 []).has σ.la = false) ∧
  ∀ t, o = some t → σ'.rest.length < σ.rest.length ∧ FollowsA σ σ' t (gAtom parAtn f (σ.rest.map erase))

/-- What is proved about the loop. -/
def AtL (f : Nat) : Prop := ∀ s p chain l σ, s ∈ [59, 61] → Ok σ → 2 * σ.rest.length + 1 ≤ f → ∃ t σ',
  rLoop parAtn f s p chain l σ = some (t, σ') ∧ Step σ σ' ∧ ∀ e, l = treeOf e → Follows σ σ' t (gLoop parAtn f s p e (σ.rest.map erase))

theorem atE_succ {f : Nat} (ihA : AtA f) (ihL : AtL f) : AtE (f + 1) := by
  intro p chain σ hok hf
  have main : ∀ σ1, Ok σ1 → 2 * σ1.rest.length + 1 ≤ f → ∃ t σ', (match rAtom parAtn f chain σ1 with
      | none => none
      | some (none, σ) => some (.hole, noViable parAtn 14 chain σ)
      | some (some a, σ) => rLoop parAtn f 59 p chain a σ) = some (t, σ') ∧ Step σ1 σ' := by
    intro σ1 h1 h2
    obtain ⟨o, σ2, ho, hs, -, hsome⟩ := ihA chain σ1 h1 h2
    rw [ho]
    cases o with
    | none => exact ⟨_, _, rfl, hs.trans (noViable_step _ _ _ _)⟩
    | some a =>
      have := (hsome a rfl).1
      obtain ⟨t, σ', h, hs', -⟩ := ihL 59 p chain a σ2 (by simp) (hs.ok h1) (by omega)
      exact ⟨t, σ', h, hs.trans hs'⟩
  rw [rExp]
  by_cases hn : (next parAtn 14 []).has σ.la = true
  · rw [syncTok_has hn]
    dsimp only
    obtain ⟨o, σ1, ho, hs, hnone, hsome⟩ := ihA chain σ hok (by omega)
    rw [ho]
    cases o with
    | none => rw [(hnone rfl).2] at hn; cases hn
    | some a =>
      obtain ⟨hl, hfa⟩ := hsome a rfl
      obtain ⟨t, σ', h, hs', hfl⟩ := ihL 59 p chain a σ1 (by simp) (hs.ok hok) (by omega)
      refine ⟨t, σ', h, hs.trans hs', fun hrec => ?_⟩
      rw [gExp]
      rcases hfa hrec with hc | ⟨hg, hb⟩
      · obtain ⟨e, e1, e2, e3, e4⟩ := hc.elim
        rw [e3]
        dsimp only
        rcases hfl e e4 e2 with hc' | ⟨hg', hn'⟩
        · exact .inl (hc'.trans e1 hc.suffix)
        · exact .inr ⟨hg'.of_eq e1, hn'⟩
      · refine .inr ⟨hg.left hs', ?_⟩
        cases hga : gAtom parAtn f (σ.rest.map erase) with
        | none => rfl
        | some x => exact gLoop_bad (hb x hga)
  · have hsync : gExp parAtn (f + 1) p (σ.rest.map erase) = none := by
      rw [gExp, gAtom_other (peek_ok hok) (by rw [sync14_iff hok, if_neg hn])]
    have hstep := syncTok_step parAtn 14 chain σ
    have hrec' : σ.recovering = false → syncTok parAtn 14 chain σ = deletion parAtn 14 chain σ := by
      intro hrec
      unfold syncTok
      rw [if_neg (by rw [hrec]; decide), if_neg (by rw [not_or]; exact ⟨by rw [next_14]; decide, hn⟩),
        if_pos (by decide +kernel)]
    have htrue : σ.recovering = true → (syncTok parAtn 14 chain σ).2 = true := by
      intro hrec
      unfold syncTok
      rw [if_pos hrec]
    rw [hsync]
    cases hx : syncTok parAtn 14 chain σ with
    | mk σ1 ok =>
      rw [hx] at hstep hrec' htrue
      dsimp only at hstep htrue
      cases ok with
      | false =>
        refine ⟨_, _, rfl, hstep.trans (mismatch_step _ _ _ _), fun hrec => .inr ⟨?_, rfl⟩⟩
        have hd := deletion_recovering parAtn 14 chain hrec
        rw [← hrec' hrec] at hd
        exact .right hstep (mismatch_grew _ _ _ hd)
      | true =>
        dsimp only
        have := hstep.len
        obtain ⟨t, σ', h, hs'⟩ := main σ1 (hstep.ok hok) (by omega)
        refine ⟨t, σ', h, hstep.trans hs', fun hrec => .inr ⟨?_, rfl⟩⟩
        have hd := deletion_grew parAtn 14 chain hrec
        rw [← hrec' hrec] at hd
        exact (hd rfl).left hs'

theorem atA_succ {f : Nat} (ihE : AtE f) : AtA (f + 1) := by
  intro chain σ hok hf
  by_cases hn : (next parAtn 14 []).has σ.la = true
  · have hne : σ.la ≠ none := by
      intro h
      rw [h, next_14] at hn
      cases hn
    obtain ⟨ty, hla⟩ := Option.ne_none_iff_exists'.1 hne
    obtain ⟨w, l, c, r, hr⟩ := la_cons hla
    have hmap : σ.rest.map erase = .tok ty w :: r.map erase := by rw [hr]; rfl
    have hlen : σ.matched.consume.rest.length < σ.rest.length := eat_len (by rw [hr]; simp)
    have hokc : Ok σ.matched.consume := eat_ok.ok hok
    have hgood : Good (.tok ty w) := hok.good (.tok ty w l c) (by rw [hr]; simp)
    have hcase : ty ∈ [1, 2, 3, 4, 5, 6] ∨ ty = 25 ∨ ty = 27 ∨ ty = 28 := by
      rw [hla, next_14] at hn
      simp [Tokens.has] at hn ⊢
      omega
    rw [hmap]
    rcases hcase with hpre | rfl | hleaf
    · have hw : w = litText ty := by
        rcases good_cases hgood with ⟨-, -, h⟩ | ⟨rfl, -⟩
        · exact h
        · simp at hpre
      obtain ⟨o, ho, -, -⟩ := pre_class ty (by simp at hpre; omega) hpre
      rw [← hw] at ho
      rw [rAtom_pre hpre ho hr, gAtom_pre hpre ho]
      obtain ⟨t, σ', h, hs, hfl⟩ := ihE (if ty ≤ 4 then 14 else 13) ((if ty ≤ 4 then 11 else 13) :: chain) _ hokc (by omega)
      rw [h]
      refine ⟨_, _, rfl, eat_ok.trans hs, fun hc => (by cases hc), fun t' ht' => ?_⟩
      cases ht'
      refine ⟨Nat.lt_of_le_of_lt hs.len hlen, fun hrec => ?_⟩
      rcases eat_cases hr with ⟨hp, c1, c2, c3⟩ | ⟨hp, hg⟩
      · rw [c1] at hfl
        rcases hfl c3 with hc | ⟨hg, hnn⟩
        · obtain ⟨e, e1, e2, e3, e4⟩ := hc.elim
          refine .inl (.intro (e := .pre o e) (e1.trans c2) e2 ?_ ?_ ?_)
          · rw [e3]; rfl
          · rw [e4]; rfl
          · exact hc.suffix.trans (c1 ▸ hr ▸ List.suffix_cons _ _)
        · refine .inr ⟨hg.of_eq c2, ?_⟩
          rw [hnn]
          intro x hx; cases hx
      · refine .inr ⟨hg.left hs, ?_⟩
        rw [gExp_bad hp]
        intro x hx; cases hx
    · rw [rAtom_paren hr, gAtom_paren]
      obtain ⟨t, σ1, h, hs, hfl⟩ := ihE 0 (63 :: 9 :: chain) _ hokc (by omega)
      rw [h]
      have hm := matchTok_step parAtn 26 64 (9 :: chain) σ1
      have hfin : Step σ1 (if (matchTok parAtn 26 64 (9 :: chain) σ1).2 then (matchTok parAtn 26 64 (9 :: chain) σ1).1
          else mismatch parAtn 64 (9 :: chain) (matchTok parAtn 26 64 (9 :: chain) σ1).1) := by
        split
        · exact hm
        · exact hm.trans (mismatch_step _ _ _ _)
      refine ⟨_, _, rfl, (eat_ok.trans hs).trans hfin, fun hc => (by cases hc), fun t' ht' => ?_⟩
      cases ht'
      refine ⟨Nat.lt_of_le_of_lt (hs.trans hfin).len hlen, fun hrec => ?_⟩
      rcases eat_cases hr with ⟨hp, c1, c2, c3⟩ | ⟨hp, hg⟩
      · rw [c1] at hfl
        rcases hfl c3 with hc | ⟨hg, hnn⟩
        · obtain ⟨e, e1, e2, e3, e4⟩ := hc.elim
          rw [e3]
          dsimp only [Option.bind_some]
          by_cases h26 : σ1.la = some 26
          · obtain ⟨w2, l2, d2, r2, hr2⟩ := la_cons h26
            have hmt : matchTok parAtn 26 64 (9 :: chain) σ1 = (σ1.matched.consume, true) := by
              unfold matchTok
              rw [if_pos h26]
            rw [hmt]
            dsimp only
            rw [if_pos rfl]
            have hacc : accept 26 (σ1.rest.map erase) = some (r2.map erase) := by
              rw [hr2]
              change accept 26 (.tok 26 w2 :: _) = _
              rw [accept, if_pos rfl]
            rw [hacc]
            rcases eat_cases hr2 with ⟨hp2, f1, f2, f3⟩ | ⟨hp2, hg2⟩
            · refine .inl (.intro (e := .paren e) (f2.trans (e1.trans c2)) f3 ?_ ?_ ?_)
              · rw [f1]; rfl
              · rw [e4]; rfl
              · exact (f1 ▸ hr2 ▸ List.suffix_cons _ _ : σ1.matched.consume.rest <:+ σ1.rest).trans
                  (hc.suffix.trans (c1 ▸ hr ▸ List.suffix_cons _ _))
            · refine .inr ⟨(hg2.of_eq e1).of_eq c2, ?_⟩
              intro x hx
              cases hx
              exact hp2
          · rw [accept_la h26]
            obtain ⟨g1, g2⟩ := matchTok_grew parAtn 26 64 (9 :: chain) e2 h26
            refine .inr ⟨?_, fun x hx => by cases hx⟩
            refine Grew.of_eq (e1.trans c2) ?_
            split
            · rename_i hb; exact g1 hb
            · rename_i hb
              exact .right hm (mismatch_grew _ _ _ (g2 (by simpa using hb)))
        · refine .inr ⟨(hg.of_eq c2).left hfin, ?_⟩
          rw [hnn]
          intro x hx; cases hx
      · refine .inr ⟨hg.left (hs.trans hfin), ?_⟩
        rw [gExp_bad hp]
        intro x hx; cases hx
    · rw [rAtom_leaf hleaf hr, gAtom_leaf hleaf]
      refine ⟨_, _, rfl, eat_ok, fun hc => (by cases hc), fun t' ht' => ?_⟩
      cases ht'
      refine ⟨hlen, fun hrec => ?_⟩
      rcases eat_cases hr with ⟨hp, c1, c2, c3⟩ | ⟨hp, hg⟩
      · exact .inl (.intro (e := leaf w) c2 c3 (by rw [c1]) rfl (c1 ▸ hr ▸ List.suffix_cons _ _))
      · refine .inr ⟨hg, ?_⟩
        intro x hx
        cases hx
        exact hp
  · have hn' : (next parAtn 14 []).has σ.la = false := by simpa using hn
    rw [rAtom_other hn']
    exact ⟨_, _, rfl, .refl σ, fun _ => ⟨rfl, hn'⟩, fun t ht => by cases ht⟩


/-- How a token goes on with the loop, if it does. -/
theorem go_class {ty : Nat} {w : List Nat} (hg : Good (.tok ty w)) {i : Nat} (hi : goesOn ty = some i) :
    (∃ o, w = litText ty ∧ opText w = some o ∧ levelAt i = Plural.goTable.op o ∧ loopAlt i ≠ 12 ∧ loopAlt i ≠ 13 ∧
      ∃ types, binAlts[loopAlt i - 1]? = some (Plural.goTable.op o, types, Plural.goTable.op o + 1) ∧ types ty = true) ∨
    (∃ o, (ty = 1 ∨ ty = 2) ∧ postText w = some o ∧ loopAlt i = 13 ∧ levelAt i = 15) ∨
    (ty = 23 ∧ loopAlt i = 12 ∧ levelAt i = 1) := by
  rcases good_cases hg with ⟨t1, t2, rfl⟩ | ⟨rfl, hw, hd⟩
  · by_cases hop : ty ∈ [3, 4, 7, 8, 9, 10, 11, 12, 13, 14, 15, 16, 17, 18, 19, 20, 21, 22]
    · obtain ⟨o, j, types, c1, c2, c3, c4, c5, c6, c7, c8⟩ := op_class ty t2 hop
      rw [c3] at hi; cases hi
      exact .inl ⟨o, rfl, c1, c4, c5, c6, types, c7, c8⟩
    · by_cases hpost : ty ∈ [1, 2]
      · obtain ⟨o, c1, c2, c3⟩ := post_class ty t2 hpost
        rw [c3] at hi; cases hi
        exact .inr (.inl ⟨o, by simpa using hpost, c1, by decide, rfl⟩)
      · by_cases h23 : ty = 23
        · subst h23
          have c3 : goesOn 23 = some 15 := by decide +kernel
          rw [c3] at hi; cases hi
          exact .inr (.inr ⟨rfl, by decide, rfl⟩)
        · have hno : ty ∈ [5, 6, 24, 25, 26, 27] := by simp at hop hpost ⊢; omega
          rw [(loop_other ty t2 t1 hno).1] at hi; cases hi
  · have c3 : goesOn 28 = none := by decide +kernel
    rw [c3] at hi; cases hi

theorem atL_succ {f : Nat} (ihE : AtE f) (ihL : AtL f) : AtL (f + 1) := by
  intro s p chain l σ hs hok hf
  by_cases hcont : Continues p σ.la
  · obtain ⟨ty, i, hla, hi, hlev⟩ := hcont
    obtain ⟨w, ln, c, r, hr⟩ := la_cons hla
    have hty := (la_lt hok hla).2
    have hcont : Continues p (some ty) := ⟨ty, i, rfl, hi, hlev⟩
    have hmap : σ.rest.map erase = .tok ty w :: r.map erase := by rw [hr]; rfl
    have hlen : σ.matched.consume.rest.length < σ.rest.length := eat_len (by rw [hr]; simp)
    have hokc : Ok σ.matched.consume := eat_ok.ok hok
    have hgood : Good (.tok ty w) := hok.good (.tok ty w ln c) (by rw [hr]; simp)
    rw [rLoop_go hs hr hcont hty hi, hmap]
    simp only [gLoop_go hs hcont hty hi]
    rcases go_class hgood hi with ⟨o, -, ho, hl, n12, n13, types, hb, htt⟩ | ⟨o, hpo, ho, h13, hl⟩ | ⟨rfl, h12, hl⟩
    · rw [if_neg n12, if_neg n13, hb, Option.bind_some, if_pos ⟨hl ▸ hlev, htt⟩, ho, Option.bind_some]
      obtain ⟨t, σ1, h, hs1, hfl⟩ := ihE (Plural.goTable.op o + 1) ((15 + 3 * loopAlt i) :: chain) _ hokc (by omega)
      rw [h, Option.bind_some]
      have hl1 := hs1.len
      obtain ⟨t', σ', h', hs', hfl'⟩ := ihL 61 p chain (.bin o l t) σ1 (by simp) (hs1.ok hokc) (by omega)
      refine ⟨t', σ', h', (eat_ok.trans hs1).trans hs', fun e he hrec => ?_⟩
      simp only [if_neg n12, if_neg n13, Option.bind_some, if_pos (show p ≤ Plural.goTable.op o ∧ types ty = true from ⟨hl ▸ hlev, htt⟩)]
      rcases eat_cases hr with ⟨hp, c1, c2, c3⟩ | ⟨hp, hg⟩
      · rw [c1] at hfl
        rcases hfl c3 with hc | ⟨hg, hnn⟩
        · obtain ⟨e1, d1, d2, d3, d4⟩ := hc.elim
          rw [d3, Option.bind_some]
          rcases hfl' (.bin o e e1) (by rw [he, d4]; rfl) d2 with hc' | ⟨hg', hn'⟩
          · exact .inl (hc'.trans (d1.trans c2) (hc.suffix.trans (c1 ▸ hr ▸ List.suffix_cons _ _)))
          · exact .inr ⟨hg'.of_eq (d1.trans c2), hn'⟩
        · rw [hnn]
          exact .inr ⟨(hg.of_eq c2).left hs', rfl⟩
      · rw [gExp_bad hp]
        exact .inr ⟨hg.left (hs1.trans hs'), rfl⟩
    · have hc15 : p ≤ 15 ∧ (ty = 1 ∨ ty = 2) := ⟨hl ▸ hlev, hpo⟩
      have n12 : ¬loopAlt i = 12 := by omega
      rw [if_neg n12, if_pos h13, if_pos hc15, ho, Option.bind_some]
      obtain ⟨t', σ', h', hs', hfl'⟩ := ihL 61 p chain (.post o l) _ (by simp) hokc (by omega)
      refine ⟨t', σ', h', eat_ok.trans hs', fun e he hrec => ?_⟩
      simp only [if_neg n12, if_pos h13, if_pos hc15, Option.bind_some]
      rcases eat_cases hr with ⟨hp, c1, c2, c3⟩ | ⟨hp, hg⟩
      · rw [c1] at hfl'
        rcases hfl' (.post o e) (by rw [he]; rfl) c3 with hc' | ⟨hg', hn'⟩
        · exact .inl (hc'.trans c2 (c1 ▸ hr ▸ List.suffix_cons _ _))
        · exact .inr ⟨hg'.of_eq c2, hn'⟩
      · rw [gLoop_bad hp]
        exact .inr ⟨hg.left hs', rfl⟩
    · have hc1 : p ≤ 1 ∧ 23 = 23 := ⟨hl ▸ hlev, rfl⟩
      rw [if_pos h12, if_pos hc1]
      obtain ⟨t, σ1, h, hs1, hfl⟩ := ihE 0 (51 :: chain) _ hokc (by omega)
      rw [h, Option.bind_some]
      have hl1 := hs1.len
      have hm := matchTok_step parAtn 24 52 chain σ1
      have hl2 := hm.len
      have hmok := hm.ok (hs1.ok hokc)
      obtain ⟨t2, σ2, h2, hs2, hfl2⟩ := ihE 1 (53 :: chain) _ hmok (by omega)
      have hl3 := hs2.len
      obtain ⟨t3, σ3, h3, hs3, hfl3⟩ := ihL 61 p chain (.tern l t t2) σ2 (by simp) (hs2.ok hmok) (by omega)
      cases hb : (matchTok parAtn 24 52 chain σ1).2 with
      | false =>
        rw [if_neg (by simp)]
        refine ⟨_, _, rfl, ((eat_ok.trans hs1).trans hm).trans (mismatch_step _ _ _ _), fun e he hrec => ?_⟩
        rw [if_pos h12, if_pos hc1]
        rcases eat_cases hr with ⟨hp, c1, c2, c3⟩ | ⟨hp, hg⟩
        · rw [c1] at hfl
          rcases hfl c3 with hc | ⟨hg, hnn⟩
          · obtain ⟨e1, d1, d2, d3, d4⟩ := hc.elim
            have h24 : σ1.la ≠ some 24 := by
              intro h24
              unfold matchTok at hb
              rw [if_pos h24] at hb
              cases hb
            rw [d3, Option.bind_some, accept_la h24]
            exact .inr ⟨Grew.of_eq (d1.trans c2) (.right hm (mismatch_grew _ _ _ ((matchTok_grew _ _ _ _ d2 h24).2 hb))), rfl⟩
          · rw [hnn]
            exact .inr ⟨(hg.of_eq c2).left (hm.trans (mismatch_step _ _ _ _)), rfl⟩
        · rw [gExp_bad hp]
          exact .inr ⟨hg.left ((hs1.trans hm).trans (mismatch_step _ _ _ _)), rfl⟩
      | true =>
        rw [if_pos rfl, h2, Option.bind_some]
        refine ⟨t3, σ3, h3, (((eat_ok.trans hs1).trans hm).trans hs2).trans hs3, fun e he hrec => ?_⟩
        rw [if_pos h12, if_pos hc1]
        rcases eat_cases hr with ⟨hp, c1, c2, c3⟩ | ⟨hp, hg⟩
        · rw [c1] at hfl
          rcases hfl c3 with hc | ⟨hg, hnn⟩
          · obtain ⟨e1, d1, d2, d3, d4⟩ := hc.elim
            rw [d3, Option.bind_some]
            by_cases h24 : σ1.la = some 24
            · obtain ⟨w2, l2, k2, r2, hr2⟩ := la_cons h24
              have hmt : matchTok parAtn 24 52 chain σ1 = (σ1.matched.consume, true) := by
                unfold matchTok
                rw [if_pos h24]
              have hacc : accept 24 (σ1.rest.map erase) = some (r2.map erase) := by
                rw [hr2]
                change accept 24 (.tok 24 w2 :: _) = _
                rw [accept, if_pos rfl]
              rw [hacc, Option.bind_some]
              rw [hmt] at hfl2 hs2
              dsimp only at hfl2 hs2
              rcases eat_cases hr2 with ⟨hp2, f1, f2, f3⟩ | ⟨hp2, hg2⟩
              · rw [f1] at hfl2
                rcases hfl2 f3 with hc2 | ⟨hg2, hn2⟩
                · obtain ⟨e2, b1, b2, b3, b4⟩ := hc2.elim
                  rw [b3, Option.bind_some]
                  rcases hfl3 (.tern e e1 e2) (by rw [he, d4, b4]; rfl) b2 with hc3 | ⟨hg3, hn3⟩
                  · exact .inl (hc3.trans (b1.trans (f2.trans (d1.trans c2))) (hc2.suffix.trans ((f1 ▸ hr2 ▸ List.suffix_cons _ _ :
                    σ1.matched.consume.rest <:+ σ1.rest).trans (hc.suffix.trans (c1 ▸ hr ▸ List.suffix_cons _ _)))))
                  · exact .inr ⟨hg3.of_eq (b1.trans (f2.trans (d1.trans c2))), hn3⟩
                · rw [hn2]
                  exact .inr ⟨(hg2.of_eq (f2.trans (d1.trans c2))).left hs3, rfl⟩
              · rw [gExp_bad hp2]
                exact .inr ⟨(hg2.of_eq (d1.trans c2)).left (hs2.trans hs3), rfl⟩
            · rw [accept_la h24]
              exact .inr ⟨(Grew.of_eq (d1.trans c2) ((matchTok_grew _ _ _ _ d2 h24).1 hb)).left (hs2.trans hs3), rfl⟩
          · rw [hnn]
            exact .inr ⟨(hg.of_eq c2).left ((hm.trans hs2).trans hs3), rfl⟩
        · rw [gExp_bad hp]
          exact .inr ⟨hg.left (((hs1.trans hm).trans hs2).trans hs3), rfl⟩
  · rw [rLoop_stop hs hcont]
    refine ⟨l, σ, rfl, .refl σ, fun e he hrec => .inl (.intro (e := e) rfl hrec ?_ he List.suffix_rfl)⟩
    rw [gLoop.eq_def]
    dsimp only
    rw [peek_ok hok]
    dsimp only
    rw [sync_end hs, predict_59, if_neg hcont]
    rfl

theorem at_all : ∀ f, AtE f ∧ AtA f ∧ AtL f
  | 0 => ⟨fun _ _ _ _ h => by omega, fun _ _ _ h => by omega, fun _ _ _ _ _ _ _ h => by omega⟩
  | f + 1 =>
    have ⟨h1, h2, h3⟩ := at_all f
    ⟨atE_succ h2 h3, atA_succ h1, atL_succ h1 h3⟩

end Verif.Antlr
