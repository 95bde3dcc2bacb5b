import Verif.Lemmas.AtnLook
import Verif.Spec.AtnFirst
/-! # Where the parser first reports something -/
namespace Verif.Antlr
open Verif

/-! ## Items and tokens -/

theorem token_eq (e : Elem) : e.token = itemTok (erase e) := by cases e <;> rfl

theorem map_token (es : List Elem) : es.map Elem.token = (es.map erase).map itemTok := by
  rw [List.map_map]
  exact List.map_congr_left fun e _ => token_eq e

theorem lit_class : ∀ ty < 28, 1 ≤ ty → ((litToks[ty - 1]?).getD .bad = .colon ↔ ty = 24) ∧
    ((litToks[ty - 1]?).getD .bad = .rp ↔ ty = 26) ∧
    (Plural.isFirst ((litToks[ty - 1]?).getD .bad) = true ↔ ty ∈ [1, 2, 3, 4, 5, 6, 25, 27, 28]) ∧
    Plural.isEnd ((litToks[ty - 1]?).getD .bad) = (goesOn ty).isNone ∧ (litToks[ty - 1]?).getD .bad ≠ .bad := by decide +kernel

theorem tok_class {ty l c : Nat} {w : List Nat} (h : Good (.tok ty w)) : ((Elem.tok ty w l c).token = .colon ↔ ty = 24) ∧
    ((Elem.tok ty w l c).token = .rp ↔ ty = 26) ∧
    (Plural.isFirst (Elem.tok ty w l c).token = true ↔ ty ∈ [1, 2, 3, 4, 5, 6, 25, 27, 28]) ∧
    Plural.isEnd (Elem.tok ty w l c).token = (goesOn ty).isNone ∧ (Elem.tok ty w l c).token ≠ .bad := by
  rw [token_eq]
  change ((itemTok (.tok ty w)) = _ ↔ _) ∧ ((itemTok (.tok ty w)) = _ ↔ _) ∧ (Plural.isFirst (itemTok (.tok ty w)) = true ↔ _) ∧
    Plural.isEnd (itemTok (.tok ty w)) = _ ∧ itemTok (.tok ty w) ≠ _
  rcases good_cases h with ⟨h1, h2, -⟩ | ⟨rfl, -⟩
  · rw [itemTok_lit (by omega)]
    exact lit_class ty h2 h1
  · have : itemTok (.tok 28 w) = .int (w.map UInt8.ofNat) := rfl
    rw [this]
    exact ⟨by simp, by simp, by simp [Plural.isFirst], (by decide +kernel : true = (goesOn 28).isNone), by simp⟩

/-! ## Reports -/

theorem settle_split : ∀ es : List Elem, ∃ bads, es = bads ++ (settle es).2 ∧ (∀ b ∈ bads, b.isBad = true) ∧ Clear (settle es).2 ∧
    bads.flatMap Elem.complaint = (settle es).1
  | [] => ⟨[], rfl, by simp, by simp [Clear, settle], rfl⟩
  | .tok ty w l c :: r => ⟨[], rfl, by simp, by simp [Clear, settle, Elem.isBad], rfl⟩
  | .bad l c w :: r => by
    obtain ⟨bads, h1, h2, h3, h4⟩ := settle_split r
    refine ⟨.bad l c w :: bads, ?_, ?_, h3, ?_⟩
    · rw [List.cons_append, settle, ← h1]
    · intro b hb
      rcases List.mem_cons.1 hb with rfl | hb
      · rfl
      · exact h2 b hb
    · rw [List.flatMap_cons, settle, h4]
      rfl

theorem ok_clear {σ : Rec} (h : Ok σ) : Clear σ.rest := by
  intro e he
  have := h.head
  cases hr : σ.rest with
  | nil => rw [hr] at he; cases he
  | cons x r =>
    rw [hr] at he this
    cases he
    cases e with
    | tok => rfl
    | bad => cases this

/-- Between two states the first report was made. -/
def Bad (pre : List Plural.Tok) (σ σ' : Rec) : Prop := ∃ new, σ'.reports = σ.reports ++ new ∧ First σ.eof pre σ.rest new

theorem First.mono {eof : Nat × Nat} {pre : List Plural.Tok} {es : List Elem} {a b : List Plural.Report} (h : First eof pre es a)
    (hab : a <+: b) : First eof pre es b := by
  obtain ⟨ds, rem, h1, h2, h3⟩ := h
  refine ⟨ds, rem, h1, h2, ?_⟩
  rcases h3 with ⟨l, c, w, r, e1, e2⟩ | ⟨c0, c1, c2, bads, next, msg, e1, e2, e3, e4, e5⟩
  · exact .inl ⟨l, c, w, r, e1, e2.trans hab⟩
  · exact .inr ⟨c0, c1, c2, bads, next, msg, e1, e2, e3, e4, e5.trans hab⟩

theorem Bad.left {pre : List Plural.Tok} {σ σ1 σ2 : Rec} (h : Bad pre σ σ1) (hs : Step σ1 σ2) : Bad pre σ σ2 := by
  obtain ⟨new, h1, h2⟩ := h
  obtain ⟨more, hm⟩ := hs.rep
  refine ⟨new ++ more, ?_, h2.mono (List.prefix_append _ _)⟩
  rw [← hm, h1, List.append_assoc]

theorem Bad.right {pre : List Plural.Tok} {σ σ1 σ2 : Rec} {ds : List Elem} (hr : σ.rest = ds ++ σ1.rest) (hrep : σ1.reports = σ.reports)
    (heof : σ1.eof = σ.eof) (h : Bad (pre ++ ds.map Elem.token) σ1 σ2) : Bad pre σ σ2 := by
  obtain ⟨new, h1, ds', rem, h2, h3⟩ := h
  refine ⟨new, by rw [h1, hrep], ds ++ ds', rem, by rw [hr, h2, List.append_assoc], ?_⟩
  rw [List.map_append, ← List.append_assoc, ← heof]
  exact h3

/-- An error of the lexer is found when a token is consumed. -/
theorem bad_eat {pre : List Plural.Tok} {σ : Rec} {e : Elem} {r : List Elem} (hr : σ.rest = e :: r) (hp : peek (r.map erase) = none)
    (hv : Plural.Viable (pre ++ [e.token])) : Bad pre σ σ.matched.consume := by
  refine ⟨(settle r).1, by rw [eat_eq hr], [e], r, by rw [hr]; rfl, hv, .inl ?_⟩
  cases r with
  | nil => cases hp
  | cons x r =>
    cases x with
    | tok => cases hp
    | bad l c w =>
      refine ⟨l, c, w, r, rfl, ?_⟩
      exact ⟨(settle r).1, rfl⟩

/-! ## Errors of the parser -/

/-- The parser stands in front of something that cannot follow. -/
structure Point (q : List Plural.Tok) (want : Plural.Want) (s : Nat) (chain : List Nat) (σ : Rec) : Prop where
  ok : Ok σ
  calm : σ.recovering = false
  begun : Plural.Viable q
  open_ : ¬Plural.Complete q
  unfit : ∀ x ∈ σ.rest.head?, ¬Plural.Viable (q ++ [x.token])
  wants : ∀ w : Plural.Want, Plural.Viable (q ++ [w.tok]) ↔ w = want
  set : setText (expected parAtn s chain) = want.names
  has : ∀ es : List Elem, Clear es → (∀ e ∈ es, Good (erase e)) → ((expected parAtn s chain).has (typeOf es) = true ↔
    ∃ t, es.head?.map Elem.token = some t ∧ Plural.Viable (q ++ [t]) ∧ (want ≠ .operand → t = want.tok))

theorem fetch2_eq {σ : Rec} (h : Ok σ) : σ.fetch2 =
    { σ with rest := σ.rest.take 1 ++ (settle (σ.rest.drop 1)).2, reports := σ.reports ++ (settle (σ.rest.drop 1)).1 } := by
  have := h.head
  unfold Rec.fetch2
  rcases σ with ⟨rest, eof, index, rv, li, ls, reports⟩
  cases rest with
  | nil => simp [settle]
  | cons e r =>
    cases e with
    | tok => simp
    | bad => cases this

theorem fetch2_la2 {σ : Rec} (h : Ok σ) : σ.fetch2.la2 = typeOf (settle (σ.rest.drop 1)).2 := by
  rw [fetch2_eq h]
  unfold Rec.la2
  cases hr : σ.rest with
  | nil => rfl
  | cons e r => rfl

theorem fetch2_la {σ : Rec} (h : Ok σ) : σ.fetch2.la = σ.la := by
  rw [fetch2_eq h]
  unfold Rec.la
  cases hr : σ.rest with
  | nil => rfl
  | cons e r => cases e <;> rfl

theorem fetch2_place {σ : Rec} (h : Ok σ) : σ.fetch2.place = placeOf σ.eof σ.rest := by
  have hh := h.head
  rw [fetch2_eq h]
  unfold Rec.place
  cases hr : σ.rest with
  | nil => rfl
  | cons e r =>
    rw [hr] at hh
    cases e with
    | tok => rfl
    | bad => cases hh

theorem fetch2_display {σ : Rec} (h : Ok σ) : σ.fetch2.display = quoted σ.rest := by
  have hh := h.head
  rw [fetch2_eq h]
  unfold Rec.display
  cases hr : σ.rest with
  | nil => rfl
  | cons e r =>
    rw [hr] at hh
    cases e with
    | tok => rfl
    | bad => cases hh

theorem report_eq {σ : Rec} (h : σ.recovering = false) (msg : Str) :
    (σ.report msg).reports = σ.reports ++ [.syntaxError σ.place.1 σ.place.2 msg] := by
  unfold Rec.report
  rw [if_neg (by rw [h]; decide)]

theorem Point.bad {q : List Plural.Tok} {want : Plural.Want} {s : Nat} {chain : List Nat} {σ σ' : Rec} (h : Point q want s chain σ)
    {msg : Str} (hs : Plural.Says q (σ.rest.head?.map Elem.token) ((settle (σ.rest.drop 1)).2.head?.map Elem.token) (quoted σ.rest) msg)
    (hst : Step (σ.fetch2.report msg) σ') : Bad q σ σ' := by
  refine Bad.left ?_ hst
  obtain ⟨bads, b1, b2, b3, b4⟩ := settle_split (σ.rest.drop 1)
  refine ⟨(settle (σ.rest.drop 1)).1 ++ [.syntaxError (placeOf σ.eof σ.rest).1 (placeOf σ.eof σ.rest).2 msg], ?_, [], σ.rest, rfl, ?_,
    .inr ⟨ok_clear h.ok, ?_, ?_, bads, _, msg, b1, b2, b3, ?_, ?_⟩⟩
  · rw [report_eq (by rw [fetch2_recovering]; exact h.calm), fetch2_place h.ok, fetch2_eq h.ok, List.append_assoc]
  · simpa using h.begun
  · simpa using h.open_
  · simpa using h.unfit
  · simpa using hs
  · rw [b4]
    exact List.prefix_rfl

theorem settle_good {σ : Rec} (h : Ok σ) : ∀ e ∈ (settle (σ.rest.drop 1)).2, Good (erase e) :=
  fun e he => h.good e (List.mem_of_mem_drop ((settle_suffix _).mem he))

theorem Point.much {q : List Plural.Tok} {want : Plural.Want} {s : Nat} {chain : List Nat} {σ : Rec} (h : Point q want s chain σ) :
    (expected parAtn s chain).has σ.fetch2.la2 = true ↔ ∃ t, (settle (σ.rest.drop 1)).2.head?.map Elem.token = some t ∧
      Plural.Viable (q ++ [t]) ∧ (want ≠ .operand → t = want.tok) := by
  rw [fetch2_la2 h.ok]
  exact h.has _ (settle_split _).choose_spec.2.2.1 (settle_good h.ok)

/-- A token is dropped. -/
theorem Point.deletion {q : List Plural.Tok} {want : Plural.Want} {s : Nat} {chain : List Nat} {σ : Rec} (h : Point q want s chain σ)
    (hd : (deletion parAtn s chain σ).2 = true) : Bad q σ (deletion parAtn s chain σ).1 := by
  unfold Antlr.deletion at hd ⊢
  dsimp only at hd ⊢
  split
  · rename_i hb
    rw [fetch2_display h.ok, h.set]
    exact h.bad ⟨want, h.wants, .inl ⟨h.much.1 hb, rfl⟩⟩ ((consume_step _).trans (matched_step _))
  · rename_i hb
    rw [if_neg hb] at hd
    cases hd

theorem deletion_false {s : Nat} {chain : List Nat} {σ : Rec} (hd : (deletion parAtn s chain σ).2 = false) :
    deletion parAtn s chain σ = (σ.fetch2, false) ∧ ¬(expected parAtn s chain).has σ.fetch2.la2 = true := by
  unfold Antlr.deletion at hd ⊢
  dsimp only at hd ⊢
  split
  · rename_i hb
    rw [if_pos hb] at hd
    cases hd
  · rename_i hb
    exact ⟨rfl, hb⟩

/-- An operand is missing and nothing is dropped. -/
theorem Point.operand {q : List Plural.Tok} {s : Nat} {chain : List Nat} {σ : Rec} (h : Point q .operand s chain σ)
    (hd : (Antlr.deletion parAtn s chain σ).2 = false) : Bad q σ (mismatch parAtn s chain (Antlr.deletion parAtn s chain σ).1) := by
  obtain ⟨h1, h2⟩ := deletion_false hd
  rw [h1]
  unfold mismatch
  rw [fetch2_display h.ok, h.set]
  exact h.bad ⟨.operand, h.wants, .inr (.inr ⟨fun hm => h2 (h.much.2 hm), fun hl => hl.1 rfl, rfl⟩)⟩ (recover_step _ _ _ _)

/-- A colon or a parenthesis is missing. -/
theorem Point.matchTok {q : List Plural.Tok} {want : Plural.Want} {ty s target : Nat} {chain : List Nat} {σ : Rec}
    (h : Point q want s chain σ) (hw : want ≠ .operand) (hn : σ.la ≠ some ty) (ht : ∃ t ts, parAtn.trans s = t :: ts ∧ t.target = target)
    (hl : (next parAtn target (chain.map (follow parAtn))).has σ.la = true ↔
      (∀ t, σ.rest.head?.map Elem.token = some t → Plural.Viable (q ++ [want.tok, t])) ∧
      (σ.rest.head?.map Elem.token = none → Plural.Complete (q ++ [want.tok]))) :
    ((Antlr.matchTok parAtn ty s chain σ).2 = true → Bad q σ (Antlr.matchTok parAtn ty s chain σ).1) ∧
    ((Antlr.matchTok parAtn ty s chain σ).2 = false → Bad q σ (mismatch parAtn s chain (Antlr.matchTok parAtn ty s chain σ).1)) := by
  unfold Antlr.matchTok
  rw [if_neg hn]
  cases hd : (Antlr.deletion parAtn s chain σ).2 with
  | true =>
    have hb := h.deletion hd
    generalize Antlr.deletion parAtn s chain σ = x at hb hd ⊢
    obtain ⟨σ1, ok⟩ := x
    dsimp only at hb hd ⊢
    subst hd
    rw [if_pos rfl]
    exact ⟨fun _ => hb.left (consume_step _), fun hc => by cases hc⟩
  | false =>
    obtain ⟨h1, h2⟩ := deletion_false hd
    have hnm := fun hm => h2 (h.much.2 hm)
    rw [h1]
    dsimp only
    rw [if_neg (by decide)]
    obtain ⟨t, ts, ht1, ht2⟩ := ht
    unfold insertion
    rw [ht1]
    dsimp only
    rw [ht2, fetch2_la h.ok, fetch2_display h.ok, h.set]
    by_cases hi : (next parAtn target (chain.map (follow parAtn))).has σ.la = true
    · rw [if_pos hi]
      refine ⟨fun _ => ?_, fun hc => by cases hc⟩
      exact h.bad ⟨want, h.wants, .inr (.inl ⟨hnm, ⟨hw, (hl.1 hi).1, (hl.1 hi).2⟩, rfl⟩)⟩ (.refl _)
    · rw [if_neg hi]
      refine ⟨fun hc => (by cases hc), fun _ => ?_⟩
      unfold mismatch
      dsimp only
      rw [fetch2_display h.ok, h.set]
      exact h.bad ⟨want, h.wants, .inr (.inr ⟨hnm, fun hx => hi (hl.2 ⟨hx.2.1, hx.2.2⟩), rfl⟩)⟩ (recover_step _ _ _ _)

theorem expected_14 (chain : List Nat) : expected parAtn 14 chain = ([1, 2, 3, 4, 5, 6, 25, 27, 28], false) := by
  rw [expected_of (by rw [next_14]), next_14]
theorem expected_52 (chain : List Nat) : expected parAtn 52 chain = ([24], false) := by rw [expected_of (by rw [next_52]), next_52]
theorem expected_64 (chain : List Nat) : expected parAtn 64 chain = ([26], false) := by rw [expected_of (by rw [next_64]), next_64]

theorem head_cases {es : List Elem} (hc : Clear es) (hg : ∀ e ∈ es, Good (erase e)) : (es.head?.map Elem.token = none ∧ typeOf es = none) ∨
    ∃ ty w l c, es.head?.map Elem.token = some (Elem.tok ty w l c).token ∧ typeOf es = some ty ∧ Good (.tok ty w) := by
  cases es with
  | nil => exact .inl ⟨rfl, rfl⟩
  | cons e r =>
    cases e with
    | bad => exact absurd (hc _ rfl) (by simp [Elem.isBad])
    | tok ty w l c => exact .inr ⟨ty, w, l, c, rfl, rfl, hg (.tok ty w l c) List.mem_cons_self⟩

/-- In front of an operand that is not there. -/
theorem point_14 {p : Nat} {chain : List Nat} {pre : List Plural.Tok} {σ : Rec} (h : Plural.Here p chain pre) (hok : Ok σ)
    (hrec : σ.recovering = false) (hn : (next parAtn 14 []).has σ.la = false) : Point pre .operand 14 chain σ where
  ok := hok
  calm := hrec
  begun := Plural.Viable.left ((Plural.here_first h .n).2 rfl)
  open_ := Plural.here_open h
  unfit x hx := by
    rw [Plural.here_first h]
    rcases head_cases (ok_clear hok) hok.good with ⟨h1, -⟩ | ⟨ty, w, l, c, h1, h2, h3⟩
    · cases hr : σ.rest with
      | nil => rw [hr] at hx; cases hx
      | cons => rw [hr] at h1; cases h1
    · rw [show σ.rest.head? = some x from hx, Option.map_some, Option.some.injEq] at h1
      rw [h1, (tok_class h3).2.2.1]
      intro hm
      unfold Rec.la at hn
      rw [h2, next_14] at hn
      simp [Tokens.has] at hn hm
      omega
  wants w := by
    rw [Plural.here_first h]
    cases w <;> simp [Plural.Want.tok, Plural.isFirst]
  set := by rw [expected_14]; decide +kernel
  has es hc hg := by
    rw [expected_14]
    rcases head_cases hc hg with ⟨h1, h2⟩ | ⟨ty, w, l, c, h1, h2, h3⟩
    · rw [h1, h2]
      simp [Tokens.has]
    · rw [h1, h2]
      constructor
      · intro hm
        refine ⟨_, rfl, (Plural.here_first h _).2 ((tok_class h3).2.2.1.2 ?_), fun hh => absurd rfl hh⟩
        simpa [Tokens.has] using hm
      · rintro ⟨t, ht, hv, -⟩
        cases ht
        have := (tok_class h3).2.2.1.1 ((Plural.here_first h _).1 hv)
        simpa [Tokens.has] using this

/-- Behind an operand, where a colon or a parenthesis is not there. -/
theorem point_end {want : Plural.Want} {ty s : Nat} {chain chain' : List Nat} {q pre : List Plural.Tok} {a : Plural.Exp} {σ : Rec}
    (h : Plural.Here 0 chain' pre) (ha : Plural.Wf Plural.goTable 0 a) (hq : q = pre ++ Plural.toks a) (hok : Ok σ)
    (hrec : σ.recovering = false) (hn : σ.la ≠ some ty) (he : Plural.Ends (σ.rest.map Elem.token))
    (hw : (want = .colon ∧ ty = 24) ∨ (want = .paren ∧ ty = 26)) (hh : Plural.hardTok chain' = some want.tok)
    (hx : expected parAtn s chain = ([ty], false)) : Point q want s chain σ where
  ok := hok
  calm := hrec
  begun := by
    have : Plural.isEnd want.tok = true := by rcases hw with ⟨rfl, -⟩ | ⟨rfl, -⟩ <;> rfl
    rw [hq]
    exact Plural.Viable.left ((Plural.here_next h ha this).2 hh)
  open_ := by
    rw [hq, Plural.here_done h ha, hh]
    simp
  unfit x hx := by
    have hend : Plural.isEnd x.token = true := he x.token (by
      rw [List.head?_map, show σ.rest.head? = some x from hx]; rfl)
    rw [hq, Plural.here_next h ha hend, hh]
    rcases head_cases (ok_clear hok) hok.good with ⟨h1, -⟩ | ⟨ty', w, l, c, h1, h2, h3⟩
    · rw [show σ.rest.head? = some x from hx] at h1; cases h1
    · rw [show σ.rest.head? = some x from hx, Option.map_some, Option.some.injEq] at h1
      rw [h1, Option.some.injEq]
      unfold Rec.la at hn
      rw [h2] at hn
      intro heq
      apply hn
      rcases hw with ⟨rfl, rfl⟩ | ⟨rfl, rfl⟩
      · rw [(tok_class h3).1.1 heq.symm]
      · rw [(tok_class h3).2.1.1 heq.symm]
  wants w := by
    have key : ∀ k, Plural.isEnd k = true → (Plural.Viable (q ++ [k]) ↔ k = want.tok) := by
      intro k hk
      rw [hq, Plural.here_next h ha hk, hh, Option.some.injEq, eq_comm]
    rw [key _ (by cases w <;> rfl)]
    rcases hw with ⟨rfl, -⟩ | ⟨rfl, -⟩ <;> cases w <;> simp [Plural.Want.tok]
  set := by
    rw [hx]
    rcases hw with ⟨rfl, rfl⟩ | ⟨rfl, rfl⟩ <;> decide +kernel
  has es hc hg := by
    rw [hx]
    have hv : Plural.Viable (q ++ [want.tok]) := by
      rw [hq, Plural.here_next h ha (by rcases hw with ⟨rfl, -⟩ | ⟨rfl, -⟩ <;> rfl), hh]
    have hne : want ≠ .operand := by rcases hw with ⟨rfl, -⟩ | ⟨rfl, -⟩ <;> simp
    rcases head_cases hc hg with ⟨h1, h2⟩ | ⟨ty', w, l, c, h1, h2, h3⟩
    · rw [h1, h2]
      simp [Tokens.has]
    · rw [h1, h2]
      have hty : ((Elem.tok ty' w l c).token = want.tok ↔ ty' = ty) := by
        rcases hw with ⟨rfl, rfl⟩ | ⟨rfl, rfl⟩
        · exact (tok_class h3).1
        · exact (tok_class h3).2.1
      constructor
      · intro hm
        have : ty' = ty := by simpa [Tokens.has] using hm
        rw [hty.2 this]
        exact ⟨_, rfl, hv, fun _ => rfl⟩
      · rintro ⟨t, ht, -, hwt⟩
        cases ht
        rw [hty.1 (hwt hne)]
        simp [Tokens.has]

theorem la_of {σ : Rec} (h : Ok σ) : ∀ ty ∈ σ.la, ty < 29 := fun _ hx => (la_lt h hx).2

theorem trans_52 : ∃ t ts, parAtn.trans 52 = t :: ts ∧ t.target = 53 := by
  have : (parAtn.trans 52).head?.map Trans.target = some 53 := by decide +kernel
  cases h : parAtn.trans 52 with
  | nil => rw [h] at this; cases this
  | cons t ts => rw [h] at this; exact ⟨t, ts, rfl, by simpa using this⟩

theorem trans_64 : ∃ t ts, parAtn.trans 64 = t :: ts ∧ t.target = 65 := by
  have : (parAtn.trans 64).head?.map Trans.target = some 65 := by decide +kernel
  cases h : parAtn.trans 64 with
  | nil => rw [h] at this; cases this
  | cons t ts => rw [h] at this; exact ⟨t, ts, rfl, by simpa using this⟩

theorem hard_cases (c : List Nat) : Plural.hardTok c = none ∨ Plural.hardTok c = some .colon ∨ Plural.hardTok c = some .rp := by
  induction c with
  | nil => exact .inl rfl
  | cons s c ih =>
    rw [Plural.hardTok]
    split
    · exact .inr (.inl rfl)
    · split
      · exact .inr (.inr rfl)
      · exact ih

/-- The colon of a conditional expression is not there. -/
theorem bad_52 {p : Nat} {chain : List Nat} {pre : List Plural.Tok} {l a : Plural.Exp} {σ : Rec} (h : Plural.Here p chain pre)
    (hl : Plural.Wf Plural.goTable p l) (hp : p ≤ 1) (hna : ¬Plural.absorbs Plural.goTable l 1) (ha : Plural.Wf Plural.goTable 0 a)
    (hc : ∀ q ∈ chain, q ∈ callStates) (hok : Ok σ) (hrec : σ.recovering = false) (hn : σ.la ≠ some 24)
    (he : Plural.Ends (σ.rest.map Elem.token)) :
    ((matchTok parAtn 24 52 chain σ).2 = true → Bad (pre ++ Plural.toks l ++ [.quest] ++ Plural.toks a) σ (matchTok parAtn 24 52 chain σ).1) ∧
    ((matchTok parAtn 24 52 chain σ).2 = false → Bad (pre ++ Plural.toks l ++ [.quest] ++ Plural.toks a) σ
      (mismatch parAtn 52 chain (matchTok parAtn 24 52 chain σ).1)) := by
  have hq := Plural.here_quest h hl hp hna
  have hcol := Plural.here_colon (s := 53) h hl hp hna ha (by decide) (by decide)
  refine Point.matchTok (want := .colon) (target := 53)
    (point_end hq ha rfl hok hrec hn he (.inl ⟨rfl, rfl⟩) rfl (expected_52 chain)) (by decide) hn trans_52 ?_
  rw [next_53 hc _ (la_of hok), next_14]
  unfold Rec.la
  have happ : ∀ t, pre ++ Plural.toks l ++ [.quest] ++ Plural.toks a ++ [Plural.Want.tok .colon, t] =
      pre ++ Plural.toks l ++ [.quest] ++ Plural.toks a ++ [.colon] ++ [t] := by intro t; simp [Plural.Want.tok]
  rcases head_cases (ok_clear hok) hok.good with ⟨h1, h2⟩ | ⟨ty, w, l', c, h1, h2, h3⟩
  · rw [h1, h2]
    constructor
    · intro hc; cases hc
    · rintro ⟨-, hcm⟩
      exact absurd (hcm rfl) (Plural.here_open hcol)
  · rw [h1, h2]
    constructor
    · intro hm
      refine ⟨fun t ht => ?_, fun hc => by cases hc⟩
      cases ht
      rw [happ, Plural.here_first hcol, (tok_class h3).2.2.1]
      simpa [Tokens.has] using hm
    · rintro ⟨hv, -⟩
      have := hv _ rfl
      rw [happ, Plural.here_first hcol, (tok_class h3).2.2.1] at this
      simpa [Tokens.has] using this

/-- The closing parenthesis is not there. -/
theorem bad_64 {p : Nat} {chain : List Nat} {pre : List Plural.Tok} {a : Plural.Exp} {σ : Rec} (h : Plural.Here p chain pre)
    (ha : Plural.Wf Plural.goTable 0 a) (hc : ∀ q ∈ chain, q ∈ callStates) (hok : Ok σ) (hrec : σ.recovering = false) (hn : σ.la ≠ some 26)
    (he : Plural.Ends (σ.rest.map Elem.token)) :
    ((matchTok parAtn 26 64 (9 :: chain) σ).2 = true → Bad (pre ++ [.lp] ++ Plural.toks a) σ (matchTok parAtn 26 64 (9 :: chain) σ).1) ∧
    ((matchTok parAtn 26 64 (9 :: chain) σ).2 = false → Bad (pre ++ [.lp] ++ Plural.toks a) σ
      (mismatch parAtn 64 (9 :: chain) (matchTok parAtn 26 64 (9 :: chain) σ).1)) := by
  have hq := Plural.here_paren (s := 9) h (by decide) (by decide)
  refine Point.matchTok (want := .paren) (target := 65)
    (point_end hq ha rfl hok hrec hn he (.inr ⟨rfl, rfl⟩) rfl (expected_64 _)) (by decide) hn trans_64 ?_
  have happ : ∀ ts, pre ++ [.lp] ++ Plural.toks a ++ Plural.Want.tok .paren :: ts = pre ++ Plural.toks (.paren a) ++ ts := by
    intro ts; simp [Plural.Want.tok, Plural.toks]
  have hwp : Plural.Wf Plural.goTable p (.paren a) := ha
  have hsoft : hardType (9 :: chain) = hardType chain := by
    unfold hardType
    rw [(Plural.close_soft (by decide) (by decide) chain).2]
  have hend := he
  unfold Rec.la at hn ⊢
  rcases head_cases (ok_clear hok) hok.good with ⟨h1, h2⟩ | ⟨ty, w, l', c, h1, h2, h3⟩
  · rw [next_65 (by intro q hq; rcases List.mem_cons.1 hq with rfl | hq; · decide
                    · exact hc q hq) _ (by rw [h2]; simp), hsoft, h1, h2]
    rw [happ, List.append_nil, Plural.here_done h hwp]
    unfold hardType
    simp
  · have hgo : Plural.isEnd (Elem.tok ty w l' c).token = true := by
      refine hend _ ?_
      rw [List.head?_map, h1]; rfl
    have hgn : goesOn ty = none := by
      rw [(tok_class h3).2.2.2.1] at hgo
      simpa using hgo
    have hlt : ty < 29 := la_of hok ty h2
    rw [next_65 (by intro q hq; rcases List.mem_cons.1 hq with rfl | hq; · decide
                    · exact hc q hq) _ (by rw [h2]; intro x hx; cases hx; exact ⟨hlt, hgn⟩), hsoft, h1, h2]
    have hkey : hardType chain = some ty ↔ Plural.hardTok chain = some (Elem.tok ty w l' c).token := by
      unfold hardType
      rcases hard_cases chain with h0 | h0 | h0
      · rw [h0]; simp
      · rw [h0, Option.map_some, Option.some.injEq, Option.some.injEq, if_pos rfl, eq_comm, ← (tok_class h3 (l := l') (c := c)).1, eq_comm]
      · rw [h0, Option.map_some, Option.some.injEq, Option.some.injEq, if_neg (by simp), eq_comm, ← (tok_class h3 (l := l') (c := c)).2.1, eq_comm]
    rw [hkey, ← Plural.here_next h hwp hgo]
    constructor
    · intro hv
      refine ⟨fun t ht => ?_, fun hc => by cases hc⟩
      cases ht
      rw [happ]
      exact hv
    · rintro ⟨hv, -⟩
      have := hv _ rfl
      rwa [happ] at this

/-! ## The rules -/

theorem here_viable {p : Nat} {chain : List Nat} {pre : List Plural.Tok} (h : Plural.Here p chain pre) : Plural.Viable pre :=
  Plural.Viable.left ((Plural.here_first h .n).2 rfl)

theorem here_exp {p : Nat} {chain : List Nat} {pre : List Plural.Tok} (h : Plural.Here p chain pre) {a : Plural.Exp}
    (ha : Plural.Wf Plural.goTable p a) : Plural.Viable (pre ++ Plural.toks a) :=
  ⟨Plural.close chain, by rw [List.append_assoc]; exact h.fits a ha⟩

/-- A token is consumed; the next item is fetched, or an error of the lexer. -/
theorem eat_first {pre : List Plural.Tok} {σ : Rec} {e : Elem} {r : List Elem} (hr : σ.rest = e :: r)
    (hv : Plural.Viable (pre ++ [e.token])) : (σ.matched.consume.rest = r ∧ σ.matched.consume.reports = σ.reports ∧
      σ.matched.consume.recovering = false ∧ σ.matched.consume.eof = σ.eof) ∨ Bad pre σ σ.matched.consume := by
  rcases eat_cases hr with ⟨-, c1, c2, c3⟩ | ⟨hp, -⟩
  · exact .inl ⟨c1, c2, c3, eat_ok.eof⟩
  · exact .inr (bad_eat hr hp hv)

theorem good_map {σ : Rec} (h : Ok σ) : ∀ i ∈ σ.rest.map erase, Good i := by
  intro i hi
  obtain ⟨e, he, rfl⟩ := List.mem_map.1 hi
  exact h.good e he

theorem clean_exp {f p : Nat} {σ σ' : Rec} {t : Tree} (hok : Ok σ) (h : Clean σ σ' t (gExp parAtn f p (σ.rest.map erase))) :
    ∃ e ds, t = treeOf e ∧ σ.rest = ds ++ σ'.rest ∧ ds.map Elem.token = Plural.toks e ∧
      Plural.Good Plural.goTable p e (σ'.rest.map Elem.token) := by
  obtain ⟨e, -, -, h3, h4⟩ := h.elim
  obtain ⟨ds, hds⟩ := h.suffix
  have hag := ((parsers_agree f).1 p _ (good_map hok)).1
  rw [h3, Option.map_some] at hag
  obtain ⟨s1, s2⟩ := (Plural.sound _).1 _ _ _ _ hag
  rw [← map_token] at s1 s2
  rw [← map_token, ← hds, List.map_append] at s1
  exact ⟨e, ds, h4, hds.symm, List.append_cancel_right s1, s2⟩

theorem clean_atom {f : Nat} {σ σ' : Rec} {t : Tree} (hok : Ok σ) (h : Clean σ σ' t (gAtom parAtn f (σ.rest.map erase))) :
    ∃ e ds, t = treeOf e ∧ σ.rest = ds ++ σ'.rest ∧ ds.map Elem.token = Plural.toks e ∧
      (∀ p, Plural.Wf Plural.goTable p e) ∧ Plural.NoAbs Plural.goTable e (σ'.rest.map Elem.token) := by
  obtain ⟨e, -, -, h3, h4⟩ := h.elim
  obtain ⟨ds, hds⟩ := h.suffix
  have hag := ((parsers_agree f).2.1 _ (good_map hok)).1
  rw [h3, Option.map_some] at hag
  obtain ⟨s1, s2⟩ := (Plural.sound _).2.1 _ _ _ hag
  rw [← map_token] at s1 s2
  rw [← map_token, ← hds, List.map_append] at s1
  exact ⟨e, ds, h4, hds.symm, List.append_cancel_right s1, s2⟩

theorem op_token : ∀ ty < 28, 1 ≤ ty → (goesOn ty).all (fun i => loopAlt i == 12 || loopAlt i == 13 ||
    (opText (litText ty)).all fun o => (litToks[ty - 1]?).getD .bad == .op o) = true := by decide +kernel

theorem go_token {ty i l c : Nat} {w : List Nat} {o : Plural.Op} (hg : Good (.tok ty w)) (hi : goesOn ty = some i) (n12 : loopAlt i ≠ 12)
    (n13 : loopAlt i ≠ 13) (ho : opText w = some o) : (Elem.tok ty w l c).token = .op o := by
  rcases good_cases hg with ⟨t1, t2, rfl⟩ | ⟨rfl, -⟩
  · have := op_token ty t2 t1
    rw [hi, Option.all_some, ho] at this
    simp [n12, n13] at this
    rw [token_eq]
    change itemTok (.tok ty _) = _
    rw [itemTok_lit (by omega)]
    exact this
  · have c3 : goesOn 28 = none := by decide +kernel
    rw [c3] at hi; cases hi

theorem post_token {ty l c : Nat} {w : List Nat} {o : Plural.Post} (hg : Good (.tok ty w)) (hty : ty = 1 ∨ ty = 2)
    (ho : postText w = some o) : (Elem.tok ty w l c).token = o.tok := by
  rcases good_cases hg with ⟨t1, t2, rfl⟩ | ⟨rfl, -⟩
  · obtain ⟨o', c1, c2, -⟩ := post_class ty t2 (by simpa using hty)
    rw [ho] at c1
    cases c1
    rw [token_eq]
    change itemTok (.tok ty _) = _
    rw [itemTok_lit (by omega), c2]
  · omega

/-- What is proved about `exp`: its first report. -/
def FirstE (f : Nat) : Prop := ∀ p chain pre σ t σ', (∀ q ∈ chain, q ∈ callStates) → Ok σ → 2 * σ.rest.length + 2 ≤ f →
  σ.recovering = false → Plural.Here p chain pre → rExp parAtn f p chain σ = some (t, σ') → Grew σ σ' → Bad pre σ σ'

/-- What is proved about operands: their first report. -/
def FirstA (f : Nat) : Prop := ∀ p chain pre σ t σ', (∀ q ∈ chain, q ∈ callStates) → Ok σ → 2 * σ.rest.length + 1 ≤ f →
  σ.recovering = false → Plural.Here p chain pre → rAtom parAtn f chain σ = some (some t, σ') → Grew σ σ' → Bad pre σ σ'

/-- What is proved about the loop: its first report. -/
def FirstL (f : Nat) : Prop := ∀ s p chain pre e σ t σ', s ∈ [59, 61] → (∀ q ∈ chain, q ∈ callStates) → Ok σ →
  2 * σ.rest.length + 1 ≤ f → σ.recovering = false → Plural.Here p chain pre → Plural.Wf Plural.goTable p e →
  Plural.NoAbs Plural.goTable e (σ.rest.map Elem.token) → rLoop parAtn f s p chain (treeOf e) σ = some (t, σ') → Grew σ σ' →
  Bad (pre ++ Plural.toks e) σ σ'

theorem not_clean {σ σ' : Rec} {t : Tree} {g : Option (Plural.Exp × List Item)} (h : Clean σ σ' t g) : ¬Grew σ σ' := by
  unfold Grew
  rw [h.1]
  omega

theorem grew_of {σ σ1 σ2 : Rec} (h : σ1.reports = σ.reports) (hg : Grew σ σ2) : Grew σ1 σ2 := by
  unfold Grew at *
  rwa [h]

theorem firstE_succ {f : Nat} (ihA : FirstA f) (ihL : FirstL f) : FirstE (f + 1) := by
  intro p chain pre σ t σ' hc hok hf hrec here hx hgrew
  obtain ⟨-, atA, atL⟩ := at_all f
  rw [rExp] at hx
  by_cases hn : (next parAtn 14 []).has σ.la = true
  · rw [syncTok_has hn] at hx
    dsimp only at hx
    obtain ⟨o, σ1, ho, hs, hnone, hsome⟩ := atA chain σ hok (by omega)
    rw [ho] at hx
    cases o with
    | none => rw [(hnone rfl).2] at hn; cases hn
    | some a =>
      dsimp only at hx
      obtain ⟨hl, hfa⟩ := hsome a rfl
      obtain ⟨t2, σ2, h2, hs2, -⟩ := atL 59 p chain a σ1 (by simp) (hs.ok hok) (by omega)
      rw [h2] at hx
      cases hx
      rcases hfa hrec with hcl | ⟨hg, -⟩
      · obtain ⟨e, ds, rfl, d1, d2, d3, d4⟩ := clean_atom hok hcl
        have := ihL 59 p chain pre e σ1 _ _ (by simp) hc (hs.ok hok) (by omega) hcl.2.1 here (d3 p) d4 h2 (grew_of hcl.1 hgrew)
        rw [← d2] at this
        exact Bad.right d1 hcl.1 hs.eof this
      · exact (ihA p chain pre σ a σ1 hc hok (by omega) hrec here ho hg).left hs2
  · have hn' : (next parAtn 14 []).has σ.la = false := by simpa using hn
    have hpt := point_14 here hok hrec hn'
    have hsy : syncTok parAtn 14 chain σ = deletion parAtn 14 chain σ := by
      unfold syncTok
      rw [if_neg (by rw [hrec]; decide), if_neg (by rw [not_or]; exact ⟨by rw [next_14]; decide, hn⟩), if_pos (by decide +kernel)]
    rw [hsy] at hx
    have hst := deletion_step parAtn 14 chain σ
    cases hd : (deletion parAtn 14 chain σ).2 with
    | false =>
      have hb := hpt.operand hd
      generalize deletion parAtn 14 chain σ = x at hx hb hd
      obtain ⟨σ1, ok⟩ := x
      dsimp only at hd
      subst hd
      cases hx
      exact hb
    | true =>
      have hb := hpt.deletion hd
      generalize deletion parAtn 14 chain σ = x at hx hb hd hst
      obtain ⟨σ1, ok⟩ := x
      dsimp only at hd hst hb
      subst hd
      dsimp only at hx
      have hl1 := hst.len
      obtain ⟨o, σ2, ho, hs, hnone, hsome⟩ := atA chain σ1 (hst.ok hok) (by omega)
      rw [ho] at hx
      cases o with
      | none =>
        cases hx
        exact hb.left (hs.trans (noViable_step _ _ _ _))
      | some a =>
        dsimp only at hx
        have := (hsome a rfl).1
        obtain ⟨t3, σ3, h3, hs3, -⟩ := atL 59 p chain a σ2 (by simp) (hs.ok (hst.ok hok)) (by omega)
        rw [h3] at hx
        cases hx
        exact hb.left (hs.trans hs3)

theorem firstA_succ {f : Nat} (ihE : FirstE f) : FirstA (f + 1) := by
  intro p chain pre σ t σ' hc hok hf hrec here hx hgrew
  obtain ⟨atE, -, -⟩ := at_all f
  by_cases hn : (next parAtn 14 []).has σ.la = true
  · have hne : σ.la ≠ none := by
      intro h
      rw [h, next_14] at hn
      cases hn
    obtain ⟨ty, hla⟩ := Option.ne_none_iff_exists'.1 hne
    obtain ⟨w, l, c, r, hr⟩ := la_cons hla
    have hlen : σ.matched.consume.rest.length < σ.rest.length := eat_len (by rw [hr]; simp)
    have hokc : Ok σ.matched.consume := eat_ok.ok hok
    have hgood : Good (.tok ty w) := hok.good (.tok ty w l c) (by rw [hr]; simp)
    have hin : ty ∈ [1, 2, 3, 4, 5, 6, 25, 27, 28] := by
      rw [hla, next_14] at hn
      simpa [Tokens.has] using hn
    have hcase : ty ∈ [1, 2, 3, 4, 5, 6] ∨ ty = 25 ∨ ty = 27 ∨ ty = 28 := by
      simp at hin ⊢
      omega
    have hv : Plural.Viable (pre ++ [(Elem.tok ty w l c).token]) := (Plural.here_first here _).2 ((tok_class hgood).2.2.1.2 hin)
    rcases hcase with hpre | rfl | hleaf
    · have hw : w = litText ty := by
        rcases good_cases hgood with ⟨-, -, h⟩ | ⟨rfl, -⟩
        · exact h
        · simp at hpre
      obtain ⟨o, ho, htok, hlev⟩ := pre_class ty (by simp at hpre; omega) hpre
      rw [← hw] at ho
      have htk : (Elem.tok ty w l c).token = o.tok := by
        rw [token_eq]
        change itemTok (.tok ty w) = _
        rw [itemTok_lit (by rintro rfl; simp at hpre), htok]
      rw [rAtom_pre hpre ho hr] at hx
      obtain ⟨t1, σ1, h1, hs1, -⟩ := atE (if ty ≤ 4 then 14 else 13) ((if ty ≤ 4 then 11 else 13) :: chain) _ hokc (by omega)
      rw [h1, Option.map_some] at hx
      cases hx
      rcases eat_first hr hv with ⟨c1, c2, c3, c4⟩ | hb
      · have hh : Plural.Here (if ty ≤ 4 then 14 else 13) ((if ty ≤ 4 then 11 else 13) :: chain) (pre ++ [o.tok]) := by
          rw [← hlev]
          exact Plural.here_pre here o (by split <;> decide) (by split <;> decide)
        have := ihE _ _ _ _ _ _ (by
          intro q hq
          rcases List.mem_cons.1 hq with rfl | hq
          · split <;> decide
          · exact hc q hq) hokc (by omega) c3 hh h1 (grew_of c2 hgrew)
        refine Bad.right (ds := [.tok ty w l c]) (by rw [hr, c1]; rfl) c2 c4 ?_
        rw [List.map_cons, List.map_nil, htk]
        exact this
      · exact hb.left hs1
    · have htk : (Elem.tok 25 w l c).token = .lp := by
        rw [token_eq]
        change itemTok (.tok 25 w) = _
        rw [itemTok_lit (by decide)]
        rfl
      rw [rAtom_paren hr] at hx
      obtain ⟨t1, σ1, h1, hs1, hfl⟩ := atE 0 (63 :: 9 :: chain) _ hokc (by omega)
      rw [h1, Option.map_some] at hx
      simp only [Option.some.injEq, Prod.mk.injEq] at hx
      obtain ⟨-, hx⟩ := hx
      have hm := matchTok_step parAtn 26 64 (9 :: chain) σ1
      have hfin : Step σ1 σ' := by
        rw [← hx]
        split
        · exact hm
        · exact hm.trans (mismatch_step _ _ _ _)
      rcases eat_first hr hv with ⟨c1, c2, c3, c4⟩ | hb
      · refine Bad.right (ds := [.tok 25 w l c]) (by rw [hr, c1]; rfl) c2 c4 ?_
        rw [List.map_cons, List.map_nil, htk]
        have hh := Plural.here_paren (s := 9) here (by decide) (by decide)
        rcases hfl c3 with hcl | ⟨hg, -⟩
        · obtain ⟨e, ds, -, d1, d2, d3, d4, d5⟩ := clean_exp hokc hcl
          refine Bad.right d1 hcl.1 hs1.eof ?_
          rw [d2]
          by_cases h26 : σ1.la = some 26
          · obtain ⟨w2, l2, c2', r2, hr2⟩ := la_cons h26
            have hmt : matchTok parAtn 26 64 (9 :: chain) σ1 = (σ1.matched.consume, true) := by
              unfold matchTok
              rw [if_pos h26]
            rw [hmt, if_pos rfl] at hx
            subst hx
            have htk2 : (Elem.tok 26 w2 l2 c2').token = .rp := by
              rw [token_eq]
              change itemTok (.tok 26 w2) = _
              rw [itemTok_lit (by decide)]
              rfl
            have hv2 : Plural.Viable (pre ++ [.lp] ++ Plural.toks e ++ [(Elem.tok 26 w2 l2 c2').token]) := by
              rw [htk2]
              have := here_exp here (a := .paren e) d3
              simpa [Plural.toks] using this
            rcases eat_first hr2 hv2 with ⟨f1, f2, f3, f4⟩ | hb2
            · unfold Grew at hgrew
              rw [f2, hcl.1, c2] at hgrew
              omega
            · exact hb2
          · obtain ⟨b1, b2⟩ := bad_64 here d3 hc (hs1.ok hokc) hcl.2.1 h26 (Plural.stopsAt_zero.1 d5)
            rw [← hx]
            split
            · rename_i hb; exact b1 hb
            · rename_i hb; exact b2 (by simpa using hb)
        · exact (ihE _ _ _ _ _ _ (by
            intro q hq
            rcases List.mem_cons.1 hq with rfl | hq
            · decide
            · rcases List.mem_cons.1 hq with rfl | hq
              · decide
              · exact hc q hq) hokc (by omega) c3 hh h1 hg).left hfin
      · exact hb.left (hs1.trans hfin)
    · rw [rAtom_leaf hleaf hr] at hx
      cases hx
      rcases eat_first hr hv with ⟨c1, c2, c3, c4⟩ | hb
      · unfold Grew at hgrew
        rw [c2] at hgrew
        omega
      · exact hb
  · have hn' : (next parAtn 14 []).has σ.la = false := by simpa using hn
    rw [rAtom_other hn'] at hx
    cases hx

theorem bin_state : ∀ ty < 29, (goesOn ty).all (fun i => loopAlt i == 12 || loopAlt i == 13 ||
    (callStates.contains (15 + 3 * loopAlt i) && 15 + 3 * loopAlt i != 51 && 15 + 3 * loopAlt i != 63)) = true := by decide +kernel

theorem firstL_succ {f : Nat} (ihE : FirstE f) (ihL : FirstL f) : FirstL (f + 1) := by
  intro s p chain pre e σ t σ' hs hc hok hf hrec here hwe hna hx hgrew
  obtain ⟨atE, -, atL⟩ := at_all f
  by_cases hcont : Continues p σ.la
  · obtain ⟨ty, i, hla, hi, hlev⟩ := hcont
    obtain ⟨w, ln, c, r, hr⟩ := la_cons hla
    have hty := (la_lt hok hla).2
    have hcont : Continues p (some ty) := ⟨ty, i, rfl, hi, hlev⟩
    have hlen : σ.matched.consume.rest.length < σ.rest.length := eat_len (by rw [hr]; simp)
    have hokc : Ok σ.matched.consume := eat_ok.ok hok
    have hgood : Good (.tok ty w) := hok.good (.tok ty w ln c) (by rw [hr]; simp)
    have hhead : (Elem.tok ty w ln c).token ∈ (σ.rest.map Elem.token).head? := by rw [hr]; rfl
    rw [rLoop_go hs hr hcont hty hi] at hx
    rcases go_class hgood hi with ⟨o, -, ho, hl, n12, n13, types, hb, htt⟩ | ⟨o, hpo, ho, h13, hl⟩ | ⟨rfl, h12, hl⟩
    · rw [if_neg n12, if_neg n13, hb, Option.bind_some, if_pos ⟨hl ▸ hlev, htt⟩, ho, Option.bind_some] at hx
      have htk : (Elem.tok ty w ln c).token = .op o := go_token hgood hi n12 n13 ho
      have hno : ¬Plural.absorbs Plural.goTable e (Plural.goTable.op o) := hna _ (htk ▸ hhead) _ rfl
      have hbs := bin_state ty hty
      rw [hi, Option.all_some] at hbs
      simp only [n12, n13, Bool.or_eq_true, Bool.and_eq_true, beq_iff_eq, bne_iff_ne, List.contains_iff_mem, false_or] at hbs
      have hh := Plural.here_bin here hwe (hl ▸ hlev) hno hbs.1.2 hbs.2
      have hc' : ∀ q ∈ (15 + 3 * loopAlt i) :: chain, q ∈ callStates := by
        intro q hq
        rcases List.mem_cons.1 hq with rfl | hq
        · exact hbs.1.1
        · exact hc q hq
      obtain ⟨t1, σ1, h1, hs1, hfl⟩ := atE (Plural.goTable.op o + 1) ((15 + 3 * loopAlt i) :: chain) _ hokc (by omega)
      rw [h1, Option.bind_some] at hx
      have hl1 := hs1.len
      obtain ⟨t2, σ2, h2, hs2, -⟩ := atL 61 p chain (.bin o (treeOf e) t1) σ1 (by simp) (hs1.ok hokc) (by omega)
      rw [h2] at hx
      cases hx
      rcases eat_first hr (pre := pre ++ Plural.toks e) (by rw [htk]; exact here_viable hh) with ⟨c1, c2, c3, c4⟩ | hb
      · refine Bad.right (ds := [.tok ty w ln c]) (by rw [hr, c1]; rfl) c2 c4 ?_
        rw [List.map_cons, List.map_nil, htk]
        rcases hfl c3 with hcl | ⟨hg, -⟩
        · obtain ⟨e1, ds, rfl, d1, d2, d3, d4, d5⟩ := clean_exp hokc hcl
          refine Bad.right d1 hcl.1 hs1.eof ?_
          rw [d2]
          have := ihL 61 p chain pre (.bin o e e1) σ1 _ _ (by simp) hc (hs1.ok hokc) (by omega) hcl.2.1 here
            ⟨hl ▸ hlev, hwe, hno, d3⟩ (by
              intro k hk q hq ha
              rcases ha with ha | ha
              · have := (d5 k hk).2 q hq; omega
              · exact d4 k hk q hq ha) h2 (grew_of (hcl.1.trans c2) hgrew)
          simpa [Plural.toks] using this
        · exact (ihE _ _ _ _ _ _ hc' hokc (by omega) c3 hh h1 hg).left hs2
      · exact hb.left (hs1.trans hs2)
    · have hc15 : p ≤ 15 ∧ (ty = 1 ∨ ty = 2) := ⟨hl ▸ hlev, hpo⟩
      have n12 : ¬loopAlt i = 12 := by omega
      rw [if_neg n12, if_pos h13, if_pos hc15, ho, Option.bind_some] at hx
      have htk : (Elem.tok ty w ln c).token = o.tok := post_token hgood hpo ho
      have hno : ¬Plural.absorbs Plural.goTable e Plural.goTable.post := hna _ (htk ▸ hhead) _ (by cases o <;> rfl)
      have hw' : Plural.Wf Plural.goTable p (.post o e) := ⟨hc15.1, hwe, hno⟩
      obtain ⟨t2, σ2, h2, hs2, -⟩ := atL 61 p chain (.post o (treeOf e)) _ (by simp) hokc (by omega)
      rw [h2] at hx
      cases hx
      rcases eat_first hr (pre := pre ++ Plural.toks e) (by
        rw [htk]
        have := here_exp here hw'
        simpa [Plural.toks] using this) with ⟨c1, c2, c3, c4⟩ | hb
      · refine Bad.right (ds := [.tok ty w ln c]) (by rw [hr, c1]; rfl) c2 c4 ?_
        rw [List.map_cons, List.map_nil, htk]
        have := ihL 61 p chain pre (.post o e) _ _ _ (by simp) hc hokc (by omega) c3 here hw'
          (by intro k hk q hq ha; exact ha) h2 (grew_of c2 hgrew)
        simpa [Plural.toks] using this
      · exact hb.left hs2
    · have hc1 : p ≤ 1 ∧ 23 = 23 := ⟨hl ▸ hlev, rfl⟩
      rw [if_pos h12, if_pos hc1] at hx
      have htk : (Elem.tok 23 w ln c).token = .quest := by
        rw [token_eq]
        change itemTok (.tok 23 w) = _
        rw [itemTok_lit (by decide)]
        rfl
      have hno : ¬Plural.absorbs Plural.goTable e 1 := hna _ (htk ▸ hhead) _ rfl
      have hh := Plural.here_quest here hwe hc1.1 hno
      obtain ⟨t1, σ1, h1, hs1, hfl⟩ := atE 0 (51 :: chain) _ hokc (by omega)
      rw [h1, Option.bind_some] at hx
      have hl1 := hs1.len
      have hm := matchTok_step parAtn 24 52 chain σ1
      have hl2 := hm.len
      have hmok := hm.ok (hs1.ok hokc)
      obtain ⟨t2, σ2, h2, hs2, hfl2⟩ := atE 1 (53 :: chain) _ hmok (by omega)
      have hl3 := hs2.len
      obtain ⟨t3, σ3, h3, hs3, -⟩ := atL 61 p chain (.tern (treeOf e) t1 t2) σ2 (by simp) (hs2.ok hmok) (by omega)
      have hfin : Step (matchTok parAtn 24 52 chain σ1).1 σ' := by
        cases hb : (matchTok parAtn 24 52 chain σ1).2 with
        | false =>
          rw [hb, if_neg (by simp)] at hx
          cases hx
          exact mismatch_step _ _ _ _
        | true =>
          rw [hb, if_pos rfl, h2, Option.bind_some, h3] at hx
          cases hx
          exact hs2.trans hs3
      rcases eat_first hr (pre := pre ++ Plural.toks e) (by rw [htk]; exact here_viable hh) with ⟨c1, c2, c3, c4⟩ | hb
      · refine Bad.right (ds := [.tok 23 w ln c]) (by rw [hr, c1]; rfl) c2 c4 ?_
        rw [List.map_cons, List.map_nil, htk]
        rcases hfl c3 with hcl | ⟨hg, -⟩
        · obtain ⟨e1, ds, rfl, d1, d2, d3, d4, d5⟩ := clean_exp hokc hcl
          refine Bad.right d1 hcl.1 hs1.eof ?_
          rw [d2]
          by_cases h24 : σ1.la = some 24
          · obtain ⟨w2, l2, k2, r2, hr2⟩ := la_cons h24
            have hmt : matchTok parAtn 24 52 chain σ1 = (σ1.matched.consume, true) := by
              unfold matchTok
              rw [if_pos h24]
            rw [hmt] at h2 hfl2 hs2 hx hmok hl2 hl3
            dsimp only at h2 hfl2 hs2 hx hmok hl2 hl3
            rw [if_pos rfl, h2, Option.bind_some, h3] at hx
            cases hx
            have htk2 : (Elem.tok 24 w2 l2 k2).token = .colon := by
              rw [token_eq]
              change itemTok (.tok 24 w2) = _
              rw [itemTok_lit (by decide)]
              rfl
            have hh2 := Plural.here_colon (s := 53) here hwe hc1.1 hno d3 (by decide) (by decide)
            rcases eat_first hr2 (pre := pre ++ Plural.toks e ++ [.quest] ++ Plural.toks e1) (by rw [htk2]; exact here_viable hh2) with
              ⟨f1, f2, f3, f4⟩ | hb2
            · refine Bad.right (ds := [.tok 24 w2 l2 k2]) (by rw [hr2, f1]; rfl) f2 f4 ?_
              rw [List.map_cons, List.map_nil, htk2]
              rcases hfl2 f3 with hcl2 | ⟨hg2, -⟩
              · obtain ⟨e2, ds2, rfl, g1, g2, g3, g4, g5⟩ := clean_exp hmok hcl2
                refine Bad.right g1 hcl2.1 hs2.eof ?_
                rw [g2]
                have := ihL 61 p chain pre (.tern e e1 e2) σ2 _ _ (by simp) hc (hs2.ok hmok) (by omega) hcl2.2.1 here
                  ⟨hc1.1, hwe, hno, d3, g3⟩ (by
                    intro k hk q hq ha
                    rcases ha with ha | ha
                    · have := (g5 k hk).2 q hq; omega
                    · exact g4 k hk q hq ha) h3 (grew_of (hcl2.1.trans (f2.trans (hcl.1.trans c2))) hgrew)
                simpa [Plural.toks] using this
              · exact (ihE _ _ _ _ _ _ (by
                  intro q hq
                  rcases List.mem_cons.1 hq with rfl | hq
                  · decide
                  · exact hc q hq) hmok (by omega) f3 hh2 h2 hg2).left hs3
            · exact hb2.left (hs2.trans hs3)
          · obtain ⟨b1, b2⟩ := bad_52 here hwe hc1.1 hno d3 hc (hs1.ok hokc) hcl.2.1 h24 (Plural.stopsAt_zero.1 d5)
            cases hb : (matchTok parAtn 24 52 chain σ1).2 with
            | false =>
              rw [hb, if_neg (by simp)] at hx
              cases hx
              exact b2 hb
            | true => exact (b1 hb).left hfin
        · exact (ihE _ _ _ _ _ _ (by
            intro q hq
            rcases List.mem_cons.1 hq with rfl | hq
            · decide
            · exact hc q hq) hokc (by omega) c3 hh h1 hg).left (hm.trans hfin)
      · exact hb.left (hs1.trans (hm.trans hfin))
  · rw [rLoop_stop hs hcont] at hx
    cases hx
    unfold Grew at hgrew
    omega

theorem first_all : ∀ f, FirstE f ∧ FirstA f ∧ FirstL f
  | 0 => ⟨fun _ _ _ _ _ _ _ _ h => by omega, fun _ _ _ _ _ _ _ _ h => by omega, fun _ _ _ _ _ _ _ _ _ _ _ h => by omega⟩
  | f + 1 =>
    have ⟨h1, h2, h3⟩ := first_all f
    ⟨firstE_succ h2 h3, firstA_succ h1, firstL_succ h1 h3⟩

end Verif.Antlr
