import Verif.Lemmas.AtnKeep
/-! # What has been reported about the items that were read -/
namespace Verif.Antlr
open Verif

theorem Shuffle.left_end {α : Type} {a b c : List α} (h : Shuffle a b c) (x : List α) : Shuffle (a ++ x) b (c ++ x) := by
  induction h with
  | nil =>
    induction x with
    | nil => exact .nil
    | cons y x ih => exact .left ih
  | left _ ih => exact .left ih
  | right _ ih => exact .right ih

theorem Shuffle.right_end {α : Type} {a b c : List α} (h : Shuffle a b c) (x : List α) : Shuffle a (b ++ x) (c ++ x) := by
  induction h with
  | nil =>
    induction x with
    | nil => exact .nil
    | cons y x ih => exact .right ih
  | left _ ih => exact .left ih
  | right _ ih => exact .right ih

/-- Where the parser is in the items: behind `ds`; the errors `bads` behind the current token were fetched. -/
def Where (es ds bads rest : List Elem) : Prop :=
  (rest = [] ∧ es = ds ∧ bads = []) ∨ ∃ x r, rest = x :: r ∧ x.isBad = false ∧ es = ds ++ x :: (bads ++ r)

theorem Where.drop {es ds bads rest : List Elem} (h : Where es ds bads rest) : ds.length ≤ es.length ∧
    (es.drop ds.length).head? = rest.head? := by
  rcases h with ⟨rfl, rfl, -⟩ | ⟨x, r, rfl, -, rfl⟩
  · simp
  · simp

theorem where_settle {es ds bads r : List Elem} {x : Elem} (h : es = ds ++ x :: (bads ++ r)) (hx : x.isBad = false) :
    ∃ ds', Where es ds' [] (settle r).2 ∧ ds.length < ds'.length ∧
      ds'.flatMap Elem.complaint = ds.flatMap Elem.complaint ++ bads.flatMap Elem.complaint ++ (settle r).1 := by
  obtain ⟨b2, h1, h2, h3, h4⟩ := settle_split r
  have hc : x.complaint = [] := by cases x with
    | tok => rfl
    | bad => cases hx
  refine ⟨ds ++ x :: (bads ++ b2), ?_, by simp, ?_⟩
  · cases hr : (settle r).2 with
    | nil =>
      refine .inl ⟨rfl, ?_, rfl⟩
      rw [h, h1, hr]
      simp
    | cons y r' =>
      refine .inr ⟨y, r', rfl, h3 y (by rw [hr]; rfl), ?_⟩
      rw [h, h1, hr]
      simp
  · rw [List.flatMap_append, List.flatMap_cons, hc, List.flatMap_append, h4]
    simp

theorem quoted_head {a b : List Elem} (h : a.head? = b.head?) : quoted a = quoted b := by
  rcases a with - | ⟨x, a⟩ <;> rcases b with - | ⟨y, b⟩ <;> cases h <;> [rfl; cases x <;> rfl]

theorem placeOf_head {a b : List Elem} (eof : Nat × Nat) (h : a.head? = b.head?) : placeOf eof a = placeOf eof b := by
  rcases a with - | ⟨x, a⟩ <;> rcases b with - | ⟨y, b⟩ <;> cases h <;> [rfl; cases x <;> rfl]

/-- What has been reported. -/
def Inv (eof : Nat × Nat) (es : List Elem) (σ : Rec) : Prop := ∃ ds bads is parser, σ.eof = eof ∧ Where es ds bads σ.rest ∧
  is.Pairwise (· < ·) ∧ (∀ i ∈ is, i ≤ ds.length) ∧ (σ.recovering = false → ∀ i ∈ is, i < ds.length) ∧
  List.Forall₂ (Complains eof es) is parser ∧
  Shuffle (ds.flatMap Elem.complaint ++ bads.flatMap Elem.complaint) parser σ.reports

theorem inv_eat {eof : Nat × Nat} {es : List Elem} {σ σ' : Rec} {x : Elem} {r : List Elem} (h : Inv eof es σ) (hr : σ.rest = x :: r)
    (h1 : σ'.rest = (settle r).2) (h2 : σ'.reports = σ.reports ++ (settle r).1) (h3 : σ'.eof = σ.eof) : Inv eof es σ' := by
  obtain ⟨ds, bads, is, parser, a1, a2, a3, a4, a5, a6, a7⟩ := h
  rw [hr] at a2
  rcases a2 with ⟨h, -⟩ | ⟨y, r', e, hy, he⟩
  · cases h
  · cases e
    obtain ⟨ds', b1, b2, b3⟩ := where_settle he hy
    refine ⟨ds', [], is, parser, h3.trans a1, h1 ▸ b1, a3, fun i hi => ?_, fun _ i hi => ?_, a6, ?_⟩
    · have := a4 i hi; omega
    · have := a4 i hi; omega
    · rw [b3, h2, List.flatMap_nil, List.append_nil]
      exact a7.left_end _

theorem inv_keeps (eof : Nat × Nat) (es : List Elem) : Keeps (Inv eof es) where
  eat σ hok hne h := by
    cases hr : σ.rest with
    | nil => exact absurd hr hne
    | cons x r => exact inv_eat h hr (by rw [eat_eq hr]) (by rw [eat_eq hr]) (by rw [eat_eq hr])
  consume σ hok h := by
    cases hr : σ.rest with
    | nil =>
      have : σ.consume = σ := by
        unfold Rec.consume
        rw [hr]
      rwa [this]
    | cons x r =>
      have : σ.consume = { σ with rest := r, index := σ.index + 1 }.fetch := by
        unfold Rec.consume
        rw [hr]
      rw [this]
      exact inv_eat h hr rfl rfl rfl
  ahead σ hok h := by
    unfold Rec.fetch2
    split
    · rename_i ty w l c r hr
      obtain ⟨ds, bads, is, parser, a1, a2, a3, a4, a5, a6, a7⟩ := h
      rw [hr] at a2
      rcases a2 with ⟨h, -⟩ | ⟨y, r', e, hy, he⟩
      · cases h
      · cases e
        obtain ⟨b2, h1, h2, h3, h4⟩ := settle_split r
        refine ⟨ds, bads ++ b2, is, parser, a1, .inr ⟨_, _, rfl, hy, ?_⟩, a3, a4, a5, a6, ?_⟩
        · rw [he]
          congr 2
          rw [List.append_assoc, ← h1]
        · rw [List.flatMap_append, h4, ← List.append_assoc]
          exact a7.left_end _
    · exact h
  report σ msg hok h hp := by
    unfold Rec.report
    split
    · exact h
    · rename_i hrec
      obtain ⟨ds, bads, is, parser, a1, a2, a3, a4, a5, a6, a7⟩ := h
      have hlt := a5 (by simpa using hrec)
      obtain ⟨d1, d2⟩ := a2.drop
      refine ⟨ds, bads, is ++ [ds.length], parser ++ [_], a1, a2, ?_, ?_, fun hc => (by cases hc), ?_, a7.right_end _⟩
      · rw [List.pairwise_append]
        refine ⟨a3, by simp, fun a ha b hb => ?_⟩
        rw [List.mem_singleton.1 hb]
        exact hlt a ha
      · intro i hi
        rcases List.mem_append.1 hi with hi | hi
        · exact a4 i hi
        · rw [List.mem_singleton.1 hi]
      · refine List.rel_append a6 (.cons ⟨d1, ?_, msg, ?_, ?_⟩ .nil)
        · intro e he
          rw [d2] at he
          exact ok_clear hok e he
        · rw [quoted_head d2]
          exact hp
        · rw [placeOf_head eof d2]
          have : σ.place = placeOf eof σ.rest := by
            rw [← a1]
            have hc := ok_clear hok
            unfold Rec.place
            cases hr : σ.rest with
            | nil => rfl
            | cons x r =>
              rw [hr] at hc
              cases x with
              | tok => rfl
              | bad => exact absurd (hc _ rfl) (by simp [Elem.isBad])
          rw [this]
  mark σ i s h := h

theorem inv_told {eof : Nat × Nat} {es : List Elem} {σ : Rec} (h : Inv eof es σ) : Told eof es σ.reports := by
  obtain ⟨ds, bads, is, parser, a1, a2, a3, a4, a5, a6, a7⟩ := h
  rcases a2 with ⟨-, rfl, rfl⟩ | ⟨x, r, -, hx, he⟩
  · refine ⟨es.length, is, parser, a3, a4, a6, ?_⟩
    rw [List.take_length]
    simpa using a7
  · refine ⟨ds.length + (1 + bads.length), is, parser, a3, fun i hi => (a4 i hi).trans (Nat.le_add_right _ _), a6, ?_⟩
    have hc : x.complaint = [] := by cases x with
      | tok => rfl
      | bad => cases hx
    have : es.take (ds.length + (1 + bads.length)) = ds ++ x :: bads := by
      rw [he, List.take_length_add_append, Nat.add_comm 1, List.take_succ_cons, List.take_left]
    rw [this, List.flatMap_append, List.flatMap_cons, hc, List.nil_append]
    exact a7

theorem inv_init (eof : Nat × Nat) (es : List Elem) : Inv eof es (Rec.init eof es).fetch := by
  obtain ⟨b, h1, h2, h3, h4⟩ := settle_split es
  refine ⟨b, [], [], [], rfl, ?_, .nil, by simp, by simp, .nil, ?_⟩
  · change Where es b [] (settle es).2
    cases hr : (settle es).2 with
    | nil => exact .inl ⟨rfl, by rw [h1, hr]; simp, rfl⟩
    | cons x r => exact .inr ⟨x, r, rfl, h3 x (by rw [hr]; rfl), by rw [h1, hr]; simp⟩
  · change Shuffle _ _ ([] ++ (settle es).1)
    rw [← h4]
    simpa using Shuffle.nil.left_end (b.flatMap Elem.complaint)

end Verif.Antlr
