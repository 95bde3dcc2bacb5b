import Verif.Lemmas.AtnRecover
import Verif.Lemmas.PluralViable
/-! # What can be read next, through the rules that are being parsed -/
namespace Verif.Antlr
open Verif

/-! ## Stacks -/

/-- A step of `look`. -/
def lookStep (L : Nat → List Nat → Option (List Trans × Bool)) (stack : List Nat) (r : Option (List Trans × Bool)) (t : Trans) :
    Option (List Trans × Bool) := r.bind fun (ts, e) =>
  match t with
  | .atom _ _ | .set _ _ => some (ts ++ [t], e)
  | .eps target _ | .action target _ | .prec target _ => (L target stack).map fun (ts', e') => (ts ++ ts', e || e')
  | .rule target _ follow => (L target (follow :: stack)).map fun (ts', e') => (ts ++ ts', e || e')

theorem look_succ (A : Atn) (f s : Nat) (stack : List Nat) : look A (f + 1) s stack =
    if A.kind s = 7 then (match stack with | [] => some ([], true) | s' :: stack => look A f s' stack)
    else (A.trans s).foldl (lookStep (look A f) stack) (some ([], false)) := by
  rw [look.eq_def]
  rfl

theorem lookStep_none (L : Nat → List Nat → Option (List Trans × Bool)) (stack : List Nat) :
    ∀ l : List Trans, l.foldl (lookStep L stack) none = none
  | [] => rfl
  | _ :: l => lookStep_none L stack l

/-- Two folds, the second with more behind the stack. -/
theorem lookStep_rel {L L' : Nat → List Nat → Option (List Trans × Bool)} {a b : List Nat} {ts2 : List Trans} {e2 : Bool}
    (hL : ∀ s c ts e, L s (c ++ a) = some (ts, e) → ∃ ts', L' s (c ++ b) = some (ts', e && e2) ∧
      ∀ t, t ∈ ts' ↔ t ∈ ts ∨ (e = true ∧ t ∈ ts2)) : ∀ (l : List Trans) (ts0 ts0' : List Trans) (e0 : Bool) (ts : List Trans) (e : Bool),
    (∀ t, t ∈ ts0' ↔ t ∈ ts0 ∨ (e0 = true ∧ t ∈ ts2)) → l.foldl (lookStep L a) (some (ts0, e0)) = some (ts, e) →
    ∃ ts', l.foldl (lookStep L' b) (some (ts0', e0 && e2)) = some (ts', e && e2) ∧ ∀ t, t ∈ ts' ↔ t ∈ ts ∨ (e = true ∧ t ∈ ts2) := by
  intro l
  induction l with
  | nil =>
    intro ts0 ts0' e0 ts e h0 h
    cases h
    exact ⟨ts0', rfl, h0⟩
  | cons t l ih =>
    intro ts0 ts0' e0 ts e h0 h
    rw [List.foldl_cons] at h ⊢
    have call : ∀ s c, lookStep L a (some (ts0, e0)) t = (L s (c ++ a)).map (fun (ts', e') => (ts0 ++ ts', e0 || e')) →
        lookStep L' b (some (ts0', e0 && e2)) t = (L' s (c ++ b)).map (fun (ts', e') => (ts0' ++ ts', (e0 && e2) || e')) →
        ∃ ts', l.foldl (lookStep L' b) (lookStep L' b (some (ts0', e0 && e2)) t) = some (ts', e && e2) ∧
          ∀ t, t ∈ ts' ↔ t ∈ ts ∨ (e = true ∧ t ∈ ts2) := by
      intro s c h1 h2
      rw [h1] at h
      rw [h2]
      cases hx : L s (c ++ a) with
      | none => rw [hx] at h; rw [Option.map_none, lookStep_none] at h; cases h
      | some x =>
        obtain ⟨ts1, e1⟩ := x
        rw [hx, Option.map_some] at h
        obtain ⟨ts1', h3, h4⟩ := hL s c ts1 e1 hx
        rw [h3, Option.map_some]
        have := ih (ts0 ++ ts1) (ts0' ++ ts1') (e0 || e1) ts e (by
          intro t
          rw [List.mem_append, List.mem_append, h0, h4, Bool.or_eq_true]
          constructor
          · rintro ((h | ⟨h, h'⟩) | (h | ⟨h, h'⟩))
            · exact .inl (.inl h)
            · exact .inr ⟨.inl h, h'⟩
            · exact .inl (.inr h)
            · exact .inr ⟨.inr h, h'⟩
          · rintro ((h | h) | ⟨h | h, h'⟩)
            · exact .inl (.inl h)
            · exact .inr (.inl h)
            · exact .inl (.inr ⟨h, h'⟩)
            · exact .inr (.inr ⟨h, h'⟩)) h
        rwa [show ((e0 || e1) && e2) = (e0 && e2 || e1 && e2) by cases e0 <;> cases e1 <;> cases e2 <;> rfl] at this
    have atom : lookStep L a (some (ts0, e0)) t = some (ts0 ++ [t], e0) →
        lookStep L' b (some (ts0', e0 && e2)) t = some (ts0' ++ [t], e0 && e2) →
        ∃ ts', l.foldl (lookStep L' b) (lookStep L' b (some (ts0', e0 && e2)) t) = some (ts', e && e2) ∧
          ∀ t, t ∈ ts' ↔ t ∈ ts ∨ (e = true ∧ t ∈ ts2) := by
      intro h1 h2
      rw [h1] at h
      rw [h2]
      refine ih _ _ _ _ _ ?_ h
      intro t'
      rw [List.mem_append, List.mem_append, h0]
      constructor
      · rintro ((h | h) | h)
        · exact .inl (.inl h)
        · exact .inr h
        · exact .inl (.inr h)
      · rintro ((h | h) | h)
        · exact .inl (.inl h)
        · exact .inr h
        · exact .inl (.inr h)
    cases t with
    | atom => exact atom rfl rfl
    | set => exact atom rfl rfl
    | eps target _ => exact call target [] rfl rfl
    | action target _ => exact call target [] rfl rfl
    | prec target _ => exact call target [] rfl rfl
    | rule target _ follow => exact call target [follow] rfl rfl

/-- More fuel does not matter. -/
theorem look_more (A : Atn) : ∀ (f g s : Nat) (st : List Nat) (x : List Trans × Bool), look A f s st = some x → look A (f + g) s st = some x := by
  intro f
  induction f with
  | zero => intro g s st x h; rw [look] at h; cases h
  | succ f ih =>
    intro g s st x h
    rw [Nat.add_right_comm, look_succ]
    rw [look_succ] at h
    split
    · rename_i hk
      rw [if_pos hk] at h
      cases st with
      | nil => exact h
      | cons s' st => exact ih g s' st x h
    · rename_i hk
      rw [if_neg hk] at h
      have key : ∀ (l : List Trans) r, l.foldl (lookStep (look A f) st) r = some x → l.foldl (lookStep (look A (f + g)) st) r = some x := by
        intro l
        induction l with
        | nil => exact fun r h => h
        | cons t l ihl =>
          intro r h
          rw [List.foldl_cons] at h ⊢
          have hr : lookStep (look A f) st r t ≠ none := by
            intro h0
            rw [h0, lookStep_none] at h
            cases h
          have : lookStep (look A (f + g)) st r t = lookStep (look A f) st r t := by
            cases r with
            | none => rfl
            | some r =>
              have call : ∀ s c, look A f s c ≠ none → look A (f + g) s c = look A f s c := by
                intro s c hn
                obtain ⟨y, hy⟩ := Option.ne_none_iff_exists'.1 hn
                rw [hy, ih g s c y hy]
              unfold lookStep at hr ⊢
              rw [Option.bind_some] at hr ⊢
              cases t with
              | atom => rfl
              | set => rfl
              | _ =>
                dsimp only at hr ⊢
                rw [call _ _ (by intro h0; rw [h0] at hr; exact hr rfl), Option.bind_some]
          rw [this]
          exact ihl _ h
      exact key _ _ h

/-- What can be read with more behind the stack. -/
theorem look_stack (A : Atn) {g s2 : Nat} {b : List Nat} {ts2 : List Trans} {e2 : Bool} (h2 : look A g s2 b = some (ts2, e2)) :
    ∀ (f s : Nat) (a : List Nat) (ts : List Trans) (e : Bool), look A f s a = some (ts, e) →
      ∃ ts', look A (f + g) s (a ++ s2 :: b) = some (ts', e && e2) ∧ ∀ t, t ∈ ts' ↔ t ∈ ts ∨ (e = true ∧ t ∈ ts2) := by
  intro f
  induction f with
  | zero => intro s a ts e h; rw [look] at h; cases h
  | succ f ih =>
    intro s a ts e h
    rw [Nat.add_right_comm, look_succ]
    rw [look_succ] at h
    split
    · rename_i hk
      rw [if_pos hk] at h
      cases a with
      | nil =>
        cases h
        refine ⟨ts2, ?_, by simp⟩
        have := look_more A g f s2 b _ h2
        rw [Nat.add_comm g f] at this
        simpa using this
      | cons s' a => exact ih s' a ts e h
    · rename_i hk
      rw [if_neg hk] at h
      exact lookStep_rel (b := a ++ s2 :: b) (fun s c ts e h => by
        have := ih s (c ++ a) ts e h
        rwa [List.append_assoc] at this) (A.trans s) [] [] false ts e (by simp) h

/-! ## The states of this parser -/

/-- The states from which the rules are called. -/
def callStates : List Nat := [6, 9, 11, 13, 18, 21, 24, 27, 30, 33, 36, 39, 42, 45, 48, 51, 53, 63]

/-- The type of a token for which a construct waits. -/
def hardType (c : List Nat) : Option Nat := (Plural.hardTok c).map fun t => if t = .colon then 24 else 26

/-- What can be read in a state, without what follows the rule: nothing but operators, and the rule may end; or a colon or a parenthesis. -/
def lookShape (s : Nat) : Bool :=
  match look parAtn (depthP parAtn) s [] with
  | none => false
  | some (ts, e) => e == decide (s ≠ 52 ∧ s ≠ 64) && (List.range 29).all fun ty =>
      (goesOn ty).isSome || (ts.any (·.reads ty) == decide ((s = 52 ∧ ty = 24) ∨ (s = 64 ∧ ty = 26)))

theorem lookShape_all : (65 :: callStates.map (follow parAtn)).all lookShape = true := by decide +kernel

theorem follow_51 : follow parAtn 51 = 52 := by decide +kernel
theorem follow_63 : follow parAtn 63 = 64 := by decide +kernel
theorem follow_soft : ∀ q ∈ callStates, q ≠ 51 → q ≠ 63 → follow parAtn q ≠ 52 ∧ follow parAtn q ≠ 64 := by decide +kernel

theorem any_congr {ts ts' : List Trans} (h : ∀ t, t ∈ ts' ↔ t ∈ ts) (ty : Nat) : ts'.any (·.reads ty) = ts.any (·.reads ty) := by
  rw [Bool.eq_iff_iff, List.any_eq_true, List.any_eq_true]
  simp only [h]

theorem lookShape_elim {s : Nat} (hs : s ∈ 65 :: callStates.map (follow parAtn)) : ∃ ts e, look parAtn (depthP parAtn) s [] = some (ts, e) ∧
    (e = true ↔ s ≠ 52 ∧ s ≠ 64) ∧ ∀ ty < 29, goesOn ty = none →
      (ts.any (·.reads ty) = true ↔ (s = 52 ∧ ty = 24) ∨ (s = 64 ∧ ty = 26)) := by
  have h := List.all_eq_true.1 lookShape_all s hs
  unfold lookShape at h
  cases hl : look parAtn (depthP parAtn) s [] with
  | none => rw [hl] at h; cases h
  | some x =>
    obtain ⟨ts, e⟩ := x
    rw [hl] at h
    simp only [Bool.and_eq_true, beq_iff_eq, List.all_eq_true, List.mem_range, Bool.or_eq_true] at h
    refine ⟨ts, e, rfl, by rw [h.1]; simp, fun ty hty hgo => ?_⟩
    rcases h.2 ty hty with h' | h'
    · rw [hgo] at h'; cases h'
    · rw [h']; simp

/-- What can be read in a state, with what follows the rules. -/
theorem look_chain : ∀ (c : List Nat), (∀ q ∈ c, q ∈ callStates) → ∀ s ∈ 65 :: callStates.map (follow parAtn),
    ∃ ts e, look parAtn (depthP parAtn * (c.length + 1)) s (c.map (follow parAtn)) = some (ts, e) ∧
      (s ≠ 52 → s ≠ 64 → (e = (hardType c).isNone ∧ ∀ ty < 29, goesOn ty = none → (ts.any (·.reads ty) = true ↔ hardType c = some ty))) ∧
      (s = 52 ∨ s = 64 → e = false ∧ ∀ ty < 29, goesOn ty = none →
        (ts.any (·.reads ty) = true ↔ (s = 52 ∧ ty = 24) ∨ (s = 64 ∧ ty = 26))) := by
  intro c
  induction c with
  | nil =>
    intro _ s hs
    obtain ⟨ts, e, h1, h2, h3⟩ := lookShape_elim hs
    refine ⟨ts, e, by simpa using h1, fun n1 n2 => ?_, fun hh => ?_⟩
    · refine ⟨h2.2 ⟨n1, n2⟩, fun ty hty hgo => ?_⟩
      rw [h3 ty hty hgo]
      simp [n1, n2, hardType, Plural.hardTok]
    · refine ⟨?_, h3⟩
      rw [Bool.eq_false_iff]
      intro he
      have := h2.1 he
      omega
  | cons q c ih =>
    intro hc s hs
    have hq : q ∈ callStates := hc q List.mem_cons_self
    obtain ⟨ts2, e2, g1, g2, g3⟩ := ih (fun x hx => hc x (List.mem_cons_of_mem _ hx)) (follow parAtn q)
      (List.mem_cons_of_mem _ (List.mem_map_of_mem hq))
    obtain ⟨ts, e, h1, h2, h3⟩ := lookShape_elim hs
    obtain ⟨ts', k1, k2⟩ := look_stack parAtn g1 _ _ _ _ _ h1
    refine ⟨ts', e && e2, ?_, fun n1 n2 => ?_, fun hh => ?_⟩
    · rw [List.length_cons, List.map_cons, Nat.mul_succ, Nat.add_comm]
      exact k1
    · have he : e = true := h2.2 ⟨n1, n2⟩
      subst he
      have hno : ∀ ty < 29, goesOn ty = none → (ts'.any (·.reads ty) = true ↔ ts2.any (·.reads ty) = true) := by
        intro ty hty hgo
        have h3' := h3 ty hty hgo
        rw [List.any_eq_true] at h3' ⊢
        rw [List.any_eq_true]
        constructor
        · rintro ⟨t, ht, hr⟩
          rcases (k2 t).1 ht with ht | ⟨-, ht⟩
          · rcases h3'.1 ⟨t, ht, hr⟩ with ⟨h, -⟩ | ⟨h, -⟩
            · exact absurd h n1
            · exact absurd h n2
          · exact ⟨t, ht, hr⟩
        · rintro ⟨t, ht, hr⟩
          exact ⟨t, (k2 t).2 (.inr ⟨rfl, ht⟩), hr⟩
      rw [Bool.true_and]
      by_cases q1 : q = 51
      · subst q1
        rw [follow_51] at g3
        obtain ⟨x1, x2⟩ := g3 (.inl rfl)
        refine ⟨by rw [x1]; rfl, fun ty hty hgo => ?_⟩
        rw [hno ty hty hgo, x2 ty hty hgo]
        simp [hardType, Plural.hardTok, eq_comm]
      · by_cases q2 : q = 63
        · subst q2
          rw [follow_63] at g3
          obtain ⟨x1, x2⟩ := g3 (.inr rfl)
          refine ⟨by rw [x1]; rfl, fun ty hty hgo => ?_⟩
          rw [hno ty hty hgo, x2 ty hty hgo]
          simp [hardType, Plural.hardTok, eq_comm]
        · obtain ⟨m1, m2⟩ := follow_soft q hq q1 q2
          obtain ⟨x1, x2⟩ := g2 m1 m2
          have : hardType (q :: c) = hardType c := by
            unfold hardType
            rw [(Plural.close_soft q1 q2 c).2]
          rw [this]
          refine ⟨x1, fun ty hty hgo => ?_⟩
          rw [hno ty hty hgo, x2 ty hty hgo]
    · have he : e = false := by
        rw [Bool.eq_false_iff]
        intro he
        have := h2.1 he
        omega
      subst he
      refine ⟨rfl, fun ty hty hgo => ?_⟩
      rw [any_congr (ts := ts) (fun t => by rw [k2]; simp), h3 ty hty hgo]

theorem has_next {s : Nat} {stack : List Nat} {ts : List Trans} {e : Bool}
    (h : look parAtn (depthP parAtn * (stack.length + 1)) s stack = some (ts, e)) (la : Option Nat) (hl : ∀ ty ∈ la, ty < 29) :
    (next parAtn s stack).has la = match la with | none => e | some ty => ts.any (·.reads ty) := by
  unfold next
  rw [h]
  cases la with
  | none => rfl
  | some ty =>
    have := hl ty rfl
    dsimp only [Tokens.has]
    rw [Bool.eq_iff_iff, List.contains_iff_mem, List.mem_filter, List.mem_range]
    simp only [and_iff_right_iff_imp]
    omega

/-- What may follow a closing parenthesis, apart from operators. -/
theorem next_65 {c : List Nat} (hc : ∀ q ∈ c, q ∈ callStates) (la : Option Nat) (hl : ∀ ty ∈ la, ty < 29 ∧ goesOn ty = none) :
    (next parAtn 65 (c.map (follow parAtn))).has la = true ↔ hardType c = la := by
  obtain ⟨ts, e, h1, h2, -⟩ := look_chain c hc 65 (by simp)
  obtain ⟨x1, x2⟩ := h2 (by decide) (by decide)
  rw [has_next (by rwa [List.length_map]) la (fun ty h => (hl ty h).1)]
  cases la with
  | none => rw [x1]; simp
  | some ty => exact x2 ty (hl ty rfl).1 (hl ty rfl).2

theorem look_53 : ∃ ts, look parAtn (depthP parAtn) 53 [] = some (ts, false) ∧
    ∀ ty < 29, (ts.any (·.reads ty) = true ↔ ty ∈ [1, 2, 3, 4, 5, 6, 25, 27, 28]) := by
  have : (match look parAtn (depthP parAtn) 53 [] with
    | some (ts, false) => (List.range 29).all fun ty => ts.any (·.reads ty) == decide (ty ∈ [1, 2, 3, 4, 5, 6, 25, 27, 28])
    | _ => false) = true := by decide +kernel
  cases hl : look parAtn (depthP parAtn) 53 [] with
  | none => rw [hl] at this; cases this
  | some x =>
    obtain ⟨ts, e⟩ := x
    rw [hl] at this
    cases e with
    | true => cases this
    | false =>
      refine ⟨ts, rfl, fun ty hty => ?_⟩
      have h := List.all_eq_true.1 this ty (List.mem_range.2 hty)
      rw [beq_iff_eq] at h
      rw [h, decide_eq_true_iff]

/-- What may follow a colon. -/
theorem next_53 {c : List Nat} (hc : ∀ q ∈ c, q ∈ callStates) (la : Option Nat) (hl : ∀ ty ∈ la, ty < 29) :
    (next parAtn 53 (c.map (follow parAtn))).has la = (next parAtn 14 []).has la := by
  obtain ⟨ts, h1, h2⟩ := look_53
  have key : ∃ ts', look parAtn (depthP parAtn * ((c.map (follow parAtn)).length + 1)) 53 (c.map (follow parAtn)) = some (ts', false) ∧
      ∀ ty, ts'.any (·.reads ty) = ts.any (·.reads ty) := by
    cases c with
    | nil => exact ⟨ts, by simpa using h1, fun _ => rfl⟩
    | cons q c =>
      obtain ⟨ts2, e2, g1, -⟩ := look_chain c (fun x hx => hc x (List.mem_cons_of_mem _ hx)) (follow parAtn q)
        (List.mem_cons_of_mem _ (List.mem_map_of_mem (hc q List.mem_cons_self)))
      obtain ⟨ts', k1, k2⟩ := look_stack parAtn g1 _ _ _ _ _ h1
      refine ⟨ts', ?_, fun ty => any_congr (fun t => by rw [k2]; simp) ty⟩
      rw [List.map_cons, List.length_cons, List.length_map, Nat.mul_succ, Nat.add_comm]
      exact k1
  obtain ⟨ts', k1, k2⟩ := key
  rw [has_next k1 la hl, next_14]
  cases la with
  | none => rfl
  | some ty =>
    dsimp only
    rw [k2, Bool.eq_iff_iff, h2 ty (hl ty rfl)]
    simp [Tokens.has]

end Verif.Antlr
