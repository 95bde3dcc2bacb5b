import Verif.Spec.Viable
import Verif.Lemmas.PluralParse
/-! # How a parse that has come some way can go on -/
namespace Verif.Plural
open Verif

/-! ## Fuel -/

theorem pExp_big {T : Table} {f p : Nat} {ts : List Tok} {t : Exp} {r : List Tok} (h : pExp T f p ts = some (t, r)) (f' : Nat)
    (hf : 2 * ts.length + 2 ≤ f') : pExp T f' p ts = some (t, r) := by
  obtain ⟨rfl, hw, hn, hs⟩ := (sound _).1 _ _ _ _ h
  rw [List.length_append] at hf
  obtain ⟨g, hg, he⟩ := complete t p r f' hw hn (fun k hk => (hs k hk).1) (by omega)
  obtain ⟨g, rfl⟩ : ∃ k, g = k + 1 := ⟨g - 1, by omega⟩
  rw [he, pLoop_stop hs]

theorem ends_stops {T : Table} {p : Nat} {r : List Tok} (h : Ends r) : StopsAt T p r := by
  intro k hk
  have := (stopsAt_zero (T := T)).2 h k hk
  exact ⟨this.1, fun q hq => absurd (this.2 q hq) (by omega)⟩

theorem pLoop_ends {T : Table} {f p : Nat} {l e : Exp} {r1 r : List Tok} (h : pLoop T f p l r1 = some (e, r)) (he : Ends r1) :
    r1 = r ∧ l = e := by
  cases f with
  | zero => rw [pLoop] at h; cases h
  | succ f =>
    rw [pLoop_stop (ends_stops he)] at h
    cases h
    exact ⟨rfl, rfl⟩

theorem complete_ends {t : Exp} {p : Nat} {r : List Tok} {e : Exp} {r' : List Tok} {f : Nat} (hw : Wf goTable p t) (he : Ends r)
    (h : pExp goTable f p (toks t ++ r) = some (e, r')) : e = t ∧ r' = r := by
  have hs : StopsAt goTable p r := ends_stops he
  have hn : NoAbs goTable t r := fun k hk q hq => absurd ((ends_stops (T := goTable) (p := 0) he k hk).2 q hq) (by omega)
  have h1 := pExp_big h (2 * (toks t ++ r).length + 2) (Nat.le_refl _)
  obtain ⟨g, hg, h2⟩ := complete t p r (2 * (toks t ++ r).length + 2) hw hn (fun k hk => (hs k hk).1) (by simp; omega)
  rw [h2] at h1
  obtain ⟨rfl, rfl⟩ := pLoop_ends h1 he
  exact ⟨rfl, rfl⟩

/-! ## What is open -/

/-- The token for which the innermost open construct waits; the list are the states of the calls. -/
def hardTok : List Nat → Option Tok
  | [] => none
  | s :: c => if s = 51 then some .colon else if s = 63 then some .rp else hardTok c

/-- Tokens that close everything that is open. -/
def close : List Nat → List Tok
  | [] => []
  | s :: c => if s = 51 then .colon :: .n :: close c else if s = 63 then .rp :: close c else close c

theorem close_head : ∀ c, (close c).head? = hardTok c
  | [] => rfl
  | s :: c => by
    rw [close, hardTok]
    split
    · rfl
    · split
      · rfl
      · exact close_head c

theorem close_soft {s : Nat} (h1 : s ≠ 51) (h2 : s ≠ 63) (c : List Nat) : close (s :: c) = close c ∧ hardTok (s :: c) = hardTok c := by
  rw [close, hardTok, if_neg h1, if_neg h2, if_neg h1, if_neg h2]
  exact ⟨rfl, rfl⟩

/-- Behind the tokens an operand of a level can come, and then what closes everything. -/
def Fits (p : Nat) (chain : List Nat) (pre : List Tok) : Prop := ∀ e, Wf goTable p e → Complete (pre ++ (toks e ++ close chain))

/-- Behind the tokens an operand of a level must come; an end of it closes what is open. -/
def Dem (p : Nat) (chain : List Nat) (pre : List Tok) : Prop := ∀ rest, Complete (pre ++ rest) →
  ∃ f e r, pExp goTable f p rest = some (e, r) ∧ (Ends r → r.head? = hardTok chain)

/-- The parser is about to read an operand of a level. -/
structure Here (p : Nat) (chain : List Nat) (pre : List Tok) : Prop where
  fits : Fits p chain pre
  dem : Dem p chain pre

theorem here_start : Here 0 [6] [] where
  fits e hw := ⟨e, by simp [close], hw⟩
  dem rest h := by
    obtain ⟨t, ht, hw⟩ := h
    rw [List.nil_append] at ht
    have : parse goTable rest = some (t, []) := (parse_iff rest t []).2 ⟨by simp [ht], hw, by simp [Ends]⟩
    exact ⟨_, t, [], this, fun _ => rfl⟩

theorem here_pre {p s : Nat} {chain : List Nat} {pre : List Tok} (h : Here p chain pre) (o : Pre) (h1 : s ≠ 51) (h2 : s ≠ 63) :
    Here (goTable.pre o) (s :: chain) (pre ++ [o.tok]) where
  fits e hw := by
    have := h.fits (.pre o e) hw
    rw [(close_soft h1 h2 chain).1]
    simpa [toks] using this
  dem rest hc := by
    obtain ⟨f, e, r, he, ht⟩ := h.dem (o.tok :: rest) (by simpa using hc)
    rw [(close_soft h1 h2 chain).2]
    cases f with
    | zero => rw [pExp] at he; cases he
    | succ f =>
      rw [pExp] at he
      cases f with
      | zero => rw [pAtom] at he; cases he
      | succ f =>
        rw [pAtom_pre] at he
        cases hx : pExp goTable f (goTable.pre o) rest with
        | none => rw [hx] at he; cases he
        | some x =>
          rw [hx] at he
          refine ⟨f, x.1, x.2, hx, fun hr => ?_⟩
          obtain ⟨e1, -⟩ := pLoop_ends he hr
          rw [e1] at hr ⊢
          exact ht hr

theorem here_paren {p s : Nat} {chain : List Nat} {pre : List Tok} (h : Here p chain pre) (h1 : s ≠ 51) (h2 : s ≠ 63) :
    Here 0 (63 :: s :: chain) (pre ++ [.lp]) where
  fits e hw := by
    have := h.fits (.paren e) hw
    rw [close, if_neg (by decide), if_pos rfl, (close_soft h1 h2 chain).1]
    simpa [toks] using this
  dem rest hc := by
    obtain ⟨f, e, r, he, -⟩ := h.dem (.lp :: rest) (by simpa using hc)
    cases f with
    | zero => rw [pExp] at he; cases he
    | succ f =>
      rw [pExp] at he
      cases f with
      | zero => rw [pAtom] at he; cases he
      | succ f =>
        rw [pAtom] at he
        cases hx : pExp goTable f 0 rest with
        | none => rw [hx] at he; cases he
        | some x =>
          obtain ⟨e1, r1⟩ := x
          rw [hx] at he
          refine ⟨f, e1, r1, hx, fun _ => ?_⟩
          cases r1 with
          | nil => cases he
          | cons k r1 =>
            cases k <;> first | rfl | cases he

/-- In the loop, with the left operand `l`, in front of a token. -/
theorem loop_dem {p : Nat} {chain : List Nat} {pre : List Tok} (h : Here p chain pre) {l : Exp} {k : Tok} (hw : Wf goTable p l)
    (hn : ∀ r, NoAbs goTable l (k :: r)) (hk : k ≠ .bad) {rest : List Tok} (hc : Complete (pre ++ toks l ++ (k :: rest))) :
    ∃ g e r, pLoop goTable g p l (k :: rest) = some (e, r) ∧ (Ends r → r.head? = hardTok chain) := by
  obtain ⟨f, e, r, he, ht⟩ := h.dem (toks l ++ (k :: rest)) (by simpa using hc)
  have h1 := pExp_big he (2 * (toks l ++ k :: rest).length + 2) (Nat.le_refl _)
  obtain ⟨g, hg, h2⟩ := complete l p (k :: rest) (2 * (toks l ++ k :: rest).length + 2) hw (hn rest)
    (by intro k' hk'; cases hk'; exact hk) (by simp; omega)
  rw [h2] at h1
  exact ⟨g, e, r, h1, ht⟩

theorem noAbs_of {l : Exp} {k : Tok} {q : Nat} (hk : contPrec goTable k = some q) (h : ¬absorbs goTable l q) (r : List Tok) :
    NoAbs goTable l (k :: r) := by
  intro k' hk' q' hq'
  cases hk'
  rw [hk] at hq'
  cases hq'
  exact h

theorem here_bin {p s : Nat} {chain : List Nat} {pre : List Tok} (h : Here p chain pre) {l : Exp} {o : Op} (hw : Wf goTable p l)
    (hp : p ≤ goTable.op o) (hn : ¬absorbs goTable l (goTable.op o)) (h1 : s ≠ 51) (h2 : s ≠ 63) :
    Here (goTable.op o + 1) (s :: chain) (pre ++ toks l ++ [.op o]) where
  fits e he := by
    have := h.fits (.bin o l e) ⟨hp, hw, hn, he⟩
    rw [(close_soft h1 h2 chain).1]
    simpa [toks] using this
  dem rest hc := by
    rw [(close_soft h1 h2 chain).2]
    obtain ⟨g, e, r, he, ht⟩ := loop_dem h (k := .op o) hw (noAbs_of rfl hn) (by simp) (rest := rest) (by simpa using hc)
    cases g with
    | zero => rw [pLoop] at he; cases he
    | succ g =>
      rw [pLoop] at he
      rw [if_pos hp] at he
      cases hx : pExp goTable g (goTable.op o + 1) rest with
      | none => rw [hx] at he; cases he
      | some x =>
        rw [hx] at he
        refine ⟨g, x.1, x.2, hx, fun hr => ?_⟩
        obtain ⟨e1, -⟩ := pLoop_ends he hr
        rw [e1] at hr ⊢
        exact ht hr

theorem here_quest {p : Nat} {chain : List Nat} {pre : List Tok} (h : Here p chain pre) {l : Exp} (hw : Wf goTable p l)
    (hp : p ≤ 1) (hn : ¬absorbs goTable l 1) : Here 0 (51 :: chain) (pre ++ toks l ++ [.quest]) where
  fits e he := by
    have := h.fits (.tern l e .n) ⟨hp, hw, hn, he, trivial⟩
    rw [close, if_pos rfl]
    simpa [toks] using this
  dem rest hc := by
    obtain ⟨g, e, r, he, ht⟩ := loop_dem h (k := .quest) hw (noAbs_of rfl hn) (by simp) (rest := rest) (by simpa using hc)
    cases g with
    | zero => rw [pLoop] at he; cases he
    | succ g =>
      rw [pLoop] at he
      rw [if_pos hp] at he
      cases hx : pExp goTable g 0 rest with
      | none => rw [hx] at he; cases he
      | some x =>
        obtain ⟨e1, r1⟩ := x
        rw [hx] at he
        refine ⟨g, e1, r1, hx, fun _ => ?_⟩
        cases r1 with
        | nil => cases he
        | cons k r1 =>
          cases k <;> first | rfl | cases he

theorem here_colon {p s : Nat} {chain : List Nat} {pre : List Tok} (h : Here p chain pre) {l a : Exp} (hw : Wf goTable p l)
    (hp : p ≤ 1) (hn : ¬absorbs goTable l 1) (ha : Wf goTable 0 a) (h1 : s ≠ 51) (h2 : s ≠ 63) :
    Here 1 (s :: chain) (pre ++ toks l ++ [.quest] ++ toks a ++ [.colon]) where
  fits e he := by
    have := h.fits (.tern l a e) ⟨hp, hw, hn, ha, he⟩
    rw [(close_soft h1 h2 chain).1]
    simpa [toks] using this
  dem rest hc := by
    rw [(close_soft h1 h2 chain).2]
    obtain ⟨g, e, r, he, ht⟩ := loop_dem h (k := .quest) hw (noAbs_of rfl hn) (by simp) (rest := toks a ++ .colon :: rest)
      (by simpa using hc)
    cases g with
    | zero => rw [pLoop] at he; cases he
    | succ g =>
      rw [pLoop] at he
      rw [if_pos hp] at he
      cases hx : pExp goTable g 0 (toks a ++ .colon :: rest) with
      | none => rw [hx] at he; cases he
      | some x =>
        obtain ⟨e1, r1⟩ := x
        obtain ⟨-, rfl⟩ := complete_ends ha (by simp [Ends, isEnd]) hx
        rw [hx] at he
        dsimp only at he
        cases hy : pExp goTable g 1 rest with
        | none => rw [hy] at he; cases he
        | some y =>
          rw [hy] at he
          refine ⟨g, y.1, y.2, hy, fun hr => ?_⟩
          obtain ⟨e1, -⟩ := pLoop_ends he hr
          rw [e1] at hr ⊢
          exact ht hr

/-! ## Where it cannot go on -/

/-- A token with which an operand begins. -/
def isFirst : Tok → Bool
  | .n | .int _ | .lp | .inc | .dec | .tilde | .bang | .op .add | .op .sub => true
  | _ => false

theorem first_exp {k : Tok} (h : isFirst k = true) : ∃ e ts, (∀ p, Wf goTable p e) ∧ toks e = k :: ts := by
  have pre : ∀ o : Pre, ∃ e ts, (∀ p, Wf goTable p e) ∧ toks e = o.tok :: ts := fun o => ⟨.pre o .n, [.n], fun _ => trivial, rfl⟩
  cases k with
  | n => exact ⟨.n, [], fun _ => trivial, rfl⟩
  | int ds => exact ⟨.int ds, [], fun _ => trivial, rfl⟩
  | lp => exact ⟨.paren .n, [.n, .rp], fun _ => trivial, rfl⟩
  | inc => exact pre .inc
  | dec => exact pre .dec
  | tilde => exact pre .bnot
  | bang => exact pre .lnot
  | op o =>
    cases o <;> first | exact pre .plus | exact pre .minus | cases h
  | _ => cases h

theorem exp_first {f p : Nat} {k : Tok} {ts : List Tok} {x : Exp × List Tok} (h : pExp goTable f p (k :: ts) = some x) :
    isFirst k = true := by
  cases f with
  | zero => rw [pExp] at h; cases h
  | succ f =>
    rw [pExp] at h
    cases f with
    | zero => rw [pAtom] at h; cases h
    | succ f =>
      cases k <;> first | rfl | (simp [pAtom, preOf] at h; done) | skip
      rename_i o
      cases o <;> first | rfl | (simp [pAtom, preOf] at h; done)

theorem Viable.of_complete {a b : List Tok} (h : Complete (a ++ b)) : Viable a := ⟨b, h⟩

theorem Viable.left {a b : List Tok} (h : Viable (a ++ b)) : Viable a := by
  obtain ⟨m, h⟩ := h
  exact ⟨b ++ m, by simpa using h⟩

/-- Where an operand must come. -/
theorem here_first {p : Nat} {chain : List Nat} {pre : List Tok} (h : Here p chain pre) (k : Tok) :
    Viable (pre ++ [k]) ↔ isFirst k = true := by
  constructor
  · rintro ⟨more, hc⟩
    obtain ⟨f, e, r, he, -⟩ := h.dem (k :: more) (by simpa using hc)
    exact exp_first he
  · intro hk
    obtain ⟨e, ts, hw, ht⟩ := first_exp hk
    have := h.fits e (hw p)
    rw [ht] at this
    exact ⟨ts ++ close chain, by simpa using this⟩

theorem here_open {p : Nat} {chain : List Nat} {pre : List Tok} (h : Here p chain pre) : ¬Complete pre := by
  intro hc
  obtain ⟨f, e, r, he, -⟩ := h.dem [] (by simpa using hc)
  cases f with
  | zero => rw [pExp] at he; cases he
  | succ f =>
    rw [pExp] at he
    cases f <;> (rw [pAtom] at he; cases he)

/-- Where an operand has ended and what follows does not go on with it. -/
theorem here_end {p : Nat} {chain : List Nat} {pre : List Tok} (h : Here p chain pre) {a : Exp} (ha : Wf goTable p a) {ts : List Tok}
    (he : Ends ts) (hc : Complete (pre ++ toks a ++ ts)) : ts.head? = hardTok chain := by
  obtain ⟨f, e, r, hx, ht⟩ := h.dem (toks a ++ ts) (by simpa using hc)
  obtain ⟨-, rfl⟩ := complete_ends ha he hx
  exact ht he

theorem here_next {p : Nat} {chain : List Nat} {pre : List Tok} (h : Here p chain pre) {a : Exp} (ha : Wf goTable p a) {k : Tok}
    (hk : isEnd k = true) : Viable (pre ++ toks a ++ [k]) ↔ hardTok chain = some k := by
  constructor
  · rintro ⟨more, hc⟩
    exact (here_end h ha (ts := k :: more) (by simpa [Ends] using hk) (by simpa using hc)).symm
  · intro hk
    have hc := h.fits a ha
    have hh := close_head chain
    rw [hk] at hh
    cases hcl : close chain with
    | nil => rw [hcl] at hh; cases hh
    | cons k' ts =>
      rw [hcl] at hh hc
      cases hh
      exact ⟨ts, by simpa using hc⟩

theorem here_done {p : Nat} {chain : List Nat} {pre : List Tok} (h : Here p chain pre) {a : Exp} (ha : Wf goTable p a) :
    Complete (pre ++ toks a) ↔ hardTok chain = none := by
  constructor
  · intro hc
    exact (here_end h ha (ts := []) (by simp [Ends]) (by simpa using hc)).symm
  · intro hk
    have hc := h.fits a ha
    have hh := close_head chain
    rw [hk] at hh
    cases hcl : close chain with
    | nil => rw [hcl] at hc; simpa using hc
    | cons k' ts => rw [hcl] at hh; cases hh

end Verif.Plural
