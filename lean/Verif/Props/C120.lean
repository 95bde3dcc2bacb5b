import Verif.Spec.EvalStack
import Verif.Props.C113
/-!
# C120 How deep the calls of `Eval` are nested

Go ends the process when the stack grows too much, and `recover` does not help.  `Eval` needs one call more than the tree has levels; that is
at most two for each byte of the text, and no fewer for `(((...`.
-/
namespace Verif.Antlr
open Verif

/-! ## The walk -/

theorem levels_pos (t : Nodes) : 1 ≤ t.levels := by
  cases t <;> simp only [Nodes.levels] <;> first | omega | (split <;> omega)

theorem calls_pos (t : Nodes) : 1 ≤ t.calls := by
  induction t <;> simp only [Nodes.calls] <;> omega

theorem calls_levels (t : Nodes) : t.calls ≤ t.levels := by
  induction t <;> simp only [Nodes.levels, Nodes.calls] <;> first | omega | (split <;> omega)

/-- With `need` calls the result is `r`; with fewer the process ends, or a panic comes first. -/
def Needs (k need : Nat) (w : Lim (Except Plural.Panic Plural.Stack)) (r : Except Plural.Panic Plural.Stack) : Prop :=
  (need ≤ k → w = .ret r) ∧ (k < need → w = .over ∨ ∃ p, r = .error p ∧ w = .ret (.error p))

theorem Needs.seq {k a b : Nat} {w r f g} (h : Needs k a w r) (h' : ∀ s, Needs k b (f s) (g s)) :
    Needs k (max a b) (andThen w f) (Except.bind r g) := by
  constructor
  · intro hk
    rw [h.1 (by omega)]
    cases r with
    | error p => rfl
    | ok s => exact (h' s).1 (by omega)
  · intro hk
    by_cases ha : a ≤ k
    · rw [h.1 ha]
      cases r with
      | error p => exact .inr ⟨p, rfl, rfl⟩
      | ok s => exact (h' s).2 (by omega)
    · rcases h.2 (by omega) with rfl | ⟨p, rfl, rfl⟩
      · exact .inl rfl
      · exact .inr ⟨p, rfl, rfl⟩

theorem Needs.visit (k : Nat) (s) : Needs k 1 (visit k s) s := by
  cases k with
  | zero => exact ⟨by omega, fun _ => .inl rfl⟩
  | succ k => exact ⟨fun _ => rfl, by omega⟩

theorem Needs.ret (k : Nat) (r) : Needs k 0 (.ret r) r := ⟨fun _ => rfl, by omega⟩

theorem Needs.call {k a b : Nat} {w r} (h : Needs k a w r) (e : b = a + 1) : Needs (k + 1) b w r :=
  ⟨fun hk => h.1 (by omega), fun hk => h.2 (by omega)⟩

theorem Needs.none {b : Nat} {r} (e : 1 ≤ b) : Needs 0 b .over r := ⟨by omega, fun _ => .inl rfl⟩

/-- Walking a tree needs as many calls as it has levels. -/
theorem walk_needs (n : Int64) (t : Nodes) : ∀ (k : Nat) (s : Plural.Stack), Needs k t.levels (walkS n k t s) (walkR n t.tree s) := by
  induction t with
  | hole d =>
    rintro (_ | k) s
    · exact .none (levels_pos _)
    · by_cases h : d = 0
      · simp only [walkS, Nodes.levels, if_pos h]
        exact (Needs.ret k _).call rfl
      · simp only [walkS, Nodes.levels, if_neg h]
        exact (Needs.visit k _).call rfl
  | n =>
    rintro (_ | _ | k) s
    · exact .none (by simp [Nodes.levels])
    · exact (Needs.none (b := 2) (by omega)).call rfl
    · exact ((Needs.visit k _).call rfl).call rfl
  | int ds =>
    rintro (_ | _ | k) s
    · exact .none (by simp [Nodes.levels])
    · exact (Needs.none (b := 2) (by omega)).call rfl
    · exact ((Needs.visit k _).call rfl).call rfl
  | paren e ih =>
    have h2 := levels_pos e
    rintro (_ | _ | k) s
    · exact .none (by simp [Nodes.levels])
    · exact (Needs.none (b := e.levels + 1) (by omega)).call rfl
    · exact (((Needs.visit k (.ok s)).seq fun s => ih k s).call (b := e.levels + 1) (by omega)).call rfl
  | post o e ih =>
    have h2 := levels_pos e
    rintro (_ | k) s
    · exact .none (by simp [Nodes.levels])
    · exact ((ih k s).seq fun s => Needs.visit k _).call (by simp only [Nodes.levels]; omega)
  | pre o e ih =>
    have h2 := levels_pos e
    rintro (_ | k) s
    · exact .none (by simp [Nodes.levels])
    · exact ((Needs.visit k (.ok s)).seq fun s => (ih k s).seq fun s => Needs.ret k _).call (by simp only [Nodes.levels]; omega)
  | bin o l r ihl ihr =>
    have h2 := levels_pos l
    rintro (_ | k) s
    · exact .none (by simp [Nodes.levels])
    · exact ((ihl k s).seq fun s => (Needs.visit k (.ok s)).seq fun s => (ihr k s).seq fun s => Needs.ret k _).call
        (by simp only [Nodes.levels]; omega)
  | tern c a b ihc iha ihb =>
    have h2 := levels_pos c
    rintro (_ | k) s
    · exact .none (by simp [Nodes.levels])
    · exact ((ihc k s).seq fun s => (Needs.visit k (.ok s)).seq fun s => (iha k s).seq fun s => (Needs.visit k (.ok s)).seq fun s =>
        (ihb k s).seq fun s => Needs.ret k _).call (by simp only [Nodes.levels]; omega)
  | cut c a ihc iha =>
    have h2 := levels_pos c
    rintro (_ | k) s
    · exact .none (by simp [Nodes.levels])
    · exact ((ihc k s).seq fun s => (Needs.visit k (.ok s)).seq fun s => (iha k s).seq fun s => Needs.ret k _).call
        (by simp only [Nodes.levels]; omega)

/-! ## The parser -/

/-- Whatever is done, a token that is dropped is not there any more. -/
def Drops (σ σ' : Rec) : Prop := σ.index ≤ σ'.index ∧ σ'.index + σ'.rest.length ≤ σ.index + σ.rest.length

theorem Drops.refl (σ : Rec) : Drops σ σ := ⟨Nat.le_refl _, Nat.le_refl _⟩

theorem Drops.trans {a b c : Rec} (h : Drops a b) (g : Drops b c) : Drops a c := ⟨h.1.trans g.1, g.2.trans h.2⟩

theorem consume_drops (σ : Rec) : Drops σ σ.consume := by
  unfold Rec.consume
  split
  · exact .refl σ
  · rename_i e r hr
    have h := (fetch_step { σ with rest := r, index := σ.index + 1 }).len
    refine ⟨Nat.le_succ _, ?_⟩
    change σ.index + 1 + ({ σ with rest := r, index := σ.index + 1 } : Rec).fetch.rest.length ≤ _
    rw [hr, List.length_cons]
    dsimp only at h
    omega

theorem report_drops (msg : Str) (σ : Rec) : Drops σ (σ.report msg) := by
  unfold Rec.report
  split <;> exact .refl σ

theorem fetch2_drops (σ : Rec) : Drops σ σ.fetch2 := by
  have h := (fetch2_step σ).len
  have h' : σ.fetch2.index = σ.index := by
    unfold Rec.fetch2
    split <;> rfl
  exact ⟨by omega, by omega⟩

theorem deletion_drops (A : Atn) (s : Nat) (chain : List Nat) (σ : Rec) : Drops σ (deletion A s chain σ).1 := by
  unfold deletion
  dsimp only
  split
  · exact ((fetch2_drops σ).trans (report_drops _ _)).trans (consume_drops _)
  · exact fetch2_drops σ

theorem syncTok_drops (A : Atn) (s : Nat) (chain : List Nat) (σ : Rec) : Drops σ (syncTok A s chain σ).1 := by
  unfold syncTok
  split
  · exact .refl σ
  · split
    · exact .refl σ
    · split
      · exact deletion_drops _ _ _ _
      · exact .refl σ

theorem skipTo_drops (A : Atn) (chain : List Nat) : ∀ f σ, Drops σ (skipTo A chain f σ)
  | 0, σ => .refl σ
  | f + 1, σ => by
    rw [skipTo]
    split
    · exact .refl σ
    · split
      · exact .refl σ
      · exact (consume_drops σ).trans (skipTo_drops A chain f _)

theorem recover_drops (A : Atn) (s : Nat) (chain : List Nat) (σ : Rec) : Drops σ (recover A s chain σ) := by
  unfold recover
  dsimp only
  refine .trans (b := if σ.lastIndex = some σ.index ∧ s ∈ σ.lastStates then σ.consume else σ) ?_ (.trans ?_ (skipTo_drops _ _ _ _))
  · split
    · exact consume_drops σ
    · exact .refl σ
  · exact ⟨Nat.le_refl _, Nat.le_refl _⟩

theorem mismatch_drops (A : Atn) (s : Nat) (chain : List Nat) (σ : Rec) : Drops σ (mismatch A s chain σ) :=
  (report_drops _ _).trans (recover_drops _ _ _ _)

theorem noViable_drops (A : Atn) (s : Nat) (chain : List Nat) (σ : Rec) : Drops σ (noViable A s chain σ) :=
  (report_drops _ _).trans (recover_drops _ _ _ _)

theorem hole_levels {σ σ' : Rec} (h : Drops σ σ') :
    (Nodes.hole (σ'.index - σ.index)).levels + 2 * σ'.rest.length ≤ 2 * σ.rest.length + 1 := by
  obtain ⟨h1, h2⟩ := h
  rw [Nodes.levels]
  split <;> omega

theorem leaf_tree (w : List Nat) : (leafNodes w).tree = treeOf (leaf w) := by
  unfold leafNodes leaf
  split <;> rfl

theorem leaf_calls (w : List Nat) : (leafNodes w).calls = 2 := by
  unfold leafNodes
  split <;> rfl

theorem leaf_levels (w : List Nat) : (leafNodes w).levels = 3 := by
  unfold leafNodes
  split <;> rfl

theorem sync_len {A : Atn} {s : Nat} {chain : List Nat} {σ σ1 : Rec} {b : Bool} (h : syncTok A s chain σ = (σ1, b)) :
    σ1.rest.length ≤ σ.rest.length := by
  have := (syncTok_step A s chain σ).len
  rwa [h] at this

theorem match_len {A : Atn} {ty s : Nat} {chain : List Nat} {σ σ1 : Rec} {b : Bool} (h : matchTok A ty s chain σ = (σ1, b)) :
    σ1.rest.length ≤ σ.rest.length := by
  have := (matchTok_step A ty s chain σ).len
  rwa [h] at this

/-- `exp` with few calls: the nodes are those of the tree, and every token adds at most two levels. -/
def LimE (f : Nat) : Prop := ∀ p chain σ t σ', rExp parAtn f p chain σ = some (t, σ') →
  ∃ u : Nodes, u.tree = t ∧ u.levels + 2 * σ'.rest.length ≤ 2 * σ.rest.length + 1 ∧
    ∀ k, sExp parAtn f k p chain σ = if u.calls ≤ k then .ret (some (u, σ')) else .over

def LimN (f : Nat) : Prop := ∀ chain σ σ', rAtom parAtn f chain σ = some (none, σ') →
  σ' = σ ∧ ∀ k, sAtom parAtn f k chain σ = .ret (some (none, σ'))

def LimA (f : Nat) : Prop := ∀ chain σ t σ', rAtom parAtn f chain σ = some (some t, σ') →
  ∃ u : Nodes, u.tree = t ∧ u.levels + 2 * σ'.rest.length ≤ 2 * σ.rest.length + 1 ∧
    ∀ k, sAtom parAtn f k chain σ = if u.calls ≤ k + 1 then .ret (some (some u, σ')) else .over

def LimL (f : Nat) : Prop := ∀ s p chain l σ t σ', rLoop parAtn f s p chain l σ = some (t, σ') → ∀ v : Nodes, v.tree = l →
  ∃ u : Nodes, u.tree = t ∧ v.calls ≤ u.calls ∧
    (∀ m, σ.rest.length ≤ m → v.levels + 2 * σ.rest.length ≤ 2 * m + 1 → u.levels + 2 * σ'.rest.length ≤ 2 * m + 1) ∧
    ∀ k, v.calls ≤ k + 1 → sLoop parAtn f k s p chain v σ = if u.calls ≤ k + 1 then .ret (some (u, σ')) else .over

theorem limE_succ {f : Nat} (ihN : LimN f) (ihA : LimA f) (ihL : LimL f) : LimE (f + 1) := by
  intro p chain σ t σ' h
  have hz : ∀ u : Nodes, sExp parAtn (f + 1) 0 p chain σ = if u.calls ≤ 0 then .ret (some (u, σ')) else .over := by
    intro u
    have := calls_pos u
    rw [if_neg (by omega), sExp]
  unfold rExp at h
  rcases hs : syncTok parAtn 14 chain σ with ⟨σ1, b⟩
  have hd : Drops σ σ1 := by
    have := syncTok_drops parAtn 14 chain σ
    rwa [hs] at this
  have hl := sync_len hs
  rw [hs] at h
  cases b with
  | false =>
    cases h
    refine ⟨.hole _, rfl, hole_levels (hd.trans (mismatch_drops parAtn 14 chain σ1)), ?_⟩
    rintro (_ | k)
    · exact hz _
    · rw [sExp, hs]
      simp [Nodes.calls]
  | true =>
    dsimp only at h
    cases ha : rAtom parAtn f chain σ1 with
    | none => rw [ha] at h; cases h
    | some x =>
      obtain ⟨o, σ2⟩ := x
      rw [ha] at h
      cases o with
      | none =>
        obtain ⟨rfl, hk⟩ := ihN _ _ _ ha
        cases h
        refine ⟨.hole _, rfl, hole_levels (hd.trans (noViable_drops parAtn 14 chain σ2)), ?_⟩
        rintro (_ | k)
        · exact hz _
        · rw [sExp, hs]
          dsimp only
          rw [hk]
          simp [Nodes.calls]
      | some a =>
        obtain ⟨v, hv, hvl, hvk⟩ := ihA _ _ _ _ ha
        dsimp only at h
        obtain ⟨u, hu, huc, hul, huk⟩ := ihL _ _ _ _ _ _ _ h v hv
        have := levels_pos v
        refine ⟨u, hu, hul _ (by omega) (by omega), ?_⟩
        rintro (_ | k)
        · exact hz _
        · rw [sExp, hs]
          dsimp only
          rw [hvk]
          by_cases hk : v.calls ≤ k + 1
          · rw [if_pos hk]
            exact huk k hk
          · rw [if_neg hk, if_neg (by omega)]

theorem limN_succ {f : Nat} : LimN (f + 1) := by
  intro chain σ σ' h
  unfold rAtom at h
  unfold sAtom
  split at h
  · rename_i ty w _ _ _ hr
    split at h
    · repeat' split at h
      all_goals cases h
    rename_i h1
    split at h
    · repeat' split at h
      · cases h
      · cases hx : rExp parAtn f 14 (11 :: chain) σ.matched.consume <;> rw [hx] at h <;> cases h
      · cases h
    rename_i h2
    split at h
    · split at h
      · cases h
      · cases hx : rExp parAtn f 13 (13 :: chain) σ.matched.consume <;> rw [hx] at h <;> cases h
    rename_i h3
    cases h
    refine ⟨rfl, fun k => ?_⟩
    rw [hr]
    dsimp only
    rw [if_neg h1, if_neg h2, if_neg h3]
  · cases h
    refine ⟨rfl, fun k => ?_⟩
    split
    · rename_i hr
      exact absurd hr (by apply_assumption)
    · rfl

theorem limPre {f p : Nat} {chain : List Nat} {σ σ' : Rec} {t : Tree} {o : Plural.Pre} (ihE : LimE f) (hr : σ.rest ≠ [])
    (h : ((rExp parAtn f p chain σ.matched.consume).map fun x => (some (Tree.pre o x.1), x.2)) = some (some t, σ')) :
    ∃ u : Nodes, u.tree = t ∧ u.levels + 2 * σ'.rest.length ≤ 2 * σ.rest.length + 1 ∧
      ∀ k, ((sExp parAtn f k p chain σ.matched.consume).bind fun x => .ret (x.map fun x => (some (Nodes.pre o x.1), x.2))) =
        if u.calls ≤ k + 1 then .ret (some (some u, σ')) else .over := by
  have he := eat_len hr
  rw [Option.map_eq_some_iff] at h
  obtain ⟨⟨e, σ1⟩, hx, h⟩ := h
  cases h
  obtain ⟨u, hu, hul, huk⟩ := ihE _ _ _ _ _ hx
  refine ⟨.pre o u, by rw [Nodes.tree, hu], by simp only [Nodes.levels]; omega, fun k => ?_⟩
  rw [huk]
  by_cases hk : u.calls ≤ k
  · rw [if_pos hk, if_pos (by simp only [Nodes.calls]; omega)]
    rfl
  · rw [if_neg hk, if_neg (by simp only [Nodes.calls]; omega)]
    rfl

theorem limA_succ {f : Nat} (ihE : LimE f) : LimA (f + 1) := by
  intro chain σ t σ' h
  unfold rAtom at h
  split at h
  · rename_i ty w li co tl hr
    have hn : σ.rest ≠ [] := by rw [hr]; exact List.cons_ne_nil _ _
    have he := eat_len hn
    by_cases h1 : ty = 25 ∨ ty = 27 ∨ ty = 28
    · have hs : syncTok parAtn 68 (9 :: chain) σ = (σ, true) :=
        syncTok_has (by rw [show σ.la = some ty by rw [Rec.la, hr]; rfl]; exact next_68 ty (by simpa using h1))
      rw [if_pos h1, hs] at h
      dsimp only at h
      by_cases h2 : ty = 25
      · rw [if_pos h2] at h
        cases hx : rExp parAtn f 0 (63 :: 9 :: chain) σ.matched.consume with
        | none => rw [hx] at h; cases h
        | some x =>
          obtain ⟨e, σ1⟩ := x
          rw [hx] at h
          dsimp only at h
          obtain ⟨u, hu, hul, huk⟩ := ihE _ _ _ _ _ hx
          rcases hm : matchTok parAtn 26 64 (9 :: chain) σ1 with ⟨σ2, b⟩
          have h3 := match_len hm
          have h4 := (mismatch_step parAtn 64 (9 :: chain) σ2).len
          rw [hm] at h
          have ht : t = .paren e := by cases b <;> cases h <;> rfl
          subst ht
          refine ⟨.paren u, by rw [Nodes.tree, hu], ?_, ?_⟩
          · cases b <;> cases h <;> simp only [Nodes.levels] <;> omega
          · intro k
            unfold sAtom
            rw [hr]
            dsimp only
            rw [if_pos h1]
            rcases k with _ | k
            · have := calls_pos u
              rw [if_neg (by simp only [Nodes.calls]; omega)]
            · dsimp only
              rw [hs]
              dsimp only
              rw [if_pos h2, huk]
              by_cases hk : u.calls ≤ k
              · rw [if_pos hk, if_pos (by simp only [Nodes.calls]; omega)]
                dsimp only
                rw [hm]
                cases b <;> cases h <;> rfl
              · rw [if_neg hk, if_neg (by simp only [Nodes.calls]; omega)]
      · rw [if_neg h2] at h
        cases h
        have hc := leaf_calls w
        refine ⟨leafNodes w, leaf_tree w, by rw [leaf_levels]; omega, ?_⟩
        intro k
        unfold sAtom
        rw [hr]
        dsimp only
        rw [if_pos h1]
        rcases k with _ | k
        · rw [if_neg (by omega)]
        · dsimp only
          rw [hs]
          dsimp only
          rw [if_neg h2, if_pos (by omega)]
    · rw [if_neg h1] at h
      by_cases h2 : ty = 1 ∨ ty = 2 ∨ ty = 3 ∨ ty = 4
      · rw [if_pos h2] at h
        by_cases h3 : inMask 30 ty
        · rw [if_pos h3] at h
          cases hp : preText w with
          | none => rw [hp] at h; cases h
          | some o =>
            rw [hp] at h
            obtain ⟨u, hu, hul, huk⟩ := limPre ihE hn h
            refine ⟨u, hu, hul, fun k => ?_⟩
            unfold sAtom
            rw [hr]
            dsimp only
            rw [if_neg h1, if_pos h2, if_pos h3, hp]
            exact huk k
        · rw [if_neg h3] at h
          cases h
      · rw [if_neg h2] at h
        by_cases h3 : ty = 5 ∨ ty = 6
        · rw [if_pos h3] at h
          cases hp : preText w with
          | none => rw [hp] at h; cases h
          | some o =>
            rw [hp] at h
            obtain ⟨u, hu, hul, huk⟩ := limPre ihE hn h
            refine ⟨u, hu, hul, fun k => ?_⟩
            unfold sAtom
            rw [hr]
            dsimp only
            rw [if_neg h1, if_neg h2, if_pos h3, hp]
            exact huk k
        · rw [if_neg h3] at h
          cases h
  · cases h

/-- `sLoop` where the loop goes on. -/
theorem sLoop_on {f k s p j ty li co : Nat} {w : List Nat} {tl : List Elem} {chain : List Nat} {v : Nodes} {σ σ1 σ2 : Rec}
    (h1 : syncTok parAtn s chain σ = (σ1, true)) (h2 : predict parAtn p 59 σ1.la = some (.alt 1))
    (h3 : syncTok parAtn 57 chain σ1 = (σ2, true)) (h4 : predict parAtn p 57 σ2.la = some (.alt j)) (h5 : σ2.rest = .tok ty w li co :: tl) :
    sLoop parAtn (f + 1) k s p chain v σ =
      if j = 12 then
        if p ≤ 1 ∧ ty = 23 then
          match sExp parAtn f k 0 (51 :: chain) σ2.matched.consume with
          | .over => .over
          | .ret none => .ret none
          | .ret (some (a, σ)) =>
            match matchTok parAtn 24 52 chain σ with
            | (σ, false) => .ret (some (.cut v a, mismatch parAtn 52 chain σ))
            | (σ, true) =>
              match sExp parAtn f k 1 (53 :: chain) σ with
              | .over => .over
              | .ret none => .ret none
              | .ret (some (b, σ)) => sLoop parAtn f k 61 p chain (.tern v a b) σ
        else .ret none
      else if j = 13 then
        if p ≤ 15 ∧ (ty = 1 ∨ ty = 2) then
          match postText w with
          | none => .ret none
          | some o => sLoop parAtn f k 61 p chain (.post o v) σ2.matched.consume
        else .ret none
      else
        match binAlts[j - 1]? with
        | none => .ret none
        | some (level, types, next) =>
          if p ≤ level ∧ types ty then
            match opText w with
            | none => .ret none
            | some o =>
              match sExp parAtn f k next ((15 + 3 * j) :: chain) σ2.matched.consume with
              | .over => .over
              | .ret none => .ret none
              | .ret (some (e, σ)) => sLoop parAtn f k 61 p chain (.bin o v e) σ
          else .ret none := by
  rw [sLoop]
  simp only [h1, h2, h3, h4, h5]
  rfl

theorem limL_succ {f : Nat} (ihE : LimE f) (ihL : LimL f) : LimL (f + 1) := by
  intro s p chain l σ t σ' h v hv
  have hv1 := levels_pos v
  unfold rLoop at h
  split at h
  · cases h
  rename_i σ1 hs
  have h3 := sync_len hs
  split at h
  · rename_i hp
    cases h
    refine ⟨v, hv, Nat.le_refl _, fun m hm hl => by omega, fun k hk => ?_⟩
    rw [if_pos hk, sLoop]
    simp only [hs, hp]
  · rename_i hp
    split at h
    · cases h
    rename_i σ2 hs'
    have h4 := sync_len hs'
    split at h
    · rename_i j ty w li co tl hq hr
      have he := eat_len (σ := σ2) (by rw [hr]; exact List.cons_ne_nil _ _)
      have on : ∀ k, _ := fun k => sLoop_on (f := f) (k := k) (v := v) hs hp hs' hq hr
      by_cases j1 : j = 12
      · simp only [if_pos j1] at h on
        by_cases j2 : p ≤ 1 ∧ ty = 23
        · simp only [if_pos j2] at h on
          cases hx : rExp parAtn f 0 (51 :: chain) σ2.matched.consume with
          | none => rw [hx] at h; cases h
          | some x =>
            obtain ⟨a, σ3⟩ := x
            obtain ⟨ua, ha, hal, hak⟩ := ihE _ _ _ _ _ hx
            have ha1 := levels_pos ua
            rw [hx] at h
            dsimp only at h
            rcases hm : matchTok parAtn 24 52 chain σ3 with ⟨σ4, b⟩
            have h7 := match_len hm
            rw [hm] at h
            cases b with
            | false =>
              have h8 := (mismatch_step parAtn 52 chain σ4).len
              cases h
              refine ⟨.cut v ua, by rw [Nodes.tree, hv, ha], by simp only [Nodes.calls]; omega, fun m hm hl => ?_, fun k hk => ?_⟩
              · simp only [Nodes.levels]
                omega
              · rw [on, hak]
                by_cases hc : ua.calls ≤ k
                · rw [if_pos hc, if_pos (by simp only [Nodes.calls]; omega)]
                  dsimp only
                  rw [hm]
                · rw [if_neg hc, if_neg (by simp only [Nodes.calls]; omega)]
            | true =>
              dsimp only at h
              cases hy : rExp parAtn f 1 (53 :: chain) σ4 with
              | none => rw [hy] at h; cases h
              | some y =>
                obtain ⟨b, σ5⟩ := y
                obtain ⟨ub, hb, hbl, hbk⟩ := ihE _ _ _ _ _ hy
                have hb1 := levels_pos ub
                rw [hy] at h
                dsimp only at h
                obtain ⟨u, hu, huc, hul, huk⟩ := ihL _ _ _ _ _ _ _ h (.tern v ua ub) (by rw [Nodes.tree, hv, ha, hb])
                simp only [Nodes.calls, Nodes.levels] at huc hul
                refine ⟨u, hu, by omega, fun m hm hl => hul m (by omega) (by omega), fun k hk => ?_⟩
                rw [on, hak]
                by_cases hc : ua.calls ≤ k
                · rw [if_pos hc]
                  dsimp only
                  rw [hm]
                  dsimp only
                  rw [hbk]
                  by_cases hc' : ub.calls ≤ k
                  · rw [if_pos hc']
                    exact huk k (by simp only [Nodes.calls]; omega)
                  · rw [if_neg hc', if_neg (by omega)]
                · rw [if_neg hc, if_neg (by omega)]
        · rw [if_neg j2] at h
          cases h
      · simp only [if_neg j1] at h on
        by_cases j2 : j = 13
        · simp only [if_pos j2] at h on
          by_cases j3 : p ≤ 15 ∧ (ty = 1 ∨ ty = 2)
          · simp only [if_pos j3] at h on
            cases hp : postText w with
            | none => rw [hp] at h; cases h
            | some o =>
              simp only [hp] at h on
              obtain ⟨u, hu, huc, hul, huk⟩ := ihL _ _ _ _ _ _ _ h (.post o v) (by rw [Nodes.tree, hv])
              simp only [Nodes.calls, Nodes.levels] at huc hul
              refine ⟨u, hu, huc, fun m hm hl => hul m (by omega) (by omega), fun k hk => ?_⟩
              rw [on]
              exact huk k hk
          · rw [if_neg j3] at h
            cases h
        · simp only [if_neg j2] at h on
          cases hb : binAlts[j - 1]? with
          | none => rw [hb] at h; cases h
          | some x =>
            obtain ⟨level, types, next⟩ := x
            simp only [hb] at h on
            by_cases j3 : p ≤ level ∧ types ty = true
            · simp only [if_pos j3] at h on
              cases hp : opText w with
              | none => rw [hp] at h; cases h
              | some o =>
                simp only [hp] at h on
                cases hx : rExp parAtn f next ((15 + 3 * j) :: chain) σ2.matched.consume with
                | none => rw [hx] at h; cases h
                | some x =>
                  obtain ⟨e, σ3⟩ := x
                  obtain ⟨ue, he, hel, hek⟩ := ihE _ _ _ _ _ hx
                  have he1 := levels_pos ue
                  rw [hx] at h
                  dsimp only at h
                  obtain ⟨u, hu, huc, hul, huk⟩ := ihL _ _ _ _ _ _ _ h (.bin o v ue) (by rw [Nodes.tree, hv, he])
                  simp only [Nodes.calls, Nodes.levels] at huc hul
                  refine ⟨u, hu, by omega, fun m hm hl => hul m (by omega) (by omega), fun k hk => ?_⟩
                  rw [on, hek]
                  by_cases hc : ue.calls ≤ k
                  · rw [if_pos hc]
                    exact huk k (by simp only [Nodes.calls]; omega)
                  · rw [if_neg hc, if_neg (by omega)]
            · rw [if_neg j3] at h
              cases h
    · cases h
  · cases h

theorem limited : ∀ f, LimE f ∧ LimN f ∧ LimA f ∧ LimL f
  | 0 => by refine ⟨?_, ?_, ?_, ?_⟩ <;> intro <;> intros <;> simp_all [rExp, rAtom, rLoop]
  | f + 1 =>
    have ⟨h1, h2, h3, h4⟩ := limited f
    ⟨limE_succ h2 h3 h4, limN_succ, limA_succ h1, limL_succ h1 h4⟩

/-! ## Eval -/

theorem parse_limited (exp : Str) : ∃ (t : Nodes) (reports : _), parseText exp = some (t.tree, reports) ∧ t.levels ≤ 2 * exp.length + 1 ∧
    ∀ k, parseTextS k exp = if t.calls < k then .ret (some (t, reports)) else .over := by
  obtain ⟨es, he, ht, hg, hp⟩ := elems_of exp
  obtain ⟨t, σ, h, -⟩ := rParse_spec (position (rs exp)) es hg
  obtain ⟨t, rfl, h1, hl⟩ := (limited _).1 _ _ _ _ _ h
  refine ⟨t, σ.reports, ?_, ?_, ?_⟩
  · rw [parseText_eq, he, Option.bind_some, h]
    rfl
  · have h2 := (fetch_step (Rec.init (position (rs exp)) es)).len
    have h3 := (stream_size (lexElems_stream _ _ _ _ he)).1
    have h4 := rs_length exp
    have h5 : (Rec.init (position (rs exp)) es).rest = es := rfl
    rw [h5] at h2
    omega
  · intro k
    have : parseTextS k exp = (sParse parAtn k (position (rs exp)) es).bind fun x => .ret (x.map fun x => (x.1, x.2.reports)) := by
      unfold parseTextS
      rw [lexer_deserialize, parser_deserialize]
      dsimp only
      rw [show lexElems lexAtn (runes exp.length exp).length [] (runes exp.length exp) = some es from he]
      rfl
    rw [this]
    cases k with
    | zero => rfl
    | succ k =>
      change (sExp parAtn _ k 0 [6] _).bind _ = _
      rw [hl]
      by_cases hk : t.calls ≤ k
      · rw [if_pos hk, if_pos (by omega)]
        rfl
      · rw [if_neg hk, if_neg (by omega)]
        rfl

/-- **C120** Unless the process ends, `Eval` returns what it returns with any number of calls. -/
theorem C120_same (L : Fmt.Lib) (k : Nat) (exp : Str) (n : Int64) : evalS L k exp n = .over ∨ evalS L k exp n = .ret (evalR L exp n) := by
  obtain ⟨t, reports, h, -, hk⟩ := parse_limited exp
  unfold evalS evalR
  cases hc : Plural.commonsGet (GoStr.removeByte 32 exp) with
  | some f => exact .inr rfl
  | none =>
    dsimp only
    rw [h, hk]
    by_cases h1 : t.calls < k
    · rw [if_pos h1]
      obtain ⟨k, rfl⟩ : ∃ m, k = m + 1 := ⟨k - 1, by omega⟩
      have hw := walk_needs n t k []
      by_cases h2 : t.levels ≤ k
      · right
        change (walkS n k t []).bind _ = _
        rw [hw.1 h2]
        rfl
      · rcases hw.2 (by omega) with h3 | ⟨p, h3, h4⟩
        · left
          change (walkS n k t []).bind _ = _
          rw [h3]
          rfl
        · right
          change (walkS n k t []).bind _ = _
          rw [h4, Option.map_some, h3]
          rfl
    · rw [if_neg h1]
      exact .inl rfl

/-- **C120** For an expression that is not built in: the process ends if no more calls may be nested than the tree has levels, unless the walk
panics first; otherwise it does not. -/
theorem C120_levels (L : Fmt.Lib) (exp : Str) (n : Int64) (hc : Plural.commonsGet (GoStr.removeByte 32 exp) = none) :
    ∃ (t : Nodes) (reports : _), parseText exp = some (t.tree, reports) ∧ t.levels ≤ 2 * exp.length + 1 ∧ ∀ k,
      (t.levels < k → evalS L k exp n = .ret (evalR L exp n)) ∧ (k ≤ t.calls → evalS L k exp n = .over) ∧
      (k ≤ t.levels → evalS L k exp n = .over ∨ ∃ p, walkR n t.tree [] = .error p) := by
  obtain ⟨t, reports, h, hl, hk⟩ := parse_limited exp
  refine ⟨t, reports, h, hl, fun k => ?_⟩
  have hlt := calls_levels t
  unfold evalS evalR
  rw [hc]
  dsimp only
  rw [h, hk]
  refine ⟨fun h1 => ?_, fun h1 => ?_, fun h1 => ?_⟩
  · rw [if_pos (by omega)]
    obtain ⟨k, rfl⟩ : ∃ m, k = m + 1 := ⟨k - 1, by omega⟩
    change (walkS n k t []).bind _ = _
    rw [(walk_needs n t k []).1 (by omega)]
    rfl
  · rw [if_neg (by omega)]
    rfl
  · by_cases h2 : t.calls < k
    · rw [if_pos h2]
      obtain ⟨k, rfl⟩ : ∃ m, k = m + 1 := ⟨k - 1, by omega⟩
      rcases (walk_needs n t k []).2 (by omega) with h3 | ⟨p, h3, h4⟩
      · left
        change (walkS n k t []).bind _ = _
        rw [h3]
        rfl
      · exact .inr ⟨p, h3⟩
    · rw [if_neg h2]
      exact .inl rfl

/-- **C120** Two more than twice as many calls as the text has bytes are always enough. -/
theorem C120_enough (L : Fmt.Lib) (k : Nat) (exp : Str) (n : Int64) (hk : 2 * exp.length + 2 ≤ k) : evalS L k exp n = .ret (evalR L exp n) := by
  cases hc : Plural.commonsGet (GoStr.removeByte 32 exp) with
  | some f =>
    unfold evalS evalR
    rw [hc]
  | none =>
    obtain ⟨t, reports, -, h, h'⟩ := C120_levels L exp n hc
    exact (h' k).1 (by omega)

/-- The nodes of an expression. -/
def nodesOf : Plural.Exp → Nodes
  | .n => .n
  | .int ds => .int ds
  | .paren e => .paren (nodesOf e)
  | .post o e => .post o (nodesOf e)
  | .pre o e => .pre o (nodesOf e)
  | .bin o l r => .bin o (nodesOf l) (nodesOf r)
  | .tern c a b => .tern (nodesOf c) (nodesOf a) (nodesOf b)

theorem nodesOf_unique (e : Plural.Exp) : ∀ u : Nodes, u.tree = treeOf e → u = nodesOf e := by
  induction e with
  | n => intro u h; cases u <;> cases h; rfl
  | int ds => intro u h; cases u <;> cases h; rfl
  | paren e ih => intro u h; cases u <;> injection h; rename_i h; rw [ih _ h]; rfl
  | post o e ih => intro u h; cases u <;> injection h; rename_i h' h; rw [ih _ h, h']; rfl
  | pre o e ih => intro u h; cases u <;> injection h; rename_i h' h; rw [ih _ h, h']; rfl
  | bin o l r ihl ihr => intro u h; cases u <;> injection h; rename_i h' h1 h2; rw [ihl _ h1, ihr _ h2, h']; rfl
  | tern c a b ihc iha ihb => intro u h; cases u <;> injection h; rename_i h1 h2 h3; rw [ihc _ h1, iha _ h2, ihb _ h3]; rfl

theorem levels_toks (e : Plural.Exp) : (nodesOf e).levels ≤ (Plural.toks e).length + 2 := by
  induction e <;> simp only [nodesOf, Nodes.levels, Plural.toks, List.length_append, List.length_cons, List.length_nil] <;> omega

theorem parse_nodes {exp : Str} {e : Plural.Exp} {r : List Plural.Tok} (hl : Plural.lex exp = Plural.toks e ++ r)
    (hw : Plural.Wf Plural.goTable 0 e) (he : Plural.Ends r) {t : Nodes} {reports : List Plural.Report}
    (h : parseText exp = some (t.tree, reports)) : t = nodesOf e := by
  rw [C111_tree exp e r hl hw he] at h
  simp only [Option.some.injEq, Prod.mk.injEq] at h
  exact nodesOf_unique e t h.1.symm

/-- **C120** For a text that begins with an expression: three more calls than the expression has tokens. -/
theorem C120_tokens (L : Fmt.Lib) (k : Nat) (exp : Str) (n : Int64) (e : Plural.Exp) (r : List Plural.Tok)
    (hl : Plural.lex exp = Plural.toks e ++ r) (hw : Plural.Wf Plural.goTable 0 e) (he : Plural.Ends r)
    (hk : (Plural.toks e).length + 3 ≤ k) : evalS L k exp n = .ret (evalR L exp n) := by
  cases hc : Plural.commonsGet (GoStr.removeByte 32 exp) with
  | some f =>
    unfold evalS evalR
    rw [hc]
  | none =>
    obtain ⟨t, reports, h, -, h'⟩ := C120_levels L exp n hc
    cases parse_nodes hl hw he h
    have := levels_toks e
    exact (h' k).1 (by omega)

/-! ## A text that needs that many -/

/-- `~` before an operand, `m` times. -/
def nots : Nat → Plural.Exp
  | 0 => .n
  | m + 1 => .pre .bnot (nots m)

/-- The text. -/
def notsText (m : Nat) : Str := List.replicate m 126 ++ [110]

theorem nots_levels (m : Nat) : (nodesOf (nots m)).levels = m + 3 := by
  induction m with
  | zero => rfl
  | succ m ih => simp only [nots, nodesOf, Nodes.levels, ih]

theorem nots_wf (m p : Nat) : Plural.Wf Plural.goTable p (nots m) := by
  induction m generalizing p with
  | zero => trivial
  | succ m ih => exact ih _

theorem nots_walk (n : Int64) (m : Nat) (s : Plural.Stack) : ∃ s', Plural.walkP n (nots m) s = .ok s' := by
  induction m generalizing s with
  | zero => exact ⟨_, rfl⟩
  | succ m ih =>
    obtain ⟨s', h⟩ := ih s
    simp only [nots, Plural.walkP, h]
    exact ⟨_, rfl⟩

theorem apart_not (t : Plural.Tok) : Plural.Apart Plural.Pre.bnot.tok t := by
  change ∀ d ∈ t.text.head?, [126, d] ∉ _
  intro d _ h
  simp at h

theorem nots_lex (m : Nat) : Plural.lex (notsText m) = Plural.toks (nots m) := by
  have hs : Plural.Spaced (List.replicate m (Plural.Pre.bnot.tok, []) ++ [(.n, [])]) := by
    induction m with
    | zero => exact ⟨trivial, by intro c hc; cases hc⟩
    | succ m ih =>
      cases m with
      | zero => exact ⟨trivial, (by intro c hc; cases hc), fun _ => apart_not _, ih⟩
      | succ m => exact ⟨trivial, (by intro c hc; cases hc), fun _ => apart_not _, ih⟩
  have ht : Plural.textOf (List.replicate m (Plural.Pre.bnot.tok, []) ++ [(.n, [])]) = notsText m := by
    clear hs
    induction m with
    | zero => rfl
    | succ m ih =>
      rw [List.replicate_succ, List.cons_append, Plural.textOf, ih]
      rfl
  have := Plural.C07_lex [] _ (by intro c hc; cases hc) hs
  rw [List.nil_append, ht] at this
  rw [this]
  clear hs ht this
  induction m with
  | zero => rfl
  | succ m ih =>
    rw [List.replicate_succ, List.cons_append, List.map_cons, ih]
    rfl

theorem nots_common (m : Nat) : Plural.commonsGet (GoStr.removeByte 32 (notsText m)) = none := by
  have h : GoStr.removeByte 32 (notsText m) = notsText m := by
    unfold GoStr.removeByte notsText
    rw [List.filter_append, List.filter_replicate]
    rfl
  rw [h]
  cases m with
  | zero => rfl
  | succ m =>
    cases hc : Plural.commonsGet (notsText (m + 1)) with
    | none => rfl
    | some f =>
      have h1 := Plural.get_mem hc
      have h2 : ∀ x ∈ Plural.commons.map (·.1), x.head? ≠ some 126 := by decide +kernel
      exact (h2 _ (List.mem_map_of_mem h1) rfl).elim

/-- **C120** `m` times `~` and `n`: the process ends exactly if at most `m + 3` calls may be nested. -/
theorem C120_nots (L : Fmt.Lib) (m k : Nat) (n : Int64) : evalS L k (notsText m) n = .over ↔ k ≤ m + 3 := by
  obtain ⟨t, reports, h, -, h'⟩ := C120_levels L (notsText m) n (nots_common m)
  have ht : parseText (notsText m) = some (treeOf (nots m), []) :=
    C111_tree _ _ [] (by rw [nots_lex, List.append_nil]) (nots_wf m 0) (by intro t ht; cases ht)
  cases parse_nodes (by rw [nots_lex, List.append_nil]) (nots_wf m 0) (r := []) (by intro t ht; cases ht) h
  rw [ht] at h
  simp only [Option.some.injEq, Prod.mk.injEq] at h
  have := nots_levels m
  constructor
  · intro ho
    by_contra hk
    rw [(h' k).1 (by omega)] at ho
    cases ho
  · intro hk
    rcases (h' k).2.2 (by omega) with h1 | ⟨p, h1⟩
    · exact h1
    · obtain ⟨s', h2⟩ := nots_walk n m []
      rw [← h.1, walkR_treeOf, h2] at h1
      cases h1

/-- **C120** Whatever the limit, there is an expression, not longer than the limit, that ends the process for every number. -/
theorem C120_over (L : Fmt.Lib) (k : Nat) (hk : 4 ≤ k) : ∃ exp : Str, exp.length + 2 = k ∧ ¬ Plural.Malformed exp ∧ ∀ n, evalS L k exp n = .over := by
  refine ⟨notsText (k - 3), ?_, ?_, fun n => (C120_nots L (k - 3) k n).2 (by omega)⟩
  · simp only [notsText, List.length_append, List.length_replicate, List.length_cons, List.length_nil]
    omega
  · intro hm
    exact hm ⟨nots (k - 3), [], by rw [nots_lex, List.append_nil], nots_wf _ 0, by intro t ht; cases ht⟩


/-! ## Parentheses that are not closed -/

/-- Nothing but `(`. -/
def Opens (es : List Elem) : Prop := ∀ x ∈ es, ∃ l c, x = .tok 25 [40] l c

/-- Their tree. -/
def opens : Nat → Tree
  | 0 => .hole
  | m + 1 => .paren (opens m)

theorem opens_walk (n : Int64) (m : Nat) (s : Plural.Stack) : walkR n (opens m) s = .ok s := by
  induction m with
  | zero => rfl
  | succ m ih => exact ih

theorem opens_levels (m : Nat) : ∀ u : Nodes, u.tree = opens m → 2 * m + 1 ≤ u.levels := by
  induction m with
  | zero => exact fun u _ => levels_pos u
  | succ m ih =>
    intro u h
    cases u <;> injection h
    rename_i h
    have := ih _ h
    simp only [Nodes.levels]
    omega

theorem one_level {u : Nodes} (h : u.levels ≤ 1) : u.tree = .hole := by
  cases u with
  | hole => rfl
  | n => simp [Nodes.levels] at h
  | int => simp [Nodes.levels] at h
  | paren e => simp [Nodes.levels] at h
  | post o e => have := levels_pos e; simp only [Nodes.levels] at h; omega
  | pre o e => have := levels_pos e; simp only [Nodes.levels] at h; omega
  | bin o l r => have := levels_pos l; simp only [Nodes.levels] at h; omega
  | tern c a b => have := levels_pos c; simp only [Nodes.levels] at h; omega
  | cut c a => have := levels_pos c; simp only [Nodes.levels] at h; omega

theorem exp_end {f p : Nat} {chain : List Nat} {σ σ' : Rec} {t : Tree} (h : rExp parAtn f p chain σ = some (t, σ')) (hr : σ.rest = []) :
    t = .hole ∧ σ'.rest = [] := by
  obtain ⟨u, hu, hl, -⟩ := (limited _).1 _ _ _ _ _ h
  rw [hr, List.length_nil] at hl
  have := levels_pos u
  exact ⟨by rw [← hu, one_level (by omega)], List.length_eq_zero_iff.1 (by omega)⟩

theorem opens_exp : ∀ f p chain σ t σ', rExp parAtn f p chain σ = some (t, σ') → Opens σ.rest → t = opens σ.rest.length ∧ σ'.rest = []
  | 0, _, _, _, _, _, h, _ => by rw [rExp] at h; cases h
  | 1, p, chain, σ, t, σ', h, ho => by
    cases hr : σ.rest with
    | nil => exact exp_end h hr
    | cons x r =>
      obtain ⟨l, c, rfl⟩ := ho x (by rw [hr]; exact List.mem_cons_self)
      have hla : σ.la = some 25 := by rw [Rec.la, hr]; rfl
      rw [rExp, syncTok_has (by rw [hla]; decide +kernel)] at h
      simp only [rAtom] at h
      cases h
  | f + 2, p, chain, σ, t, σ', h, ho => by
    cases hr : σ.rest with
    | nil => exact exp_end h hr
    | cons x r =>
      obtain ⟨l, c, rfl⟩ := ho x (by rw [hr]; exact List.mem_cons_self)
      have hla : σ.la = some 25 := by rw [Rec.la, hr]; rfl
      rw [rExp, syncTok_has (by rw [hla]; decide +kernel)] at h
      dsimp only at h
      rw [rAtom, hr] at h
      dsimp only at h
      rw [if_pos (.inl rfl), syncTok_has (by rw [hla]; exact next_68 25 (by decide))] at h
      dsimp only at h
      rw [if_pos rfl] at h
      have hc : σ.matched.consume.rest = r := by
        have h' : σ.matched.rest = .tok 25 [40] l c :: r := hr
        rw [Rec.consume, h']
        change (settle r).2 = r
        cases r with
        | nil => rfl
        | cons y r =>
          obtain ⟨l', c', rfl⟩ := ho y (by rw [hr]; exact List.mem_cons_of_mem _ List.mem_cons_self)
          rfl
      cases hx : rExp parAtn f 0 (63 :: 9 :: chain) σ.matched.consume with
      | none => rw [hx] at h; cases h
      | some y =>
        obtain ⟨e, σ1⟩ := y
        obtain ⟨h3, h4⟩ := opens_exp f _ _ _ _ _ hx (by rw [hc]; exact fun x hx => ho x (by rw [hr]; exact List.mem_cons_of_mem _ hx))
        rw [hc] at h3
        rw [hx] at h
        dsimp only at h
        rcases hm : matchTok parAtn 26 64 (9 :: chain) σ1 with ⟨σ2, b⟩
        have h5 := match_len hm
        have h6 := (mismatch_step parAtn 64 (9 :: chain) σ2).len
        rw [h4] at h5
        rw [List.length_nil] at h5
        rw [hm] at h
        have fin : ∀ (g : Nat) (σ3 : Rec), σ3.rest.length ≤ 0 → rLoop parAtn g 59 p chain (.paren e) σ3 = some (t, σ') →
            t = opens (Elem.tok 25 [40] l c :: r).length ∧ σ'.rest = [] := by
          intro g σ3 h7 h8
          cases g with
          | zero => rw [rLoop] at h8; cases h8
          | succ g =>
            have h9 : σ3.rest = [] := List.length_eq_zero_iff.1 (by omega)
            rw [rLoop, syncTok_end (by decide)] at h8
            dsimp only at h8
            rw [predict_59, show σ3.la = none by rw [Rec.la, h9]; rfl, if_neg (by simp [Continues])] at h8
            cases h8
            rw [h3]
            exact ⟨rfl, h9⟩
        cases b
        · exact fin _ _ (by omega) h
        · exact fin _ _ (by omega) h


theorem lexeme_open {ty : Nat} {w : List Nat} (h : Lexeme ty w) (hw : ∀ c ∈ w, c = 40) : ty = 25 ∧ w = [40] := by
  rcases h with ⟨s, hs, h0, rfl⟩ | ⟨-, hn, hd⟩ | ⟨-, hn, hd⟩
  · have key : ∀ i < literals.length, ∀ s, literals[i]? = some s → (∀ c ∈ s.map UInt8.toNat, c = 40) → i = 24 ∧ s.map UInt8.toNat = [40] := by
      decide +kernel
    have hi : ty - 1 < literals.length := (List.getElem?_eq_some_iff.1 hs).1
    obtain ⟨h1, h2⟩ := key _ hi s hs hw
    exact ⟨by omega, h2⟩
  · obtain ⟨x, r, rfl⟩ := List.exists_cons_of_ne_nil hn
    have := hd x List.mem_cons_self
    have := hw x List.mem_cons_self
    omega
  · obtain ⟨x, r, rfl⟩ := List.exists_cons_of_ne_nil hn
    have := hd x List.mem_cons_self
    have := hw x List.mem_cons_self
    omega

theorem open_lexeme : Lexeme 25 [40] := .inl ⟨b!"(", by decide, by decide, rfl⟩

theorem stream_opens {before inp : List Nat} {es : List Elem} (h : Stream before inp es) (hi : ∀ c ∈ inp, c = 40) :
    Opens es ∧ es.length = inp.length := by
  induction h with
  | nil => exact ⟨(by intro x hx; cases hx), rfl⟩
  | @tok before ty w r es hl ht hs ih =>
    obtain ⟨rfl, rfl⟩ := lexeme_open hl.1 fun c hc => hi c (List.mem_append_left _ hc)
    obtain ⟨h1, h2⟩ := ih fun c hc => hi c (List.mem_append_right _ hc)
    refine ⟨?_, by simp [h2]⟩
    intro x hx
    rcases List.mem_cons.1 hx with rfl | hx
    · exact ⟨_, _, rfl⟩
    · exact h1 x hx
  | @skip before w r es hl hs ih =>
    exact absurd (lexeme_open hl.1 fun c hc => hi c (List.mem_append_left _ hc)).1 (by decide)
  | @bad before w r es hn hl hb hr hs ih =>
    obtain ⟨x, v, rfl⟩ := List.exists_cons_of_ne_nil hn
    cases hi x (by simp)
    exact absurd ⟨v ++ r, rfl⟩ (hl _ _ open_lexeme)

theorem rs_opens (m : Nat) : rs (List.replicate m 40) = List.replicate m 40 := by
  induction m with
  | zero => rfl
  | succ m ih => rw [List.replicate_succ, rs_low (by decide), ih]; rfl

theorem opens_common (m : Nat) : Plural.commonsGet (GoStr.removeByte 32 (List.replicate m 40)) = none := by
  have h : GoStr.removeByte 32 (List.replicate m 40) = List.replicate m 40 := by
    unfold GoStr.removeByte
    rw [List.filter_replicate]
    rfl
  rw [h]
  cases hc : Plural.commonsGet (List.replicate m 40) with
  | none => rfl
  | some f =>
    have h1 := Plural.get_mem hc
    have h2 : ∀ x ∈ Plural.commons.map (·.1), ¬∀ c ∈ x, c = 40 := by decide +kernel
    exact (h2 _ (List.mem_map_of_mem h1) fun c hc => (List.mem_replicate.1 hc).2).elim

/-- **C120** The bound is met: `m` times `(` needs `2 * m + 2` calls. -/
theorem C120_opens (L : Fmt.Lib) (m k : Nat) (n : Int64) : evalS L k (List.replicate m 40) n = .over ↔ k ≤ 2 * m + 1 := by
  obtain ⟨t, reports, h, hl, h'⟩ := C120_levels L _ n (opens_common m)
  obtain ⟨es, he, ht, hg, hp⟩ := elems_of (List.replicate m 40)
  obtain ⟨t', σ, h1, -⟩ := rParse_spec (position (rs (List.replicate m 40))) es hg
  have h2 := stream_opens (lexElems_stream _ _ _ _ he) (by rw [rs_opens]; exact fun c hc => (List.mem_replicate.1 hc).2)
  rw [rs_opens, List.length_replicate] at h2
  rw [parseText_eq, he, Option.bind_some, h1] at h
  simp only [Option.map_some, Option.some.injEq, Prod.mk.injEq] at h
  have h3 : (Rec.init (position (rs (List.replicate m 40))) es).fetch.rest = es := by
    change (settle es).2 = es
    cases es with
    | nil => rfl
    | cons x es =>
      obtain ⟨l, c, rfl⟩ := h2.1 x List.mem_cons_self
      rfl
  have h4 := (opens_exp _ _ _ _ _ _ h1 (by rw [h3]; exact h2.1)).1
  rw [h3, h2.2, h.1] at h4
  have h7 := opens_levels m t h4
  rw [List.length_replicate] at hl
  constructor
  · intro ho
    by_contra hk
    rw [(h' k).1 (by omega)] at ho
    cases ho
  · intro hk
    rcases (h' k).2.2 (by omega) with h5 | ⟨p, h5⟩
    · exact h5
    · rw [h4, opens_walk] at h5
      cases h5


-- `~~n` and `(((`: enough calls, and one too few
example (L : Fmt.Lib) (n : Int64) : evalS L 6 b!"~~n" n = .ret (evalR L b!"~~n" n) ∧ evalS L 5 b!"~~n" n = .over :=
  ⟨C120_tokens L 6 _ n (nots 2) [] (by rw [show b!"~~n" = notsText 2 from rfl, nots_lex, List.append_nil]) (nots_wf 2 0)
    (by intro t ht; cases ht) (by decide), (C120_nots L 2 5 n).2 (by decide)⟩

example (L : Fmt.Lib) (n : Int64) : evalS L 8 b!"(((" n = .ret (evalR L b!"(((" n) ∧ evalS L 7 b!"(((" n = .over :=
  ⟨C120_enough L 8 _ n (by decide), (C120_opens L 3 7 n).2 (by decide)⟩

-- the hypothesis of `C120_levels`
example : Plural.commonsGet (GoStr.removeByte 32 b!"n>2") = none := by decide +kernel

end Verif.Antlr
