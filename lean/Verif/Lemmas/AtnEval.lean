import Verif.Props.C68
import Verif.Props.C69
import Verif.Props.C07
import Verif.Lemmas.Utf8
/-! # The parser on tables and the parser of `Model/Plural.lean` -/
namespace Verif.Antlr
open Verif

/-! ## Tokens -/

/-- The tokens of `Model/Plural.lean` for the literal tokens, by type. -/
def litToks : List Plural.Tok := [.inc, .dec, .op .add, .op .sub, .tilde, .bang, .op .mul, .op .div, .op .mod, .op .shr,
  .op .shl, .op .gt, .op .lt, .op .ge, .op .le, .op .eq, .op .ne, .op .band, .op .bxor, .op .bor, .op .land, .op .lor,
  .quest, .colon, .lp, .rp, .n]

/-- The token of `Model/Plural.lean` for an item of the lexer. -/
def itemTok : Item → Plural.Tok
  | .bad => .bad
  | .tok ty w => if ty = 28 then .int (w.map UInt8.ofNat) else (litToks[ty - 1]?).getD .bad

/-- A token of the lexer. -/
def Good : Item → Prop
  | .bad => True
  | .tok ty w => Lexeme ty w ∧ ty ≠ 29

/-- The text of a literal token. -/
def litText (ty : Nat) : List Nat := ((literals[ty - 1]?).getD []).map UInt8.toNat

theorem good_cases {ty : Nat} {w : List Nat} (h : Good (.tok ty w)) :
    (1 ≤ ty ∧ ty < 28 ∧ w = litText ty) ∨ (ty = 28 ∧ w ≠ [] ∧ ∀ c ∈ w, 48 ≤ c ∧ c ≤ 57) := by
  obtain ⟨h1, h2⟩ := h
  rcases h1 with ⟨s, hs, h0, rfl⟩ | h1 | h1
  · have hlt : ty - 1 < 27 := (List.getElem?_eq_some_iff.1 hs).1
    refine .inl ⟨h0, by omega, ?_⟩
    unfold litText; rw [hs]; rfl
  · exact .inr h1
  · exact absurd h1.1 h2

/-! ## Checks -/

theorem sync_14 : ∀ ty < 29, sync parAtn 14 (some ty) =
    if ty ∈ [1, 2, 3, 4, 5, 6, 25, 27, 28] then some () else none := by decide +kernel

theorem sync_14_eof : sync parAtn 14 none = none := by decide +kernel

theorem sync_68 : ∀ ty ∈ [25, 27, 28], sync parAtn 68 (some ty) = some () := by decide +kernel

theorem look_end : ∀ s ∈ [59, 61], (look parAtn (depthP parAtn) s []).map Prod.snd = some true := by decide +kernel

theorem sync_end {s : Nat} (hs : s ∈ [59, 61]) (t : Option Nat) : sync parAtn s t = some () := by
  have := look_end s hs
  unfold sync
  cases hl : look parAtn (depthP parAtn) s [] with
  | none => rw [hl] at this; cases this
  | some x =>
    rw [hl] at this
    obtain ⟨ts, e⟩ := x
    cases this
    dsimp only
    rw [if_pos (.inl rfl)]

theorem sync_57_lt : ∀ ty < 29, goesOn ty ≠ none → sync parAtn 57 (some ty) = some () := by decide +kernel

/-! ## Operands -/

/-- What the two parsers find. -/
def Agrees (is : List Item) (g : Option (Plural.Exp × List Item)) (q : Option (Plural.Exp × List Plural.Tok)) : Prop :=
  q = g.map (fun x => (x.1, x.2.map itemTok)) ∧ ∀ x, g = some x → x.2 <:+ is

theorem Agrees.none (is : List Item) : Agrees is none none := ⟨rfl, by simp⟩

theorem Agrees.mono {is is' : List Item} {g : Option (Plural.Exp × List Item)} {q : Option (Plural.Exp × List Plural.Tok)}
    (h : Agrees is g q) (hs : is <:+ is') : Agrees is' g q := ⟨h.1, fun x hx => (h.2 x hx).trans hs⟩

theorem pre_class : ∀ ty < 28, ty ∈ [1, 2, 3, 4, 5, 6] → ∃ o, preText (litText ty) = some o ∧
    (litToks[ty - 1]?).getD .bad = o.tok ∧ Plural.goTable.pre o = (if ty ≤ 4 then 14 else 13) := by
  have : ∀ ty < 28, ty ∈ [1, 2, 3, 4, 5, 6] → (preText (litText ty)).any (fun o =>
    (litToks[ty - 1]?).getD .bad == o.tok && Plural.goTable.pre o == (if ty ≤ 4 then 14 else 13)) = true := by
    decide +kernel
  intro ty h1 h2
  have h := this ty h1 h2
  cases ho : preText (litText ty) with
  | none => rw [ho] at h; cases h
  | some o =>
    rw [ho] at h
    simp only [Option.any_some, Bool.and_eq_true, beq_iff_eq] at h
    exact ⟨o, rfl, h.1, h.2⟩

theorem atom_other : ∀ ty < 28, 1 ≤ ty → ty ∉ [1, 2, 3, 4, 5, 6, 25, 27] →
    Plural.preOf ((litToks[ty - 1]?).getD .bad) = none ∧
    (litToks[ty - 1]?).getD .bad ∉ [Plural.Tok.n, .lp] := by decide +kernel

theorem pAtom_other {T : Plural.Table} {f : Nat} {t : Plural.Tok} {r : List Plural.Tok} (h : Plural.preOf t = none)
    (h1 : t ∉ [Plural.Tok.n, .lp]) (h2 : ∀ ds, t ≠ .int ds) : Plural.pAtom T (f + 1) (t :: r) = none := by
  cases t <;> simp [Plural.pAtom, Plural.preOf] at h h1 h2 ⊢
  rename_i o
  cases o <;> simp at h ⊢

theorem lit_not_int : ∀ ty < 28, 1 ≤ ty → ∀ ds, (litToks[ty - 1]?).getD .bad ≠ .int ds := by
  have : ∀ t ∈ litToks, (match t with | .int _ => false | _ => true) = true := by decide
  intro ty h1 h2 ds he
  have hl : ty - 1 < litToks.length := by change _ < 27; omega
  rw [List.getElem?_eq_getElem hl, Option.getD_some] at he
  have := this _ (List.getElem_mem hl)
  rw [he] at this; cases this

theorem digits_not_n {w : List Nat} (h : ∀ c ∈ w, 48 ≤ c ∧ c ≤ 57) : w ≠ [110] := by
  rintro rfl
  have := h 110 (by simp); omega

theorem itemTok_lit {ty : Nat} {w : List Nat} (h : ty ≠ 28) : itemTok (.tok ty w) = (litToks[ty - 1]?).getD .bad := by
  change (if ty = 28 then _ else _) = _
  rw [if_neg h]

/-! ## Operators -/

theorem op_class : ∀ ty < 28, ty ∈ [3, 4, 7, 8, 9, 10, 11, 12, 13, 14, 15, 16, 17, 18, 19, 20, 21, 22] →
    ∃ o i types, opText (litText ty) = some o ∧ (litToks[ty - 1]?).getD .bad = .op o ∧ goesOn ty = some i ∧
      levelAt i = Plural.goTable.op o ∧ loopAlt i ≠ 12 ∧ loopAlt i ≠ 13 ∧
      binAlts[loopAlt i - 1]? = some (Plural.goTable.op o, types, Plural.goTable.op o + 1) ∧ types ty = true := by
  have : ∀ ty < 28, ty ∈ [3, 4, 7, 8, 9, 10, 11, 12, 13, 14, 15, 16, 17, 18, 19, 20, 21, 22] →
      (opText (litText ty)).any (fun o => (goesOn ty).any fun i => (binAlts[loopAlt i - 1]?).any fun x =>
        (litToks[ty - 1]?).getD .bad == .op o && levelAt i == Plural.goTable.op o && loopAlt i != 12 &&
        loopAlt i != 13 && x.1 == Plural.goTable.op o && x.2.2 == Plural.goTable.op o + 1 && x.2.1 ty) = true := by
    decide +kernel
  intro ty h1 h2
  have h := this ty h1 h2
  cases ho : opText (litText ty) with
  | none => rw [ho] at h; cases h
  | some o =>
    rw [ho, Option.any_some] at h
    cases hi : goesOn ty with
    | none => rw [hi] at h; cases h
    | some i =>
      rw [hi, Option.any_some] at h
      cases hb : binAlts[loopAlt i - 1]? with
      | none => rw [hb] at h; cases h
      | some x =>
        rw [hb] at h
        simp only [Option.any_some, Bool.and_eq_true, beq_iff_eq, bne_iff_ne] at h
        obtain ⟨⟨⟨⟨⟨⟨e1, e2⟩, e3⟩, e4⟩, e5⟩, e6⟩, e7⟩ := h
        obtain ⟨l, ty', nx⟩ := x
        dsimp only at e5 e6 e7
        subst e5 e6
        exact ⟨o, i, ty', rfl, e1, rfl, e2, e3, e4, hb, e7⟩

theorem post_class : ∀ ty < 28, ty ∈ [1, 2] → ∃ o, postText (litText ty) = some o ∧
    (litToks[ty - 1]?).getD .bad = o.tok ∧ goesOn ty = some 1 := by
  intro ty _ h
  simp only [List.mem_cons, List.not_mem_nil, or_false] at h
  rcases h with rfl | rfl
  · exact ⟨.inc, by decide +kernel, by decide +kernel, by decide +kernel⟩
  · exact ⟨.dec, by decide +kernel, by decide +kernel, by decide +kernel⟩

theorem loop_other : ∀ ty < 28, 1 ≤ ty → ty ∈ [5, 6, 24, 25, 26, 27] → goesOn ty = none ∧
    Plural.isEnd ((litToks[ty - 1]?).getD .bad) = true := by decide +kernel

theorem pLoop_end {T : Plural.Table} {f p : Nat} {l : Plural.Exp} {t : Plural.Tok} {r : List Plural.Tok}
    (h : Plural.isEnd t = true) : Plural.pLoop T (f + 1) p l (t :: r) = some (l, t :: r) := by
  cases t <;> simp [Plural.pLoop, Plural.isEnd, Plural.postOf] at h ⊢

theorem not_continues {p ty : Nat} (h : goesOn ty = none) : ¬Continues p (some ty) := by
  rintro ⟨type, i, ht, hi, -⟩
  cases ht; rw [h] at hi; cases hi

theorem continues_iff {p ty i : Nat} (h : goesOn ty = some i) : Continues p (some ty) ↔ p ≤ levelAt i := by
  constructor
  · rintro ⟨type, j, ht, hi, hl⟩
    cases ht; rw [h] at hi; cases hi; exact hl
  · exact fun hl => ⟨ty, i, rfl, h, hl⟩

/-- The loop stops. -/
theorem gLoop_stop {f s p ty : Nat} {l : Plural.Exp} {w : List Nat} {r : List Item} (hs : s ∈ [59, 61])
    (h : ¬Continues p (some ty)) : gLoop parAtn (f + 1) s p l (.tok ty w :: r) = some (l, .tok ty w :: r) := by
  rw [gLoop.eq_def]
  dsimp only [peek]
  rw [sync_end hs, predict_59, if_neg h]
  rfl

/-- The loop goes on. -/
theorem gLoop_go {f s p ty i : Nat} {l : Plural.Exp} {w : List Nat} {r : List Item} (hs : s ∈ [59, 61])
    (h : Continues p (some ty)) (hty : ty < 29) (hi : goesOn ty = some i) :
    gLoop parAtn (f + 1) s p l (.tok ty w :: r) =
      if loopAlt i = 12 then
        if p ≤ 1 ∧ ty = 23 then
          (gExp parAtn f 0 r).bind fun x => (accept 24 x.2).bind fun r' => (gExp parAtn f 1 r').bind fun y =>
            gLoop parAtn f 61 p (.tern l x.1 y.1) y.2
        else none
      else if loopAlt i = 13 then
        if p ≤ 15 ∧ (ty = 1 ∨ ty = 2) then (postText w).bind fun o => gLoop parAtn f 61 p (.post o l) r else none
      else (binAlts[loopAlt i - 1]?).bind fun x =>
        if p ≤ x.1 ∧ x.2.1 ty then
          (opText w).bind fun o => (gExp parAtn f x.2.2 r).bind fun y => gLoop parAtn f 61 p (.bin o l y.1) y.2
        else none := by
  rw [gLoop.eq_def]
  dsimp only [peek]
  rw [sync_end hs, predict_59, if_pos h, sync_57_lt ty hty (by rw [hi]; simp), predict_57, if_pos h, Option.bind_some, hi]
  change (if loopAlt i = 12 then _ else _) = _
  by_cases h12 : loopAlt i = 12
  · rw [if_pos h12, if_pos h12]
    by_cases hc : p ≤ 1 ∧ ty = 23
    · rw [if_pos hc, if_pos hc]
      cases gExp parAtn f 0 r with
      | none => rfl
      | some x =>
        dsimp only [Option.bind_some]
        cases accept 24 x.2 with
        | none => rfl
        | some r' =>
          dsimp only [Option.bind_some]
          cases gExp parAtn f 1 r' with
          | none => rfl
          | some y => rfl
    · rw [if_neg hc, if_neg hc]
  · rw [if_neg h12, if_neg h12]
    simp only [Option.getD_some]
    by_cases h13 : loopAlt i = 13
    · rw [if_pos h13, if_pos h13]
      by_cases hc : p ≤ 15 ∧ (ty = 1 ∨ ty = 2)
      · rw [if_pos hc, if_pos hc]
        cases postText w with
        | none => rfl
        | some o => rfl
      · rw [if_neg hc, if_neg hc]
    · rw [if_neg h13, if_neg h13]
      cases binAlts[loopAlt i - 1]? with
      | none => rfl
      | some x =>
        dsimp only [Option.bind_some]
        by_cases hc : p ≤ x.1 ∧ x.2.1 ty
        · rw [if_pos hc, if_pos hc]
          cases opText w with
          | none => rfl
          | some o =>
            dsimp only [Option.bind_some]
            cases gExp parAtn f x.2.2 r with
            | none => rfl
            | some y => rfl
        · rw [if_neg hc, if_neg hc]

/-- Accept a token in `Model/Plural.lean`. -/
def acceptTok (t : Plural.Tok) : List Plural.Tok → Option (List Plural.Tok)
  | u :: r => if u = t then some r else none
  | [] => none

theorem accept_suffix {ty : Nat} {is r : List Item} (h : accept ty is = some r) : r <:+ is := by
  cases is with
  | nil => cases h
  | cons i is =>
    cases i with
    | bad => cases h
    | tok ty' w =>
      by_cases he : ty' = ty
      · rw [accept, if_pos he] at h; cases h; exact List.suffix_cons _ _
      · rw [accept, if_neg he] at h; cases h

theorem accept_tok {ty : Nat} {t : Plural.Tok} (hty : ty < 28)
    (ht : t ≠ .bad ∧ (∀ ds, t ≠ .int ds) ∧ litToks[ty - 1]? = some t ∧
      ∀ ty' < 28, 1 ≤ ty' → ty' ≠ ty → litToks[ty' - 1]? ≠ some t)
    {is : List Item} (hg : ∀ i ∈ is, Good i) : acceptTok t (is.map itemTok) = (accept ty is).map (·.map itemTok) := by
  cases is with
  | nil => rfl
  | cons i is =>
    rw [List.map_cons]
    cases i with
    | bad => rw [acceptTok, if_neg (fun h => ht.1 h.symm)]; rfl
    | tok ty' w =>
      rw [acceptTok, accept]
      rcases good_cases (hg _ List.mem_cons_self) with ⟨g1, g2, -⟩ | ⟨rfl, -, -⟩
      · rw [itemTok_lit (by omega)]
        by_cases he : ty' = ty
        · subst he
          rw [ht.2.2.1, if_pos rfl, Option.getD_some, if_pos rfl]; rfl
        · rw [if_neg he, if_neg]
          · rfl
          · intro h
            have hl : ty' - 1 < litToks.length := by change _ < 27; omega
            rw [List.getElem?_eq_getElem hl, Option.getD_some] at h
            exact ht.2.2.2 ty' g2 g1 he (by rw [List.getElem?_eq_getElem hl, h])
      · rw [if_neg (show ¬28 = ty by omega), if_neg]
        · rfl
        · intro h
          exact ht.2.1 _ h.symm

theorem pAtom_lp {T : Plural.Table} {f : Nat} {ts : List Plural.Tok} : Plural.pAtom T (f + 1) (.lp :: ts) =
    (Plural.pExp T f 0 ts).bind fun x => (acceptTok .rp x.2).bind fun r => some (.paren x.1, r) := by
  rw [Plural.pAtom]
  cases Plural.pExp T f 0 ts with
  | none => rfl
  | some x =>
    obtain ⟨e, r⟩ := x
    cases r with
    | nil => rfl
    | cons u r => cases u <;> rfl

theorem pLoop_quest {T : Plural.Table} {f p : Nat} {l : Plural.Exp} {ts : List Plural.Tok} :
    Plural.pLoop T (f + 1) p l (.quest :: ts) =
      if p ≤ 1 then
        (Plural.pExp T f 0 ts).bind fun x => (acceptTok .colon x.2).bind fun r => (Plural.pExp T f 1 r).bind fun y =>
          Plural.pLoop T f p (.tern l x.1 y.1) y.2
      else some (l, .quest :: ts) := by
  rw [Plural.pLoop]
  by_cases hp : p ≤ 1
  · rw [if_pos hp, if_pos hp]
    cases Plural.pExp T f 0 ts with
    | none => rfl
    | some x =>
      obtain ⟨e, r⟩ := x
      cases r with
      | nil => rfl
      | cons u r =>
        cases u <;> first
          | rfl
          | (change _ = (Plural.pExp T f 1 r).bind _
             dsimp only
             cases Plural.pExp T f 1 r <;> rfl)
  · rw [if_neg hp, if_neg hp]

/-- The two parsers agree. -/
theorem parsers_agree (f : Nat) :
    (∀ p is, (∀ i ∈ is, Good i) → Agrees is (gExp parAtn f p is) (Plural.pExp Plural.goTable f p (is.map itemTok))) ∧
    (∀ is, (∀ i ∈ is, Good i) → Agrees is (gAtom parAtn f is) (Plural.pAtom Plural.goTable f (is.map itemTok))) ∧
    (∀ s p l is, s ∈ [59, 61] → (∀ i ∈ is, Good i) →
      Agrees is (gLoop parAtn f s p l is) (Plural.pLoop Plural.goTable f p l (is.map itemTok))) := by
  induction f with
  | zero =>
    refine ⟨fun p is _ => ?_, fun is _ => ?_, fun s p l is _ _ => ?_⟩
    · rw [gExp, Plural.pExp]; exact .none _
    · rw [gAtom, Plural.pAtom]; exact .none _
    · rw [gLoop, Plural.pLoop]; exact .none _
  | succ f ih =>
    obtain ⟨ihE, ihA, ihL⟩ := ih
    refine ⟨?_, ?_, ?_⟩
    · intro p is hg
      rw [gExp, Plural.pExp]
      obtain ⟨h1, h2⟩ := ihA is hg
      rw [h1]
      cases ha : gAtom parAtn f is with
      | none => exact .none _
      | some x =>
        obtain ⟨a, r⟩ := x
        have hr := h2 _ ha
        dsimp only at hr ⊢
        exact (ihL 59 p a r (by simp) fun i hi => hg i (hr.mem hi)).mono hr
    · intro is hg
      cases is with
      | nil =>
        rw [gAtom]
        dsimp only [peek]
        rw [sync_14_eof]
        exact .none _
      | cons it r =>
        have hsuf : r <:+ it :: r := List.suffix_cons _ _
        have hg' : ∀ i ∈ r, Good i := fun i hi => hg i (List.mem_cons_of_mem _ hi)
        cases it with
        | bad =>
          rw [gAtom, List.map_cons]
          exact ⟨rfl, by simp [peek]⟩
        | tok ty w =>
          have hty := good_cases (hg _ List.mem_cons_self)
          rw [gAtom, List.map_cons]
          dsimp only [peek]
          rw [sync_14 ty (by omega)]
          rcases hty with ⟨t1, t2, rfl⟩ | ⟨rfl, hw, hd⟩
          · rw [itemTok_lit (by omega)]
            by_cases hpre : ty ∈ [1, 2, 3, 4, 5, 6]
            · obtain ⟨o, ho, ht, hl⟩ := pre_class ty t2 hpre
              have hm : ty ∈ [1, 2, 3, 4, 5, 6, 25, 27, 28] := by simp at hpre ⊢; omega
              have hn : ¬(ty = 25 ∨ ty = 27 ∨ ty = 28) := by simp at hpre; omega
              rw [if_pos hm, ht, Plural.pAtom_pre, hl]
              dsimp only
              rw [if_neg hn]
              by_cases h4 : ty ≤ 4
              · have h14 : ty = 1 ∨ ty = 2 ∨ ty = 3 ∨ ty = 4 := by omega
                have hk : inMask 30 ty = true := by
                  rcases h14 with rfl | rfl | rfl | rfl <;> decide
                rw [if_pos h14, if_pos hk, ho, if_pos h4]
                obtain ⟨e1, e2⟩ := ihE 14 r hg'
                rw [e1]
                dsimp only
                cases he : gExp parAtn f 14 r with
                | none => exact .none _
                | some x => exact ⟨rfl, fun y hy => by cases hy; exact (e2 _ he).trans hsuf⟩
              · have h56 : ty = 5 ∨ ty = 6 := by simp at hpre; omega
                rw [if_neg (by omega), if_pos h56, ho, if_neg h4]
                obtain ⟨e1, e2⟩ := ihE 13 r hg'
                rw [e1]
                dsimp only
                cases he : gExp parAtn f 13 r with
                | none => exact .none _
                | some x => exact ⟨rfl, fun y hy => by cases hy; exact (e2 _ he).trans hsuf⟩
            · by_cases h25 : ty = 25
              · subst h25
                rw [if_pos (by decide)]
                dsimp only
                rw [if_pos (by decide), sync_68 25 (by decide), if_pos rfl]
                obtain ⟨e1, e2⟩ := ihE 0 r hg'
                change Agrees _ _ (Plural.pAtom Plural.goTable (f + 1) (.lp :: r.map itemTok))
                rw [pAtom_lp, e1]
                cases he : gExp parAtn f 0 r with
                | none => exact .none _
                | some x =>
                  obtain ⟨e, r'⟩ := x
                  have hr' := e2 _ he
                  dsimp only [Option.map_some, Option.bind_some] at hr' ⊢
                  rw [accept_tok (ty := 26) (t := .rp) (by decide) ⟨by decide, (fun ds h => by cases h), by decide, by decide +kernel⟩
                        fun i hi => hg' i (hr'.mem hi)]
                  cases ha : accept 26 r' with
                  | none => exact .none _
                  | some r'' =>
                    exact ⟨rfl, fun y hy => by cases hy; exact ((accept_suffix ha).trans hr').trans hsuf⟩
              · by_cases h27 : ty = 27
                · subst h27
                  rw [if_pos (by decide)]
                  dsimp only
                  rw [if_pos (by decide), sync_68 27 (by decide), if_neg (by decide)]
                  have hleaf : leaf (litText 27) = .n := by decide
                  rw [hleaf]
                  change Agrees _ _ (Plural.pAtom Plural.goTable (f + 1) (.n :: r.map itemTok))
                  rw [Plural.pAtom]
                  exact ⟨rfl, fun y hy => by cases hy; exact hsuf⟩
                · have hno : ty ∉ [1, 2, 3, 4, 5, 6, 25, 27] := by simp at hpre ⊢; omega
                  obtain ⟨o1, o2⟩ := atom_other ty t2 t1 hno
                  rw [if_neg (by simp at hno ⊢; omega), pAtom_other o1 o2 (lit_not_int ty t2 t1)]
                  exact .none _
          · rw [if_pos (by decide)]
            dsimp only
            rw [if_pos (by decide), sync_68 28 (by decide), if_neg (by decide)]
            have hleaf : leaf w = .int (w.map UInt8.ofNat) := by
              unfold leaf; rw [if_neg (digits_not_n hd)]
            rw [hleaf]
            have hi : itemTok (.tok 28 w) = .int (w.map UInt8.ofNat) := rfl
            rw [hi, Plural.pAtom]
            exact ⟨rfl, fun y hy => by cases hy; exact hsuf⟩
    · intro s p l is hs hg
      cases is with
      | nil =>
        rw [gLoop]
        dsimp only [peek]
        rw [sync_end hs, predict_59, if_neg (by rintro ⟨_, _, h, _⟩; cases h)]
        exact ⟨by simp [Plural.pLoop], fun y hy => by cases hy; exact List.suffix_rfl⟩
      | cons it r =>
        have hsuf : r <:+ it :: r := List.suffix_cons _ _
        have hg' : ∀ i ∈ r, Good i := fun i hi => hg i (List.mem_cons_of_mem _ hi)
        cases it with
        | bad =>
          rw [gLoop, List.map_cons]
          change Agrees _ _ (Plural.pLoop Plural.goTable (f + 1) p l (.bad :: _))
          rw [Plural.pLoop]
          exact ⟨rfl, by simp [peek]⟩
        | tok ty w =>
          have hty := good_cases (hg _ List.mem_cons_self)
          rw [List.map_cons]
          rcases hty with ⟨t1, t2, rfl⟩ | ⟨rfl, hw, hd⟩
          · rw [itemTok_lit (by omega)]
            by_cases hop : ty ∈ [3, 4, 7, 8, 9, 10, 11, 12, 13, 14, 15, 16, 17, 18, 19, 20, 21, 22]
            · obtain ⟨o, i, types, c1, c2, c3, c4, c5, c6, c7, c8⟩ := op_class ty t2 hop
              rw [c2, Plural.pLoop]
              by_cases hc : p ≤ Plural.goTable.op o
              · have hcont : Continues p (some ty) := (continues_iff c3).2 (c4 ▸ hc)
                rw [gLoop_go hs hcont (by omega) c3, if_neg c5, if_neg c6, c7, Option.bind_some]
                rw [if_pos ⟨hc, c8⟩, c1, if_pos hc]
                dsimp only
                obtain ⟨e1, e2⟩ := ihE (Plural.goTable.op o + 1) r hg'
                rw [e1]
                cases he : gExp parAtn f (Plural.goTable.op o + 1) r with
                | none => exact .none _
                | some x =>
                  obtain ⟨e, r'⟩ := x
                  have hr' := e2 _ he
                  dsimp only [Option.map_some] at hr' ⊢
                  exact (ihL 61 p _ r' (by simp) fun i hi => hg' i (hr'.mem hi)).mono (hr'.trans hsuf)
              · rw [if_neg hc, gLoop_stop hs (fun h => hc (c4 ▸ (continues_iff c3).1 h))]
                refine ⟨?_, fun y hy => by cases hy; exact List.suffix_rfl⟩
                rw [Option.map_some, List.map_cons, itemTok_lit (by omega), c2]
            · by_cases hpost : ty ∈ [1, 2]
              · obtain ⟨o, c1, c2, c3⟩ := post_class ty t2 hpost
                rw [c2]
                have hlv : levelAt 1 = 15 := rfl
                have hpl : Plural.goTable.post = 15 := rfl
                by_cases hc : p ≤ 15
                · have hcont : Continues p (some ty) := (continues_iff c3).2 (hlv ▸ hc)
                  rw [Plural.pLoop_post (by rw [hpl]; exact hc), gLoop_go hs hcont (by omega) c3, if_neg (by decide),
                    if_pos (by decide), if_pos ⟨hc, by simpa using hpost⟩, c1]
                  exact (ihL 61 p _ r (by simp) hg').mono hsuf
                · rw [gLoop_stop hs (fun h => hc (hlv ▸ (continues_iff c3).1 h)), Plural.pLoop_stop]
                  · refine ⟨?_, fun y hy => by cases hy; exact List.suffix_rfl⟩
                    rw [Option.map_some, List.map_cons, itemTok_lit (by omega), c2]
                  · intro k hk
                    cases hk
                    have hcp : Plural.contPrec Plural.goTable o.tok = some 15 := by cases o <;> rfl
                    rw [hcp]
                    refine ⟨by cases o <;> simp [Plural.Post.tok], fun q hq => ?_⟩
                    cases hq; omega
              · by_cases h23 : ty = 23
                · subst h23
                  have c3 : goesOn 23 = some 15 := by decide +kernel
                  have hlv : levelAt 15 = 1 := rfl
                  change Agrees _ _ (Plural.pLoop Plural.goTable (f + 1) p l (.quest :: r.map itemTok))
                  rw [pLoop_quest]
                  by_cases hc : p ≤ 1
                  · have hcont : Continues p (some 23) := (continues_iff c3).2 (hlv ▸ hc)
                    rw [if_pos hc, gLoop_go hs hcont (by omega) c3, if_pos (by decide), if_pos ⟨hc, rfl⟩]
                    obtain ⟨e1, e2⟩ := ihE 0 r hg'
                    rw [e1]
                    cases he : gExp parAtn f 0 r with
                    | none => exact .none _
                    | some x =>
                      obtain ⟨e, r'⟩ := x
                      have hr' := e2 _ he
                      dsimp only [Option.map_some, Option.bind_some] at hr' ⊢
                      rw [accept_tok (ty := 24) (t := .colon) (by decide) ⟨by decide, (fun ds h => by cases h), by decide, by decide +kernel⟩
                        fun i hi => hg' i (hr'.mem hi)]
                      cases ha : accept 24 r' with
                      | none => exact .none _
                      | some r'' =>
                        have hsuf' : r'' <:+ r := (accept_suffix ha).trans hr'
                        have hg'' : ∀ i ∈ r'', Good i := fun i hi => hg' i (hsuf'.mem hi)
                        obtain ⟨d1, d2⟩ := ihE 1 r'' hg''
                        dsimp only [Option.map_some, Option.bind_some]
                        rw [d1]
                        cases he' : gExp parAtn f 1 r'' with
                        | none => exact .none _
                        | some y =>
                          obtain ⟨b, r3⟩ := y
                          have hr3 := d2 _ he'
                          dsimp only [Option.map_some, Option.bind_some] at hr3 ⊢
                          exact (ihL 61 p _ r3 (by simp) fun i hi => hg'' i (hr3.mem hi)).mono
                            ((hr3.trans hsuf').trans hsuf)
                  · rw [if_neg hc, gLoop_stop hs (fun h => hc (hlv ▸ (continues_iff c3).1 h))]
                    refine ⟨?_, fun y hy => by cases hy; exact List.suffix_rfl⟩
                    rfl
                · have hno : ty ∈ [5, 6, 24, 25, 26, 27] := by simp at hop hpost ⊢; omega
                  obtain ⟨o1, o2⟩ := loop_other ty t2 t1 hno
                  rw [gLoop_stop hs (not_continues o1), pLoop_end o2]
                  refine ⟨?_, fun y hy => by cases hy; exact List.suffix_rfl⟩
                  rw [Option.map_some, List.map_cons, itemTok_lit (by omega)]
          · have c3 : goesOn 28 = none := by decide +kernel
            rw [gLoop_stop hs (not_continues c3), pLoop_end (by rfl)]
            exact ⟨rfl, fun y hy => by cases hy; exact List.suffix_rfl⟩

end Verif.Antlr
