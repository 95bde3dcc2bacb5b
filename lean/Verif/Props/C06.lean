import Verif.Props.C01_C05
import Verif.Props.C02_C03
import Verif.Spec.CSem
/-! Property C06: plural expressions and C semantics. -/
namespace Verif.Plural

/-! ### Parsing: on plain expressions the generated parser groups like C -/

theorem absorbs_c {l : Exp} : (∀ o, absorbs cTable l (cTable.op o) → absorbs goTable l (goTable.op o)) ∧
    (absorbs cTable l 15 → absorbs goTable l 15) ∧ (absorbs cTable l 1 → absorbs goTable l 1) := by
  induction l with
  | n => simp [absorbs]
  | int ds => simp [absorbs]
  | paren e _ => simp [absorbs]
  | post o e _ => simp [absorbs]
  | pre o e ih =>
    obtain ⟨h1, h2, h3⟩ := ih
    refine ⟨fun o' h => ?_, fun h => ?_, fun h => ?_⟩ <;> simp only [absorbs] at h ⊢
    · rcases h with h | h
      · cases o' <;> simp [cTable] at h
      · exact .inr (h1 _ h)
    · cases o <;> simp [goTable]
    · rcases h with h | h
      · simp [cTable] at h
      · exact .inr (h3 h)
  | bin o l r _ ih =>
    obtain ⟨h1, h2, h3⟩ := ih
    refine ⟨fun o' h => ?_, fun h => ?_, fun h => ?_⟩ <;> simp only [absorbs] at h ⊢
    · rcases h with h | h
      · left; revert h; cases o <;> cases o' <;> simp [cTable, goTable]
      · exact .inr (h1 _ h)
    · cases o <;> simp [goTable]
    · rcases h with h | h
      · revert h; cases o <;> simp [cTable]
      · exact .inr (h3 h)
  | tern c a b _ _ ih =>
    obtain ⟨h1, h2, h3⟩ := ih
    refine ⟨fun o' h => ?_, fun h => ?_, fun h => ?_⟩ <;> simp only [absorbs] at h ⊢
    · left; cases o' <;> simp [goTable]
    · simp
    · simp

theorem wf_c (t : Exp) : ∀ p p', plain t = true →
    (p' = p ∨ (p = 13 ∧ p' = 14) ∨ (p = 9 ∧ p' = 10 ∧ isGtLt t = false)) →
    Wf goTable p t → Wf cTable p' t := by
  induction t with
  | n => intros; trivial
  | int ds => intros; trivial
  | paren e ih =>
    intro p p' hg _ h
    exact ih 0 0 (by simpa [plain] using hg) (.inl rfl) h
  | post o e ih => intro p p' hg; simp [plain] at hg
  | pre o e ih =>
    intro p p' hg _ h
    have hge : plain e = true := by cases o <;> simp_all [plain]
    simp only [Wf] at h ⊢
    refine ih _ _ hge ?_ h
    revert hg
    cases o <;> simp [goTable, cTable, plain]
  | bin o l r ihl ihr =>
    intro p p' hg hp h
    obtain ⟨h1, h2, h3, h4⟩ := h
    simp only [plain, Bool.and_eq_true] at hg
    obtain ⟨⟨⟨hgl, hgr⟩, _⟩, hgo⟩ := hg
    refine ⟨?_, ihl p p' hgl ?_ h2, fun ha => h3 (absorbs_c.1 o ha), ihr _ _ hgr ?_ h4⟩
    · rcases hp with rfl | ⟨rfl, rfl⟩ | ⟨rfl, rfl, hr⟩
      · revert h1; cases o <;> simp [goTable, cTable] <;> omega
      · revert h1; cases o <;> simp [goTable]
      · revert h1; cases o <;> simp_all [goTable, cTable, isGtLt]
    · rcases hp with rfl | ⟨rfl, rfl⟩ | ⟨rfl, rfl, hr⟩
      · exact .inl rfl
      · exact .inr (.inl ⟨rfl, rfl⟩)
      · refine .inr (.inr ⟨rfl, rfl, ?_⟩)
        cases l with
        | bin o' l' r' =>
          simp only [absorbs, not_or, Nat.not_lt] at h3
          have := h3.1
          revert h1 this hr
          cases o' <;> cases o <;> simp [isGtLt, goTable]
        | _ => rfl
    · revert hgo
      cases o <;> simp [goTable, cTable]
  | tern c a b ihc iha ihb =>
    intro p p' hg hp h
    obtain ⟨h1, h2, h3, h4, h5⟩ := h
    simp only [plain, Bool.and_eq_true] at hg
    obtain ⟨⟨hgc, hga⟩, hgb⟩ := hg
    have hpp : p' = p := by omega
    subst hpp
    exact ⟨h1, ihc _ _ hgc (.inl rfl) h2, fun ha => h3 (absorbs_c.2.2 ha), iha _ _ hga (.inl rfl) h4,
      ihb _ _ hgb (.inl rfl) h5⟩

/-- **C06**, parsing half: a plain expression is grouped by the generated parser as by C. -/
theorem C06_parse (ts : List Tok) (t : Exp) (r : List Tok) (hg : plain t = true)
    (h : parse goTable ts = some (t, r)) : parse cTable ts = some (t, r) := by
  obtain ⟨h1, h2, h3⟩ := (parse_iff _ _ _).1 h
  exact (parse_iff _ _ _).2 ⟨h1, wf_c t 0 0 hg (.inl rfl) h2, h3⟩

/-! ### Values -/

theorem truth_01 {P : Prop} [Decidable P] : truth P = 0 ∨ truth P = 1 := by
  unfold truth; split <;> simp

theorem truth_ne {P : Prop} [Decidable P] : (truth P ≠ 0) ↔ P := by
  unfold truth; split <;> simp_all

theorem cval_bool {n : Int64} {t : Exp} (hb : isBool t = true) : zeroOne (cval n t) = true := by
  have e : ∀ (P : Prop) [Decidable P], zeroOne (some (truth P)) = true := by
    intro P _; unfold truth; split <;> decide
  have e' : ∀ (o : Option Int64) (P : Int64 → Prop) [∀ y, Decidable (P y)],
      zeroOne (o.map fun y => truth (P y)) = true := by
    intro o P _; cases o with
    | none => rfl
    | some y => exact e _
  induction t with
  | int ds =>
    simp only [isBool, Bool.or_eq_true, beq_iff_eq] at hb
    rcases hb with rfl | rfl
    · exact (by decide : zeroOne (litVal b!"0") = true)
    · exact (by decide : zeroOne (litVal b!"1") = true)
  | paren e ih => exact ih hb
  | pre o x ih =>
    cases o <;> simp [isBool] at hb
    exact e' _ _
  | bin o l r _ _ =>
    simp only [cval]
    cases cval n l with
    | none => rfl
    | some x =>
      simp only [Option.bind_some]
      cases o <;> simp [isBool] at hb
      case land => dsimp only; split; · rfl
                   · exact e' _ _
      case lor => dsimp only; split; · rfl
                  · exact e' _ _
      all_goals
        dsimp only
        cases cval n r with
        | none => rfl
        | some y => exact e _
  | n => simp [isBool] at hb
  | post o e => simp [isBool] at hb
  | tern c a b => simp [isBool] at hb

theorem regular_of_guarded {n : Int64} (t : Exp) (h : guarded t = true) : regular n t = true := by
  induction t with
  | n => rfl
  | int ds => rfl
  | paren e ih => exact ih h
  | post o e ih => exact ih h
  | pre o e ih =>
    simp only [guarded, regular, Bool.and_eq_true, Bool.or_eq_true] at h ⊢
    exact ⟨ih h.1, h.2.imp id cval_bool⟩
  | bin o l r ihl ihr =>
    simp only [guarded, regular, Bool.and_eq_true, Bool.or_eq_true] at h ⊢
    exact ⟨⟨ihl h.1.1, ihr h.1.2⟩, h.2.imp id fun h => ⟨cval_bool h.1, cval_bool h.2⟩⟩
  | tern c a b ihc iha ihb =>
    simp only [guarded, regular, Bool.and_eq_true] at h ⊢
    exact ⟨⟨⟨cval_bool h.1.1.1, ihc h.1.1.2⟩, iha h.1.2⟩, ihb h.2⟩

theorem zeroOne_some {x : Int64} (h : zeroOne (some x) = true) : x = 0 ∨ x = 1 := by
  simpa [zeroOne] using h

theorem small_count {y : Int64} (h : 0 ≤ y ∧ y < 64) :
    y.toNatClampNeg < 64 ∧ y.toBitVec.smod 64 = BitVec.ofNat 64 y.toNatClampNeg := by
  have h1 : 0 ≤ y.toInt := by simpa [Int64.le_iff_toInt_le] using h.1
  have h2 : y.toInt < 64 := by
    have := Int64.lt_iff_toInt_lt.1 h.2
    rwa [show Int64.toInt 64 = 64 by decide] at this
  have hk : y = Int64.ofNat y.toInt.toNat := by
    rw [← Int64.toInt_inj, Int64.toInt_ofNat_of_lt (by omega)]; omega
  have all : ∀ k : Fin 64, (Int64.ofNat k.1).toNatClampNeg < 64 ∧
      (Int64.ofNat k.1).toBitVec.smod 64 = BitVec.ofNat 64 (Int64.ofNat k.1).toNatClampNeg := by
    decide
  have := all ⟨y.toInt.toNat, by omega⟩
  simp only [← hk] at this
  exact this

theorem goShr_eq {x y : Int64} (h : 0 ≤ y ∧ y < 64) : goShr x y = x >>> y := by
  obtain ⟨h1, h2⟩ := small_count h
  apply Int64.toBitVec_inj.1
  rw [Int64.toBitVec_shiftRight, h2, goShr, Int64.toBitVec_ofBitVec, BitVec.sshiftRight',
    BitVec.toNat_ofNat, Nat.mod_eq_of_lt (by omega)]

theorem goShl_eq {x y : Int64} (h : 0 ≤ y ∧ y < 64) : goShl x y = x <<< y := by
  obtain ⟨h1, h2⟩ := small_count h
  apply Int64.toBitVec_inj.1
  rw [Int64.toBitVec_shiftLeft, h2, goShl, Int64.toBitVec_ofBitVec, BitVec.shiftLeft_eq',
    BitVec.toNat_ofNat, Nat.mod_eq_of_lt (by omega)]
  rfl

/-- On plain and regular expressions: wherever the code computes a value and C defines one, they
agree. -/
theorem cval_agree {n : Int64} (t : Exp) (hp : plain t = true) (hg : regular n t = true) :
    ∀ v w, den n t = some v → cval n t = some w → v = w := by
  induction t with
  | n => intro v w h1 h2; simp [den, cval] at h1 h2; rw [← h1, ← h2]
  | int ds => intro v w h1 h2; simp only [den, cval] at h1 h2; rw [h1] at h2; simpa using h2
  | paren e ih => exact ih hp hg
  | post o e => simp [plain] at hp
  | pre o e ih =>
    intro v w h1 h2
    simp only [plain, Bool.and_eq_true] at hp
    simp only [regular, Bool.and_eq_true] at hg
    have ih := ih hp.2 hg.1
    simp only [den, Option.map_eq_some_iff] at h1
    obtain ⟨x, hx, rfl⟩ := h1
    cases o <;> simp only [cval, Option.map_eq_some_iff, reduceCtorEq] at h2
    · exact ih _ _ hx h2
    · obtain ⟨y, hy, rfl⟩ := h2; rw [ih _ _ hx hy]; rfl
    · obtain ⟨y, hy, rfl⟩ := h2; rw [ih _ _ hx hy]; rfl
    · obtain ⟨y, hy, rfl⟩ := h2
      obtain rfl := ih _ _ hx hy
      have hb : zeroOne (cval n e) = true := by simpa using hg.2
      rw [hy] at hb
      rcases zeroOne_some hb with rfl | rfl <;> decide
  | bin o l r ihl ihr =>
    intro v w h1 h2
    simp only [plain, Bool.and_eq_true] at hp
    obtain ⟨⟨⟨hpl, hpr⟩, hpx⟩, _⟩ := hp
    simp only [regular, Bool.and_eq_true] at hg
    obtain ⟨⟨hgl, hgr⟩, hgo⟩ := hg
    simp only [den, Option.bind_eq_some_iff] at h1
    obtain ⟨x, hx, y, hy, h1⟩ := h1
    simp only [cval, Option.bind_eq_some_iff] at h2
    obtain ⟨x', hx', h2⟩ := h2
    obtain rfl := ihl hpl hgl _ _ hx hx'
    have hyw : ∀ y', cval n r = some y' → y = y' := fun y' h => ihr hpr hgr _ _ hy h
    cases o
    case land =>
      have hgo : zeroOne (cval n l) = true ∧ zeroOne (cval n r) = true := by simpa using hgo
      rw [hx'] at hgo
      simp only [opVal, Option.some.injEq] at h1
      rcases zeroOne_some hgo.1 with rfl | rfl
      · simp at h1 h2; rw [← h1, ← h2]
      · simp only [show (1 : Int64) ≠ 0 by decide, if_false, Option.map_eq_some_iff] at h2
        obtain ⟨y', hy', rfl⟩ := h2
        obtain rfl := hyw _ hy'
        rw [hy'] at hgo
        rw [← h1]
        rcases zeroOne_some hgo.2 with rfl | rfl <;> decide
    case lor =>
      have hgo : zeroOne (cval n l) = true ∧ zeroOne (cval n r) = true := by simpa using hgo
      rw [hx'] at hgo
      simp only [opVal, Option.some.injEq] at h1
      rcases zeroOne_some hgo.1 with rfl | rfl
      · simp only [show ¬ ((0 : Int64) ≠ 0) by decide, if_false, Option.map_eq_some_iff] at h2
        obtain ⟨y', hy', rfl⟩ := h2
        obtain rfl := hyw _ hy'
        rw [hy'] at hgo
        rw [← h1]
        rcases zeroOne_some hgo.2 with rfl | rfl <;> decide
      · simp at h1 h2; rw [← h1, ← h2]
    case bxor => simp at hpx
    all_goals
      simp only [Option.bind_eq_some_iff] at h2
      obtain ⟨y', hy', h2⟩ := h2
      obtain rfl := hyw _ hy'
      simp only [opVal] at h1
    case shr =>
      split at h2
      · rename_i h; rw [goShr_eq h] at h1; split at h1 <;> simp_all
      · simp at h2
    case shl =>
      split at h2
      · rename_i h; rw [goShl_eq h] at h1; split at h1 <;> simp_all
      · simp at h2
    case ne => simp [truth] at h1 h2; rw [← h1, ← h2]
    all_goals (try simp only [truth] at h2); rw [h1] at h2; simpa using h2
  | tern c a b ihc iha ihb =>
    intro v w h1 h2
    simp only [plain, Bool.and_eq_true] at hp
    obtain ⟨⟨hpc, hpa⟩, hpb⟩ := hp
    simp only [regular, Bool.and_eq_true] at hg
    obtain ⟨⟨⟨hb, hgc⟩, hga⟩, hgb⟩ := hg
    simp only [den, Option.bind_eq_some_iff, Option.some.injEq] at h1
    obtain ⟨x, hx, y, hy, z, hz, h1⟩ := h1
    simp only [cval, Option.bind_eq_some_iff] at h2
    obtain ⟨x', hx', h2⟩ := h2
    obtain rfl := ihc hpc hgc _ _ hx hx'
    rw [hx'] at hb
    rcases zeroOne_some hb with rfl | rfl
    · simp at h1 h2; rw [← h1]; exact ihb hpb hgb _ _ hz h2
    · simp at h1 h2; rw [← h1]; exact iha hpa hga _ _ hy h2

/-- On plain and regular expressions without shifts the code's value is always C's value. -/
theorem cval_of_den {n : Int64} (t : Exp) (hp : plain t = true) (hg : regular n t = true)
    (hs : noShift t = true) : ∀ v, den n t = some v → cval n t = some v := by
  have key : ∀ v, den n t = some v → ∃ w, cval n t = some w := by
    induction t with
    | n => intro v h; exact ⟨n, rfl⟩
    | int ds => intro v h; exact ⟨v, h⟩
    | paren e ih => exact ih hp hg hs
    | post o e => simp [plain] at hp
    | pre o e ih =>
      intro v h
      simp only [plain, Bool.and_eq_true] at hp
      simp only [regular, Bool.and_eq_true] at hg
      simp only [den, Option.map_eq_some_iff] at h
      obtain ⟨x, hx, rfl⟩ := h
      obtain ⟨w, hw⟩ := ih hp.2 hg.1 hs _ hx
      cases o <;> simp_all [cval]
    | bin o l r ihl ihr =>
      intro v h
      simp only [plain, Bool.and_eq_true] at hp
      obtain ⟨⟨⟨hpl, hpr⟩, hpx⟩, _⟩ := hp
      simp only [regular, Bool.and_eq_true] at hg
      obtain ⟨⟨hgl, hgr⟩, hgo⟩ := hg
      simp only [noShift, Bool.and_eq_true, bne_iff_ne, ne_eq] at hs
      obtain ⟨⟨⟨hs1, hs2⟩, hs3⟩, hs4⟩ := hs
      simp only [den, Option.bind_eq_some_iff] at h
      obtain ⟨x, hx, y, hy, h⟩ := h
      obtain ⟨x', hx'⟩ := ihl hpl hgl hs3 _ hx
      obtain ⟨y', hy'⟩ := ihr hpr hgr hs4 _ hy
      have hyy := cval_agree r hpr hgr _ _ hy hy'
      subst hyy
      clear hgo
      simp only [cval, hx', hy', Option.bind_some]
      cases o <;> simp_all [opVal]
      · split <;> simp
      · split <;> simp
    | tern c a b ihc iha ihb =>
      intro v h
      simp only [plain, Bool.and_eq_true] at hp
      obtain ⟨⟨hpc, hpa⟩, hpb⟩ := hp
      simp only [regular, Bool.and_eq_true] at hg
      obtain ⟨⟨⟨hb, hgc⟩, hga⟩, hgb⟩ := hg
      simp only [noShift, Bool.and_eq_true] at hs
      simp only [den, Option.bind_eq_some_iff, Option.some.injEq] at h
      obtain ⟨x, hx, y, hy, z, hz, h1⟩ := h
      obtain ⟨x', hx'⟩ := ihc hpc hgc hs.1.1 _ hx
      obtain ⟨y', hy'⟩ := iha hpa hga hs.1.2 _ hy
      obtain ⟨z', hz'⟩ := ihb hpb hgb hs.2 _ hz
      simp only [cval, hx', hy', hz', Option.bind_some]
      split <;> simp
  intro v h
  obtain ⟨w, hw⟩ := key v h
  rw [hw, cval_agree t hp hg v w h hw]

/-- **C06** Every plain expression that `Eval` evaluates through the general path groups as in C and,
for every `n` for which it is regular (for all `n` if it is guarded), evaluates to C's value wherever C
defines one; without shift operators C always defines one.  For other expressions the agreement fails
in general, see `C06_counterexamples`. -/
theorem C06_c_semantics (diag : Diag) (exp : Str) (n v : Int64)
    (hc : ∀ p ∈ commons, p.1 ≠ GoStr.removeByte 32 exp) (h : eval diag exp n = .ok v) :
    ∃ t r, parse goTable (lex exp) = some (t, r) ∧
      (plain t = true → parse cTable (lex exp) = some (t, r) ∧
        (regular n t = true → (∀ w, cval n t = some w → v = w) ∧ (noShift t = true → cval n t = some v))) ∧
      (guarded t = true → regular n t = true) := by
  obtain ⟨_, t, r, h1, h2, h3, h4⟩ := (C01_eval_iff diag exp n v hc).1 h
  rw [← goTable_eq_g4] at h2
  have hp := (parse_iff (T := goTable) _ _ _).2 ⟨h1, h2, h3⟩
  exact ⟨t, r, hp, fun hpl => ⟨C06_parse _ _ _ hpl hp, fun hg => ⟨fun w hw => cval_agree t hpl hg v w h4 hw,
    fun hs => cval_of_den t hpl hg hs v h4⟩⟩, regular_of_guarded t⟩

-- guarded expressions off the built-in table, and a regular one that is not guarded
example : (parse goTable (lex b!"n==1||n%7>=2&&!(n>100)?n:2*n")).any
    (fun p => plain p.1 && guarded p.1 && noShift p.1) = true := by decide
example : (parse goTable (lex b!"n%2 ? n%10 : 3")).any
    (fun p => plain p.1 && !guarded p.1 && regular 7 p.1 && regular 8 p.1 && !regular (-1) p.1) = true := by decide

/-- **C06** Each built-in expression is, for C, complete, and its C value is the built-in function's
value for every `n`. -/
theorem C06_builtin : ∀ p ∈ commons, ∃ t, parse cTable (lex p.1) = some (t, []) ∧
    ∀ n, cval n t = some (p.2 n) := by
  have key : ∀ p ∈ commons, ∃ t, parse goTable (lex p.1) = some (t, []) ∧ plain t = true ∧ guarded t = true ∧
      noShift t = true := by
    have : ∀ k : Str, (parse goTable (lex k)).any (fun x => plain x.1 && guarded x.1 && noShift x.1 && x.2.isEmpty)
        = true → ∃ t, parse goTable (lex k) = some (t, []) ∧ plain t = true ∧ guarded t = true ∧
          noShift t = true := by
      intro k h
      cases hp : parse goTable (lex k) with
      | none => simp [hp] at h
      | some x =>
        obtain ⟨t, r⟩ := x
        simp [hp] at h
        exact ⟨t, by simp [h.2], h.1.1.1, h.1.1.2, h.1.2⟩
    intro p hp
    apply this
    revert p
    simp only [commons, List.forall_mem_cons]
    decide
  intro p hp
  obtain ⟨t, h1, h2, h2', h3⟩ := key p hp
  refine ⟨t, C06_parse _ _ _ h2 h1, fun n => ?_⟩
  have hc := C02_builtin_eq_general p hp (fun _ => false) n rfl
  have hg := goodLits_of_lex ((parse_iff _ _ _).1 h1).1
  simp only [evalGeneral, h1, walk_eq n t hg] at hc
  cases hd : den n t with
  | none => simp [hd, push, Res.bind] at hc
  | some v =>
    simp [hd, push, Res.bind, exitStart, pop] at hc
    rw [← hc]; exact cval_of_den t h2 (regular_of_guarded t h2') h3 v hd

/-- **C06** The property is false of the code in general: `^` is computed as `&`, `!` and `?:` take
2 for false, `>=` binds looser than `>`, and a division by zero in a branch C would not evaluate is
an error. Each line gives the code's result and C's. -/
theorem C06_counterexamples :
    (eval (fun _ => false) b!"n ^ 2" 1 = .ok 0 ∧
      ∃ t, parse cTable (lex b!"n ^ 2") = some (t, []) ∧ cval 1 t = some 3) ∧
    (eval (fun _ => false) b!"!n" 2 = .ok 1 ∧
      ∃ t, parse cTable (lex b!"!n") = some (t, []) ∧ cval 2 t = some 0) ∧
    (eval (fun _ => false) b!"n ? 1 : 0" 2 = .ok 0 ∧
      ∃ t, parse cTable (lex b!"n ? 1 : 0") = some (t, []) ∧ cval 2 t = some 1) ∧
    (eval (fun _ => false) b!"1 >= n > 1" 1 = .ok 1 ∧
      ∃ t, parse cTable (lex b!"1 >= n > 1") = some (t, []) ∧ cval 1 t = some 0) ∧
    (eval (fun _ => false) b!"n == 0 ? 0 : 10 / n" 0 = .err ∧
      ∃ t, parse cTable (lex b!"n == 0 ? 0 : 10 / n") = some (t, []) ∧ cval 0 t = some 0) := by
  have key : ∀ (k : Str) (n v : Int64),
      (parse cTable (lex k)).any (fun x => x.2.isEmpty && cval n x.1 == some v) = true →
      ∃ t, parse cTable (lex k) = some (t, []) ∧ cval n t = some v := by
    intro k n v h
    cases hp : parse cTable (lex k) with
    | none => simp [hp] at h
    | some x =>
      obtain ⟨t, r⟩ := x
      simp [hp] at h
      exact ⟨t, by simp [h.1], h.2⟩
  refine ⟨⟨by decide, key _ _ _ (by decide)⟩, ⟨by decide, key _ _ _ (by decide)⟩,
    ⟨by decide, key _ _ _ (by decide)⟩, ⟨by decide, key _ _ _ (by decide)⟩,
    ⟨by decide, key _ _ _ (by decide)⟩⟩

end Verif.Plural
