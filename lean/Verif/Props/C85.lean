import Verif.Spec.Order
import Verif.Props.C09_C11
/-!
# C85: a translation may use the arguments in any order
-/
namespace Verif.Fmt
open Verif
variable {α : Type}

theorem flags_written (fl x : Str) (h : ∀ c ∈ fl, isFlagByte c = true) (hx : ∀ c, x.head? = some c → isFlagByte c = false) (o : Opts) :
    flagsLoop o (fl ++ x) = ({ o with sharp := o.sharp || fl.contains 35, zero := o.zero || fl.contains 48, plus := o.plus || fl.contains 43, minus := o.minus || fl.contains 45, space := o.space || fl.contains 32 }, x) := by
  induction fl generalizing o with
  | nil =>
    cases x with
    | nil => simp [flagsLoop]
    | cons c x =>
      have := hx c rfl
      simp only [isFlagByte, Bool.or_eq_false_iff, decide_eq_false_iff_not] at this
      simp [flagsLoop, this.1.1.1.1, this.1.1.1.2, this.1.1.2, this.1.2, this.2]
  | cons c fl ih =>
    have hc := h c (by simp)
    have ih := ih (fun c hc => h c (List.mem_cons_of_mem _ hc))
    simp only [isFlagByte, Bool.or_eq_true, decide_eq_true_eq] at hc
    rcases hc with (((rfl | rfl) | rfl) | rfl) | rfl <;>
    · simp only [List.cons_append, flagsLoop]
      simp [ih]

theorem number_read (ds x : Str) (h : ∀ c ∈ ds, digitByte c = true) (n : Nat) (b : Bool)
    (hv : ds.foldl (fun n c => n * 10 + (c.toNat - 48)) n ≤ 1000000) (hx : ∀ c, x.head? = some c → digitByte c = false) :
    parsenum n b (ds ++ x) = (if b || ds != [] then some (ds.foldl (fun n c => n * 10 + (c.toNat - 48)) n) else none, x) := by
  induction ds generalizing n b with
  | nil =>
    cases x with
    | nil => simp [parsenum]
    | cons c x =>
      have : Num.isDigit c = false := hx c rfl
      simp [parsenum, this]
  | cons c ds ih =>
    have hc : Num.isDigit c = true := h c (by simp)
    simp only [List.foldl_cons] at hv
    have hle := foldl_ge ds (n * 10 + (c.toNat - 48))
    simp only [List.cons_append, parsenum, hc, if_true]
    rw [if_neg (by omega), ih (fun c hc => h c (List.mem_cons_of_mem _ hc)) _ _ hv]
    simp

theorem index_read (k x : Str) (hk : Number k) (hne : k ≠ []) : parseArgNumber (k ++ 93 :: x) = (some (decVal k), x) := by
  have h93 : 93 ∉ k := by
    intro h
    have := hk.1 _ h
    revert this; decide
  have hl : ¬ (k ++ 93 :: x).length < 2 := by
    have := List.length_pos_iff.mpr hne
    simp; omega
  have hp := number_read k [] hk.1 0 false hk.2 (by simp)
  simp only [List.append_nil, Bool.false_or, bne_iff_ne, ne_eq, hne, not_false_eq_true, if_true] at hp
  simp only [parseArgNumber, if_neg hl, splitClose_digits k x h93, hp]
  rfl

/-- The state after an index. -/
def St.at (st : St) (n : Nat) (k : Str) : St :=
  if decVal k ≠ 0 ∧ decVal k - 1 < n then ⟨decVal k - 1, true, st.good, true, st.inRange⟩
  else ⟨st.argNum, true, false, true, false⟩

theorem argNumber_index (n : Nat) (st : St) (k x : Str) (hk : Number k) (hne : k ≠ []) :
    argNumber n st (91 :: (k ++ 93 :: x)) = (st.at n k, x) := by
  simp only [argNumber, index_read k x hk hne, St.at]
  by_cases h : decVal k ≠ 0 ∧ decVal k - 1 < n
  · rw [if_pos (by omega), if_pos h]
  · rw [if_neg (by omega), if_neg h]

theorem argNumber_other (n : Nat) (st : St) (x : Str) (h : x.head? ≠ some 91) : argNumber n st x = ({ st with after := false }, x) := by
  cases x with
  | nil => rfl
  | cons c x =>
    have : c ≠ 91 := by simpa using h
    unfold argNumber
    split
    · simp_all
    · rfl

theorem letter_facts (c : UInt8) (h : letterByte c = true) : isFlagByte c = false ∧ digitByte c = false ∧ c ≠ 91 ∧ c ≠ 42 ∧
    c ≠ 46 ∧ c ≠ 37 ∧ c < 128 := by
  revert h
  revert c
  apply u8
  decide +kernel

theorem verb_read (args : List α) (o : Opts) (st : St) (v : UInt8) (h : letterByte v = true) (x : Str) :
    verbPart args o st (v :: x) =
      if !st.good then ([.badIndex [v]], st, x) else match args[st.argNum]? with
      | none => ([.missing [v]], { st with inRange := false }, x)
      | some a => ([.arg o [v] a], { st with argNum := st.argNum + 1 }, x) := by
  obtain ⟨_, _, _, _, _, h1, h2⟩ := letter_facts v h
  have hd : Utf8.decode (v :: x) = (v.toNat, 1) := by simp [Utf8.decode, h2]
  have he : Utf8.encode v.toNat = [v] := by
    have : v.toNat < 128 := h2
    simp [Utf8.encode, this]
  have hn : v.toNat ≠ 37 := by
    intro e
    exact h1 (UInt8.toNat_inj.mp (by rw [e]; rfl))
  simp only [verbPart, hd, he, if_neg hn, List.drop_succ_cons, List.drop_zero]
  rfl

theorem width_read (E : Env α) (args : List α) (o : Opts) (st : St) (ds x : Str) (h : Number ds)
    (hx : ∀ c, x.head? = some c → digitByte c = false ∧ c ≠ 42) (ha : st.after = false ∨ ds = []) :
    widthPart E args o st (ds ++ x) = ([], { o with wid := if ds = [] then none else some (decVal ds) }, st, x) := by
  have hp := number_read ds x h.1 0 false h.2 (fun c hc => (hx c hc).1)
  have h42 : ∀ r, ds ++ x ≠ 42 :: r := by
    intro r e
    cases ds with
    | nil =>
      rw [List.nil_append] at e
      exact (hx 42 (by rw [e]; rfl)).2 rfl
    | cons c ds =>
      simp only [List.cons_append, List.cons.injEq] at e
      have := h.1 c (by simp)
      rw [e.1] at this
      revert this; decide
  unfold widthPart
  split
  · rename_i r e
    exact absurd e (h42 r)
  · rw [hp]
    by_cases hd : ds = []
    · simp [hd]
    · have ha : st.after = false := ha.resolve_right hd
      simp [hd, ha, decVal]

theorem prec_none (E : Env α) (args : List α) (o : Opts) (st : St) (x : Str) (h : x.head? ≠ some 46) :
    precPart E args o st x = ([], o, st, x) := by
  unfold precPart
  split
  · simp at h
  · rfl

theorem prec_read (E : Env α) (args : List α) (o : Opts) (st : St) (ds x : Str) (h : Number ds)
    (hx : ∀ c, x.head? = some c → digitByte c = false ∧ c ≠ 42 ∧ (ds = [] → c ≠ 91)) (ha : st.after = false) :
    precPart E args o st (46 :: (ds ++ x)) = ([], { o with prec := some (decVal ds) }, { st with after := false }, x) := by
  have hp := number_read ds x h.1 0 false h.2 (fun c hc => (hx c hc).1)
  have hb : ∀ b : UInt8, (b = 91 ∨ b = 42) → (∀ c, x.head? = some c → ds = [] → c ≠ b) → (ds ++ x).head? ≠ some b := by
    intro b hb hx e
    cases ds with
    | nil => exact hx b e rfl rfl
    | cons c ds =>
      simp only [List.cons_append, List.head?_cons, Option.some.injEq] at e
      have := h.1 c (by simp)
      rw [e] at this
      rcases hb with rfl | rfl <;> revert this <;> decide
  have h91 := hb 91 (.inl rfl) (fun c hc hd => (hx c hc).2.2 hd)
  have h42 := hb 42 (.inr rfl) (fun c hc _ => (hx c hc).2.1)
  simp only [precPart, ha, Bool.false_eq_true, if_false, argNumber_other _ _ _ h91]
  split
  · rename_i r e
    rw [e] at h42; simp at h42
  · simp only [hp]
    by_cases hd : ds = []
    · simp [hd, decVal]
    · simp [hd, decVal]

theorem prec_index (E : Env α) (args : List α) (o : Opts) (st : St) (k : Str) (v : UInt8) (x : Str) (hk : Number k) (hne : k ≠ [])
    (hv : letterByte v = true) (ha : st.after = false) :
    precPart E args o st (46 :: 91 :: (k ++ 93 :: v :: x)) = ([], { o with prec := some 0 }, st.at args.length k, v :: x) := by
  obtain ⟨_, h1, _, h2, _⟩ := letter_facts v hv
  have h1 : Num.isDigit v = false := h1
  simp only [precPart, ha, Bool.false_eq_true, if_false, argNumber_index _ _ _ _ hk hne]
  split
  · rename_i r e
    simp only [List.cons.injEq] at e
    exact absurd e.1 h2
  · simp [parsenum, h1]

theorem digit_facts (c : UInt8) (h : digitByte c = true) : (c ≠ 48 → isFlagByte c = false) ∧ c ≠ 91 := by
  revert h
  revert c
  apply u8
  decide +kernel

theorem at_after (st : St) (n : Nat) (k : Str) : (st.at n k).after = true := by
  unfold St.at; split <;> rfl

theorem directive_parts (E : Env α) (args : List α) (st sa sb sc sd : St) (s s1 s2 s3 s4 s5 : Str) (o0 o1 o2 : Opts)
    (hf : flagsLoop {} s = (o0, s1)) (ha : argNumber args.length { st with good := true } s1 = (sa, s2))
    (hw : widthPart E args o0 sa s2 = ([], o1, sb, s3)) (hp : precPart E args o1 sb s3 = ([], o2, sc, s4))
    (hl : (if sc.after then (sc, s4) else argNumber args.length sc s4) = (sd, s5)) :
    directive E args st s = verbPart args o2 sd s5 := by
  simp only [directive, hf, ha, hw, hp, hl]
  simp

/-- One directive. -/
theorem dir_run (E : Env α) (args : List α) (d : Dir) (hd : d.Wf) (st : St) (x : Str) :
    ∃ p st' t, d.written = 37 :: t ∧ directive E args st (t ++ x) = ([p], st', x) ∧ p.text E = d.shown E args st.argNum ∧
      st'.argNum = d.next args st.argNum ∧ st'.reordered = (st.reordered || d.idx.isSome) := by
  obtain ⟨flags, wid, prec, idx, verb⟩ := d
  obtain ⟨hf, ⟨hw, hw0⟩, hp, hi, hv⟩ := hd
  simp only [] at hf hw hw0 hp hi hv
  obtain ⟨v1, v2, v3, v4, v5, v6, v7⟩ := letter_facts verb hv
  -- what the number of the argument does
  let st0 : St := { st with good := true, after := false }
  have key : ∀ s1 : St, ((idx = none ∧ s1 = st0) ∨ (∃ k, idx = some k ∧ s1 = St.at { st with good := true } args.length k) ∨
        (∃ k, idx = some k ∧ s1 = St.at st0 args.length k)) →
      ∀ o, o = Dir.opts ⟨flags, wid, prec, idx, verb⟩ →
      ∃ p st', verbPart args o s1 (verb :: x) = ([p], st', x) ∧
        p.text E = Dir.shown E ⟨flags, wid, prec, idx, verb⟩ args st.argNum ∧
        st'.argNum = Dir.next ⟨flags, wid, prec, idx, verb⟩ args st.argNum ∧
        st'.reordered = (st.reordered || idx.isSome) := by
    intro s1 h o ho
    rw [verb_read args o s1 verb hv x]
    rcases h with ⟨rfl, rfl⟩ | h
    · simp only [st0, Bool.not_true, Bool.false_eq_true, if_false]
      cases ha : args[st.argNum]? with
      | none => exact ⟨_, _, rfl, by simp [Piece.text, Dir.shown, Dir.arg, ha], by simp [Dir.next, Dir.arg, ha], by simp⟩
      | some a => exact ⟨_, _, rfl, by simp [Piece.text, Dir.shown, Dir.arg, ha, ho], by simp [Dir.next, Dir.arg, ha], by simp⟩
    · obtain ⟨k, sb, rfl, rfl, hg, hn⟩ : ∃ k sb, idx = some k ∧ s1 = St.at sb args.length k ∧ sb.good = true ∧ sb.argNum = st.argNum := by
        rcases h with ⟨k, h1, h2⟩ | ⟨k, h1, h2⟩
        · exact ⟨k, _, h1, h2, rfl, rfl⟩
        · exact ⟨k, _, h1, h2, rfl, rfl⟩
      by_cases hk : decVal k ≠ 0 ∧ decVal k - 1 < args.length
      · have e : St.at sb args.length k = ⟨decVal k - 1, true, sb.good, true, sb.inRange⟩ := if_pos hk
        have ha : args[decVal k - 1]? = some args[decVal k - 1] := List.getElem?_eq_getElem hk.2
        simp only [e, hg, Bool.not_true, Bool.false_eq_true, if_false, ha]
        refine ⟨_, _, rfl, ?_, ?_, by simp⟩
        · simp [Piece.text, Dir.shown, Dir.arg, hk.1, ha, ho]
        · simp only [Dir.next, Dir.arg, hk.1, ha, if_false]
          omega
      · have e : St.at sb args.length k = ⟨sb.argNum, true, false, true, false⟩ := if_neg hk
        have ha : Dir.arg ⟨flags, wid, prec, some k, verb⟩ args st.argNum = none := by
          simp only [Dir.arg]
          split
          · rfl
          · exact List.getElem?_eq_none (by omega)
        simp only [e, Bool.not_false, if_true]
        refine ⟨_, _, rfl, ?_, ?_, by simp⟩
        · simp [Piece.text, Dir.shown, ha]
        · simp [Dir.next, ha, hn]
  have head : ∀ z : Str, (∀ c, z.head? = some c → isFlagByte c = false) →
      ∀ c, (wid ++ z).head? = some c → isFlagByte c = false := by
    intro z hz c hc
    cases wid with
    | nil => exact hz c hc
    | cons a wid =>
      simp only [List.cons_append, List.head?_cons, Option.some.injEq] at hc hw0
      subst hc
      exact (digit_facts a (hw.1 a (by simp))).1 (by simpa using hw0)
  have head91 : ∀ z : Str, (wid = [] → z.head? ≠ some 91) → (wid ++ z).head? ≠ some 91 := by
    intro z hz e
    cases wid with
    | nil => exact hz rfl e
    | cons a wid =>
      simp only [List.cons_append, List.head?_cons, Option.some.injEq] at e
      exact (digit_facts a (hw.1 a (by simp))).2 e
  have fl : ∀ z : Str, (∀ c, z.head? = some c → isFlagByte c = false) → flagsLoop {} (flags ++ (wid ++ z)) =
      (⟨flags.contains 35, flags.contains 48, flags.contains 43, flags.contains 45, flags.contains 32, none, none⟩, wid ++ z) := by
    intro z hz
    rw [flags_written flags (wid ++ z) hf (head z hz)]
    simp
  refine Exists.imp (fun p h => ?_) (?_ : ∃ (p : Piece α) (st' : St), directive E args st
    (flags ++ (wid ++ (writtenPrec prec ++ (writtenIdx idx ++ verb :: x)))) = ([p], st', x) ∧
      p.text E = Dir.shown E ⟨flags, wid, prec, idx, verb⟩ args st.argNum ∧
      st'.argNum = Dir.next ⟨flags, wid, prec, idx, verb⟩ args st.argNum ∧ st'.reordered = (st.reordered || idx.isSome))
  · obtain ⟨st', h1, h2⟩ := h
    refine ⟨st', flags ++ (wid ++ (writtenPrec prec ++ (writtenIdx idx ++ [verb]))), rfl, ?_, h2⟩
    rw [← h1]
    simp only [List.append_assoc, List.singleton_append]
  have vd : ∀ c, (verb :: x).head? = some c → digitByte c = false ∧ c ≠ 42 := by rintro c hc; cases hc; exact ⟨v2, v4⟩
  have vf : ∀ c, (verb :: x).head? = some c → isFlagByte c = false := by rintro c hc; cases hc; exact v1
  have v91 : (verb :: x).head? ≠ some 91 := by simpa using v3
  have v46 : (verb :: x).head? ≠ some 46 := by simpa using v5
  cases idx with
  | none =>
    obtain ⟨p, st', h1, h2⟩ := key st0 (.inl ⟨rfl, rfl⟩) _ rfl
    refine ⟨p, st', ?_, h2⟩
    rw [← h1]
    cases prec with
    | none =>
      simp only [writtenPrec, writtenIdx, List.nil_append]
      exact directive_parts E args st _ _ _ _ _ _ _ _ _ _ _ _ _ (fl _ vf) (argNumber_other _ _ _ (head91 _ fun _ => v91))
        (width_read E args _ _ wid _ hw vd (.inl rfl)) (prec_none E args _ _ _ v46)
        (by rw [if_neg (by simp)]; exact argNumber_other _ _ _ v91)
    | some pr =>
      simp only [writtenPrec, writtenIdx, List.nil_append, List.singleton_append]
      exact directive_parts E args st _ _ _ _ _ _ _ _ _ _ _ _ _ (fl _ (by rintro c hc; cases hc; rfl))
        (argNumber_other _ _ _ (head91 _ fun _ => by simp))
        (width_read E args _ _ wid _ hw (by rintro c hc; cases hc; decide) (.inl rfl))
        (prec_read E args _ _ pr _ (hp pr rfl) (by rintro c hc; cases hc; exact ⟨v2, v4, fun _ => v3⟩) rfl)
        (by rw [if_neg (by simp)]; exact argNumber_other _ _ _ v91)
  | some k =>
    obtain ⟨hk, hkn⟩ := hi k rfl
    simp only [writtenIdx, List.append_assoc, List.cons_append, List.nil_append]
    cases prec with
    | none =>
      simp only [writtenPrec, List.nil_append]
      by_cases hwn : wid = []
      · obtain ⟨p, st', h1, h2⟩ := key _ (.inr (.inl ⟨k, rfl, rfl⟩)) _ rfl
        refine ⟨p, st', ?_, h2⟩
        rw [← h1]
        refine directive_parts E args st _ _ _ _ _ _ _ _ _ _ _ _ _ (fl _ (by rintro c hc; cases hc; rfl))
          (by rw [hwn]; exact argNumber_index _ _ _ _ hk hkn)
          (width_read E args _ _ wid _ hw vd (.inr hwn)) (prec_none E args _ _ _ v46)
          (by rw [if_pos (at_after _ _ _)])
      · obtain ⟨p, st', h1, h2⟩ := key _ (.inr (.inr ⟨k, rfl, rfl⟩)) _ rfl
        refine ⟨p, st', ?_, h2⟩
        rw [← h1]
        exact directive_parts E args st _ _ _ _ _ _ _ _ _ _ _ _ _ (fl _ (by rintro c hc; cases hc; rfl))
          (argNumber_other _ _ _ (head91 _ fun h => absurd h hwn))
          (width_read E args _ _ wid _ hw (by rintro c hc; cases hc; decide) (.inl rfl)) (prec_none E args _ _ _ (by simp))
          (by rw [if_neg (by simp)]; exact argNumber_index _ _ _ _ hk hkn)
    | some pr =>
      simp only [writtenPrec, List.nil_append, List.cons_append]
      obtain ⟨p, st', h1, h2⟩ := key _ (.inr (.inr ⟨k, rfl, rfl⟩)) _ rfl
      refine ⟨p, st', ?_, h2⟩
      rw [← h1]
      by_cases hpn : pr = []
      · subst hpn
        exact directive_parts E args st _ _ _ _ _ _ _ _ _ _ _ _ _ (fl _ (by rintro c hc; cases hc; rfl))
          (argNumber_other _ _ _ (head91 _ fun _ => by simp))
          (width_read E args _ _ wid _ hw (by rintro c hc; cases hc; decide) (.inl rfl))
          (prec_index E args _ _ k verb x hk hkn hv rfl)
          (by rw [if_pos (at_after _ _ _)])
      · exact directive_parts E args st _ _ _ _ _ _ _ _ _ _ _ _ _ (fl _ (by rintro c hc; cases hc; rfl))
          (argNumber_other _ _ _ (head91 _ fun _ => by simp))
          (width_read E args _ _ wid _ hw (by rintro c hc; cases hc; decide) (.inl rfl))
          (prec_read E args _ _ pr _ (hp pr rfl) (by rintro c hc; cases hc; exact ⟨by decide, by decide, fun h => absurd h hpn⟩) rfl)
          (by rw [if_neg (by simp)]; exact argNumber_index _ _ _ _ hk hkn)

/-- The whole message. -/
theorem written_run (E : Env α) (args : List α) (m : List Item) (hm : ∀ i ∈ m, i.Wf) (st : St) (f : Nat) (hf : (written m).length < f) :
    ∃ ps st', run E args f st (written m) = (ps, st') ∧ ps.flatMap (Piece.text E) = shown E args st.argNum m ∧
      st'.argNum = last args st.argNum m ∧ (st'.reordered = true ↔ st.reordered = true ∨ Indexed m) := by
  have next : ∀ {ps1 ps2 : List (Piece α)} {t1 t2 : Str}, ps1.flatMap (Piece.text E) = t1 → ps2.flatMap (Piece.text E) = t2 →
      (ps1 ++ ps2).flatMap (Piece.text E) = t1 ++ t2 := by
    intro ps1 ps2 t1 t2 h1 h2
    rw [List.flatMap_append, h1, h2]
  induction m generalizing st f with
  | nil =>
    refine ⟨[], st, ?_, rfl, rfl, by simp [Indexed]⟩
    cases f <;> rfl
  | cons i m ih =>
    have ih := fun st f => ih (fun j hj => hm j (List.mem_cons_of_mem _ hj)) st f
    have hi := hm i (by simp)
    have hw : written (i :: m) = i.written ++ written m := rfl
    rw [hw] at hf ⊢
    cases i with
    | text s =>
      have hi : 37 ∉ s := hi
      have lits : ∀ (s : Str), 37 ∉ s → ∀ f r, s.length ≤ f → run E args f st (s ++ r) =
          (s.map .lit ++ (run E args (f - s.length) st r).1, (run E args (f - s.length) st r).2) := by
        intro s
        induction s with
        | nil => intro _ f r _; simp
        | cons c s ih =>
          intro h f r hl
          cases f with
          | zero => simp at hl
          | succ f =>
            simp only [List.mem_cons, not_or] at h
            simp only [List.cons_append, run, if_neg (Ne.symm h.1)]
            rw [ih h.2 f r (by simpa using hl)]
            simp
      simp only [Item.written, List.length_append] at hf ⊢
      obtain ⟨ps, st', h1, h2, h3, h4⟩ := ih st (f - s.length) (by omega)
      rw [lits s hi f _ (by omega), h1]
      refine ⟨_, _, rfl, ?_, h3, ?_⟩
      · simp only [shown]
        refine next ?_ h2
        have : ∀ s : Str, (s.map (.lit : UInt8 → Piece α)).flatMap (Piece.text E) = s := by
          intro s
          induction s with
          | nil => rfl
          | cons c s ih => simp only [List.map_cons, List.flatMap_cons, ih, Piece.text, List.singleton_append]
        exact this s
      · rw [h4]
        simp [Indexed]
    | percent =>
      simp only [Item.written, List.cons_append, List.nil_append, List.length_cons] at hf ⊢
      cases f with
      | zero => omega
      | succ f =>
        have hd : directive E args st (37 :: written m) =
            ([.lit 37], { st with good := true, after := false }, written m) := by
          rw [directive_parts E args st { st with good := true, after := false } { st with good := true, after := false }
            { st with good := true, after := false } { st with good := true, after := false }
            (37 :: written m) (37 :: written m) (37 :: written m) (37 :: written m) (37 :: written m) (37 :: written m)
            {} {} {} (by simp [flagsLoop]) (argNumber_other _ _ _ (by simp))
            (by simp [widthPart, parsenum, Num.isDigit]) (prec_none E args _ _ _ (by simp))
            (by rw [if_neg (by simp)]; exact argNumber_other _ _ _ (by simp))]
          simp [verbPart, Utf8.decode]
        obtain ⟨ps, st', h1, h2, h3, h4⟩ := ih { st with good := true, after := false } f (by omega)
        simp only [run, if_true, hd, h1]
        refine ⟨_, _, rfl, ?_, h3, ?_⟩
        · simp only [shown]
          exact next (by simp [Piece.text]) h2
        · rw [h4]
          simp [Indexed]
    | dir d =>
      cases f with
      | zero => omega
      | succ f =>
        obtain ⟨p, st1, t, ht, hd, hp, hn, hr⟩ := dir_run E args d hi st (written m)
        simp only [Item.written, ht, List.cons_append, List.length_append, List.length_cons] at hf ⊢
        obtain ⟨ps, st', h1, h2, h3, h4⟩ := ih st1 f (by omega)
        simp only [run, if_true, hd, h1]
        refine ⟨_, _, rfl, ?_, ?_, ?_⟩
        · simp only [shown]
          rw [← hn]
          exact next (by simp [hp]) h2
        · rw [h3, hn]; rfl
        · rw [h4, hr]
          simp only [Bool.or_eq_true, Indexed, List.mem_cons, Item.dir.injEq]
          constructor
          · rintro ((h | h) | ⟨e, he, hx⟩)
            · exact .inl h
            · exact .inr ⟨d, .inl rfl, by simpa [Option.isSome_iff_ne_none] using h⟩
            · exact .inr ⟨e, .inr he, hx⟩
          · rintro (h | ⟨e, rfl | he, hx⟩)
            · exact .inl (.inl h)
            · exact .inl (.inr (by simpa [Option.isSome_iff_ne_none] using hx))
            · exact .inr ⟨e, he, hx⟩

/-- `Sprintf` shows what the message says, then reports arguments behind the last one shown, unless some
directive has an index. -/
theorem C85_sprintf (E : Env α) (m : List Item) (hm : ∀ i ∈ m, i.Wf) (args : List α) :
    (Indexed m ∨ args.length ≤ last args 0 m → sprintf E (written m) args = shown E args 0 m) ∧
    (¬ Indexed m → last args 0 m < args.length →
      sprintf E (written m) args = shown E args 0 m ++ E.extra (args.drop (last args 0 m))) := by
  obtain ⟨ps, st', h1, h2, h3, h4⟩ := written_run E args m hm st0 ((written m).length + 1) (by omega)
  have h3 : st'.argNum = last args 0 m := h3
  have h4 : st'.reordered = true ↔ Indexed m := by simpa [st0] using h4
  have h2 : ps.flatMap (Piece.text E) = shown E args 0 m := h2
  simp only [sprintf, pieces, h1, h2]
  constructor
  · rintro (h | h)
    · simp [h4.mpr h]
    · rw [← h3] at h
      rw [if_neg (by simp; omega), List.append_nil]
  · intro h h'
    have hr : st'.reordered = false := by
      cases e : st'.reordered with
      | false => rfl
      | true => exact absurd (h4.mp e) h
    rw [if_pos (by simp [hr, h3, h']), h3]

theorem arg_more (d : Dir) (args more : List α) (c : Nat) (h : (d.arg args c).isSome) : d.arg (args ++ more) c = d.arg args c := by
  have get : ∀ i : Nat, (args[i]?).isSome → (args ++ more)[i]? = args[i]? := by
    intro i hi
    rw [List.getElem?_append_left (by simpa using hi)]
  unfold Dir.arg at h ⊢
  revert h
  cases d.idx with
  | none => intro h; exact get c h
  | some k =>
    intro h
    simp only [] at h ⊢
    split
    · rfl
    · rename_i hk
      rw [if_neg hk] at h
      exact get _ h

theorem shown_more (E : Env α) (m : List Item) (args more : List α) (c : Nat) (h : Fits args c m) :
    shown E (args ++ more) c m = shown E args c m := by
  induction m generalizing c with
  | nil => rfl
  | cons i m ih =>
    cases i with
    | text s => simp only [shown]; rw [ih c h]
    | percent => simp only [shown]; rw [ih c h]
    | dir d =>
      obtain ⟨h1, h2⟩ := h
      have e := arg_more d args more c h1
      have en : d.next (args ++ more) c = d.next args c := by simp only [Dir.next, e]
      simp only [shown, Dir.shown, e, en]
      rw [ih _ h2]

theorem shown_append (E : Env α) (args : List α) (m m' : List Item) (c : Nat) :
    shown E args c (m ++ m') = shown E args c m ++ shown E args (last args c m) m' := by
  induction m generalizing c with
  | nil => rfl
  | cons i m ih => cases i <;> simp [shown, last, ih]

/-- `Format` shows what the message says for the arguments and an empty one behind them, and nothing else. -/
theorem C85_format (E : Env α) (hempty : E.render {} b!"s" E.empty = []) (m : List Item) (hm : ∀ i ∈ m, i.Wf)
    (args : List α) (hargs : args ≠ []) (hlen : args.length < 1000000) :
    format E (written m) args = shown E (args ++ [E.empty]) 0 m := by
  obtain ⟨n1, n2, n3, _⟩ := natDigits_spec (args.length + 1)
  let tail : Dir := { idx := some (Num.natDigits (args.length + 1)), verb := 115 }
  have hw : written m ++ b!"%[" ++ Num.natDigits (args.length + 1) ++ b!"]s" = written (m ++ [.dir tail]) := by
    simp [written, Item.written, tail, Dir.written, writtenPrec, writtenIdx]
  have htail : tail.Wf := ⟨by simp [tail], by simp [tail, Number, decVal], by simp [tail], by
    intro k hk
    simp only [tail, Option.some.injEq] at hk
    subst hk
    exact ⟨⟨List.all_eq_true.mp n2, by rw [n3]; omega⟩, n1⟩, rfl⟩
  have hl : args.length ≠ 0 := fun h => hargs (List.eq_nil_of_length_eq_zero h)
  rw [format, if_neg hl, hw, (C85_sprintf E _ (by
    intro i hi
    rcases List.mem_append.mp hi with hi | hi
    · exact hm i hi
    · rw [List.mem_singleton.mp hi]; exact htail) _).1 (.inl ⟨tail, by simp, by simp [tail]⟩), shown_append]
  have : ∀ c, tail.shown E (args ++ [E.empty]) c = [] := by
    intro c
    have ha : tail.arg (args ++ [E.empty]) c = some E.empty := by
      simp [Dir.arg, tail, n3]
    simp only [Dir.shown, ha]
    exact hempty
  simp [shown, this]

/-- If the message means only arguments that are there, it shows exactly these. -/
theorem C85_fits (E : Env α) (hempty : E.render {} b!"s" E.empty = []) (m : List Item) (hm : ∀ i ∈ m, i.Wf)
    (args : List α) (hargs : args ≠ []) (hlen : args.length < 1000000) (hfit : Fits args 0 m) :
    format E (written m) args = shown E args 0 m := by
  rw [C85_format E hempty m hm args hargs hlen, shown_more E m args _ 0 hfit]

/-- A message all of whose directives have an index: each stands for its argument, in whatever order and
however often they come. -/
theorem C85_any_order (E : Env α) (hempty : E.render {} b!"s" E.empty = []) (m : List Item) (hm : ∀ i ∈ m, i.Wf)
    (args : List α) (hlen : args.length < 1000000)
    (hidx : ∀ d, .dir d ∈ m → ∃ k, d.idx = some k ∧ 1 ≤ decVal k ∧ decVal k ≤ args.length) (hargs : args ≠ []) :
    format E (written m) args = m.flatMap fun i => match i with
      | .text s => s
      | .percent => b!"%"
      | .dir d => ((d.idx.bind fun k => args[decVal k - 1]?).elim [] (E.render d.opts [d.verb])) := by
  have harg : ∀ d, .dir d ∈ m → ∀ c, ∃ a, d.arg args c = some a ∧ (d.idx.bind fun k => args[decVal k - 1]?) = some a := by
    intro d hd c
    obtain ⟨k, hk, h1, h2⟩ := hidx d hd
    have ha : args[decVal k - 1]? = some args[decVal k - 1] := List.getElem?_eq_getElem (by omega)
    exact ⟨args[decVal k - 1], by simp only [Dir.arg, hk]; rw [if_neg (by omega), ha], by simp [hk]⟩
  have hfit : ∀ c, Fits args c m := by
    clear hm hidx
    induction m with
    | nil => intro c; trivial
    | cons i m ih =>
      intro c
      have ih := ih (fun d hd => harg d (List.mem_cons_of_mem _ hd))
      cases i with
      | text s => exact ih c
      | percent => exact ih c
      | dir d =>
        obtain ⟨a, ha, _⟩ := harg d (by simp) c
        exact ⟨by rw [ha]; rfl, ih _⟩
  rw [C85_fits E hempty m hm args hargs hlen (hfit 0)]
  have : ∀ c, shown E args c m = m.flatMap fun i => match i with
      | .text s => s
      | .percent => b!"%"
      | .dir d => ((d.idx.bind fun k => args[decVal k - 1]?).elim [] (E.render d.opts [d.verb])) := by
    clear hm hidx hfit
    induction m with
    | nil => intro c; rfl
    | cons i m ih =>
      intro c
      have ih := ih (fun d hd => harg d (List.mem_cons_of_mem _ hd))
      cases i with
      | text s => simp only [shown, List.flatMap_cons, ih]
      | percent => simp only [shown, List.flatMap_cons, ih]
      | dir d =>
        obtain ⟨a, ha, hb⟩ := harg d (by simp) c
        simp only [shown, List.flatMap_cons, ih, Dir.shown, ha, hb]
        rfl
  exact this 0

/-! ## Concrete cases -/

/-- `%[2]s of %s: %-5.2[1]s%%` -/
def exMessage : List Item :=
  [.dir { idx := some b!"2", verb := 115 }, .text b!" of ", .dir { verb := 115 }, .text b!": ",
   .dir { flags := b!"-", wid := b!"5", prec := some b!"2", idx := some b!"1", verb := 115 }, .percent]

theorem exMessage_wf : ∀ i ∈ exMessage, i.Wf := by
  have num : ∀ ds : Str, (ds.all digitByte && decide (decVal ds ≤ 1000000)) = true → Number ds := by
    intro ds h
    simp only [Bool.and_eq_true, decide_eq_true_eq] at h
    exact ⟨List.all_eq_true.mp h.1, h.2⟩
  intro i hi
  simp only [exMessage, List.mem_cons, List.not_mem_nil, or_false] at hi
  rcases hi with rfl | rfl | rfl | rfl | rfl | rfl
  · exact ⟨by simp, ⟨num _ rfl, by simp⟩, by simp, by rintro k ⟨⟩; exact ⟨num _ rfl, by simp⟩, rfl⟩
  · show 37 ∉ b!" of "; decide
  · exact ⟨by simp, ⟨num _ rfl, by simp⟩, by simp, by simp, rfl⟩
  · show 37 ∉ b!": "; decide
  · exact ⟨by simp [isFlagByte], ⟨num _ rfl, by simp⟩, by rintro p ⟨⟩; exact num _ rfl, by rintro k ⟨⟩; exact ⟨num _ rfl, by simp⟩, rfl⟩
  · trivial

example : written exMessage = b!"%[2]s of %s: %-5.2[1]s%%" := by decide
/-- Three arguments: the second, the third, the first. -/
example : Fits [b!"a", b!"b", b!"c"] 0 exMessage ∧ shown exEnv [b!"a", b!"b", b!"c"] 0 exMessage = b!"b of c: a%" ∧
    format exEnv (written exMessage) [b!"a", b!"b", b!"c"] = b!"b of c: a%" := by
  refine ⟨⟨by decide, by decide, by decide, trivial⟩, by decide, by decide⟩
/-- With two, the one without an index shows the empty string `Format` adds. -/
example : shown exEnv [b!"a", b!"b", b!""] 0 exMessage = b!"b of : a%" ∧ ¬ Fits [b!"a", b!"b"] 0 exMessage ∧
    format exEnv (written exMessage) [b!"a", b!"b"] = b!"b of : a%" := by
  refine ⟨by decide, ?_, by decide⟩
  rintro ⟨_, h, _⟩
  revert h
  decide
/-- A message and its translation with the arguments the other way round. -/
example : format exEnv b!"%s of %s" [b!"x", b!"y"] = b!"x of y" ∧ format exEnv b!"%[2]s: %[1]s" [b!"x", b!"y"] = b!"y: x" := by
  decide

end Verif.Fmt
