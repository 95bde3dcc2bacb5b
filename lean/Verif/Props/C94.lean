import Verif.Spec.Star
import Verif.Props.C85
/-!
# C94: widths and precisions that are arguments
-/
namespace Verif.Fmt
open Verif
variable {α : Type}

/-- The state of the loop while a directive is shown. -/
structure Sees (st : St) (l : Look) : Prop where
  next : st.argNum = l.next
  good : st.good = l.good

theorem sees_at (st : St) (l : Look) (h : Sees st l) (n : Nat) (k : Str) : Sees (st.at n k) (l.go n (some k)) := by
  unfold St.at
  simp only [Look.go]
  by_cases hk : decVal k ≠ 0 ∧ decVal k ≤ n
  · rw [if_pos (by omega), if_pos hk]
    exact ⟨rfl, h.good⟩
  · rw [if_neg (by omega), if_neg hk]
    exact ⟨h.next, rfl⟩

theorem at_reordered (st : St) (n : Nat) (k : Str) : (st.at n k).reordered = true := by
  unfold St.at; split <;> rfl

/-- An index that may be there. -/
theorem index_step (n : Nat) (st : St) (l : Look) (h : Sees st l) (i : Option Str) (hi : IndexWf i) (x : Str)
    (hx : x.head? ≠ some 91) :
    ∃ st', argNumber n st (writtenIdx i ++ x) = (st', x) ∧ Sees st' (l.go n i) ∧
      st'.reordered = (st.reordered || i.isSome) := by
  cases i with
  | none => exact ⟨_, argNumber_other n st x hx, ⟨h.next, h.good⟩, by simp⟩
  | some k =>
    obtain ⟨hk, hne⟩ := hi k rfl
    refine ⟨st.at n k, ?_, sees_at st l h n k, by simp [at_reordered]⟩
    have := argNumber_index n st k x hk hne
    simpa [writtenIdx] using this

/-- An argument that is taken as a number. -/
theorem number_step (E : Env α) (args : List α) (st : St) (l : Look) (h : Sees st l) :
    ∃ st', intFromArg E args st = (args[l.next]?.bind E.asInt, st') ∧ Sees st' (l.used args.length) ∧
      st'.reordered = st.reordered := by
  unfold intFromArg
  rw [h.next]
  cases ha : args[l.next]? with
  | none =>
    have : ¬ l.next < args.length := by
      intro hl; rw [List.getElem?_eq_getElem hl] at ha; cases ha
    exact ⟨_, rfl, ⟨by simp [Look.used, this], h.good⟩, rfl⟩
  | some a =>
    have hl : l.next < args.length := by
      obtain ⟨hl, -⟩ := List.getElem?_eq_some_iff.mp ha
      exact hl
    exact ⟨_, rfl, ⟨by simp [Look.used, hl], h.good⟩, rfl⟩

/-- What a width does to the options. -/
def withWidth (o : Opts) (w : Option Int) : Opts :=
  { o with zero := o.zero && !(w.any (· < 0)), minus := o.minus || w.any (· < 0), wid := w.map Int.natAbs }

/-- The width with what may stand before it. -/
theorem width_step (E : Env α) (args : List α) (o : Opts) (st : St) (l : Look) (h : Sees st l) (w : Size) (hw : w.Wf) (z : Str)
    (hz : ∀ c, z.head? = some c → digitByte c = false ∧ c ≠ 42) (h91 : ∀ ds, w = .digits ds → (ds ++ z).head? ≠ some 91) :
    ∃ sa s2 ps sb, argNumber args.length st (w.written ++ z) = (sa, s2) ∧
      widthPart E args o sa s2 = (ps, withWidth o (w.number E args l), sb, z) ∧
      Sees sb (w.past args.length l) ∧ sb.after = false ∧
      (sb.reordered = true ↔ st.reordered = true ∨ w.Indexed) ∧
      ps.flatMap (Piece.text E) = badWidth w (w.number E args l) := by
  cases w with
  | digits ds =>
    refine ⟨{ st with after := false }, ds ++ z, [], { st with after := false }, argNumber_other _ _ _ (h91 ds rfl),
      ?_, ⟨h.next, h.good⟩, rfl, by simp [Size.Indexed], rfl⟩
    · rw [width_read E args o _ ds z hw hz (.inl rfl)]
      by_cases hd : ds = []
      · simp [hd, withWidth, Size.number]
      · have : ¬ ((decVal ds : Int) < 0) := by omega
        simp [hd, withWidth, Size.number, this]
  | star i =>
    simp only [Size.written, List.append_assoc]
    obtain ⟨sa, ha, hs, hr⟩ := index_step args.length st l h i hw (b!"*" ++ z) (by simp)
    obtain ⟨sb, hb, hs', hr'⟩ := number_step E args sa _ hs
    have hre : (sb.reordered = true ↔ st.reordered = true ∨ (Size.star i).Indexed) := by
      rw [hr', hr]
      simp [Size.Indexed, Option.isSome_iff_ne_none]
    cases hv : args[(l.go args.length i).next]?.bind E.asInt with
    | none =>
      refine ⟨sa, _, [.badWidth], { sb with after := false }, ha, ?_, ⟨hs'.next, hs'.good⟩, rfl, hre, ?_⟩
      · simp only [List.cons_append, List.nil_append, widthPart, hb, hv]
        simp [withWidth, Size.number, hv]
      · simp [Size.number, hv, Piece.text, badWidth]
    | some v =>
      refine ⟨sa, _, [], { sb with after := false }, ha, ?_, ⟨hs'.next, hs'.good⟩, rfl, hre, ?_⟩
      · simp only [List.cons_append, List.nil_append, widthPart, hb, hv]
        by_cases hneg : v < 0
        · rw [if_pos hneg]; simp [withWidth, Size.number, hv, hneg]
        · rw [if_neg hneg]; simp [withWidth, Size.number, hv, hneg]
      · simp [Size.number, hv, badWidth]

/-- The precision, if it does not end just before an index. -/
theorem prec_step (E : Env α) (args : List α) (d : Star) (c : Nat) (o : Opts) (st : St) (ho : o.prec = none)
    (h : Sees st (d.past1 args.length c)) (ha : st.after = false)
    (hw : ∀ p, d.prec = some p → p.Wf) (z : Str)
    (hz : ∀ c, z.head? = some c → digitByte c = false ∧ c ≠ 42 ∧ c ≠ 46)
    (h91 : d.prec = some (.digits []) → z.head? ≠ some 91) :
    ∃ ps sb, precPart E args o st (writtenSize d.prec ++ z) = (ps, { o with prec := d.precision E args c }, sb, z) ∧
      Sees sb (d.past2 args.length c) ∧ sb.after = false ∧
      (sb.reordered = true ↔ st.reordered = true ∨ ∃ p, d.prec = some p ∧ p.Indexed) ∧
      ps.flatMap (Piece.text E) = badPrec d.prec (d.precision E args c) := by
  cases hp : d.prec with
  | none =>
    refine ⟨[], st, ?_, ?_, ha, by simp, rfl⟩
    · rw [writtenSize, List.nil_append, prec_none E args o st z (fun e => (hz _ e).2.2 rfl)]
      simp only [Star.precision, hp, ← ho]
    · simpa only [Star.past2, hp] using h
  | some p =>
    cases p with
    | digits ds =>
      refine ⟨[], { st with after := false }, ?_, ?_, rfl, by simp [Size.Indexed], rfl⟩
      · simp only [writtenSize, Size.written, List.cons_append, List.nil_append]
        rw [prec_read E args o st ds z (hw _ hp) (fun c hc => ⟨(hz c hc).1, (hz c hc).2.1, fun hd e => by
          subst e; exact h91 (by rw [hp, hd]) hc⟩) ha]
        simp [Star.precision, hp]
      · simp only [Star.past2, hp, Size.past]
        exact ⟨h.next, h.good⟩
    | star i =>
      have hi : IndexWf i := hw _ hp
      obtain ⟨sa, h1, hs, hr⟩ := index_step args.length st _ h i hi (42 :: z) (by simp)
      obtain ⟨sb, h2, hs', hr'⟩ := number_step E args sa _ hs
      have hpast : d.past2 args.length c = Look.used args.length (Look.go args.length (d.past1 args.length c) i) := by
        simp only [Star.past2, hp, Size.past]
      have hstr : writtenSize (some (.star i)) ++ z = 46 :: (writtenIdx i ++ 42 :: z) := by
        simp [writtenSize, Size.written]
      have hre : (sb.reordered = true ↔ st.reordered = true ∨ ∃ p, some (Size.star i) = some p ∧ p.Indexed) := by
        rw [hr', hr]
        simp [Size.Indexed, Option.isSome_iff_ne_none]
      have hgo : precPart E args o st (46 :: (writtenIdx i ++ 42 :: z)) =
          match args[(Look.go args.length (d.past1 args.length c) i).next]?.bind E.asInt with
          | some (.ofNat n) => ([], { o with prec := some n }, { sb with after := false }, z)
          | _ => ([.badPrec], { o with prec := none }, { sb with after := false }, z) := by
        simp only [precPart, ha, Bool.false_eq_true, if_false, h1, h2]
        rfl
      rw [hstr, hgo]
      have hprec : d.precision E args c = (match args[(Look.go args.length (d.past1 args.length c) i).next]?.bind E.asInt with
          | some (.ofNat n) => some n
          | _ => none) := by
        simp only [Star.precision, hp, Size.number]
        rfl
      rw [hprec, hpast]
      generalize args[(Look.go args.length (d.past1 args.length c) i).next]?.bind E.asInt = v
      rcases v with _ | (v | v)
      · exact ⟨_, _, rfl, ⟨hs'.next, hs'.good⟩, rfl, hre, by simp [Piece.text, badPrec]⟩
      · exact ⟨_, _, rfl, ⟨hs'.next, hs'.good⟩, rfl, hre, rfl⟩
      · exact ⟨_, _, rfl, ⟨hs'.next, hs'.good⟩, rfl, hre, by simp [Piece.text, badPrec]⟩

theorem parts_directive (E : Env α) (args : List α) (st sa sb sc sd : St) (s s1 s2 s3 s4 s5 : Str) (o0 o1 o2 : Opts)
    (p1 p2 : List (Piece α))
    (hf : flagsLoop {} s = (o0, s1)) (ha : argNumber args.length { st with good := true } s1 = (sa, s2))
    (hw : widthPart E args o0 sa s2 = (p1, o1, sb, s3)) (hp : precPart E args o1 sb s3 = (p2, o2, sc, s4))
    (hl : (if sc.after then (sc, s4) else argNumber args.length sc s4) = (sd, s5)) :
    directive E args st s = (p1 ++ p2 ++ (verbPart args o2 sd s5).1, (verbPart args o2 sd s5).2) := by
  simp only [directive, hf, ha, hw, hp, hl]

/-- The verb. -/
theorem verb_step (E : Env α) (args : List α) (d : Star) (c : Nat) (hv : letterByte d.verb = true) (st : St)
    (h : Sees st (d.look args.length c)) (x : Str) :
    ∃ p st', verbPart args (d.opts E args c) st (d.verb :: x) = ([p], st', x) ∧
      p.text E = (if (d.look args.length c).good then
        match args[(d.look args.length c).next]? with
        | some a => E.render (d.opts E args c) [d.verb] a
        | none => b!"%!" ++ [d.verb] ++ b!"(MISSING)"
      else b!"%!" ++ [d.verb] ++ b!"(BADINDEX)") ∧
      st'.argNum = d.next args.length c ∧ st'.reordered = st.reordered := by
  rw [verb_read args _ st d.verb hv x, h.good, h.next, Star.next]
  generalize d.look args.length c = l at h ⊢
  cases hg : l.good with
  | false => exact ⟨_, _, rfl, rfl, by simpa using h.next, rfl⟩
  | true =>
    simp only [Bool.not_true, Bool.false_eq_true, if_false, if_true]
    cases ha : args[l.next]? with
    | none =>
      have : ¬ l.next < args.length := by
        intro hl; rw [List.getElem?_eq_getElem hl] at ha; cases ha
      exact ⟨_, _, rfl, rfl, by simp [Look.used, this], rfl⟩
    | some a =>
      obtain ⟨hl, -⟩ := List.getElem?_eq_some_iff.mp ha
      exact ⟨_, _, rfl, rfl, by simp [Look.used, hl], rfl⟩

theorem size_head (w : Size) (hw : w.Wf) (h0 : ∀ ds, w = .digits ds → ds.head? ≠ some 48) (z : Str)
    (hz : ∀ c, z.head? = some c → isFlagByte c = false) (c : UInt8) (hc : (w.written ++ z).head? = some c) :
    isFlagByte c = false := by
  cases w with
  | digits ds =>
    cases ds with
    | nil => exact hz c hc
    | cons a ds =>
      simp only [Size.written, List.cons_append, List.head?_cons, Option.some.injEq] at hc
      subst hc
      exact (digit_facts a (hw.1 a (by simp))).1 (by simpa using h0 _ rfl)
  | star i =>
    cases i with
    | none => simp [Size.written, writtenIdx] at hc; subst hc; rfl
    | some k => simp [Size.written, writtenIdx] at hc; subst hc; rfl

/-- One directive. -/
theorem star_run (E : Env α) (args : List α) (d : Star) (hd : d.Wf) (st : St) (x : Str) :
    ∃ ps st' t, d.written = 37 :: t ∧ directive E args st (t ++ x) = (ps, st', x) ∧
      ps.flatMap (Piece.text E) = d.shown E args st.argNum ∧ st'.argNum = d.next args.length st.argNum ∧
      (st'.reordered = true ↔ st.reordered = true ∨ d.Indexed) := by
  obtain ⟨v1, v2, v3, v4, v5, v6, v7⟩ := letter_facts d.verb hd.verb
  let c := st.argNum
  have hs0 : Sees { st with good := true } ⟨c, true⟩ := ⟨rfl, rfl⟩
  let o0 : Opts := ⟨d.flags.contains 35, d.flags.contains 48, d.flags.contains 43, d.flags.contains 45, d.flags.contains 32, none, none⟩
  have hopts : { withWidth o0 (d.width E args c) with prec := d.precision E args c } = d.opts E args c := rfl
  suffices h : ∃ p1 p2 sd, directive E args st (d.flags ++ (d.wid.written ++ (writtenSize d.prec ++ (writtenIdx d.idx ++ d.verb :: x)))) =
        (p1 ++ p2 ++ (verbPart args (d.opts E args c) sd (d.verb :: x)).1, (verbPart args (d.opts E args c) sd (d.verb :: x)).2) ∧
      Sees sd (d.look args.length c) ∧ (sd.reordered = true ↔ st.reordered = true ∨ d.Indexed) ∧
      (p1 ++ p2).flatMap (Piece.text E) = d.complaint E args c by
    obtain ⟨p1, p2, sd, h1, h2, h3, h4⟩ := h
    obtain ⟨p, st', g1, g2, g3, g4⟩ := verb_step E args d c hd.verb sd h2 x
    rw [g1] at h1
    refine ⟨p1 ++ p2 ++ [p], st', d.flags ++ (d.wid.written ++ (writtenSize d.prec ++ (writtenIdx d.idx ++ [d.verb]))), rfl, ?_, ?_, g3, by rw [g4]; exact h3⟩
    · rw [← h1]; simp only [List.append_assoc, List.singleton_append]
    · rw [List.flatMap_append, h4, Star.shown]
      simp only [List.flatMap_cons, List.flatMap_nil, List.append_nil, g2]
      rfl
  have iz : ∀ q, (writtenIdx d.idx ++ d.verb :: x).head? = some q →
      isFlagByte q = false ∧ digitByte q = false ∧ q ≠ 42 ∧ q ≠ 46 ∧ (d.idx = none → q ≠ 91) := by
    intro q hq
    cases hi : d.idx with
    | none => rw [hi] at hq; cases hq; exact ⟨v1, v2, v4, v5, fun _ => v3⟩
    | some k => rw [hi] at hq; cases hq; exact ⟨rfl, rfl, by decide, by decide, fun h => by cases h⟩
  have pz : ∀ q, (writtenSize d.prec ++ (writtenIdx d.idx ++ d.verb :: x)).head? = some q →
      isFlagByte q = false ∧ digitByte q = false ∧ q ≠ 42 ∧ (d.prec ≠ none ∨ d.idx = none → q ≠ 91) := by
    intro q hq
    cases hp : d.prec with
    | none =>
      rw [hp] at hq
      obtain ⟨a, b, e, _, g⟩ := iz q hq
      exact ⟨a, b, e, fun h => g (h.resolve_left (by simp))⟩
    | some p => rw [hp] at hq; cases hq; exact ⟨rfl, rfl, by decide, fun _ => by decide⟩
  have fl : flagsLoop {} (d.flags ++ (d.wid.written ++ (writtenSize d.prec ++ (writtenIdx d.idx ++ d.verb :: x)))) =
      (o0, d.wid.written ++ (writtenSize d.prec ++ (writtenIdx d.idx ++ d.verb :: x))) := by
    rw [flags_written d.flags _ hd.flags (size_head d.wid hd.wid hd.noZero _ (fun q hq => (pz q hq).1))]
    simp [o0]
  by_cases early : d.wid = .digits [] ∧ d.prec = none ∧ d.idx ≠ none
  · -- the index comes first
    obtain ⟨e1, e2, e3⟩ := early
    obtain ⟨k, hk⟩ := Option.ne_none_iff_exists'.mp e3
    obtain ⟨hkn, hkne⟩ := hd.idx k hk
    have hw : d.width E args c = none := by simp [Star.width, e1, Size.number]
    have hp : d.precision E args c = none := by simp [Star.precision, e2]
    have vd : ∀ q, (d.verb :: x).head? = some q → digitByte q = false ∧ q ≠ 42 := by rintro q hq; cases hq; exact ⟨v2, v4⟩
    refine ⟨[], [], St.at { st with good := true } args.length k, ?_, ?_, ?_, ?_⟩
    · have := parts_directive E args st _ _ _ _ _ _ _ _ _ _ _ _ _ _ _ fl
        (by rw [e1, e2, hk]
            simp only [Size.written, writtenSize, writtenIdx, List.nil_append, List.append_assoc, List.singleton_append]
            exact argNumber_index args.length _ k (d.verb :: x) hkn hkne)
        (width_read E args o0 _ [] (d.verb :: x) ⟨by simp, by simp [decVal]⟩ vd (.inr rfl))
        (prec_none E args _ _ _ (by simpa using v5)) (by rw [if_pos (at_after _ _ _)])
      rw [this]
      have ho : d.opts E args c = { o0 with wid := if ([] : Str) = [] then none else some (decVal []) } := by
        rw [← hopts, hw, hp]; simp [withWidth, o0]
      rw [ho]
    · have := sees_at _ _ hs0 args.length k
      simpa only [Star.look, Star.past2, e2, Star.past1, e1, Size.past, hk] using this
    · simp [at_reordered, Star.Indexed, hk]
    · simp [Star.complaint, e1, e2, badWidth, badPrec]
  · obtain ⟨sa, s2, p1, sb, w1, w2, w3, w4, w5, w6⟩ := width_step E args o0 _ _ hs0 d.wid hd.wid _
      (fun q hq => ⟨(pz q hq).2.1, (pz q hq).2.2.1⟩) (by
        intro ds hds
        cases ds with
        | cons a ds =>
          intro e
          simp only [List.cons_append, List.head?_cons, Option.some.injEq] at e
          have := hd.wid
          rw [hds] at this
          exact (digit_facts a (this.1 a (by simp))).2 e
        | nil =>
          intro e
          refine (pz 91 e).2.2.2 ?_ rfl
          rcases Classical.em (d.prec = none) with h | h
          · right
            exact Classical.not_not.mp fun hne => early ⟨hds, h, hne⟩
          · exact .inl h)
    by_cases mid : d.prec = some (.digits []) ∧ d.idx ≠ none
    · -- the index is read as if it were that of a precision
      obtain ⟨e2, e3⟩ := mid
      obtain ⟨k, hk⟩ := Option.ne_none_iff_exists'.mp e3
      obtain ⟨hkn, hkne⟩ := hd.idx k hk
      have hp : d.precision E args c = some 0 := by simp [Star.precision, e2, decVal]
      refine ⟨p1, [], St.at sb args.length k, ?_, ?_, ?_, ?_⟩
      · rw [e2, hk] at w2 fl ⊢
        rw [e2, hk] at w1
        have hstr : writtenSize (some (.digits [])) ++ (writtenIdx (some k) ++ d.verb :: x) = 46 :: 91 :: (k ++ 93 :: d.verb :: x) := by
          simp [writtenSize, Size.written, writtenIdx]
        rw [hstr] at w2 w1 fl ⊢
        have := parts_directive E args st _ _ _ _ _ _ _ _ _ _ _ _ _ _ _ fl w1 w2
          (prec_index E args _ sb k d.verb x hkn hkne hd.verb w4) (by rw [if_pos (at_after _ _ _)])
        rw [this]
        have ho : d.opts E args c = { withWidth o0 (d.wid.number E args ⟨c, true⟩) with prec := some 0 } := by
          rw [← hopts, hp]; rfl
        rw [ho]
      · have := sees_at _ _ w3 args.length k
        simpa only [Star.look, Star.past2, e2, Star.past1, Size.past, hk] using this
      · simp [at_reordered, Star.Indexed, hk]
      · rw [List.append_nil, w6]
        simp only [Star.complaint, e2, Star.width, badPrec, List.append_nil]
    · obtain ⟨p2, sc, q1, q2, q3, q4, q5⟩ := prec_step E args d c (withWidth o0 (d.wid.number E args ⟨c, true⟩)) sb rfl w3 w4
        hd.prec _ (fun q hq => ⟨(iz q hq).2.1, (iz q hq).2.2.1, (iz q hq).2.2.2.1⟩) (by
          intro e hh
          exact (iz 91 hh).2.2.2.2 (Classical.not_not.mp fun hne => mid ⟨e, hne⟩) rfl)
      obtain ⟨sd, i1, i2, i3⟩ := index_step args.length sc _ q2 d.idx hd.idx (d.verb :: x) (by simpa using v3)
      refine ⟨p1, p2, sd, ?_, i2, ?_, ?_⟩
      · exact parts_directive E args st _ _ _ _ _ _ _ _ _ _ _ _ _ _ _ fl w1 w2 q1 (by rw [q3]; exact i1)
      · rw [i3, Bool.or_eq_true, q4, w5, Star.Indexed, Option.isSome_iff_ne_none]
        constructor
        · rintro (((h | h) | h) | h)
          · exact .inl h
          · exact .inr (.inl h)
          · exact .inr (.inr (.inl h))
          · exact .inr (.inr (.inr h))
        · rintro (h | h | h | h)
          · exact .inl (.inl (.inl h))
          · exact .inl (.inl (.inr h))
          · exact .inl (.inr h)
          · exact .inr h
      · rw [List.flatMap_append, w6, q5]
        rfl

theorem texts_append {ps1 ps2 : List (Piece α)} {E : Env α} {t1 t2 : Str} (h1 : ps1.flatMap (Piece.text E) = t1)
    (h2 : ps2.flatMap (Piece.text E) = t2) : (ps1 ++ ps2).flatMap (Piece.text E) = t1 ++ t2 := by
  rw [List.flatMap_append, h1, h2]

/-- The whole message. -/
theorem parts_run (E : Env α) (args : List α) (m : List Part) (hm : ∀ i ∈ m, i.Wf) (st : St) (f : Nat)
    (hf : (writtenParts m).length < f) :
    ∃ ps st', run E args f st (writtenParts m) = (ps, st') ∧ ps.flatMap (Piece.text E) = shownParts E args st.argNum m ∧
      st'.argNum = lastPart args.length st.argNum m ∧ (st'.reordered = true ↔ st.reordered = true ∨ IndexedParts m) := by
  induction m generalizing st f with
  | nil =>
    refine ⟨[], st, ?_, rfl, rfl, by simp [IndexedParts]⟩
    cases f <;> rfl
  | cons i m ih =>
    have ih := fun st f => ih (fun j hj => hm j (List.mem_cons_of_mem _ hj)) st f
    have hi := hm i (by simp)
    have hw : writtenParts (i :: m) = i.written ++ writtenParts m := rfl
    rw [hw] at hf ⊢
    -- a text or `%%` is a message of C85
    have plain : ∀ (j : Item), j.Wf → (∀ d, j ≠ .dir d) → ∀ r f, j.written.length < f →
        ∃ (ps : List (Piece α)) (f' : Nat) (st' : St), run E args f st (j.written ++ r) =
          (ps ++ (run E args f' st' r).1, (run E args f' st' r).2) ∧ ps.flatMap (Piece.text E) = shown E args 0 [j] ∧
          f ≤ f' + j.written.length ∧ st'.argNum = st.argNum ∧ st'.reordered = st.reordered := by
      intro j hj hnd r f hf
      cases j with
      | dir d => exact absurd rfl (hnd d)
      | text s =>
        have lits : ∀ (s : Str), 37 ∉ s → ∀ f, s.length ≤ f → run E args f st (s ++ r) =
            (s.map .lit ++ (run E args (f - s.length) st r).1, (run E args (f - s.length) st r).2) := by
          intro s
          induction s with
          | nil => intro _ f _; simp
          | cons c s ih =>
            intro h f hl
            cases f with
            | zero => simp at hl
            | succ f =>
              simp only [List.mem_cons, not_or] at h
              simp only [List.cons_append, run, if_neg (Ne.symm h.1)]
              rw [ih h.2 f (by simpa using hl)]
              simp
        simp only [Item.written] at hf ⊢
        refine ⟨s.map .lit, f - s.length, st, lits s hj f (by omega), ?_, by omega, rfl, rfl⟩
        simp only [shown, List.append_nil]
        have : ∀ s : Str, (s.map (.lit : UInt8 → Piece α)).flatMap (Piece.text E) = s := by
          intro s
          induction s with
          | nil => rfl
          | cons c s ih => simp only [List.map_cons, List.flatMap_cons, ih, Piece.text, List.singleton_append]
        exact this s
      | percent =>
        simp only [Item.written, List.cons_append, List.nil_append, List.length_cons] at hf ⊢
        cases f with
        | zero => omega
        | succ f =>
          have hd : directive E args st (37 :: r) = ([.lit 37], { st with good := true, after := false }, r) := by
            rw [directive_parts E args st { st with good := true, after := false } { st with good := true, after := false }
              { st with good := true, after := false } { st with good := true, after := false }
              (37 :: r) (37 :: r) (37 :: r) (37 :: r) (37 :: r) (37 :: r)
              {} {} {} (by simp [flagsLoop]) (argNumber_other _ _ _ (by simp))
              (by simp [widthPart, parsenum, Num.isDigit]) (prec_none E args _ _ _ (by simp))
              (by rw [if_neg (by simp)]; exact argNumber_other _ _ _ (by simp))]
            simp [verbPart, Utf8.decode]
          refine ⟨[.lit 37], f, { st with good := true, after := false }, ?_, by simp [Piece.text, shown], by simp, rfl, rfl⟩
          simp only [run, if_true, hd]
    cases i with
    | text s =>
      simp only [Part.written, List.length_append] at hf ⊢
      obtain ⟨p0, f', st0', r1, r2, r3, r4, r5⟩ := plain (.text s) hi (by simp) (writtenParts m) f (by simp only [Item.written]; omega)
      simp only [Item.written] at r1 r3
      obtain ⟨ps, st', h1, h2, h3, h4⟩ := ih st0' f' (by omega)
      rw [r1, h1]
      rw [r4] at h2 h3
      rw [r5] at h4
      refine ⟨_, _, rfl, texts_append (by simpa [shown] using r2) h2, h3, ?_⟩
      rw [h4]; simp [IndexedParts]
    | percent =>
      simp only [Part.written, List.length_append] at hf ⊢
      obtain ⟨p0, f', st0', r1, r2, r3, r4, r5⟩ := plain .percent trivial (by simp) (writtenParts m) f (by simp only [Item.written]; omega)
      simp only [Item.written] at r1 r3
      obtain ⟨ps, st', h1, h2, h3, h4⟩ := ih st0' f' (by omega)
      rw [r1, h1]
      rw [r4] at h2 h3
      rw [r5] at h4
      refine ⟨_, _, rfl, texts_append (by simpa [shown] using r2) h2, h3, ?_⟩
      rw [h4]; simp [IndexedParts]
    | dir d =>
      cases f with
      | zero => omega
      | succ f =>
        obtain ⟨p, st1, t, ht, hd, hp, hn, hr⟩ := star_run E args d hi st (writtenParts m)
        simp only [Part.written, ht, List.cons_append, List.length_append, List.length_cons] at hf ⊢
        obtain ⟨ps, st', h1, h2, h3, h4⟩ := ih st1 f (by omega)
        simp only [run, if_true, hd, h1]
        rw [hn] at h2 h3
        refine ⟨_, _, rfl, texts_append hp h2, h3, ?_⟩
        rw [h4, hr]
        simp only [IndexedParts, List.mem_cons, Part.dir.injEq]
        constructor
        · rintro ((h | h) | ⟨e, he, hx⟩)
          · exact .inl h
          · exact .inr ⟨d, .inl rfl, h⟩
          · exact .inr ⟨e, .inr he, hx⟩
        · rintro (h | ⟨e, rfl | he, hx⟩)
          · exact .inl (.inl h)
          · exact .inl (.inr hx)
          · exact .inr ⟨e, he, hx⟩

/-- **C94** `Sprintf` shows what the message says, then reports arguments behind the last one used, unless something
has an index. -/
theorem C94_sprintf (E : Env α) (m : List Part) (hm : ∀ i ∈ m, i.Wf) (args : List α) :
    (IndexedParts m ∨ args.length ≤ lastPart args.length 0 m → sprintf E (writtenParts m) args = shownParts E args 0 m) ∧
    (¬ IndexedParts m → lastPart args.length 0 m < args.length →
      sprintf E (writtenParts m) args = shownParts E args 0 m ++ E.extra (args.drop (lastPart args.length 0 m))) := by
  obtain ⟨ps, st', h1, h2, h3, h4⟩ := parts_run E args m hm st0 ((writtenParts m).length + 1) (by omega)
  have h3 : st'.argNum = lastPart args.length 0 m := h3
  have h4 : st'.reordered = true ↔ IndexedParts m := by simpa [st0] using h4
  have h2 : ps.flatMap (Piece.text E) = shownParts E args 0 m := h2
  simp only [sprintf, pieces, h1, h2]
  constructor
  · rintro (h | h)
    · simp [h4.mpr h]
    · rw [← h3] at h
      rw [if_neg (by simp; omega), List.append_nil]
  · intro h h'
    have hr : st'.reordered = false := by
      cases e : st'.reordered with
      | false => rfl
      | true => exact absurd (h4.mp e) h
    rw [if_pos (by simp [hr, h3, h']), h3]

theorem shownParts_append (E : Env α) (args : List α) (m m' : List Part) (c : Nat) :
    shownParts E args c (m ++ m') = shownParts E args c m ++ shownParts E args (lastPart args.length c m) m' := by
  induction m generalizing c with
  | nil => rfl
  | cons i m ih => cases i <;> simp [shownParts, lastPart, ih]

/-- **C94** `Format` shows what the message says for the arguments and an empty one behind them, and nothing else. -/
theorem C94_format (E : Env α) (hempty : E.render {} b!"s" E.empty = []) (m : List Part) (hm : ∀ i ∈ m, i.Wf)
    (args : List α) (hargs : args ≠ []) (hlen : args.length < 1000000) :
    format E (writtenParts m) args = shownParts E (args ++ [E.empty]) 0 m := by
  obtain ⟨n1, n2, n3, _⟩ := natDigits_spec (args.length + 1)
  let tail : Star := { idx := some (Num.natDigits (args.length + 1)), verb := 115 }
  have hw : writtenParts m ++ b!"%[" ++ Num.natDigits (args.length + 1) ++ b!"]s" = writtenParts (m ++ [.dir tail]) := by
    simp [writtenParts, Part.written, tail, Star.written, Size.written, writtenSize, writtenIdx]
  have htail : tail.Wf := ⟨by simp [tail], ⟨by simp, by simp [decVal]⟩, by rintro ds ⟨⟩; simp, by simp [tail], by
    intro k hk
    simp only [tail, Option.some.injEq] at hk
    subst hk
    exact ⟨⟨List.all_eq_true.mp n2, by rw [n3]; omega⟩, n1⟩, rfl⟩
  have hl : args.length ≠ 0 := fun h => hargs (List.eq_nil_of_length_eq_zero h)
  rw [format, if_neg hl, hw, (C94_sprintf E _ (by
    intro i hi
    rcases List.mem_append.mp hi with hi | hi
    · exact hm i hi
    · rw [List.mem_singleton.mp hi]; exact htail) _).1 (.inl ⟨tail, by simp, .inr (.inr (by simp [tail]))⟩), shownParts_append]
  have : ∀ c, tail.shown E (args ++ [E.empty]) c = [] := by
    intro c
    have hlook : tail.look (args ++ [E.empty]).length c = ⟨args.length, true⟩ := by
      simp [Star.look, Star.past2, Star.past1, Size.past, tail, Look.go, n3]
    have hopt : tail.opts E (args ++ [E.empty]) c = {} := by
      simp [Star.opts, tail, Star.width, Size.number, Star.precision]
    have hc : tail.complaint E (args ++ [E.empty]) c = [] := by
      simp [Star.complaint, tail, badWidth, badPrec]
    simp only [Star.shown, hlook, hopt, hc, if_true, List.nil_append]
    rw [List.getElem?_append_right (Nat.le_refl _)]
    simpa using hempty
  simp [shownParts, this]

/-! ## Concrete cases -/

/-- Arguments are numbers or strings; shown with their width and precision before them. -/
def exStars : Env (Int ⊕ Str) where
  render := fun o v a => match a with
    | .inr [] => []
    | .inr s => Num.natDigits (o.wid.getD 0) ++ (if o.minus then b!"-" else b!"+") ++ Num.natDigits (o.prec.getD 99) ++ b!":" ++ s
    | .inl i => v ++ Num.natDigits i.natAbs
  asInt := fun a => match a with
    | .inl i => some i
    | .inr _ => none
  empty := .inr []
  extra := fun l => b!"%!(EXTRA " ++ Num.natDigits l.length ++ b!")"

/-- `%*.*s, %-[2]*.2[1]d%%` -/
def exStarred : List Part :=
  [.dir { wid := .star none, prec := some (.star none), verb := 115 }, .text b!", ",
   .dir { flags := b!"-", wid := .star (some b!"2"), prec := some (.digits b!"2"), idx := some b!"1", verb := 100 }, .percent]

theorem exStarred_wf : ∀ i ∈ exStarred, i.Wf := by
  have num : ∀ ds : Str, (ds.all digitByte && decide (decVal ds ≤ 1000000)) = true → Number ds := by
    intro ds h
    simp only [Bool.and_eq_true, decide_eq_true_eq] at h
    exact ⟨List.all_eq_true.mp h.1, h.2⟩
  intro i hi
  simp only [exStarred, List.mem_cons, List.not_mem_nil, or_false] at hi
  rcases hi with rfl | rfl | rfl | rfl
  · exact ⟨by simp, by rintro k ⟨⟩, by rintro ds ⟨⟩, by rintro p ⟨⟩; rintro k ⟨⟩, by rintro k ⟨⟩, rfl⟩
  · show 37 ∉ b!", "; decide
  · exact ⟨by simp [isFlagByte], by rintro k ⟨⟩; exact ⟨num _ rfl, by simp⟩, by rintro ds ⟨⟩,
      by rintro p ⟨⟩; exact num _ rfl, by rintro k ⟨⟩; exact ⟨num _ rfl, by simp⟩, rfl⟩
  · trivial

example : writtenParts exStarred = b!"%*.*s, %-[2]*.2[1]d%%" := by decide
example : shownParts exStars [.inl (-7), .inl 3, .inr b!"x"] 0 exStarred = b!"7-3:x, d7%" ∧
    format exStars (writtenParts exStarred) [.inl (-7), .inl 3, .inr b!"x"] = b!"7-3:x, d7%" := by decide
/-- A width that is no number, a negative precision, and no argument left but the one `Format` adds. -/
example : format exStars (writtenParts exStarred) [.inr b!"x", .inl (-3)] = b!"%!(BADWIDTH)%!(BADPREC), 3-2:x%" := by decide
/-- Without it the last one is missing; and a wrong index of a width spoils the directive. -/
example : sprintf exStars (writtenParts exStarred) [.inr b!"x"] =
    b!"%!(BADWIDTH)%!(BADPREC)%!s(MISSING), %!(BADWIDTH)%!d(BADINDEX)%" := by decide
/-- A `*` uses an argument of its own. -/
example : sprintf exStars b!"%*s" [.inl 4, .inr b!"x", .inr b!"y"] = b!"4+99:x%!(EXTRA 1)" := by decide

end Verif.Fmt
