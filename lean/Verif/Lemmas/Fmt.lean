import Verif.Model.Fmt
import Verif.Spec.Fmt
import Verif.Lemmas.Bytes
import Verif.Lemmas.PluralEval
/-! # Lemmas on the directive loop of fmt -/
namespace Verif.Fmt
set_option linter.unusedSimpArgs false

theorem decode_append (s y : Str) (h : s ≠ []) : Utf8.decode (s ++ 37 :: y) = Utf8.decode s := by
  cases s with
  | nil => exact absurd rfl h
  | cons b0 t =>
    simp only [Utf8.decode, List.cons_append]
    split
    · rfl
    · cases hl : Utf8.lead b0 with
      | none => simp
      | some p =>
        obtain ⟨n, lo, hi⟩ := p
        have hn : (n = 2 ∨ n = 3 ∨ n = 4) ∧ 0x80 ≤ lo := by
          simp only [Utf8.lead] at hl
          repeat' split at hl
          all_goals first | (cases hl; decide) | cases hl
        have h37 : ¬ lo ≤ 37 := by
          have := hn.2
          simp only [UInt8.le_iff_toNat_le] at *
          have h2 : (0x80 : UInt8).toNat = 128 := rfl
          have h3 : (37 : UInt8).toNat = 37 := rfl
          omega
        have hc : Utf8.isCont 37 = false := rfl
        rcases hn.1 with rfl | rfl | rfl
        · rcases t with _ | ⟨a, t⟩ <;> simp [h37]
        · rcases t with _ | ⟨a, _ | ⟨b, t⟩⟩ <;> rcases y with _ | ⟨y, _⟩ <;> simp [h37, hc]
        · rcases t with _ | ⟨a, _ | ⟨b, _ | ⟨c, t⟩⟩⟩ <;> rcases y with _ | ⟨y, _ | ⟨y', _⟩⟩ <;>
            simp [h37, hc]

theorem lead_eq (b : UInt8) : Utf8.lead b =
    if 0xC2 ≤ b && b ≤ 0xDF then some (2, 0x80, 0xBF)
    else if 0xE0 ≤ b && b ≤ 0xEF then
      some (3, if b = 0xE0 then 0xA0 else 0x80, if b = 0xED then 0x9F else 0xBF)
    else if 0xF0 ≤ b && b ≤ 0xF4 then
      some (4, if b = 0xF0 then 0x90 else 0x80, if b = 0xF4 then 0x8F else 0xBF)
    else none := by
  revert b; apply u8; decide +kernel

theorem disj (b : UInt8) : ((0xC2 ≤ b && b ≤ 0xDF) → (0xE0 ≤ b && b ≤ 0xEF) = false ∧
    (0xF0 ≤ b && b ≤ 0xF4) = false) ∧ ((0xE0 ≤ b && b ≤ 0xEF) → (0xF0 ≤ b && b ≤ 0xF4) = false) := by
  revert b; apply u8; decide +kernel

theorem decode_size (s : Str) : (Utf8.decode s).2 = verbLen s := by
  cases s with
  | nil => rfl
  | cons b0 t =>
    simp only [Utf8.decode, verbLen]
    split
    · rename_i h
      simp only [UInt8.lt_iff_toNat_lt, UInt8.le_iff_toNat_le, Bool.and_eq_true, decide_eq_true_eq] at *
      simp only [show (0x80 : UInt8).toNat = 128 from rfl, show (0xC2 : UInt8).toNat = 0xC2 from rfl,
        show (0xE0 : UInt8).toNat = 0xE0 from rfl, show (0xF0 : UInt8).toNat = 0xF0 from rfl] at *
      rw [if_neg (by omega), if_neg (by omega), if_neg (by omega)]
    · rw [lead_eq]
      have hd := disj b0
      by_cases h1 : (0xC2 ≤ b0 && b0 ≤ 0xDF) = true
      · have := hd.1 h1
        simp only [h1, this, if_true, Bool.true_and, Bool.false_and]
        rcases t with _ | ⟨a, t⟩
        · simp
        · simp only [List.getElem?_cons_zero]
          split <;> simp
      · by_cases h2 : (0xE0 ≤ b0 && b0 ≤ 0xEF) = true
        · have := hd.2 h2
          have h1' : (0xC2 ≤ b0 && b0 ≤ 0xDF) = false := by simpa using h1
          simp only [h1', h2, this, if_true, Bool.true_and, Bool.false_and]
          generalize (if b0 = 0xE0 then (0xA0 : UInt8) else 0x80) = lo
          generalize (if b0 = 0xED then (0x9F : UInt8) else 0xBF) = hi
          rcases t with _ | ⟨a, _ | ⟨b, t⟩⟩
          · simp
          · simp
          · simp only [List.getElem?_cons_zero, List.getElem?_cons_succ]
            refine (apply_ite Prod.snd _ _ _).trans ?_; rfl
        · have h1' : (0xC2 ≤ b0 && b0 ≤ 0xDF) = false := by simpa using h1
          have h2' : (0xE0 ≤ b0 && b0 ≤ 0xEF) = false := by simpa using h2
          by_cases h3 : (0xF0 ≤ b0 && b0 ≤ 0xF4) = true
          · simp only [h1', h2', h3, if_true, Bool.true_and, Bool.false_and]
            generalize (if b0 = 0xF0 then (0x90 : UInt8) else 0x80) = lo
            generalize (if b0 = 0xF4 then (0x8F : UInt8) else 0xBF) = hi
            rcases t with _ | ⟨a, _ | ⟨b, _ | ⟨c, t⟩⟩⟩
            · simp
            · simp
            · simp
            · simp only [List.getElem?_cons_zero, List.getElem?_cons_succ]
              refine (apply_ite Prod.snd _ _ _).trans ?_; rfl
          · have h3' : (0xF0 ≤ b0 && b0 ≤ 0xF4) = false := by simpa using h3
            simp only [h1', h2', h3', Bool.false_and]
            simp

/-- What may follow a closed string in these lemmas: nothing, or the `%` of another directive. -/
def Next (x : Str) : Prop := x = [] ∨ ∃ y, x = 37 :: y

theorem flagsLoop_append (s x : Str) (hx : Next x) (o : Opts) :
    flagsLoop o (s ++ x) = ((flagsLoop o s).1, s.dropWhile isFlagByte ++ x) := by
  induction s generalizing o with
  | nil => rcases hx with rfl | ⟨y, rfl⟩ <;> simp [flagsLoop]
  | cons c s ih =>
    simp only [List.cons_append, flagsLoop, List.dropWhile, isFlagByte]
    by_cases h1 : c = 35
    · simp [h1, ih, isFlagByte]
    by_cases h2 : c = 48
    · simp [h2, ih, isFlagByte]
    by_cases h3 : c = 43
    · simp [h3, ih, isFlagByte]
    by_cases h4 : c = 45
    · simp [h4, ih, isFlagByte]
    by_cases h5 : c = 32
    · simp [h5, ih, isFlagByte]
    simp [h1, h2, h3, h4, h5]

theorem foldl_ge (ds : Str) (n : Nat) :
    n ≤ ds.foldl (fun n c => n * 10 + (c.toNat - 48)) n := by
  induction ds generalizing n with
  | nil => simp
  | cons c ds ih =>
    simp only [List.foldl_cons]
    exact Nat.le_trans (by omega) (ih _)

theorem parsenum_append (s x : Str) (hx : Next x) (n : Nat) (b : Bool)
    (h : (s.takeWhile digitByte).foldl (fun n c => n * 10 + (c.toNat - 48)) n ≤ 1000000) :
    parsenum n b (s ++ x) =
      (if b || (s.takeWhile digitByte) != [] then
        some ((s.takeWhile digitByte).foldl (fun n c => n * 10 + (c.toNat - 48)) n) else none,
        s.dropWhile digitByte ++ x) := by
  induction s generalizing n b with
  | nil =>
    rcases hx with rfl | ⟨y, rfl⟩
    · simp [parsenum]
    · simp [parsenum, Num.isDigit]
  | cons c s ih =>
    have hd : Num.isDigit c = digitByte c := rfl
    simp only [List.cons_append, parsenum, hd]
    by_cases hc : digitByte c = true
    case neg => simp [List.takeWhile, List.dropWhile, hc]
    case pos =>
      simp only [List.takeWhile, hc, List.foldl_cons] at h
      have hle := foldl_ge (s.takeWhile digitByte) (n * 10 + (c.toNat - 48))
      simp only [List.takeWhile, List.dropWhile, hc, if_true]
      rw [if_neg (by omega), ih _ _ h]
      simp

theorem splitClose_append (t x : Str) (c : UInt8) (r : Str)
    (h : t.dropWhile (· != 93) = c :: r) :
    splitClose (t ++ x) = some (t.takeWhile (· != 93), r ++ x) := by
  induction t with
  | nil => simp at h
  | cons d t ih =>
    simp only [List.cons_append, splitClose]
    by_cases hd : d = 93
    · subst hd
      simp at h
      simp [h]
    · have hd' : (d != 93) = true := by simpa using hd
      simp only [List.dropWhile, hd'] at h
      rw [if_neg hd, ih h]
      simp [List.takeWhile, hd']

theorem takeWhile_all {α : Type} (p : α → Bool) (l : List α) (h : l.all p = true) :
    l.takeWhile p = l ∧ l.dropWhile p = [] := by
  induction l with
  | nil => simp
  | cons a l ih => simp at h; simp [List.takeWhile, List.dropWhile, h.1, ih (by simpa using h.2)]

/-- A number that is not made of digits only, or is empty, is not a well-formed index. -/
theorem parsenum_bad (body : Str) (n : Nat) (b : Bool) (v : Nat)
    (h : parsenum n b body = (some v, [])) : (b = true ∨ body ≠ []) ∧ body.all digitByte = true := by
  induction body generalizing n b with
  | nil => cases b <;> simp_all [parsenum]
  | cons c s ih =>
    have hd : Num.isDigit c = digitByte c := rfl
    simp only [parsenum, hd] at h
    cases hc : digitByte c with
    | false => simp [hc] at h
    | true =>
      simp only [hc, if_true] at h
      split at h
      · cases h
      · have := (ih _ _ h).2
        simp_all

theorem argNumber_append (N : Nat) (st : St) (s r : Str) (f : Bool)
    (h : skipIndex s = some (f, r)) (hr : r ≠ []) :
    ∃ st', st'.after = f ∧ ∀ x, Next x → argNumber N st (s ++ x) = (st', r ++ x) := by
  by_cases h91 : ∃ t, s = 91 :: t
  · obtain ⟨t, rfl⟩ := h91
    simp only [skipIndex] at h
    cases hdw : t.dropWhile (· != 93) with
    | nil => simp [hdw] at h
    | cons c r' =>
      simp only [hdw] at h
      have hlen : ∀ x : Str, r' ≠ [] → ¬ (t ++ x).length < 2 := by
        intro x hr'
        have h1 : (t.dropWhile (· != 93)).length ≤ t.length := (List.dropWhile_sublist _).length_le
        rw [hdw] at h1
        have := List.length_pos_iff.mpr hr'
        simp at h1 ⊢; omega
      split at h
      · rename_i hbody
        obtain ⟨hne, hall⟩ := hbody
        split at h
        · rename_i hv
          cases h
          have hp : parsenum 0 false (t.takeWhile (· != 93)) =
              (some (decVal (t.takeWhile (· != 93))), []) := by
            have hta := takeWhile_all digitByte _ hall
            have := parsenum_append (t.takeWhile (· != 93)) [] (Or.inl rfl) 0 false
              (by rw [hta.1]; exact hv)
            rw [hta.1, hta.2] at this
            simpa [hne, decVal] using this
          have hpa : ∀ x, parseArgNumber (t ++ x) = (some (decVal (t.takeWhile (· != 93))), r ++ x) := by
            intro x
            simp only [parseArgNumber, if_neg (hlen x hr), splitClose_append t x c r hdw, hp]
          simp only [List.cons_append, argNumber, hpa]
          by_cases hN : 1 ≤ decVal (t.takeWhile (· != 93)) ∧ decVal (t.takeWhile (· != 93)) - 1 < N
          · simp only [if_pos hN]
            exact ⟨_, rfl, fun x _ => rfl⟩
          · simp only [if_neg hN]
            exact ⟨_, rfl, fun x _ => rfl⟩
        · cases h
      · rename_i hbody
        cases h
        have hp : ∀ v, parsenum 0 false (t.takeWhile (· != 93)) ≠ (some v, []) := by
          intro v hv
          have := parsenum_bad _ _ _ _ hv
          exact hbody (by simpa using this)
        have hpa : ∀ x, parseArgNumber (t ++ x) = (none, r ++ x) := by
          intro x
          simp only [parseArgNumber, if_neg (hlen x hr), splitClose_append t x c r hdw]
        simp only [List.cons_append, argNumber, hpa]
        exact ⟨_, rfl, fun x _ => rfl⟩
  · have h' : f = false ∧ r = s := by
      unfold skipIndex at h
      split at h
      · exact absurd ⟨_, rfl⟩ h91
      · cases h; exact ⟨rfl, rfl⟩
    obtain ⟨rfl, rfl⟩ := h'
    refine ⟨{ st with after := false }, rfl, fun x hx => ?_⟩
    unfold argNumber
    split
    · rename_i t heq
      cases r with
      | nil => exact absurd rfl hr
      | cons a r =>
        simp only [List.cons_append, List.cons.injEq] at heq
        exact absurd ⟨r, by rw [heq.1]⟩ h91
    · rfl

theorem skipNum_append (s r : Str) (h : skipNum s = some r) :
    ∃ n, ∀ x, Next x → parsenum 0 false (s ++ x) = (n, r ++ x) := by
  unfold skipNum at h
  split at h
  · rename_i hle
    cases h
    exact ⟨_, fun x hx => parsenum_append s x hx 0 false hle⟩
  · cases h

theorem widthPart_append {α : Type} (E : Env α) (args : List α) (o : Opts) (st : St) (s r : Str)
    (star : Bool) (h : skipStarNum s = some (star, r)) (hs : s ≠ []) :
    ∃ p o' st', st'.after = (st.after && !star) ∧
      ∀ x, Next x → widthPart E args o st (s ++ x) = (p, o', st', r ++ x) := by
  by_cases h42 : ∃ t, s = 42 :: t
  · obtain ⟨t, rfl⟩ := h42
    simp only [skipStarNum] at h
    cases h
    simp only [List.cons_append, widthPart]
    generalize intFromArg E args st = q
    obtain ⟨w, st2⟩ := q
    cases w with
    | none => exact ⟨_, _, _, by simp, fun x _ => rfl⟩
    | some i =>
      dsimp only
      split
      · exact ⟨_, _, _, by simp, fun x _ => rfl⟩
      · exact ⟨_, _, _, by simp, fun x _ => rfl⟩
  · have h' : skipNum s = some r ∧ star = false := by
      unfold skipStarNum at h
      split at h
      · exact absurd ⟨_, rfl⟩ h42
      · cases hn : skipNum s <;> simp [hn] at h
        exact ⟨by rw [h.2], h.1⟩
    obtain ⟨hn, rfl⟩ := h'
    obtain ⟨n, hp⟩ := skipNum_append s r hn
    refine ⟨[], { o with wid := n },
      if st.after && n.isSome then { st with good := false } else st, ?_, fun x hx => ?_⟩
    · split <;> simp
    · unfold widthPart
      split
      · rename_i t heq
        cases s with
        | nil => exact absurd rfl hs
        | cons a s =>
          simp only [List.cons_append, List.cons.injEq] at heq
          exact absurd ⟨s, by rw [heq.1]⟩ h42
      · simp only [hp x hx]

theorem precPart_append {α : Type} (E : Env α) (args : List α) (o : Opts) (st : St) (s r : Str)
    (f : Bool) (h : skipPrec st.after s = some (f, r)) (hr : r ≠ []) :
    ∃ p o' st', st'.after = f ∧
      ∀ x, Next x → precPart E args o st (s ++ x) = (p, o', st', r ++ x) := by
  by_cases h46 : ∃ t, s = 46 :: t
  · obtain ⟨t, rfl⟩ := h46
    simp only [skipPrec] at h
    cases hi : skipIndex t with
    | none => simp [hi] at h
    | some p =>
      obtain ⟨f1, r1⟩ := p
      simp only [hi, Option.bind_some] at h
      cases hsn : skipStarNum r1 with
      | none => simp [hsn] at h
      | some q =>
        obtain ⟨star, r2⟩ := q
        simp only [hsn, Option.map_some, Option.some.injEq, Prod.mk.injEq] at h
        obtain ⟨rfl, rfl⟩ := h
        have hr1 : r1 ≠ [] := by
          rintro rfl
          simp [skipStarNum, skipNum, decVal] at hsn
          exact hr hsn.2
        obtain ⟨st1, hf1, h1⟩ := argNumber_append args.length
          (if st.after then { st with good := false } else st) t r1 f1 hi hr1
        by_cases h42 : ∃ u, r1 = 42 :: u
        · obtain ⟨u, rfl⟩ := h42
          simp only [skipStarNum] at hsn
          cases hsn
          have : ∃ p o' st', st'.after = false ∧ ∀ x, Next x →
              precPart E args o st (46 :: t ++ x) = (p, o', st', r2 ++ x) := by
            cases hq : intFromArg E args st1 with
            | mk w st2 =>
            by_cases hw : ∃ n, w = some (.ofNat n)
            · obtain ⟨n, rfl⟩ := hw
              refine ⟨[], { o with prec := some n }, { st2 with after := false }, rfl, fun x hx => ?_⟩
              simp only [precPart, List.cons_append]
              rw [h1 x hx]
              simp only [List.cons_append, hq]
            · refine ⟨[.badPrec], { o with prec := none }, { st2 with after := false }, rfl,
                fun x hx => ?_⟩
              simp only [precPart, List.cons_append]
              rw [h1 x hx]
              simp only [List.cons_append, hq]
              rcases w with _ | (n | n)
              · rfl
              · exact absurd ⟨n, rfl⟩ hw
              · rfl
          obtain ⟨p, o', st', ha, hh⟩ := this
          exact ⟨p, o', st', by simp [ha], hh⟩
        · have h' : skipNum r1 = some r2 ∧ star = false := by
            unfold skipStarNum at hsn
            split at hsn
            · exact absurd ⟨_, rfl⟩ h42
            · cases hn : skipNum r1 <;> simp [hn] at hsn
              exact ⟨by rw [hsn.2], hsn.1⟩
          obtain ⟨hn, rfl⟩ := h'
          obtain ⟨n, hp⟩ := skipNum_append r1 r2 hn
          refine ⟨[], { o with prec := some (n.getD 0) }, st1, by simp [hf1], fun x hx => ?_⟩
          simp only [precPart, List.cons_append]
          rw [h1 x hx]
          dsimp only
          split
          · rename_i u heq
            cases r1 with
            | nil => exact absurd rfl hr1
            | cons a s =>
              simp only [List.cons_append, List.cons.injEq] at heq
              exact absurd ⟨s, by rw [heq.1]⟩ h42
          · simp only [hp x hx]
  · have h' : f = st.after ∧ r = s := by
      unfold skipPrec at h
      split at h
      · exact absurd ⟨_, rfl⟩ h46
      · cases h; exact ⟨rfl, rfl⟩
    obtain ⟨rfl, rfl⟩ := h'
    refine ⟨[], o, st, rfl, fun x hx => ?_⟩
    unfold precPart
    split
    · rename_i t heq
      cases r with
      | nil => exact absurd rfl hr
      | cons a r =>
        simp only [List.cons_append, List.cons.injEq] at heq
        exact absurd ⟨r, by rw [heq.1]⟩ h46
    · rfl

theorem verbLen_le (s : Str) : verbLen s ≤ s.length := by
  rw [← decode_size]
  unfold Utf8.decode
  split
  · simp
  · split
    · simp
    · split <;> (try split) <;> simp

theorem verbPart_append {α : Type} (args : List α) (o : Opts) (st : St) (v : Str) (hv : v ≠ []) :
    ∃ p st', ∀ x, Next x → verbPart args o st (v ++ x) = (p, st', v.drop (verbLen v) ++ x) := by
  have hd : ∀ x, Next x → Utf8.decode (v ++ x) = ((Utf8.decode v).1, verbLen v) := by
    intro x hx
    rcases hx with rfl | ⟨y, rfl⟩
    · rw [List.append_nil, ← decode_size]
    · rw [decode_append v y hv, ← decode_size]
  have hdrop : ∀ x : Str, (v ++ x).drop (verbLen v) = v.drop (verbLen v) ++ x := by
    intro x; rw [List.drop_append_of_le_length (verbLen_le v)]
  have hun : ∀ x, Next x → verbPart args o st (v ++ x) =
      ((verbPart args o st v).1, (verbPart args o st v).2.1, v.drop (verbLen v) ++ x) := by
    have key : ∀ w : Str, w ≠ [] → verbPart args o st w =
        (let (rune, size) := Utf8.decode w
        let r := w.drop size
        if rune = 37 then ([.lit 37], st, r)
        else if !st.good then ([.badIndex (Utf8.encode rune)], st, r)
        else match args[st.argNum]? with
          | none => ([.missing (Utf8.encode rune)], { st with inRange := false }, r)
          | some a => ([.arg o (Utf8.encode rune) a], { st with argNum := st.argNum + 1 }, r)) := by
      intro w hw
      cases w with
      | nil => exact absurd rfl hw
      | cons => rfl
    intro x hx
    rw [key _ (by simp [hv]), key v hv, hd x hx]
    dsimp only
    rw [hdrop]
    split
    · rfl
    · split
      · rfl
      · cases args[st.argNum]? <;> rfl
  exact ⟨_, _, hun⟩

theorem directive_append {α : Type} (E : Env α) (args : List α) (st : St) (s v : Str)
    (h : toVerb s = some v) (hv : v ≠ []) :
    ∃ p st', ∀ x, Next x → directive E args st (s ++ x) = (p, st', v.drop (verbLen v) ++ x) := by
  simp only [toVerb] at h
  cases h1 : skipIndex (s.dropWhile isFlagByte) with
  | none => simp [h1] at h
  | some p1 =>
  obtain ⟨f1, r1⟩ := p1
  simp only [h1, Option.bind_some] at h
  cases h2 : skipStarNum r1 with
  | none => simp [h2] at h
  | some p2 =>
  obtain ⟨star, r2⟩ := p2
  simp only [h2, Option.bind_some] at h
  cases h3 : skipPrec (f1 && !star) r2 with
  | none => simp [h3] at h
  | some p3 =>
  obtain ⟨f3, r3⟩ := p3
  simp only [h3, Option.bind_some] at h
  have hr3 : r3 ≠ [] := by
    rintro rfl
    cases f3 <;> simp [skipIndex] at h <;> exact hv h
  have hr2 : r2 ≠ [] := by
    rintro rfl
    simp [skipPrec] at h3
    exact hr3 h3.2
  have hr1 : r1 ≠ [] := by
    rintro rfl
    simp [skipStarNum, skipNum, decVal] at h2
    exact hr2 h2.2
  obtain ⟨st1, ha1, e1⟩ := argNumber_append args.length { st with good := true } _ _ _ h1 hr1
  obtain ⟨q1, o1, st2, ha2, e2⟩ := widthPart_append E args (flagsLoop {} s).1 st1 _ _ _ h2 hr1
  rw [ha1] at ha2
  rw [← ha2] at h3
  obtain ⟨q2, o2, st3, ha3, e3⟩ := precPart_append E args o1 st2 _ _ _ h3 hr3
  have hst4 : ∃ st4, ∀ x, Next x →
      (if st3.after then (st3, r3 ++ x) else argNumber args.length st3 (r3 ++ x)) = (st4, v ++ x) := by
    cases f3 with
    | true =>
      simp at h; subst h
      exact ⟨st3, fun x _ => by simp [ha3]⟩
    | false =>
      simp only [Bool.false_eq_true, if_false] at h
      cases h4 : skipIndex r3 with
      | none => simp [h4] at h
      | some p4 =>
        obtain ⟨f4, r4⟩ := p4
        simp [h4] at h; subst h
        obtain ⟨st4, _, e4⟩ := argNumber_append args.length st3 _ _ _ h4 hv
        exact ⟨st4, fun x hx => by simp [ha3, e4 x hx]⟩
  obtain ⟨st4, e4⟩ := hst4
  obtain ⟨q3, st5, e5⟩ := verbPart_append args o2 st4 v hv
  refine ⟨q1 ++ q2 ++ q3, st5, fun x hx => ?_⟩
  simp only [directive, flagsLoop_append s x hx, e1 x hx, e2 x hx, e3 x hx, e4 x hx, e5 x hx]

theorem dropWhile_length {α : Type} (p : α → Bool) (l : List α) :
    (l.dropWhile p).length ≤ l.length := (List.dropWhile_sublist _).length_le

theorem skipIndex_len (s r : Str) (f : Bool) (h : skipIndex s = some (f, r)) :
    r.length ≤ s.length := by
  unfold skipIndex at h
  split at h
  · rename_i t
    dsimp only at h
    have := dropWhile_length (· != 93) t
    split at h
    · cases h
    · rename_i hd
      rw [hd] at this
      simp at this
      repeat' split at h
      all_goals first | (cases h; simp; omega) | cases h
  · cases h; simp

theorem skipStarNum_len (s r : Str) (f : Bool) (h : skipStarNum s = some (f, r)) :
    r.length ≤ s.length := by
  unfold skipStarNum at h
  split at h
  · cases h; simp
  · unfold skipNum at h
    split at h
    · simp at h
      rw [← h.2]; exact dropWhile_length _ _
    · simp at h

theorem skipPrec_len (a : Bool) (s r : Str) (f : Bool) (h : skipPrec a s = some (f, r)) :
    r.length ≤ s.length := by
  unfold skipPrec at h
  split at h
  · rename_i t
    cases h1 : skipIndex t with
    | none => simp [h1] at h
    | some p =>
      obtain ⟨f1, r1⟩ := p
      have l1 := skipIndex_len _ _ _ h1
      simp only [h1, Option.bind_some] at h
      cases h2 : skipStarNum r1 with
      | none => simp [h2] at h
      | some q =>
        obtain ⟨f2, r2⟩ := q
        have l2 := skipStarNum_len _ _ _ h2
        simp [h2] at h
        rw [← h.2]; simp; omega
  · cases h; simp

theorem toVerb_len (s v : Str) (h : toVerb s = some v) : v.length ≤ s.length := by
  simp only [toVerb] at h
  have l0 := dropWhile_length isFlagByte s
  cases h1 : skipIndex (s.dropWhile isFlagByte) with
  | none => simp [h1] at h
  | some p1 =>
  obtain ⟨f1, r1⟩ := p1
  have l1 := skipIndex_len _ _ _ h1
  simp only [h1, Option.bind_some] at h
  cases h2 : skipStarNum r1 with
  | none => simp [h2] at h
  | some p2 =>
  obtain ⟨star, r2⟩ := p2
  have l2 := skipStarNum_len _ _ _ h2
  simp only [h2, Option.bind_some] at h
  cases h3 : skipPrec (f1 && !star) r2 with
  | none => simp [h3] at h
  | some p3 =>
  obtain ⟨f3, r3⟩ := p3
  have l3 := skipPrec_len _ _ _ _ h3
  simp only [h3, Option.bind_some] at h
  cases f3 with
  | true => simp at h; subst h; omega
  | false =>
    simp only [Bool.false_eq_true, if_false] at h
    cases h4 : skipIndex r3 with
    | none => simp [h4] at h
    | some p4 =>
      obtain ⟨f4, r4⟩ := p4
      have l4 := skipIndex_len _ _ _ h4
      simp [h4] at h; subst h; omega

/-- The loop on a closed string followed by something. -/
theorem run_append {α : Type} (E : Env α) (args : List α) (f : Str) (hf : Closed f) (st : St) :
    ∃ p st' k, k ≤ f.length ∧ ∀ x, Next x → ∀ m,
      run E args (k + m) st (f ++ x) = (p ++ (run E args m st' x).1, (run E args m st' x).2) := by
  induction hf generalizing st with
  | nil => exact ⟨[], st, 0, Nat.le_refl _, fun x _ m => by simp⟩
  | lit c s hc _ ih =>
    obtain ⟨p, st', k, hk, hh⟩ := ih st
    refine ⟨.lit c :: p, st', k + 1, by simp; omega, fun x hx m => ?_⟩
    rw [show k + 1 + m = (k + m) + 1 by omega]
    simp only [List.cons_append, run, if_neg hc, hh x hx m]
  | dir s v htv hv _ ih =>
    obtain ⟨p1, st1, h1⟩ := directive_append E args st s v htv hv
    obtain ⟨p, st', k, hk, hh⟩ := ih st1
    have hlen : (v.drop (verbLen v)).length ≤ s.length := by
      have hv' : v.length ≤ s.length := toVerb_len _ _ htv
      simp; omega
    refine ⟨p1 ++ p, st', k + 1, by simp at hk hlen ⊢; omega, fun x hx m => ?_⟩
    rw [show k + 1 + m = (k + m) + 1 by omega]
    simp only [List.cons_append, run, if_true, h1 x hx, hh x hx m]
    simp

/-! Without a reference outside the arguments, more arguments change nothing. -/

theorem argNumber_more (N M : Nat) (hNM : N ≤ M) (st : St) (s : Str)
    (h : (argNumber N st s).1.inRange = true) :
    argNumber M st s = argNumber N st s ∧ st.inRange = true := by
  unfold argNumber at h ⊢
  split at h
  · rename_i t
    generalize parseArgNumber t = q at h ⊢
    obtain ⟨n, r⟩ := q
    cases n with
    | none => simp at h
    | some n =>
      dsimp only at h ⊢
      by_cases hn : 1 ≤ n ∧ n - 1 < N
      · rw [if_pos hn] at h ⊢
        rw [if_pos ⟨hn.1, by omega⟩]
        exact ⟨rfl, h⟩
      · rw [if_neg hn] at h
        simp at h
  · rename_i s hs
    exact ⟨rfl, h⟩

theorem intFromArg_more {α : Type} (E : Env α) (args more : List α) (st : St)
    (h : (intFromArg E args st).2.inRange = true) :
    intFromArg E (args ++ more) st = intFromArg E args st ∧ st.inRange = true := by
  unfold intFromArg at h ⊢
  cases hg : args[st.argNum]? with
  | none => simp [hg] at h
  | some a =>
    obtain ⟨hlt, _⟩ := List.getElem?_eq_some_iff.mp hg
    rw [List.getElem?_append_left hlt, hg]
    simp [hg] at h
    exact ⟨rfl, h⟩

theorem widthPart_more {α : Type} (E : Env α) (args more : List α) (o : Opts) (st : St) (s : Str)
    (h : (widthPart E args o st s).2.2.1.inRange = true) :
    widthPart E (args ++ more) o st s = widthPart E args o st s ∧ st.inRange = true := by
  unfold widthPart at h ⊢
  split at h
  · rename_i r
    have hi : (intFromArg E args st).2.inRange = true := by
      generalize intFromArg E args st = q at h
      obtain ⟨w, st2⟩ := q
      cases w with
      | none => simpa using h
      | some i =>
        dsimp only at h
        split at h <;> simpa using h
    obtain ⟨h1, h2⟩ := intFromArg_more E args more st hi
    dsimp only
    rw [h1]
    exact ⟨rfl, h2⟩
  · rename_i s hs
    refine ⟨rfl, ?_⟩
    dsimp only at h
    split at h <;> simpa using h

theorem precPart_more {α : Type} (E : Env α) (args more : List α) (o : Opts) (st : St) (s : Str)
    (h : (precPart E args o st s).2.2.1.inRange = true) :
    precPart E (args ++ more) o st s = precPart E args o st s ∧ st.inRange = true := by
  unfold precPart at h ⊢
  split at h
  · rename_i r
    dsimp only at h ⊢
    generalize hst : (if st.after = true then { st with good := false } else st) = st1 at h ⊢
    have hst1 : st1.inRange = st.inRange := by rw [← hst]; split <;> rfl
    have hle : args.length ≤ (args ++ more).length := by simp
    generalize hq : argNumber args.length st1 r = q at h
    obtain ⟨st2, r2⟩ := q
    dsimp only at h
    have fin : st2.inRange = true → argNumber (args ++ more).length st1 r = (st2, r2) ∧
        st.inRange = true := by
      intro h2
      have := argNumber_more args.length (args ++ more).length hle st1 r (by rw [hq]; exact h2)
      rw [this.1, hq, ← hst1]
      exact ⟨rfl, this.2⟩
    split at h
    · rename_i r3
      have hi : (intFromArg E args st2).2.inRange = true := by
        generalize intFromArg E args st2 = q at h
        obtain ⟨w, st3⟩ := q
        dsimp only at h
        split at h <;> simpa using h
      obtain ⟨h1, h2⟩ := intFromArg_more E args more st2 hi
      obtain ⟨f1, f2⟩ := fin h2
      rw [f1]
      simp only [h1]
      exact ⟨trivial, f2⟩
    · rename_i hs
      obtain ⟨f1, f2⟩ := fin h
      rw [f1]
      refine ⟨?_, f2⟩
      dsimp only
      split
      · rename_i r3; exact absurd rfl (hs r3)
      · rfl
  · rename_i s hs
    exact ⟨rfl, h⟩

theorem verbPart_more {α : Type} (args more : List α) (o : Opts) (st : St) (s : Str)
    (h : (verbPart args o st s).2.1.inRange = true) :
    verbPart (args ++ more) o st s = verbPart args o st s ∧ st.inRange = true := by
  cases s with
  | nil => exact ⟨rfl, h⟩
  | cons c s =>
    simp only [verbPart] at h ⊢
    generalize Utf8.decode (c :: s) = q at h ⊢
    obtain ⟨rune, size⟩ := q
    dsimp only at h ⊢
    split at h
    · rename_i h37; simp only [if_pos h37]; exact ⟨trivial, h⟩
    · rename_i h37
      simp only [if_neg h37]
      split at h
      · rename_i hg; simp only [if_pos hg]; exact ⟨trivial, h⟩
      · rename_i hg
        simp only [if_neg hg]
        cases ha : args[st.argNum]? with
        | none => simp [ha] at h
        | some a =>
          obtain ⟨hlt, _⟩ := List.getElem?_eq_some_iff.mp ha
          rw [List.getElem?_append_left hlt, ha]
          simp [ha] at h
          exact ⟨rfl, h⟩

theorem directive_more {α : Type} (E : Env α) (args more : List α) (st : St) (s : Str)
    (h : (directive E args st s).2.1.inRange = true) :
    directive E (args ++ more) st s = directive E args st s ∧ st.inRange = true := by
  have hle : args.length ≤ (args ++ more).length := by simp
  unfold directive at h ⊢
  generalize flagsLoop {} s = q0 at h ⊢
  obtain ⟨o0, s0⟩ := q0
  dsimp only at h ⊢
  generalize h1 : argNumber args.length { st with good := true } s0 = q1 at h ⊢
  obtain ⟨st1, s1⟩ := q1
  dsimp only at h ⊢
  generalize h2 : widthPart E args o0 st1 s1 = q2 at h ⊢
  obtain ⟨p2, o2, st2, s2⟩ := q2
  dsimp only at h ⊢
  generalize h3 : precPart E args o2 st2 s2 = q3 at h ⊢
  obtain ⟨p3, o3, st3, s3⟩ := q3
  dsimp only at h ⊢
  generalize h4 : (if st3.after = true then (st3, s3) else argNumber args.length st3 s3) = q4 at h ⊢
  obtain ⟨st4, s4⟩ := q4
  dsimp only at h ⊢
  generalize h5 : verbPart args o3 st4 s4 = q5 at h ⊢
  obtain ⟨p5, st5, s5⟩ := q5
  dsimp only at h ⊢
  obtain ⟨e5, i4⟩ := verbPart_more args more o3 st4 s4 (by rw [h5]; exact h)
  have e4 : (if st3.after = true then (st3, s3) else argNumber (args ++ more).length st3 s3) = (st4, s4)
      ∧ st3.inRange = true := by
    by_cases ha : st3.after = true
    · rw [if_pos ha] at h4 ⊢
      cases h4
      exact ⟨rfl, i4⟩
    · rw [if_neg ha] at h4 ⊢
      have := argNumber_more args.length _ hle st3 s3 (by rw [h4]; exact i4)
      rw [this.1, h4]; exact ⟨rfl, this.2⟩
  obtain ⟨e3, i2⟩ := precPart_more E args more o2 st2 s2 (by rw [h3]; exact e4.2)
  obtain ⟨e2, i1⟩ := widthPart_more E args more o0 st1 s1 (by rw [h2]; exact i2)
  obtain ⟨e1, i0⟩ := argNumber_more args.length _ hle { st with good := true } s0 (by rw [h1]; exact i1)
  rw [e1, h1]; dsimp only
  rw [e2, h2]; dsimp only
  rw [e3, h3]; dsimp only
  rw [e4.1]; dsimp only
  rw [e5, h5]
  exact ⟨rfl, i0⟩

theorem run_more {α : Type} (E : Env α) (args more : List α) (fuel : Nat) (st : St) (s : Str)
    (h : (run E args fuel st s).2.inRange = true) :
    run E (args ++ more) fuel st s = run E args fuel st s ∧ st.inRange = true := by
  induction fuel generalizing st s with
  | zero => exact ⟨rfl, h⟩
  | succ f ih =>
    cases s with
    | nil => exact ⟨rfl, h⟩
    | cons c s =>
      simp only [run] at h ⊢
      split at h
      · rename_i hc
        simp only [if_pos hc]
        generalize hd : directive E args st s = q at h ⊢
        obtain ⟨p, st1, s1⟩ := q
        dsimp only at h ⊢
        obtain ⟨e, i⟩ := ih st1 s1 h
        obtain ⟨e1, i1⟩ := directive_more E args more st s (by rw [hd]; exact i)
        rw [e1, hd]; dsimp only; rw [e]
        exact ⟨rfl, i1⟩
      · rename_i hc
        simp only [if_neg hc]
        obtain ⟨e, i⟩ := ih st s h
        rw [e]
        exact ⟨rfl, i⟩

end Verif.Fmt
