import Verif.Model.Mo
import Verif.Spec.Mo
import Verif.Lemmas.Strings
import Verif.Props.C19_C20
/-! # Reading MO files -/
namespace Verif.Tr
open Verif

/-! ## Bytes at positions -/

theorem at_iff (c : Str) (pos : Nat) (s : Str) :
    At c pos s ↔ pos + s.length ≤ c.length ∧ (c.drop pos).take s.length = s := by
  constructor
  · rintro ⟨pre, post, rfl, rfl⟩
    refine ⟨by simp, ?_⟩
    rw [List.append_assoc, List.drop_left, List.take_left]
  · rintro ⟨h1, h2⟩
    refine ⟨c.take pos, (c.drop pos).drop s.length, ?_, by simp; omega⟩
    conv_lhs => rw [← List.take_append_drop pos c, ← List.take_append_drop s.length (c.drop pos), h2]
    rw [List.append_assoc]

theorem at_unique {c : Str} {pos : Nat} {s t : Str} (hs : At c pos s) (ht : At c pos t)
    (hl : s.length = t.length) : s = t := by
  rw [at_iff] at hs ht
  rw [← hs.2, hl, ht.2]

theorem at_left {c : Str} {pos : Nat} {s t : Str} (h : At c pos (s ++ t)) : At c pos s := by
  obtain ⟨pre, post, rfl, hl⟩ := h
  exact ⟨pre, t ++ post, by simp, hl⟩

theorem at_right {c : Str} {pos : Nat} {s t : Str} (h : At c pos (s ++ t)) : At c (pos + s.length) t := by
  obtain ⟨pre, post, rfl, hl⟩ := h
  exact ⟨pre ++ s, post, by simp, by simp [hl]⟩

theorem at_append {c : Str} {pos : Nat} {s t : Str} (h1 : At c pos s) (h2 : At c (pos + s.length) t) :
    At c pos (s ++ t) := by
  obtain ⟨pre, post, rfl, rfl⟩ := h1
  obtain ⟨pre2, post2, he, hl⟩ := h2
  have : pre ++ s ++ post = (pre ++ s) ++ post := rfl
  obtain ⟨h3, h4⟩ := List.append_inj (s₁ := pre ++ s) (t₁ := post) (s₂ := pre2) (t₂ := t ++ post2)
    (by simpa using he) (by simp [hl])
  exact ⟨pre, post2, by rw [h4]; simp, rfl⟩

theorem readFull_iff (c : Str) (pos n : Nat) (s : Str) :
    readFull c pos n = some s ↔ s.length = n ∧ (s = [] ∨ At c pos s) := by
  unfold readFull
  constructor
  · intro h
    split at h
    · rename_i h0; cases h; exact ⟨h0.symm, .inl rfl⟩
    · split at h
      · rename_i h0 hle
        cases h
        have hl : ((c.drop pos).take n).length = n := by simp; omega
        refine ⟨hl, .inr ?_⟩
        rw [at_iff, hl]
        exact ⟨hle, rfl⟩
      · cases h
  · rintro ⟨rfl, h⟩
    by_cases h0 : s.length = 0
    · rw [if_pos h0, List.length_eq_zero_iff.mp h0]
    · rw [if_neg h0]
      rcases h with rfl | h
      · exact absurd rfl h0
      · rw [at_iff] at h
        rw [if_pos h.1, h.2]

theorem readFull_some_at {c : Str} {pos n : Nat} {s : Str} (h : readFull c pos n = some s) (hn : n ≠ 0) :
    s.length = n ∧ At c pos s := by
  obtain ⟨h1, h2⟩ := (readFull_iff c pos n s).mp h
  refine ⟨h1, ?_⟩
  rcases h2 with rfl | h2
  · exact absurd h1.symm hn
  · exact h2

/-! ## Numbers -/

theorem length_two {s : Str} (h : s.length = 2) : ∃ x y, s = [x, y] := by
  match s, h with
  | [x, y], _ => exact ⟨x, y, rfl⟩

theorem length_four {s : Str} (h : s.length = 4) : ∃ w x y z, s = [w, x, y, z] := by
  match s, h with
  | [w, x, y, z], _ => exact ⟨w, x, y, z, rfl⟩

theorem num16_iff (be : Bool) (c : Str) (pos v : Nat) :
    Num16 be c pos v ↔ ∃ s, s.length = 2 ∧ At c pos s ∧ uintOf be s = v := by
  constructor
  · rintro ⟨x, y, h, rfl⟩
    refine ⟨_, rfl, h, ?_⟩
    cases be <;> simp [uintOf, leNat] <;> omega
  · rintro ⟨s, hl, h, rfl⟩
    obtain ⟨x, y, rfl⟩ := length_two hl
    refine ⟨x, y, h, ?_⟩
    cases be <;> simp [uintOf, leNat] <;> omega

theorem num32_iff (be : Bool) (c : Str) (pos v : Nat) :
    Num32 be c pos v ↔ ∃ s, s.length = 4 ∧ At c pos s ∧ uintOf be s = v := by
  constructor
  · rintro ⟨w, x, y, z, h, rfl⟩
    refine ⟨_, rfl, h, ?_⟩
    cases be <;> simp [uintOf, leNat] <;> omega
  · rintro ⟨s, hl, h, rfl⟩
    obtain ⟨w, x, y, z, rfl⟩ := length_four hl
    refine ⟨w, x, y, z, h, ?_⟩
    cases be <;> simp [uintOf, leNat] <;> omega

theorem num32_unique {be : Bool} {c : Str} {pos v v' : Nat} (h : Num32 be c pos v) (h' : Num32 be c pos v') :
    v = v' := by
  rw [num32_iff] at h h'
  obtain ⟨s, hl, ha, rfl⟩ := h
  obtain ⟨t, hl', ha', rfl⟩ := h'
  rw [at_unique ha ha' (by omega)]

theorem num16_unique {be : Bool} {c : Str} {pos v v' : Nat} (h : Num16 be c pos v) (h' : Num16 be c pos v') :
    v = v' := by
  rw [num16_iff] at h h'
  obtain ⟨s, hl, ha, rfl⟩ := h
  obtain ⟨t, hl', ha', rfl⟩ := h'
  rw [at_unique ha ha' (by omega)]

/-- A slice of bytes at a position. -/
theorem at_slice {c : Str} {pos : Nat} {s : Str} (h : At c pos s) (i n : Nat) (hi : i + n ≤ s.length) :
    At c (pos + i) ((s.drop i).take n) ∧ ((s.drop i).take n).length = n := by
  have h2 : s = s.take i ++ ((s.drop i).take n ++ (s.drop i).drop n) := by
    rw [List.take_append_drop, List.take_append_drop]
  rw [h2] at h
  have h3 := at_left (at_right h)
  have hl : (s.take i).length = i := by simp; omega
  rw [hl] at h3
  exact ⟨h3, by simp; omega⟩

/-! ## The tables -/

theorem readTable_iff (be : Bool) (c : Str) (n : Nat) : ∀ pos los,
    readTable be c pos n = some los ↔ los.length = n ∧
      ∀ i lo, los[i]? = some lo → Descr be c pos i lo.len lo.off := by
  induction n with
  | zero =>
    intro pos los
    simp only [readTable, Option.some.injEq]
    constructor
    · rintro rfl; exact ⟨rfl, by simp⟩
    · rintro ⟨h, -⟩; exact (List.length_eq_zero_iff.mp h).symm
  | succ n ih =>
    intro pos los
    rw [readTable]
    constructor
    · intro h
      split at h
      · cases h
      · rename_i s hs
        split at h
        · cases h
        · rename_i t ht
          cases h
          obtain ⟨hl, ha⟩ := readFull_some_at hs (by omega)
          obtain ⟨ht1, ht2⟩ := (ih _ _).mp ht
          refine ⟨by simp [ht1], ?_⟩
          intro i lo hi
          cases i with
          | zero =>
            simp only [List.getElem?_cons_zero, Option.some.injEq] at hi
            subst hi
            obtain ⟨h1, l1⟩ := at_slice ha 0 4 (by omega)
            obtain ⟨h2, l2⟩ := at_slice ha 4 4 (by omega)
            refine ⟨(num32_iff _ _ _ _).mpr ⟨_, l1, h1, rfl⟩, (num32_iff _ _ _ _).mpr ⟨_, l2, h2, ?_⟩⟩
            congr 1
            apply List.take_of_length_le
            simp; omega
          | succ i =>
            simp only [List.getElem?_cons_succ] at hi
            have := ht2 i lo hi
            unfold Descr at this ⊢
            have e1 : pos + 8 + 8 * i = pos + 8 * (i + 1) := by omega
            rw [e1] at this
            exact this
    · rintro ⟨hl, h⟩
      cases los with
      | nil => simp at hl
      | cons lo los =>
        obtain ⟨h1, h2⟩ := h 0 lo rfl
        rw [num32_iff] at h1 h2
        obtain ⟨s1, l1, a1, v1⟩ := h1
        obtain ⟨s2, l2, a2, v2⟩ := h2
        have ha : At c pos (s1 ++ s2) := at_append a1 (by rw [l1]; exact a2)
        have hr := (readFull_iff c pos 8 (s1 ++ s2)).mpr ⟨by simp [l1, l2], .inr ha⟩
        have ht := (ih (pos + 8) los).mpr ⟨by simpa using hl, by
          intro i lo' hi
          have := h (i + 1) lo' (by simpa using hi)
          unfold Descr at this ⊢
          have e1 : pos + 8 + 8 * i = pos + 8 * (i + 1) := by omega
          rw [e1]
          exact this⟩
        rw [hr, ht]
        simp only [Option.some.injEq, List.cons.injEq, and_true]
        rw [List.take_left' l1, List.drop_left' l1, v1, v2]

/-! ## The messages -/

theorem readMsgs_ne_panic (c : Str) (ids strs : List LenOff) (k : Nat) : ∀ i f,
    i + k ≤ ids.length → i + k ≤ strs.length → readMsgs c ids strs i k f ≠ .panic := by
  induction k with
  | zero => intro i f _ _; simp [readMsgs]
  | succ k ih =>
    intro i f h1 h2
    rw [readMsgs]
    rw [List.getElem?_eq_getElem (by omega : i < ids.length), List.getElem?_eq_getElem (by omega : i < strs.length)]
    dsimp only
    split
    · simp
    · split
      · simp
      · exact ih _ _ (by omega) (by omega)

/-- The string of this descriptor. -/
def StrOf (c : Str) (lo : LenOff) (s : Str) : Prop := s.length = lo.len ∧ (s = [] ∨ At c lo.off s)

theorem readMsgs_iff (c : Str) (k : Nat) : ∀ (ids strs : List LenOff) i f g,
    i + k = ids.length → i + k = strs.length →
    (readMsgs c ids strs i k f = .ok g ↔ ∃ ps : List (Str × Str), ps.length = k ∧
      (∀ j p, ps[j]? = some p → (∃ lo, ids[i + j]? = some lo ∧ StrOf c lo p.1) ∧
        ∃ lo, strs[i + j]? = some lo ∧ StrOf c lo p.2) ∧
      g = (ps.map fun p => moEntry p.1 p.2).foldl File.addEntry f) := by
  induction k with
  | zero =>
    intro ids strs i f g _ _
    simp only [readMsgs, Res.ok.injEq]
    constructor
    · rintro rfl; exact ⟨[], rfl, by simp, rfl⟩
    · rintro ⟨ps, h, -, rfl⟩
      rw [List.length_eq_zero_iff.mp h]; rfl
  | succ k ih =>
    intro ids strs i f g h1 h2
    rw [readMsgs]
    have e1 := List.getElem?_eq_getElem (by omega : i < ids.length)
    have e2 := List.getElem?_eq_getElem (by omega : i < strs.length)
    rw [e1, e2]
    dsimp only
    constructor
    · intro h
      split at h
      · cases h
      · rename_i id hid
        split at h
        · cases h
        · rename_i str hstr
          obtain ⟨ps, hl, hp, rfl⟩ := (ih ids strs (i + 1) _ g (by omega) (by omega)).mp h
          refine ⟨(id, str) :: ps, by simp [hl], ?_, rfl⟩
          intro j p hj
          cases j with
          | zero =>
            simp only [List.getElem?_cons_zero, Option.some.injEq] at hj
            subst hj
            exact ⟨⟨_, e1, (readFull_iff _ _ _ _).mp hid⟩, ⟨_, e2, (readFull_iff _ _ _ _).mp hstr⟩⟩
          | succ j =>
            simp only [List.getElem?_cons_succ] at hj
            have := hp j p hj
            rwa [show i + 1 + j = i + (j + 1) by omega] at this
    · rintro ⟨ps, hl, hp, rfl⟩
      cases ps with
      | nil => simp at hl
      | cons p ps =>
        obtain ⟨⟨lo, hlo, hs⟩, ⟨lo', hlo', hs'⟩⟩ := hp 0 p rfl
        simp only [Nat.add_zero] at hlo hlo'
        rw [e1] at hlo; cases hlo
        rw [e2] at hlo'; cases hlo'
        rw [(readFull_iff _ _ _ _).mpr hs, (readFull_iff _ _ _ _).mpr hs']
        dsimp only
        refine (ih ids strs (i + 1) _ _ (by omega) (by omega)).mpr ⟨ps, by simpa using hl, ?_, rfl⟩
        intro j q hj
        have := hp (j + 1) q (by simpa using hj)
        rwa [show i + (j + 1) = i + 1 + j by omega] at this

/-! ## The whole file -/

/-- The file with these messages. -/
def moFileOf (ps : List (Str × Str)) : File := (ps.map fun p => moEntry p.1 p.2).foldl File.addEntry {}

/-- The list of descriptors of a table. -/
theorem descr_list (be : Bool) (c : Str) (pos : Nat) (ss : List Str)
    (h : ∀ (i : Nat) s, ss[i]? = some s → Described be c pos i s) :
    ∃ los : List LenOff, los.length = ss.length ∧ (∀ (i : Nat) lo, los[i]? = some lo → Descr be c pos i lo.len lo.off) ∧
      ∀ (i : Nat) s, ss[i]? = some s → ∃ lo, los[i]? = some lo ∧ StrOf c lo s := by
  induction ss generalizing pos with
  | nil => exact ⟨[], rfl, by simp, by simp⟩
  | cons s ss ih =>
    have shift : ∀ i len off, Descr be c (pos + 8) i len off ↔ Descr be c pos (i + 1) len off := by
      intro i len off
      unfold Descr
      rw [show pos + 8 + 8 * i = pos + 8 * (i + 1) by omega]
    obtain ⟨los, hl, h1, h2⟩ := ih (pos + 8) (by
      intro i s' hi
      obtain ⟨off, hd, hs⟩ := h (i + 1) s' (by simpa using hi)
      exact ⟨off, (shift _ _ _).mpr hd, hs⟩)
    obtain ⟨off, hd, hs⟩ := h 0 s rfl
    refine ⟨⟨s.length, off⟩ :: los, by simp [hl], ?_, ?_⟩
    · intro i lo hi
      cases i with
      | zero => simp only [List.getElem?_cons_zero, Option.some.injEq] at hi; subst hi; exact hd
      | succ i => exact (shift _ _ _).mp (h1 i lo (by simpa using hi))
    · intro i s' hi
      cases i with
      | zero =>
        simp only [List.getElem?_cons_zero, Option.some.injEq] at hi
        subst hi
        exact ⟨_, rfl, rfl, hs⟩
      | succ i => simpa using h2 i s' (by simpa using hi)

/-- The magic number of a byte order. -/
def magicOf (be : Bool) : Str := if be then [0x95, 0x04, 0x12, 0xde] else [0xde, 0x12, 0x04, 0x95]

theorem magic_iff (be : Bool) (m : Str) (h : m.length = 4) :
    uintOf false m = (if be then moMagicBig else moMagic) ↔ m = magicOf be := by
  obtain ⟨w, x, y, z, rfl⟩ := length_four h
  have hw := w.toNat_lt; have hx := x.toNat_lt; have hy := y.toNat_lt; have hz := z.toNat_lt
  constructor
  · intro h
    simp only [uintOf, Bool.false_eq_true, if_false, leNat, moMagic, moMagicBig] at h
    cases be
    · simp only [Bool.false_eq_true, if_false] at h
      have a1 : w = 0xde := UInt8.toNat_inj.mp (by change _ = 0xde; omega)
      have a2 : x = 0x12 := UInt8.toNat_inj.mp (by change _ = 0x12; omega)
      have a3 : y = 0x04 := UInt8.toNat_inj.mp (by change _ = 0x04; omega)
      have a4 : z = 0x95 := UInt8.toNat_inj.mp (by change _ = 0x95; omega)
      subst a1 a2 a3 a4; rfl
    · simp only [if_true] at h
      have a1 : w = 0x95 := UInt8.toNat_inj.mp (by change _ = 0x95; omega)
      have a2 : x = 0x04 := UInt8.toNat_inj.mp (by change _ = 0x04; omega)
      have a3 : y = 0x12 := UInt8.toNat_inj.mp (by change _ = 0x12; omega)
      have a4 : z = 0xde := UInt8.toNat_inj.mp (by change _ = 0xde; omega)
      subst a1 a2 a3 a4; rfl
  · intro h
    rw [h]
    cases be <;> decide

/-- The fields of the fixed header. -/
theorem header_fields (be : Bool) (c h : Str) (hh : h.length = 24) (ha : At c 4 h) :
    Num16 be c 4 (uintOf be (h.take 2)) ∧ Num16 be c 6 (uintOf be ((h.drop 2).take 2)) ∧
    Num32 be c 8 (uintOf be ((h.drop 4).take 4)) ∧ Num32 be c 12 (uintOf be ((h.drop 8).take 4)) ∧
    Num32 be c 16 (uintOf be ((h.drop 12).take 4)) := by
  obtain ⟨a1, l1⟩ := at_slice ha 0 2 (by omega)
  obtain ⟨a2, l2⟩ := at_slice ha 2 2 (by omega)
  obtain ⟨a3, l3⟩ := at_slice ha 4 4 (by omega)
  obtain ⟨a4, l4⟩ := at_slice ha 8 4 (by omega)
  obtain ⟨a5, l5⟩ := at_slice ha 12 4 (by omega)
  exact ⟨(num16_iff ..).mpr ⟨_, l1, a1, rfl⟩, (num16_iff ..).mpr ⟨_, l2, a2, rfl⟩,
    (num32_iff ..).mpr ⟨_, l3, a3, rfl⟩, (num32_iff ..).mpr ⟨_, l4, a4, rfl⟩, (num32_iff ..).mpr ⟨_, l5, a5, rfl⟩⟩

theorem readMoBody_ne_panic (be : Bool) (c : Str) : readMoBody be c ≠ .panic := by
  unfold readMoBody
  split
  · simp
  · dsimp only
    split
    · simp
    · split
      · simp
      · split
        · simp
        · rename_i ids hids
          split
          · simp
          · rename_i strs hstrs
            have h1 := ((readTable_iff _ _ _ _ _).mp hids).1
            have h2 := ((readTable_iff _ _ _ _ _).mp hstrs).1
            exact readMsgs_ne_panic _ _ _ _ _ _ (by omega) (by omega)

theorem readMo_ne_panic (c : Str) : readMo c ≠ .panic := by
  unfold readMo
  split
  · simp
  · dsimp only
    split
    · exact readMoBody_ne_panic _ _
    · split
      · exact readMoBody_ne_panic _ _
      · simp

theorem getElem?_map_fst {ps : List (Str × Str)} {i : Nat} {p : Str × Str} (h : ps[i]? = some p) :
    (ps.map Prod.fst)[i]? = some p.1 ∧ (ps.map Prod.snd)[i]? = some p.2 := by simp [h]

theorem readMoBody_iff (be : Bool) (c : Str) (hm : At c 0 (magicOf be)) (g : File) :
    readMoBody be c = .ok g ↔ ∃ ps, MoFile be c ps ∧ g = moFileOf ps := by
  unfold readMoBody
  constructor
  · intro h
    split at h
    · cases h
    · rename_i hd hhd
      obtain ⟨hl, ha⟩ := readFull_some_at hhd (by omega)
      obtain ⟨f1, f2, f3, f4, f5⟩ := header_fields be c hd hl ha
      dsimp only at h
      split at h
      · cases h
      · rename_i hmaj
        split at h
        · cases h
        · rename_i hmin
          split at h
          · cases h
          · rename_i ids hids
            split at h
            · cases h
            · rename_i strs hstrs
              obtain ⟨i1, i2⟩ := (readTable_iff _ _ _ _ _).mp hids
              obtain ⟨s1, s2⟩ := (readTable_iff _ _ _ _ _).mp hstrs
              obtain ⟨ps, hpl, hps, rfl⟩ := (readMsgs_iff _ _ _ _ _ _ _ (by omega) (by omega)).mp h
              refine ⟨ps, ⟨hm, ?_, ⟨_, _, f1, f2, by omega, by omega⟩, _, _, by rw [hpl]; exact f3, f4, f5, ?_⟩, rfl⟩
              · have := ((at_iff _ _ _).mp ha).1; omega
              · intro i p hi
                obtain ⟨⟨lo, hlo, hs⟩, ⟨lo', hlo', hs'⟩⟩ := hps i p hi
                rw [Nat.zero_add] at hlo hlo'
                exact ⟨⟨lo.off, by rw [hs.1]; exact i2 i lo hlo, hs.2⟩,
                  ⟨lo'.off, by rw [hs'.1]; exact s2 i lo' hlo', hs'.2⟩⟩
  · rintro ⟨ps, ⟨-, hlen, ⟨maj, min, hmaj, hmin, hmaj1, hmin1⟩, O, T, hN, hO, hT, hd⟩, rfl⟩
    have hhd : At c 4 ((c.drop 4).take 24) := by
      rw [at_iff]
      have : ((c.drop 4).take 24).length = 24 := by simp; omega
      rw [this]
      exact ⟨by omega, rfl⟩
    have hl : ((c.drop 4).take 24).length = 24 := by simp; omega
    rw [(readFull_iff c 4 24 _).mpr ⟨hl, .inr hhd⟩]
    generalize (c.drop 4).take 24 = hd' at hhd hl
    obtain ⟨f1, f2, f3, f4, f5⟩ := header_fields be c hd' hl hhd
    dsimp only
    rw [num16_unique f1 hmaj, num16_unique f2 hmin, num32_unique f3 hN, num32_unique f4 hO, num32_unique f5 hT]
    rw [if_neg (by omega), if_neg (by omega)]
    obtain ⟨ids, il, i1, i2⟩ := descr_list be c O (ps.map Prod.fst) (by
      intro i s hi
      simp only [List.getElem?_map, Option.map_eq_some_iff] at hi
      obtain ⟨p, hp, rfl⟩ := hi
      exact (hd i p hp).1)
    obtain ⟨strs, sl, s1, s2⟩ := descr_list be c T (ps.map Prod.snd) (by
      intro i s hi
      simp only [List.getElem?_map, Option.map_eq_some_iff] at hi
      obtain ⟨p, hp, rfl⟩ := hi
      exact (hd i p hp).2)
    rw [List.length_map] at il sl
    rw [(readTable_iff be c ps.length O ids).mpr ⟨il, i1⟩, (readTable_iff be c ps.length T strs).mpr ⟨sl, s1⟩]
    dsimp only
    refine (readMsgs_iff _ _ _ _ _ _ _ (by omega) (by omega)).mpr ⟨ps, rfl, ?_, rfl⟩
    intro j p hj
    rw [Nat.zero_add]
    obtain ⟨g1, g2⟩ := getElem?_map_fst hj
    exact ⟨i2 j _ g1, s2 j _ g2⟩

/-- Reading succeeds exactly on MO files, with the messages in them. -/
theorem readMo_iff (c : Str) (g : File) :
    readMo c = .ok g ↔ ∃ be ps, MoFile be c ps ∧ g = moFileOf ps := by
  unfold readMo
  constructor
  · intro h
    split at h
    · cases h
    · rename_i m hm
      obtain ⟨hl, ha⟩ := readFull_some_at hm (by omega)
      dsimp only at h
      split at h
      · rename_i hb
        have : m = magicOf true := (magic_iff true m hl).mp hb
        rw [this] at ha
        exact ⟨true, (readMoBody_iff true c ha g).mp h⟩
      · split at h
        · rename_i hb
          have : m = magicOf false := (magic_iff false m hl).mp hb
          rw [this] at ha
          exact ⟨false, (readMoBody_iff false c ha g).mp h⟩
        · cases h
  · rintro ⟨be, ps, h, rfl⟩
    have ha : At c 0 (magicOf be) := h.1
    have hl : (magicOf be).length = 4 := by cases be <;> rfl
    rw [(readFull_iff c 0 4 _).mpr ⟨hl, .inr ha⟩]
    dsimp only
    rw [(magic_iff be _ hl).mpr rfl]
    cases be
    · rw [if_neg (by decide), if_pos (by decide)]
      exact (readMoBody_iff false c ha _).mpr ⟨ps, h, rfl⟩
    · rw [if_pos (by decide)]
      exact (readMoBody_iff true c ha _).mpr ⟨ps, h, rfl⟩

/-! ## What an id and a string stand for -/

theorem cut_iff (x : UInt8) (s : Str) : (GoStr.indexByte x s = none ∧ x ∉ s) ∨
    ∃ a r, s = a ++ x :: r ∧ x ∉ a ∧ GoStr.indexByte x s = some a.length := by
  cases h : GoStr.indexByte x s with
  | none => exact .inl ⟨rfl, indexByte_none_iff _ _ h⟩
  | some i =>
    obtain ⟨a, r, h1, h2, h3⟩ := indexByte_spec x s i h
    exact .inr ⟨a, r, h1, h2, by rw [h3]⟩

/-- The part of `moEntry` after the context. -/
def moBody (ctxt id str : Str) : Entry :=
  match GoStr.indexByte 0 id with
  | some i =>
    { ctxt := ctxt, id := id.take i, id2 := id.drop (i + 1), isPlural := true,
      strN := GoStr.splitByte 0 str }
  | none => { ctxt := ctxt, id := id, str := str }

theorem join_eq_intercalate (sep : Str) (l : List Str) : GoStr.join sep l = List.intercalate sep l := by
  induction l with
  | nil => rfl
  | cons a l ih =>
    cases l with
    | nil => simp [GoStr.join, List.intercalate]
    | cons b l => 
      rw [GoStr.join, ih]
      simp [List.intercalate, List.intersperse]

theorem moBody_iff (ctxt rest str : Str) (e : Entry) :
    (e.cmts = [] ∧ e.ctxt = ctxt ∧ BodyOf rest str e) ↔ e = moBody ctxt rest str := by
  unfold moBody BodyOf
  rcases cut_iff 0 rest with ⟨h1, h2⟩ | ⟨a, r, rfl, h2, h1⟩
  · rw [h1]
    dsimp only
    constructor
    · rintro ⟨hc, rfl, h | ⟨id, id2, rfl, -⟩⟩
      · obtain ⟨-, e1, e2, e3, e4, e5⟩ := h
        cases e; simp_all
      · simp at h2
    · rintro rfl
      exact ⟨rfl, rfl, .inl ⟨h2, rfl, rfl, rfl, rfl, rfl⟩⟩
  · rw [h1]
    simp only [List.take_left, List.drop_length_add_append]
    constructor
    · rintro ⟨hc, rfl, h | ⟨id, id2, heq, hid, e1, e2, e3, e4, e5, e6, e7⟩⟩
      · simp at h
      · obtain ⟨rfl, rfl⟩ := GoStr.first_occurrence 0 _ _ _ _ h2 hid heq
        rw [e7, GoStr.splitByte_intercalate 0 _ e5 e6]
        cases e; simp_all
    · rintro rfl
      refine ⟨rfl, rfl, .inr ⟨a, r, rfl, h2, rfl, rfl, by simp, rfl, GoStr.splitByte_ne_nil _ _,
        GoStr.splitByte_not_mem _ _, (GoStr.intercalate_splitByte _ _).symm⟩⟩

theorem moMsg_iff (id str : Str) (e : Entry) : MoMsg id str e ↔ e = moEntry id str := by
  unfold MoMsg
  have hm : moEntry id str = match GoStr.indexByte 4 id with
      | some i => moBody (id.take i) (id.drop (i + 1)) str
      | none => moBody [] id str := by
    unfold moEntry moBody
    cases GoStr.indexByte 4 id <;> rfl
  rw [hm]
  rcases cut_iff 4 id with ⟨h1, h2⟩ | ⟨a, r, rfl, h2, h1⟩
  · rw [h1]
    dsimp only
    rw [← moBody_iff]
    constructor
    · rintro ⟨hc, ⟨-, h⟩ | ⟨c, rest, rfl, -⟩⟩
      · exact ⟨hc, h⟩
      · simp at h2
    · rintro ⟨hc, h⟩
      exact ⟨hc, .inl ⟨h2, h⟩⟩
  · rw [h1]
    dsimp only
    have hd : (a ++ 4 :: r).drop (a.length + 1) = r := by simp
    rw [List.take_left, hd, ← moBody_iff]
    constructor
    · rintro ⟨hc, ⟨h, -⟩ | ⟨c, rest, heq, hn, hx, hb⟩⟩
      · simp at h
      · obtain ⟨rfl, rfl⟩ := GoStr.first_occurrence 4 _ _ _ _ h2 hn heq
        exact ⟨hc, hx, hb⟩
    · rintro ⟨hc, hx, hb⟩
      exact ⟨hc, .inr ⟨a, r, rfl, h2, hx, hb⟩⟩

end Verif.Tr
