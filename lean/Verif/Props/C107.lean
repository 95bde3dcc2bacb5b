import Verif.Spec.MoAlloc
import Verif.Props.C30_C33
/-!
# C107 What reading an MO file costs
-/
namespace Verif.Tr
open Verif

theorem readTableM_same (be : Bool) (c : Str) (n : Nat) : ∀ pos, (readTableM be c pos n).2 = readTable be c pos n := by
  induction n with
  | zero => intro pos; rfl
  | succ n ih =>
    intro pos
    unfold readTableM readTable
    cases readFull c pos 8 with
    | none => rfl
    | some s =>
      simp only [ih]
      cases readTable be c (pos + 8) n <;> rfl

theorem readMsgsM_same (c : Str) (ids strs : List LenOff) (k : Nat) : ∀ i f,
    (readMsgsM c ids strs i k f).2 = readMsgs c ids strs i k f := by
  induction k with
  | zero => intro i f; rfl
  | succ k ih =>
    intro i f
    unfold readMsgsM readMsgs
    cases ids[i]? with
    | none => rfl
    | some a =>
      simp only
      cases readFull c a.off a.len with
      | none => rfl
      | some id =>
        simp only
        cases strs[i]? with
        | none => rfl
        | some b =>
          simp only
          cases readFull c b.off b.len with
          | none => rfl
          | some str => exact ih _ _

theorem readMoBodyM_same (be : Bool) (c : Str) : (readMoBodyM be c).2 = readMoBody be c := by
  unfold readMoBodyM readMoBody
  cases readFull c 4 24 with
  | none => rfl
  | some h =>
    simp only [readTableM_same]
    split
    · rfl
    · split
      · rfl
      · split
        · next h => rw [h]
        · next h =>
          rw [h]
          simp only
          split
          · next h => rw [h]
          · next h =>
            rw [h]
            exact readMsgsM_same ..

/-- **C107** The events are those of `ReadMo`: the outcome is the same. -/
theorem C107_same (c : Str) : (readMoM c).2 = readMo c := by
  unfold readMoM readMo
  cases readFull c 0 4 with
  | none => rfl
  | some m =>
    simp only
    split
    · exact readMoBodyM_same ..
    · split
      · exact readMoBodyM_same ..
      · rfl

/-! ## Bounds -/

theorem readFull_le {c : Str} {pos n : Nat} {s : Str} (h : readFull c pos n = some s) : n ≤ c.length := by
  unfold readFull at h
  split at h
  · omega
  · split at h
    · omega
    · cases h

theorem readTableM_ev (be : Bool) (c : Str) (n : Nat) : ∀ pos, ∃ m, (readTableM be c pos n).1 = List.replicate m .descr ∧
    8 * m ≤ c.length + 8 - min pos c.length ∧ ((readTableM be c pos n).2.isSome → 8 * n ≤ c.length) := by
  induction n with
  | zero => exact fun pos => ⟨0, rfl, by omega, fun _ => by omega⟩
  | succ n ih =>
    intro pos
    unfold readTableM
    cases h : readFull c pos 8 with
    | none => exact ⟨1, rfl, by omega, by simp⟩
    | some s =>
      obtain ⟨m, h1, h2, h3⟩ := ih (pos + 8)
      have hp : pos + 8 ≤ c.length := by
        unfold readFull at h
        rw [if_neg (by omega)] at h
        split at h
        · assumption
        · cases h
      refine ⟨m + 1, by simp only [h1]; rfl, by omega, ?_⟩
      intro hs
      have hs' : (readTableM be c (pos + 8) n).2.isSome := by simpa using hs
      have : ∀ k p, (readTable be c p k).isSome → k ≠ 0 → p + 8 * k ≤ c.length := by
        intro k
        induction k with
        | zero => intro p _ h; exact absurd rfl h
        | succ k ihk =>
          intro p hs _
          unfold readTable at hs
          cases hf : readFull c p 8 with
          | none => rw [hf] at hs; simp at hs
          | some s =>
            have hpp : p + 8 ≤ c.length := by
              unfold readFull at hf
              rw [if_neg (by omega)] at hf
              split at hf
              · assumption
              · cases hf
            by_cases hk : k = 0
            · subst hk; omega
            · rw [hf] at hs
              simp only at hs
              cases ht : readTable be c (p + 8) k with
              | none => rw [ht] at hs; simp at hs
              | some t => have := ihk (p + 8) (by rw [ht]; rfl) hk; omega
      by_cases hn : n = 0
      · subst hn; omega
      · rw [readTableM_same] at hs'
        have := this n (pos + 8) hs' hn
        omega

theorem readMsgsM_ev (c : Str) (ids strs : List LenOff) (k : Nat) : ∀ i f, ∃ l : List Nat,
    (readMsgsM c ids strs i k f).1 = l.map .make ∧ l.length ≤ 2 * k ∧ (∀ n ∈ l, ∃ lo ∈ ids ++ strs, n = lo.len) ∧
      ∃ init last, l = init ++ last ∧ last.length ≤ 1 ∧ (∀ n ∈ init, n ≤ c.length) := by
  induction k with
  | zero => exact fun i f => ⟨[], rfl, by simp, by simp, [], [], rfl, by simp, by simp⟩
  | succ k ih =>
    intro i f
    unfold readMsgsM
    cases ha : ids[i]? with
    | none => exact ⟨[], rfl, by simp, by simp, [], [], rfl, by simp, by simp⟩
    | some a =>
      have ma := List.mem_of_getElem? ha
      simp only
      cases hra : readFull c a.off a.len with
      | none => exact ⟨[a.len], rfl, by simp; omega, by simpa using ⟨a, .inl ma, rfl⟩, [], [a.len], rfl, by simp, by simp⟩
      | some id =>
        have la := readFull_le hra
        simp only
        cases hb : strs[i]? with
        | none => exact ⟨[a.len], rfl, by simp; omega, by simpa using ⟨a, .inl ma, rfl⟩, [], [a.len], rfl, by simp, by simp⟩
        | some b =>
          have mb := List.mem_of_getElem? hb
          have two : ∀ n ∈ [a.len, b.len], ∃ lo ∈ ids ++ strs, n = lo.len := by
            intro n hn
            rw [List.mem_cons, List.mem_singleton] at hn
            rcases hn with rfl | rfl
            · exact ⟨a, List.mem_append_left _ ma, rfl⟩
            · exact ⟨b, List.mem_append_right _ mb, rfl⟩
          simp only
          cases hrb : readFull c b.off b.len with
          | none => exact ⟨[a.len, b.len], rfl, by simp, two, [a.len], [b.len], rfl, by simp, by simpa using la⟩
          | some str =>
            have lb := readFull_le hrb
            obtain ⟨l, h1, h2, h3, init, last, h4, h5, h6⟩ := ih (i + 1) (f.addEntry (moEntry id str))
            refine ⟨[a.len, b.len] ++ l, by simp [h1], by simp; omega, ?_, [a.len, b.len] ++ init, last, by rw [h4]; simp, h5, ?_⟩
            · intro n hn
              rcases List.mem_append.1 hn with hn | hn
              · exact two n hn
              · exact h3 n hn
            · intro n hn
              rcases List.mem_append.1 hn with hn | hn
              · rw [List.mem_cons, List.mem_singleton] at hn
                rcases hn with rfl | rfl <;> assumption
              · exact h6 n hn

theorem leNat_lt (s : Str) : leNat s < 256 ^ s.length := by
  induction s with
  | nil => simp [leNat]
  | cons b s ih =>
    have := b.toNat_lt
    unfold leNat
    rw [List.length_cons, Nat.pow_succ]
    omega

theorem readTable_len {be : Bool} {c : Str} {n pos : Nat} {los : List LenOff} (h : readTable be c pos n = some los) :
    ∀ lo ∈ los, lo.len < 2 ^ 32 := by
  induction n generalizing pos los with
  | zero => cases h; simp
  | succ n ih =>
    unfold readTable at h
    cases hf : readFull c pos 8 with
    | none => rw [hf] at h; cases h
    | some s =>
      rw [hf] at h
      simp only at h
      cases ht : readTable be c (pos + 8) n with
      | none => rw [ht] at h; cases h
      | some t =>
        rw [ht] at h
        cases h
        intro lo hlo
        rcases List.mem_cons.1 hlo with rfl | hlo
        · have hl : s.length = 8 := ((readFull_iff c pos 8 s).mp hf).1
          show leNat _ < 2 ^ 32
          have := leNat_lt (if be then (s.take 4).reverse else s.take 4)
          have h4 : (if be then (s.take 4).reverse else s.take 4).length = 4 := by cases be <;> simp [hl]
          rw [h4] at this
          exact this
        · exact ih ht lo hlo

theorem buffers_append (a b : List MoEv) : buffers (a ++ b) = buffers a ++ buffers b := List.filterMap_append

theorem buffers_descr (m : Nat) : buffers (List.replicate m .descr) = [] := by
  simp [buffers]

theorem buffers_make (l : List Nat) : buffers (l.map .make) = l := by
  induction l with
  | nil => rfl
  | cons a l ih => exact congrArg (a :: ·) ih

theorem descrs_append (a b : List MoEv) : descrs (a ++ b) = descrs a + descrs b := List.countP_append

theorem descrs_descr (m : Nat) : descrs (List.replicate m .descr) = m := by simp [descrs, List.countP_replicate]

theorem descrs_make (l : List Nat) : descrs (l.map .make) = 0 := by
  induction l with
  | nil => rfl
  | cons a l ih => simp [descrs]

/-- The bounds, for a list of events. -/
def Bounded (c : Str) (evs : List MoEv) : Prop :=
  4 * descrs evs ≤ c.length + 8 ∧ 4 * (buffers evs).length ≤ c.length ∧ (∀ n ∈ buffers evs, n < 2 ^ 32) ∧
    ∃ init last, buffers evs = init ++ last ∧ last.length ≤ 1 ∧ ∀ n ∈ init, n ≤ c.length

theorem bounded_descr {c : Str} {evs : List MoEv} {m : Nat} (h : evs = List.replicate m .descr) (hm : 4 * m ≤ c.length + 8) : Bounded c evs := by
  subst h
  refine ⟨by rw [descrs_descr]; exact hm, ?_, ?_, [], [], ?_, by simp, by simp⟩ <;> rw [buffers_descr] <;> simp

theorem readMoBodyM_bounded (be : Bool) (c : Str) : Bounded c (readMoBodyM be c).1 := by
  have none : Bounded c [] := bounded_descr (m := 0) rfl (by omega)
  unfold readMoBodyM
  cases readFull c 4 24 with
  | none => exact none
  | some h =>
    simp only
    split
    · exact none
    · split
      · exact none
      · generalize uintOf be ((h.drop 4).take 4) = n
        generalize uintOf be ((h.drop 8).take 4) = O
        generalize uintOf be ((h.drop 12).take 4) = T
        obtain ⟨m, a1, a2, a3⟩ := readTableM_ev be c n O
        obtain ⟨m', b1, b2, b3⟩ := readTableM_ev be c n T
        split
        · exact bounded_descr a1 (by omega)
        · next ids hids =>
          split
          · exact bounded_descr (m := m + m') (by rw [a1, b1, List.replicate_append_replicate]) (by omega)
          · next strs hstrs =>
            obtain ⟨l, h1, h2, h3, init, last, h4, h5, h6⟩ := readMsgsM_ev c ids strs n 0 {}
            have hn := a3 (by rw [hids]; rfl)
            rw [readTableM_same] at hids hstrs
            simp only
            rw [a1, b1, h1, List.replicate_append_replicate]
            have hb : buffers (List.replicate (m + m') .descr ++ l.map .make) = l := by
              rw [buffers_append, buffers_descr, buffers_make, List.nil_append]
            refine ⟨?_, ?_, ?_, init, last, ?_, h5, h6⟩
            · rw [descrs_append, descrs_descr, descrs_make]; omega
            · rw [hb]; omega
            · rw [hb]
              intro n hn
              obtain ⟨lo, hlo, rfl⟩ := h3 n hn
              rcases List.mem_append.1 hlo with hlo | hlo
              · exact readTable_len hids lo hlo
              · exact readTable_len hstrs lo hlo
            · rw [hb, h4]

theorem sum_le (l : List Nat) (m : Nat) (h : ∀ n ∈ l, n ≤ m) : l.sum ≤ l.length * m := by
  induction l with
  | nil => simp
  | cons a l ih =>
    have h1 := h a List.mem_cons_self
    have h2 := ih fun n hn => h n (List.mem_cons_of_mem _ hn)
    rw [List.sum_cons, List.length_cons, Nat.succ_mul]
    omega

/-- **C107** Whatever the content and the numbers in it: `ReadMo` reads at most two descriptors for eight bytes of content, two more, and
asks for at most one buffer for four bytes.  Every buffer but the last is at most as long as the content, and that one is below 4 GiB. -/
theorem C107_bounded (c : Str) :
    4 * descrs (readMoM c).1 ≤ c.length + 8 ∧ 4 * (buffers (readMoM c).1).length ≤ c.length ∧
    (∀ n ∈ buffers (readMoM c).1, n < 2 ^ 32) ∧
    (∃ init last, buffers (readMoM c).1 = init ++ last ∧ last.length ≤ 1 ∧ ∀ n ∈ init, n ≤ c.length) ∧
    4 * (buffers (readMoM c).1).sum < c.length * c.length + 4 * 2 ^ 32 := by
  have hb : Bounded c (readMoM c).1 := by
    have none : Bounded c [] := bounded_descr (m := 0) rfl (by omega)
    unfold readMoM
    cases readFull c 0 4 with
    | none => exact none
    | some m =>
      simp only
      split
      · exact readMoBodyM_bounded ..
      · split
        · exact readMoBodyM_bounded ..
        · exact none
  obtain ⟨h1, h2, h3, init, last, h4, h5, h6⟩ := hb
  refine ⟨h1, h2, h3, ⟨init, last, h4, h5, h6⟩, ?_⟩
  rw [h4] at h2 h3 ⊢
  rw [List.sum_append]
  rw [List.length_append] at h2
  have hi := sum_le init c.length h6
  have hl : last.sum < 2 ^ 32 := by
    match last, h5 with
    | [], _ => decide
    | [n], _ => simpa using h3 n (by simp)
  have : 4 * init.length * c.length ≤ c.length * c.length := Nat.mul_le_mul_right _ (by omega)
  have e : 4 * (init.length * c.length) = 4 * init.length * c.length := (Nat.mul_assoc ..).symm
  omega


/-! ## A file that is read -/

theorem readTableM_ok {be : Bool} {c : Str} {n : Nat} : ∀ {pos los}, readTable be c pos n = some los →
    (readTableM be c pos n).1 = List.replicate n .descr := by
  induction n with
  | zero => intros; rfl
  | succ n ih =>
    intro pos los h
    unfold readTable at h
    unfold readTableM
    cases hf : readFull c pos 8 with
    | none => rw [hf] at h; cases h
    | some s =>
      rw [hf] at h
      simp only at h ⊢
      cases ht : readTable be c (pos + 8) n with
      | none => rw [ht] at h; cases h
      | some t => rw [ih ht]; rfl

theorem readMsgsM_ok (c : Str) (ids strs : List LenOff) (ps : List (Str × Str)) : ∀ i f,
    (∀ j p, ps[j]? = some p → (∃ lo, ids[i + j]? = some lo ∧ StrOf c lo p.1) ∧ ∃ lo, strs[i + j]? = some lo ∧ StrOf c lo p.2) →
    (readMsgsM c ids strs i ps.length f).1 = ps.flatMap fun p => [.make p.1.length, .make p.2.length] := by
  induction ps with
  | nil => intros; rfl
  | cons p ps ih =>
    intro i f h
    obtain ⟨⟨a, ha, la, sa⟩, b, hb, lb, sb⟩ := h 0 p rfl
    rw [Nat.add_zero] at ha hb
    rw [List.length_cons]
    unfold readMsgsM
    rw [ha]
    simp only
    rw [(readFull_iff c a.off a.len p.1).mpr ⟨la, sa⟩, hb]
    simp only
    rw [(readFull_iff c b.off b.len p.2).mpr ⟨lb, sb⟩]
    simp only
    rw [ih (i + 1) _ fun j q hq => by rw [Nat.add_assoc, Nat.add_comm 1 j]; exact h (j + 1) q (by simpa using hq)]
    rw [List.flatMap_cons, la, lb]
    rfl

/-- **C107** An MO file is read with two descriptors and two buffers per message, of the lengths of its strings. -/
theorem C107_success (be : Bool) (c : Str) (ps : List (Str × Str)) (h : MoFile be c ps) :
    (readMoM c).1 = List.replicate (2 * ps.length) .descr ++ ps.flatMap fun p => [.make p.1.length, .make p.2.length] := by
  have body : (readMoBodyM be c).1 = List.replicate (2 * ps.length) .descr ++ ps.flatMap fun p => [.make p.1.length, .make p.2.length] := by
    obtain ⟨-, hlen, ⟨maj, min, hmaj, hmin, hmaj1, hmin1⟩, O, T, hN, hO, hT, hd⟩ := h
    have hhd : At c 4 ((c.drop 4).take 24) := by
      rw [at_iff]
      have : ((c.drop 4).take 24).length = 24 := by simp; omega
      rw [this]
      exact ⟨by omega, rfl⟩
    have hl : ((c.drop 4).take 24).length = 24 := by simp; omega
    unfold readMoBodyM
    rw [(readFull_iff c 4 24 _).mpr ⟨hl, .inr hhd⟩]
    generalize (c.drop 4).take 24 = hd' at hhd hl
    obtain ⟨f1, f2, f3, f4, f5⟩ := header_fields be c hd' hl hhd
    dsimp only
    rw [num16_unique f1 hmaj, num16_unique f2 hmin, num32_unique f3 hN, num32_unique f4 hO, num32_unique f5 hT]
    rw [if_neg (by omega), if_neg (by omega)]
    obtain ⟨ids, il, i1, i2⟩ := descr_list be c O (ps.map Prod.fst) (by
      intro i s hi
      simp only [List.getElem?_map, Option.map_eq_some_iff] at hi
      obtain ⟨p, hp, rfl⟩ := hi
      exact (hd i p hp).1)
    obtain ⟨strs, sl, s1, s2⟩ := descr_list be c T (ps.map Prod.snd) (by
      intro i s hi
      simp only [List.getElem?_map, Option.map_eq_some_iff] at hi
      obtain ⟨p, hp, rfl⟩ := hi
      exact (hd i p hp).2)
    rw [List.length_map] at il sl
    have t1 := (readTable_iff be c ps.length O ids).mpr ⟨il, i1⟩
    have t2 := (readTable_iff be c ps.length T strs).mpr ⟨sl, s1⟩
    rw [readTableM_same, t1, readTableM_same, t2]
    dsimp only
    rw [readTableM_ok t1, readTableM_ok t2, List.replicate_append_replicate, Nat.two_mul,
      readMsgsM_ok c ids strs ps 0 {} fun j p hj => by
        rw [Nat.zero_add]
        obtain ⟨g1, g2⟩ := getElem?_map_fst hj
        exact ⟨i2 j _ g1, s2 j _ g2⟩]
  have ha : At c 0 (magicOf be) := h.1
  have hl : (magicOf be).length = 4 := by cases be <;> rfl
  unfold readMoM
  rw [(readFull_iff c 0 4 _).mpr ⟨hl, .inr ha⟩]
  dsimp only
  rw [(magic_iff be _ hl).mpr rfl]
  cases be
  · rw [if_neg (by decide), if_pos (by decide)]
    exact body
  · rw [if_pos (by decide)]
    exact body

theorem buffers_pairs (ps : List (Str × Str)) (m : Nat) :
    (buffers (List.replicate m .descr ++ ps.flatMap fun p => [.make p.1.length, .make p.2.length])).sum =
      (ps.map fun p => p.1.length + p.2.length).sum := by
  rw [buffers_append, buffers_descr, List.nil_append]
  induction ps with
  | nil => rfl
  | cons p ps ih =>
    rw [List.flatMap_cons, buffers_append, List.sum_append, ih]
    simp [buffers]

/-- **C107** A file written by `SaveAsMo` and smaller than 4 GiB is read back with buffers that are shorter in total than the file. -/
theorem C107_saved (es : List Entry) (hlt : (saveMo es).length < 2 ^ 32) :
    (buffers (readMoM (saveMo es)).1).sum + 18 * es.length + 75 = (saveMo es).length := by
  have hf := hlt
  rw [C33_length]
  rw [saveMo_eq] at hf ⊢
  rw [C107_success _ _ _ (moImage_file _ _ _ hf), buffers_pairs]
  clear hf hlt
  induction es with
  | nil => rfl
  | cons e es ih =>
    simp only [List.map_cons, List.sum_cons, List.length_cons] at ih ⊢
    omega

example : (saveMo [{ id := b!"a", str := b!"bc" }]).length < 2 ^ 32 := by rw [C33_length]; decide

/-! ## The worst files -/

/-- A little endian header with `n` messages, both tables at 28. -/
def hostile (n : Nat) : Str := magicOf false ++ [0, 0, 0, 0] ++ put32 n ++ [28, 0, 0, 0, 28, 0, 0, 0, 0, 0, 0, 0, 0, 0, 0, 0]

theorem hostile_length (n : Nat) : (hostile n).length = 28 := rfl

/-- Every string is the whole file. -/
def selfish (k : Nat) : Str := hostile k ++ (List.replicate k (put32 (28 + 8 * k) ++ [0, 0, 0, 0])).flatten

theorem selfish_length (k : Nat) : (selfish k).length = 28 + 8 * k := by
  unfold selfish
  rw [List.length_append, hostile_length, List.length_flatten, List.map_replicate, List.sum_replicate_nat]
  show 28 + k * 8 = _
  omega

theorem at_flatten (k : Nat) (x : Str) (i : Nat) (h : i < k) : At (List.replicate k x).flatten (x.length * i) x := by
  refine ⟨(List.replicate i x).flatten, (List.replicate (k - i - 1) x).flatten, ?_, ?_⟩
  · have : k = i + (1 + (k - i - 1)) := by omega
    conv => lhs; rw [this]
    rw [← List.replicate_append_replicate, ← List.replicate_append_replicate, List.flatten_append, List.flatten_append, List.append_assoc]
    simp
  · rw [List.length_flatten, List.map_replicate, List.sum_replicate_nat]
    simp [Nat.mul_comm]

theorem at_behind {a c s : Str} {pos : Nat} (h : At c pos s) : At (a ++ c) (a.length + pos) s := by
  obtain ⟨pre, post, rfl, rfl⟩ := h
  exact ⟨a ++ pre, post, by simp, by simp⟩

theorem selfish_file (k : Nat) (hk : 28 + 8 * k < 2 ^ 32) : MoFile false (selfish k) (List.replicate k (selfish k, selfish k)) := by
  have zero : ∀ {pos}, At (selfish k) pos [0, 0, 0, 0] → Num32 false (selfish k) pos 0 := fun h => ⟨0, 0, 0, 0, h, rfl⟩
  refine ⟨⟨[], _, rfl, rfl⟩, by rw [selfish_length]; omega, ⟨0, 0, ⟨0, 0, ?_, rfl⟩, ⟨0, 0, ?_, rfl⟩, by omega, by omega⟩,
    28, 28, ?_, ⟨28, 0, 0, 0, ?_, rfl⟩, ⟨28, 0, 0, 0, ?_, rfl⟩, ?_⟩
  · exact ⟨magicOf false, _, rfl, rfl⟩
  · exact ⟨magicOf false ++ [0, 0], _, rfl, rfl⟩
  · rw [List.length_replicate]
    exact num32_putBe (be := false) ⟨magicOf false ++ [0, 0, 0, 0], _, rfl, rfl⟩ (by omega)
  · exact ⟨magicOf false ++ [0, 0, 0, 0] ++ put32 k, _, rfl, rfl⟩
  · exact ⟨magicOf false ++ [0, 0, 0, 0] ++ put32 k ++ [28, 0, 0, 0], _, rfl, rfl⟩
  · intro i p hp
    have hi : i < k := by
      have := (List.getElem?_eq_some_iff.mp hp).1
      simpa using this
    have hpe : p = (selfish k, selfish k) := List.eq_of_mem_replicate (List.mem_of_getElem? hp)
    subst hpe
    have ha : At (selfish k) (28 + 8 * i) (put32 (28 + 8 * k) ++ [0, 0, 0, 0]) :=
      at_behind (a := hostile k) (at_flatten k (put32 (28 + 8 * k) ++ [0, 0, 0, 0]) i hi)
    have : Described false (selfish k) 28 i (selfish k) :=
      ⟨0, ⟨by rw [selfish_length]; exact num32_putBe (be := false) (at_left ha) hk, zero (at_right ha)⟩,
        .inr ⟨[], [], by simp, rfl⟩⟩
    exact ⟨this, this⟩

/-- **C107** Nothing asks that the strings of a file be apart, so the buffers can take the square of its length: for every number of
messages there is a file that is read without an error and whose strings are all the file itself. -/
theorem C107_quadratic (k : Nat) (hk : 28 + 8 * k < 2 ^ 32) : ∃ c : Str, c.length = 28 + 8 * k ∧ (∃ f, readMo c = .ok f) ∧
    (buffers (readMoM c).1).sum = 2 * k * c.length := by
  have hf := selfish_file k hk
  refine ⟨selfish k, selfish_length k, ⟨_, readMo_of_file hf⟩, ?_⟩
  rw [C107_success _ _ _ hf, buffers_pairs, List.map_replicate, List.sum_replicate_nat]
  rw [← Nat.two_mul, Nat.mul_comm 2 k, Nat.mul_assoc]

/-- A 36-byte file that announces a string of `v` bytes. -/
def greedy (v : Nat) : Str := hostile 1 ++ (put32 v ++ [0, 0, 0, 0])

/-- **C107** A buffer is as long as the file says, before anything of the string is read: for every length that fits in the descriptor and is
more than 36, a file of 36 bytes makes `ReadMo` ask for a buffer of that length and then fail. -/
theorem C107_greedy (v : Nat) (h : 36 < v) (hv : v < 2 ^ 32) : ∃ c : Str, c.length = 36 ∧ buffers (readMoM c).1 = [v] ∧ readMo c = .err := by
  have key : readMoM (greedy v) = ([.descr, .descr, .make v], .err) := by
    have hu : uintOf false (put32 v) = v := uintOf_putBe false v hv
    have h0 : readFull (greedy v) 0 v = none := by
      unfold readFull
      rw [if_neg (by omega), if_neg (by show ¬ 0 + v ≤ 36; omega)]
    have ht : readTableM false (greedy v) 28 1 = ([.descr], some [{ len := uintOf false (put32 v), off := 0 }]) := rfl
    have hb : readMoM (greedy v) = readMoBodyM false (greedy v) := rfl
    have hc : readMoBodyM false (greedy v) =
      (let a := readTableM false (greedy v) 28 1
      match a.2 with
      | none => (a.1, .err)
      | some ids =>
        let b := readTableM false (greedy v) 28 1
        match b.2 with
        | none => (a.1 ++ b.1, .err)
        | some strs =>
          let r := readMsgsM (greedy v) ids strs 0 1 {}
          (a.1 ++ b.1 ++ r.1, r.2)) := rfl
    rw [hb, hc, ht, hu]
    simp [readMsgsM, h0]
  refine ⟨greedy v, rfl, by rw [key]; rfl, ?_⟩
  rw [← C107_same, key]

/-- **C107** On a platform with 64-bit integers no buffer is too long to ask for; with 32-bit integers `make` panics on a file of 36 bytes. -/
theorem C107_int : (∀ c, Fits (2 ^ 63 - 1) (readMoM c).1) ∧ ∃ c : Str, c.length = 36 ∧ ¬ Fits (2 ^ 31 - 1) (readMoM c).1 := by
  constructor
  · intro c n hn
    have := (C107_bounded c).2.2.1 n hn
    omega
  · obtain ⟨c, hc, hb, -⟩ := C107_greedy (2 ^ 32 - 1) (by decide) (by decide)
    refine ⟨c, hc, fun h => ?_⟩
    have := h (2 ^ 32 - 1) (by rw [hb]; simp)
    exact absurd this (by decide)

/-- The files do not fail early: the first is read, and its buffers take 72 bytes; the second asks for a gigabyte. -/
example : (buffers (readMoM (selfish 1)).1, buffers (readMoM (greedy (2 ^ 30))).1) = ([36, 36], [2 ^ 30]) := by
  decide +kernel

end Verif.Tr
