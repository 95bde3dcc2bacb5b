import Verif.Props.C21_C27
import Verif.Model.Mo
import Mathlib.Data.List.Sort
/-! # C28, C29: the order of saved entries -/
namespace Verif.Tr
open Verif
set_option linter.unusedSimpArgs false

theorem str_trichotomy (a b : Str) (h1 : ¬ a < b) (h2 : ¬ b < a) : a = b := by
  induction a generalizing b with
  | nil =>
    cases b with
    | nil => rfl
    | cons y b => exact absurd (List.nil_lt_cons y b) h1
  | cons x a ih =>
    cases b with
    | nil => exact absurd (List.nil_lt_cons x a) h2
    | cons y b =>
      rw [List.cons_lt_cons_iff] at h1 h2
      have hxy : x = y := by
        apply UInt8.toNat_inj.mp
        have a1 : ¬ x < y := fun h => h1 (.inl h)
        have a2 : ¬ y < x := fun h => h2 (.inl h)
        rw [UInt8.lt_iff_toNat_lt] at a1 a2
        omega
      subst hxy
      rw [ih b (fun h => h1 (.inr ⟨rfl, h⟩)) (fun h => h2 (.inr ⟨rfl, h⟩))]

/-- Two arrangements sorted by injective keys are equal. -/
theorem sorted_unique (es es' : List Entry) (hp : es.Perm es')
    (h : es.Pairwise fun a b => ¬ b.sortKey < a.sortKey) (h' : es'.Pairwise fun a b => ¬ b.sortKey < a.sortKey)
    (hk : (es.map Entry.sortKey).Nodup) : es = es' := by
  induction es generalizing es' with
  | nil => rw [List.nil_perm.mp hp]
  | cons e es ih =>
    cases es' with
    | nil => exact absurd hp.symm (by simp)
    | cons e' es' =>
      have he : e = e' := by
        by_contra hne
        have m1 : e' ∈ es := by
          have : e' ∈ e :: es := hp.mem_iff.mpr (by simp)
          simp only [List.mem_cons] at this
          rcases this with h | h
          · exact absurd h.symm hne
          · exact h
        have m2 : e ∈ es' := by
          have : e ∈ e' :: es' := hp.mem_iff.mp (by simp)
          simp only [List.mem_cons] at this
          rcases this with h | h
          · exact absurd h hne
          · exact h
        have k1 := (List.pairwise_cons.mp h).1 e' m1
        have k2 := (List.pairwise_cons.mp h').1 e m2
        have := str_trichotomy _ _ k1 k2
        rw [List.map_cons, List.nodup_cons] at hk
        exact hk.1 (by rw [← this]; exact List.mem_map_of_mem m1)
      subst he
      rw [ih es' (List.perm_cons _ |>.mp hp) (List.pairwise_cons.mp h).2 (List.pairwise_cons.mp h').2
        (by rw [List.map_cons, List.nodup_cons] at hk; exact hk.2)]

/-- **C28** If no two entries have the same sort key, the order of entries, and so the saved PO and
POT text, does not depend on the iteration order of the map nor on the sort algorithm: `f'` holds the
same entries in another order. -/
theorem C28_deterministic (P : Nat → Bool) (f f' : File) (hff : f.entries.Perm f'.entries)
    (es es' : List Entry) (hs : SortedEntry f es) (hs' : SortedEntry f' es')
    (hk : (f.entries.vals.map Entry.sortKey).Nodup) :
    es = es' ∧ savePo P es = savePo P es' ∧ savePot P es = savePot P es' ∧ saveMo es = saveMo es' := by
  have hp : es.Perm es' := hs.1.trans (List.Perm.trans (hff.map Prod.snd) hs'.1.symm)
  have hk' : (es.map Entry.sortKey).Nodup := (hs.1.map Entry.sortKey).nodup_iff.mpr hk
  have := sorted_unique es es' hp hs.2 hs'.2 hk'
  subst this
  exact ⟨rfl, rfl, rfl, rfl⟩

theorem sortKey_nil (e : Entry) : e.sortKey = [] ↔ e.id = [] := by
  unfold Entry.sortKey Entry.isHeader
  by_cases h : e.id = [] <;> simp [h, Entry.key, key]

/-- **C28** The header entry comes first. -/
theorem C28_header_first (f : File) (es : List Entry) (hs : SortedEntry f es)
    (hk : (f.entries.vals.map Entry.sortKey).Nodup) (e : Entry) (he : e ∈ f.entries.vals) (hid : e.id = []) :
    ∃ rest, es = e :: rest := by
  have hm : e ∈ es := hs.1.mem_iff.mpr he
  have hk' : (es.map Entry.sortKey).Nodup := (hs.1.map Entry.sortKey).nodup_iff.mpr hk
  cases es with
  | nil => cases hm
  | cons x rest =>
    refine ⟨rest, ?_⟩
    simp only [List.mem_cons] at hm
    rcases hm with rfl | hm
    · rfl
    · exfalso
      have h1 := (List.pairwise_cons.mp hs.2).1 e hm
      have h0 := (sortKey_nil e).mpr hid
      rw [h0] at h1
      have hx : x.sortKey = [] := by
        cases hx : x.sortKey with
        | nil => rfl
        | cons a b => rw [hx] at h1; exact absurd (List.nil_lt_cons a b) h1
      rw [List.map_cons, List.nodup_cons] at hk'
      exact hk'.1 (by rw [hx, ← h0]; exact List.mem_map_of_mem hm)

/-- A file with distinct sort keys and two iteration orders of its map. -/
example : ∃ f f' : File, ∃ es, f.entries.Perm f'.entries ∧ f.entries ≠ f'.entries ∧
    SortedEntry f es ∧ SortedEntry f' es ∧ (f.entries.vals.map Entry.sortKey).Nodup ∧ es.length = 2 := by
  let e0 : Entry := { str := b!"h" }
  let e1 : Entry := { id := b!"x", str := b!"z" }
  refine ⟨{ entries := [(e1.key, e1), (e0.key, e0)] }, { entries := [(e0.key, e0), (e1.key, e1)] }, [e0, e1],
    by decide, by decide, ⟨by decide, ?_⟩, ⟨by decide, ?_⟩, by decide, rfl⟩
  · simp only [List.pairwise_cons, List.mem_cons, List.not_mem_nil, or_false, forall_eq,
      IsEmpty.forall_iff, implies_true, and_true]
    decide
  · simp only [List.pairwise_cons, List.mem_cons, List.not_mem_nil, or_false, forall_eq,
      IsEmpty.forall_iff, implies_true, and_true]
    decide

/-- The claim of C28 without the proviso. -/
def C28_full : Prop := ∀ (P : Nat → Bool) (f : File) (es es' : List Entry), Consistent f →
  SortedEntry f es → SortedEntry f es' → savePo P es = savePo P es'

/-- **C28** Without the proviso the output may differ from run to run: entries with empty ids and
different contexts have the same sort key. -/
theorem C28_counterexample : ¬ C28_full := by
  intro h
  let e0 : Entry := { ctxt := b!"a", str := b!"h" }
  let e1 : Entry := { ctxt := b!"b", str := b!"h" }
  have hsort : ∀ es : List Entry, es = [e0, e1] ∨ es = [e1, e0] →
      SortedEntry { entries := [(e0.key, e0), (e1.key, e1)] } es := by
    rintro es (rfl | rfl)
    · refine ⟨by decide, ?_⟩
      simp only [List.pairwise_cons, List.mem_cons, List.not_mem_nil, or_false, forall_eq,
        IsEmpty.forall_iff, implies_true, and_true]
      decide
    · refine ⟨by decide, ?_⟩
      simp only [List.pairwise_cons, List.mem_cons, List.not_mem_nil, or_false, forall_eq,
        IsEmpty.forall_iff, implies_true, and_true]
      decide
  have := h asciiPrint { entries := [(e0.key, e0), (e1.key, e1)] } [e0, e1] [e1, e0] ⟨by decide, by decide⟩
    (hsort _ (.inl rfl)) (hsort _ (.inr rfl))
  revert this
  decide +kernel

/-- **C28** Also a context that imitates a reference comment produces a tie. -/
theorem C28_tie : (⟨[], b!"#:a", b!"x", false, [], b!"y", []⟩ : Entry).sortKey =
    (⟨[b!"#:"], b!"a", b!"x", false, [], b!"y", []⟩ : Entry).sortKey := by decide

theorem lt_append_left (a x y : Str) (h : x < y) : a ++ x < a ++ y := by
  induction a with
  | nil => exact h
  | cons c a ih => rw [List.cons_append, List.cons_append, List.cons_lt_cons_iff]; exact .inr ⟨rfl, ih⟩

theorem lt_append_right (a b x y : Str) (hl : a.length = b.length) (h : a < b) : a ++ x < b ++ y := by
  induction a generalizing b with
  | nil =>
    cases b with
    | nil => exact absurd h (List.lt_irrefl [])
    | cons => simp at hl
  | cons c a ih =>
    cases b with
    | nil => simp at hl
    | cons d b =>
      rw [List.cons_lt_cons_iff] at h
      rw [List.cons_append, List.cons_append, List.cons_lt_cons_iff]
      rcases h with h | ⟨rfl, h⟩
      · exact .inl h
      · exact .inr ⟨rfl, ih b (by simpa using hl) h⟩

/-- Blank-padded numbers, zero being all blank. -/
def padz : Nat → Nat → Str
  | 0, _ => []
  | k + 1, v => padz k (v / 10) ++ [if v = 0 then 32 else UInt8.ofNat (48 + v % 10)]

theorem padz_length (k v : Nat) : (padz k v).length = k := by
  induction k generalizing v with
  | zero => rfl
  | succ k ih => simp [padz, ih]

theorem digit_lt (a b : Nat) (h : a < b) (hb : b < 10) : UInt8.ofNat (48 + a) < UInt8.ofNat (48 + b) := by
  rw [UInt8.lt_iff_toNat_lt, UInt8.toNat_ofNat', UInt8.toNat_ofNat']
  omega

theorem single_lt (a b : UInt8) (h : a < b) : [a] < [b] := by
  rw [List.cons_lt_cons_iff]; exact .inl h

theorem padz_lt (k v w : Nat) (h : v < w) (hw : w < 10 ^ k) : padz k v < padz k w := by
  induction k generalizing v w with
  | zero => simp at hw; omega
  | succ k ih =>
    have hw' : w / 10 < 10 ^ k := by
      rw [Nat.div_lt_iff_lt_mul (by decide)]
      rwa [Nat.pow_succ] at hw
    rcases Nat.lt_or_ge (v / 10) (w / 10) with hlt | hge
    · exact lt_append_right _ _ _ _ (by rw [padz_length, padz_length]) (ih _ _ hlt hw')
    · have he : v / 10 = w / 10 := by omega
      rw [padz, padz, he]
      apply lt_append_left
      apply single_lt
      rw [if_neg (by omega : w ≠ 0)]
      by_cases hv : v = 0
      · rw [if_pos hv, UInt8.lt_iff_toNat_lt, UInt8.toNat_ofNat']
        show 32 < _
        omega
      · rw [if_neg hv]
        exact digit_lt _ _ (by omega) (by omega)

theorem padz_zero (k : Nat) : padz k 0 = List.replicate k 32 := by
  induction k with
  | zero => rfl
  | succ k ih => rw [padz, Nat.zero_div, ih, if_pos rfl, List.replicate_succ']

theorem digitsAux_length_pos (f n : Nat) (h : 0 < f) : 0 < (Num.digitsAux f n).length := by
  cases f with
  | zero => omega
  | succ f => rw [Num.digitsAux]; split <;> simp

theorem digits_pad (k : Nat) : ∀ f n, n < f → n < 10 ^ (k + 1) →
    List.replicate (k + 1 - (Num.digitsAux f n).length) 32 ++ Num.digitsAux f n =
      padz k (n / 10) ++ [UInt8.ofNat (48 + n % 10)] := by
  induction k with
  | zero =>
    intro f n hf hn
    cases f with
    | zero => omega
    | succ f =>
      have : n < 10 := by simpa using hn
      rw [Num.digitsAux, if_pos this]
      have h2 : n % 10 = n := by omega
      simp [padz, h2]
  | succ k ih =>
    intro f n hf hn
    cases f with
    | zero => omega
    | succ f =>
      rw [Num.digitsAux]
      by_cases h : n < 10
      · rw [if_pos h]
        have h2 : n % 10 = n := by omega
        have h3 : n / 10 = 0 := by omega
        rw [h2, h3, padz_zero]
        simp
      · rw [if_neg h]
        have hn' : n / 10 < 10 ^ (k + 1) := by
          rw [Nat.div_lt_iff_lt_mul (by decide)]
          rwa [Nat.pow_succ] at hn
        have := ih f (n / 10) (by omega) hn'
        have hlen : k + 1 + 1 - (Num.digitsAux f (n / 10) ++ [UInt8.ofNat (48 + n % 10)]).length =
            k + 1 - (Num.digitsAux f (n / 10)).length := by
          rw [List.length_append, List.length_singleton]; omega
        rw [hlen, ← List.append_assoc, this, padz, if_neg (by omega)]

theorem pad10_eq (n : Nat) (h : n < 10 ^ 10) :
    Num.pad10 n = padz 9 (n / 10) ++ [UInt8.ofNat (48 + n % 10)] :=
  digits_pad 9 (n + 1) n (by omega) h

theorem pad10_lt (n m : Nat) (h : n < m) (hm : m < 10 ^ 10) (x y : Str) :
    Num.pad10 n ++ x < Num.pad10 m ++ y := by
  apply lt_append_right
  · rw [pad10_eq n (by omega), pad10_eq m hm]; simp [padz_length]
  · rw [pad10_eq n (by omega), pad10_eq m hm]
    rcases Nat.lt_or_ge (n / 10) (m / 10) with hlt | hge
    · exact lt_append_right _ _ _ _ (by rw [padz_length, padz_length]) (padz_lt 9 _ _ hlt (by omega))
    · have he : n / 10 = m / 10 := by omega
      rw [he]
      apply lt_append_left
      exact single_lt _ _ (digit_lt _ _ (by omega) (by omega))

/-- The first reference of the entry is line `n` of `file`: the comment `#: file:n`, possibly followed
by a column (`:…`) or further references. -/
def RefersTo (e : Entry) (file : Str) (n : Nat) : Prop :=
  ∃ pre tail post, e.cmts = pre ++ (b!"#: " ++ file ++ b!":" ++ Num.natDigits n ++ tail) :: post ∧
    (∀ c ∈ pre, ¬ b!"#:" <+: c) ∧ (tail = [] ∨ ∃ t, tail = 58 :: t ∨ tail = 32 :: t)

theorem join_nil (l : List Str) : GoStr.join [] l = l.flatten := by
  match l with
  | [] => rfl
  | [p] => simp [GoStr.join]
  | p :: q :: ps => rw [GoStr.join, join_nil (q :: ps)]; simp

theorem parseInt_natDigits (n : Nat) (h : n < 10 ^ 10) : Num.parseInt (Num.natDigits n) = some (n : Int) := by
  have hval : ∀ f n a, n < f → ∃ k, n < 10 ^ k ∧ Num.digitsVal a (Num.digitsAux f n) = some (a * 10 ^ k + n) := by
    intro f
    induction f with
    | zero => intro n a h; omega
    | succ f ih =>
      intro n a hn
      rw [Num.digitsAux]
      by_cases h : n < 10
      · rw [if_pos h]
        refine ⟨1, by simpa using h, ?_⟩
        have hd : Num.isDigit (UInt8.ofNat (48 + n)) = true := by
          simp only [Num.isDigit, UInt8.le_iff_toNat_le, Bool.and_eq_true, decide_eq_true_eq, UInt8.toNat_ofNat']
          refine ⟨?_, ?_⟩
          · show 48 ≤ _; omega
          · show _ ≤ 57; omega
        rw [Num.digitsVal, if_pos hd, Num.digitsVal, UInt8.toNat_ofNat']
        congr 1
        rw [Nat.pow_one]
        omega
      · rw [if_neg h]
        obtain ⟨k, hk, hv⟩ := ih (n / 10) a (by omega)
        refine ⟨k + 1, by rw [Nat.pow_succ]; omega, ?_⟩
        have happ : ∀ (s : Str) (a b : Nat) (t : Str), Num.digitsVal a s = some b →
            Num.digitsVal a (s ++ t) = Num.digitsVal b t := by
          intro s
          induction s with
          | nil => intro a b t h; simp [Num.digitsVal] at h; subst h; rfl
          | cons c s ihs =>
            intro a b t h
            rw [Num.digitsVal] at h
            split at h
            · rename_i hc
              rw [List.cons_append, Num.digitsVal, if_pos hc]
              exact ihs _ _ _ h
            · cases h
        rw [happ _ _ _ _ hv]
        have hd : Num.isDigit (UInt8.ofNat (48 + n % 10)) = true := by
          simp only [Num.isDigit, UInt8.le_iff_toNat_le, Bool.and_eq_true, decide_eq_true_eq, UInt8.toNat_ofNat']
          refine ⟨?_, ?_⟩
          · show 48 ≤ _; omega
          · show _ ≤ 57; omega
        rw [Num.digitsVal, if_pos hd, Num.digitsVal, UInt8.toNat_ofNat']
        congr 1
        rw [show a * 10 ^ (k + 1) = a * 10 ^ k * 10 by rw [Nat.pow_succ, Nat.mul_assoc]]
        have := Nat.div_add_mod n 10
        have h2 : (48 + n % 10) % 2 ^ 8 - 48 = n % 10 := by omega
        rw [h2]
        generalize a * 10 ^ k = z
        omega
  obtain ⟨k, hk, hv⟩ := hval (n + 1) n 0 (by omega)
  have hpos := digitsAux_length_pos (n + 1) n (by omega)
  have hmem := digitsAux_mem (n + 1) n
  have hv' : Num.digitsVal 0 (Num.natDigits n) = some n := by
    unfold Num.natDigits; rw [hv]; simp
  have hmem' : ∀ c ∈ Num.natDigits n, 48 ≤ c.toNat ∧ c.toNat ≤ 57 := hmem
  have hne : Num.natDigits n ≠ [] := by
    intro h0; unfold Num.natDigits at h0; rw [h0] at hpos; simp at hpos
  generalize Num.natDigits n = ds at hv' hmem' hne
  cases ds with
  | nil => exact absurd rfl hne
  | cons c ds =>
    have hc := hmem' c (by simp)
    have n1 : c ≠ 43 := by rintro rfl; simp at hc
    have n2 : c ≠ 45 := by rintro rfl; simp at hc
    unfold Num.parseInt
    split
    · rename_i heq; cases heq; exact absurd rfl n1
    · rename_i heq; cases heq; exact absurd rfl n2
    · simp only [List.isEmpty_cons, hv', Num.minI64, Num.maxI64]
      rw [if_neg (by simp)]
      simp only [Bool.false_eq_true, if_false]
      rw [if_pos]
      simp only [Bool.and_eq_true, decide_eq_true_eq]
      omega

theorem cmtPieces_none (c : Str) (h : ¬ b!"#:" <+: c) : cmtPieces c = [] := by
  unfold cmtPieces
  rw [if_neg]
  simp only [GoStr.hasPrefix, List.isPrefixOf_iff_prefix]
  exact h

theorem digits_no (n : Nat) : (32 : UInt8) ∉ Num.natDigits n ∧ (58 : UInt8) ∉ Num.natDigits n := by
  constructor <;> intro h <;> have := digitsAux_mem _ _ _ h <;> revert this <;> decide

/-- The pieces of a reference comment start with the file and the padded line number. -/
theorem cmtPieces_ref (file tail : Str) (n : Nat) (hn : n < 10 ^ 10) (h32 : 32 ∉ file) (h58 : 58 ∉ file)
    (ht : tail = [] ∨ ∃ t, tail = 58 :: t ∨ tail = 32 :: t) :
    ∃ more, (cmtPieces (b!"#: " ++ file ++ b!":" ++ Num.natDigits n ++ tail)).flatten =
      b!"#:" ++ lineItem file ++ Num.pad10 n ++ more := by
  have hpre : GoStr.hasPrefix (b!"#: " ++ file ++ b!":" ++ Num.natDigits n ++ tail) b!"#:" = true := by
    rw [GoStr.hasPrefix_iff]; exact ⟨_, rfl⟩
  have htrim : GoStr.trimPrefix (b!"#: " ++ file ++ b!":" ++ Num.natDigits n ++ tail) b!"#:" =
      32 :: (file ++ 58 :: (Num.natDigits n ++ tail)) := by
    unfold GoStr.trimPrefix
    rw [if_pos hpre]
    simp
  obtain ⟨d32, d58⟩ := digits_no n
  have hitem : lineItem (Num.natDigits n) = Num.pad10 n := by
    unfold lineItem; rw [parseInt_natDigits n hn]
  have hsp : GoStr.splitByte 32 (32 :: (file ++ 58 :: (Num.natDigits n ++ tail))) =
      [] :: GoStr.splitByte 32 (file ++ 58 :: (Num.natDigits n ++ tail)) := by simp [GoStr.splitByte]
  unfold cmtPieces
  rw [if_pos hpre, htrim, hsp]
  -- the first item after the blank
  have hfirst : ∃ t1 rest, (t1 = [] ∨ ∃ t, t1 = 58 :: t) ∧
      GoStr.splitByte 32 (file ++ 58 :: (Num.natDigits n ++ tail)) = (file ++ 58 :: (Num.natDigits n ++ t1)) :: rest := by
    have hno : (32 : UInt8) ∉ file ++ 58 :: Num.natDigits n := by
      simp [h32, d32]
    rcases ht with rfl | ⟨t, rfl | rfl⟩
    · refine ⟨[], [], .inl rfl, ?_⟩
      rw [GoStr.splitByte_no_sep]
      simpa using hno
    · -- split the rest at its first blank
      cases hs : GoStr.splitByte 32 t with
      | nil => exact absurd hs (GoStr.splitByte_ne_nil 32 t)
      | cons p ps =>
        refine ⟨58 :: p, ps, .inr ⟨p, rfl⟩, ?_⟩
        have hi := GoStr.intercalate_splitByte 32 t
        have hnm := GoStr.splitByte_not_mem 32 t
        rw [hs] at hi hnm
        have hp : (32 : UInt8) ∉ file ++ 58 :: (Num.natDigits n ++ 58 :: p) := by
          have := hnm p (by simp)
          simp [h32, d32, this]
        have hall : ∀ l ∈ (file ++ 58 :: (Num.natDigits n ++ 58 :: p)) :: ps, (32 : UInt8) ∉ l := by
          intro l hl
          simp only [List.mem_cons] at hl
          rcases hl with rfl | hl
          · exact hp
          · exact hnm l (by simp [hl])
        have := GoStr.splitByte_intercalate 32 _ (by simp) hall
        rw [← this, ← hi]
        cases ps with
        | nil => simp [GoStr.intercalate_single]
        | cons q ps => simp [GoStr.intercalate_cons_cons]
    · refine ⟨[], GoStr.splitByte 32 t, .inl rfl, ?_⟩
      have : file ++ 58 :: (Num.natDigits n ++ 32 :: t) = (file ++ 58 :: Num.natDigits n) ++ 32 :: t := by simp
      rw [this, GoStr.splitByte_append_sep 32 _ _ hno, List.append_nil]
  obtain ⟨t1, rest, ht1, hsplit⟩ := hfirst
  rw [hsplit]
  have hcolon : ∃ rest', GoStr.splitByte 58 (file ++ 58 :: (Num.natDigits n ++ t1)) = file :: Num.natDigits n :: rest' := by
    rw [GoStr.splitByte_append_sep 58 _ _ h58]
    rcases ht1 with rfl | ⟨t, rfl⟩
    · rw [List.append_nil, GoStr.splitByte_no_sep 58 _ d58]; exact ⟨[], rfl⟩
    · rw [GoStr.splitByte_append_sep 58 _ _ d58]; exact ⟨_, rfl⟩
  obtain ⟨rest', hcolon⟩ := hcolon
  have hempty : (GoStr.splitByte 58 []).map lineItem = [[]] := by decide
  simp only [List.flatMap_cons, hempty, hcolon, List.map_cons, hitem]
  refine ⟨(rest'.map lineItem ++ rest.flatMap fun item => (GoStr.splitByte 58 item).map lineItem).flatten, ?_⟩
  simp

theorem sortKey_ref (e : Entry) (file : Str) (n : Nat) (hn : n < 10 ^ 10) (h32 : 32 ∉ file) (h58 : 58 ∉ file)
    (hid : e.id ≠ []) (hr : RefersTo e file n) :
    ∃ more, e.sortKey = b!"#:" ++ lineItem file ++ (Num.pad10 n ++ more) := by
  obtain ⟨pre, tail, post, hc, hpre, ht⟩ := hr
  obtain ⟨more, hm⟩ := cmtPieces_ref file tail n hn h32 h58 ht
  have h0 : pre.flatMap cmtPieces = [] := by
    rw [List.flatMap_eq_nil_iff]
    intro c hcm
    exact cmtPieces_none c (hpre c hcm)
  unfold Entry.sortKey Entry.isHeader Entry.lineString
  rw [if_neg (by simpa using hid), join_nil, hc, List.flatMap_append, h0, List.nil_append, List.flatMap_cons,
    List.flatten_append, hm]
  exact ⟨more ++ (post.flatMap cmtPieces).flatten ++ e.key, by simp⟩

/-- **C29** Of two messages of one source file, the one with the smaller line number is written
first. -/
theorem C29_line_order (f : File) (es : List Entry) (hs : SortedEntry f es) (e1 e2 : Entry) (file : Str)
    (n m : Nat) (h32 : 32 ∉ file) (h58 : 58 ∉ file) (hnm : n < m) (hm : m < 10 ^ 10)
    (hid1 : e1.id ≠ []) (hid2 : e2.id ≠ []) (hr1 : RefersTo e1 file n) (hr2 : RefersTo e2 file m)
    (i j : Nat) (hi : es[i]? = some e1) (hj : es[j]? = some e2) : i < j := by
  obtain ⟨m1, hk1⟩ := sortKey_ref e1 file n (by omega) h32 h58 hid1 hr1
  obtain ⟨m2, hk2⟩ := sortKey_ref e2 file m hm h32 h58 hid2 hr2
  have hlt : e1.sortKey < e2.sortKey := by
    rw [hk1, hk2]
    exact lt_append_left _ _ _ (pad10_lt n m hnm hm _ _)
  rcases Nat.lt_trichotomy i j with h | h | h
  · exact h
  · subst h
    rw [hi] at hj; cases hj
    exact absurd hlt (List.lt_irrefl _)
  · exfalso
    rw [List.getElem?_eq_some_iff] at hi hj
    obtain ⟨hi1, hi2⟩ := hi
    obtain ⟨hj1, hj2⟩ := hj
    have := List.pairwise_iff_getElem.mp hs.2 j i hj1 hi1 h
    rw [hi2, hj2] at this
    exact this hlt

/-- Line 9 comes before line 10, although `"10" < "9"` as text. -/
example : RefersTo { cmts := [b!"# by hand", b!"#: a.go:9:3"], id := b!"x" } b!"a.go" 9 ∧
    RefersTo { cmts := [b!"#: a.go:10 b.go:1"], id := b!"w" } b!"a.go" 10 := by
  refine ⟨⟨[b!"# by hand"], b!":3", [], by decide, by decide, .inr ⟨_, .inl rfl⟩⟩,
    ⟨[], b!" b.go:1", [], by decide, by decide, .inr ⟨_, .inr rfl⟩⟩⟩

/-- Beyond ten digits the order is that of the text, not of the numbers. -/
theorem C29_limit : Num.pad10 10000000000 < Num.pad10 9999999999 := by decide +kernel

end Verif.Tr
