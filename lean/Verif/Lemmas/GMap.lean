import Verif.Model.GoStr
import Mathlib.Data.List.Perm.Basic
/-! # Lemmas on Go maps -/
namespace Verif.GMap
variable {V : Type}

theorem get?_set_self (m : GMap V) (k : Str) (v : V) : (m.set k v).get? k = some v := by
  induction m with
  | nil => simp [set, get?]
  | cons p m ih =>
    obtain ⟨k', v'⟩ := p
    by_cases h : k' = k <;> simp [set, get?, h, ih]

theorem get?_set_ne (m : GMap V) (k k' : Str) (v : V) (h : k' ≠ k) :
    (m.set k v).get? k' = m.get? k' := by
  induction m with
  | nil => simp [set, get?, Ne.symm h]
  | cons p m ih =>
    obtain ⟨k2, v2⟩ := p
    by_cases h2 : k2 = k
    · subst h2; simp [set, get?, Ne.symm h]
    · by_cases h3 : k2 = k'
      · subst h3; simp [set, get?, h2]
      · simp [set, get?, h2, h3, ih]

theorem get?_set (m : GMap V) (k k' : Str) (v : V) :
    (m.set k v).get? k' = if k' = k then some v else m.get? k' := by
  by_cases h : k' = k
  · subst h; simp [get?_set_self]
  · simp [h, get?_set_ne m k k' v h]

theorem keys_set (m : GMap V) (k : Str) (v : V) :
    (m.set k v).keys = if k ∈ m.keys then m.keys else m.keys ++ [k] := by
  induction m with
  | nil => simp [set, keys]
  | cons p m ih =>
    obtain ⟨k', v'⟩ := p
    by_cases h : k' = k
    · subst h; simp [set, keys]
    · have h' : ¬ k = k' := Ne.symm h
      have e1 : (set ((k', v') :: m) k v).keys = k' :: (set m k v).keys := by simp [set, h, keys]
      have e2 : keys ((k', v') :: m) = k' :: keys m := rfl
      rw [e1, e2, ih]
      by_cases hm : k ∈ keys m <;> simp [hm, h']

theorem nodup_set (m : GMap V) (k : Str) (v : V) (h : m.keys.Nodup) : (m.set k v).keys.Nodup := by
  rw [keys_set]
  split
  · exact h
  · rename_i hk
    rw [List.nodup_append]
    refine ⟨h, by simp, ?_⟩
    intro a ha b hb
    simp at hb; subst hb
    rintro rfl; exact hk ha

theorem get?_eq_none (m : GMap V) (k : Str) : m.get? k = none ↔ k ∉ m.keys := by
  induction m with
  | nil => simp [get?, keys]
  | cons p m ih =>
    obtain ⟨k', v'⟩ := p
    simp only [keys] at ih
    by_cases h : k' = k
    · subst h; simp [get?, keys]
    · simp [get?, keys, h, ih, Ne.symm h]

theorem get?_mem (m : GMap V) (k : Str) (v : V) (h : m.get? k = some v) : (k, v) ∈ m := by
  induction m with
  | nil => simp [get?] at h
  | cons p m ih =>
    obtain ⟨k', v'⟩ := p
    by_cases hk : k' = k
    · subst hk; simp [get?] at h; simp [h]
    · simp [get?, hk] at h; simp [ih h]

theorem get?_iff (m : GMap V) (hm : m.keys.Nodup) (k : Str) (v : V) :
    m.get? k = some v ↔ (k, v) ∈ m := by
  refine ⟨get?_mem m k v, ?_⟩
  induction m with
  | nil => simp
  | cons p m ih =>
    obtain ⟨k', v'⟩ := p
    simp only [keys, List.map_cons, List.nodup_cons] at hm
    intro h
    rcases List.mem_cons.mp h with h | h
    · cases h; simp [get?]
    · have : k' ≠ k := by
        rintro rfl
        exact hm.1 (List.mem_map_of_mem (f := Prod.fst) h)
      simp [get?, this, ih hm.2 h]

/-- A map does not depend on the order of its list. -/
theorem get?_perm (m m' : GMap V) (h : m.Perm m') (hm : m.keys.Nodup) (k : Str) :
    m.get? k = m'.get? k := by
  have hm' : m'.keys.Nodup := (h.map Prod.fst).nodup_iff.mp hm
  cases h1 : m.get? k with
  | none =>
    have : k ∉ m'.keys := by
      rw [get?_eq_none] at h1
      intro hk
      exact h1 ((h.map Prod.fst).mem_iff.mpr hk)
    exact ((get?_eq_none m' k).mpr this).symm
  | some v =>
    have := get?_mem m k v h1
    exact ((get?_iff m' hm' k v).mpr (h.mem_iff.mp this)).symm

theorem get?_erase (m : GMap V) (k k' : Str) :
    (m.erase k).get? k' = if k' = k then none else m.get? k' := by
  induction m with
  | nil => simp [erase, get?]
  | cons p m ih =>
    obtain ⟨k2, v2⟩ := p
    by_cases h2 : k2 = k
    · subst h2
      simp only [erase, if_true, ih]
      by_cases h : k' = k2
      · simp [h]
      · simp [h, get?, Ne.symm h]
    · simp only [erase, h2, if_false, get?, ih]
      by_cases h3 : k2 = k'
      · subst h3; simp [h2]
      · simp [h3]

theorem keys_erase (m : GMap V) (k : Str) : (m.erase k).keys = m.keys.filter (· != k) := by
  induction m with
  | nil => rfl
  | cons p m ih =>
    obtain ⟨k2, v2⟩ := p
    simp only [keys] at ih
    by_cases h2 : k2 = k
    · subst h2; simp [erase, keys, ih]
    · simp [erase, keys, h2, ih]

theorem nodup_erase (m : GMap V) (k : Str) (h : m.keys.Nodup) : (m.erase k).keys.Nodup := by
  rw [keys_erase]; exact h.filter _

end Verif.GMap
