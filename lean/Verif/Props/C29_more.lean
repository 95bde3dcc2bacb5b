import Verif.Props.C28_C29
import Verif.Props.C53
/-! # C29: the numbers in the sort key -/
namespace Verif.Tr
open Verif

/-- The numeral is as short as possible: no `+`, no `-0`, no zero in front. -/
def Shortest (s : Str) : Prop :=
  ∃ (sign : Str) (ds : List Nat), s = sign ++ ds.map (fun d => UInt8.ofNat (48 + d)) ∧
    (sign = [] ∧ (ds.head? = some 0 → ds = [0]) ∨ sign = b!"-" ∧ ds.head? ≠ some 0)

theorem digitsAux_shortest : ∀ f n, n < f →
    ∃ ds : List Nat, ds ≠ [] ∧ (∀ d ∈ ds, d < 10) ∧ Num.digitsAux f n = ds.map (fun d => UInt8.ofNat (48 + d)) ∧
      Xt.decimal ds = n ∧ (ds.head? = some 0 → n = 0) ∧ (n = 0 → ds = [0]) := by
  intro f
  induction f with
  | zero => intro n h; omega
  | succ f ih =>
    intro n h
    simp only [Num.digitsAux]
    split
    · rename_i hlt
      exact ⟨[n], by simp, by simpa using hlt, by simp, by simp [Xt.decimal], by simp, by simp⟩
    · rename_i hge
      obtain ⟨ds, h1, h2, h3, h4, h5, h6⟩ := ih (n / 10) (by omega)
      refine ⟨ds ++ [n % 10], by simp, ?_, by rw [h3]; simp, ?_, ?_, by omega⟩
      · intro d hd
        simp only [List.mem_append, List.mem_singleton] at hd
        rcases hd with hd | rfl
        · exact h2 d hd
        · omega
      · unfold Xt.decimal at h4 ⊢
        rw [List.reverse_append, List.reverse_singleton, List.singleton_append, Nat.ofDigits_cons, h4]
        show n % 10 + 10 * (n / 10) = n
        omega
      · intro hh
        rw [List.head?_append_of_ne_nil _ h1] at hh
        have := h5 hh
        omega

theorem intDigits_shortest (i : Int) (h : -2 ^ 63 ≤ i ∧ i < 2 ^ 63) :
    Xt.Numeral (Num.intDigits i) i ∧ Shortest (Num.intDigits i) := by
  cases i with
  | ofNat n =>
    obtain ⟨ds, h1, h2, h3, h4, h5, h6⟩ := digitsAux_shortest (n + 1) n (by omega)
    have e : Num.intDigits (Int.ofNat n) = [] ++ ds.map (fun d => UInt8.ofNat (48 + d)) := h3
    refine ⟨⟨[], ds, h1, h2, e, .inl ⟨rfl, by rw [h4]; rfl⟩, h⟩, ⟨[], ds, e, .inl ⟨rfl, fun hh => h6 (h5 hh)⟩⟩⟩
  | negSucc n =>
    obtain ⟨ds, h1, h2, h3, h4, h5, h6⟩ := digitsAux_shortest (n + 1 + 1) (n + 1) (by omega)
    have e : Num.intDigits (Int.negSucc n) = b!"-" ++ ds.map (fun d => UInt8.ofNat (48 + d)) := by
      unfold Num.intDigits Num.natDigits
      simp only []
      rw [h3]; rfl
    refine ⟨⟨b!"-", ds, h1, h2, e, .inr (.inr ⟨rfl, by rw [h4]; rfl⟩), h⟩, ⟨b!"-", ds, e, .inr ⟨rfl, fun hh => ?_⟩⟩⟩
    have := h5 hh
    omega

/-- **C29** A part of a reference that is a number, however it is written, stands in the sort key as the
shortest numeral of that number, with blanks before it up to ten bytes; any other part as it is. -/
theorem C29_number (s : Str) :
    (∀ i, Xt.Numeral s i → ∃ d, lineItem s = List.replicate (10 - d.length) 32 ++ d ∧ Xt.Numeral d i ∧ Shortest d) ∧
    ((∀ i, ¬ Xt.Numeral s i) → lineItem s = s) := by
  constructor
  · intro i h
    have hp := (Xt.numeral_iff s i).mp h
    obtain ⟨-, -, -, -, -, -, hr⟩ := h
    obtain ⟨h1, h2⟩ := intDigits_shortest i hr
    refine ⟨_, ?_, h1, h2⟩
    unfold lineItem
    rw [hp]
    rfl
  · intro h
    unfold lineItem
    cases hp : Num.parseInt s with
    | none => rfl
    | some i => exact absurd ((Xt.numeral_iff s i).mpr hp) (h i)

/-- `+007` is a numeral, kept as `7`; a negative number has its sign behind the blanks. -/
example : lineItem b!"+007" = b!"         7" ∧ lineItem b!"-12" = b!"       -12" ∧ lineItem b!"a.go" = b!"a.go" := by
  decide +kernel

example : Xt.Numeral b!"+007" 7 :=
  ⟨b!"+", [0, 0, 7], by decide, by decide, by decide, .inr (.inl ⟨rfl, by decide⟩), by decide⟩

end Verif.Tr
