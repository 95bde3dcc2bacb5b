import Verif.Spec.Slice
import Verif.Props.C09_C11
import Verif.Props.C60
/-!
# C62: which memory a formatting call writes to
-/
namespace Verif.Slice
open Verif

variable {α : Type}

theorem append_contents (mem : Mem α) (s : Slice) (v : α) (spare : List α) (h : Valid mem s) :
    contents (append mem s v spare).1 (append mem s v spare).2 = contents mem s ++ [v] := by
  obtain ⟨hl, a, ha, hc⟩ := h
  have hlen : (contents mem s).length = s.len := by
    unfold contents
    rw [ha]
    simp only [Option.getD_some, List.length_take, List.length_drop]
    omega
  unfold append
  split
  · rename_i hlt
    unfold contents
    simp only [List.getElem?_modify_eq, ha, Option.map_some, Option.getD_some, Option.map_eq_map]
    apply List.ext_getElem?
    intro i
    have h1 : ((a.drop s.off).take s.len).length = s.len := by simp; omega
    by_cases hi : i < s.len
    · rw [List.getElem?_append_left (by omega), List.getElem?_take, List.getElem?_take, if_pos (by omega), if_pos hi,
        List.getElem?_drop, List.getElem?_drop, List.getElem?_set, if_neg (by omega)]
    · rw [List.getElem?_append_right (by omega), h1]
      by_cases hi2 : i = s.len
      · subst hi2
        rw [List.getElem?_take, if_pos (by omega), List.getElem?_drop, List.getElem?_set, if_pos rfl, if_pos (by omega)]
        simp
      · rw [List.getElem?_take, if_neg (by omega), List.getElem?_eq_none (by simp; omega)]
  · show contents (mem ++ [contents mem s ++ v :: spare]) _ = _
    generalize contents mem s = c at hlen ⊢
    unfold contents
    simp only [List.getElem?_concat_length, Option.getD_some, List.drop_zero]
    rw [show s.len + 1 = (c ++ [v]).length by simp [hlen]]
    rw [show c ++ v :: spare = (c ++ [v]) ++ spare by simp]
    exact List.take_left

theorem append_overwrites (mem : Mem α) (s : Slice) (v : α) (spare : List α) (h : Valid mem s) :
    Overwrites s v mem (append mem s v spare).1 := by
  obtain ⟨hl, arr, ha, hc⟩ := h
  intro a hlt i
  unfold append Behind elem
  split
  · rename_i hcap
    simp only [List.getElem?_modify]
    by_cases hm : a = s.arr
    · subst hm
      rw [ha]
      simp only [Option.map_eq_map, Option.map_some, Option.bind_some, true_and, hcap, and_true, if_true]
      constructor
      · rintro rfl
        rw [List.getElem?_set, if_pos rfl, if_pos (by omega)]
      · intro hne
        rw [List.getElem?_set, if_neg (by omega)]
    · refine ⟨fun hb => absurd hb.1 hm, fun _ => ?_⟩
      have : ¬ s.arr = a := fun h => hm h.symm
      cases mem[a]? <;> simp [this]
  · rename_i hcap
    refine ⟨fun hb => absurd hb.2.2 hcap, fun _ => ?_⟩
    simp only
    rw [List.getElem?_append_left hlt]

theorem append_untouched (mem : Mem α) (s : Slice) (v : α) (spare : List α) (h : s.len = s.cap) :
    Untouched mem (append mem s v spare).1 := by
  intro a ha
  unfold append
  rw [if_neg (by omega)]
  exact List.getElem?_append_left ha

/-- What a formatting call does to the memory: nothing without arguments. -/
def FormatEffect (E : Fmt.Env α) (mem : Mem α) (s : Slice) (mem' : Mem α) : Prop :=
  (s.len = 0 → mem' = mem) ∧ (0 < s.len → Overwrites s E.empty mem mem') ∧ (s.len = s.cap → Untouched mem mem')

/-- **C62** `Format` returns what the arguments determine; it overwrites the element just behind the
argument slice with an empty string if the slice has spare capacity, and nothing else. -/
theorem C62_format (E : Fmt.Env α) (f : Str) (mem : Mem α) (s : Slice) (spare : List α) (h : Valid mem s) :
    (format E f mem s spare).1 = Fmt.format E f (contents mem s) ∧
      FormatEffect E mem s (format E f mem s spare).2 := by
  have hlen : (contents mem s).length = s.len := by
    obtain ⟨hl, a, ha, hc⟩ := h
    unfold contents
    rw [ha]
    simp only [Option.getD_some, List.length_take, List.length_drop]
    omega
  unfold format Fmt.format FormatEffect
  rw [hlen]
  by_cases h0 : s.len = 0
  · simp only [h0, if_true, true_and]
    exact ⟨fun _ => trivial, fun hc => absurd hc (by simp), fun _ a _ => rfl⟩
  · rw [if_neg h0, if_neg h0]
    dsimp only
    rw [append_contents mem s _ spare h]
    exact ⟨rfl, fun hc => absurd hc h0, fun _ => append_overwrites mem s _ spare h,
      fun hc => append_untouched mem s _ spare hc⟩

theorem defaultPlural_effect (E : Fmt.Env α) (id id2 : Str) (n : Int64) (mem : Mem α) (s : Slice) (spare : List α)
    (h : Valid mem s) :
    (defaultPlural E id id2 n mem s spare).1 = Fmt.defaultPlural E id id2 n (contents mem s) ∧
      FormatEffect E mem s (defaultPlural E id id2 n mem s spare).2 := by
  unfold defaultPlural Fmt.defaultPlural
  split
  · exact C62_format _ _ _ _ _ h
  · split <;> exact C62_format _ _ _ _ _ h

/-- **C62** A lookup returns what the arguments determine and writes to memory as `Format` does. -/
theorem C62_lookup (E : Fmt.Env α) (f : Tr.File) (ctxt id : Str) (mem : Mem α) (s : Slice) (spare : List α)
    (h : Valid mem s) :
    (x E f ctxt id mem s spare).1 = f.x E ctxt id (contents mem s) ∧
      FormatEffect E mem s (x E f ctxt id mem s spare).2 := by
  unfold x Tr.File.x
  cases f.entries.get? (Tr.key ctxt id) with
  | none => exact C62_format _ _ _ _ _ h
  | some e => dsimp only; split <;> exact C62_format _ _ _ _ _ h

/-- **C62** So does a plural lookup, unless it panics: then it writes nothing. -/
theorem C62_plural_lookup (E : Fmt.Env α) (dg : Plural.Diag) (f : Tr.File) (ctxt id id2 : Str) (n : Int64)
    (mem : Mem α) (s : Slice) (spare : List α) (h : Valid mem s) :
    let r := xn E dg f ctxt id id2 n mem s spare
    r.1 = (f.xn E dg ctxt id id2 n (contents mem s)).1 ∧
      (r.1 ≠ .panic → FormatEffect E mem s r.2) ∧ (r.1 = .panic → r.2 = mem) := by
  have key : ∀ (r : Str × Mem α) (t : Str), r.1 = t ∧ FormatEffect E mem s r.2 →
      (ret r).1 = .ok t ∧ ((ret r).1 ≠ .panic → FormatEffect E mem s (ret r).2) ∧ ((ret r).1 = .panic → (ret r).2 = mem) := by
    rintro r t ⟨h1, h2⟩
    exact ⟨by rw [← h1]; rfl, fun _ => h2, fun h => by cases h⟩
  have hd := defaultPlural_effect E id id2 n mem s spare h
  dsimp only
  unfold xn Tr.File.xn
  cases f.entries.get? (Tr.key ctxt id) with
  | none => exact key _ _ hd
  | some e =>
    dsimp only
    split
    · apply key
      split <;> exact C62_format _ _ _ _ _ h
    · show (chooseForm E dg _ e id id2 n mem s spare).1 = Tr.chooseForm E dg _ e id id2 n (contents mem s) ∧ _
      generalize f.initPlural.plural.getD _ = p
      unfold chooseForm Tr.chooseForm
      split
      · exact key _ _ hd
      · have hne : p.fn dg n ≠ .err := by
          unfold Tr.Plural.fn
          split
          · simp
          · split <;> simp
        cases hp : p.fn dg n with
        | panic => simp [Res.bind]
        | err => exact absurd hp hne
        | ok i =>
          simp only [Res.bind]
          split
          · exact key _ _ hd
          · cases hs : Tr.strAt e.strN i with
            | panic => simp
            | err => unfold Tr.strAt at hs; split at hs <;> cases hs
            | ok t =>
              dsimp only
              split
              · exact key _ _ hd
              · exact key _ _ (C62_format _ _ _ _ _ h)

/-- **C62** `Wrapf` returns what the arguments determine; it overwrites the element just behind the
argument slice with the error if the slice has spare capacity, and nothing else. -/
theorem C62_wrapf (E : Fmt.Env α) (asErr : α → Option Errors.Err) (err : α) (f : Str) (mem : Mem α) (s : Slice)
    (spare : List α) (h : Valid mem s) :
    let r := wrapf E asErr err f mem s spare
    r.1 = Errors.wrapfArgs E asErr err f (contents mem s) ∧ Overwrites s err mem r.2 ∧
      (s.len = s.cap → Untouched mem r.2) := by
  dsimp only
  unfold wrapf Errors.wrapfArgs
  refine ⟨?_, append_overwrites mem s err spare h, append_untouched mem s err spare⟩
  show Errors.fmtErrorf E asErr _ (contents (append mem s err spare).1 (append mem s err spare).2) = _
  rw [append_contents mem s err spare h]

/-- **C62** So a caller that passes part of a slice finds the next element changed, whatever it was. -/
theorem C62_aliasing (E : Fmt.Env α) (f : Str) (a b : α) (spare : List α) :
    let mem : Mem α := [[a, b]]
    let s : Slice := { arr := 0, off := 0, len := 1, cap := 2 }
    Valid mem s ∧ contents mem s = [a] ∧ elem mem 0 1 = some b ∧
      elem (format E f mem s spare).2 0 1 = some E.empty := by
  dsimp only
  have hv : Valid ([[a, b]] : Mem α) { arr := 0, off := 0, len := 1, cap := 2 } :=
    ⟨by decide, [a, b], rfl, by simp⟩
  refine ⟨hv, rfl, rfl, ?_⟩
  exact (((C62_format E f _ _ spare hv).2.2.1 (by decide)) 0 (by simp) 1).1 ⟨rfl, rfl, by decide⟩

/-- Arguments written out in a call make a slice without spare capacity: nothing of the caller changes. -/
example (E : Fmt.Env α) (f : Str) (mem : Mem α) (a b : α) (spare : List α) :
    let s : Slice := { arr := mem.length, off := 0, len := 2, cap := 2 }
    let mem' := mem ++ [[a, b]]
    Valid mem' s ∧ contents mem' s = [a, b] ∧ Untouched mem' (format E f mem' s spare).2 := by
  dsimp only
  have hv : Valid (mem ++ [[a, b]]) { arr := mem.length, off := 0, len := 2, cap := 2 } :=
    ⟨Nat.le_refl 2, [a, b], by simp, by simp⟩
  exact ⟨hv, by simp [contents], (C62_format E f _ _ spare hv).2.2.2 rfl⟩

end Verif.Slice
