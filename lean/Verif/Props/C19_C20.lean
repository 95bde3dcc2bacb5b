import Verif.Lemmas.Quote
import Verif.Model.Po
/-! # C19, C20: quoting and line splitting are lossless -/
namespace Verif.Tr
open Verif
set_option linter.unusedSimpArgs false

/-- **C19** Unquoting the `%q` form of any byte string gives the byte string back, whatever the
printable runes are, as long as the newline is not one of them. -/
theorem C19_unquote_quote (P : Nat → Bool) (hP : P 10 = false) (s : Str) :
    Quote.unquote (Quote.quote P s) = some s := Quote.unquote_quote P hP s

/-- **C19** The quoted form has no raw line feed or carriage return and is enclosed in double quotes. -/
theorem C19_one_line (P : Nat → Bool) (h10 : P 10 = false) (h13 : P 13 = false) (s : Str) :
    10 ∉ Quote.quote P s ∧ 13 ∉ Quote.quote P s ∧ ∃ body, Quote.quote P s = 34 :: body ++ [34] := by
  refine ⟨?_, ?_, _, rfl⟩
  · intro h
    simp only [Quote.quote, List.mem_append, List.mem_cons, List.cons_append, List.not_mem_nil] at h
    rcases h with h | h | h
    · cases h
    · exact (Quote.quoteLoop_safe P h10 h13 _ _ _ h).1 rfl
    · simp at h
  · intro h
    simp only [Quote.quote, List.mem_append, List.mem_cons, List.cons_append, List.not_mem_nil] at h
    rcases h with h | h | h
    · cases h
    · exact (Quote.quoteLoop_safe P h10 h13 _ _ _ h).2 rfl
    · simp at h

/-- The printable ASCII runes. -/
def asciiPrint (r : Nat) : Bool := 32 ≤ r && r < 127

example : asciiPrint 10 = false ∧ asciiPrint 13 = false := by decide
/-- A text with a quote, a newline, a two-byte rune, and an invalid byte. -/
example : Quote.quote asciiPrint (b!"a\"\n\u00e9" ++ [255]) = b!"\"a\\\"\\n\\u00e9\\xff\"" := by decide
example : Quote.unquote b!"\"a\\\"\\n\\u00e9\\xff\"" = some (b!"a\"\n\u00e9" ++ [255]) := by decide
/-- The converse direction is not an identity: other spellings unquote to the same text. -/
example : Quote.unquote b!"\"\\x61\"" = some b!"a" ∧ Quote.unquote b!"`a`" = some b!"a" := by decide

/-- Byte positions found by `lastIndexByte`. -/
theorem lastIndexByte_spec (c : UInt8) (s : Str) (i : Nat) (h : GoStr.lastIndexByte c s = some i) :
    i < s.length ∧ s[i]? = some c := by
  induction s generalizing i with
  | nil => simp [GoStr.lastIndexByte] at h
  | cons x xs ih =>
    rw [GoStr.lastIndexByte] at h
    cases hl : GoStr.lastIndexByte c xs with
    | some j =>
      rw [hl] at h
      simp at h
      subst h
      have := ih j hl
      exact ⟨by simp [this.1], by simpa using this.2⟩
    | none =>
      rw [hl] at h
      simp at h
      obtain ⟨rfl, rfl⟩ := h
      simp

theorem indexByte_spec (c : UInt8) (s : Str) (i : Nat) (h : GoStr.indexByte c s = some i) :
    ∃ a b, s = a ++ c :: b ∧ c ∉ a ∧ a.length = i := by
  induction s generalizing i with
  | nil => simp [GoStr.indexByte] at h
  | cons x xs ih =>
    rw [GoStr.indexByte] at h
    split at h
    · rename_i hx
      cases h
      exact ⟨[], xs, by simp [hx], by simp, rfl⟩
    · rename_i hx
      cases hj : GoStr.indexByte c xs with
      | none => rw [hj] at h; simp at h
      | some j =>
        rw [hj] at h
        simp at h
        obtain ⟨a, b, h1, h2, h3⟩ := ih j hj
        exact ⟨x :: a, b, by simp [h1], by simp [Ne.symm hx, h2], by simp [h3, h]⟩

theorem indexByte_none_iff (c : UInt8) (s : Str) : GoStr.indexByte c s = none → c ∉ s := by
  induction s with
  | nil => simp
  | cons x xs ih =>
    rw [GoStr.indexByte]
    split
    · intro h; cases h
    · rename_i hx
      intro h
      simp at h
      simp [Ne.symm hx, ih h]

/-- What holds of the pieces at any depth. -/
theorem split0_spec (n : Nat) (long : Str) (hn : long.length ≤ n) (th : Int) (depth : Nat) :
    (split0 long th depth).flatten = long ∧
    (∀ p ∈ split0 long th depth, 10 ∉ p.dropLast) ∧
    (depth ≠ 0 → long ≠ [] → [] ∉ split0 long th depth) ∧
    (depth = 0 → long ≠ [] → [] ∉ (split0 long th depth).tail) ∧
    split0 long th depth ≠ [] := by
  induction n generalizing long depth with
  | zero =>
    have : long = [] := by simpa using hn
    subst this
    have h1 : split0 [] th depth = [[]] := by
      rw [split0]
      simp [GoStr.indexByte, GoStr.lastIndexByte]
    simp [h1]
  | succ n ih =>
    have hblank : (10 ∉ long.dropLast) → ∀ r : List Str,
        r = (if (long.length : Int) ≤ th then [long]
          else match GoStr.lastIndexByte 32 long with
            | some i =>
              if i + 1 < long.length then
                split0 (long.take (i + 1)) th (depth + 1) ++ [long.drop (i + 1)]
              else [long]
            | none => [long]) →
        r.flatten = long ∧ (∀ p ∈ r, 10 ∉ p.dropLast) ∧ (depth ≠ 0 → long ≠ [] → [] ∉ r) ∧
        (depth = 0 → long ≠ [] → [] ∉ r.tail) ∧ r ≠ [] := by
      intro hno r hr
      have hone : ∀ r : List Str, r = [long] → r.flatten = long ∧ (∀ p ∈ r, 10 ∉ p.dropLast) ∧
          (depth ≠ 0 → long ≠ [] → [] ∉ r) ∧ (depth = 0 → long ≠ [] → [] ∉ r.tail) ∧ r ≠ [] := by
        rintro r rfl
        exact ⟨by simp, by simpa using hno, fun _ h => by simpa using (Ne.symm h), by simp, by simp⟩
      split at hr
      · exact hone r hr
      · split at hr
        · rename_i i hi
          split at hr
          · rename_i hlt
            obtain ⟨h1, h2, h3, h4, h5⟩ := ih (long.take (i + 1))
              (by rw [List.length_take]; omega) (depth + 1)
            have hne : long.take (i + 1) ≠ [] := by
              intro h; have := congrArg List.length h; rw [List.length_take, List.length_nil] at this; omega
            have hne' : long.drop (i + 1) ≠ [] := by
              intro h; have := congrArg List.length h; rw [List.length_drop] at this; simp at this; omega
            have hdl : 10 ∉ (long.drop (i + 1)).dropLast := by
              intro h
              apply hno
              have := List.take_append_drop (i + 1) long
              rw [← this, List.dropLast_append_of_ne_nil hne']
              exact List.mem_append_right _ h
            have hmem : [] ∉ split0 (long.take (i + 1)) th (depth + 1) := h3 (by omega) hne
            subst hr
            refine ⟨by simp [h1], ?_, ?_, ?_, by simp⟩
            · intro p hp
              rw [List.mem_append] at hp
              rcases hp with hp | hp
              · exact h2 p hp
              · simp at hp; subst hp; exact hdl
            · intro _ _ hm
              rw [List.mem_append] at hm
              rcases hm with hm | hm
              · exact hmem hm
              · simp at hm; simp at hne'; omega
            · intro _ _ hm
              have hm := List.mem_of_mem_tail hm
              rw [List.mem_append] at hm
              rcases hm with hm | hm
              · exact hmem hm
              · simp at hm; simp at hne'; omega
          · exact hone r hr
        · exact hone r hr
    rw [split0]
    split
    · rename_i i hi
      obtain ⟨a, b, hab, hna, hlen⟩ := indexByte_spec 10 long i hi
      have htake : long.take (i + 1) = a ++ [10] := by
        rw [hab, ← hlen]; simp [List.take_append, List.take_of_length_le]
      have hdrop : long.drop (i + 1) = b := by
        rw [hab, ← hlen]; simp [List.drop_append]
      split
      · rename_i hlt
        have hb : b ≠ [] := by
          rw [← hdrop]; intro h; have := congrArg List.length h
          rw [List.length_drop] at this; simp at this; omega
        obtain ⟨h1, h2, h3, h4, h5⟩ := ih (long.drop (i + 1)) (by rw [List.length_drop]; omega) (depth + 1)
        rw [hdrop] at h1 h2 h3 ⊢
        rw [htake]
        have hm : [] ∉ split0 b th (depth + 1) := h3 (by omega) hb
        refine ⟨?_, ?_, ?_, ?_, ?_⟩
        · split <;> simp [h1, hab]
        · intro p hp
          rw [List.mem_append] at hp
          rcases hp with hp | hp
          · split at hp <;> simp at hp <;> rcases hp with rfl | rfl <;> simp [hna]
          · exact h2 p hp
        · intro hd _
          rw [if_neg hd]
          simp [hm]
        · intro hd _
          rw [if_pos hd]
          simp [hm]
        · split <;> simp
      · rename_i hlt
        have hb : b = [] := by
          rw [← hdrop]; apply List.drop_eq_nil_of_le; omega
        apply hblank ?_ _ rfl
        rw [hab, hb]
        simp [hna]
    · rename_i hi
      have := indexByte_none_iff 10 long hi
      exact hblank (fun h => this (List.dropLast_subset _ h)) _ rfl

/-- **C20** The pieces concatenate to the message; a newline occurs only at the end of a piece; for a
non-empty message only the first piece (the marker) can be empty.  Termination is part of the
definition of `split`. -/
theorem C20_split (long : Str) (threshold : Int) :
    (split long threshold).flatten = long ∧
    (∀ p ∈ split long threshold, ∀ a b, p = a ++ 10 :: b → b = []) ∧
    (long ≠ [] → ∀ p ps, split long threshold = p :: ps → [] ∉ ps) := by
  obtain ⟨h1, h2, -, h4, -⟩ := split0_spec long.length long (Nat.le_refl _) threshold 0
  refine ⟨h1, ?_, ?_⟩
  · intro p hp a b hab
    by_contra hb
    apply h2 p hp
    rw [hab, List.dropLast_append_of_ne_nil (by simp), List.dropLast_cons_of_ne_nil hb]
    simp
  · intro hl p ps hsp
    have := h4 rfl hl
    unfold split at hsp
    rw [hsp] at this
    exact this

/-! Concrete cases: a multi-line text gets an empty first piece; a long line is broken at its last
blank only, however long the rest. -/
example : split b!"one\ntwo\n" 77 = [b!"", b!"one\n", b!"two\n"] := by decide +kernel
example : split b!"aa bb cc" 4 = [b!"aa bb ", b!"cc"] := by decide +kernel

end Verif.Tr
