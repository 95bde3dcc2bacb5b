import Verif.Spec.Wrap
import Verif.Model.WrapCost
import Verif.Props.C19_C20
/-!
# C122 Where the texts of a saved file are broken
-/
namespace Verif.Tr
open Verif

theorem lastIndex_none {c : UInt8} {s : Str} : GoStr.lastIndexByte c s = none ↔ c ∉ s := by
  induction s with
  | nil => simp [GoStr.lastIndexByte]
  | cons x s ih =>
    rw [GoStr.lastIndexByte]
    cases h : GoStr.lastIndexByte c s with
    | some i =>
      rw [h] at ih
      simp at ih
      simp [ih]
    | none =>
      rw [h] at ih
      simp at ih
      by_cases hx : x = c <;> simp [hx, ih, Ne.symm (a := x) (b := c)]

theorem lastIndex_some {c : UInt8} {s : Str} {i : Nat} : GoStr.lastIndexByte c s = some i ↔ ∃ a b, s = a ++ c :: b ∧ c ∉ b ∧ a.length = i := by
  induction s generalizing i with
  | nil => simp [GoStr.lastIndexByte]
  | cons x s ih =>
    rw [GoStr.lastIndexByte]
    cases h : GoStr.lastIndexByte c s with
    | some j =>
      obtain ⟨a, b, h1, h2, h3⟩ := ih.1 h
      dsimp only
      constructor
      · rintro ⟨⟩
        exact ⟨x :: a, b, by rw [h1]; rfl, h2, by rw [← h3]; rfl⟩
      · rintro ⟨a', b', g1, g2, g3⟩
        cases a' with
        | nil =>
          cases g1
          exact absurd (by rw [h1]; simp) g2
        | cons y a' =>
          cases g1
          have := ih.2 ⟨a', b', rfl, g2, rfl⟩
          rw [h] at this
          cases this
          simpa using g3
    | none =>
      have hn := lastIndex_none.1 h
      dsimp only
      constructor
      · intro hi
        split at hi
        · next hx => cases hi; subst hx; exact ⟨[], s, rfl, hn, rfl⟩
        · cases hi
      · rintro ⟨a', b', g1, g2, g3⟩
        cases a' with
        | nil => cases g1; simpa using g3
        | cons y a' => cases g1; exact absurd (by simp) hn

theorem indexByte_none {c : UInt8} {s : Str} (h : c ∉ s) : GoStr.indexByte c s = none := by
  cases hi : GoStr.indexByte c s with
  | none => rfl
  | some i =>
    obtain ⟨a, b, rfl, -⟩ := indexByte_spec c s i hi
    simp at h

/-- What ends with its only place to be broken is not broken. -/
theorem split0_left (a : Str) (limit : Int) (depth : Nat) (h : 10 ∉ a) : split0 (a ++ [32]) limit depth = [a ++ [32]] := by
  rw [split0, indexByte_none (by simpa using h)]
  dsimp only
  split
  · rfl
  · rw [lastIndex_some.2 ⟨a, [], rfl, by simp, rfl⟩]
    simp

theorem brokenAt_unique {limit : Int} {line a b a' b' : Str} (h : BrokenAt limit line a b) (h' : BrokenAt limit line a' b') : a = a' ∧ b = b' := by
  obtain ⟨-, rfl, h2, -⟩ := h
  obtain ⟨-, e, h2', -⟩ := h'
  have hl : a.length = a'.length := by
    have g := (lastIndex_some (i := a.length)).2 ⟨a, b, rfl, h2, rfl⟩
    have g' := (lastIndex_some (i := a'.length)).2 ⟨a', b', e, h2', rfl⟩
    rw [g] at g'
    exact Option.some.inj g'
  obtain ⟨h3, h4⟩ := List.append_inj e hl
  cases h4
  exact ⟨h3, rfl⟩

theorem lastLine_unique {limit : Int} {line : Str} {t t' : List Str} (h : LastLine limit line t) (h' : LastLine limit line t') : t = t' := by
  cases h with
  | broken a b h =>
    cases h' with
    | broken a' b' h' => obtain ⟨rfl, rfl⟩ := brokenAt_unique h h'; rfl
    | whole h' => exact absurd h (h' a b)
  | whole h =>
    cases h' with
    | broken a' b' h' => exact absurd h' (h a' b')
    | whole => rfl

theorem cut_unique {ls ls' : List Str} {last last' : Str} (h1 : ∀ l ∈ ls, 10 ∉ l) (h1' : ∀ l ∈ ls', 10 ∉ l)
    (h2 : ∀ a b, last = a ++ 10 :: b → b = []) (h2' : ∀ a b, last' = a ++ 10 :: b → b = []) (h3 : ls ≠ [] → last ≠ []) (h3' : ls' ≠ [] → last' ≠ [])
    (he : (ls.map (· ++ [10])).flatten ++ last = (ls'.map (· ++ [10])).flatten ++ last') : ls = ls' ∧ last = last' := by
  have more : ∀ (ls : List Str) (last : Str), (ls ≠ [] → last ≠ []) → ∀ l t, ls = l :: t → (t.map (· ++ [10])).flatten ++ last ≠ [] := by
    intro ls last h l t ht hn
    exact h (by simp [ht]) (List.append_eq_nil_iff.1 hn).2
  induction ls generalizing ls' with
  | nil =>
    cases ls' with
    | nil => exact ⟨rfl, by simpa using he⟩
    | cons l' t' =>
      have := h2 l' ((t'.map (· ++ [10])).flatten ++ last') (by simpa using he)
      exact absurd this (more _ _ h3' l' t' rfl)
  | cons l t ih =>
    cases ls' with
    | nil =>
      have := h2' l ((t.map (· ++ [10])).flatten ++ last) (by simpa using he.symm)
      exact absurd this (more _ _ h3 l t rfl)
    | cons l' t' =>
      have he' : l ++ 10 :: ((t.map (· ++ [10])).flatten ++ last) = l' ++ 10 :: ((t'.map (· ++ [10])).flatten ++ last') := by simpa using he
      have hl : l = l' ∧ (t.map (· ++ [10])).flatten ++ last = (t'.map (· ++ [10])).flatten ++ last' := by
        have n1 := h1 l (by simp)
        have n2 := h1' l' (by simp)
        clear he ih h1 h1' h3 h3' more
        induction l generalizing l' with
        | nil =>
          cases l' with
          | nil => exact ⟨rfl, (List.cons.inj he').2⟩
          | cons y l' => cases (List.cons.inj he').1; simp at n2
        | cons x l ihl =>
          cases l' with
          | nil => cases (List.cons.inj he').1; simp at n1
          | cons y l' =>
            obtain ⟨rfl, he''⟩ := List.cons.inj he'
            simp only [List.mem_cons, not_or] at n1 n2
            obtain ⟨rfl, h⟩ := ihl l' he'' n1.2 n2.2
            exact ⟨rfl, h⟩
      obtain ⟨rfl, hr⟩ := hl
      obtain ⟨rfl, rfl⟩ := ih (fun x hx => h1 x (by simp [hx])) (fun x hx => h1' x (by simp [hx])) (fun ht hn => h3 (by simp) hn)
        (fun ht hn => h3' (by simp) hn) hr
      exact ⟨rfl, rfl⟩

theorem split0_wrapped (limit : Int) : ∀ n text depth, text.length ≤ n →
    ∃ ls last tail, text = (ls.map (· ++ [10])).flatten ++ last ∧ (∀ l ∈ ls, 10 ∉ l) ∧ (∀ a b, last = a ++ 10 :: b → b = []) ∧ (ls ≠ [] → last ≠ []) ∧
      LastLine limit last tail ∧ split0 text limit depth = (if ls = [] ∨ depth ≠ 0 then [] else [[]]) ++ (ls.map (· ++ [10]) ++ tail) := by
  intro n
  induction n using Nat.strongRecOn with
  | ind n ih =>
    intro text depth hn
    have blank : (∀ a b, text = a ++ 10 :: b → b = []) →
        ∃ tail, LastLine limit text tail ∧ (if (text.length : Int) ≤ limit then [text]
          else match GoStr.lastIndexByte 32 text with
            | some i => if i + 1 < text.length then split0 (text.take (i + 1)) limit (depth + 1) ++ [text.drop (i + 1)] else [text]
            | none => [text]) = tail := by
      intro hlast
      refine ⟨_, ?_, rfl⟩
      split
      · next h => exact .whole fun a b hb => by have := hb.1; omega
      · next h =>
        split
        · next i hi =>
          obtain ⟨a, b, rfl, hb, rfl⟩ := lastIndex_some.1 hi
          split
          · next hlt =>
            have ht : (a ++ 32 :: b).take (a.length + 1) = a ++ [32] := by
              rw [List.take_append, List.take_of_length_le (by omega), show a.length + 1 - a.length = 1 by omega]; rfl
            have hd : (a ++ 32 :: b).drop (a.length + 1) = b := by
              rw [List.drop_append, List.drop_of_length_le (by omega), show a.length + 1 - a.length = 1 by omega]; rfl
            have hbn : b ≠ [] := by rintro rfl; simp at hlt
            have ha : 10 ∉ a := fun h => by
              obtain ⟨x, y, rfl⟩ := List.append_of_mem h
              have := hlast x (y ++ 32 :: b) (by simp)
              simp at this
            rw [ht, hd, split0_left a limit _ ha]
            exact .broken a b ⟨by omega, rfl, hb, hbn⟩
          · next hlt =>
            have hbn : b = [] := by
              rw [List.length_append, List.length_cons] at hlt
              exact List.length_eq_zero_iff.1 (by omega)
            subst hbn
            refine .whole fun a' b' h' => ?_
            obtain ⟨-, e, n1, n2⟩ := h'
            have g := (lastIndex_some (i := a'.length)).2 ⟨a', b', e, n1, rfl⟩
            rw [hi] at g
            have hl := Option.some.inj g
            obtain ⟨-, h4⟩ := List.append_inj e hl
            cases h4
            exact n2 rfl
        · next hi =>
          refine .whole fun a b h' => lastIndex_none.1 hi ?_
          rw [h'.2.1]
          simp
    have single : (∀ a b, text = a ++ 10 :: b → b = []) → split0 text limit depth = (if (text.length : Int) ≤ limit then [text]
          else match GoStr.lastIndexByte 32 text with
            | some i => if i + 1 < text.length then split0 (text.take (i + 1)) limit (depth + 1) ++ [text.drop (i + 1)] else [text]
            | none => [text]) → ∃ ls last tail, text = (ls.map (· ++ [10])).flatten ++ last ∧ (∀ l ∈ ls, 10 ∉ l) ∧ (∀ a b, last = a ++ 10 :: b → b = []) ∧
      (ls ≠ [] → last ≠ []) ∧ LastLine limit last tail ∧ split0 text limit depth = (if ls = [] ∨ depth ≠ 0 then [] else [[]]) ++ (ls.map (· ++ [10]) ++ tail) := by
      intro hlast hs
      obtain ⟨tail, h1, h2⟩ := blank hlast
      exact ⟨[], text, tail, rfl, by simp, hlast, by simp, h1, by rw [hs, h2]; simp⟩
    cases hi : GoStr.indexByte 10 text with
    | none =>
      have hno := indexByte_none_iff 10 text hi
      refine single (fun a b h => absurd (by rw [h]; simp) hno) ?_
      rw [split0, hi]
      simp only [dite_eq_ite]
      rfl
    | some i =>
      obtain ⟨a, b, rfl, ha, rfl⟩ := indexByte_spec 10 text i hi
      by_cases hb : b = []
      · subst hb
        refine single (fun x y h => ?_) ?_
        · by_contra hy
          have hin : 10 ∈ a := by
            have hd := congrArg List.dropLast h
            rw [List.dropLast_concat, List.dropLast_append_of_ne_nil (by simp), List.dropLast_cons_of_ne_nil hy] at hd
            rw [hd]; simp
          exact ha hin
        · rw [split0, hi]
          dsimp only
          rw [dif_neg (by simp)]
          simp only [dite_eq_ite]
          rfl
      · have ht : (a ++ 10 :: b).take (a.length + 1) = a ++ [10] := by
          rw [List.take_append, List.take_of_length_le (by omega), show a.length + 1 - a.length = 1 by omega]; rfl
        have hd : (a ++ 10 :: b).drop (a.length + 1) = b := by
          rw [List.drop_append, List.drop_of_length_le (by omega), show a.length + 1 - a.length = 1 by omega]; rfl
        have hlen : (a ++ 10 :: b).length = a.length + (b.length + 1) := by simp
        have hbl : 0 < b.length := List.length_pos_iff.2 hb
        obtain ⟨ls, last, tail, e1, e2, e3, e4, e5, e6⟩ := ih b.length (by omega) b (depth + 1) (Nat.le_refl _)
        refine ⟨a :: ls, last, tail, ?_, ?_, e3, ?_, e5, ?_⟩
        · rw [e1]; simp
        · intro l hl
          rcases List.mem_cons.1 hl with rfl | hl
          · exact ha
          · exact e2 l hl
        · intro _ h
          by_cases hls : ls = []
          · subst hls; subst h; exact hb e1
          · exact e4 hls h
        · rw [split0, hi]
          dsimp only
          rw [dif_pos (by omega), ht, hd, e6]
          by_cases hdep : depth = 0 <;> simp [hdep]

/-- **C122** `split` cuts a text into exactly these pieces, whatever the limit. -/
theorem C122_pieces (limit : Int) (text : Str) (ps : List Str) : split text limit = ps ↔ Wrapped limit text ps := by
  obtain ⟨ls, last, tail, e1, e2, e3, e4, e5, e6⟩ := split0_wrapped limit text.length text 0 (Nat.le_refl _)
  have hs : split text limit = (if ls = [] then [] else [[]]) ++ (ls.map (· ++ [10]) ++ tail) := by
    unfold split
    rw [e6]
    simp
  constructor
  · rintro rfl
    exact ⟨ls, last, tail, e1, e2, e3, e4, e5, hs⟩
  · rintro ⟨ls', last', tail', f1, f2, f3, f4, f5, rfl⟩
    obtain ⟨rfl, rfl⟩ := cut_unique e2 f2 e3 f3 e4 f4 (e1.symm.trans f1)
    rw [hs, lastLine_unique e5 f5]


/-- **C122** A line that is not the last one of its text is never broken, however long it is. -/
theorem C122_inner (limit : Int) (before line after : Str) (hb : before = [] ∨ ∃ t, before = t ++ [10]) (hl : 10 ∉ line) (ha : after ≠ []) :
    line ++ [10] ∈ split (before ++ (line ++ 10 :: after)) limit := by
  obtain ⟨ls, last, tail, e1, e2, e3, e4, -, e6⟩ := (C122_pieces limit (before ++ (line ++ 10 :: after)) _).1 rfl
  rw [e6]
  have key : ∀ (ls : List Str) (before : Str), (before = [] ∨ ∃ t, before = t ++ [10]) → (∀ l ∈ ls, 10 ∉ l) →
      before ++ (line ++ 10 :: after) = (ls.map (· ++ [10])).flatten ++ last → line ∈ ls := by
    intro ls
    induction ls with
    | nil =>
      intro before _ _ h
      have := e3 (before ++ line) after (by simpa using h.symm)
      exact absurd this ha
    | cons l ls ih =>
      intro before hb h2 h
      have hsplit : ∀ (x y l r : Str), 10 ∉ x → 10 ∉ l → x ++ 10 :: y = l ++ 10 :: r → x = l ∧ y = r := by
        intro x
        induction x with
        | nil =>
          intro y l r _ hl he
          cases l with
          | nil => exact ⟨rfl, (List.cons.inj he).2⟩
          | cons z l => cases (List.cons.inj he).1; simp at hl
        | cons w x ihx =>
          intro y l r hx hl he
          cases l with
          | nil => cases (List.cons.inj he).1; simp at hx
          | cons z l =>
            obtain ⟨rfl, he'⟩ := List.cons.inj he
            simp only [List.mem_cons, not_or] at hx hl
            obtain ⟨rfl, rfl⟩ := ihx y l r hx.2 hl.2 he'
            exact ⟨rfl, rfl⟩
      rcases hb with rfl | ⟨t, rfl⟩
      · obtain ⟨rfl, -⟩ := hsplit line after l ((ls.map (· ++ [10])).flatten ++ last) hl (h2 l (by simp)) (by simpa using h)
        simp
      · -- the first line of `before`
        have hin : 10 ∈ t ++ [10] := by simp
        obtain ⟨i, hi⟩ : ∃ i, GoStr.indexByte 10 (t ++ [10]) = some i := by
          cases hc : GoStr.indexByte 10 (t ++ [10]) with
          | some i => exact ⟨i, rfl⟩
          | none => exact absurd hin (indexByte_none_iff 10 _ hc)
        obtain ⟨x, y, hxy, hx, -⟩ := indexByte_spec 10 _ i hi
        rw [hxy] at h
        obtain ⟨rfl, h'⟩ := hsplit x (y ++ (line ++ 10 :: after)) l ((ls.map (· ++ [10])).flatten ++ last) hx (h2 l (by simp)) (by simpa using h)
        refine List.mem_cons_of_mem _ (ih y ?_ (fun l hl => h2 l (by simp [hl])) h')
        rcases List.eq_nil_or_concat y with rfl | ⟨y', z, rfl⟩
        · exact .inl rfl
        · refine .inr ⟨y', ?_⟩
          rw [List.concat_eq_append] at hxy ⊢
          obtain ⟨-, hz⟩ := List.append_inj' (t₁ := [10]) (t₂ := [z]) (s₁ := t) (s₂ := x ++ 10 :: y') (by simpa using hxy) rfl
          rw [hz]
  have := key ls before hb e2 e1
  have hm : line ++ [10] ∈ ls.map (· ++ [10]) := List.mem_map.2 ⟨line, this, rfl⟩
  simp [List.mem_append.2 (.inl hm)]

/-- **C122** A text without line ends is broken once at most: with any number of words of one letter the first piece has all but the last. -/
theorem C122_once (limit : Int) (m : Nat) (hm : 0 < m) (h : limit < 2 * m + 1) :
    split ((List.replicate m b!"a ").flatten ++ b!"a") limit = [(List.replicate m b!"a ").flatten, b!"a"] := by
  rw [C122_pieces]
  obtain ⟨k, rfl⟩ : ∃ k, m = k + 1 := ⟨m - 1, by omega⟩
  have hr : (List.replicate (k + 1) b!"a ").flatten = ((List.replicate k b!"a ").flatten ++ b!"a") ++ [32] := by
    rw [List.replicate_succ']; simp
  have hlen : ∀ j, (List.replicate j b!"a ").flatten.length = 2 * j := fun j => by simp [Nat.mul_comm]
  have hno : 10 ∉ (List.replicate (k + 1) b!"a ").flatten ++ b!"a" := by
    intro h
    rcases List.mem_append.1 h with h | h
    · obtain ⟨l, hl, h⟩ := List.mem_flatten.1 h
      rw [List.eq_of_mem_replicate hl] at h
      revert h; decide
    · revert h; decide
  refine ⟨[], (List.replicate (k + 1) b!"a ").flatten ++ b!"a", [(List.replicate (k + 1) b!"a ").flatten, b!"a"], rfl, by simp,
    fun a b h => absurd (by rw [h]; simp) hno, by simp, ?_, by simp⟩
  have := LastLine.broken (limit := limit) (line := (List.replicate (k + 1) b!"a ").flatten ++ b!"a") ((List.replicate k b!"a ").flatten ++ b!"a") b!"a"
    ⟨by rw [List.length_append, hlen]; simp; omega, by rw [hr]; simp, by decide, by decide⟩
  rw [← hr] at this
  exact this

/-! ## Cost -/

theorem cost_left (a : Str) (limit : Int) (depth : Nat) (h : 10 ∉ a) : split0Cost (a ++ [32]) limit depth = (1, 0) := by
  rw [split0Cost, indexByte_none (by simpa using h)]
  dsimp only
  split
  · rfl
  · rw [lastIndex_some.2 ⟨a, [], rfl, by simp, rfl⟩]
    simp

theorem cost_last (limit : Int) (depth : Nat) (last : Str) (tail : List Str) (h : ∀ a b, last = a ++ 10 :: b → b = []) (ht : LastLine limit last tail) :
    split0Cost last limit depth = (tail.length, tail.length - 1) := by
  have single : split0Cost last limit depth = (if (last.length : Int) ≤ limit then (1, 0)
      else match GoStr.lastIndexByte 32 last with
        | some i => if i + 1 < last.length then
            ((split0Cost (last.take (i + 1)) limit (depth + 1)).1 + 1, (split0Cost (last.take (i + 1)) limit (depth + 1)).2 + 1) else (1, 0)
        | none => (1, 0)) := by
    rw [split0Cost]
    cases hi : GoStr.indexByte 10 last with
    | none => simp only [dite_eq_ite]; rfl
    | some i =>
      obtain ⟨a, b, e, -, rfl⟩ := indexByte_spec 10 last i hi
      have := h a b e
      subst this
      dsimp only
      rw [dif_neg (by rw [e]; simp)]
      simp only [dite_eq_ite]
      rfl
  rw [single]
  cases ht with
  | broken a b hb =>
    obtain ⟨h1, rfl, h2, h3⟩ := hb
    have ha : 10 ∉ a := fun hm => by
      obtain ⟨x, y, rfl⟩ := List.append_of_mem hm
      have := h x (y ++ 32 :: b) (by simp)
      simp at this
    have htk : (a ++ 32 :: b).take (a.length + 1) = a ++ [32] := by
      rw [List.take_append, List.take_of_length_le (by omega), show a.length + 1 - a.length = 1 by omega]; rfl
    have hbl := List.length_pos_iff.2 h3
    rw [if_neg (by omega), lastIndex_some.2 ⟨a, b, rfl, h2, rfl⟩]
    dsimp only
    rw [if_pos (by simp; omega), htk, cost_left a limit _ ha]
    rfl
  | whole hw =>
    split
    · rfl
    · next hl =>
      split
      · next i hi =>
        split
        · next hlt =>
          obtain ⟨a, b, rfl, h2, rfl⟩ := lastIndex_some.1 hi
          exact absurd ⟨by omega, rfl, h2, by rintro rfl; simp at hlt⟩ (hw a b)
        · rfl
      · rfl

/-- **C122** Breaking a text of `n` lines and a last one nests `n` calls and one or two more, and copies about half the square of `n` pieces. -/
theorem C122_cost (limit : Int) (ls : List Str) (last : Str) (tail : List Str) (h1 : ∀ l ∈ ls, 10 ∉ l) (h2 : ∀ a b, last = a ++ 10 :: b → b = [])
    (h3 : ls ≠ [] → last ≠ []) (h4 : LastLine limit last tail) :
    (splitCost ((ls.map (· ++ [10])).flatten ++ last) limit).1 = ls.length + tail.length ∧
      2 * (splitCost ((ls.map (· ++ [10])).flatten ++ last) limit).2 + ls.length =
        ls.length * ls.length + 2 * ls.length * tail.length + 2 * (tail.length - 1) := by
  unfold splitCost
  generalize 0 = depth
  induction ls generalizing depth with
  | nil =>
    have := cost_last limit depth last tail h2 h4
    simp only [List.map_nil, List.flatten_nil, List.nil_append, this]
    simp
  | cons l ls ih =>
    have h1' : ∀ l ∈ ls, 10 ∉ l := fun x hx => h1 x (by simp [hx])
    have h3' : ls ≠ [] → last ≠ [] := fun _ => h3 (by simp)
    obtain ⟨i1, i2⟩ := ih h1' h3' (depth + 1)
    have hlen : (split0 ((ls.map (· ++ [10])).flatten ++ last) limit (depth + 1)).length = ls.length + tail.length := by
      obtain ⟨ls', last', tail', e1, e2, e3, e4, e5, e6⟩ := split0_wrapped limit _ ((ls.map (· ++ [10])).flatten ++ last) (depth + 1) (Nat.le_refl _)
      obtain ⟨rfl, rfl⟩ := cut_unique h1' e2 h2 e3 h3' e4 e1
      rw [e6, lastLine_unique e5 h4]
      simp
    have hne : (ls.map (· ++ [10])).flatten ++ last ≠ [] := fun h => h3 (by simp) (List.append_eq_nil_iff.1 h).2
    have htext : ((l :: ls).map (· ++ [10])).flatten ++ last = l ++ 10 :: ((ls.map (· ++ [10])).flatten ++ last) := by simp
    rw [htext]
    generalize (ls.map (· ++ [10])).flatten ++ last = rest at hne hlen i1 i2
    have hidx : GoStr.indexByte 10 (l ++ 10 :: rest) = some l.length := by
      have hl := h1 l (by simp)
      clear htext hlen ih h1 h3 i1 i2
      induction l with
      | nil => simp [GoStr.indexByte]
      | cons x l ihl =>
        simp only [List.mem_cons, not_or] at hl
        rw [List.cons_append, GoStr.indexByte, if_neg (Ne.symm hl.1), ihl hl.2]
        rfl
    have hd : (l ++ 10 :: rest).drop (l.length + 1) = rest := by
      rw [List.drop_append, List.drop_of_length_le (by omega), show l.length + 1 - l.length = 1 by omega]; rfl
    have hpos := List.length_pos_iff.2 hne
    rw [split0Cost, hidx]
    dsimp only
    rw [dif_pos (by simp; omega), hd]
    dsimp only
    rw [hlen, i1, List.length_cons]
    refine ⟨by omega, ?_⟩
    have hm1 : (ls.length + 1) * (ls.length + 1) = ls.length * ls.length + 2 * ls.length + 1 := by ring
    have hm2 : 2 * (ls.length + 1) * tail.length = 2 * ls.length * tail.length + 2 * tail.length := by ring
    rw [hm1, hm2]
    omega

/-- Three lines, the last of which is broken, and how the pieces are written. -/
example : split b!"a b c\nd\ne f g" 4 = [b!"", b!"a b c\n", b!"d\n", b!"e f ", b!"g"] ∧ splitCost b!"a b c\nd\ne f g" 4 = (4, 6) ∧
    writeString asciiPrint b!"msgid" b!"one\ntwo" = b!"msgid \"\"\n\"one\\n\"\n\"two\"\n" := by
  decide +kernel

end Verif.Tr
