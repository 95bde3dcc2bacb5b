import Verif.Spec.Path
import Verif.Lemmas.Strings
import Mathlib.Data.List.Induction
import Mathlib.Data.List.TakeWhile
import Mathlib.Tactic.ByContra
/-! # Cleaning paths: the loop of `filepath.Clean` and the parts of the path -/
namespace Verif.W
open Verif

/-- A part of a path applied to the parts kept so far. -/
def stepPart (rooted : Bool) (st : List Str) (p : Str) : List Str :=
  if p = [] ∨ p = b!"." then st
  else if p = b!".." then
    if st = [] ∨ st.getLast? = some b!".." then (if rooted then st else st ++ [b!".."]) else st.dropLast
  else st ++ [p]

/-- The parts kept are written like this. -/
def render (rooted : Bool) (st : List Str) : Str := (if rooted then [47] else []) ++ List.intercalate [47] st

/-- The parts kept at any time. -/
structure Kept (rooted : Bool) (k : Nat) (names st : List Str) : Prop where
  eq : st = List.replicate k b!".." ++ names
  names : ∀ n ∈ names, FileName n
  root : rooted = true → k = 0

theorem fileName_part (p : Str) (h47 : 47 ∉ p) (h : ¬ (p = [] ∨ p = b!".")) (h' : p ≠ b!"..") : FileName p :=
  ⟨fun h0 => h (.inl h0), fun h0 => h (.inr h0), h', h47⟩

theorem kept_last (rooted : Bool) (k : Nat) (names st : List Str) (h : Kept rooted k names st) :
    (st = [] ∨ st.getLast? = some b!"..") ↔ names = [] := by
  rw [h.eq]
  cases hn : names with
  | nil =>
    simp only [List.append_nil, List.replicate_eq_nil_iff, iff_true]
    cases k with
    | zero => exact .inl rfl
    | succ k => right; rw [List.replicate_succ']; simp
  | cons a l =>
    simp only [List.append_eq_nil_iff, reduceCtorEq, and_false, false_or, iff_false]
    intro hl
    rw [List.getLast?_append, List.getLast?_cons] at hl
    simp only [Option.some_or] at hl
    have := List.mem_of_getLast? ((List.getLast?_cons (a := a) (l := l)).trans hl)
    exact (h.names _ (by rw [hn]; exact this)).2.2.1 rfl

theorem kept_step (rooted : Bool) (k : Nat) (names st : List Str) (h : Kept rooted k names st) (p : Str) (hp : 47 ∉ p) :
    ∃ k' names', Kept rooted k' names' (stepPart rooted st p) := by
  unfold stepPart
  split
  · exact ⟨k, names, h⟩
  · rename_i h1
    split
    · split
      · rename_i h3
        split
        · exact ⟨k, names, h⟩
        · rename_i h4
          have hn := (kept_last _ _ _ _ h).mp h3
          refine ⟨k + 1, [], ?_, by simp, by simp [h4]⟩
          rw [h.eq, hn, List.replicate_succ']; simp
      · rename_i h3
        have hn : names ≠ [] := fun hn => h3 ((kept_last _ _ _ _ h).mpr hn)
        refine ⟨k, names.dropLast, ?_, fun n hm => h.names n (List.dropLast_subset _ hm), h.root⟩
        rw [h.eq, List.dropLast_append_of_ne_nil hn]
    · rename_i h2
      refine ⟨k, names ++ [p], by rw [h.eq]; simp, ?_, h.root⟩
      intro n hn
      rcases List.mem_append.mp hn with hn | hn
      · exact h.names n hn
      · simp only [List.mem_cons, List.not_mem_nil, or_false] at hn
        subst hn
        exact fileName_part n hp h1 h2

theorem kept_fold (rooted : Bool) (ps : List Str) (hps : ∀ p ∈ ps, 47 ∉ p) : ∀ k names st, Kept rooted k names st →
    ∃ k' names', Kept rooted k' names' (ps.foldl (stepPart rooted) st) := by
  induction ps with
  | nil => intro k names st h; exact ⟨k, names, h⟩
  | cons p ps ih =>
    intro k names st h
    obtain ⟨k1, n1, h1⟩ := kept_step rooted k names st h p (hps p List.mem_cons_self)
    exact ih (fun q hq => hps q (List.mem_cons_of_mem _ hq)) k1 n1 _ h1

/-! Following parts -/

theorem follow_append (ps qs : List Str) : ∀ loc, follow loc (ps ++ qs) = follow (follow loc ps) qs := by
  induction ps with
  | nil => intro loc; rfl
  | cons p ps ih =>
    intro loc
    simp only [List.cons_append, follow]
    split
    · exact ih _
    · split <;> exact ih _

theorem follow_names (ns : List Str) (h : ∀ n ∈ ns, FileName n) : ∀ loc, follow loc ns = loc ++ ns := by
  induction ns with
  | nil => intro loc; simp [follow]
  | cons n ns ih =>
    intro loc
    have hn := h n List.mem_cons_self
    have h1 : ¬ (n = [] ∨ n = b!".") := by
      rintro (h | h)
      · exact hn.1 h
      · exact hn.2.1 h
    rw [follow, if_neg h1, if_neg hn.2.2.1, ih (fun m hm => h m (List.mem_cons_of_mem _ hm))]
    simp

theorem follow_step (rooted : Bool) (k : Nat) (names st : List Str) (h : Kept rooted k names st) (p : Str)
    (loc : List Str) (hr : rooted = true → loc = []) : follow loc (stepPart rooted st p) = follow loc (st ++ [p]) := by
  unfold stepPart
  rw [follow_append]
  split
  · rename_i h1; rw [follow, if_pos h1]; rfl
  · rename_i h1
    split
    · rename_i h2
      rw [follow, if_neg h1, if_pos h2]
      show _ = (follow loc st).dropLast
      split
      · rename_i h3
        have hn := (kept_last _ _ _ _ h).mp h3
        cases rooted with
        | true =>
          rw [if_pos rfl, h.eq, hn, h.root rfl, hr rfl]; rfl
        | false =>
          rw [if_neg (by simp), follow_append]; rfl
      · rename_i h3
        have hn : names ≠ [] := fun hn => h3 ((kept_last _ _ _ _ h).mpr hn)
        have hd : ∀ n ∈ names.dropLast, FileName n := fun n hm => h.names n (List.dropLast_subset _ hm)
        rw [h.eq, List.dropLast_append_of_ne_nil hn, follow_append, follow_append, follow_names _ h.names,
          follow_names _ hd, List.dropLast_append_of_ne_nil hn]
    · rename_i h2
      rw [follow_append]

theorem follow_fold (rooted : Bool) (loc : List Str) (hr : rooted = true → loc = []) (ps : List Str) (hps : ∀ p ∈ ps, 47 ∉ p) :
    ∀ k names st, Kept rooted k names st → follow loc (ps.foldl (stepPart rooted) st) = follow loc (st ++ ps) := by
  induction ps with
  | nil => intro k names st _; simp
  | cons p ps ih =>
    intro k names st h
    obtain ⟨k1, n1, h1⟩ := kept_step rooted k names st h p (hps p List.mem_cons_self)
    rw [List.foldl_cons, ih (fun q hq => hps q (List.mem_cons_of_mem _ hq)) k1 n1 _ h1, follow_append,
      follow_step rooted k names st h p loc hr, ← follow_append, List.append_assoc]
    rfl

/-! The loop -/

theorem back_comp (dd : Nat) (cp rest : Str) (hne : cp ≠ []) (h47 : 47 ∉ cp) :
    (rest.length = dd → back dd (cp ++ rest) = rest) ∧
    (∀ r, rest = 47 :: r → dd ≤ r.length → back dd (cp ++ rest) = r) := by
  induction cp with
  | nil => exact absurd rfl hne
  | cons a cp ih =>
    have ha : a ≠ 47 := fun h => h47 (by rw [h]; exact List.mem_cons_self)
    have h47' : 47 ∉ cp := fun h => h47 (List.mem_cons_of_mem _ h)
    cases cp with
    | nil =>
      constructor
      · intro hl
        rw [List.cons_append, back, if_neg (by simp only [List.nil_append]; omega)]; rfl
      · rintro r rfl hl
        rw [List.cons_append, back, if_pos ⟨by simp only [List.nil_append, List.length_cons]; omega, ha⟩, List.nil_append, back,
          if_neg (by simp)]
    | cons b cp =>
      have ih := ih (by simp) h47'
      constructor
      · intro hl
        rw [List.cons_append, back, if_pos ⟨by simp only [List.length_append, List.length_cons]; omega, ha⟩]
        exact ih.1 hl
      · intro r hr hl
        rw [List.cons_append, back, if_pos ⟨by rw [hr]; simp only [List.length_append, List.length_cons]; omega, ha⟩]
        exact ih.2 r hr hl

theorem intercalate_snoc (st : List Str) (p : Str) (h : st ≠ []) :
    List.intercalate [47] (st ++ [p]) = List.intercalate [47] st ++ 47 :: p := by
  induction st with
  | nil => exact absurd rfl h
  | cons a l ih =>
    cases l with
    | nil => simp [List.intercalate]
    | cons b l =>
      have := ih (by simp)
      simp only [List.cons_append, List.intercalate_cons_cons] at this ⊢
      rw [this]; simp

theorem splitByte_head (p : Str) (h : 47 ∉ p) (rest : Str) (hr : rest = [] ∨ rest.head? = some 47) (rooted : Bool) (st : List Str) :
    (GoStr.splitByte 47 (p ++ rest)).foldl (stepPart rooted) st =
      (GoStr.splitByte 47 rest).foldl (stepPart rooted) (stepPart rooted st p) := by
  have hnil : ∀ s, stepPart rooted s [] = s := fun s => by simp [stepPart]
  cases rest with
  | nil =>
    rw [List.append_nil, GoStr.splitByte_no_sep 47 p h]
    simp [GoStr.splitByte, hnil]
  | cons a r =>
    simp only [reduceCtorEq, List.head?_cons, Option.some.injEq, false_or] at hr
    subst hr
    rw [GoStr.splitByte_append_sep 47 p r h]
    simp [GoStr.splitByte, hnil]

theorem render_append (rooted : Bool) (a : List Str) (n : Str) :
    render rooted (a ++ [n]) = render rooted a ++ (if a = [] then [] else [47]) ++ n := by
  unfold render
  by_cases h : a = []
  · subst h; simp [List.intercalate]
  · rw [intercalate_snoc a n h, if_neg h]; simp

theorem render_le (rooted : Bool) (a b : List Str) : (render rooted a).length ≤ (render rooted (a ++ b)).length := by
  induction b using List.reverseRecOn with
  | nil => simp
  | append_singleton b n ih =>
    rw [← List.append_assoc, render_append]
    simp only [List.length_append]
    omega

theorem render_lt (rooted : Bool) (a b : List Str) (hb : ∀ n ∈ b, n ≠ []) (hne : b ≠ []) :
    (render rooted a).length < (render rooted (a ++ b)).length := by
  induction b using List.reverseRecOn with
  | nil => exact absurd rfl hne
  | append_singleton b n ih =>
    rw [← List.append_assoc, render_append]
    have := render_le rooted a b
    have : n.length ≠ 0 := fun h => hb n (by simp) (List.length_eq_zero_iff.mp h)
    simp only [List.length_append]
    omega

theorem cleanLoop_eq (rooted : Bool) (m : Nat) : ∀ p : Str, p.length ≤ m → ∀ k names st, Kept rooted k names st → ∀ o dd,
    o.reverse = render rooted st → dd = (render rooted (List.replicate k b!"..")).length →
    (cleanLoop rooted o dd p).reverse = render rooted ((GoStr.splitByte 47 p).foldl (stepPart rooted) st) := by
  induction m with
  | zero =>
    intro p hp k names st h o dd ho hd
    have : p = [] := List.length_eq_zero_iff.mp (by omega)
    subst this
    rw [cleanLoop.eq_def]
    simp [GoStr.splitByte, stepPart, ho]
  | succ m ih =>
    intro p hp k names st h o dd ho hd
    rw [cleanLoop.eq_def]
    cases p with
    | nil => simp [GoStr.splitByte, stepPart, ho]
    | cons c p =>
      dsimp only
      simp only [List.length_cons] at hp
      by_cases h1 : c = 47
      · rw [if_pos h1]
        subst h1
        rw [ih p (by omega) k names st h o dd ho hd]
        simp [GoStr.splitByte, stepPart]
      rw [if_neg h1]
      by_cases h2 : c = 46 ∧ (p = [] ∨ p.head? = some 47)
      · rw [if_pos h2]
        obtain ⟨rfl, h2⟩ := h2
        rw [ih p (by omega) k names st h o dd ho hd]
        have := splitByte_head [46] (by decide) p h2 rooted st
        rw [List.singleton_append] at this
        rw [this]
        congr 2
      rw [if_neg h2]
      by_cases h3 : c = 46 ∧ p.head? = some 46 ∧ (p.tail = [] ∨ p.tail.head? = some 47)
      · rw [if_pos h3]
        obtain ⟨rfl, h3, h4⟩ := h3
        obtain ⟨q, rfl⟩ : ∃ q, p = 46 :: q := by
          cases p with
          | nil => simp at h3
          | cons a q => simp only [List.head?_cons, Option.some.injEq] at h3; exact ⟨q, by rw [h3]⟩
        simp only [List.tail_cons, List.length_cons] at h4 hp ⊢
        have hsp := splitByte_head [46, 46] (by decide) q h4 rooted st
        rw [show ([46, 46] : Str) ++ q = 46 :: 46 :: q from rfl] at hsp
        rw [hsp]
        have hol : o.length = (render rooted st).length := by rw [← ho]; simp
        by_cases hn : names = []
        · have hlast := (kept_last _ _ _ _ h).mpr hn
          have hst : st = List.replicate k b!".." := by rw [h.eq, hn, List.append_nil]
          have hle : ¬ o.length > dd := by rw [hol, hd, hst]; omega
          rw [if_neg hle]
          have hstep : stepPart rooted st [46, 46] = if rooted then st else st ++ [b!".."] := by
            unfold stepPart
            rw [if_neg (by decide), if_pos rfl, if_pos hlast]
          rw [hstep]
          cases hr : rooted with
          | true =>
            subst hr
            rw [if_pos rfl, if_pos rfl]
            exact ih q (by omega) k names st h o dd ho hd
          | false =>
            subst hr
            simp only [Bool.false_eq_true, if_false]
            have hk : Kept false (k + 1) [] (st ++ [b!".."]) :=
              ⟨by rw [hst, List.replicate_succ']; simp, by simp, by simp⟩
            have ho' : (46 :: 46 :: (if o.length > 0 then 47 :: o else o)).reverse = render false (st ++ [b!".."]) := by
              rw [render_append, ← ho]
              have hiff : o.length > 0 ↔ st ≠ [] := by
                rw [hol, hst]
                cases k with
                | zero => simp [render]
                | succ k =>
                  have := render_lt false [] (List.replicate (k + 1) b!"..")
                    (fun n hm => by rw [List.eq_of_mem_replicate hm]; simp) (by simp)
                  rw [List.nil_append] at this
                  exact ⟨fun _ => by simp, fun _ => by omega⟩
              by_cases hs : st = []
              · rw [if_neg (fun hx => (hiff.mp hx) hs), if_pos hs]; simp
              · rw [if_pos (hiff.mpr hs), if_neg hs]; simp
            refine ih q (by omega) (k + 1) [] _ hk _ _ ho' ?_
            have := congrArg List.length ho'
            rw [List.length_reverse, hst, ← List.replicate_succ'] at this
            rw [← this]; rfl
        · have hlast : ¬ (st = [] ∨ st.getLast? = some b!"..") := fun hx => hn ((kept_last _ _ _ _ h).mp hx)
          have hgt : o.length > dd := by
            rw [hol, hd, h.eq]
            exact render_lt rooted _ _ (fun n hm => (h.names n hm).1) hn
          rw [if_pos hgt]
          have hstep : stepPart rooted st [46, 46] = st.dropLast := by
            unfold stepPart
            rw [if_neg (by decide), if_pos rfl, if_neg hlast]
          rw [hstep]
          obtain ⟨init, n, rfl⟩ : ∃ init n, names = init ++ [n] :=
            ⟨names.dropLast, names.getLast hn, (List.dropLast_concat_getLast hn).symm⟩
          have hfn := h.names n (by simp)
          have hst : st = (List.replicate k b!".." ++ init) ++ [n] := by rw [h.eq, List.append_assoc]
          have hd' : st.dropLast = List.replicate k b!".." ++ init := by rw [hst]; simp
          have hk : Kept rooted k init st.dropLast := ⟨hd', fun x hx => h.names x (by simp [hx]), h.root⟩
          refine ih q (by omega) k init _ hk _ _ ?_ hd
          rw [hst, render_append] at ho
          have ho' := congrArg List.reverse ho
          rw [List.reverse_reverse, List.reverse_append] at ho'
          rw [ho', hd']
          have hb := back_comp dd n.reverse
            ((render rooted (List.replicate k b!".." ++ init) ++ (if List.replicate k b!".." ++ init = [] then [] else [47])).reverse)
            (by simpa using hfn.1) (by simpa using hfn.2.2.2)
          by_cases he : List.replicate k b!".." ++ init = []
          · rw [if_pos he, List.append_nil] at hb ⊢
            rw [hb.1 ?_, List.reverse_reverse]
            rw [hd, List.length_reverse]
            simp only [List.append_eq_nil_iff] at he
            rw [he.2, List.append_nil]
          · rw [if_neg he] at hb ⊢
            rw [hb.2 (render rooted (List.replicate k b!".." ++ init)).reverse (by simp) ?_, List.reverse_reverse]
            rw [hd, List.length_reverse]
            exact render_le _ _ _
      · rw [if_neg h3]
        have hsplit : c :: p = (c :: p.takeWhile (· ≠ 47)) ++ p.dropWhile (· ≠ 47) := by
          rw [List.cons_append, List.takeWhile_append_dropWhile]
        have hrest : p.dropWhile (· ≠ 47) = [] ∨ (p.dropWhile (· ≠ 47)).head? = some 47 := by
          cases hw : p.dropWhile (· ≠ 47) with
          | nil => exact .inl rfl
          | cons a l =>
            right
            have := List.head?_dropWhile_not (· ≠ (47 : UInt8)) p
            rw [hw] at this
            simpa using this
        have hpart : 47 ∉ c :: p.takeWhile (· ≠ 47) := by
          intro hm
          rcases List.mem_cons.mp hm with hm | hm
          · exact h1 hm.symm
          · have := List.mem_takeWhile_imp hm
            simp at this
        have hne : ¬ (c :: p.takeWhile (· ≠ 47) = [] ∨ c :: p.takeWhile (· ≠ 47) = b!".") := by
          rintro (hx | hx)
          · simp at hx
          · simp only [List.cons.injEq] at hx
            refine h2 ⟨hx.1, ?_⟩
            rw [hx.1, hx.2] at hsplit
            simp only [List.cons_append, List.nil_append, List.cons.injEq, true_and] at hsplit
            rw [hsplit]; exact hrest
        have hne2 : c :: p.takeWhile (· ≠ 47) ≠ b!".." := by
          intro hx
          simp only [List.cons.injEq] at hx
          rw [hx.1, hx.2] at hsplit
          simp only [List.cons_append, List.nil_append, List.cons.injEq, true_and] at hsplit
          refine h3 ⟨hx.1, by rw [hsplit]; rfl, ?_⟩
          rw [hsplit]
          simpa using hrest
        have hspl : GoStr.splitByte 47 (c :: p) = GoStr.splitByte 47 ((c :: p.takeWhile (· ≠ 47)) ++ p.dropWhile (· ≠ 47)) := by
          rw [← hsplit]
        rw [hspl, splitByte_head _ hpart _ hrest rooted st]
        generalize hP : c :: p.takeWhile (· ≠ 47) = P at *
        have hstep : stepPart rooted st P = st ++ [P] := by
          unfold stepPart
          rw [if_neg hne, if_neg hne2]
        rw [hstep]
        have hk : Kept rooted k (names ++ [P]) (st ++ [P]) := by
          refine ⟨by rw [h.eq, List.append_assoc], ?_, h.root⟩
          intro n hm
          rcases List.mem_append.mp hm with hm | hm
          · exact h.names n hm
          · simp only [List.mem_cons, List.not_mem_nil, or_false] at hm
            subst hm
            exact fileName_part _ hpart hne hne2
        refine ih _ ?_ k _ _ hk _ _ ?_ hd
        · exact Nat.le_trans (List.dropWhile_sublist _).length_le (by omega)
        · rw [render_append, ← ho, List.reverse_append, List.reverse_reverse]
          congr 1
          have hiff : ((rooted = true ∧ o.length ≠ 1) ∨ (rooted = false ∧ o.length ≠ 0)) ↔ st ≠ [] := by
            have hol : o.length = (render rooted st).length := by rw [← ho]; simp
            rw [hol]
            constructor
            · rintro hx rfl
              cases rooted <;> simp [render, List.intercalate] at hx
            · intro hx
              have := render_lt rooted [] st ?_ hx
              · cases rooted <;> simp [render, List.intercalate] at this ⊢ <;> exact Nat.ne_of_gt this
              · intro n hm hn
                subst hn
                rw [h.eq] at hm
                rcases List.mem_append.mp hm with hm | hm
                · have := List.eq_of_mem_replicate hm; cases this
                · exact (h.names _ hm).1 rfl
          by_cases hs : st = []
          · rw [if_neg (fun hx => hiff.mp hx hs), if_pos hs]; simp
          · rw [if_pos (hiff.mpr hs), if_neg hs]; simp

/-! The result -/

/-- Does the path start at the root? -/
def isRooted (path : Str) : Bool := path.head? = some 47

theorem isRooted_iff (path : Str) : isRooted path = true ↔ Absolute path := by
  unfold isRooted Absolute
  cases path with
  | nil => simp
  | cons a p => simp

theorem render_nil_iff (rooted : Bool) (st : List Str) (h : ∀ n ∈ st, n ≠ []) : render rooted st = [] ↔ rooted = false ∧ st = [] := by
  constructor
  · intro hr
    cases rooted with
    | true => simp [render] at hr
    | false =>
      refine ⟨rfl, ?_⟩
      by_contra hne
      have := render_lt false [] st h hne
      rw [List.nil_append, hr] at this
      simp at this
  · rintro ⟨rfl, rfl⟩; rfl

/-- The parts `filepath.Clean` keeps. -/
def kept (path : Str) : List Str := (GoStr.splitByte 47 path).foldl (stepPart (isRooted path)) []

theorem kept_kept (path : Str) : ∃ k names, Kept (isRooted path) k names (kept path) :=
  kept_fold _ _ (GoStr.splitByte_not_mem 47 path) 0 [] [] ⟨rfl, by simp, fun _ => rfl⟩

theorem kept_parts (rooted : Bool) (k : Nat) (names st : List Str) (h : Kept rooted k names st) : ∀ n ∈ st, n ≠ [] ∧ 47 ∉ n := by
  intro n hn
  rw [h.eq] at hn
  rcases List.mem_append.mp hn with hn | hn
  · rw [List.eq_of_mem_replicate hn]; decide
  · exact ⟨(h.names n hn).1, (h.names n hn).2.2.2⟩

theorem clean_eq (path : Str) : clean path = if isRooted path = false ∧ kept path = [] then b!"." else render (isRooted path) (kept path) := by
  obtain ⟨k, names, hk⟩ := kept_kept path
  have hne := fun n hn => (kept_parts _ _ _ _ hk n hn).1
  unfold clean
  by_cases h0 : path = []
  · subst h0; decide
  rw [if_neg h0]
  have hout : (if path.head? = some 47 then cleanLoop true [47] 1 path.tail else cleanLoop false [] 0 path).reverse =
      render (isRooted path) (kept path) := by
    by_cases hr : path.head? = some 47
    · rw [if_pos hr]
      obtain ⟨p, rfl⟩ : ∃ p, path = 47 :: p := by
        cases path with
        | nil => simp at hr
        | cons a p => simp only [List.head?_cons, Option.some.injEq] at hr; exact ⟨p, by rw [hr]⟩
      rw [List.tail_cons, cleanLoop_eq true _ p (Nat.le_refl _) 0 [] [] ⟨rfl, by simp, fun _ => rfl⟩ [47] 1 rfl rfl]
      unfold kept
      rw [show isRooted (47 :: p) = true from rfl, show GoStr.splitByte 47 (47 :: p) = [] :: GoStr.splitByte 47 p by simp [GoStr.splitByte]]
      rfl
    · rw [if_neg hr, cleanLoop_eq false _ path (Nat.le_refl _) 0 [] [] ⟨rfl, by simp, fun _ => rfl⟩ [] 0 rfl rfl]
      unfold kept
      rw [show isRooted path = false by simpa [isRooted] using hr]
  dsimp only
  generalize (if path.head? = some 47 then cleanLoop true [47] 1 path.tail else cleanLoop false [] 0 path) = out at hout ⊢
  have hiff : out = [] ↔ isRooted path = false ∧ kept path = [] := by
    rw [← render_nil_iff _ _ hne, ← hout]; simp
  by_cases ho : out = []
  · rw [if_pos ho, if_pos (hiff.mp ho)]
  · rw [if_neg ho, if_neg (fun hx => ho (hiff.mpr hx)), hout]

theorem parts_iff (path : Str) (ps : List Str) : Parts path ps ↔ GoStr.splitByte 47 path = ps := by
  constructor
  · rintro ⟨h1, h2, rfl⟩
    exact GoStr.splitByte_intercalate 47 ps h1 h2
  · rintro rfl
    exact ⟨GoStr.splitByte_ne_nil _ _, GoStr.splitByte_not_mem _ _, (GoStr.intercalate_splitByte _ _).symm⟩

/-- Where a path leads, as a function. -/
def leads (cwd : List Str) (path : Str) : List Str := follow (if isRooted path then [] else cwd) (GoStr.splitByte 47 path)

theorem leadsTo_iff (cwd : List Str) (path : Str) (loc : List Str) : LeadsTo cwd path loc ↔ loc = leads cwd path := by
  unfold LeadsTo leads
  constructor
  · rintro ⟨ps, hp, ⟨ha, rfl⟩ | ⟨ha, rfl⟩⟩
    · rw [(parts_iff _ _).mp hp, if_pos ((isRooted_iff _).mpr ha)]
    · rw [(parts_iff _ _).mp hp, if_neg (fun hx => ha ((isRooted_iff _).mp hx))]
  · rintro rfl
    refine ⟨_, (parts_iff _ _).mpr rfl, ?_⟩
    by_cases ha : isRooted path = true
    · exact .inl ⟨(isRooted_iff _).mp ha, by rw [if_pos ha]⟩
    · exact .inr ⟨fun hx => ha ((isRooted_iff _).mpr hx), by rw [if_neg ha]⟩

theorem render_rooted (k : Nat) (names st : List Str) (rooted : Bool) (h : Kept rooted k names st)
    (hne : ¬ (rooted = false ∧ st = [])) : isRooted (render rooted st) = rooted := by
  cases rooted with
  | true => rfl
  | false =>
    have hst : st ≠ [] := fun hx => hne ⟨rfl, hx⟩
    cases st with
    | nil => exact absurd rfl hst
    | cons a l =>
      have ha := kept_parts _ _ _ _ h a List.mem_cons_self
      cases a with
      | nil => exact absurd rfl ha.1
      | cons x a =>
        have hx : x ≠ 47 := fun hx => ha.2 (by rw [hx]; exact List.mem_cons_self)
        cases l with
        | nil => simp [render, isRooted, List.intercalate, hx]
        | cons b l => simp [render, isRooted, hx]

theorem follow_render (loc : List Str) (k : Nat) (names st : List Str) (rooted : Bool) (h : Kept rooted k names st) :
    follow loc (GoStr.splitByte 47 (render rooted st)) = follow loc st := by
  have hs : follow loc (GoStr.splitByte 47 (List.intercalate [47] st)) = follow loc st := by
    by_cases hst : st = []
    · subst hst; rfl
    · rw [GoStr.splitByte_intercalate 47 st hst (fun n hn => (kept_parts _ _ _ _ h n hn).2)]
  cases rooted with
  | true =>
    unfold render
    rw [if_pos rfl, List.singleton_append]
    simp only [GoStr.splitByte, if_true]
    rw [follow, if_pos (.inl rfl)]
    exact hs
  | false => exact hs

theorem clean_rooted (path : Str) : isRooted (clean path) = isRooted path := by
  obtain ⟨k, names, hk⟩ := kept_kept path
  rw [clean_eq]
  split
  · rename_i h; rw [h.1]; rfl
  · rename_i h; exact render_rooted k names _ _ hk h

theorem clean_leads (cwd : List Str) (path : Str) : leads cwd (clean path) = leads cwd path := by
  obtain ⟨k, names, hk⟩ := kept_kept path
  unfold leads
  rw [clean_rooted]
  have hf := follow_fold (isRooted path) (if isRooted path then [] else cwd) (fun h => by rw [if_pos h])
    (GoStr.splitByte 47 path) (GoStr.splitByte_not_mem 47 path) 0 [] [] ⟨rfl, by simp, fun _ => rfl⟩
  rw [List.nil_append] at hf
  rw [← hf]
  change _ = follow _ (kept path)
  rw [clean_eq]
  by_cases h : isRooted path = false ∧ kept path = []
  · rw [if_pos h, h.2]; rfl
  · rw [if_neg h]; exact follow_render _ k names _ _ hk

theorem clean_canonical (path : Str) : Canonical (clean path) := by
  obtain ⟨k, names, hk⟩ := kept_kept path
  rw [clean_eq]
  split
  · exact .inr (.inl rfl)
  · rename_i h
    cases hr : isRooted path with
    | true =>
      have h0 := hk.root hr
      by_cases hn : names = []
      · left; rw [hk.eq, h0, hn]; rfl
      · right; right
        exact ⟨0, names, hk.names, .inl ⟨rfl, hn, by rw [hk.eq, h0]; rfl⟩⟩
    | false =>
      right; right
      refine ⟨k, names, hk.names, .inr ⟨?_, by rw [hk.eq]; rfl⟩⟩
      intro h0
      apply h
      refine ⟨hr, ?_⟩
      rw [hk.eq, show k = 0 by omega, show names = [] from List.length_eq_zero_iff.mp (by omega)]
      rfl

end Verif.W
