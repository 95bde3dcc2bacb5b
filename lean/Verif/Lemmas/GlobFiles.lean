import Verif.Lemmas.GlobMatch
import Verif.Spec.GlobFiles
import Verif.Props.C67
/-!
# Lemmas about Glob
-/
namespace Verif.Glob
open Verif Verif.Literal

theorem matches_iff (p name : Str) : matches? p name = none ↔ ¬ ∃ ps, Pattern p ps := by
  constructor
  · rintro h ⟨ps, hp⟩
    obtain ⟨b, hb⟩ := matchN_text _ p ps name hp (Nat.lt_succ_self _)
    rw [matches?, hb] at h; cases h
  · intro h
    cases hm : matches? p name with
    | none => rfl
    | some b => exact absurd (matchN_some _ p name b hm) h

theorem matches_some {p : Str} {ps : List Piece} (h : Pattern p ps) (name : Str) : ∃ b, matches? p name = some b :=
  matchN_text _ p ps name h (Nat.lt_succ_self _)

theorem matches_sound {p : Str} {ps : List Piece} {name : Str} (h : Pattern p ps) (hm : matches? p name = some true) : Fits false ps name :=
  matchN_sound _ p ps name h hm

theorem matches_complete {p : Str} {ps : List Piece} {name : Str} (h : Pattern p ps) (hf : Fits true ps name) (h47 : 47 ∉ name) :
    matches? p name = some true := matchN_complete _ p ps name h (Nat.lt_succ_self _) hf h47

/-! What follows a pattern in a pattern is one -/

theorem ranges_unique {s s' z z' : Str} {rs rs' : List (Char × Char)} (h : Ranges s rs) (h' : Ranges s' rs')
    (he : s ++ 93 :: z = s' ++ 93 :: z') : z = z' := by
  have h1 := ranges_text h 0 z (s.length + s'.length + 1) (by omega) true false
  have h2 := ranges_text h' 0 z' (s.length + s'.length + 1) (by omega) true false
  rw [he, h2] at h1
  exact (Prod.mk.inj (Option.some.inj h1)).2.symm

theorem pattern_suffix {c q : Str} {ps : List Piece} (h : Pattern c ps) : (∃ qs, Pattern (c ++ q) qs) → ∃ qs, Pattern q qs := by
  induction h with
  | nil => exact id
  | star _ ih =>
    rintro ⟨qs, hq⟩
    obtain ⟨qs', -, hq'⟩ := pattern_star hq
    exact ih ⟨qs', hq'⟩
  | @one p ps _ ih =>
    rintro ⟨qs, hq⟩
    apply ih
    generalize hx : 63 :: p ++ q = x at hq
    cases hq with
    | nil => cases hx
    | one h => cases hx; exact ⟨_, h⟩
    | byte _ h2 => exact absurd (List.cons.inj hx).1.symm h2
    | star => exact absurd (List.cons.inj hx).1 (by decide)
    | escaped => exact absurd (List.cons.inj hx).1 (by decide)
    | set => exact absurd (List.cons.inj hx).1 (by decide)
    | negated => exact absurd (List.cons.inj hx).1 (by decide)
  | @byte c p ps h1 h2 h3 h4 _ ih =>
    rintro ⟨qs, hq⟩
    apply ih
    generalize hx : c :: p ++ q = x at hq
    cases hq with
    | nil => cases hx
    | byte _ _ _ _ h => cases hx; exact ⟨_, h⟩
    | one h => exact absurd (List.cons.inj hx).1 h2
    | star => exact absurd (List.cons.inj hx).1 h1
    | escaped => exact absurd (List.cons.inj hx).1 h4
    | set => exact absurd (List.cons.inj hx).1 h3
    | negated => exact absurd (List.cons.inj hx).1 h3
  | @escaped c p ps _ ih =>
    rintro ⟨qs, hq⟩
    apply ih
    generalize hx : 92 :: c :: p ++ q = x at hq
    cases hq with
    | nil => cases hx
    | escaped h => cases hx; exact ⟨_, h⟩
    | byte _ _ _ h2 => exact absurd (List.cons.inj hx).1.symm h2
    | star => exact absurd (List.cons.inj hx).1 (by decide)
    | one => exact absurd (List.cons.inj hx).1 (by decide)
    | set => exact absurd (List.cons.inj hx).1 (by decide)
    | negated => exact absurd (List.cons.inj hx).1 (by decide)
  | @set s p rs ps hr h94 _ ih =>
    rintro ⟨qs, hq⟩
    apply ih
    generalize hx : 91 :: s ++ 93 :: p ++ q = x at hq
    have hx' : 91 :: (s ++ 93 :: (p ++ q)) = x := by rw [← hx]; simp
    cases hq with
    | nil => cases hx
    | byte _ _ h2 => exact absurd (List.cons.inj hx).1.symm h2
    | star => exact absurd (List.cons.inj hx).1 (by decide)
    | one => exact absurd (List.cons.inj hx).1 (by decide)
    | escaped => exact absurd (List.cons.inj hx).1 (by decide)
    | set hr' _ h => rw [ranges_unique hr hr' (List.cons.inj hx').2]; exact ⟨_, h⟩
    | negated hr' h =>
      obtain ⟨b, u, rfl, -⟩ := ranges_head hr
      have := (List.cons.inj (List.cons.inj hx').2).1
      exact absurd (by rw [this]; rfl) h94
  | @negated s p rs ps hr _ ih =>
    rintro ⟨qs, hq⟩
    apply ih
    generalize hx : 91 :: 94 :: s ++ 93 :: p ++ q = x at hq
    have hx' : 91 :: 94 :: (s ++ 93 :: (p ++ q)) = x := by rw [← hx]; simp
    cases hq with
    | nil => cases hx
    | byte _ _ h2 => exact absurd (List.cons.inj hx).1.symm h2
    | star => exact absurd (List.cons.inj hx).1 (by decide)
    | one => exact absurd (List.cons.inj hx).1 (by decide)
    | escaped => exact absurd (List.cons.inj hx).1 (by decide)
    | negated hr' h => rw [ranges_unique hr hr' (List.cons.inj (List.cons.inj hx').2).2]; exact ⟨_, h⟩
    | @set s' _ _ _ hr' h94' h =>
      obtain ⟨b, u, rfl, -⟩ := ranges_head hr'
      have := (List.cons.inj (List.cons.inj hx').2).1
      exact absurd (by rw [← this]; rfl) h94'

theorem plain_pattern (p : Str) (h : Plain p) : ∃ ps, Pattern p ps := by
  induction p with
  | nil => exact ⟨[], .nil⟩
  | cons c p ih =>
    obtain ⟨ps, hp⟩ := ih fun x hx => h x (List.mem_cons_of_mem _ hx)
    obtain ⟨h1, h2, h3, h4⟩ := h c List.mem_cons_self
    exact ⟨_, .byte h1 h2 h3 h4 hp⟩

theorem hasMeta_iff (p : Str) : hasMeta p = false ↔ Plain p := by
  simp only [hasMeta, Plain, List.any_eq_false, Bool.or_eq_true, decide_eq_true_eq, not_or, and_assoc]

/-! Splitting -/

theorem split_join (p : Str) : (split p).1 ++ (split p).2 = p := by
  have := List.takeWhile_append_dropWhile (p := fun c : UInt8 => decide (c ≠ 47)) (l := p.reverse)
  unfold split
  simp only
  rw [← List.reverse_append, this, List.reverse_reverse]

theorem split_file (p : Str) : 47 ∉ (split p).2 := by
  intro h
  unfold split at h
  simp only [List.mem_reverse] at h
  have := List.mem_takeWhile_imp h
  simp at this

theorem split_dir (p : Str) : (split p).1 = [] ∨ ∃ a, (split p).1 = a ++ [47] := by
  unfold split
  simp only
  cases h : p.reverse.dropWhile (· ≠ 47) with
  | nil => exact .inl rfl
  | cons b t =>
    have := List.head?_dropWhile_not (fun c : UInt8 => decide (c ≠ 47)) p.reverse
    rw [h] at this
    simp at this
    exact .inr ⟨t.reverse, by simp [this]⟩

theorem split_eq (pre file : Str) (h : pre = [] ∨ ∃ a, pre = a ++ [47]) (h47 : 47 ∉ file) : split (pre ++ file) = (pre, file) := by
  unfold split
  have hall : ∀ c ∈ file.reverse, (fun c : UInt8 => decide (c ≠ 47)) c = true := by
    intro c hc
    simp only [ne_eq, decide_not, Bool.not_eq_true', decide_eq_false_iff_not]
    rintro rfl; exact h47 (List.mem_reverse.mp hc)
  rw [List.reverse_append, List.dropWhile_append_of_pos hall, List.takeWhile_append_of_pos hall]
  rcases h with rfl | ⟨a, rfl⟩
  · simp
  · simp

theorem before_shape {pre dir : Str} (h : Before pre dir) : pre = [] ∨ ∃ a, pre = a ++ [47] := by
  cases h with
  | nothing => exact .inl rfl
  | root => exact .inr ⟨[], rfl⟩
  | dir _ _ => exact .inr ⟨dir, rfl⟩

theorem before_clean {pre dir : Str} (h : Before pre dir) : cleanGlobPath pre = dir := by
  cases h with
  | nothing => rfl
  | root => rfl
  | dir d hd =>
    unfold cleanGlobPath
    rw [if_neg (by simp), if_neg]
    · simp
    · intro h
      cases dir with
      | nil => exact hd rfl
      | cons a d => cases d <;> simp at h

theorem before_of (pre : Str) (h : pre = [] ∨ ∃ a, pre = a ++ [47]) : Before pre (cleanGlobPath pre) := by
  rcases h with rfl | ⟨a, rfl⟩
  · exact .nothing
  · by_cases ha : a = []
    · subst ha; exact .root
    · have := Before.dir a ha
      have h' := before_clean this
      rw [show a ++ [47] = a ++ b!"/" from rfl, h']; exact this

/-! Names in directories -/

theorem mem_insert (n x : Str) (l : List Str) : x ∈ insert n l ↔ x = n ∨ x ∈ l := by
  induction l with
  | nil => simp [insert]
  | cons m ms ih =>
    rw [insert]
    split
    · simp only [List.mem_cons, ih]; tauto
    · simp

theorem insert_perm (n : Str) (l : List Str) : (insert n l).Perm (n :: l) := by
  induction l with
  | nil => exact .refl _
  | cons m ms ih =>
    rw [insert]
    split
    · exact (ih.cons m).trans (.swap n m ms)
    · exact .refl _

theorem sort_perm (l : List Str) : (sort l).Perm l := by
  induction l with
  | nil => exact .refl _
  | cons m ms ih => exact (insert_perm m _).trans (ih.cons m)

theorem insert_sorted (n : Str) (l : List Str) (h : l.Pairwise (fun a b => ¬ b < a)) : (insert n l).Pairwise (fun a b => ¬ b < a) := by
  induction l with
  | nil => simp [insert]
  | cons m ms ih =>
    obtain ⟨h1, h2⟩ := List.pairwise_cons.mp h
    rw [insert]
    split
    · rename_i hlt
      refine List.pairwise_cons.mpr ⟨fun x hx => ?_, ih h2⟩
      rcases (mem_insert n x ms).mp hx with rfl | hx
      · exact List.not_lt.mpr (List.le_of_lt hlt)
      · exact h1 x hx
    · rename_i hlt
      refine List.pairwise_cons.mpr ⟨fun x hx => ?_, h⟩
      rcases List.mem_cons.mp hx with rfl | hx
      · exact hlt
      · exact List.not_lt.mpr (List.le_trans (List.not_lt.mp hlt) (List.not_lt.mp (h1 x hx)))

theorem sort_sorted (l : List Str) : (sort l).Pairwise (fun a b => ¬ b < a) := by
  induction l with
  | nil => exact .nil
  | cons m ms ih => exact insert_sorted m _ ih

theorem sort_eq {l l' : List Str} (h : l.Perm l') : sort l = sort l' := by
  have hp : (sort l).Perm (sort l') := (sort_perm l).trans (h.trans (sort_perm l').symm)
  refine hp.eq_of_pairwise (le := fun a b => ¬ b < a) (fun a b _ _ h1 h2 => ?_) (sort_sorted l) (sort_sorted l')
  exact List.le_antisymm (List.not_lt.mp h1) (List.not_lt.mp h2)

/-- The paths to the names in a directory that fit. -/
def part (fs : Fs) (file d : Str) : List Str :=
  match fs.names d with
  | none => []
  | some ns => ((sort ns).filter fun n => matches? file n = some true).map fun n => W.joinPath [d, n]

theorem select_eq (dir : Str) {file : Str} {ps : List Piece} (h : Pattern file ps) (ns : List Str) : ∀ m,
    select dir file ns m = some (m ++ (ns.filter fun n => matches? file n = some true).map fun n => W.joinPath [dir, n]) := by
  induction ns with
  | nil => intro m; simp [select]
  | cons n ns ih =>
    intro m
    rw [select]
    obtain ⟨b, hb⟩ := matches_some h n
    rw [hb]
    cases b with
    | true => simp only; rw [ih]; simp [hb]
    | false => simp only; rw [ih]; simp [hb]

theorem globIn_eq (fs : Fs) (dir : Str) {file : Str} {ps : List Piece} (h : Pattern file ps) (m : List Str) :
    globIn fs dir file m = some (m ++ part fs file dir) := by
  unfold globIn part
  cases fs.names dir with
  | none => simp
  | some ns => exact select_eq dir h (sort ns) m

theorem globAll_eq (fs : Fs) {file : Str} {ps : List Piece} (h : Pattern file ps) (ds : List Str) : ∀ m,
    globAll fs file ds m = some (m ++ ds.flatMap (part fs file)) := by
  induction ds with
  | nil => intro m; simp [globAll]
  | cons d ds ih => intro m; rw [globAll, globIn_eq fs d h]; simp only; rw [ih]; simp

theorem mem_part (fs : Fs) (file d x : Str) : x ∈ part fs file d ↔ ∃ ns n, fs.names d = some ns ∧ n ∈ ns ∧ matches? file n = some true ∧
    x = W.joinPath [d, n] := by
  unfold part
  cases h : fs.names d with
  | none => simp
  | some ns =>
    simp only [List.mem_map, List.mem_filter, (sort_perm ns).mem_iff, decide_eq_true_eq, Option.some.injEq]
    constructor
    · rintro ⟨n, ⟨h1, h2⟩, rfl⟩; exact ⟨ns, n, rfl, h1, h2, rfl⟩
    · rintro ⟨_, n, rfl, h1, h2, rfl⟩; exact ⟨n, ⟨h1, h2⟩, rfl⟩

/-! Depth -/

theorem before_count {pre dir : Str} (h : Before pre dir) (hm : ¬ Plain dir) : dir.count 47 < pre.count 47 := by
  cases h with
  | nothing => exact absurd (by unfold Plain; decide) hm
  | root => exact absurd (by unfold Plain; decide) hm
  | dir _ _ => simp

theorem before_pattern {pre dir file : Str} (h : Before pre dir) (hw : WellFormed (pre ++ file)) :
    WellFormed dir ∧ ∃ ps, Pattern file ps := by
  have hpl : ∀ d : Str, Plain d → 47 ∉ d ∨ d = b!"/" → WellFormed d := by
    intro d h1 h2
    refine ⟨plain_pattern d h1, ?_⟩
    rintro q r rfl
    exact plain_pattern q fun c hc => h1 c (List.mem_append.mpr (.inl hc))
  cases h with
  | nothing => exact ⟨hpl _ (by unfold Plain; decide) (.inl (by decide)), hw.1⟩
  | root =>
    refine ⟨hpl _ (by unfold Plain; decide) (.inr rfl), ?_⟩
    exact pattern_suffix (.byte (c := 47) (by decide) (by decide) (by decide) (by decide) .nil) hw.1
  | dir _ _ =>
    have hd := hw.2 dir file (by simp)
    refine ⟨⟨hd, ?_⟩, ?_⟩
    · rintro q r rfl
      exact hw.2 q (r ++ b!"/" ++ file) (by simp)
    · obtain ⟨ps, hp⟩ := hd
      exact pattern_suffix (pattern_append hp (.byte (c := 47) (by decide) (by decide) (by decide) (by decide) .nil)) hw.1

theorem before_of_pattern {pre dir file : Str} (h : Before pre dir) (hd : WellFormed dir) (hf : 47 ∉ file) (hp : ∃ ps, Pattern (pre ++ file) ps) :
    WellFormed (pre ++ file) := by
  refine ⟨hp, fun q r hq => ?_⟩
  have key : ∀ d : Str, pre = d ++ [47] → (∃ ps, Pattern d ps) → (∀ q r, d = q ++ 47 :: r → ∃ ps, Pattern q ps) → ∃ ps, Pattern q ps := by
    rintro d rfl h1 h2
    rw [List.append_assoc] at hq
    rcases List.append_eq_append_iff.mp hq with ⟨a, h3, h4⟩ | ⟨a, h3, h4⟩
    · cases a with
      | nil => rw [List.append_nil] at h3; rw [h3]; exact h1
      | cons b a =>
        exfalso
        have h5 : file = a ++ 47 :: r := (List.cons.inj (h4 : 47 :: file = b :: (a ++ 47 :: r))).2
        exact hf (by rw [h5]; simp)
    · cases a with
      | nil => rw [List.append_nil] at h3; rw [← h3]; exact h1
      | cons b a =>
        have h5 := (List.cons.inj (h4 : 47 :: r = b :: (a ++ ([47] ++ file)))).1
        exact h2 q a (by rw [h3, ← h5])
  cases h with
  | nothing =>
    exfalso
    rw [List.nil_append] at hq
    exact hf (by rw [hq]; simp)
  | root => exact key [] rfl ⟨[], .nil⟩ (fun q r h => by simp at h)
  | dir _ _ => exact key dir rfl hd.1 hd.2

theorem plain_wellFormed (p : Str) (h : Plain p) : WellFormed p := by
  refine ⟨plain_pattern p h, ?_⟩
  rintro q r rfl
  exact plain_pattern q fun c hc => h c (List.mem_append.mpr (.inl hc))

theorem dir_ne (p : Str) (hp : ¬ Plain p) : cleanGlobPath (split p).1 ≠ p := by
  intro h
  have hs := split_join p
  have hb := before_of _ (split_dir p)
  rw [h] at hb
  have hl := congrArg List.length hs
  rw [List.length_append] at hl
  generalize (split p).1 = pre at hb hs hl
  cases hb with
  | nothing => exact hp (by unfold Plain; decide)
  | root => exact hp (by unfold Plain; decide)
  | dir _ _ => rw [List.length_append] at hl; simp at hl; omega

/-- What `globWithLimit` does, in one equation for each case. -/
theorem globN_eq (fs : Fs) (n : Nat) (p : Str) (hp : ¬ Plain p) (hm : ∃ ps, Pattern p ps) :
    globN fs (n + 1) p = if hasMeta (cleanGlobPath (split p).1) = false then globIn fs (cleanGlobPath (split p).1) (split p).2 []
      else
        match globN fs n (cleanGlobPath (split p).1) with
        | none => none
        | some ds => globAll fs (split p).2 ds [] := by
  obtain ⟨ps, hps⟩ := hm
  obtain ⟨b, hb⟩ := matches_some hps []
  rw [globN, hb]
  simp only
  rw [if_neg (fun h => hp ((hasMeta_iff p).mp h)), if_neg (dir_ne p hp)]
  rfl

theorem globN_plain (fs : Fs) (n : Nat) (p : Str) (hp : Plain p) : globN fs (n + 1) p = some (if fs.found p then [p] else []) := by
  obtain ⟨ps, hps⟩ := plain_pattern p hp
  obtain ⟨b, hb⟩ := matches_some hps []
  rw [globN, hb]
  simp only
  rw [if_pos ((hasMeta_iff p).mpr hp)]

theorem globN_wellFormed (fs : Fs) (n : Nat) : ∀ p xs, globN fs n p = some xs → WellFormed p := by
  induction n with
  | zero => intro p xs h; cases h
  | succ n ih =>
    intro p xs h
    by_cases hp : Plain p
    · exact plain_wellFormed p hp
    have hm : ∃ ps, Pattern p ps := by
      by_contra hno
      rw [globN, (matches_iff p []).mpr hno] at h
      cases h
    rw [globN_eq fs n p hp hm] at h
    have hb := before_of _ (split_dir p)
    have hf := split_file p
    have hj := split_join p
    have hd : WellFormed (cleanGlobPath (split p).1) := by
      by_cases hd : hasMeta (cleanGlobPath (split p).1) = false
      · exact plain_wellFormed _ ((hasMeta_iff _).mp hd)
      · rw [if_neg hd] at h
        split at h
        · cases h
        · rename_i ds hds; exact ih _ ds hds
    have := before_of_pattern hb hd hf (by rw [hj]; exact hm)
    rw [hj] at this
    exact this

theorem globN_some (fs : Fs) (n : Nat) : ∀ p, p.count 47 < n → WellFormed p → ∃ xs, globN fs n p = some xs := by
  induction n with
  | zero => intro p h; omega
  | succ n ih =>
    intro p hc hw
    by_cases hp : Plain p
    · exact ⟨_, globN_plain fs n p hp⟩
    rw [globN_eq fs n p hp hw.1]
    have hb := before_of _ (split_dir p)
    have hj := split_join p
    obtain ⟨hd, ps, hps⟩ := before_pattern hb (by rw [hj]; exact hw)
    split
    · exact ⟨_, globIn_eq fs _ hps []⟩
    · rename_i hmeta
      have hcount := before_count hb fun h => hmeta ((hasMeta_iff _).mpr h)
      have h2 := congrArg (List.count 47) hj
      rw [List.count_append] at h2
      obtain ⟨ds, hds⟩ := ih _ (by omega) hd
      rw [hds]
      exact ⟨_, globAll_eq fs hps ds []⟩

/-! Paths to names -/

theorem isRooted_join (d n : Str) (hn : W.FileName n) : W.isRooted (if d = [] then n else d ++ 47 :: n) = W.isRooted d := by
  cases d with
  | nil =>
    simp only [if_true]
    cases n with
    | nil => rfl
    | cons a n =>
      have : a ≠ 47 := fun h => hn.2.2.2 (by rw [h]; exact List.mem_cons_self)
      simp [W.isRooted, this]
  | cons a d => rfl

theorem file_rooted (n : Str) (hn : W.FileName n) : W.isRooted n = false := by
  have := isRooted_join [] n hn
  simpa [W.isRooted] using this

theorem leads_join (cwd : List Str) (d n : Str) (hn : W.FileName n) : W.leads cwd (W.joinPath [d, n]) = W.leads cwd d ++ [n] := by
  rw [W.join_leads cwd d n hn.1 (file_rooted n hn), GoStr.splitByte_no_sep 47 n hn.2.2.2,
    W.follow_names [n] (by simpa using hn)]

theorem inDir_iff (d n x : Str) (hn : W.FileName n) : InDir d n x ↔ x = W.joinPath [d, n] := by
  constructor
  · rintro ⟨h1, h2, h3⟩
    rw [W.join_two d n hn.1]
    refine W.C67_clean_unique _ x h1 ?_ ?_
    · rw [h2, ← W.isRooted_iff, ← W.isRooted_iff, isRooted_join d n hn]
    · intro cwd loc _ hl
      rw [W.leadsTo_iff] at hl ⊢
      have := (W.leadsTo_iff _ _ _).mp (h3 cwd _ ((W.leadsTo_iff _ _ _).mpr rfl))
      rw [hl, ← this, ← leads_join cwd d n hn, W.join_two d n hn.1, W.clean_leads]
  · rintro rfl
    refine ⟨?_, ?_, ?_⟩
    · rw [W.join_two d n hn.1]; exact W.clean_canonical _
    · rw [W.join_two d n hn.1, ← W.isRooted_iff, ← W.isRooted_iff, W.clean_rooted, isRooted_join d n hn]
    · intro cwd loc hl
      rw [W.leadsTo_iff] at hl ⊢
      rw [leads_join cwd d n hn, hl]

theorem join_canonical (d n : Str) (hn : W.FileName n) : W.Canonical (W.joinPath [d, n]) :=
  ((inDir_iff d n _ hn).mpr rfl).1

/-- Paths to names in different directories differ. -/
theorem join_inj {d d' n n' : Str} (hn : W.FileName n) (hn' : W.FileName n') (hd : W.Canonical d) (hd' : W.Canonical d')
    (h : W.joinPath [d, n] = W.joinPath [d', n']) : d = d' ∧ n = n' := by
  have hl : ∀ cwd, W.leads cwd d ++ [n] = W.leads cwd d' ++ [n'] := fun cwd => by
    rw [← leads_join cwd d n hn, h, leads_join cwd d' n' hn']
  have hnn : n = n' := by
    have := List.append_inj' (hl []) rfl
    exact (List.cons.inj this.2).1
  refine ⟨?_, hnn⟩
  have hr : W.isRooted d = W.isRooted d' := by
    have h1 := congrArg W.isRooted h
    rwa [W.join_two d n hn.1, W.join_two d' n' hn'.1, W.clean_rooted, W.clean_rooted, isRooted_join d n hn, isRooted_join d' n' hn'] at h1
  have ha : W.Absolute d ↔ W.Absolute d' := by rw [← W.isRooted_iff, ← W.isRooted_iff, hr]
  have h1 := W.C67_clean_unique d' d hd ha (fun cwd loc _ hloc => by
    rw [W.leadsTo_iff] at hloc ⊢
    rw [hloc]; exact (List.append_inj' (hl cwd) rfl).1)
  have h2 := W.C67_clean_unique d' d' hd' Iff.rfl (fun _ _ _ h => h)
  rw [h1, ← h2]

/-! The result -/

theorem inside_mem {fs : Fs} (hfs : fs.Proper) {file d x : Str} {ps : List Piece} (hp : Pattern file ps) :
    (x ∈ part fs file d → Inside false fs file d x) ∧ (Inside true fs file d x → x ∈ part fs file d) := by
  rw [mem_part]
  constructor
  · rintro ⟨ns, n, h1, h2, h3, rfl⟩
    exact ⟨ps, ns, n, hp, h1, h2, matches_sound hp h3, (inDir_iff d n _ ((hfs d ns h1).2 n h2)).mpr rfl⟩
  · rintro ⟨ps', ns, n, h0, h1, h2, h3, h4⟩
    have hn := (hfs d ns h1).2 n h2
    exact ⟨ns, n, h1, h2, matches_complete h0 h3 hn.2.2.2, (inDir_iff d n _ hn).mp h4⟩

theorem globN_sound (fs : Fs) (hfs : fs.Proper) (n : Nat) : ∀ p xs, globN fs n p = some xs → ∀ x ∈ xs, Named false fs p x := by
  induction n with
  | zero => intro p xs h; cases h
  | succ n ih =>
    intro p xs h x hx
    by_cases hp : Plain p
    · rw [globN_plain fs n p hp] at h
      cases h
      split at hx
      · rename_i hf; rw [List.mem_singleton.mp hx]; exact .itself hp hf
      · cases hx
    have hw := globN_wellFormed fs _ p xs h
    rw [globN_eq fs n p hp hw.1] at h
    have hb := before_of _ (split_dir p)
    have hj := split_join p
    have hf := split_file p
    obtain ⟨-, ps, hps⟩ := before_pattern hb (by rw [hj]; exact hw)
    rw [← hj] at hp ⊢
    split at h
    · rename_i hm
      rw [globIn_eq fs _ hps] at h
      cases h
      exact .inDir hp hf hb ((hasMeta_iff _).mp hm) ((inside_mem hfs hps).1 hx)
    · rename_i hm
      split at h
      · cases h
      · rename_i ds hds
        rw [globAll_eq fs hps] at h
        cases h
        obtain ⟨d, hd, hx⟩ := List.mem_flatMap.mp hx
        exact .inDirs hp hf hb (fun h => hm ((hasMeta_iff _).mpr h)) (ih _ ds hds d hd) ((inside_mem hfs hps).1 hx)

theorem globN_complete (fs : Fs) (hfs : fs.Proper) {p x : Str} (h : Named true fs p x) : ∀ n xs, globN fs n p = some xs → x ∈ xs := by
  induction h with
  | itself hp hf =>
    intro n xs h
    cases n with
    | zero => cases h
    | succ n => rw [globN_plain fs n _ hp, if_pos hf] at h; cases h; simp
  | @inDir pre file dir x hp hf hb hd hin =>
    intro n xs h
    cases n with
    | zero => cases h
    | succ n =>
      have hw := globN_wellFormed fs _ _ xs h
      obtain ⟨-, ps, hps⟩ := before_pattern hb hw
      rw [globN_eq fs n _ hp hw.1, split_eq pre file (before_shape hb) hf, before_clean hb, if_pos ((hasMeta_iff _).mpr hd),
        globIn_eq fs _ hps] at h
      cases h
      exact (inside_mem hfs hps).2 hin
  | @inDirs pre file dir d x hp hf hb hd _ hin ih =>
    intro n xs h
    cases n with
    | zero => cases h
    | succ n =>
      have hw := globN_wellFormed fs _ _ xs h
      obtain ⟨-, ps, hps⟩ := before_pattern hb hw
      rw [globN_eq fs n _ hp hw.1, split_eq pre file (before_shape hb) hf, before_clean hb,
        if_neg (fun h => hd ((hasMeta_iff _).mp h))] at h
      simp only at h
      split at h
      · cases h
      · rename_i ds hds
        rw [globAll_eq fs hps] at h
        cases h
        exact List.mem_flatMap.mpr ⟨d, ih n ds hds, (inside_mem hfs hps).2 hin⟩

theorem part_canonical {fs : Fs} (hfs : fs.Proper) {file d x : Str} (h : x ∈ part fs file d) : W.Canonical x := by
  obtain ⟨ns, n, h1, h2, -, rfl⟩ := (mem_part fs file d x).mp h
  exact join_canonical d n ((hfs d ns h1).2 n h2)

theorem globN_canonical (fs : Fs) (hfs : fs.Proper) (n : Nat) (p : Str) (xs : List Str) (h : globN fs n p = some xs) (hp : ¬ Plain p) :
    ∀ x ∈ xs, W.Canonical x := by
  cases n with
  | zero => cases h
  | succ n =>
    have hw := globN_wellFormed fs _ p xs h
    rw [globN_eq fs n p hp hw.1] at h
    obtain ⟨-, ps, hps⟩ := before_pattern (before_of _ (split_dir p)) (by rw [split_join]; exact hw)
    intro x hx
    split at h
    · rw [globIn_eq fs _ hps] at h
      cases h
      exact part_canonical hfs hx
    · split at h
      · cases h
      · rw [globAll_eq fs hps] at h
        cases h
        obtain ⟨d, -, hx⟩ := List.mem_flatMap.mp hx
        exact part_canonical hfs hx

theorem part_nodup {fs : Fs} (hfs : fs.Proper) (file d : Str) : (part fs file d).Nodup := by
  unfold part
  cases h : fs.names d with
  | none => exact .nil
  | some ns =>
    obtain ⟨h1, h2⟩ := hfs d ns h
    refine List.Nodup.map_on ?_ (((sort_perm ns).nodup_iff.mpr h1).filter _)
    intro n hn n' hn' heq
    have m1 := h2 n ((sort_perm ns).mem_iff.mp (List.mem_filter.mp hn).1)
    have m2 := h2 n' ((sort_perm ns).mem_iff.mp (List.mem_filter.mp hn').1)
    have h3 := leads_join [] d n m1
    have h4 := leads_join [] d n' m2
    rw [heq, h4] at h3
    exact (List.cons.inj (List.append_cancel_left h3)).1.symm

theorem globN_nodup (fs : Fs) (hfs : fs.Proper) (n : Nat) : ∀ p xs, globN fs n p = some xs → xs.Nodup := by
  induction n with
  | zero => intro p xs h; cases h
  | succ n ih =>
    intro p xs h
    by_cases hp : Plain p
    · rw [globN_plain fs n p hp] at h
      cases h
      split <;> simp
    have hw := globN_wellFormed fs _ p xs h
    rw [globN_eq fs n p hp hw.1] at h
    obtain ⟨-, ps, hps⟩ := before_pattern (before_of _ (split_dir p)) (by rw [split_join]; exact hw)
    split at h
    · rw [globIn_eq fs _ hps] at h
      cases h
      exact part_nodup hfs _ _
    · rename_i hm
      split at h
      · cases h
      · rename_i ds hds
        rw [globAll_eq fs hps] at h
        cases h
        have hc := globN_canonical fs hfs n _ ds hds fun h => hm ((hasMeta_iff _).mpr h)
        have hnd := ih _ ds hds
        rw [List.nil_append]
        clear hds
        induction ds with
        | nil => exact .nil
        | cons d ds ihd =>
          obtain ⟨h1, h2⟩ := List.nodup_cons.mp hnd
          rw [List.flatMap_cons]
          refine List.nodup_append.mpr ⟨part_nodup hfs _ _, ihd (fun x hx => hc x (List.mem_cons_of_mem _ hx)) h2, ?_⟩
          rintro x hx y hy rfl
          obtain ⟨d', hd', hy⟩ := List.mem_flatMap.mp hy
          obtain ⟨ns, n, g1, g2, -, g3⟩ := (mem_part _ _ _ _).mp hx
          obtain ⟨ns', n', k1, k2, -, k3⟩ := (mem_part _ _ _ _).mp hy
          rw [g3] at k3
          have := (join_inj ((hfs _ _ g1).2 _ g2) ((hfs _ _ k1).2 _ k2) (hc d List.mem_cons_self)
            (hc d' (List.mem_cons_of_mem _ hd')) k3).1
          rw [this] at h1
          exact h1 hd'

theorem part_same {fs fs' : Fs} (h : fs.Same fs') (file d : Str) : part fs file d = part fs' file d := by
  unfold part
  rcases h.2 d with ⟨h1, h2⟩ | ⟨ns, ns', h1, h2, h3⟩
  · rw [h1, h2]
  · rw [h1, h2]; simp only; rw [sort_eq h3]

theorem globN_same {fs fs' : Fs} (h : fs.Same fs') (n : Nat) : ∀ p, WellFormed p → globN fs n p = globN fs' n p := by
  induction n with
  | zero => intro p _; rfl
  | succ n ih =>
    intro p hw
    by_cases hp : Plain p
    · rw [globN_plain fs n p hp, globN_plain fs' n p hp, h.1]
    obtain ⟨hd, ps, hps⟩ := before_pattern (before_of _ (split_dir p)) (by rw [split_join]; exact hw)
    rw [globN_eq fs n p hp hw.1, globN_eq fs' n p hp hw.1, ih _ hd]
    have hpart : part fs (split p).2 = part fs' (split p).2 := funext fun d => part_same h _ d
    split
    · rw [globIn_eq fs _ hps, globIn_eq fs' _ hps, hpart]
    · split
      · rfl
      · rw [globAll_eq fs hps, globAll_eq fs' hps, hpart]

end Verif.Glob
