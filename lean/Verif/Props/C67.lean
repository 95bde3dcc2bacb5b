import Verif.Lemmas.Path
import Verif.Props.C40_C44
import Verif.Props.WorldExamples
/-!
# C67: a path is the file or directory it leads to

`filepath.Clean`, `filepath.Join` and `path.Join` as `fs.go` and `fs.WalkDir` use them; what `Bind` and
`Load` of a path read.
-/
namespace Verif.W
open Verif
variable {α : Type}

/-- **C67** `filepath.Clean` writes a path in shortest form; it stays absolute or relative and leads to the
same place from every working directory. -/
theorem C67_clean (path : Str) : Canonical (clean path) ∧ (Absolute (clean path) ↔ Absolute path) ∧
    ∀ cwd loc, LeadsTo cwd (clean path) loc ↔ LeadsTo cwd path loc := by
  refine ⟨clean_canonical path, ?_, ?_⟩
  · rw [← isRooted_iff, ← isRooted_iff, clean_rooted]
  · intro cwd loc
    rw [leadsTo_iff, leadsTo_iff, clean_leads]

/-- A path in shortest form, by its parts. -/
theorem canonical_kept (q : Str) (h : Canonical q) : ∃ k names st, Kept (isRooted q) k names st ∧
    q = if isRooted q = false ∧ st = [] then b!"." else render (isRooted q) st := by
  rcases h with rfl | rfl | ⟨k, names, hn, ⟨rfl, hne, rfl⟩ | ⟨hne, rfl⟩⟩
  · exact ⟨0, [], [], ⟨rfl, by simp, fun _ => rfl⟩, rfl⟩
  · exact ⟨0, [], [], ⟨rfl, by simp, fun _ => rfl⟩, rfl⟩
  · refine ⟨0, names, names, ⟨rfl, hn, fun _ => rfl⟩, ?_⟩
    rw [show isRooted (b!"/" ++ List.intercalate [47] names) = true from rfl, if_neg (by simp)]
    rfl
  · have hk : Kept false k names (List.replicate k b!".." ++ names) := ⟨rfl, hn, by simp⟩
    have hst : List.replicate k b!".." ++ names ≠ [] := by
      intro h0
      have := congrArg List.length h0
      simp only [List.length_append, List.length_replicate, List.length_nil] at this
      omega
    have hr : isRooted (List.intercalate [47] (List.replicate k b!".." ++ names)) = false :=
      render_rooted k names _ false hk (fun hx => hst hx.2)
    rw [hr]
    refine ⟨k, names, _, hk, ?_⟩
    rw [if_neg (fun hx => hst hx.2)]
    rfl

theorem follow_dots (x : Str) (k : Nat) : ∀ n, follow (List.replicate n x) (List.replicate k b!"..") = List.replicate (n - k) x := by
  induction k with
  | zero => intro n; simp [follow]
  | succ k ih =>
    intro n
    rw [List.replicate_succ, follow, if_neg (by decide), if_pos rfl, List.dropLast_replicate, ih]
    congr 1; omega

theorem leads_canonical (q : Str) (k : Nat) (names st : List Str) (h : Kept (isRooted q) k names st)
    (hq : q = if isRooted q = false ∧ st = [] then b!"." else render (isRooted q) st) (cwd : List Str) :
    leads cwd q = follow (if isRooted q then [] else cwd) st := by
  unfold leads
  by_cases hx : isRooted q = false ∧ st = []
  · rw [if_pos hx] at hq
    rw [hx.2, hq]; rfl
  · rw [if_neg hx] at hq
    have := follow_render (if isRooted q then [] else cwd) k names st _ h
    rwa [← hq] at this

theorem length_le_sum (ns : List Str) (n : Str) (h : n ∈ ns) : n.length ≤ (ns.map List.length).sum := by
  induction ns with
  | nil => cases h
  | cons a l ih =>
    rw [List.map_cons, List.sum_cons]
    rcases List.mem_cons.mp h with rfl | h
    · omega
    · have := ih h; omega

/-- **C67** There is only one such path. -/
theorem C67_clean_unique (path q : Str) (hq : Canonical q) (ha : Absolute q ↔ Absolute path)
    (hl : ∀ cwd loc, (∀ n ∈ cwd, FileName n) → LeadsTo cwd q loc → LeadsTo cwd path loc) : q = clean path := by
  obtain ⟨k, names, st, hk, hq'⟩ := canonical_kept q hq
  obtain ⟨k', names', st', hk', hc'⟩ := canonical_kept _ (clean_canonical path)
  have hr : isRooted (clean path) = isRooted q := by
    rw [clean_rooted]
    exact Bool.eq_iff_iff.mpr (by rw [isRooted_iff, isRooted_iff, ha])
  have hlead : ∀ cwd, (∀ n ∈ cwd, FileName n) → leads cwd q = leads cwd (clean path) := by
    intro cwd hc
    rw [clean_leads]
    exact (leadsTo_iff _ _ _).mp (hl cwd _ hc ((leadsTo_iff _ _ _).mpr rfl))
  have hsteq : st = st' := by
    let x : Str := List.replicate (1 + ((names ++ names').map List.length).sum) 97
    have hxn : x ∉ names ++ names' := by
      intro hm
      have h1 : x.length ≤ ((names ++ names').map List.length).sum := length_le_sum _ _ hm
      simp only [x, List.length_replicate] at h1
      omega
    have hxf : FileName x := by
      have hx : x = 97 :: List.replicate (((names ++ names').map List.length).sum) 97 := by
        simp only [x, Nat.add_comm 1, List.replicate_succ]
      refine ⟨by rw [hx]; simp, by rw [hx]; simp, by rw [hx]; simp, ?_⟩
      intro hm
      exact absurd (List.eq_of_mem_replicate hm) (by decide)
    have h := hlead (List.replicate (k + k') x) (fun n hn => by rw [List.eq_of_mem_replicate hn]; exact hxf)
    rw [leads_canonical q k names st hk hq', leads_canonical _ k' names' st' hk' hc', hr, hk.eq, hk'.eq, follow_append,
      follow_append, follow_names _ hk.names, follow_names _ hk'.names] at h
    cases hroot : isRooted q with
    | true =>
      rw [hroot, hk.root hroot, hk'.root (hr.trans hroot)] at h
      rw [hk.eq, hk'.eq, hk.root hroot, hk'.root (hr.trans hroot)]
      simpa [follow] using h
    | false =>
      rw [hroot] at h
      simp only [Bool.false_eq_true, if_false, follow_dots] at h
      have hcnt := congrArg (List.count x) h
      rw [List.count_append, List.count_append, List.count_replicate_self, List.count_replicate_self,
        List.count_eq_zero_of_not_mem (fun hm => hxn (List.mem_append_left _ hm)),
        List.count_eq_zero_of_not_mem (fun hm => hxn (List.mem_append_right _ hm))] at hcnt
      have hkk : k = k' := by omega
      subst hkk
      rw [hk.eq, hk'.eq, List.append_cancel_left h]
  rw [hq', hc', hr, hsteq]

/-! ## Joining -/

theorem splitByte_append (a b : Str) : GoStr.splitByte 47 (a ++ 47 :: b) = GoStr.splitByte 47 a ++ GoStr.splitByte 47 b := by
  induction a with
  | nil => simp [GoStr.splitByte]
  | cons x a ih =>
    rw [List.cons_append]
    by_cases hx : x = 47
    · subst hx
      simp only [GoStr.splitByte, if_true]
      rw [ih]; rfl
    · obtain ⟨p, ps, h1, h2⟩ := GoStr.splitByte_cons_ne 47 x (a ++ 47 :: b) hx
      obtain ⟨q, qs, h3, h4⟩ := GoStr.splitByte_cons_ne 47 x a hx
      rw [h2, h4]
      rw [h1, h3] at ih
      simp only [List.cons_append, List.cons.injEq] at ih
      rw [ih.1, ih.2]; rfl

theorem join_two (path nm : Str) (hnm : nm ≠ []) : joinPath [path, nm] = clean (if path = [] then nm else path ++ 47 :: nm) := by
  unfold joinPath
  by_cases h : path = []
  · rw [if_pos h, if_pos h, joinPath, if_neg hnm]; rfl
  · rw [if_neg h, if_neg h]
    simp [GoStr.join]

theorem join_leads (cwd : List Str) (path nm : Str) (hnm : nm ≠ []) (hr : isRooted nm = false) :
    leads cwd (joinPath [path, nm]) = follow (leads cwd path) (GoStr.splitByte 47 nm) := by
  rw [join_two path nm hnm, clean_leads]
  by_cases h : path = []
  · subst h
    rw [if_pos rfl]
    unfold leads
    rw [hr]
    rfl
  · rw [if_neg h]
    unfold leads
    rw [splitByte_append, follow_append]
    have : isRooted (path ++ 47 :: nm) = isRooted path := by
      cases path with
      | nil => exact absurd rfl h
      | cons a p => rfl
    rw [this]

/-- The name by which `fs.WalkDir` knows a location below its root. -/
def walkName (ns : List Str) : Str := if ns = [] then b!"." else List.intercalate [47] ns

theorem intercalate_ne_nil (ns : List Str) (h : ∀ n ∈ ns, FileName n) (hne : ns ≠ []) : List.intercalate [47] ns ≠ [] := by
  have := (render_nil_iff false ns (fun n hn => (h n hn).1)).not.mpr (fun hx => hne hx.2)
  exact this

theorem walkName_facts (ns : List Str) (h : ∀ n ∈ ns, FileName n) : walkName ns ≠ [] ∧ isRooted (walkName ns) = false ∧
    Canonical (walkName ns) ∧ ∀ loc, follow loc (GoStr.splitByte 47 (walkName ns)) = loc ++ ns := by
  unfold walkName
  by_cases hne : ns = []
  · subst hne
    rw [if_pos rfl]
    refine ⟨by decide, by decide, .inr (.inl rfl), fun loc => ?_⟩
    simp [GoStr.splitByte, follow]
  · rw [if_neg hne]
    refine ⟨intercalate_ne_nil ns h hne, ?_, ?_, fun loc => ?_⟩
    · exact render_rooted 0 ns ns false ⟨rfl, h, fun _ => rfl⟩ (fun hx => hne hx.2)
    · refine .inr (.inr ⟨0, ns, h, .inr ⟨?_, rfl⟩⟩)
      have := List.length_eq_zero_iff.not.mpr hne
      omega
    · rw [GoStr.splitByte_intercalate 47 ns hne (fun n hn => (h n hn).2.2.2), follow_names ns h]

theorem walkName_join (ns : List Str) (h : ∀ n ∈ ns, FileName n) (x : Str) (hx : FileName x) :
    joinPath [walkName ns, x] = walkName (ns ++ [x]) := by
  have hns : ∀ n ∈ ns ++ [x], FileName n := by
    intro n hn
    rcases List.mem_append.mp hn with hn | hn
    · exact h n hn
    · simp only [List.mem_cons, List.not_mem_nil, or_false] at hn; rw [hn]; exact hx
  obtain ⟨f1, f2, f3, f4⟩ := walkName_facts ns h
  obtain ⟨g1, g2, g3, g4⟩ := walkName_facts (ns ++ [x]) hns
  rw [join_two _ x hx.1, if_neg f1]
  have hr : isRooted (walkName ns ++ 47 :: x) = false := by
    cases hw : walkName ns with
    | nil => exact absurd hw f1
    | cons a p => rw [hw] at f2; exact f2
  refine (C67_clean_unique _ _ g3 ?_ ?_).symm
  · rw [← isRooted_iff, ← isRooted_iff, g2, hr]
  · intro cwd loc _ hl
    rw [leadsTo_iff] at hl ⊢
    rw [hl]
    unfold leads
    rw [g2, hr, g4, splitByte_append, follow_append, f4, GoStr.splitByte_no_sep 47 x hx.2.2.2,
      follow_names [x] (by intro n hn; simp only [List.mem_cons, List.not_mem_nil, or_false] at hn; rw [hn]; exact hx)]
    simp

theorem join_names (path : Str) (ns : List Str) (h : ∀ n ∈ ns, FileName n) (cwd loc : List Str) (hl : LeadsTo cwd path loc) :
    Canonical (joinPath [path, walkName ns]) ∧ LeadsTo cwd (joinPath [path, walkName ns]) (loc ++ ns) := by
  obtain ⟨f1, f2, f3, f4⟩ := walkName_facts ns h
  constructor
  · rw [join_two _ _ f1]; exact clean_canonical _
  · rw [leadsTo_iff] at hl ⊢
    rw [join_leads cwd path _ f1 f2, f4, hl]

/-- **C67** Joining a path with names below it gives a path in shortest form that leads to those names below
where the path leads; joining it with `.` leads to the same place. -/
theorem C67_join (path : Str) (cwd loc : List Str) (hl : LeadsTo cwd path loc) :
    (Canonical (joinPath [path, b!"."]) ∧ LeadsTo cwd (joinPath [path, b!"."]) loc) ∧
    ∀ ns, ns ≠ [] → (∀ n ∈ ns, FileName n) →
      Canonical (joinPath [path, List.intercalate [47] ns]) ∧
      LeadsTo cwd (joinPath [path, List.intercalate [47] ns]) (loc ++ ns) := by
  constructor
  · have := join_names path [] (by simp) cwd loc hl
    rwa [List.append_nil] at this
  · intro ns hne hn
    have := join_names path ns hn cwd loc hl
    unfold walkName at this
    rwa [if_neg hne] at this

example : joinPath [b!"/srv//app/../lang/", b!"zh/main.po"] = b!"/srv/lang/zh/main.po" ∧
    joinPath [b!"a/../../b/.", b!"."] = b!"../b" ∧ joinPath [b!"/..", b!"x"] = b!"/x" := by decide +kernel

/-- **C67** The empty path leads to the working directory: `Load("")` is not an error. -/
theorem C67_empty (cwd : List Str) : LeadsTo cwd [] cwd :=
  ⟨[[]], ⟨by simp, by simp, rfl⟩, .inr ⟨(fun ⟨_, h⟩ => nomatch h), by simp [follow]⟩⟩

/-! ## The walk -/

theorem at_child (root : Node) (loc : List Str) (name : Str) (r : Bool) (es : List Node) (h : At root loc (.dir name r es))
    (e : Node) (he : e ∈ es) : At root (loc ++ [e.name]) e := by
  generalize hn : Node.dir name r es = n at h
  induction h with
  | here n => subst hn; exact .under name r es e e [] he (.here e)
  | under nm r' es' e' n loc hm _ ih => exact .under nm r' es' e' e _ hm (ih hn)

theorem at_proper (root : Node) (hp : Proper root) (loc : List Str) (n : Node) (h : At root loc n) : Proper n := by
  induction h with
  | here n => exact hp
  | under nm r es e n loc hm _ ih =>
    cases hp with
    | dir _ _ _ _ h2 _ => exact ih (h2 e hm)

theorem names_inj (es : List Node) (h : es.Pairwise fun a b => a.name < b.name) (a b : Node) (ha : a ∈ es) (hb : b ∈ es)
    (he : a.name = b.name) : a = b := by
  induction es with
  | nil => cases ha
  | cons x es ih =>
    rw [List.pairwise_cons] at h
    rcases List.mem_cons.mp ha with ha | ha <;> rcases List.mem_cons.mp hb with hb | hb
    · rw [ha, hb]
    · have := h.1 b hb; rw [← ha, he] at this; exact absurd this (List.lt_irrefl _)
    · have := h.1 a ha; rw [← hb, he] at this; exact absurd this (List.lt_irrefl _)
    · exact ih h.2 ha hb

theorem at_unique (root : Node) (hp : Proper root) (loc : List Str) (n m : Node) (h : At root loc n) (h' : At root loc m) :
    n = m := by
  induction h with
  | here n => cases h'; rfl
  | under nm r es e n loc hm _ ih =>
    cases hp with
    | dir _ _ _ _ h2 h3 =>
      generalize hl : e.name :: loc = l at h'
      generalize hd : Node.dir nm r es = dd at h'
      cases h' with
      | here => cases hl
      | under _ _ _ e' _ _ hm' h' =>
        cases hd
        simp only [List.cons.injEq] at hl
        obtain ⟨he, rfl⟩ := hl
        have := names_inj es h3 e e' hm hm' he
        subst this
        exact ih (h2 e hm) h'

/-- The label of a node in the listing of its directory. -/
def label (e : Node) : Str × Bool := (e.name, e.isDir)

theorem readDir_eq (es : List Node) (h : es.Pairwise fun a b => a.name < b.name) (entries ds : List (Str × Bool))
    (hp : entries.Perm (es.map label)) (hr : ReadDir entries ds) : ds = es.map label := by
  obtain ⟨h1, h2⟩ := hr
  have hperm := h1.trans hp
  clear h1 hp entries
  induction es generalizing ds with
  | nil => exact List.perm_nil.mp hperm
  | cons e es ih =>
    rw [List.pairwise_cons] at h
    cases ds with
    | nil => exact absurd hperm.symm (by simp)
    | cons d ds =>
      rw [List.pairwise_cons] at h2
      have hd : d = label e := by
        have hm : d ∈ label e :: es.map label := hperm.mem_iff.mp List.mem_cons_self
        rcases List.mem_cons.mp hm with hm | hm
        · exact hm
        · exfalso
          simp only [List.mem_map] at hm
          obtain ⟨b, hb, rfl⟩ := hm
          have hlt := h.1 b hb
          have hme : label e ∈ label b :: ds := hperm.mem_iff.mpr List.mem_cons_self
          rcases List.mem_cons.mp hme with hme | hme
          · have : e.name = b.name := congrArg Prod.fst hme
            rw [this] at hlt
            exact List.lt_irrefl _ hlt
          · exact h2.1 _ hme hlt
      subst hd
      rw [List.map_cons, ih h.2 ds h2.2 ((List.perm_cons _).mp hperm)]

section
variable (c : Cfg α) (os : Os) (cwd : List Str) (root : Node) (path ext : Str)

/-- Opened at or below the place the path leads to. -/
def Below (tr : List Str) : Prop := ∀ p ∈ tr, ∃ rest, LeadsTo cwd p (leads cwd path ++ rest)

theorem open_handles (hs : Serves os cwd root) (ns : List Str) (hns : ∀ n ∈ ns, FileName n) :
    (∀ n, At root (leads cwd path ++ ns) n → n.Handles (os.openFS path (walkName ns))) ∧
    ((∀ n, ¬ At root (leads cwd path ++ ns) n) → os.openFS path (walkName ns) = none) := by
  obtain ⟨h1, h2⟩ := join_names path ns hns cwd _ ((leadsTo_iff _ _ _).mpr rfl)
  exact hs _ _ h1 h2

theorem below_one (ns : List Str) (hns : ∀ n ∈ ns, FileName n) : Below cwd path [joinPath [path, walkName ns]] := by
  intro p hp
  simp only [List.mem_cons, List.not_mem_nil, or_false] at hp
  subst hp
  exact ⟨ns, (join_names path ns hns cwd _ ((leadsTo_iff _ _ _).mpr rfl)).2⟩

theorem visit_skip (name : Str) (o : Option Opened) (st : Bool × Translation α) (h : GoStr.hasSuffix name ext = false) :
    visitFile c ext name o st = st := by
  unfold visitFile; rw [if_neg (by rw [h]; simp)]

mutual
theorem walk_sound (hs : Serves os cwd root) : ∀ (n : Node) (ns : List Str) (base : Str) (st st' : Bool × Translation α)
    (tr : List Str) (e : Bool), Proper n → At root (leads cwd path ++ ns) n → (∀ x ∈ ns, FileName x) →
    (n.isDir = false → base = n.name) → WalkDir c os path ext (walkName ns) base n.isDir st tr e st' →
    (e, st') = walkNode c ext n st ∧ Below cwd path tr
  | .file name o, ns, base, st, st', tr, e, hp, hat, hns, hb, hw => by
    have hh := (open_handles os cwd root path hs ns hns).1 _ hat
    have hb := hb rfl
    change base = name at hb
    subst hb
    unfold Node.Handles at hh
    dsimp only at hh
    rw [walkNode]
    generalize hd : (Node.file base o).isDir = dr at hw
    cases hw with
    | skip _ _ _ h =>
      exact ⟨by rw [visit_skip c ext _ _ _ h], fun p hp => nomatch hp⟩
    | load _ _ _ h =>
      refine ⟨?_, below_one cwd path ns hns⟩
      rw [hh]
      cases o <;> rfl
    | fail => cases hd
    | dir => cases hd
  | .dir name r es, ns, base, st, st', tr, e, hp, hat, hns, hb, hw => by
    have hh := (open_handles os cwd root path hs ns hns).1 _ hat
    rw [walkNode]
    generalize hd : (Node.dir name r es).isDir = dr at hw
    cases hw with
    | skip => cases hd
    | load => cases hd
    | fail _ _ _ h =>
      cases r with
      | true =>
        unfold Node.Handles at hh
        obtain ⟨entries, -, hh⟩ := hh
        exact absurd hh (h entries)
      | false =>
        exact ⟨rfl, below_one cwd path ns hns⟩
    | dir _ _ _ entries ds tr' _ _ ho hr hw =>
      cases r with
      | false =>
        unfold Node.Handles at hh
        rcases hh with hh | hh <;> rw [hh] at ho <;> cases ho
      | true =>
        unfold Node.Handles at hh
        obtain ⟨entries', hperm, hh⟩ := hh
        rw [ho] at hh
        simp only [Option.some.injEq, Handle.dir.injEq] at hh
        subst hh
        cases hp with
        | dir _ _ _ p1 p2 p3 =>
          have := readDir_eq es p3 entries ds hperm hr
          subst this
          obtain ⟨a, b⟩ := walkAll_sound hs es ns st st' tr' e p2 p1
            (fun x hx => by have := at_child root _ name true es hat x hx; rwa [List.append_assoc] at this) hns hw
          refine ⟨by rw [if_pos rfl]; exact a, ?_⟩
          intro p hp
          rcases List.mem_cons.mp hp with rfl | hp
          · exact below_one cwd path ns hns _ List.mem_cons_self
          · exact b p hp
theorem walkAll_sound (hs : Serves os cwd root) : ∀ (es : List Node) (ns : List Str) (st st' : Bool × Translation α)
    (tr : List Str) (e : Bool), (∀ x ∈ es, Proper x) → (∀ x ∈ es, FileName x.name) →
    (∀ x ∈ es, At root (leads cwd path ++ (ns ++ [x.name])) x) → (∀ x ∈ ns, FileName x) →
    WalkAll c os path ext (walkName ns) (es.map label) st tr e st' →
    (e, st') = walkList c ext es st ∧ Below cwd path tr
  | [], ns, st, st', tr, e, _, _, _, _, hw => by
    cases hw
    exact ⟨by rw [walkList], fun p hp => nomatch hp⟩
  | x :: es, ns, st, st', tr, e, hp, hf, hat, hns, hw => by
    have hns' : ∀ y ∈ ns ++ [x.name], FileName y := by
      intro y hy
      rcases List.mem_append.mp hy with hy | hy
      · exact hns y hy
      · simp only [List.mem_cons, List.not_mem_nil, or_false] at hy; rw [hy]; exact hf x List.mem_cons_self
    have hj := walkName_join ns hns x.name (hf x List.mem_cons_self)
    rw [walkList]
    cases hw with
    | stop _ _ _ _ _ _ hw =>
      simp only [label] at hw
      rw [hj] at hw
      obtain ⟨a, b⟩ := walk_sound hs x (ns ++ [x.name]) x.name st st' tr true (hp x List.mem_cons_self) (hat x List.mem_cons_self)
        hns' (fun _ => rfl) hw
      rw [← a]
      exact ⟨rfl, b⟩
    | next _ _ _ _ st1 _ tr1 tr2 _ hw hw2 =>
      simp only [label] at hw
      rw [hj] at hw
      obtain ⟨a, b⟩ := walk_sound hs x (ns ++ [x.name]) x.name st st1 tr1 false (hp x List.mem_cons_self) (hat x List.mem_cons_self)
        hns' (fun _ => rfl) hw
      rw [← a]
      obtain ⟨a2, b2⟩ := walkAll_sound hs es ns st1 st' tr2 e (fun y hy => hp y (List.mem_cons_of_mem _ hy))
        (fun y hy => hf y (List.mem_cons_of_mem _ hy)) (fun y hy => hat y (List.mem_cons_of_mem _ hy)) hns hw2
      refine ⟨a2, ?_⟩
      intro p hp
      rcases List.mem_append.mp hp with hp | hp
      · exact b p hp
      · exact b2 p hp
end

theorem readDir_exists (es : List Node) (h : es.Pairwise fun a b => a.name < b.name) (entries : List (Str × Bool))
    (hp : entries.Perm (es.map label)) : ReadDir entries (es.map label) := by
  refine ⟨hp.symm, ?_⟩
  rw [List.pairwise_map]
  refine h.imp fun {a b} hab hba => ?_
  exact List.lt_asymm hab hba

mutual
theorem walk_exists (hs : Serves os cwd root) : ∀ (n : Node) (ns : List Str) (base : Str) (st : Bool × Translation α),
    Proper n → At root (leads cwd path ++ ns) n → (∀ x ∈ ns, FileName x) → (n.isDir = false → base = n.name) →
    ∃ tr, WalkDir c os path ext (walkName ns) base n.isDir st tr (walkNode c ext n st).1 (walkNode c ext n st).2
  | .file name o, ns, base, st, hp, hat, hns, hb => by
    have hh := (open_handles os cwd root path hs ns hns).1 _ hat
    have hb := hb rfl
    change base = name at hb
    subst hb
    unfold Node.Handles at hh
    dsimp only at hh
    rw [walkNode]
    cases hx : GoStr.hasSuffix base ext with
    | false => exact ⟨[], by rw [visit_skip c ext _ _ _ hx]; exact .skip _ _ _ hx⟩
    | true =>
      refine ⟨[joinPath [path, walkName ns]], ?_⟩
      have := WalkDir.load (c := c) (os := os) (path := path) (ext := ext) (walkName ns) base st hx
      rw [hh] at this
      have ho : (o.map Handle.file).map Handle.opened = o := by cases o <;> rfl
      rw [ho] at this
      exact this
  | .dir name r es, ns, base, st, hp, hat, hns, hb => by
    have hh := (open_handles os cwd root path hs ns hns).1 _ hat
    rw [walkNode]
    cases r with
    | false =>
      refine ⟨_, .fail _ _ _ ?_⟩
      intro entries
      unfold Node.Handles at hh
      rcases hh with hh | hh <;> rw [hh] <;> simp
    | true =>
      unfold Node.Handles at hh
      obtain ⟨entries, hperm, hh⟩ := hh
      cases hp with
      | dir _ _ _ p1 p2 p3 =>
        obtain ⟨tr, hw⟩ := walkAll_exists hs es ns st p2 p1
          (fun x hx => by have := at_child root _ name true es hat x hx; rwa [List.append_assoc] at this) hns
        exact ⟨_, .dir _ _ _ entries _ tr _ _ hh (readDir_exists es p3 entries hperm) hw⟩
theorem walkAll_exists (hs : Serves os cwd root) : ∀ (es : List Node) (ns : List Str) (st : Bool × Translation α),
    (∀ x ∈ es, Proper x) → (∀ x ∈ es, FileName x.name) →
    (∀ x ∈ es, At root (leads cwd path ++ (ns ++ [x.name])) x) → (∀ x ∈ ns, FileName x) →
    ∃ tr, WalkAll c os path ext (walkName ns) (es.map label) st tr (walkList c ext es st).1 (walkList c ext es st).2
  | [], ns, st, _, _, _, _ => ⟨[], by rw [walkList]; exact .nil _ _⟩
  | x :: es, ns, st, hp, hf, hat, hns => by
    have hns' : ∀ y ∈ ns ++ [x.name], FileName y := by
      intro y hy
      rcases List.mem_append.mp hy with hy | hy
      · exact hns y hy
      · simp only [List.mem_cons, List.not_mem_nil, or_false] at hy; rw [hy]; exact hf x List.mem_cons_self
    have hj := walkName_join ns hns x.name (hf x List.mem_cons_self)
    obtain ⟨tr, hw⟩ := walk_exists hs x (ns ++ [x.name]) x.name st (hp x List.mem_cons_self) (hat x List.mem_cons_self)
        hns' (fun _ => rfl)
    rw [← hj] at hw
    rw [walkList]
    cases hwn : walkNode c ext x st with
    | mk e st1 =>
      rw [hwn] at hw
      cases e with
      | true => exact ⟨tr, .stop _ (label x) _ _ _ _ hw⟩
      | false =>
        obtain ⟨tr2, hw2⟩ := walkAll_exists hs es ns st1 (fun y hy => hp y (List.mem_cons_of_mem _ hy))
          (fun y hy => hf y (List.mem_cons_of_mem _ hy)) (fun y hy => hat y (List.mem_cons_of_mem _ hy)) hns
        exact ⟨tr ++ tr2, .next _ (label x) _ _ _ _ _ _ _ hw hw2⟩
end

theorem root_sound (hs : Serves os cwd root) (hp : Proper root) (fsys : Option Node)
    (hf : TreeAt root (leads cwd path) fsys) (st st' : Bool × Translation α) (tr : List Str)
    (hw : WalkRoot c os path ext st tr st') : st' = walkRoot c ext fsys st ∧ Below cwd path tr := by
  have hn := below_one cwd path [] (by simp)
  rw [show walkName [] = b!"." from rfl] at hn
  have oh := open_handles os cwd root path hs [] (by simp)
  rw [show walkName [] = b!"." from rfl, List.append_nil] at oh
  cases fsys with
  | none =>
    have ho := oh.2 (hf.2 rfl)
    cases hw with
    | fail _ => exact ⟨rfl, hn⟩
    | file _ _ _ _ _ h _ _ => rw [ho] at h; cases h
    | dir _ _ _ _ _ h _ => rw [ho] at h; cases h
  | some n =>
    have hat := hf.1 n rfl
    have hpn := at_proper root hp _ n hat
    have ho := oh.1 n hat
    have hat' : At root (leads cwd path ++ []) n := by rw [List.append_nil]; exact hat
    have cons : ∀ tr, Below cwd path tr → Below cwd path (joinPath [path, b!"."] :: tr) := by
      intro tr hb p hp
      rcases List.mem_cons.mp hp with rfl | hp
      · exact hn _ List.mem_cons_self
      · exact hb p hp
    cases hw with
    | fail h =>
      refine ⟨?_, hn⟩
      cases n with
      | file name o =>
        unfold Node.Handles at ho
        dsimp only at ho
        rw [walkRoot, walkNode]
        cases o with
        | none => unfold visitFile; split <;> rfl
        | some o =>
          have hst : o.stat = none := by
            rcases h with h | ⟨o', h, h'⟩
            · rw [h] at ho; cases ho
            · rw [h] at ho
              simp only [Option.map_some, Option.some.injEq, Handle.file.injEq] at ho
              rw [← ho]; exact h'
          unfold visitFile
          split
          · dsimp only
            unfold Translation.loadFile
            rw [hst]
          · rfl
      | dir name r es =>
        rw [walkRoot, walkNode]
        cases r with
        | false => rfl
        | true =>
          unfold Node.Handles at ho
          obtain ⟨entries, -, ho⟩ := ho
          rcases h with h | ⟨o', h, h'⟩ <;> rw [h] at ho <;> cases ho
    | file o base tr e _ h hb hw =>
      cases n with
      | dir name r es =>
        exfalso
        cases r with
        | false =>
          unfold Node.Handles at ho
          rcases ho with ho | ho <;> rw [h] at ho <;> cases ho
        | true =>
          unfold Node.Handles at ho
          obtain ⟨entries, -, ho⟩ := ho
          rw [h] at ho; cases ho
      | file name o' =>
        have ho' := ho
        unfold Node.Handles at ho'
        dsimp only at ho'
        rw [h] at ho'
        have hoo : o' = some o := by
          cases o' with
          | none => cases ho'
          | some x => simp only [Option.map_some, Option.some.injEq, Handle.file.injEq] at ho'; rw [ho']
        have hbase : base = name := by
          cases hpn with
          | file _ _ hh =>
            rcases hh o hoo with hx | hx
            · rw [hb] at hx; cases hx
            · rw [hb] at hx; simpa using hx
        obtain ⟨a, b⟩ := walk_sound c os cwd root path ext hs (.file name o') [] base st st' tr e hpn hat' (by simp)
          (fun _ => hbase) hw
        exact ⟨by rw [walkRoot, ← a], cons tr b⟩
    | dir base l tr e _ h hw =>
      cases n with
      | file name o' =>
        exfalso
        unfold Node.Handles at ho
        dsimp only at ho
        rw [h] at ho
        cases o' <;> cases ho
      | dir name r es =>
        obtain ⟨a, b⟩ := walk_sound c os cwd root path ext hs (.dir name r es) [] base st st' tr e hpn hat' (by simp)
          (fun hx => nomatch hx) hw
        exact ⟨by rw [walkRoot, ← a], cons tr b⟩

theorem root_exists (hs : Serves os cwd root) (hp : Proper root) (fsys : Option Node)
    (hf : TreeAt root (leads cwd path) fsys) (st : Bool × Translation α) :
    ∃ tr, WalkRoot c os path ext st tr (walkRoot c ext fsys st) := by
  have oh := open_handles os cwd root path hs [] (by simp)
  rw [show walkName [] = b!"." from rfl, List.append_nil] at oh
  cases fsys with
  | none => exact ⟨_, .fail _ (.inl (oh.2 (hf.2 rfl)))⟩
  | some n =>
    have hat := hf.1 n rfl
    have hpn := at_proper root hp _ n hat
    have ho := oh.1 n hat
    have hat' : At root (leads cwd path ++ []) n := by rw [List.append_nil]; exact hat
    obtain ⟨tr, hw⟩ := walk_exists c os cwd root path ext hs n [] n.name st hpn hat' (by simp) (fun _ => rfl)
    cases n with
    | file name o =>
      unfold Node.Handles at ho
      dsimp only at ho
      cases o with
      | none =>
        have : walkRoot c ext (some (.file name none)) st = st := by
          rw [walkRoot, walkNode]; unfold visitFile; split <;> rfl
        rw [this]
        exact ⟨_, .fail _ (.inl ho)⟩
      | some o =>
        cases hst : o.stat with
        | none =>
          have : walkRoot c ext (some (.file name (some o))) st = st := by
            rw [walkRoot, walkNode]
            unfold visitFile
            split
            · dsimp only
              unfold Translation.loadFile
              rw [hst]
            · rfl
          rw [this]
          exact ⟨_, .fail _ (.inr ⟨o, ho, hst⟩)⟩
        | some base =>
          have hbase : base = name := by
            cases hpn with
            | file _ _ hh =>
              rcases hh o rfl with hx | hx
              · rw [hst] at hx; cases hx
              · rw [hst] at hx; simpa using hx
          subst hbase
          exact ⟨_, .file _ o base tr _ _ ho hst hw⟩
    | dir name r es =>
      cases r with
      | true =>
        have ho' := ho
        unfold Node.Handles at ho'
        obtain ⟨entries, -, ho'⟩ := ho'
        exact ⟨_, .dir _ name _ tr _ _ ho' hw⟩
      | false =>
        have ho' := ho
        unfold Node.Handles at ho'
        rcases ho' with ho' | ho'
        · have : walkRoot c ext (some (.dir name false es)) st = st := by rw [walkRoot, walkNode]; rfl
          rw [this]
          exact ⟨_, .fail _ (.inl ho')⟩
        · exact ⟨_, .dir _ name _ tr _ _ ho' hw⟩
end

/-- **C67** `Bind(domain, path)` binds the file or the directory tree at the place the path leads to
(nothing, if there is none), whatever way the path is spelled, and opens nothing that is not at or below
that place. -/
theorem C67_bind (c : Cfg α) (os : Os) (cwd : List Str) (root : Node) (hs : Serves os cwd root) (hp : Proper root)
    (path : Str) (loc : List Str) (hl : LeadsTo cwd path loc) (fsys : Option Node) (hf : TreeAt root loc fsys)
    (w : World α) (domain : Str) :
    (∃ opened w', w.GBind c os domain path opened w') ∧
    ∀ opened w', w.GBind c os domain path opened w' →
      w' = w.gBindFS c domain fsys ∧ ∀ p ∈ opened, ∃ rest, LeadsTo cwd p (loc ++ rest) := by
  rw [leadsTo_iff] at hl
  subst hl
  constructor
  · obtain ⟨o1, h1⟩ := root_exists c os cwd root path extMo hs hp fsys hf (false, newTranslation c domain [])
    obtain ⟨o2, h2⟩ := root_exists c os cwd root path extPo hs hp fsys hf
      (walkRoot c extMo fsys (false, newTranslation c domain []))
    exact ⟨_, _, _, ⟨o1, o2, _, h1, h2, rfl⟩, rfl⟩
  · rintro opened w' ⟨r, ⟨o1, o2, st, h1, h2, rfl⟩, rfl⟩
    obtain ⟨rfl, b1⟩ := root_sound c os cwd root path extMo hs hp fsys hf _ _ _ h1
    obtain ⟨rfl, b2⟩ := root_sound c os cwd root path extPo hs hp fsys hf _ _ _ h2
    refine ⟨rfl, ?_⟩
    intro p hp
    rcases List.mem_append.mp hp with hp | hp
    · exact b1 p hp
    · exact b2 p hp

/-! ## Every tree is served by some operating system -/

/-- Look a location up. -/
def Node.find : Node → List Str → Option Node
  | n, [] => some n
  | .file _ _, _ :: _ => none
  | .dir _ _ es, x :: loc => (es.find? fun e => e.name == x).bind fun e => e.find loc

theorem find_iff (n : Node) (hp : Proper n) (loc : List Str) (m : Node) : n.find loc = some m ↔ At n loc m := by
  induction loc generalizing n with
  | nil =>
    rw [Node.find]
    constructor
    · intro h; cases h; exact .here _
    · intro h; cases h; rfl
  | cons x loc ih =>
    cases n with
    | file name o =>
      rw [Node.find]
      constructor
      · intro h; cases h
      · intro h
        generalize hl : x :: loc = l at h
        generalize hn : Node.file name o = k at h
        cases h with
        | here => cases hl
        | under => cases hn
    | dir name r es =>
      cases hp with
      | dir _ _ _ _ p2 p3 =>
        rw [Node.find]
        constructor
        · intro h
          rw [Option.bind_eq_some_iff] at h
          obtain ⟨e, h1, h2⟩ := h
          have hm := List.mem_of_find?_eq_some h1
          have hx := List.find?_some h1
          simp only [beq_iff_eq] at hx
          subst hx
          exact .under name r es e m loc hm ((ih e (p2 e hm)).mp h2)
        · intro h
          generalize hl : x :: loc = l at h
          generalize hn : Node.dir name r es = k at h
          cases h with
          | here => cases hl
          | under _ _ _ e _ _ hm h =>
            cases hn
            simp only [List.cons.injEq] at hl
            obtain ⟨rfl, rfl⟩ := hl
            have : es.find? (fun a => a.name == e.name) = some e := by
              cases hf : es.find? (fun a => a.name == e.name) with
              | none =>
                rw [List.find?_eq_none] at hf
                exact absurd (beq_self_eq_true _) (hf e hm)
              | some e' =>
                have h1 := List.mem_of_find?_eq_some hf
                have h2 := List.find?_some hf
                simp only [beq_iff_eq] at h2
                rw [names_inj es p3 e' e h1 hm h2]
            rw [this, Option.bind_some]
            exact (ih e (p2 e hm)).mpr h

/-- The handle of a node. -/
def Node.handle : Node → Option Handle
  | .file _ o => o.map Handle.file
  | .dir _ true es => some (.dir (some (es.map label)))
  | .dir _ false _ => some (.dir none)

/-- An operating system for a tree. -/
def serve (cwd : List Str) (root : Node) : Os := fun path => (root.find (leads cwd path)).bind Node.handle

theorem serve_serves (cwd : List Str) (root : Node) (hp : Proper root) : Serves (serve cwd root) cwd root := by
  intro path loc _ hl
  rw [leadsTo_iff] at hl
  subst hl
  constructor
  · intro n hn
    rw [← find_iff root hp] at hn
    unfold serve
    rw [hn, Option.bind_some]
    cases n with
    | file => rfl
    | dir name r es =>
      cases r with
      | true => exact ⟨_, List.Perm.refl _, rfl⟩
      | false => exact .inr rfl
  · intro h
    unfold serve
    cases hf : root.find (leads cwd path) with
    | none => rfl
    | some n => exact absurd ((find_iff root hp _ n).mp hf) (h n)

/-- A disk: programs and languages, and something that must not be read. -/
def exDisk : Node := .dir b!"/" true [
  .dir b!"etc" true [file b!"secret.po" poFr2],
  .dir b!"srv" true [
    .dir b!"app" true [file b!"main.go" b!"package main"],
    .dir b!"lang" true [file b!"a.po" poFr, .dir b!"d" true [file b!"b.po" poFr2]]]]

theorem exDisk_proper : Proper exDisk := by
  have d : ∀ es : List Node, (∀ n ∈ es.map Node.name, n ≠ [] ∧ n ≠ b!"." ∧ n ≠ b!".." ∧ 47 ∉ n) → ∀ e ∈ es, FileName e.name :=
    fun es h e he => h _ (List.mem_map_of_mem he)
  have f : ∀ n s, Proper (file n s) := fun n s => .file n _ fun x hx => .inr (by cases hx; rfl)
  refine .dir _ _ _ (d _ (by decide)) ?_ (by decide)
  intro e he
  simp only [List.mem_cons, List.not_mem_nil, or_false] at he
  rcases he with rfl | rfl
  · refine .dir _ _ _ (d _ (by decide)) ?_ (by decide)
    intro e he
    simp only [List.mem_cons, List.not_mem_nil, or_false] at he
    subst he
    exact f _ _
  · refine .dir _ _ _ (d _ (by decide)) ?_ (by decide)
    intro e he
    simp only [List.mem_cons, List.not_mem_nil, or_false] at he
    rcases he with rfl | rfl
    · refine .dir _ _ _ (d _ (by decide)) ?_ (by decide)
      intro e he
      simp only [List.mem_cons, List.not_mem_nil, or_false] at he
      subst he
      exact f _ _
    · refine .dir _ _ _ (d _ (by decide)) ?_ (by decide)
      intro e he
      simp only [List.mem_cons, List.not_mem_nil, or_false] at he
      rcases he with rfl | rfl
      · exact f _ _
      · refine .dir _ _ _ (d _ (by decide)) ?_ (by decide)
        intro e he
        simp only [List.mem_cons, List.not_mem_nil, or_false] at he
        subst he
        exact f _ _

/-- Every operating system that serves the disk, for a program that runs in `/srv/app` and binds
`.././x/../lang/`. -/
example (os : Os) (hs : Serves os [b!"srv", b!"app"] exDisk) (opened : List Str) (w' : World Str)
    (h : exWorld.GBind exCfg os b!"m" b!".././x/../lang/" opened w') :
    w' = exWorld.gBindFS exCfg b!"m" (some (.dir b!"lang" true [file b!"a.po" poFr, .dir b!"d" true [file b!"b.po" poFr2]])) ∧
    ∀ p ∈ opened, ∃ rest, LeadsTo [b!"srv", b!"app"] p (b!"srv" :: b!"lang" :: rest) := by
  refine (C67_bind exCfg os _ _ hs exDisk_proper b!".././x/../lang/" [b!"srv", b!"lang"]
    ((leadsTo_iff _ _ _).mpr (by decide +kernel)) (some (.dir b!"lang" true _)) ⟨?_, fun h => nomatch h⟩ exWorld b!"m").2 opened w' h
  intro n hn
  cases hn
  exact (find_iff _ exDisk_proper _ _).mp rfl

example : Serves (serve [b!"srv", b!"app"] exDisk) [b!"srv", b!"app"] exDisk := serve_serves _ _ exDisk_proper

end Verif.W
