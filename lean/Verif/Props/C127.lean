import Verif.Spec.MoWrap
import Verif.Props.C30_C33
/-!
# C127 MO files of four gigabytes and more
-/
namespace Verif.Tr
open Verif

theorem uintOf_putBe_wrap (be : Bool) (n : Nat) : uintOf be (putBe be n) = n % moLimit := by
  have : uintOf be (putBe be n) = leNat (put32 n) := by
    cases be
    · rfl
    · simp [uintOf, putBe]
  rw [this]
  simp only [put32, leNat, UInt8.toNat_ofNat', moLimit]
  omega

theorem num32_wrap {be : Bool} {c : Str} {pos n : Nat} (ha : At c pos (putBe be n)) : Num32 be c pos (n % moLimit) :=
  (num32_iff ..).mpr ⟨_, putBe_length be n, ha, uintOf_putBe_wrap be n⟩

theorem table_wrap {be : Bool} {c : Str} {pos off : Nat} {ss : List Str} (ha : At c pos (tableBe be off ss)) {i : Nat} {s : Str}
    (h : ss[i]? = some s) : Descr be c pos i (s.length % moLimit) (offsetOf off ss i % moLimit) := by
  induction ss generalizing pos off i with
  | nil => simp at h
  | cons t ss ih =>
    rw [tableBe, List.append_assoc] at ha
    have a1 := at_left ha
    have a2 := at_right ha
    rw [putBe_length] at a2
    cases i with
    | zero =>
      simp only [List.getElem?_cons_zero, Option.some.injEq] at h
      subst h
      exact ⟨num32_wrap a1, num32_wrap (at_left a2)⟩
    | succ i =>
      simp only [List.getElem?_cons_succ] at h
      have a3 := at_right a2
      rw [putBe_length] at a3
      have := ih a3 h
      have e : offsetOf (off + (t.length + 1)) ss i = offsetOf off (t :: ss) (i + 1) := by
        simp [offsetOf, writeStrings]; omega
      rw [e] at this
      unfold Descr at this ⊢
      rw [show pos + 4 + 4 + 8 * i = pos + 8 * (i + 1) by omega] at this
      exact this

theorem strings_eq (e : Entry) : moMsgID e = origOf e ∧ moMsgStr e = transOf e := by
  unfold moMsgID moMsgStr origOf transOf
  rw [join_eq_intercalate]
  by_cases h1 : e.ctxt = [] <;> by_cases h2 : e.strN = [] <;> simp [h1, h2, List.length_pos_iff]

theorem writeStrings_sum (g : Entry → Str) (l : List Entry) : (writeStrings (l.map g)).length = (l.map fun e => (g e).length + 1).sum := by
  induction l with
  | nil => rfl
  | cons e l ih =>
    simp only [List.map_cons, List.sum_cons, ← ih, writeStrings, List.flatMap_cons, List.length_append, List.length_cons, List.length_nil]

/-- What is found with 32 bits is in the file. -/
theorem found_at (c : Str) (pos : Nat) (s : Str) (h : At c pos s) :
    (found c pos s.length).length = s.length % moLimit ∧ (found c pos s.length = [] ∨ At c (pos % moLimit) (found c pos s.length)) := by
  obtain ⟨pre, post, rfl, rfl⟩ := h
  have h1 := Nat.mod_le pre.length moLimit
  have h2 := Nat.mod_le s.length moLimit
  generalize hp : pre.length % moLimit = p at h1
  generalize hl : s.length % moLimit = l at h2
  have hlen : (found (pre ++ s ++ post) pre.length s.length).length = l := by
    simp only [found, hp, hl, List.length_take, List.length_drop, List.length_append]
    omega
  refine ⟨hlen, .inr ⟨(pre ++ s ++ post).take p, ((pre ++ s ++ post).drop p).drop l, ?_, ?_⟩⟩
  · rw [found, hp, hl]
    generalize pre ++ s ++ post = c
    rw [List.append_assoc, List.take_append_drop, List.take_append_drop]
  · simp only [List.length_take, List.length_append]
    omega

theorem found_whole (c : Str) (pos : Nat) (s : Str) (h : At c pos s) (h1 : pos < moLimit) (h2 : s.length < moLimit) : found c pos s.length = s := by
  obtain ⟨pre, post, rfl, rfl⟩ := h
  simp [found, Nat.mod_eq_of_lt h1, Nat.mod_eq_of_lt h2]

theorem saved_at (es : List Entry) (i : Nat) (e : Entry) (h : es[i]? = some e) :
    At (saveMo es) (origAt es i) (origOf e) ∧ At (saveMo es) (transAt es i) (transOf e) := by
  have hps : (es.map fun e => (moMsgID e, moMsgStr e)) = es.map fun e => (origOf e, transOf e) :=
    List.map_congr_left fun e _ => by rw [(strings_eq e).1, (strings_eq e).2]
  have P := moImage_parts false moExtra (es.map fun e => (moMsgID e, moMsgStr e))
  rw [← saveMo_eq, hps] at P
  have hx : moExtra.length = 47 := by decide
  have e1 : (es.map fun e => (origOf e, transOf e)).map Prod.fst = es.map origOf := by simp
  have e2 : (es.map fun e => (origOf e, transOf e)).map Prod.snd = es.map transOf := by simp
  have a1 := P.ids
  have a2 := P.strs
  rw [e1] at a1 a2
  rw [e2] at a2
  have h1 := strings_at a1 (i := i) (s := origOf e) (by simp [h])
  have h2 := strings_at a2 (i := i) (s := transOf e) (by simp [h])
  have p1 : ∀ i, offsetOf (28 + moExtra.length + (es.map fun e => (origOf e, transOf e)).length * 8 * 2) (es.map origOf) i = origAt es i := by
    intro i
    rw [offsetOf, ← List.map_take, writeStrings_sum, origAt, List.length_map, hx]
    omega
  rw [p1] at h1
  refine ⟨at_left h1, ?_⟩
  have := p1 es.length
  rw [offsetOf, List.take_of_length_le (by simp)] at this
  rw [this, offsetOf, ← List.map_take, writeStrings_sum] at h2
  exact at_left h2

/-- The strings found for the entries. -/
def foundStrings (es : List Entry) : List (Str × Str) :=
  es.mapIdx fun i e => (found (saveMo es) (origAt es i) (origOf e).length, found (saveMo es) (transAt es i) (transOf e).length)

theorem saved_file (es : List Entry) (hn : 75 + 8 * es.length < moLimit) : MoFile false (saveMo es) (foundStrings es) := by
  have hps : (es.map fun e => (moMsgID e, moMsgStr e)) = es.map fun e => (origOf e, transOf e) :=
    List.map_congr_left fun e _ => by rw [(strings_eq e).1, (strings_eq e).2]
  have P := moImage_parts false moExtra (es.map fun e => (moMsgID e, moMsgStr e))
  have hl := moImage_length false moExtra (es.map fun e => (moMsgID e, moMsgStr e))
  rw [← saveMo_eq, hps] at P
  rw [← saveMo_eq] at hl
  have hx : moExtra.length = 47 := by decide
  have e1 : (es.map fun e => (origOf e, transOf e)).map Prod.fst = es.map origOf := by simp
  have e2 : (es.map fun e => (origOf e, transOf e)).map Prod.snd = es.map transOf := by simp
  have p1 : ∀ i, offsetOf (28 + moExtra.length + (es.map fun e => (origOf e, transOf e)).length * 8 * 2) (es.map origOf) i = origAt es i := by
    intro i
    rw [offsetOf, ← List.map_take, writeStrings_sum, origAt, List.length_map, hx]
    omega
  have p2 : ∀ i, offsetOf (28 + moExtra.length + (es.map fun e => (origOf e, transOf e)).length * 8 * 2 + (writeStrings (es.map origOf)).length)
      (es.map transOf) i = transAt es i := by
    intro i
    have := p1 es.length
    rw [offsetOf, List.take_of_length_le (by simp)] at this
    rw [this, offsetOf, ← List.map_take, writeStrings_sum, transAt]
  have wrap : ∀ {pos n : Nat}, At (saveMo es) pos (putBe false n) → n < moLimit → Num32 false (saveMo es) pos n := by
    intro pos n ha h
    have := num32_wrap ha
    rwa [Nat.mod_eq_of_lt h] at this
  have g1 := P.count
  have g2 := P.posO
  have g3 := P.posT
  have t1 := P.tableO
  have t2 := P.tableT
  rw [e1] at t1 t2
  rw [e2] at t2
  rw [List.length_map] at g1 g3
  refine ⟨P.magic, by omega, ⟨0, 0, ⟨0, 0, at_left (s := [0, 0]) (t := [0, 0]) P.rev, rfl⟩, ⟨0, 0, at_right (s := [0, 0]) (t := [0, 0]) P.rev, rfl⟩,
    by omega, by omega⟩, 28 + moExtra.length, 28 + moExtra.length + es.length * 8, ?_, wrap g2 (by omega), wrap g3 (by omega), ?_⟩
  · rw [show (foundStrings es).length = es.length by simp [foundStrings]]
    exact wrap g1 (by omega)
  · intro i p hi
    rw [foundStrings, List.getElem?_mapIdx, Option.map_eq_some_iff] at hi
    obtain ⟨e, he, rfl⟩ := hi
    obtain ⟨a1, a2⟩ := saved_at es i e he
    obtain ⟨l1, f1⟩ := found_at _ _ _ a1
    obtain ⟨l2, f2⟩ := found_at _ _ _ a2
    have d1 := table_wrap t1 (i := i) (s := origOf e) (by simp [he])
    have d2 := table_wrap t2 (i := i) (s := transOf e) (by simp [he])
    rw [p1, ← l1] at d1
    rw [p2, ← l2] at d2
    rw [List.length_map] at d2
    exact ⟨⟨_, d1, f1⟩, ⟨_, d2, f2⟩⟩

/-- **C127** Whatever `SaveAsMo` writes can be read: the strings are those found with 32 bits of their positions and lengths. -/
theorem C127_read (es : List Entry) (hn : 75 + 8 * es.length < moLimit) :
    ∃ (g : File) (rs : List Entry), readMo (saveMo es) = .ok g ∧ rs.length = es.length ∧
      (∀ k, g.entries.get? k = (rs.filter fun r => key r.ctxt r.id = k).getLast?) ∧
      ∀ i e, es[i]? = some e → ∃ r, rs[i]? = some r ∧ MoMsg (found (saveMo es) (origAt es i) (origOf e).length)
        (found (saveMo es) (transAt es i) (transOf e).length) r := by
  refine ⟨_, (foundStrings es).map fun p => moEntry p.1 p.2, readMo_of_file (saved_file es hn), by simp [foundStrings], ?_, ?_⟩
  · intro k
    rw [moFileOf, foldl_addEntry_entries]
    simp only [GMap.get?, Option.or_none]
    rfl
  · intro i e he
    exact ⟨_, by simp [foundStrings, he], (moMsg_iff _ _ _).2 rfl⟩


theorem origAt_le (es : List Entry) (i j : Nat) : origAt es i ≤ transAt es j := by
  have : origAt es i ≤ origAt es es.length := by
    unfold origAt
    rw [List.take_length]
    have : (es.map fun e => (origOf e).length + 1) =
        ((es.take i).map fun e => (origOf e).length + 1) ++ ((es.drop i).map fun e => (origOf e).length + 1) := by
      rw [← List.map_append, List.take_append_drop]
    rw [this, List.sum_append]
    omega
  unfold transAt
  omega

/-- **C127** An entry whose strings begin below 4 GiB and are shorter than that is read as it is. -/
theorem C127_each (es : List Entry) (i : Nat) (e : Entry) (h : es[i]? = some e) (hg : MoGood e) (hp : transAt es i < moLimit)
    (h1 : (origOf e).length < moLimit) (h2 : (transOf e).length < moLimit) :
    MoMsg (found (saveMo es) (origAt es i) (origOf e).length) (found (saveMo es) (transAt es i) (transOf e).length) { e with cmts := [] } := by
  obtain ⟨a1, a2⟩ := saved_at es i e h
  rw [found_whole _ _ _ a1 (Nat.lt_of_le_of_lt (origAt_le es i i) hp) h1, found_whole _ _ _ a2 hp h2, moMsg_iff, ← (strings_eq e).1, ← (strings_eq e).2]
  exact (moEntry_of_good e hg).symm

/-- **C127** If the strings of all entries begin below 4 GiB and are shorter than that, the file can be restored; it may be larger than 4 GiB. -/
theorem C127_whole (f : File) (hf : Consistent f) (hgood : ∀ p ∈ f.entries, MoGood p.2) (es : List Entry) (hs : SortedEntry f es)
    (h : ∀ i e, es[i]? = some e → transAt es i < moLimit ∧ (origOf e).length < moLimit ∧ (transOf e).length < moLimit) :
    ∃ g, readMo (saveMo es) = .ok g ∧ ∀ k, g.entries.get? k = (f.entries.get? k).map fun e => { e with cmts := [] } := by
  have hg : ∀ e ∈ es, MoGood e := by
    intro e he
    have := hs.1.subset he
    simp only [GMap.vals, List.mem_map] at this
    obtain ⟨p, hp, rfl⟩ := this
    exact hgood p hp
  have hn : 75 + 8 * es.length < moLimit := by
    cases es with
    | nil => decide
    | cons a es =>
      have := (h 0 a rfl).1
      simp only [transAt, origAt] at this
      omega
  have hfs : (foundStrings es).map (fun p => moEntry p.1 p.2) = es.map Entry.bare := by
    apply List.ext_getElem?
    intro i
    simp only [foundStrings, List.getElem?_map, List.getElem?_mapIdx]
    cases he : es[i]? with
    | none => rfl
    | some e =>
      obtain ⟨g1, g2, g3⟩ := h i e he
      have := C127_each es i e he (hg e (List.mem_of_getElem? he)) g1 g2 g3
      rw [moMsg_iff] at this
      simp only [Option.map_some]
      rw [← this]
      rfl
  refine ⟨_, readMo_of_file (saved_file es hn), fun k => ?_⟩
  rw [moFileOf, hfs, foldl_addEntry_entries, getLast?_bare, get_of_perm f hf es hs.1 k]
  simp only [GMap.get?, Option.or_none]
  rfl

theorem num32_lt {be : Bool} {c : Str} {pos v : Nat} (h : Num32 be c pos v) : v < moLimit := by
  obtain ⟨w, x, y, z, -, rfl⟩ := h
  have := w.toNat_lt
  have := x.toNat_lt
  have := y.toNat_lt
  have := z.toNat_lt
  unfold moLimit
  split <;> omega

theorem body_lengths {rest str : Str} {e : Entry} (h : BodyOf rest str e) :
    (e.id ++ (if e.isPlural then 0 :: e.id2 else [])).length = rest.length ∧ (transOf e).length = str.length := by
  rcases h with ⟨-, h1, h2, -, h4, h5⟩ | ⟨id, id2, h1, -, h3, h4, h5, -, h7, -, h9⟩
  · simp [h1, h2, transOf, h4, h5]
  · simp [h1, h3, h4, h5, transOf, h7, h9]

theorem msg_lengths {id str : Str} {e : Entry} (h : MoMsg id str e) : (origOf e).length ≤ id.length ∧ (transOf e).length = str.length := by
  rcases h with ⟨-, ⟨-, h2, h3⟩ | ⟨ctxt, rest, h1, -, h2, h3⟩⟩
  · obtain ⟨g1, g2⟩ := body_lengths h3
    simp only [List.length_append] at g1
    simp only [origOf, h2, if_true, List.length_append]
    omega
  · obtain ⟨g1, g2⟩ := body_lengths h3
    simp only [List.length_append] at g1
    simp only [origOf, h1, h2, List.length_append, List.length_cons]
    split
    · omega
    · simp only [List.length_append, List.length_cons]
      omega

/-- **C127** No file, whatever wrote it, has a text of 4 GiB for `ReadMo`. -/
theorem C127_short (c : Str) (g : File) (h : readMo c = .ok g) (k : Str) (e : Entry) (he : g.entries.get? k = some e) :
    (origOf e).length < moLimit ∧ (transOf e).length < moLimit := by
  obtain ⟨be, ps, hm, rfl⟩ := (readMo_iff c g).1 h
  rw [moFileOf, foldl_addEntry_entries] at he
  simp only [GMap.get?, Option.or_none] at he
  have hmem := List.mem_of_mem_getLast? he
  simp only [List.mem_filter, List.mem_map] at hmem
  obtain ⟨⟨p, hp, rfl⟩, -⟩ := hmem
  obtain ⟨i, hi⟩ := List.getElem?_of_mem hp
  obtain ⟨-, -, -, O, T, -, -, -, hd⟩ := hm
  obtain ⟨⟨o1, d1, -⟩, ⟨o2, d2, -⟩⟩ := hd i p hi
  obtain ⟨m1, m2⟩ := msg_lengths ((moMsg_iff p.1 p.2 _).2 rfl)
  have := num32_lt d1.1
  have := num32_lt d2.1
  omega

/-- **C127** So a file with a longer text is lost, though neither saving nor reading it fails. -/
theorem C127_lost (f : File) (es : List Entry) (hn : 75 + 8 * es.length < moLimit) (k : Str) (e : Entry) (he : f.entries.get? k = some e)
    (hl : moLimit ≤ (origOf e).length ∨ moLimit ≤ (transOf e).length) :
    ∃ g, readMo (saveMo es) = .ok g ∧ g.entries.get? k ≠ (f.entries.get? k).map fun e => { e with cmts := [] } := by
  obtain ⟨g, rs, hr, -⟩ := C127_read es hn
  refine ⟨g, hr, fun h => ?_⟩
  rw [he] at h
  have := C127_short _ g hr k _ h
  have e1 : origOf { e with cmts := [] } = origOf e := rfl
  have e2 : transOf { e with cmts := [] } = transOf e := rfl
  rw [e1, e2] at this
  omega


/-- A message with a long translation, `n` times `x`, and one with a short one. -/
def longAndShort (n : Nat) : List Entry := [{ id := b!"a", str := List.replicate n 120 }, { id := b!"b", str := b!"B" }]

theorem found_inner (c : Str) (pos : Nat) (n k l : Nat) (x : UInt8) (h : At c pos (List.replicate n x)) (hk : k + l ≤ n) :
    (c.drop (pos + k)).take l = List.replicate l x := by
  obtain ⟨pre, post, rfl, rfl⟩ := h
  rw [List.append_assoc, List.drop_length_add_append, List.drop_append_of_le_length (by simp; omega), List.drop_replicate,
    List.take_append_of_le_length (by simp; omega), List.take_replicate]
  congr 1
  omega

theorem longAndShort_file (n : Nat) : ∃ f, Consistent f ∧ (∀ p ∈ f.entries, MoGood p.2) ∧ SortedEntry f (longAndShort n) ∧
    f.entries.get? (key [] b!"b") = some { id := b!"b", str := b!"B" } := by
  refine ⟨{ entries := [(key [] b!"a", { id := b!"a", str := List.replicate n 120 }), (key [] b!"b", { id := b!"b", str := b!"B" })] }, ⟨?_, ?_⟩, ?_, ⟨.refl _, ?_⟩, rfl⟩
  · show [key [] b!"a", key [] b!"b"].Nodup
    decide
  · intro p hp
    simp only [List.mem_cons, List.not_mem_nil, or_false] at hp
    rcases hp with rfl | rfl <;> rfl
  · intro p hp
    simp only [List.mem_cons, List.not_mem_nil, or_false] at hp
    rcases hp with rfl | rfl <;> simp [MoGood]
  · simp only [longAndShort, List.pairwise_cons, List.mem_cons, List.not_mem_nil, or_false, forall_eq, IsEmpty.forall_iff, implies_true, and_true,
      List.Pairwise.nil]
    show ¬ Entry.sortKey { id := b!"b" } < Entry.sortKey { id := b!"a" }
    decide

theorem longAndShort_few (n : Nat) : 75 + 8 * (longAndShort n).length < moLimit := by
  rw [show (longAndShort n).length = 2 from rfl]
  decide

theorem longAndShort_first (n : Nat) : At (saveMo (longAndShort n)) 111 (List.replicate n 120) := by
  obtain ⟨-, a⟩ := saved_at (longAndShort n) 0 _ rfl
  rwa [show transAt (longAndShort n) 0 = 111 by simp [transAt, origAt, longAndShort, origOf],
    show transOf { id := b!"a", str := List.replicate n 120 } = List.replicate n 120 by simp [transOf]] at a

theorem longAndShort_fits (n : Nat) (hn : 112 + n < moLimit) (i : Nat) (e : Entry) (he : (longAndShort n)[i]? = some e) :
    transAt (longAndShort n) i < moLimit ∧ (origOf e).length < moLimit ∧ (transOf e).length < moLimit := by
  match i, he with
  | 0, he =>
    simp only [longAndShort, List.getElem?_cons_zero, Option.some.injEq] at he
    subst he
    refine ⟨by simp [transAt, origAt, longAndShort, origOf, moLimit], by simp [origOf, moLimit], ?_⟩
    simp only [transOf, if_true, List.length_replicate]
    omega
  | 1, he =>
    simp only [longAndShort, List.getElem?_cons_succ, List.getElem?_cons_zero, Option.some.injEq] at he
    subst he
    refine ⟨?_, by simp [origOf, moLimit], by simp [transOf, moLimit]⟩
    simp [transAt, origAt, longAndShort, origOf, transOf]
    omega
  | i + 2, he => simp [longAndShort] at he

theorem longAndShort_read (n : Nat) (g : File) (rs : List Entry) (hl : rs.length = 2)
    (hg : ∀ k, g.entries.get? k = (rs.filter fun r => key r.ctxt r.id = k).getLast?)
    (hr : ∀ i e, (longAndShort n)[i]? = some e → ∃ r, rs[i]? = some r ∧ MoMsg (found (saveMo (longAndShort n)) (origAt (longAndShort n) i) (origOf e).length)
        (found (saveMo (longAndShort n)) (transAt (longAndShort n) i) (transOf e).length) r) :
    g.entries.get? (key [] b!"a") = some { id := b!"a", str := found (saveMo (longAndShort n)) 111 n } ∧
      g.entries.get? (key [] b!"b") = some { id := b!"b", str := found (saveMo (longAndShort n)) (112 + n) 1 } := by
  obtain ⟨r0, h0, m0⟩ := hr 0 _ rfl
  obtain ⟨r1, h1, m1⟩ := hr 1 _ rfl
  have hrs : rs = [r0, r1] := by
    match rs, hl with
    | [x, y], _ => simp at h0 h1; rw [h0, h1]
  obtain ⟨a0, -⟩ := saved_at (longAndShort n) 0 _ rfl
  obtain ⟨a1, -⟩ := saved_at (longAndShort n) 1 _ rfl
  rw [found_whole _ _ _ a0 (by simp [origAt, longAndShort, moLimit]) (by simp [origOf, moLimit])] at m0
  rw [found_whole _ _ _ a1 (by simp [origAt, longAndShort, origOf, moLimit]) (by simp [origOf, moLimit])] at m1
  have p0 : transAt (longAndShort n) 0 = 111 := by simp [transAt, origAt, longAndShort, origOf]
  have p1 : transAt (longAndShort n) 1 = 112 + n := by
    simp [transAt, origAt, longAndShort, origOf, transOf]
    omega
  rw [p0, show (transOf { id := b!"a", str := List.replicate n 120 }).length = n by simp [transOf]] at m0
  rw [p1, show (transOf { id := b!"b", str := b!"B" }).length = 1 by simp [transOf]] at m1
  rw [moMsg_iff] at m0 m1
  have q0 : ∀ s, moEntry (origOf { id := b!"a", str := List.replicate n 120 }) s = { id := b!"a", str := s } := by
    intro s
    rw [show origOf { id := b!"a", str := List.replicate n 120 } = b!"a" by simp [origOf]]
    rfl
  have q1 : ∀ s, moEntry (origOf { id := b!"b", str := b!"B" }) s = { id := b!"b", str := s } := fun s => rfl
  rw [q0] at m0
  rw [q1] at m1
  rw [hg, hg, hrs, m0, m1]
  constructor
  · rw [List.filter_cons_of_pos (by simp), List.filter_cons_of_neg (by simp only [decide_eq_true_eq]; decide)]
    rfl
  · rw [List.filter_cons_of_neg (by simp only [decide_eq_true_eq]; decide), List.filter_cons_of_pos (by simp)]
    rfl

/-- **C127** With a translation of 4 GiB or up to twice that, the translation itself comes back cut, and another message with a piece of it. -/
theorem C127_wrong (m : Nat) (hm : 112 + m < moLimit) : ∃ g, readMo (saveMo (longAndShort (moLimit + m))) = .ok g ∧
    g.entries.get? (key [] b!"a") = some { id := b!"a", str := List.replicate m 120 } ∧
    g.entries.get? (key [] b!"b") = some { id := b!"b", str := b!"x" } := by
  obtain ⟨g, rs, h1, h2, h3, h4⟩ := C127_read (longAndShort (moLimit + m)) (longAndShort_few _)
  obtain ⟨g1, g2⟩ := longAndShort_read _ g rs h2 h3 h4
  have a := longAndShort_first (moLimit + m)
  refine ⟨g, h1, ?_, ?_⟩
  · rw [g1, found, Nat.add_mod_left, Nat.mod_eq_of_lt (show m < moLimit by omega), Nat.mod_eq_of_lt (show 111 < moLimit by decide)]
    have := found_inner _ _ _ 0 m _ a (by omega)
    rw [Nat.add_zero] at this
    rw [this]
  · rw [g2, found, show 112 + (moLimit + m) = moLimit + (112 + m) by omega, Nat.add_mod_left, Nat.mod_eq_of_lt hm, Nat.mod_eq_of_lt (show 1 < moLimit by decide),
      show 112 + m = 111 + (1 + m) by omega]
    have hlim : 112 < moLimit := by decide
    rw [found_inner _ _ _ (1 + m) 1 _ a (by omega)]
    rfl

/-- **C127** The limit is met exactly: a string that begins at 4 GiB is read from the beginning of the file, and one byte less does no harm. -/
theorem C127_edge : (∃ g, readMo (saveMo (longAndShort (moLimit - 112))) = .ok g ∧
      g.entries.get? (key [] b!"b") = some { id := b!"b", str := [0xde] }) ∧
    ∃ g, readMo (saveMo (longAndShort (moLimit - 113))) = .ok g ∧ g.entries.get? (key [] b!"b") = some { id := b!"b", str := b!"B" } := by
  have hlim : 113 < moLimit := by decide
  constructor
  · obtain ⟨g, rs, h1, h2, h3, h4⟩ := C127_read (longAndShort (moLimit - 112)) (longAndShort_few _)
    obtain ⟨-, g2⟩ := longAndShort_read _ g rs h2 h3 h4
    refine ⟨g, h1, ?_⟩
    rw [g2, found, show 112 + (moLimit - 112) = moLimit by omega, Nat.mod_self, Nat.mod_eq_of_lt (show 1 < moLimit by decide)]
    obtain ⟨hm, -⟩ := saved_file (longAndShort (moLimit - 112)) (longAndShort_few _)
    obtain ⟨pre, post, hc, hpre⟩ := hm
    rw [List.length_eq_zero_iff] at hpre
    rw [hc, hpre]
    rfl
  · obtain ⟨f, hf, hgood, hs, hb⟩ := longAndShort_file (moLimit - 113)
    obtain ⟨g, h1, h2⟩ := C127_whole f hf hgood _ hs (longAndShort_fits _ (by omega))
    exact ⟨g, h1, by rw [h2, hb]; rfl⟩

end Verif.Tr
