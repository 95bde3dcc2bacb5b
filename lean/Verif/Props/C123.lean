import Verif.Spec.PyMo
import Verif.Props.C117
/-!
# C123 Which messages Python programs find in a saved MO file
-/
namespace Verif.Py
open Verif

variable {T : Type}

theorem word_of {c : Str} {pos v : Nat} (h : Tr.Num32 false c pos v) : word c pos = some v := by
  obtain ⟨w, x, y, z, ⟨pre, post, rfl, rfl⟩, rfl⟩ := h
  simp [word]

theorem at_end {c : Str} {pos : Nat} {s : Str} (h : Tr.At c pos (s ++ [0])) : pos + s.length < c.length := by
  obtain ⟨pre, post, rfl, rfl⟩ := h
  simp

/-- The loop over the messages themselves. -/
def rounds (decode : Str → Str → Option T) (header : Str → Option (Option Str)) : List (Str × Str) → Option Str → List (Key T × T) →
    Option (List (Key T × T))
  | [], _, cat => some cat
  | p :: ps, charset, cat =>
    match step decode header charset p.1 p.2 with
    | some (charset, l) => rounds decode header ps charset (l ++ cat)
    | none => none

theorem loop_eq {decode : Str → Str → Option T} {header : Str → Option (Option Str)} {c : Str} {O T' : Nat} {offI offS : Nat → Nat}
    {ps : List (Str × Str)} (h : ∀ i p, ps[i]? = some p → Tr.Descr false c O i p.1.length (offI i) ∧ Tr.At c (offI i) (p.1 ++ [0]) ∧
      Tr.Descr false c T' i p.2.length (offS i) ∧ Tr.At c (offS i) (p.2 ++ [0])) :
    ∀ n i charset cat, n + i = ps.length → loop decode header c n (O + 8 * i) (T' + 8 * i) charset cat = rounds decode header (ps.drop i) charset cat := by
  intro n
  induction n with
  | zero =>
    intro i charset cat hi
    rw [List.drop_of_length_le (by omega)]
    rfl
  | succ n ih =>
    intro i charset cat hi
    have hlt : i < ps.length := by omega
    obtain ⟨⟨h1, h2⟩, h3, ⟨h4, h5⟩, h6⟩ := h i _ (List.getElem?_eq_getElem hlt)
    rw [List.drop_eq_getElem_cons hlt, loop, rounds, word_of h1, word_of h2, word_of h4, word_of h5]
    dsimp only
    rw [if_pos ⟨at_end h3, at_end h6⟩, Libintl.bytes_at h3, Libintl.bytes_at h6]
    cases step decode header charset ps[i].1 ps[i].2 with
    | none => rfl
    | some r =>
      have := ih (i + 1) r.1 (r.2 ++ cat) (by omega)
      rw [show O + 8 * (i + 1) = O + 8 * i + 8 by omega, show T' + 8 * (i + 1) = T' + 8 * i + 8 by omega] at this
      exact this

theorem parse_eq {c : Str} {ps : List (Str × Str)} (h : Tr.Layout c ps) (decode : Str → Str → Option T) (header : Str → Option (Option Str)) :
    parse decode header c = rounds decode header ps none [] := by
  obtain ⟨O, T', offI, offS, h0, h4, h8, h12, h16, -, -, -, -, hp⟩ := h
  have hm : word c 0 = some 0x950412de := word_of ⟨_, _, _, _, h0, rfl⟩
  unfold parse
  rw [hm, word_of h4, word_of h8, word_of h12, word_of h16]
  dsimp only
  rw [if_pos (by decide)]
  exact loop_eq (fun i p hi => by obtain ⟨a, b, c, d, -⟩ := hp i p hi; exact ⟨a, b, c, d⟩) ps.length 0 none [] rfl

theorem all_some {α β : Type} {f : α → Option β} {g : α → β} : ∀ {l : List α}, (∀ a ∈ l, f a = some (g a)) → all (l.map f) = some (l.map g) := by
  intro l
  induction l with
  | nil => intro _; rfl
  | cons a l ih =>
    intro h
    rw [List.map_cons, h a (by simp), all, ih (fun x hx => h x (by simp [hx]))]
    rfl

/-- The assignments of an entry. -/
def slots (txt : Str → T) (e : Tr.Entry) : List (Key T × T) :=
  if e.isPlural then ((e.strN.map txt).zipIdx.map fun t => (.form (txt (Libintl.question e)) t.2, t.1)).reverse
  else [(.plain (txt (Libintl.question e)), txt e.str)]

/-- An entry as it may stand in an MO file for Python: no NUL in its strings, forms if and only if it is plural. -/
def Fine (e : Tr.Entry) : Prop :=
  0 ∉ e.ctxt ∧ 0 ∉ e.id ∧ 0 ∉ e.id2 ∧ (e.isPlural = true ↔ e.strN ≠ []) ∧ ∀ s ∈ e.strN, 0 ∉ s

theorem assign_fine {decode : Str → Str → Option T} {cs : Str} {txt : Str → T} {V : Str → Prop} (hV : ∀ s, V s → decode cs s = some (txt s))
    {e : Tr.Entry} (h : Fine e) (hq : V (Libintl.question e)) (hs : e.isPlural = false → V e.str) (hN : ∀ s ∈ e.strN, V s) :
    assign decode (some cs) (Tr.origOf e) (Tr.transOf e) = some (slots txt e) := by
  obtain ⟨h1, h2, h3, h4, h5⟩ := h
  have hqn := Libintl.question_nul h1 h2
  unfold assign slots Tr.origOf Tr.transOf
  change (match GoStr.splitByte 0 (Libintl.question e ++ _) with | [m] => _ | [m, _] => _ | _ => _) = _
  cases hp : e.isPlural with
  | false =>
    have hn : e.strN = [] := by
      by_contra hc
      have := h4.2 hc
      rw [hp] at this
      cases this
    have := GoStr.splitByte_intercalate 0 [Libintl.question e] (by simp) (by simpa using hqn)
    rw [List.intercalate_singleton] at this
    simp only [Bool.false_eq_true, if_false, List.append_nil, this, hn, if_true, Option.getD_some, hV _ hq, hV _ (hs hp), Option.bind_some, Option.map_some]
  | true =>
    have hn := h4.1 hp
    have := GoStr.splitByte_intercalate 0 [Libintl.question e, e.id2] (by simp) (by simpa using ⟨hqn, h3⟩)
    rw [show List.intercalate [0] [Libintl.question e, e.id2] = Libintl.question e ++ 0 :: e.id2 by simp [List.intercalate]] at this
    simp only [if_true, this, hn, if_false, Option.getD_some, hV _ hq, Option.bind_some, GoStr.splitByte_intercalate 0 e.strN hn h5,
      all_some (fun s hs => hV s (hN s hs)), Option.map_some]

theorem rounds_fine {decode : Str → Str → Option T} {header : Str → Option (Option Str)} {cs : Str} {txt : Str → T} {V : Str → Prop}
    (hV : ∀ s, V s → decode cs s = some (txt s)) : ∀ (es : List Tr.Entry) (cat : List (Key T × T)),
    (∀ e ∈ es, Fine e ∧ V (Libintl.question e) ∧ (e.isPlural = false → V e.str) ∧ (∀ s ∈ e.strN, V s) ∧ Tr.origOf e ≠ []) →
    rounds decode header (es.map fun e => (Tr.origOf e, Tr.transOf e)) (some cs) cat = some ((es.map (slots txt)).reverse.flatten ++ cat) := by
  intro es
  induction es with
  | nil => intro cat _; rfl
  | cons e es ih =>
    intro cat h
    obtain ⟨h1, h2, h3, h4, h5⟩ := h e (by simp)
    rw [List.map_cons, rounds, step, if_neg (by simpa using h5), Option.bind_some, assign_fine hV h1 h2 h3 h4]
    dsimp only [Option.map_some]
    rw [ih _ (fun x hx => h x (by simp [hx]))]
    simp

theorem get_iff [DecidableEq T] {cat : List (Key T × T)} (hn : (cat.map (·.1)).Nodup) (k : Key T) (v : T) : get cat k = some v ↔ (k, v) ∈ cat := by
  induction cat with
  | nil => simp [get]
  | cons p cat ih =>
    rw [List.map_cons, List.nodup_cons] at hn
    unfold get at ih ⊢
    rw [List.find?_cons]
    by_cases hp : p.1 = k
    · simp only [hp, decide_true, Option.map_some, Option.some.injEq, List.mem_cons]
      constructor
      · rintro rfl; exact .inl (by rw [← hp])
      · rintro (h | h)
        · rw [← h]
        · exact absurd (List.mem_map.2 ⟨_, h, hp.symm⟩) hn.1
    · simp only [hp, decide_false]
      rw [ih hn.2, List.mem_cons]
      constructor
      · exact .inr
      · rintro (h | h)
        · rw [← h] at hp; exact absurd rfl hp
        · exact h

/-- What Python should find: the translations of the singular messages, the forms of the plural ones, everything decoded. -/
def Says (decode : Str → Str → Option T) (cs : Str) (es : List Tr.Entry) (k : Key T) (v : T) : Prop :=
  ∃ e ∈ es, ∃ q, decode cs (if e.ctxt = [] then e.id else e.ctxt ++ 4 :: e.id) = some q ∧
    ((e.isPlural = false ∧ k = .plain q ∧ decode cs e.str = some v) ∨
      (e.isPlural = true ∧ ∃ i s, e.strN[i]? = some s ∧ k = .form q i ∧ decode cs s = some v))

theorem mem_slots {txt : Str → T} {e : Tr.Entry} {k : Key T} {v : T} : (k, v) ∈ slots txt e ↔
    (e.isPlural = false ∧ k = .plain (txt (Libintl.question e)) ∧ v = txt e.str) ∨
      (e.isPlural = true ∧ ∃ i s, e.strN[i]? = some s ∧ k = .form (txt (Libintl.question e)) i ∧ v = txt s) := by
  unfold slots
  cases e.isPlural with
  | false => simp
  | true =>
    simp only [if_true, List.mem_reverse, List.mem_map, Prod.mk.injEq, Prod.exists, List.mem_zipIdx_iff_getElem?, List.getElem?_map, Option.map_eq_some_iff,
      Bool.true_eq_false, false_and, true_and, false_or]
    constructor
    · rintro ⟨a, i, ⟨s, hs, rfl⟩, rfl, rfl⟩
      exact ⟨i, s, hs, rfl, rfl⟩
    · rintro ⟨i, s, hs, rfl, rfl⟩
      exact ⟨_, i, ⟨s, hs, rfl⟩, rfl, rfl⟩

theorem slots_nodup (txt : Str → T) (e : Tr.Entry) : ((slots txt e).map (·.1)).Nodup := by
  unfold slots
  split
  · rw [List.map_reverse, List.nodup_reverse, List.map_map]
    refine List.Nodup.map_on ?_ (List.Nodup.of_map Prod.snd (by rw [List.zipIdx_map_snd]; exact List.nodup_range'))
    rintro ⟨a, i⟩ ha ⟨b, j⟩ hb h
    simp only [Function.comp_apply, Key.form.injEq, true_and] at h
    subst h
    have h1 := (List.mem_zipIdx_iff_getElem?.1 ha)
    have h2 := (List.mem_zipIdx_iff_getElem?.1 hb)
    simp only at h1 h2
    rw [h1] at h2
    cases h2
    rfl
  · simp

theorem slots_question {txt : Str → T} {e : Tr.Entry} {k : Key T} (h : k ∈ (slots txt e).map (·.1)) :
    k = .plain (txt (Libintl.question e)) ∨ ∃ i, k = .form (txt (Libintl.question e)) i := by
  obtain ⟨⟨k, v⟩, hp, rfl⟩ := List.mem_map.1 h
  rcases mem_slots.1 hp with ⟨-, h, -⟩ | ⟨-, i, s, -, h, -⟩
  · exact .inl h
  · exact .inr ⟨i, h⟩

/-- Distinct original strings make distinct keys. -/
theorem cat_nodup {txt : Str → T} {es : List Tr.Entry} (h : es.Pairwise fun a b => txt (Libintl.question a) ≠ txt (Libintl.question b)) :
    (((es.map (slots txt)).reverse.flatten).map (·.1)).Nodup := by
  rw [List.map_flatten, List.nodup_flatten]
  constructor
  · intro l hl
    simp only [List.map_reverse, List.map_map, List.mem_reverse, List.mem_map, Function.comp_apply] at hl
    obtain ⟨e, -, rfl⟩ := hl
    exact slots_nodup txt e
  · rw [List.map_reverse, List.pairwise_reverse, List.map_map, List.pairwise_map]
    refine h.imp ?_
    intro a b hab k hb ha
    rcases slots_question ha with rfl | ⟨i, rfl⟩ <;> rcases slots_question hb with h | ⟨j, h⟩
    · simp only [Key.plain.injEq] at h; exact hab h
    · cases h
    · cases h
    · simp only [Key.form.injEq] at h; exact hab h.1

/-- **C123** In a saved file whose header states the character set, whatever the order of its messages, Python finds every message, and
nothing else. -/
theorem C123_saved [DecidableEq T] (decode : Str → Str → Option T) (header : Str → Option (Option Str)) (cs : Str) (f : Tr.File) (hf : Tr.Consistent f)
    (es : List Tr.Entry) (hs : Tr.SortedEntry f es) (hlt : (Tr.saveMo es).length < 4294967296)
    (hinj : ∀ a b t, decode cs a = some t → decode cs b = some t → a = b)
    (hok : ∀ e ∈ es, Fine e ∧ 4 ∉ e.ctxt ∧ 4 ∉ e.id)
    (hdec : ∀ e ∈ es, ∀ s, s = Libintl.question e ∨ (e.isPlural = false ∧ s = e.str) ∨ s ∈ e.strN → decode cs s ≠ none)
    (hd : Tr.Entry) (hmem : hd ∈ es) (hd0 : hd.ctxt = [] ∧ hd.isPlural = false ∧ header hd.str = some (some cs))
    (hone : ∀ e ∈ es, e.id = [] ↔ e = hd) :
    ∃ cat, parse decode header (Tr.saveMo es) = some cat ∧ ∀ k v, get cat k = some v ↔ Says decode cs es k v := by
  have hkeys : es.Pairwise fun a b => a.key ≠ b.key := by
    have : (f.entries.vals.map Tr.Entry.key).Nodup := by
      have : f.entries.vals.map Tr.Entry.key = f.entries.keys := by
        simp only [GMap.vals, GMap.keys, List.map_map]
        apply List.map_congr_left
        intro p hp
        exact (hf.2 p hp).symm
      rw [this]
      exact hf.1
    have := (hs.1.map Tr.Entry.key).nodup_iff.2 this
    exact List.pairwise_map.1 this
  have hid : hd.id = [] := (hone hd hmem).2 rfl
  -- the header is the first
  obtain ⟨rest, rfl⟩ : ∃ rest, es = hd :: rest := by
    cases es with
    | nil => cases hmem
    | cons x rest =>
      refine ⟨rest, ?_⟩
      rcases List.mem_cons.1 hmem with rfl | hm
      · rfl
      · have h1 := (List.pairwise_cons.mp hs.2).1 hd hm
        rw [(Tr.sortKey_nil hd).mpr hid] at h1
        have hx : x.sortKey = [] := by
          cases hx : x.sortKey with
          | nil => rfl
          | cons a b => rw [hx] at h1; exact absurd (List.nil_lt_cons a b) h1
        rw [(hone x (by simp)).1 ((Tr.sortKey_nil x).mp hx)]
  obtain ⟨t0, -⟩ := Option.ne_none_iff_exists'.1 (hdec hd hmem _ (.inl rfl))
  let txt : Str → T := fun s => (decode cs s).getD t0
  have hV : ∀ s, decode cs s ≠ none → decode cs s = some (txt s) := by
    intro s h
    obtain ⟨t, ht⟩ := Option.ne_none_iff_exists'.1 h
    simp only [txt, ht, Option.getD_some]
  have hall : ∀ e ∈ hd :: rest, Fine e ∧ decode cs (Libintl.question e) ≠ none ∧ (e.isPlural = false → decode cs e.str ≠ none) ∧
      ∀ s ∈ e.strN, decode cs s ≠ none := fun e he =>
    ⟨(hok e he).1, hdec e he _ (.inl rfl), fun h => hdec e he _ (.inr (.inl ⟨h, rfl⟩)), fun s h => hdec e he _ (.inr (.inr h))⟩
  have hnd : hd ∉ rest := by
    intro h
    exact (List.pairwise_cons.1 hkeys).1 hd h rfl
  have hrest : ∀ e ∈ rest, Tr.origOf e ≠ [] := by
    intro e he h
    have h1 : e.id ≠ [] := fun h => hnd (((hone e (by simp [he])).1 h) ▸ he)
    unfold Tr.origOf at h
    rw [List.append_eq_nil_iff] at h
    have := h.1
    split at this
    · exact h1 this
    · simp at this
  have hq0 : Tr.origOf hd = [] := by simp [Tr.origOf, hd0.1, hid, hd0.2.1]
  have hn0 : hd.strN = [] := by
    by_contra hc
    have := (hok hd hmem).1.2.2.2.1.2 hc
    rw [hd0.2.1] at this
    cases this
  have ht0 : Tr.transOf hd = hd.str := by simp [Tr.transOf, hn0]
  obtain ⟨g1, g2, g3, g4⟩ := hall hd hmem
  refine ⟨((hd :: rest).map (slots txt)).reverse.flatten, ?_, ?_⟩
  · rw [parse_eq (Tr.C33_layout _ hlt), List.map_cons, rounds, step]
    dsimp only
    rw [if_pos (by rw [hq0]; rfl), ht0, hd0.2.2, ← ht0, Option.map_some, Option.bind_some, Option.some_or, assign_fine hV g1 g2 g3 g4]
    dsimp only [Option.map_some]
    rw [rounds_fine hV rest _ (fun e he => by
      obtain ⟨a, b, c, d⟩ := hall e (by simp [he])
      exact ⟨a, b, c, d, hrest e he⟩)]
    simp
  · intro k v
    rw [get_iff (cat_nodup ?_)]
    · simp only [List.mem_flatten, List.mem_reverse, List.mem_map]
      unfold Says
      constructor
      · rintro ⟨l, ⟨e, he, rfl⟩, hkv⟩
        obtain ⟨a, b, c, d⟩ := hall e he
        refine ⟨e, he, _, hV _ b, ?_⟩
        rcases mem_slots.1 hkv with ⟨hp, hk, rfl⟩ | ⟨hp, i, s, hs, hk, rfl⟩
        · exact .inl ⟨hp, hk, hV _ (c hp)⟩
        · exact .inr ⟨hp, i, s, hs, hk, hV _ (d s (List.mem_of_getElem? hs))⟩
      · rintro ⟨e, he, q, hq, h⟩
        have hq' : q = txt (Libintl.question e) := by
          have : decode cs (Libintl.question e) = some q := hq
          simp only [txt, this, Option.getD_some]
        refine ⟨_, ⟨e, he, rfl⟩, mem_slots.2 ?_⟩
        rcases h with ⟨hp, hk, hv⟩ | ⟨hp, i, s, hs, hk, hv⟩
        · exact .inl ⟨hp, by rw [hk, hq'], by simp only [txt, hv, Option.getD_some]⟩
        · exact .inr ⟨hp, i, s, hs, by rw [hk, hq'], by simp only [txt, hv, Option.getD_some]⟩
    · refine hkeys.imp_of_mem ?_
      intro a b ha hb hne h
      have h1 := hV _ (hall a ha).2.1
      have h2 := hV _ (hall b hb).2.1
      rw [h] at h1
      exact hne (Libintl.question_key (hok a ha).2 (hok b hb).2 (hinj _ _ _ h1 h2))

theorem all_none {α : Type} : ∀ {l : List (Option α)}, none ∈ l → all l = none := by
  intro l
  induction l with
  | nil => intro h; cases h
  | cons a l ih =>
    intro h
    cases a with
    | none => rfl
    | some a =>
      rw [List.mem_cons] at h
      rcases h with h | h
      · cases h
      · rw [all, ih h]; rfl

theorem assign_none {decode : Str → Str → Option T} {e : Tr.Entry} (h : Fine e)
    (hbad : ∃ s, (s = Libintl.question e ∨ (e.isPlural = false ∧ s = e.str) ∨ s ∈ e.strN) ∧ decode b!"ascii" s = none) :
    assign decode none (Tr.origOf e) (Tr.transOf e) = none := by
  obtain ⟨h1, h2, h3, h4, h5⟩ := h
  obtain ⟨s, hs, hbad⟩ := hbad
  have hqn := Libintl.question_nul h1 h2
  unfold assign Tr.origOf Tr.transOf
  change (match GoStr.splitByte 0 (Libintl.question e ++ _) with | [m] => _ | [m, _] => _ | _ => _) = _
  cases hp : e.isPlural with
  | false =>
    have hn : e.strN = [] := by
      by_contra hc
      have := h4.2 hc
      rw [hp] at this
      cases this
    have := GoStr.splitByte_intercalate 0 [Libintl.question e] (by simp) (by simpa using hqn)
    rw [List.intercalate_singleton] at this
    simp only [Bool.false_eq_true, if_false, List.append_nil, this, hn, if_true, Option.getD_none]
    rcases hs with rfl | ⟨-, rfl⟩ | hs
    · rw [hbad]; rfl
    · rw [hbad]
      cases decode b!"ascii" (Libintl.question e) <;> rfl
    · rw [hn] at hs; cases hs
  | true =>
    have hn := h4.1 hp
    have := GoStr.splitByte_intercalate 0 [Libintl.question e, e.id2] (by simp) (by simpa using ⟨hqn, h3⟩)
    rw [show List.intercalate [0] [Libintl.question e, e.id2] = Libintl.question e ++ 0 :: e.id2 by simp [List.intercalate]] at this
    simp only [if_true, this, hn, if_false, Option.getD_none, GoStr.splitByte_intercalate 0 e.strN hn h5]
    rcases hs with rfl | ⟨hp', -⟩ | hs
    · rw [hbad]; rfl
    · rw [hp] at hp'; cases hp'
    · rw [all_none (List.mem_map.2 ⟨s, hs, hbad⟩)]
      cases decode b!"ascii" (Libintl.question e) <;> rfl

/-- **C123** A saved file without a header cannot be loaded in Python at all as soon as one string of a message, other than the plural id,
is not ASCII. -/
theorem C123_noheader (decode : Str → Str → Option T) (header : Str → Option (Option Str)) (es : List Tr.Entry)
    (hlt : (Tr.saveMo es).length < 4294967296) (hnone : ∀ e ∈ es, e.ctxt ≠ [] ∨ e.id ≠ []) (hok : ∀ e ∈ es, Fine e)
    (e : Tr.Entry) (he : e ∈ es) (s : Str) (hs : s = Libintl.question e ∨ (e.isPlural = false ∧ s = e.str) ∨ s ∈ e.strN)
    (hbad : decode b!"ascii" s = none) : parse decode header (Tr.saveMo es) = none := by
  rw [parse_eq (Tr.C33_layout _ hlt)]
  generalize ([] : List (Key T × T)) = cat
  clear hlt
  induction es generalizing cat with
  | nil => cases he
  | cons x es ih =>
    have hx : (Tr.origOf x).length ≠ 0 := by
      rw [Ne, List.length_eq_zero_iff]
      intro h
      unfold Tr.origOf at h
      rw [List.append_eq_nil_iff] at h
      have := h.1
      split at this
      · rename_i hc
        rcases hnone x (by simp) with h1 | h1
        · exact h1 hc
        · exact h1 this
      · simp at this
    rw [List.map_cons, rounds, step]
    dsimp only
    rw [if_neg hx, Option.bind_some]
    rcases List.mem_cons.1 he with rfl | he
    · rw [assign_none (hok e (by simp)) ⟨s, hs, hbad⟩]
      rfl
    · cases assign decode none (Tr.origOf x) (Tr.transOf x) with
      | none => rfl
      | some l => exact ih (fun y hy => hnone y (by simp [hy])) (fun y hy => hok y (by simp [hy])) he _

/-- ASCII as Python has it, and all other character sets as Latin 1. -/
def latin (cs s : Str) : Option Str := if cs = b!"ascii" ∧ s.any (fun c => decide (128 ≤ c)) then none else some s

def utf8Header (_ : Str) : Option (Option Str) := some (some b!"latin-1")

/-- The file of C117, with a letter that is not ASCII: found with a header, and not loaded without one. -/
def helloPy : List Tr.Entry := [{ str := b!"Language: de\n" }, { id := b!"z", str := [0xe4] },
  { id := b!"file", isPlural := true, id2 := b!"files", strN := [b!"Datei", b!"Dateien"] }]

example : (parse latin utf8Header (Tr.saveMo helloPy)).bind (get · (.plain b!"z")) = some [0xe4] ∧
    (parse latin utf8Header (Tr.saveMo helloPy)).bind (get · (.form b!"file" 1)) = some b!"Dateien" ∧
    (parse latin utf8Header (Tr.saveMo helloPy)).bind (get · (.plain b!"file")) = none ∧
    parse latin utf8Header (Tr.saveMo (helloPy.drop 1)) = none := by
  decide +kernel

/-- The conditions of `C123_saved` can be met. -/
example : ∃ f hd, Tr.Consistent f ∧ Tr.SortedEntry f Libintl.hello ∧ (∀ e ∈ Libintl.hello, Fine e ∧ 4 ∉ e.ctxt ∧ 4 ∉ e.id) ∧ hd ∈ Libintl.hello ∧
    (hd.ctxt = [] ∧ hd.isPlural = false ∧ utf8Header hd.str = some (some b!"latin-1")) ∧ ∀ e ∈ Libintl.hello, e.id = [] ↔ e = hd := by
  refine ⟨{ entries := Libintl.hello.map fun e => (e.key, e) }, Libintl.hello[0], ⟨by decide, by decide⟩, ⟨?_, ?_⟩, ?_, by decide, by decide, by decide⟩
  · have : GMap.vals (Libintl.hello.map fun e => (e.key, e)) = Libintl.hello := by decide +kernel
    change List.Perm Libintl.hello (GMap.vals (Libintl.hello.map fun e => (e.key, e)))
    rw [this]
  · simp only [Libintl.hello, List.pairwise_cons, List.mem_cons, List.not_mem_nil, or_false, forall_eq_or_imp, forall_eq, IsEmpty.forall_iff, implies_true,
      and_true, List.Pairwise.nil]
    decide +kernel
  · unfold Fine
    decide

/-- **C123** What has not been translated is in the file too, translated to the empty text: unlike a Go program (C66), a Python program shows
nothing at all for it. -/
theorem C123_untranslated [DecidableEq T] (decode : Str → Str → Option T) (header : Str → Option (Option Str)) (cs : Str) (f : Tr.File)
    (hf : Tr.Consistent f) (es : List Tr.Entry) (hs : Tr.SortedEntry f es) (hlt : (Tr.saveMo es).length < 4294967296)
    (hinj : ∀ a b t, decode cs a = some t → decode cs b = some t → a = b)
    (hok : ∀ e ∈ es, Fine e ∧ 4 ∉ e.ctxt ∧ 4 ∉ e.id)
    (hdec : ∀ e ∈ es, ∀ s, s = Libintl.question e ∨ (e.isPlural = false ∧ s = e.str) ∨ s ∈ e.strN → decode cs s ≠ none)
    (hd : Tr.Entry) (hmem : hd ∈ es) (hd0 : hd.ctxt = [] ∧ hd.isPlural = false ∧ header hd.str = some (some cs))
    (hone : ∀ e ∈ es, e.id = [] ↔ e = hd) (e : Tr.Entry) (he : e ∈ es) (hp : e.isPlural = false) (hc : e.ctxt = []) (he0 : e.str = [])
    (q v : T) (hq : decode cs e.id = some q) (hv : decode cs [] = some v) :
    (parse decode header (Tr.saveMo es)).bind (get · (.plain q)) = some v := by
  obtain ⟨cat, h1, h2⟩ := C123_saved decode header cs f hf es hs hlt hinj hok hdec hd hmem hd0 hone
  rw [h1, Option.bind_some, h2]
  exact ⟨e, he, q, by rw [if_pos hc]; exact hq, .inl ⟨hp, rfl, by rw [he0]; exact hv⟩⟩

example : (parse latin utf8Header (Tr.saveMo [{ str := b!"Language: de\n" }, { id := b!"a" }])).bind (get · (.plain b!"a")) = some [] := by
  decide +kernel

end Verif.Py
