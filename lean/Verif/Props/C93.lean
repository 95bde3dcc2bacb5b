import Verif.Spec.Cut
import Verif.Props.C91
import Verif.Props.C92
/-! # C93: cut PO texts -/
namespace Verif.Tr
open Verif
set_option linter.unusedSimpArgs false

theorem nil_or_snoc {β : Type} (l : List β) : l = [] ∨ ∃ l' x, l = l' ++ [x] := by
  induction l using List.reverseRecOn with
  | nil => exact .inl rfl
  | append_singleton l x _ => exact .inr ⟨l, x, rfl⟩

/-! Items cut at the end of a line -/

theorem moreText_prefix (g1 g2 : List Item) : moreText g1 <+: moreText (g1 ++ g2) := by
  induction g1 with
  | nil => exact List.nil_prefix
  | cons x g1 ih =>
    cases x with
    | comment l => exact ih
    | more d => simpa [moreText] using ih
    | field f d => exact List.nil_prefix

theorem moreText_same (g1 g2 : List Item) (f : Field) (h : texts f g1 ≠ []) : moreText (g1 ++ g2) = moreText g1 := by
  induction g1 with
  | nil => exact absurd rfl h
  | cons x g1 ih =>
    cases x with
    | comment l => exact ih h
    | more d => simp only [List.cons_append, moreText]; rw [ih h]
    | field f d => rfl

theorem texts_cut (f : Field) (g1 g2 : List Item) : CutList (texts f g1) (texts f (g1 ++ g2)) := by
  induction g1 with
  | nil => exact .nil _
  | cons x g1 ih =>
    cases x with
    | comment l => exact ih
    | more d => exact ih
    | field f' d =>
      simp only [List.cons_append, texts]
      split
      · by_cases h : texts f g1 = []
        · rw [h]
          obtain ⟨r, hr⟩ := moreText_prefix g1 g2
          rw [← hr, ← List.append_assoc]
          exact .last _ _ _
        · rw [moreText_same g1 g2 f h]
          exact .cons _ ih
      · exact ih

theorem cutList_flatten {l' l : List Str} (h : CutList l' l) : l'.flatten <+: l.flatten := by
  induction h with
  | nil l => exact List.nil_prefix
  | last s r l => exact ⟨r ++ l.flatten, by simp⟩
  | cons s _ ih => simpa using ih

theorem entryOf_cut (g1 g2 : List Item) : CutEntry (entryOf g1) (entryOf (g1 ++ g2)) where
  cmts := by simp [entryOf, comments]
  ctxt := cutList_flatten (texts_cut _ _ _)
  id := cutList_flatten (texts_cut _ _ _)
  isPlural := by
    simp only [entryOf, decide_eq_true_eq]
    intro h h'
    have := texts_cut .id2 g1 g2
    rw [h'] at this
    generalize texts .id2 g1 = t at *
    cases this
    exact h rfl
  id2 := cutList_flatten (texts_cut _ _ _)
  str := cutList_flatten (texts_cut _ _ _)
  strN := texts_cut _ _ _

theorem parse_cut {ls gs g} (h : Parse ls gs g) : ∀ l1 l2, ls = l1 ++ l2 →
    ∃ gs1 g1 g2 gs2, Parse l1 gs1 g1 ∧ gs ++ [g] = gs1 ++ (g1 ++ g2) :: gs2 := by
  induction h with
  | nil =>
    intro l1 l2 h
    have : l1 = [] := by simp at h; exact h.1
    subst this
    exact ⟨[], [], [], [], .nil, rfl⟩
  | @same ls gs g line x hp hi hs ih =>
    intro l1 l2 h
    rcases nil_or_snoc l2 with rfl | ⟨l2', y, rfl⟩
    · rw [List.append_nil] at h
      subst h
      exact ⟨gs, g ++ [x], [], [], .same hp hi hs, by simp⟩
    · rw [← List.append_assoc] at h
      obtain ⟨h1, h2⟩ := List.append_inj' h rfl
      obtain ⟨gs1, g1, g2, gs2, hp1, he⟩ := ih l1 l2' h1
      rcases nil_or_snoc gs2 with rfl | ⟨gs2', z, rfl⟩
      · obtain ⟨e1, e2⟩ := List.append_inj' he rfl
        cases e2
        subst e1
        exact ⟨gs, g1, g2 ++ [x], [], hp1, by simp⟩
      · rw [show gs1 ++ (g1 ++ g2) :: (gs2' ++ [z]) = (gs1 ++ (g1 ++ g2) :: gs2') ++ [z] by simp] at he
        obtain ⟨e1, e2⟩ := List.append_inj' he rfl
        subst e1
        exact ⟨gs1, g1, g2, gs2' ++ [g ++ [x]], hp1, by simp⟩
  | @next ls gs g line x hp hi hs ih =>
    intro l1 l2 h
    rcases nil_or_snoc l2 with rfl | ⟨l2', y, rfl⟩
    · rw [List.append_nil] at h
      subst h
      exact ⟨gs ++ [g], [x], [], [], .next hp hi hs, by simp⟩
    · rw [← List.append_assoc] at h
      obtain ⟨h1, h2⟩ := List.append_inj' h rfl
      obtain ⟨gs1, g1, g2, gs2, hp1, he⟩ := ih l1 l2' h1
      exact ⟨gs1, g1, g2, gs2 ++ [[x]], hp1, by rw [he]; simp⟩

/-- **C93** A PO text cut at the end of a line is read, as the entries before the cut and what is left
of the entry in which it is. -/
theorem C93_line_end (a b : Str) (f : File) (h : readPo (a ++ 10 :: b) = .ok f) (ha : a ≠ []) :
    (∃ f', readPo a = .ok f') ∧ ∃ es e e' post, PoText (a ++ 10 :: b) (es ++ e :: post) ∧
      PoText a (es ++ [e']) ∧ CutEntry e' e := by
  obtain ⟨-, es, ⟨gs, g, hp, -⟩, -⟩ := (C26_ok_iff _ _).mp h
  have hp0 := hp
  rw [lines_join] at hp
  obtain ⟨gs1, g1, g2, gs2, hp1, he⟩ := parse_cut hp _ _ rfl
  refine ⟨⟨_, (C26_ok_iff a _).mpr ⟨ha, _, ⟨gs1, g1, hp1, rfl⟩, rfl⟩⟩, gs1.map entryOf, entryOf (g1 ++ g2), entryOf g1,
    gs2.map entryOf, ⟨gs, g, hp0, ?_⟩, ⟨gs1, g1, hp1, by simp⟩, entryOf_cut g1 g2⟩
  rw [he]
  simp

/-! Lines cut inside -/

theorem white_free : ∀ r ∈ GoStr.whiteSpace, ∀ r' ∈ GoStr.whiteSpace, r <+: r' → r = r' := by decide +kernel

theorem white_quoteless : ∀ r ∈ GoStr.whiteSpace, ∀ c ∈ ([34, 39, 96] : Str), c ∉ r := by decide +kernel

theorem white_no_quote {w : Str} (h : GoStr.White w) : ∀ c ∈ ([34, 39, 96] : Str), c ∉ w := by
  obtain ⟨rs, hrs, rfl⟩ := h
  intro c hc hm
  obtain ⟨r, hr, hcr⟩ := List.mem_flatten.mp hm
  exact white_quoteless r (hrs r hr) c hc hcr

theorem white_rest {u v : Str} (hu : GoStr.White u) (huv : GoStr.White (u ++ v)) : GoStr.White v := by
  obtain ⟨rs, hrs, rfl⟩ := hu
  induction rs with
  | nil => simpa using huv
  | cons r rs ih =>
    obtain ⟨rs', hrs', he⟩ := huv
    apply ih (fun x hx => hrs x (by simp [hx]))
    cases rs' with
    | nil =>
      exfalso
      have : r = [] := by
        simp only [List.flatten_cons, List.flatten_nil, List.append_eq_nil_iff] at he
        exact he.1.1
      exact GoStr.white_ne_nil r (hrs r (by simp)) this
    | cons r' rs' =>
      simp only [List.flatten_cons, List.append_assoc] at he
      have hr := hrs r (by simp)
      have hr' := hrs' r' (by simp)
      have heq : r = r' := by
        rcases List.append_eq_append_iff.mp he with ⟨x, h1, _⟩ | ⟨x, h1, _⟩
        · exact white_free r hr r' hr' ⟨x, h1.symm⟩
        · exact (white_free r' hr' r hr ⟨x, h1.symm⟩).symm
      subst heq
      have := List.append_cancel_left he
      exact ⟨rs', fun x hx => hrs' x (by simp [hx]), by rw [this]⟩

open Literal in
/-- No quoted string is the beginning of another. -/
theorem literal_free {lit' lit d' d u : Str} (h' : Literal lit' d') (h : Literal lit d) (he : lit = lit' ++ u) :
    u = [] := by
  cases h' with
  | @interpreted t' d' hb' =>
    cases h with
    | @interpreted t d hb =>
      simp only [List.cons_append, List.append_assoc, List.cons.injEq, true_and] at he
      have e1 := (loop_iff _ (t ++ [34]) d [] (Nat.le_refl _)).mpr ⟨t, rfl, hb⟩
      have e2 := (loop_iff _ (t ++ [34]) d' u (Nat.le_refl _)).mpr ⟨t', by simpa using he, hb'⟩
      rw [e1] at e2
      cases e2; rfl
    | character => simp at he
    | noCharacter => simp at he
    | raw => simp at he
  | @character t' d' ho' =>
    have hx' : ∀ r, OneChar 39 t' (39 :: r) d' := fun r => (oneChar_ext (q := 39) (.inr rfl) (s := []) r).mpr ho'
    cases h with
    | @character t d ho =>
      simp only [List.cons_append, List.append_assoc, List.cons.injEq, true_and] at he
      have e1 := (charStep_iff 39 (.inr rfl) (t ++ [39]) d [39]).mpr
        ⟨t, rfl, (oneChar_ext (q := 39) (.inr rfl) (s := []) []).mpr ho⟩
      have e2 := (charStep_iff 39 (.inr rfl) (t ++ [39]) d' (39 :: u)).mpr ⟨t', by simpa using he, hx' u⟩
      rw [e1] at e2
      cases e2; rfl
    | noCharacter =>
      exfalso
      obtain ⟨c, v, rfl, hc, -⟩ := oneChar_head (.inr rfl) ho'
      simp only [List.cons_append, List.cons.injEq, true_and] at he
      exact hc he.1.symm
    | interpreted => simp at he
    | raw => simp at he
  | noCharacter =>
    cases h with
    | @character t d ho =>
      exfalso
      obtain ⟨c, v, rfl, hc, -⟩ := oneChar_head (.inr rfl) ho
      simp only [List.cons_append, List.cons.injEq, true_and] at he
      exact hc he.1
    | noCharacter => simpa using he
    | interpreted => simp at he
    | raw => simp at he
  | @raw t' hn' =>
    cases h with
    | @raw t hn =>
      simp only [List.cons_append, List.append_assoc, List.cons.injEq, true_and] at he
      exact (GoStr.first_occurrence 96 t t' [] u hn hn' (by simpa using he)).2.symm
    | interpreted => simp at he
    | character => simp at he
    | noCharacter => simp at he

theorem first_quote {w w' x x' : Str} {c c' : UInt8} (hc : c ∈ ([34, 39, 96] : Str)) (hc' : c' ∈ ([34, 39, 96] : Str))
    (hw : ∀ c ∈ ([34, 39, 96] : Str), c ∉ w) (hw' : ∀ c ∈ ([34, 39, 96] : Str), c ∉ w')
    (he : w ++ c :: x = w' ++ c' :: x') : w = w' := by
  rcases List.append_eq_append_iff.mp he with ⟨y, h1, h2⟩ | ⟨y, h1, h2⟩
  · cases y with
    | nil => simpa using h1.symm
    | cons z y =>
      exfalso
      simp only [List.cons_append, List.cons.injEq] at h2
      exact hw' c hc (by rw [h1, h2.1]; simp)
  · cases y with
    | nil => simpa using h1
    | cons z y =>
      exfalso
      simp only [List.cons_append, List.cons.injEq] at h2
      exact hw c' hc' (by rw [h1, h2.1]; simp)

open Literal in
/-- If a spaced quoted string begins another, the rest is white space. -/
theorem spaced_rest {q' q d' d u : Str} (h' : Spaced q' d') (h : Spaced q d) (he : q = q' ++ u) : GoStr.White u := by
  obtain ⟨w1', lit', w2', hw1', hw2', rfl, hl'⟩ := h'
  obtain ⟨w1, lit, w2, hw1, hw2, hq, hl⟩ := h
  rw [hq] at he
  obtain ⟨c, hc, hh, -⟩ := literal_ends hl
  obtain ⟨c', hc', hh', hlast'⟩ := literal_ends hl'
  have e1 : w1 = w1' := by
    obtain ⟨x, hx⟩ : ∃ x, lit = c :: x := by
      cases lit with
      | nil => cases hh
      | cons y x => cases hh; exact ⟨x, rfl⟩
    obtain ⟨x', hx'⟩ : ∃ x', lit' = c' :: x' := by
      cases lit' with
      | nil => cases hh'
      | cons y x => cases hh'; exact ⟨x, rfl⟩
    rw [hx, hx'] at he
    simp only [List.append_assoc, List.cons_append] at he
    exact first_quote hc hc' (white_no_quote hw1) (white_no_quote hw1') he
  subst e1
  simp only [List.append_assoc, List.append_cancel_left_eq] at he
  rcases List.append_eq_append_iff.mp he with ⟨y, h1, h2⟩ | ⟨y, h1, h2⟩
  · -- lit' = lit ++ y
    have hy : y = [] := by
      rcases nil_or_snoc y with rfl | ⟨y', z, rfl⟩
      · rfl
      · exfalso
        rw [h1, ← List.append_assoc, List.getLast?_append] at hlast'
        have hz : z = c' := by simpa using hlast'
        subst hz
        exact white_no_quote hw2 z hc' (by rw [h2]; simp)
    subst hy
    simp only [List.nil_append] at h2
    exact white_rest hw2' (by rw [← h2]; exact hw2)
  · have hy := literal_free hl' hl h1
    subst hy
    simp only [List.nil_append] at h2
    exact white_rest hw2' (by rw [h2]; exact hw2)

/-- Two lines one of which begins the other: if both are fields or continuations, the rest is white
space. -/
theorem item_rest {n m : Nat} {l' l u : Str} {x' x : Item} (h' : IsItem n l' x') (h : IsItem m l x) (he : l = l' ++ u)
    (hc : ¬ b!"#" <+: l') : GoStr.White u := by
  cases h' with
  | comment t => exact absurd ⟨t, rfl⟩ hc
  | more t' d' hq' =>
    generalize hl : l = l0 at h
    cases h with
    | comment => rw [he] at hl; cases hl
    | field f q d hq => obtain ⟨t', ht⟩ := word_head m f; rw [ht, he] at hl; cases hl
    | more t d hq =>
      exact spaced_rest ((Literal.C91_quotes _ _).mp hq') ((Literal.C91_quotes _ _).mp hq) (by rw [← hl, he])
  | field f' q' d' hq' =>
    generalize hl : l = l0 at h
    cases h with
    | comment => obtain ⟨t', ht⟩ := word_head n f'; rw [he, ht] at hl; cases hl
    | more => obtain ⟨t', ht⟩ := word_head n f'; rw [he, ht] at hl; cases hl
    | field f q d hq =>
      rw [he, List.append_assoc, List.cons_append] at hl
      obtain ⟨-, h2⟩ := word_inj _ _ _ _ _ _ hl
      exact spaced_rest ((Literal.C91_quotes _ _).mp hq') ((Literal.C91_quotes _ _).mp hq) h2.symm

theorem parse_items {ls gs g} (h : Parse ls gs g) : ∀ l ∈ ls, ∃ n x, IsItem n l x := by
  induction h with
  | nil => simp
  | same _ hi _ ih =>
    intro l hl
    rcases List.mem_append.mp hl with hl | hl
    · exact ih l hl
    · cases List.mem_singleton.mp hl; exact ⟨_, _, hi⟩
  | next _ hi _ ih =>
    intro l hl
    rcases List.mem_append.mp hl with hl | hl
    · exact ih l hl
    · cases List.mem_singleton.mp hl; exact ⟨_, _, hi⟩

theorem single_line (s : Str) (h : 10 ∉ s) (hb : ¬ Blank (s.filter (· != 13))) :
    meaningfulLines s = [s.filter (· != 13)] := by
  unfold meaningfulLines
  rw [GoStr.splitByte_no_sep 10 _ (fun hm => h (List.mem_of_mem_filter hm)), List.filter_cons_of_pos (by simpa using hb)]
  rfl

theorem blank_white {s : Str} (h : Blank s) : GoStr.White s := by
  obtain ⟨w1, w2, ⟨r1, h1, e1⟩, ⟨r2, h2, e2⟩, he, -⟩ := GoStr.trims_trimSpace s
  rw [h] at he
  refine ⟨r1 ++ r2, ?_, by rw [he, e1, e2]; simp⟩
  intro r hr
  rcases List.mem_append.mp hr with hr | hr
  · exact h1 r hr
  · exact h2 r hr

theorem white_heads : ∀ r ∈ GoStr.whiteSpace, ∀ c ∈ ([35, 109, 34] : Str), r.head? ≠ some c := by decide +kernel

theorem white_no_item {n : Nat} {s u : Str} {x : Item} (h : GoStr.White (s ++ u)) (hx : IsItem n s x) : False := by
  obtain ⟨c, hc, hh⟩ : ∃ c ∈ ([35, 109, 34] : Str), s.head? = some c := by
    cases hx with
    | comment t => exact ⟨35, by simp, rfl⟩
    | more t d hq => exact ⟨34, by simp, rfl⟩
    | field f q d hq =>
      obtain ⟨t', ht⟩ := word_head n f
      exact ⟨109, by simp, by rw [ht]; rfl⟩
  obtain ⟨rs, hrs, he⟩ := h
  cases s with
  | nil => cases hh
  | cons y s =>
    cases hh
    cases rs with
    | nil => cases he
    | cons r rs =>
      cases r with
      | nil => exact GoStr.white_ne_nil [] (hrs [] (by simp)) rfl
      | cons z r =>
        simp only [List.flatten_cons, List.cons_append, List.cons.injEq] at he
        exact white_heads _ (hrs (z :: r) (by simp)) c hc (by rw [he.1]; rfl)

/-- **C93** A PO text cut inside a line that is no comment, before the white space at its end, is
refused. -/
theorem C93_torn (a l1 l2 b : Str) (f : File) (h : readPo (a ++ 10 :: (l1 ++ l2 ++ b)) = .ok f)
    (h1 : 10 ∉ l1) (h2 : 10 ∉ l2) (hb : b = [] ∨ b.head? = some 10) (ht : Torn l1 l2) :
    readPo (a ++ 10 :: l1) = .err := by
  obtain ⟨hb1, hc1, hw2⟩ := ht
  rw [C26_error_iff]
  right
  obtain ⟨-, es, ⟨gs, g, hp, -⟩, -⟩ := (C26_ok_iff _ _).mp h
  have h12 : 10 ∉ l1 ++ l2 := by simp [h1, h2]
  have hno : ∀ n x, ¬ IsItem n (l1.filter (· != 13)) x := by
    intro n x hx
    by_cases hnb : Blank ((l1 ++ l2).filter (· != 13))
    · have := blank_white hnb
      rw [List.filter_append] at this
      exact white_no_item this hx
    · have hm : (l1 ++ l2).filter (· != 13) ∈ meaningfulLines (a ++ 10 :: (l1 ++ l2 ++ b)) := by
        rw [lines_join, List.mem_append]
        right
        rcases hb with rfl | hb
        · rw [List.append_nil, single_line _ h12 hnb]; simp
        · obtain ⟨b', rfl⟩ : ∃ b', b = 10 :: b' := by
            cases b with
            | nil => cases hb
            | cons y b' => cases hb; exact ⟨b', rfl⟩
          rw [lines_join, single_line _ h12 hnb]; simp
      obtain ⟨m, y, hy⟩ := parse_items hp _ hm
      exact hw2 (item_rest hx hy (List.filter_append ..) hc1)
  obtain ⟨gs1, g1, _, _, hp1, -⟩ := parse_cut hp (meaningfulLines a) _ (lines_join a _)
  refine ⟨meaningfulLines a, l1.filter (· != 13), [], gs1, g1, ?_, hp1, fun x hx => absurd hx (hno _ x), fun x hx => absurd hx (hno _ x)⟩
  rw [lines_join, single_line l1 h1 hb1]

/-- A text with a plural message. -/
def cutSample : Str := b!"msgid \"\"\nmsgstr \"Plural-Forms: nplurals=2; plural=n>1;\\n\"\n\nmsgid \"one\"\nmsgid_plural \"many\"\nmsgstr[0] \"un\"\nmsgstr[1] \"des\"\n"

/-- The same, cut behind the first plural form. -/
def cutEarly : Str := b!"msgid \"\"\nmsgstr \"Plural-Forms: nplurals=2; plural=n>1;\\n\"\n\nmsgid \"one\"\nmsgid_plural \"many\"\nmsgstr[0] \"un\""

example : cutSample = cutEarly ++ 10 :: b!"msgstr[1] \"des\"\n" := by decide

/-- What is read of them. -/
def cutFile (forms : List Str) : File where
  entries := [(key [] [], { str := b!"Plural-Forms: nplurals=2; plural=n>1;\n" }),
    (key [] b!"one", { id := b!"one", isPlural := true, id2 := b!"many", strN := forms })]
  headers := some [(b!"Plural-Forms", b!"nplurals=2; plural=n>1;")]
  plural := some { totalForms := 2, expr := some b!"n>1" }

/-- **C93** A text cut between the plural forms of a message is read, and then a lookup of the message
panics that did not before. -/
theorem C93_hazard {α : Type} (E : Fmt.Env α) : ∃ f f', readPo cutSample = .ok f ∧ readPo cutEarly = .ok f' ∧
    (f.xn E (fun _ => false) [] b!"one" b!"many" 2 []).1 = .ok b!"des" ∧
    (f'.xn E (fun _ => false) [] b!"one" b!"many" 2 []).1 = .panic := by
  refine ⟨cutFile [b!"un", b!"des"], cutFile [b!"un"], by decide +kernel, by decide +kernel, ?_, ?_⟩ <;> rfl

/-- A cut inside a quoted string, and one inside a keyword. -/
example : Torn b!"msgstr \"b" b!"c\"" ∧ Torn b!"msg" b!"str \"bc\"" := by
  have hw : ∀ s, (∃ c ∈ s, (c : UInt8) ∈ ([34, 39, 96] : Str)) → ¬ GoStr.White s :=
    fun s ⟨c, h1, h2⟩ h => white_no_quote h c h2 h1
  exact ⟨⟨by decide, by decide, hw _ ⟨34, by decide, by decide⟩⟩, by decide, by decide, hw _ ⟨34, by decide, by decide⟩⟩

end Verif.Tr
