import Verif.Spec.Remarks
import Verif.Props.C92
/-!
# C131: remarks and obsolete messages in PO files
-/
namespace Verif.Tr
open Verif
variable {α : Type}

/-! ## Lookups do not see comments -/

/-- The file without the comments of its entries. -/
def quiet (f : File) : File := { f with entries := f.entries.map fun p => (p.1, plainly p.2) }

theorem quiet_get (m : GMap Entry) (k : Str) : GMap.get? (m.map fun p => (p.1, plainly p.2)) k = (m.get? k).map plainly := by
  induction m with
  | nil => rfl
  | cons p m ih =>
    obtain ⟨k', v⟩ := p
    rw [List.map_cons, GMap.get?, GMap.get?]
    split
    · rfl
    · exact ih

theorem quiet_set (m : GMap Entry) (k : Str) (e : Entry) : (m.set k e).map (fun p => (p.1, plainly p.2)) =
    GMap.set (m.map fun p => (p.1, plainly p.2)) k (plainly e) := by
  induction m with
  | nil => rfl
  | cons p m ih =>
    obtain ⟨k', v⟩ := p
    rw [List.map_cons, GMap.set, GMap.set]
    split
    · rfl
    · rw [List.map_cons, ih]

theorem quiet_initHeader (f : File) : quiet f.initHeader = (quiet f).initHeader := by
  unfold File.initHeader
  cases hh : f.headers with
  | some h => rw [show (quiet f).headers = some h from hh]
  | none =>
    rw [show (quiet f).headers = none from hh]
    dsimp only
    rw [show (quiet f).entries = f.entries.map (fun p => (p.1, plainly p.2)) from rfl, quiet_get]
    cases f.entries.get? (key [] []) <;> rfl

theorem quiet_header (f : File) (k : Str) : (quiet f).getHeader k = ((f.getHeader k).1, quiet (f.getHeader k).2) := by
  unfold File.getHeader
  rw [← quiet_initHeader]
  rfl

theorem quiet_initPlural (f : File) : quiet f.initPlural = (quiet f).initPlural := by
  unfold File.initPlural
  cases hp : f.plural with
  | some p => rw [show (quiet f).plural = some p from hp]
  | none =>
    rw [show (quiet f).plural = none from hp]
    dsimp only
    rw [quiet_header]
    rfl

theorem quiet_add (f : File) (e : Entry) : quiet (f.addEntry e) = (quiet f).addEntry (plainly e) := by
  have hs : quiet { f with entries := f.entries.set e.key e } =
      { quiet f with entries := (quiet f).entries.set (plainly e).key (plainly e) } := by
    unfold quiet
    dsimp only
    rw [quiet_set]
    rfl
  unfold File.addEntry
  dsimp only
  rw [show (plainly e).isHeader = e.isHeader from rfl]
  split
  · rw [quiet_initPlural, quiet_initHeader, hs]
  · exact hs

theorem quiet_fold (es : List Entry) (f : File) : quiet (es.foldl File.addEntry f) = (es.map plainly).foldl File.addEntry (quiet f) := by
  induction es generalizing f with
  | nil => rfl
  | cons e es ih => rw [List.foldl_cons, ih, quiet_add]; rfl

theorem quiet_exec (E : Fmt.Env α) (dg : Plural.Diag) (f : File) (q : Call α) (hq : q.isLookup = true) :
    q.exec E dg (quiet f) = ((q.exec E dg f).1, quiet (q.exec E dg f).2) := by
  have hg : ∀ k, (quiet f).entries.get? k = (f.entries.get? k).map plainly := quiet_get f.entries
  cases q with
  | add e => cases hq
  | header k => simp only [Call.exec, quiet_header]
  | lang => simp only [Call.exec, File.lang, quiet_header]
  | x ctxt id args =>
    simp only [Call.exec, File.x, hg]
    cases f.entries.get? (key ctxt id) <;> rfl
  | xn ctxt id id2 n args =>
    simp only [Call.exec, File.xn, hg]
    cases f.entries.get? (key ctxt id) with
    | none => rfl
    | some e =>
      simp only [Option.map_some]
      rw [show (plainly e).id2 = e.id2 from rfl, show (plainly e).strN = e.strN from rfl, show (plainly e).str = e.str from rfl]
      split
      · rfl
      · rw [← quiet_initPlural]
        rfl

theorem alike_of_quiet {f g : File} (h : quiet f = quiet g) : Alike f g := by
  intro α E dg qs hqs q hq
  have all : ∀ (qs : List (Call α)) (f : File), (∀ q ∈ qs, q.isLookup = true) →
      quiet (execAll E dg f qs) = execAll E dg (quiet f) qs := by
    intro qs
    induction qs with
    | nil => intro f _; rfl
    | cons q qs ih =>
      intro f hqs
      unfold execAll
      rw [List.foldl_cons, List.foldl_cons, quiet_exec E dg f q (hqs q (by simp))]
      exact ih _ fun x hx => hqs x (by simp [hx])
  have one : ∀ f, (q.exec E dg f).1 = (q.exec E dg (quiet f)).1 := fun f => by rw [quiet_exec E dg f q hq]
  rw [one, one (execAll E dg g qs), all qs f hqs, all qs g hqs, h]

/-! ## Remarks in front of a text -/

theorem remarks_field (rs : List Str) (g : List Item) : lastField (rs.map Item.comment ++ g) = lastField g := by
  unfold lastField
  rw [List.filterMap_append, List.filterMap_map, List.filterMap_eq_nil_iff.2 (by simp), List.nil_append]

theorem remarks_forms (rs : List Str) (g : List Item) : numForms (rs.map Item.comment ++ g) = numForms g := by
  unfold numForms
  rw [List.countP_append, List.countP_eq_zero.2 (by simp), Nat.zero_add]

theorem remarks_texts (rs : List Str) (f : Field) (g : List Item) : texts f (rs.map Item.comment ++ g) = texts f g := by
  induction rs with
  | nil => rfl
  | cons r rs ih => exact ih

theorem remarks_entry (rs : List Str) (g : List Item) : plainly (entryOf (rs.map Item.comment ++ g)) = plainly (entryOf g) := by
  simp only [plainly, entryOf, remarks_texts]

theorem parse_remarks (rs : List Str) (h : ∀ l ∈ rs, b!"#" <+: l) : Parse rs [] (rs.map Item.comment) := by
  induction rs using List.reverseRecOn with
  | nil => exact .nil
  | append_singleton rs r ih =>
    obtain ⟨t, ht⟩ := h r (by simp)
    subst ht
    rw [List.map_append]
    refine .same (ih fun l hl => h l (by simp [hl])) (.comment t) ?_
    rw [← List.append_nil (rs.map Item.comment), remarks_field]
    simp [lastField, Starts]

/-- The remarks become comments of the first entry. -/
theorem parse_front (rs : List Str) (h : ∀ l ∈ rs, b!"#" <+: l) {lb gb g} (hb : Parse lb gb g) :
    ∃ gb' g', Parse (rs ++ lb) gb' g' ∧ ((gb = [] ∧ gb' = [] ∧ g' = rs.map Item.comment ++ g) ∨
      ∃ g0 rest, gb = g0 :: rest ∧ gb' = (rs.map Item.comment ++ g0) :: rest ∧ g' = g) := by
  induction hb with
  | nil => exact ⟨[], _, by rw [List.append_nil]; exact parse_remarks rs h, .inl ⟨rfl, rfl, by simp⟩⟩
  | @same ls gs g line x hp hi hs ih =>
    obtain ⟨gb', g', hp', ⟨rfl, rfl, rfl⟩ | ⟨g0, rest, rfl, rfl, rfl⟩⟩ := ih
    · refine ⟨[], _, ?_, .inl ⟨rfl, rfl, rfl⟩⟩
      rw [← List.append_assoc, ← List.append_assoc]
      exact .same hp' (by rw [remarks_forms]; exact hi) (by rw [remarks_field]; exact hs)
    · refine ⟨_, _, ?_, .inr ⟨g0, rest, rfl, rfl, rfl⟩⟩
      rw [← List.append_assoc]
      exact .same hp' hi hs
  | @next ls gs g line x hp hi hs ih =>
    obtain ⟨gb', g', hp', ⟨rfl, rfl, rfl⟩ | ⟨g0, rest, rfl, rfl, rfl⟩⟩ := ih
    · refine ⟨_, _, ?_, .inr ⟨g, [], rfl, rfl, rfl⟩⟩
      rw [← List.append_assoc]
      exact .next hp' hi (by rw [remarks_field]; exact hs)
    · refine ⟨_, _, ?_, .inr ⟨g0, rest ++ [g'], by simp, rfl, rfl⟩⟩
      rw [← List.append_assoc, ← List.cons_append]
      exact .next hp' hi hs

theorem text_front (r b : Str) (hr : Remarks r) (es : List Entry) (hb : PoText b es) :
    ∃ es', PoText (r ++ 10 :: b) es' ∧ es'.map plainly = es.map plainly := by
  obtain ⟨gb, g, hp, rfl⟩ := hb
  obtain ⟨gb', g', hp', hc⟩ := parse_front _ hr hp
  refine ⟨_, ⟨gb', g', by rw [lines_join]; exact hp', rfl⟩, ?_⟩
  rcases hc with ⟨rfl, rfl, rfl⟩ | ⟨g0, rest, rfl, rfl, rfl⟩
  · simp [remarks_entry]
  · simp [remarks_entry]

theorem filter_plainly (es : List Entry) : (es.filter fun e => Translated e).map plainly = (es.map plainly).filter fun e => Translated e := by
  rw [List.filter_map]
  rfl

/-- **C131** Remarks in front of a PO text change no answer. -/
theorem C131_front (r b : Str) (hr : Remarks r) (f : File) (h : readPo b = .ok f) :
    ∃ g, readPo (r ++ 10 :: b) = .ok g ∧ Alike f g := by
  obtain ⟨-, es, hb, rfl⟩ := (C26_ok_iff b f).1 h
  obtain ⟨es', hb', he⟩ := text_front r b hr es hb
  refine ⟨_, (C26_ok_iff _ _).2 ⟨by simp, es', hb', rfl⟩, alike_of_quiet ?_⟩
  rw [quiet_fold, quiet_fold, filter_plainly, filter_plainly, he]

theorem begins_front (r b : Str) (hr : Remarks r) (hb : Begins b) : Begins (r ++ 10 :: b) := by
  intro l hl
  rw [lines_join] at hl
  cases hm : meaningfulLines r with
  | nil => rw [hm] at hl; exact hb l hl
  | cons x xs =>
    rw [hm] at hl
    cases hl
    exact .inl (hr l (by rw [hm]; simp))

/-- **C131** Remarks between two entries of a PO text change no answer. -/
theorem C131_between (a r b : Str) (ha : Finished a) (hr : Remarks r) (hb : Begins b) (fb : File) (h : readPo b = .ok fb) :
    ∃ f g, readPo (a ++ 10 :: b) = .ok f ∧ readPo (a ++ 10 :: (r ++ 10 :: b)) = .ok g ∧ Alike f g := by
  obtain ⟨-, eb, heb, -⟩ := (C26_ok_iff _ fb).1 h
  obtain ⟨ea, hea⟩ : ∃ ea, PoText a ea := by
    obtain ⟨gs, g, hp, -⟩ := ha
    exact ⟨_, gs, g, hp, rfl⟩
  obtain ⟨eb', heb', he⟩ := text_front r b hr eb heb
  obtain ⟨es1, h1, h1'⟩ := text_join a b ea eb hea heb ha hb
  obtain ⟨es2, h2, h2'⟩ := text_join a (r ++ 10 :: b) ea eb' hea heb' ha (begins_front r b hr hb)
  refine ⟨_, _, (C26_ok_iff _ _).2 ⟨by simp, es1, h1, rfl⟩, (C26_ok_iff _ _).2 ⟨by simp, es2, h2, rfl⟩, alike_of_quiet ?_⟩
  rw [quiet_fold, quiet_fold, h1', h2', List.map_append, List.map_append, filter_plainly eb, filter_plainly eb', he]

/-! ## Remarks behind a text -/

theorem remarks_untranslated (rs : List Str) : ¬ Translated (entryOf (rs.map Item.comment)) := by
  have h : ∀ f, texts f (rs.map Item.comment) = [] := fun f => by
    have := remarks_texts rs f []
    rwa [List.append_nil] at this
  simp [Translated, entryOf, h]

theorem fieldless (g : List Item) (h : lastField g = none) (f : Field) : texts f g = [] := by
  unfold lastField at h
  rw [List.getLast?_eq_none_iff, List.filterMap_eq_nil_iff] at h
  induction g with
  | nil => rfl
  | cons x g ih =>
    have ih := ih fun y hy => h y (by simp [hy])
    cases x with
    | field f' d => cases h (.field f' d) (by simp)
    | comment l => exact ih
    | more d => exact ih

theorem parse_behind (rs : List Str) (h : ∀ l ∈ rs, b!"#" <+: l) {la ga g} (ha : Parse la ga g) :
    ∃ ga' g', Parse (la ++ rs) ga' g' ∧
      ((lastField g = none ∧ lastField g' = none ∧ ga' = ga) ∨ (ga' = ga ∧ g' = g) ∨ ∃ cs : List Str, ga' = ga ++ [g] ∧ g' = cs.map Item.comment) := by
  induction rs using List.reverseRecOn with
  | nil => exact ⟨ga, g, by rw [List.append_nil]; exact ha, .inr (.inl ⟨rfl, rfl⟩)⟩
  | append_singleton rs r ih =>
    obtain ⟨t, ht⟩ := h r (by simp)
    subst ht
    have add : ∀ g : List Item, lastField g = none → lastField (g ++ [.comment (35 :: t)]) = none := fun g hg => by
      unfold lastField at hg ⊢
      rw [List.filterMap_append]
      simpa using hg
    have stay : ∀ g : List Item, lastField g = none → ¬ Starts (lastField g) (.comment (35 :: t)) := fun g hg => by
      rw [hg]; simp [Starts]
    obtain ⟨ga', g', hp, ⟨h1, h2, rfl⟩ | ⟨rfl, rfl⟩ | ⟨cs, rfl, rfl⟩⟩ := ih fun l hl => h l (by simp [hl])
    · refine ⟨_, _, ?_, .inl ⟨h1, add _ h2, rfl⟩⟩
      rw [← List.append_assoc]
      exact .same hp (.comment t) (stay _ h2)
    · cases hl : lastField g' with
      | none =>
        refine ⟨_, _, ?_, .inl ⟨rfl, add _ hl, rfl⟩⟩
        rw [← List.append_assoc]
        exact .same hp (.comment t) (stay _ hl)
      | some p =>
        refine ⟨_, _, ?_, .inr (.inr ⟨[35 :: t], rfl, rfl⟩)⟩
        rw [← List.append_assoc]
        exact .next hp (.comment t) (by rw [hl]; trivial)
    · refine ⟨_, _, ?_, .inr (.inr ⟨cs ++ [35 :: t], rfl, by rw [List.map_append, List.map_singleton]⟩)⟩
      rw [← List.append_assoc]
      refine .same hp (.comment t) (stay _ ?_)
      rw [← List.append_nil (cs.map Item.comment), remarks_field]
      rfl

/-- **C131** Remarks behind a PO text leave no trace: the file read is the same. -/
theorem C131_behind (a r : Str) (hr : Remarks r) (f : File) (h : readPo a = .ok f) : readPo (a ++ 10 :: r) = .ok f := by
  obtain ⟨-, es, ⟨ga, g, hp, rfl⟩, rfl⟩ := (C26_ok_iff _ f).1 h
  obtain ⟨ga', g', hp', hc⟩ := parse_behind _ hr hp
  refine (C26_ok_iff _ _).2 ⟨by simp, _, ⟨ga', g', by rw [lines_join]; exact hp', rfl⟩, ?_⟩
  have un : ∀ g, lastField g = none → ¬ Translated (entryOf g) := fun g hg => by simp [Translated, entryOf, fieldless g hg]
  rcases hc with ⟨h1, h2, rfl⟩ | ⟨rfl, rfl⟩ | ⟨cs, rfl, rfl⟩
  · simp [un g h1, un g' h2]
  · rfl
  · rw [List.map_append (l₂ := [cs.map Item.comment]), List.filter_append, List.map_singleton,
      List.filter_cons_of_neg (by simpa using remarks_untranslated cs), List.filter_nil, List.append_nil]

/-- **C131** Obsolete messages are remarks. -/
theorem C131_obsolete (r : Str) (h : Obsolete r) : Remarks r := fun l hl =>
  List.IsPrefix.trans (by exact ⟨[126], rfl⟩) (h l hl)

theorem parse_parted (rs : List Str) (hr : ∀ l ∈ rs, b!"#" <+: l) (hne : rs ≠ []) {la ga g} (ha : Parse la ga g) (hg : lastField g ≠ none) :
    Parse (la ++ rs) (ga ++ [g]) (rs.map Item.comment) := by
  induction rs using List.reverseRecOn with
  | nil => exact absurd rfl hne
  | append_singleton rs r ih =>
    obtain ⟨t, ht⟩ := hr r (by simp)
    subst ht
    rw [← List.append_assoc]
    by_cases hn : rs = []
    · subst hn
      rw [List.append_nil]
      refine .next ha (.comment t) ?_
      cases hl : lastField g with
      | none => exact absurd hl hg
      | some p => trivial
    · rw [List.map_append]
      refine .same (ih (fun l hl => hr l (by simp [hl])) hn) (.comment t) ?_
      rw [← List.append_nil (rs.map Item.comment), remarks_field]
      simp [lastField, Starts]

/-- **C131** A remark between the id and the translation of a message cuts the message in two: the translation is read as that of the
empty id, the header. -/
theorem C131_inside (a r b c q d : Str) (ea ec : List Entry) (ha : EndsInId a ea) (hr : Remarks r) (hne : meaningfulLines r ≠ [])
    (hb : meaningfulLines b = [b!"msgstr " ++ q]) (hq : Quotes q d) (hd : d ≠ []) (hc : PoText c ec) (hbc : Begins c) :
    readPo ((a ++ 10 :: (r ++ 10 :: b)) ++ 10 :: c) =
      .ok (((ea.filter fun e => Translated e) ++ { cmts := meaningfulLines r, str := d } :: ec.filter fun e => Translated e).foldl File.addEntry {}) := by
  obtain ⟨ga, g, h1, hg, rfl⟩ := ha
  have h2 : Parse (meaningfulLines a ++ meaningfulLines r ++ [b!"msgstr " ++ q]) (ga ++ [g]) ((meaningfulLines r).map Item.comment ++ [.field .str d]) := by
    refine .same (parse_parted _ hr hne h1 (by rw [hg]; simp)) (.field .str q d hq) ?_
    rw [← List.append_nil (List.map _ _), remarks_field]
    simp [lastField, Starts]
  have hl : meaningfulLines (a ++ 10 :: (r ++ 10 :: b)) = meaningfulLines a ++ meaningfulLines r ++ [b!"msgstr " ++ q] := by
    rw [lines_join, lines_join, hb, List.append_assoc]
  have hfin : Finished (a ++ 10 :: (r ++ 10 :: b)) := ⟨_, _, by rw [hl]; exact h2, .inl (by rw [remarks_field]; rfl)⟩
  obtain ⟨es, ht, hes⟩ := text_join _ c _ ec ⟨_, _, by rw [hl]; exact h2, rfl⟩ hc hfin hbc
  have he : entryOf ((meaningfulLines r).map Item.comment ++ [.field .str d]) = { cmts := meaningfulLines r, str := d } := by
    have hcm : comments ((meaningfulLines r).map Item.comment ++ [.field .str d]) = meaningfulLines r := by
      unfold comments
      rw [List.filterMap_append, List.filterMap_map]
      simp
    simp only [entryOf, remarks_texts, hcm]
    simp [texts, moreText]
  refine (C26_ok_iff _ _).2 ⟨by simp, es, ht, ?_⟩
  rw [hes, List.map_append (l₁ := ga ++ [g]), List.map_singleton, he, List.filter_append, List.filter_cons_of_pos (by simp [Translated, hd]), List.filter_nil,
    List.append_assoc, List.singleton_append]

/-- A file as `msgmerge` writes it: a previous id in front of a message, an obsolete message at the end. -/
example : Remarks b!"#| msgid \"old\"\n" ∧ Obsolete b!"#~ msgid \"gone\"\n#~ msgstr \"parti\"\n" ∧ Begins b!"msgid \"x\"\nmsgstr \"y\"" ∧
    Finished b!"msgid \"a\"\nmsgstr \"b\"" ∧ ∃ f, readPo b!"msgid \"x\"\nmsgstr \"y\"" = .ok f := by
  refine ⟨by unfold Remarks; decide +kernel, by unfold Obsolete; decide +kernel, ?_, ?_, ?_⟩
  · intro l hl
    rw [show meaningfulLines b!"msgid \"x\"\nmsgstr \"y\"" = [b!"msgid \"x\"", b!"msgstr \"y\""] by decide +kernel] at hl
    cases hl
    exact .inr (.inr (by decide))
  · refine ⟨[], [.field .id b!"a", .field .str b!"b"], ?_, .inl rfl⟩
    rw [show meaningfulLines b!"msgid \"a\"\nmsgstr \"b\"" = [b!"msgid \"a\"", b!"msgstr \"b\""] by decide +kernel]
    exact .same (.same .nil (.field .id b!"\"a\"" _ (by unfold Quotes; decide +kernel)) (by simp [lastField, Starts]))
      (.field .str b!"\"b\"" _ (by unfold Quotes; decide +kernel)) (by simp [lastField, Starts])
  · obtain ⟨f, h, -⟩ := of_okAnd (readPo b!"msgid \"x\"\nmsgstr \"y\"") (fun _ => True) (by decide +kernel)
    exact ⟨f, h⟩

/-- The translation of `a` is lost and `b` taken for the header. -/
example : readPo ((b!"msgid \"a\"" ++ 10 :: (b!"# Note" ++ 10 :: b!"msgstr \"b\"")) ++ 10 :: []) = .ok (File.addEntry {} { cmts := [b!"# Note"], str := b!"b" }) := by
  have h := C131_inside b!"msgid \"a\"" b!"# Note" b!"msgstr \"b\"" [] b!"\"b\"" b!"b" [{ id := b!"a" }] [{}]
    ⟨[], [.field .id b!"a"], by
      rw [show meaningfulLines b!"msgid \"a\"" = [b!"msgid \"a\""] by decide +kernel]
      exact .same .nil (.field .id b!"\"a\"" _ (by unfold Quotes; decide +kernel)) (by simp [lastField, Starts]), rfl, by decide +kernel⟩
    (by unfold Remarks; decide +kernel) (by decide +kernel) (by decide +kernel) (by unfold Quotes; decide +kernel) (by decide)
    ⟨[], [], by rw [show meaningfulLines [] = [] by decide +kernel]; exact .nil, by decide +kernel⟩
    (by intro l hl; rw [show meaningfulLines [] = [] by decide +kernel] at hl; cases hl)
  rw [show meaningfulLines b!"# Note" = [b!"# Note"] by decide +kernel] at h
  exact h

end Verif.Tr
