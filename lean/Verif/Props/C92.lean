import Verif.Spec.Joined
import Verif.Props.C22_C26
/-! # C92: joined PO texts -/
namespace Verif.Tr
open Verif
set_option linter.unusedSimpArgs false

theorem split_join (a b : Str) : GoStr.splitByte 10 (a ++ 10 :: b) = GoStr.splitByte 10 a ++ GoStr.splitByte 10 b := by
  have h := GoStr.intercalate_splitByte 10 a
  have hn := GoStr.splitByte_not_mem 10 a
  have h0 := GoStr.splitByte_ne_nil 10 a
  generalize hg : GoStr.splitByte 10 a = la at *
  subst h
  clear hg
  induction la with
  | nil => exact absurd rfl h0
  | cons x la ih =>
    cases la with
    | nil =>
      rw [GoStr.intercalate_single, GoStr.splitByte_append_sep 10 _ _ (hn x (by simp))]
      rfl
    | cons y la =>
      rw [GoStr.intercalate_cons_cons]
      have := ih (fun l hl => hn l (by simp [hl])) (by simp)
      have hx := hn x (by simp)
      simp only [List.append_assoc, List.cons_append, List.nil_append] at this ⊢
      rw [GoStr.splitByte_append_sep 10 _ _ hx, this]

theorem lines_join (a b : Str) : meaningfulLines (a ++ 10 :: b) = meaningfulLines a ++ meaningfulLines b := by
  unfold meaningfulLines
  rw [List.filter_append, List.filter_cons_of_pos (by decide), split_join, List.filter_append]

theorem parse_nil {gs g} (h : Parse [] gs g) : gs = [] ∧ g = [] := by
  generalize hl : ([] : List Str) = ls at h
  cases h with
  | nil => exact ⟨rfl, rfl⟩
  | same => simp at hl
  | next => simp at hl

theorem begins_starts (n : Nat) (line : Str) (x : Item) (hx : IsItem n line x) (p : Field) (hp : p = .str ∨ p = .form)
    (h : b!"#" <+: line ∨ b!"msgctxt " <+: line ∨ b!"msgid " <+: line) : Starts (some p) x := by
  cases hx with
  | comment t => trivial
  | more t d hq =>
    exfalso
    rcases h with ⟨u, h⟩ | ⟨u, h⟩ | ⟨u, h⟩ <;> cases h
  | field f q d hq =>
    have hw : ∀ f' : Field, (f' = .ctxt ∨ f' = .id) → (f'.word n ++ [32]) <+: f.word n ++ 32 :: q → f = f' := by
      rintro f' - ⟨u, hu⟩
      rw [List.append_assoc] at hu
      exact ((word_inj n n f' f u q hu).1).symm
    rcases h with ⟨u, h⟩ | h | h
    · obtain ⟨t', ht⟩ := word_head n f; rw [ht] at h; cases h
    · have := hw .ctxt (.inl rfl) h
      subst this
      trivial
    · have := hw .id (.inr rfl) h
      subst this
      rcases hp with rfl | rfl <;> simp [Starts]

theorem parse_join {la ga g} (ha : Parse la ga g) (hg : lastField g = some .str ∨ lastField g = some .form)
    {lb gb g'} (hb : Parse lb gb g')
    (hh : ∀ l, lb.head? = some l → b!"#" <+: l ∨ b!"msgctxt " <+: l ∨ b!"msgid " <+: l) (hne : lb ≠ []) :
    Parse (la ++ lb) (ga ++ g :: gb) g' := by
  induction hb with
  | nil => exact absurd rfl hne
  | @same ls gs g1 line x hp hi hs ih =>
    cases ls with
    | nil =>
      obtain ⟨rfl, rfl⟩ := parse_nil hp
      have hst : Starts (lastField g) x := by
        rcases hg with h | h
        · rw [h]; exact begins_starts _ line x hi _ (.inl rfl) (hh line rfl)
        · rw [h]; exact begins_starts _ line x hi _ (.inr rfl) (hh line rfl)
      exact .next ha hi hst
    | cons y ls =>
      have := ih (fun l hl => hh l (by simpa using hl)) (by simp)
      rw [← List.append_assoc]
      exact .same this hi hs
  | @next ls gs g1 line x hp hi hs ih =>
    cases ls with
    | nil =>
      obtain ⟨rfl, rfl⟩ := parse_nil hp
      exact absurd hs (by simp [Starts, lastField])
    | cons y ls =>
      have := ih (fun l hl => hh l (by simpa using hl)) (by simp)
      rw [← List.append_assoc]
      have h2 := Parse.next this hi hs
      rw [show ga ++ g :: gs ++ [g1] = ga ++ g :: (gs ++ [g1]) by simp] at h2
      exact h2

/-- The translated entries of a joined text. -/
theorem text_join (a b : Str) (ea eb : List Entry) (ha : PoText a ea) (hb : PoText b eb) (hf : Finished a)
    (hs : Begins b) : ∃ es, PoText (a ++ 10 :: b) es ∧
      es.filter (fun e => Translated e) = ea.filter (fun e => Translated e) ++ eb.filter (fun e => Translated e) := by
  obtain ⟨ga, g, hp, hg⟩ := hf
  have : ea = (ga ++ [g]).map entryOf := text_unique a _ _ ha ⟨ga, g, hp, rfl⟩
  subst this
  obtain ⟨gb, g', hp', rfl⟩ := hb
  by_cases hne : meaningfulLines b = []
  · rw [hne] at hp'
    obtain ⟨rfl, rfl⟩ := parse_nil hp'
    refine ⟨_, ⟨ga, g, by rw [lines_join, hne, List.append_nil]; exact hp, rfl⟩, ?_⟩
    simp [entryOf, texts, Translated]
  · refine ⟨_, ⟨_, _, by rw [lines_join]; exact parse_join hp hg hp' hs hne, rfl⟩, ?_⟩
    rw [← List.filter_append, ← List.map_append]
    simp

theorem initPlural_some (f : File) (p : Plural) (h : f.plural = some p) : f.initPlural = f := by
  unfold File.initPlural; rw [h]

theorem addEntry_frozen (f : File) (e : Entry) (h : GMap Str) (p : Plural) (hh : f.headers = some h) (hp : f.plural = some p) :
    (f.addEntry e).headers = some h ∧ (f.addEntry e).plural = some p := by
  unfold File.addEntry
  dsimp only
  split
  · rw [initHeader_of_some _ h (by exact hh), initPlural_some _ p (by exact hp)]
    exact ⟨hh, hp⟩
  · exact ⟨hh, hp⟩

theorem foldl_frozen (es : List Entry) (f : File) (h : GMap Str) (p : Plural) (hh : f.headers = some h) (hp : f.plural = some p) :
    (es.foldl File.addEntry f).headers = some h ∧ (es.foldl File.addEntry f).plural = some p := by
  induction es generalizing f with
  | nil => exact ⟨hh, hp⟩
  | cons e es ih =>
    obtain ⟨h1, h2⟩ := addEntry_frozen f e h p hh hp
    exact ih _ h1 h2

theorem addEntry_header (f : File) (e : Entry) (he : e.id = []) :
    (f.addEntry e).headers.isSome ∧ (f.addEntry e).plural.isSome := by
  unfold File.addEntry
  dsimp only
  rw [if_pos (by simp [Entry.isHeader, he])]
  generalize { f with entries := f.entries.set e.key e } = f1
  have hh := initHeader_headers f1
  constructor
  · rw [initPlural_headers' _ _ hh]; rfl
  · unfold File.initPlural
    cases hp : f1.initHeader.plural with
    | none => rfl
    | some p => simp [hp]

theorem foldl_headed (es : List Entry) (f : File) (h : ∃ e ∈ es, e.id = []) :
    (es.foldl File.addEntry f).headers.isSome ∧ (es.foldl File.addEntry f).plural.isSome := by
  obtain ⟨e, he, hid⟩ := h
  obtain ⟨pre, post, rfl⟩ := List.append_of_mem he
  rw [List.foldl_append, List.foldl_cons]
  obtain ⟨h1, h2⟩ := addEntry_header (pre.foldl File.addEntry f) e hid
  obtain ⟨hh, h1⟩ := Option.isSome_iff_exists.mp h1
  obtain ⟨p, h2⟩ := Option.isSome_iff_exists.mp h2
  obtain ⟨h3, h4⟩ := foldl_frozen post _ hh p h1 h2
  rw [h3, h4]
  exact ⟨rfl, rfl⟩

theorem foldl_unheaded (es : List Entry) (f : File) (h : ∀ e ∈ es, e.id ≠ []) :
    (es.foldl File.addEntry f).headers = f.headers ∧ (es.foldl File.addEntry f).plural = f.plural := by
  induction es generalizing f with
  | nil => exact ⟨rfl, rfl⟩
  | cons e es ih =>
    rw [List.foldl_cons]
    have := ih (f.addEntry e) (fun x hx => h x (by simp [hx]))
    have he : f.addEntry e = { f with entries := f.entries.set e.key e } := by
      unfold File.addEntry
      simp [Entry.isHeader, h e (by simp)]
    rw [this.1, this.2, he]
    exact ⟨rfl, rfl⟩

theorem key_nil (e : Entry) (h : e.key = key [] []) : e.id = [] := by
  unfold Entry.key key at h
  have := congrArg List.length h
  simp at this
  exact List.eq_nil_of_length_eq_zero (by omega)

/-- Two files agree on what the headers depend on. -/
def SameHead (f g : File) : Prop :=
  f.headers = g.headers ∧ f.plural = g.plural ∧ f.entries.get? (key [] []) = g.entries.get? (key [] [])

theorem initHeader_same {f g : File} (h : SameHead f g) : SameHead f.initHeader g.initHeader := by
  obtain ⟨h1, h2, h3⟩ := h
  unfold File.initHeader
  rw [h1, h3]
  cases g.headers with
  | some x => exact ⟨h1, h2, h3⟩
  | none =>
    cases g.entries.get? (key [] []) with
    | none => exact ⟨rfl, h2, h3⟩
    | some e => exact ⟨rfl, h2, h3⟩

theorem initPlural_same {f g : File} (h : SameHead f g) : SameHead f.initPlural g.initPlural := by
  have hi := initHeader_same h
  unfold File.initPlural
  rw [h.2.1]
  cases g.plural with
  | some x => exact h
  | none =>
    refine ⟨hi.1, ?_, hi.2.2⟩
    simp only [File.getHeader]
    rw [hi.1]

theorem addEntry_same {f g : File} (h : SameHead f g) (e : Entry) : SameHead (f.addEntry e) (g.addEntry e) := by
  have h0 : SameHead { f with entries := f.entries.set e.key e } { g with entries := g.entries.set e.key e } := by
    refine ⟨h.1, h.2.1, ?_⟩
    show (f.entries.set e.key e).get? _ = (g.entries.set e.key e).get? _
    rw [GMap.get?_set, GMap.get?_set, h.2.2]
  unfold File.addEntry
  dsimp only
  split
  · exact initPlural_same (initHeader_same h0)
  · exact h0

theorem foldl_same (es : List Entry) {f g : File} (h : SameHead f g) :
    SameHead (es.foldl File.addEntry f) (es.foldl File.addEntry g) := by
  induction es generalizing f g with
  | nil => exact h
  | cons e es ih => exact ih (addEntry_same h e)

theorem unheaded_same (es : List Entry) (h : ∀ e ∈ es, e.id ≠ []) : SameHead (es.foldl File.addEntry {}) {} := by
  obtain ⟨h1, h2⟩ := foldl_unheaded es {} h
  refine ⟨h1, h2, ?_⟩
  rw [foldl_addEntry_entries]
  have : es.filter (fun e => e.key = key [] []) = [] := by
    rw [List.filter_eq_nil_iff]
    intro e he
    simp only [decide_eq_true_eq]
    exact fun hk => h e he (key_nil e hk)
  rw [this]
  rfl

theorem heads_same {f g : File} (h : SameHead f g) (k : Str) : (f.getHeader k).1 = (g.getHeader k).1 := by
  simp only [File.getHeader]
  rw [(initHeader_same h).1]

/-- The rule a plural lookup uses. -/
def File.usedRule (f : File) : Option Plural := f.initPlural.plural

theorem rule_same {f g : File} (h : SameHead f g) : f.usedRule = g.usedRule := (initPlural_same h).2.1

/-- The rule is that of the Plural-Forms field. -/
def RuleInv (f : File) : Prop :=
  f.plural = none ∨ f.plural = some (parsePlural ((f.getHeader hPluralForms).1.getD []))
    ∧ f.headers.isSome

theorem getHeader_initHeader (f : File) (k : Str) : (f.initHeader.getHeader k).1 = (f.getHeader k).1 := by
  simp only [File.getHeader]
  rw [initHeader_idem]

theorem initPlural_inv (f : File) (h : RuleInv f) :
    f.initPlural.plural = some (parsePlural ((f.getHeader hPluralForms).1.getD [])) := by
  rcases h with h | h
  · unfold File.initPlural
    rw [h]
  · rw [initPlural_some _ _ h.1]; exact h.1

theorem foldl_rule (es : List Entry) : RuleInv (es.foldl File.addEntry {}) := by
  induction es using List.reverseRecOn with
  | nil => exact .inl rfl
  | append_singleton es e ih =>
    rw [List.foldl_append, List.foldl_cons, List.foldl_nil]
    generalize es.foldl File.addEntry {} = f at *
    by_cases he : e.id = []
    · right
      have hs := addEntry_header f e he
      refine ⟨?_, hs.1⟩
      rcases ih with h | ⟨h, hh⟩
      · unfold File.addEntry
        dsimp only
        rw [if_pos (by simp [Entry.isHeader, he])]
        generalize hf1 : ({ f with entries := f.entries.set e.key e } : File).initHeader = f1
        have hp : f1.plural = none := by
          rw [← hf1]
          unfold File.initHeader
          split
          · exact h
          · split <;> exact h
        have hi : ∀ k, (f1.initPlural.getHeader k).1 = (f1.getHeader k).1 := by
          intro k
          have : f1.initPlural.headers = some f1.heads := initPlural_headers f1 hp
          rw [getHeader_eq, getHeader_eq, heads_of_some _ _ this]
        rw [hi, initPlural_inv f1 (.inl hp)]
      · obtain ⟨x, hx⟩ := Option.isSome_iff_exists.mp hh
        obtain ⟨g1, g2⟩ := addEntry_frozen f e x _ hx h
        rw [g2, getHeader_eq, getHeader_eq, heads_of_some _ _ g1, heads_of_some _ _ hx]
    · have hadd : f.addEntry e = { f with entries := f.entries.set e.key e } := by
        unfold File.addEntry
        simp [Entry.isHeader, he]
      rw [hadd]
      rcases ih with h | ⟨h, hh⟩
      · exact .inl h
      · right
        refine ⟨?_, hh⟩
        obtain ⟨x, hx⟩ := Option.isSome_iff_exists.mp hh
        refine h.trans ?_
        rw [getHeader_eq, getHeader_eq, heads_of_some f x hx,
          heads_of_some { f with entries := f.entries.set e.key e } x hx]

theorem xn_eq {α : Type} (E : Fmt.Env α) (dg : Plural.Diag) (f g : File) (ctxt id id2 : Str) (n : Int64) (args : List α)
    (h1 : f.entries.get? (key ctxt id) = g.entries.get? (key ctxt id)) (h2 : f.usedRule = g.usedRule) :
    (f.xn E dg ctxt id id2 n args).1 = (g.xn E dg ctxt id id2 n args).1 := by
  unfold File.xn
  rw [h1]
  cases g.entries.get? (key ctxt id) with
  | none => rfl
  | some e =>
    dsimp only
    split
    · rfl
    · have : f.initPlural.plural = g.initPlural.plural := h2
      dsimp only
      rw [this]

/-- **C92** A PO text written behind another is read as both together: of two translations of one
message the later counts, the header fields are those of the first text if that has any entry with an
empty id, and otherwise those of the second. -/
theorem C92_joined (a b : Str) (fa fb : File) (ha : readPo a = .ok fa) (hb : readPo b = .ok fb)
    (hf : Finished a) (hs : Begins b) : ∃ f, readPo (a ++ 10 :: b) = .ok f ∧
      (∀ k, f.entries.get? k = (fb.entries.get? k).or (fa.entries.get? k)) ∧
      (Headed a → ∀ k, (f.getHeader k).1 = (fa.getHeader k).1) ∧
      (¬ Headed a → ∀ k, (f.getHeader k).1 = (fb.getHeader k).1) := by
  obtain ⟨hca, ea, hta, rfl⟩ := (C26_ok_iff a fa).mp ha
  obtain ⟨hcb, eb, htb, rfl⟩ := (C26_ok_iff b fb).mp hb
  obtain ⟨es, htx, hes⟩ := text_join a b ea eb hta htb hf hs
  refine ⟨_, (C26_ok_iff _ _).mpr ⟨by simp, es, htx, rfl⟩, ?_, ?_, ?_⟩
  · intro k
    rw [hes, List.foldl_append, foldl_addEntry_entries, foldl_addEntry_entries _ {}]
    rw [foldl_addEntry_entries (eb.filter _) {}]
    simp [GMap.get?]
  · rintro ⟨ea', e, hta', hm, ht, hid⟩ k
    have := text_unique a _ _ hta hta'
    subst this
    have hx : ∃ e ∈ ea.filter (fun e => Translated e), e.id = [] := ⟨e, by simp [hm, ht], hid⟩
    obtain ⟨h1, h2⟩ := foldl_headed _ {} hx
    obtain ⟨x, h1⟩ := Option.isSome_iff_exists.mp h1
    obtain ⟨p, h2⟩ := Option.isSome_iff_exists.mp h2
    rw [hes, List.foldl_append, getHeader_eq, getHeader_eq, heads_of_some _ x h1,
      heads_of_some _ x (foldl_frozen _ _ x p h1 h2).1]
  · intro hno k
    have hx : ∀ e ∈ ea.filter (fun e => Translated e), e.id ≠ [] := by
      intro e he hid
      simp only [List.mem_filter, decide_eq_true_eq] at he
      exact hno ⟨ea, e, hta, he.1, he.2, hid⟩
    rw [hes, List.foldl_append]
    exact heads_same (foldl_same _ (unheaded_same _ hx)) k

theorem defines_iff (c : Str) (f : File) (h : readPo c = .ok f) (ctxt id : Str) :
    Defines c ctxt id ↔ (f.entries.get? (key ctxt id)).isSome := by
  obtain ⟨hc, es, ht, rfl⟩ := (C26_ok_iff c f).mp h
  rw [foldl_addEntry_entries]
  simp only [GMap.get?, Option.or_none, List.getLast?_isSome]
  constructor
  · rintro ⟨es', e, ht', hm, htr, hk⟩
    have := text_unique c _ _ ht ht'
    subst this
    apply List.ne_nil_of_mem (a := e)
    simp only [List.mem_filter, decide_eq_true_eq]
    exact ⟨⟨hm, htr⟩, hk⟩
  · intro hne
    obtain ⟨e, he⟩ := List.exists_mem_of_ne_nil _ hne
    simp only [List.mem_filter, decide_eq_true_eq] at he
    exact ⟨es, e, ht, he.1.1, he.1.2, he.2⟩

open Classical in
/-- **C92** Hence a lookup in the joined text answers as the second text if that defines the message,
and else as the first; a plural lookup too, if both texts have the same Plural-Forms field. -/
theorem C92_lookups {α : Type} (a b : Str) (fa fb f : File) (ha : readPo a = .ok fa) (hb : readPo b = .ok fb)
    (hf : Finished a) (hs : Begins b) (h : readPo (a ++ 10 :: b) = .ok f) :
    (f.lang.1 = if Headed a then fa.lang.1 else fb.lang.1) ∧
    (∀ (E : Fmt.Env α) ctxt id args, f.x E ctxt id args =
      if Defines b ctxt id then fb.x E ctxt id args else fa.x E ctxt id args) ∧
    ((fa.getHeader b!"Plural-Forms").1 = (fb.getHeader b!"Plural-Forms").1 →
      ∀ (E : Fmt.Env α) dg ctxt id id2 n args, (f.xn E dg ctxt id id2 n args).1 =
        if Defines b ctxt id then (fb.xn E dg ctxt id id2 n args).1 else (fa.xn E dg ctxt id id2 n args).1) := by
  obtain ⟨f', h', hget, hh1, hh2⟩ := C92_joined a b fa fb ha hb hf hs
  rw [h] at h'
  cases h'
  have hlook : ∀ ctxt id, (Defines b ctxt id → f.entries.get? (key ctxt id) = fb.entries.get? (key ctxt id)) ∧
      (¬ Defines b ctxt id → f.entries.get? (key ctxt id) = fa.entries.get? (key ctxt id)) := by
    intro ctxt id
    rw [defines_iff b fb hb, hget]
    cases fb.entries.get? (key ctxt id) <;> simp
  refine ⟨?_, ?_, ?_⟩
  · have hl : ∀ f : File, f.lang.1 = (f.getHeader hLanguage).1.getD [] := fun _ => rfl
    rw [hl, hl, hl]
    by_cases hd : Headed a
    · rw [if_pos hd, hh1 hd]
    · rw [if_neg hd, hh2 hd]
  · intro E ctxt id args
    unfold File.x
    by_cases hd : Defines b ctxt id
    · rw [if_pos hd, (hlook ctxt id).1 hd]
    · rw [if_neg hd, (hlook ctxt id).2 hd]
  · intro hpf E dg ctxt id id2 n args
    have hrule : ∀ c g, readPo c = .ok g → g.usedRule = some (parsePlural ((g.getHeader hPluralForms).1.getD [])) := by
      intro c g hg
      obtain ⟨-, es, -, rfl⟩ := (C26_ok_iff c g).mp hg
      exact initPlural_inv _ (foldl_rule _)
    have hpf' : (fa.getHeader hPluralForms).1 = (fb.getHeader hPluralForms).1 := hpf
    have hfa : (f.getHeader hPluralForms).1 = (fa.getHeader hPluralForms).1 := by
      by_cases hd : Headed a
      · exact hh1 hd _
      · rw [hh2 hd, hpf']
    have r1 : f.usedRule = fa.usedRule := by rw [hrule _ f h, hrule _ fa ha, hfa]
    have r2 : f.usedRule = fb.usedRule := by rw [hrule _ f h, hrule _ fb hb, hfa, hpf']
    split
    · rename_i hd; exact xn_eq E dg f fb ctxt id id2 n args ((hlook ctxt id).1 hd) r2
    · rename_i hd; exact xn_eq E dg f fa ctxt id id2 n args ((hlook ctxt id).2 hd) r1

/-- Two texts that can be joined: the header of the first counts, and its second message is replaced. -/
def joinA : Str := b!"msgid \"\"\nmsgstr \"Language: fr\\n\"\n\nmsgid \"a\"\nmsgstr \"b\"\n\nmsgid \"x\"\nmsgstr \"y\"\n"
/-- See `joinA`. -/
def joinB : Str := b!"msgid \"\"\nmsgstr \"Language: de\\n\"\n\nmsgid \"a\"\nmsgstr \"c\"\n"

theorem joinA_finished : Finished joinA := by
  refine ⟨[[.field .id [], .field .str b!"Language: fr\n"], [.field .id b!"a", .field .str b!"b"]],
    [.field .id b!"x", .field .str b!"y"], ?_, .inl rfl⟩
  have hl : meaningfulLines joinA = [b!"msgid \"\"", b!"msgstr \"Language: fr\\n\"", b!"msgid \"a\"", b!"msgstr \"b\"",
    b!"msgid \"x\"", b!"msgstr \"y\""] := by decide +kernel
  rw [hl]
  have i (n : Nat) (f : Field) (q d : Str) (h : Quote.unquote (GoStr.trimSpace q) = some d) :
    IsItem n (f.word n ++ 32 :: q) (.field f d) := .field f q d h
  have p1 := Parse.same .nil (i 0 .id b!"\"\"" [] (by decide)) (by simp [Starts, lastField])
  have p2 := Parse.same p1 (i 0 .str b!"\"Language: fr\\n\"" b!"Language: fr\n" (by decide)) (by simp [Starts, lastField])
  have p3 := Parse.next p2 (i 0 .id b!"\"a\"" b!"a" (by decide)) (by simp [Starts, lastField])
  have p4 := Parse.same p3 (i 0 .str b!"\"b\"" b!"b" (by decide)) (by simp [Starts, lastField])
  have p5 := Parse.next p4 (i 0 .id b!"\"x\"" b!"x" (by decide)) (by simp [Starts, lastField])
  have p6 := Parse.same p5 (i 0 .str b!"\"y\"" b!"y" (by decide)) (by simp [Starts, lastField])
  exact p6

/-- A result with a property that can be computed. -/
def okAnd (r : Res File) (p : File → Prop) [DecidablePred p] : Bool :=
  match r with
  | .ok f => p f
  | _ => false

theorem of_okAnd (r : Res File) (p : File → Prop) [DecidablePred p] (h : okAnd r p = true) : ∃ f, r = .ok f ∧ p f := by
  cases r with
  | ok f => exact ⟨f, rfl, by simpa [okAnd] using h⟩
  | err => cases h
  | panic => cases h

theorem joinB_begins : Begins joinB := by
  intro l hl
  have : (meaningfulLines joinB).head? = some b!"msgid \"\"" := by decide +kernel
  rw [this] at hl
  cases hl
  exact .inr (.inr ⟨b!"\"\"", rfl⟩)

/-- The hypotheses hold of the samples, and this is what is read. -/
example : Finished joinA ∧ Begins joinB ∧ (∃ fa, readPo joinA = .ok fa) ∧ (∃ fb, readPo joinB = .ok fb) ∧
    ∃ f, readPo (joinA ++ 10 :: joinB) = .ok f ∧ f.lang.1 = b!"fr" ∧
      (f.entries.get? (key [] b!"a")).map (·.str) = some b!"c" ∧
      (f.entries.get? (key [] b!"x")).map (·.str) = some b!"y" := by
  refine ⟨joinA_finished, joinB_begins, ?_, ?_, ?_⟩
  · obtain ⟨f, h, -⟩ := of_okAnd (readPo joinA) (fun _ => True) (by decide +kernel)
    exact ⟨f, h⟩
  · obtain ⟨f, h, -⟩ := of_okAnd (readPo joinB) (fun _ => True) (by decide +kernel)
    exact ⟨f, h⟩
  · exact of_okAnd _ _ (by decide +kernel)

/-- A text that begins with a continuation line changes the last translation of the first. -/
example : ∃ fa fb f, readPo b!"msgid \"a\"\nmsgstr \"b\"" = .ok fa ∧ readPo b!"\"c\"" = .ok fb ∧
    readPo (b!"msgid \"a\"\nmsgstr \"b\"" ++ 10 :: b!"\"c\"") = .ok f ∧
    (f.entries.get? (key [] b!"a")).map (·.str) = some b!"bc" := by
  obtain ⟨fa, ha, -⟩ := of_okAnd (readPo b!"msgid \"a\"\nmsgstr \"b\"") (fun _ => True) (by decide +kernel)
  obtain ⟨fb, hb, -⟩ := of_okAnd (readPo b!"\"c\"") (fun _ => True) (by decide +kernel)
  obtain ⟨f, h⟩ := of_okAnd (readPo (b!"msgid \"a\"\nmsgstr \"b\"" ++ 10 :: b!"\"c\""))
    (fun f => (f.entries.get? (key [] b!"a")).map (·.str) = some b!"bc") (by decide +kernel)
  exact ⟨fa, fb, f, ha, hb, h⟩

end Verif.Tr
