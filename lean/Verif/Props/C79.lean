import Verif.Lemmas.TmplLaid
import Verif.Lemmas.TmplFrom
import Verif.Props.C74
import Verif.Props.C54_C55
/-!
# C79: nothing is extracted that is not written
-/
namespace Verif.Tmpl
open Verif Verif.Xt

/-! ## The items are written -/

/-- **C79**: the items of a text are written in it one after the other, each on its line, with only removed
white space, trim markers and comments between them. -/
theorem C79_items {C : Cfg} (hC : C.Ascii) (hl : 10 ∉ C.left) (hr : 10 ∉ C.right) (hl' : C.left ≠ []) (hr' : C.right ≠ [])
    (src : Str) : Laid C.left C.right false 1 src (C.items src) :=
  items_laid hC (List.count_eq_zero.mpr hl) (List.count_eq_zero.mpr hr) hl' hr' src

section
variable {L R : Str}

theorem word_dot {w : Str} (h : WordText w) : 46 ∉ w := by
  intro hm
  have := h 46 hm (by decide)
  revert this; decide

theorem laid_names {b : Bool} {line : Nat} {s : Str} {is : List Item} (h : Laid L R b line s is) : ∀ i ∈ is, NameOk i := by
  induction h with
  | eof => intro i hi; simp only [List.mem_singleton] at hi; subst hi; constructor <;> (intro f hf; cases hf)
  | err => intro i hi; simp only [List.mem_singleton] at hi; subst hi; constructor <;> (intro f hf; cases hf)
  | @item _ _ _ _ _ _ k _ _ hs _ _ ih =>
    intro i hi
    rcases List.mem_cons.mp hi with rfl | hi
    · constructor
      · intro f hf
        dsimp only at hf
        subst hf
        cases hs with
        | field w hw => exact ⟨w, rfl, word_dot hw⟩
      · intro v hv
        dsimp only at hv
        subst hv
        cases hs with
        | var w hw =>
          intro hm
          rcases List.mem_append.mp hm with hm | hm
          · revert hm; decide
          · exact word_dot hw hm
    · exact ih i hi

theorem laid_after {b : Bool} {line : Nat} {s : Str} {is : List Item} (h : Laid L R b line s is) :
    AfterRight (solid is) ∧ (b = false → ∀ i post, solid is = i :: post → ¬IsKw i) := by
  have one : ∀ x : Item, (x.tok = .eof ∨ x.tok = .err) → AfterRight (solid [x]) ∧ ∀ i post, solid [x] = i :: post → ¬IsKw i := by
    intro x hx
    have hs : solid [x] = [x] := solid_cons (by rcases hx with h | h <;> rw [h] <;> simp) []
    rw [hs]
    constructor
    · intro pre l i post he
      have := congrArg List.length he
      simp at this
      omega
    · intro i post he
      cases he
      rintro ⟨k, hk⟩
      rcases hx with h | h <;> rw [hk] at h <;> cases h
  induction h with
  | eof => exact ⟨(one _ (.inl rfl)).1, fun _ => (one _ (.inl rfl)).2⟩
  | err => exact ⟨(one _ (.inr rfl)).1, fun _ => (one _ (.inr rfl)).2⟩
  | @item b b' line g t s k is hg hs hm hrest ih =>
    by_cases hsp : k = .space
    · subst hsp
      have hb : b = true := by cases hm; rfl
      rw [solid_space]
      exact ⟨ih.1, fun h => by rw [hb] at h; cases h⟩
    · rw [solid_cons hsp]
      constructor
      · intro pre l i post he
        cases pre with
        | nil =>
          rw [List.nil_append, List.cons.injEq] at he
          have hk : k = .right := by have := congrArg Item.tok he.1; exact this
          subst hk
          have hb' : b' = false := by
            cases hm with
            | right => rfl
            | inner _ _ h _ _ => exact absurd rfl h
          exact ih.2 hb' i post he.2
        | cons x pre =>
          rw [List.cons_append, List.cons.injEq] at he
          exact ih.1 pre l i post he.2
      · intro hb i post he
        rw [List.cons.injEq] at he
        rw [← he.1]
        rintro ⟨kw, hk⟩
        dsimp only at hk
        subst hk
        subst hb
        cases hm

/-- An item and what follows it. -/
theorem laid_at {b : Bool} {line : Nat} {s : Str} {i : Item} {is2 : List Item} : ∀ {is1 : List Item},
    Laid L R b line s (is1 ++ i :: is2) → i.tok ≠ .eof → i.tok ≠ .err →
    ∃ x t y b', s = x ++ t ++ y ∧ Spelled L R i.tok t ∧ i.line = line + lineBreaks x ∧
      Laid L R b' (line + lineBreaks (x ++ t)) y is2 := by
  intro is1
  induction is1 generalizing b line s with
  | nil =>
    intro h he hr
    rw [List.nil_append] at h
    cases h with
    | eof => exact absurd rfl he
    | err => exact absurd rfl hr
    | item hg hs hm h => exact ⟨_, _, _, _, rfl, hs, rfl, by rw [lineBreaks_append, ← Nat.add_assoc]; exact h⟩
  | cons j is1 ih =>
    intro h he hr
    rw [List.cons_append] at h
    generalize hx : is1 ++ i :: is2 = rest at h
    cases h with
    | eof => simp at hx
    | err => simp at hx
    | @item _ _ _ g t s _ _ hg hs hm h =>
      subst hx
      obtain ⟨x, t', y, b', h1, h2, h3, h4⟩ := ih h he hr
      refine ⟨g ++ t ++ x, t', y, b', by rw [h1]; simp, h2, ?_, ?_⟩
      · rw [h3]; simp [Nat.add_assoc]
      · have : line + lineBreaks g + lineBreaks t + lineBreaks (x ++ t') = line + lineBreaks (g ++ t ++ x ++ t') := by
          simp only [lineBreaks_append]; omega
        rw [← this]; exact h4

/-- The items up to one of them. -/
theorem laid_upto {b : Bool} {line : Nat} {s : Str} {j : Item} {after : List Item} : ∀ {act : List Item},
    Laid L R b line s (act ++ j :: after) → j.tok ≠ .eof → j.tok ≠ .err →
    ∃ body t y, s = body ++ t ++ y ∧ Spelled L R j.tok t ∧
      ∀ i ∈ act, ∃ x u z, body = x ++ u ++ z ∧ Spelled L R i.tok u ∧ i.line = line + lineBreaks x := by
  intro act
  induction act generalizing b line s with
  | nil =>
    intro h he hr
    obtain ⟨x, t, y, b', h1, h2, -⟩ := laid_at (is1 := []) h he hr
    exact ⟨x, t, y, h1, h2, by simp⟩
  | cons k act ih =>
    intro h he hr
    rw [List.cons_append] at h
    generalize hx : act ++ j :: after = rest at h
    cases h with
    | eof => simp at hx
    | err => simp at hx
    | @item _ _ _ g t s _ _ hg hs hm h =>
      subst hx
      obtain ⟨body, t', y, h1, h2, h3⟩ := ih h he hr
      refine ⟨g ++ t ++ body, t', y, by rw [h1]; simp, h2, ?_⟩
      intro i hi
      rcases List.mem_cons.mp hi with rfl | hi
      · exact ⟨g, t, body, rfl, hs, rfl⟩
      · obtain ⟨x, u, z, k1, k2, k3⟩ := h3 i hi
        refine ⟨g ++ t ++ x, u, z, by rw [k1]; simp, k2, ?_⟩
        rw [k3]; simp only [lineBreaks_append]; omega

theorem solid_split {is before rest : List Item} {i : Item} (h : solid is = before ++ i :: rest) :
    ∃ is1 is2, is = is1 ++ i :: is2 ∧ solid is1 = before ∧ solid is2 = rest := by
  obtain ⟨is1, is2, rfl, h1, h2⟩ := List.filter_eq_append_iff.mp h
  obtain ⟨a, b, rfl, h3, h4, h5⟩ := List.filter_eq_cons_iff.mp h2
  refine ⟨is1 ++ a, b, by simp, ?_, h5⟩
  rw [solid, List.filter_append, h1]
  have : a.filter (fun i => decide (i.tok ≠ .space)) = [] := by
    rw [List.filter_eq_nil_iff]; exact h3
  rw [this, List.append_nil]

/-- An action of the items is written in the text. -/
theorem laid_action {src : Str} {is act : List Item} (h : Laid L R false 1 src is) (ha : ActionIn (solid is) act) :
    ∃ a body b, src = a ++ L ++ body ++ R ++ b ∧
      ∀ i ∈ act, ∃ x t y, body = x ++ t ++ y ∧ Spelled L R i.tok t ∧ i.line = 1 + lineBreaks (a ++ L ++ x) := by
  obtain ⟨before, after, l, r, he, -⟩ := ha
  obtain ⟨is1, is2, rfl, -, h2⟩ := solid_split he
  obtain ⟨is3, is4, rfl, h3, -⟩ := solid_split h2
  obtain ⟨a, t, y, b', e1, s1, -, h4⟩ := laid_at h (by simp) (by simp)
  obtain ⟨body, t', y', e2, s2, h5⟩ := laid_upto h4 (by simp) (by simp)
  cases s1
  cases s2
  refine ⟨a, body, y', by rw [e1, e2]; simp, fun i hi => ?_⟩
  obtain ⟨x, u, z, k1, k2, k3⟩ := h5 i (by
    rw [← h3] at hi
    exact (List.mem_filter.mp hi).1)
  exact ⟨x, u, z, k1, k2, by rw [k3]; simp only [lineBreaks_append]; omega⟩

end

/-! ## Entries come from items -/

theorem lit_item {seg : List Item} {a : Arg} {t : Str} (h : Lit a t) (hw : WrittenArg seg a) : ∃ i ∈ seg, IsLit i t := by
  induction h with
  | str t => cases hw with | str hi hl => exact ⟨_, hi, hl⟩
  | paren _ ih => cases hw with | pipe h => exact ih (h _ (List.mem_singleton.mpr rfl) _ (List.mem_singleton.mpr rfl))

theorem call_item {seg : List Item} {a : Arg} {n : Str} (h : Calls a n) (hw : WrittenArg seg a) : ∃ i ∈ seg, IsName i n := by
  cases h with
  | ident => cases hw with | ident hi hn => exact ⟨_, hi, hn⟩
  | field ids => cases hw with | field h => exact h n (by simp)
  | var ids => cases hw with | var h => exact h n (by simp)
  | chain a ids => cases hw with | chain h => exact h n (by simp)

theorem inPipe_written {seg : List Item} {q p : Pipe} (h : InPipe q p) (hw : ∀ c ∈ p, ∀ a ∈ c, WrittenArg seg a) :
    ∀ c ∈ q, ∀ a ∈ c, WrittenArg seg a := by
  induction h with
  | self => exact hw
  | arg hc ha _ ih =>
    refine ih ?_
    cases hw _ hc _ ha with
    | pipe h => exact h

theorem receives_mem {q : Pipe} {args : List Arg} (h : Receives q args) : ∀ a ∈ args, ∃ c ∈ q, a ∈ c := by
  cases h with
  | alone pre post args hq _ => exact fun a ha => ⟨args, by rw [hq]; simp, ha⟩
  | piped pre post x t args hq _ =>
    intro a ha
    rcases List.mem_append.mp ha with ha | ha
    · exact ⟨args, by rw [hq]; simp, ha⟩
    · exact ⟨[x], by rw [hq]; simp, ha⟩

theorem forall2_mem {α β : Type} {P : α → β → Prop} {l : List α} {m : List β} (h : List.Forall₂ P l m) :
    ∀ t ∈ m, ∃ a ∈ l, P a t := by
  induction h with
  | nil => simp
  | cons h _ ih =>
    intro t ht
    rcases List.mem_cons.mp ht with rfl | ht
    · exact ⟨_, List.mem_cons_self, h⟩
    · obtain ⟨a, ha, hp⟩ := ih t ht
      exact ⟨a, List.mem_cons_of_mem _ ha, hp⟩

/-- The items that an entry for a keyword comes from are in the action. -/
structure FromItems (act : List Item) (kw : Keyword) (e : Tr.Entry) : Prop where
  name : ∃ i ∈ act, IsName i kw.name
  id : ∃ i ∈ act, IsLit i e.id
  ctxt : if 0 < kw.msgCtxt then ∃ i ∈ act, IsLit i e.ctxt else e.ctxt = []
  id2 : if 0 < kw.msgID2 then ∃ i ∈ act, IsLit i e.id2 else e.id2 = []

theorem fromItems {act : List Item} {p : Pipe} {kws : List Keyword} {ref : Str} {e : Tr.Entry}
    (hw : ∀ c ∈ p, ∀ a ∈ c, WrittenArg act a) (h : PipeEntry kws ref p e) :
    ∃ kw ∈ kws, FromItems act kw e ∧ ∃ more, e.cmts = (b!"#: " ++ ref) :: more := by
  obtain ⟨q, hq, args, hrec, before, f, after, name, rfl, hcall, kw, hkw, rfl, he⟩ := h
  have hall : ∀ a ∈ before ++ f :: after, WrittenArg act a := by
    intro a ha
    obtain ⟨c, hc, hac⟩ := receives_mem hrec a ha
    exact inPipe_written hq hw c hc a hac
  obtain ⟨lits, rest, texts, rfl, hlits, -, hid, hctxt, hid2⟩ := he.literals
  have hat : ∀ k t, At texts k t → ∃ i ∈ act, IsLit i t := by
    rintro k t ⟨pre, post, rfl, -⟩
    obtain ⟨a, ha, hl⟩ := forall2_mem hlits t (by simp)
    exact lit_item hl (hall a (by simp [ha]))
  refine ⟨kw, hkw, ⟨call_item hcall (hall f (by simp)), hat _ _ hid, ?_, ?_⟩, ?_⟩
  · by_cases h : 0 < kw.msgCtxt
    · rw [if_pos h] at *; exact hat _ _ hctxt
    · rw [if_neg h] at *; exact hctxt
  · by_cases h : 0 < kw.msgID2
    · rw [if_pos h] at *; exact hat _ _ hid2
    · rw [if_neg h] at *; exact hid2
  · exact ⟨_, by rw [he.comments]; rfl⟩

open Classical in
/-- The scanner of a run. -/
noncomputable def runCfg (E : Env) (p : Param) (kws : List Keyword) (src : Str) : Cfg :=
  mkCfg p.left p.right (knownIn kws p src) E.letter E.digit

/-- **C79**: the name and the texts of an entry are items of one action, and the entry refers to the line of
the first item of that action that is not a keyword. -/
theorem C79_entry {E : Env} {num : Tok → Bool} (hg : GoParser E num) (hE : AsciiClasses E) (p : Param) (hl : 10 ∉ p.left)
    (hr : 10 ∉ p.right) (kws : List Keyword) (d : Disk) (f src : Str) (hf : d.files (E.canon f) = some src)
    (es : List Tr.Entry) (hes : FileOk E p kws d f es) (e : Tr.Entry) (he : e ∈ es) :
    Laid (runCfg E p kws src).left (runCfg E p kws src).right false 1 src ((runCfg E p kws src).items src) ∧
    ∃ kw ∈ kws, ∃ act line, ActionIn (solid ((runCfg E p kws src).items src)) act ∧ StartsOn act line ∧ FromItems act kw e ∧
      ∃ more, e.cmts = (b!"#: " ++ (f ++ b!":" ++ Num.natDigits line)) :: more := by
  have hlaid : Laid (runCfg E p kws src).left (runCfg E p kws src).right false 1 src ((runCfg E p kws src).items src) := by
    have hne := mkCfg_ne p.left p.right (knownIn kws p src) E.letter E.digit
    refine C79_items (cfg_ascii hE _ _ _) ?_ ?_ hne.1 hne.2 src
    · dsimp only [runCfg, mkCfg]; split
      · decide
      · exact hl
    · dsimp only [runCfg, mkCfg]; split
      · decide
      · exact hr
  refine ⟨hlaid, ?_⟩
  obtain ⟨src', roots, h1, h2, h3⟩ := hes
  rw [hf] at h1
  cases h1
  rw [parsed_go hg] at h2
  rw [h3.mem_iff, List.mem_flatMap] at he
  obtain ⟨root, hroot, he⟩ := he
  rw [← (C54_count kws f root).mem_iff, C54_exact] at he
  obtain ⟨line, pipe, n, hn, hat, hp⟩ := he
  obtain ⟨act, ha1, ha2, ha3⟩ := parse_reads (laid_after hlaid).1 h2 root hroot n hn line pipe hat
  have hok : ∀ i ∈ act, NameOk i := by
    intro i hi
    obtain ⟨before, after, l, r, heq, -⟩ := ha1
    refine laid_names hlaid i ?_
    have : i ∈ solid ((runCfg E p kws src).items src) := by rw [heq]; simp [hi]
    exact (List.mem_filter.mp this).1
  have hw : ∀ c ∈ pipe, ∀ a ∈ c, WrittenArg act a := fun c hc a ha => ha3 hok a (List.mem_flatten.mpr ⟨c, hc, ha⟩)
  obtain ⟨kw, hkw, h4, h5⟩ := fromItems hw hp
  exact ⟨kw, hkw, act, line, ha1, ha2, h4, h5⟩

/-- A string literal with this value is in the text. -/
def HasLit (body t : Str) : Prop :=
  ∃ x s y, body = x ++ s ++ y ∧ Quote.unquote s = some t ∧ ∃ m, s = b!"\"" ++ m ++ b!"\"" ∨ s = b!"`" ++ m ++ b!"`"

/-- The name is in the text, as that of a function or variable or after a dot. -/
def HasName (body n : Str) : Prop := ∃ x s y, body = x ++ s ++ y ∧ (s = n ∨ s = b!"." ++ n)

theorem hasLit {L R body x s y : Str} {i : Item} {t : Str} (hb : body = x ++ s ++ y) (hs : Spelled L R i.tok s) (h : IsLit i t) :
    HasLit body t := by
  obtain ⟨u, hu, hq⟩ := h
  rcases hu with hu | hu <;> rw [hu] at hs <;> cases hs
  · exact ⟨x, _, y, hb, hq, _, .inl rfl⟩
  · exact ⟨x, _, y, hb, hq, _, .inr rfl⟩

theorem hasName {L R body x s y : Str} {i : Item} {n : Str} (hb : body = x ++ s ++ y) (hs : Spelled L R i.tok s) (h : IsName i n) :
    HasName body n := by
  rcases h with ⟨k, h⟩ | h | h
  · rw [h] at hs; cases hs; exact ⟨x, _, y, hb, .inl rfl⟩
  · rw [h] at hs
    generalize hk : Tok.field (b!"." ++ n) = k at hs
    cases hs <;> cases hk
    exact ⟨x, _, y, hb, .inr rfl⟩
  · rw [h] at hs
    cases hs; exact ⟨x, _, y, hb, .inl rfl⟩

/-- The left delimiter that is in use. -/
def leftDelim (p : Param) : Str := if p.left = [] then b!"{{" else p.left

/-- The right delimiter that is in use. -/
def rightDelim (p : Param) : Str := if p.right = [] then b!"}}" else p.right

/-- **C79**: every entry is written in the text of its file: between a left and a right delimiter there are the
name of a keyword and literals with the texts of the entry; the line the entry refers to is one between the
delimiters. -/
theorem C79_text {E : Env} {num : Tok → Bool} (hg : GoParser E num) (hE : AsciiClasses E) (p : Param) (hl : 10 ∉ p.left)
    (hr : 10 ∉ p.right) (kws : List Keyword) (d : Disk) (f src : Str) (hf : d.files (E.canon f) = some src)
    (es : List Tr.Entry) (hes : FileOk E p kws d f es) (e : Tr.Entry) (he : e ∈ es) :
    ∃ kw ∈ kws, ∃ a body b, src = a ++ leftDelim p ++ body ++ rightDelim p ++ b ∧ HasName body kw.name ∧ HasLit body e.id ∧
      (if 0 < kw.msgCtxt then HasLit body e.ctxt else e.ctxt = []) ∧
      (if 0 < kw.msgID2 then HasLit body e.id2 else e.id2 = []) ∧
      ∃ x y more, body = x ++ y ∧
        e.cmts = (b!"#: " ++ (f ++ b!":" ++ Num.natDigits (1 + lineBreaks (a ++ leftDelim p ++ x)))) :: more := by
  obtain ⟨hlaid, kw, hkw, act, line, h1, ⟨ks, i, rest, hact, -, -, hline⟩, h3, more, h4⟩ :=
    C79_entry hg hE p hl hr kws d f src hf es hes e he
  obtain ⟨a, body, b, h5, h6⟩ := laid_action hlaid h1
  have lit : ∀ t, (∃ i ∈ act, IsLit i t) → HasLit body t := by
    rintro t ⟨j, hj, hlit⟩
    obtain ⟨x, u, y, e1, e2, -⟩ := h6 j hj
    exact hasLit e1 e2 hlit
  refine ⟨kw, hkw, a, body, b, h5, ?_, lit _ h3.id, ?_, ?_, ?_⟩
  · obtain ⟨j, hj, hn⟩ := h3.name
    obtain ⟨x, u, y, e1, e2, -⟩ := h6 j hj
    exact hasName e1 e2 hn
  · have := h3.ctxt
    split at this <;> rename_i h
    · rw [if_pos h]; exact lit _ this
    · rw [if_neg h]; exact this
  · have := h3.id2
    split at this <;> rename_i h
    · rw [if_pos h]; exact lit _ this
    · rw [if_neg h]; exact this
  · obtain ⟨x, u, y, e1, -, e3⟩ := h6 i (by rw [hact]; simp)
    refine ⟨x, u ++ y, more, by rw [e1, List.append_assoc], ?_⟩
    rw [h4, ← hline, e3]; rfl

/-- **C79**: a text without the left delimiter has no entries. -/
theorem C79_none {E : Env} {num : Tok → Bool} (hg : GoParser E num) (hE : AsciiClasses E) (p : Param) (hl : 10 ∉ p.left)
    (hr : 10 ∉ p.right) (kws : List Keyword) (d : Disk) (f src : Str) (hf : d.files (E.canon f) = some src)
    (hno : ¬∃ a b, src = a ++ leftDelim p ++ b) (es : List Tr.Entry) (hes : FileOk E p kws d f es) : es = [] := by
  rw [List.eq_nil_iff_forall_not_mem]
  intro e he
  obtain ⟨kw, -, a, body, b, h, -⟩ := C79_text hg hE p hl hr kws d f src hf es hes e he
  exact hno ⟨a, body ++ rightDelim p ++ b, by rw [h]; simp⟩

/-! ## Examples -/

/-- A text with a comment of two lines, a call over three lines in an `if` and a piped call. -/
def exPlaced : Str := b!"{{/* T \"no\"\n */}}T \"no\"\n{{- if\n XN \"c\"\n\t\"o\" `p\nq` 2}}{{\"m\" | .x.T}}{{end}}"

/-- The declarations of the example. -/
def placedKws : List Keyword := [⟨b!"T", 0, 1, 0⟩, ⟨b!"XN", 1, 2, 3⟩]

/-- The options of the example. -/
def placedParam : Param := ⟨[], [], [], [], [], []⟩

/-- The files of the example. -/
def placedDisk : Disk := ⟨fun f => if f = b!"f" then some exPlaced else none, []⟩

/-- Example: the hypotheses hold, and the literals in the comment and in the text are not among the entries. -/
example : ∃ es, FileOk sampleEnv placedParam placedKws placedDisk b!"f" es ∧
    es.map (fun e => (e.cmts, e.ctxt, e.id, e.id2)) =
      [([b!"#: f:4"], b!"c", b!"o", b!"p\nq"), ([b!"#: f:6"], [], b!"m", [])] := by
  have h : (match resolveOneFile sampleEnv placedParam placedKws placedDisk b!"f" with
      | .entries es => es.map (fun e => (e.cmts, e.ctxt, e.id, e.id2))
      | _ => []) = [([b!"#: f:4"], b!"c", b!"o", b!"p\nq"), ([b!"#: f:6"], [], b!"m", [])] := by decide +kernel
  cases hr : resolveOneFile sampleEnv placedParam placedKws placedDisk b!"f" with
  | entries es => rw [hr] at h; exact ⟨es, file_entries _ _ _ _ _ es hr, h⟩
  | _ => rw [hr] at h; cases h

/-- Newlines in a delimiter are not counted: the calls are on lines 2 and 3 of both texts. -/
example : (match resolveOneFile sampleEnv { placedParam with left := b!"<\n" } placedKws
        ⟨fun _ => some b!"<\nT \"a\"}}<\nT \"b\"}}", []⟩ b!"f" with
      | .entries es => es.map (fun e => (e.cmts, e.id))
      | _ => []) = [([b!"#: f:1"], b!"a"), ([b!"#: f:1"], b!"b")] ∧
    (match resolveOneFile sampleEnv placedParam placedKws
        ⟨fun _ => some b!"{{\nT \"a\"}}{{\nT \"b\"}}", []⟩ b!"f" with
      | .entries es => es.map (fun e => (e.cmts, e.id))
      | _ => []) = [([b!"#: f:2"], b!"a"), ([b!"#: f:3"], b!"b")] := by decide +kernel

end Verif.Tmpl
