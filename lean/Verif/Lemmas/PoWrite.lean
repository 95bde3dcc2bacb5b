import Verif.Lemmas.PoRead
import Verif.Props.C19_C20
/-! # Written PO text parses back -/
namespace Verif.Tr
open Verif
set_option linter.unusedSimpArgs false

/-- Lines, each ended by a newline. -/
def unlines (ls : List Str) : Str := ls.flatMap fun l => l ++ [10]

theorem unlines_append (a b : List Str) : unlines (a ++ b) = unlines a ++ unlines b := by
  simp [unlines]

theorem unlines_cons (a : Str) (b : List Str) : unlines (a :: b) = a ++ 10 :: unlines b := by
  simp [unlines]

theorem splitByte_unlines (ls : List Str) (h : ∀ l ∈ ls, 10 ∉ l) :
    GoStr.splitByte 10 (unlines ls) = ls ++ [[]] := by
  induction ls with
  | nil => rfl
  | cons a ls ih =>
    rw [unlines_cons, GoStr.splitByte_append_sep _ _ _ (h a (by simp)), ih (fun l hl => h l (by simp [hl]))]
    rfl

/-- A line without line ends. -/
def Plain (l : Str) : Prop := 10 ∉ l ∧ 13 ∉ l

theorem meaningful_unlines (ls : List Str) (h : ∀ l ∈ ls, Plain l) :
    meaningfulLines (unlines ls) = ls.filter fun l => ¬ Blank l := by
  have h13 : (unlines ls).filter (· != 13) = unlines ls := by
    rw [List.filter_eq_self]
    intro a ha
    simp only [unlines, List.mem_flatMap, List.mem_append, List.mem_singleton] at ha
    obtain ⟨l, hl, hal⟩ := ha
    rcases hal with hal | rfl
    · have := (h l hl).2
      simp only [bne_iff_ne, ne_eq]
      rintro rfl
      exact this hal
    · decide
  unfold meaningfulLines
  rw [h13, splitByte_unlines ls fun l hl => (h l hl).1, List.filter_append]
  have : (([[]] : List Str).filter fun l => ¬ Blank l) = [] := by decide
  rw [this, List.append_nil]

/-- The lines of a written string. -/
def stringLines (P : Nat → Bool) (n : Nat) (f : Field) (content : Str) : List Str :=
  match split content lineThreshold with
  | [] => []
  | l :: ls => (f.word n ++ 32 :: Quote.quote P l) :: ls.map (Quote.quote P)

/-- The items of a written string. -/
def stringItems (f : Field) (content : Str) : List Item :=
  match split content lineThreshold with
  | [] => []
  | l :: ls => .field f l :: ls.map .more

theorem split_ne_nil (content : Str) : split content lineThreshold ≠ [] :=
  (split0_spec content.length content (Nat.le_refl _) lineThreshold 0).2.2.2.2

theorem writeString_eq (P : Nat → Bool) (n : Nat) (f : Field) (content : Str) :
    writeString P (f.word n) content = unlines (stringLines P n f content) := by
  unfold writeString stringLines
  cases h : split content lineThreshold with
  | nil => exact absurd h (split_ne_nil content)
  | cons l ls => simp [unlines, List.flatMap_map]

theorem quote_plain (P : Nat → Bool) (h10 : P 10 = false) (h13 : P 13 = false) (s : Str) :
    Plain (Quote.quote P s) := ⟨(C19_one_line P h10 h13 s).1, (C19_one_line P h10 h13 s).2.1⟩

theorem digits_plain (n : Nat) : Plain (Num.natDigits n) := by
  constructor <;> intro h <;> have := digitsAux_mem _ _ _ h <;> revert this <;> decide

theorem word_plain (n : Nat) (f : Field) : Plain (f.word n) := by
  cases f with
  | form =>
    have := digits_plain n
    constructor
    · simp only [Field.word, List.mem_append, not_or]
      exact ⟨⟨by decide, this.1⟩, by decide⟩
    · simp only [Field.word, List.mem_append, not_or]
      exact ⟨⟨by decide, this.2⟩, by decide⟩
  | _ => constructor <;> simp [Field.word]

theorem stringLines_plain (P : Nat → Bool) (h10 : P 10 = false) (h13 : P 13 = false) (n : Nat) (f : Field)
    (content : Str) : ∀ l ∈ stringLines P n f content, Plain l := by
  intro l hl
  unfold stringLines at hl
  split at hl
  · cases hl
  · simp only [List.mem_cons, List.mem_map] at hl
    rcases hl with rfl | ⟨p, _, rfl⟩
    · have h1 := word_plain n f
      rename_i p ps _
      have h2 := quote_plain P h10 h13 p
      constructor
      · simp [h1.1, h2.1]
      · simp [h1.2, h2.2]
    · exact quote_plain P h10 h13 p

theorem quotes_quote (P : Nat → Bool) (h10 : P 10 = false) (s : Str) : Quotes (Quote.quote P s) s := by
  unfold Quotes
  have : GoStr.trimSpace (Quote.quote P s) = Quote.quote P s := by
    exact GoStr.trimSpace_solid 34 34 _ GoStr.solid_quote GoStr.solid_quote
  rw [this, C19_unquote_quote P h10]

/-- Being inside, or at the start of, the entry with items `g` after the complete entries `gs`. -/
def InEntry (ls : List Str) (gs : List (List Item)) (g : List Item) : Prop :=
  (g = [] ∧ ((ls = [] ∧ gs = []) ∨ ∃ gs0 g0, gs = gs0 ++ [g0] ∧ Parse ls gs0 g0 ∧
    (lastField g0 = some .str ∨ lastField g0 = some .form))) ∨
  (g ≠ [] ∧ Parse ls gs g)

/-- Can the item be the first of an entry after a translated one? -/
def First : Item → Prop
  | .comment _ => True
  | .field .ctxt _ => True
  | .field .id _ => True
  | _ => False

theorem InEntry.push {ls gs g line x} (h : InEntry ls gs g) (hx : IsItem (numForms g) line x)
    (hs : ¬ Starts (lastField g) x) (hf : g = [] → First x) : InEntry (ls ++ [line]) gs (g ++ [x]) := by
  right
  refine ⟨by simp, ?_⟩
  rcases h with ⟨rfl, ⟨rfl, rfl⟩ | ⟨gs0, g0, rfl, hp, hl⟩⟩ | ⟨_, hp⟩
  · exact .same .nil hx hs
  · have : Starts (lastField g0) x := by
      have := hf rfl
      rcases hl with hl | hl <;> rw [hl] <;> revert this <;>
        cases x with
        | comment => simp [First, Starts]
        | more => simp [First]
        | field f d => cases f <;> simp [First, Starts]
    exact .next hp hx this
  · exact .same hp hx hs

theorem InEntry.mores {ls gs} (P : Nat → Bool) (h10 : P 10 = false) (ps : List Str) :
    ∀ {g}, InEntry ls gs g → g ≠ [] →
    InEntry (ls ++ ps.map (Quote.quote P)) gs (g ++ ps.map .more) := by
  induction ps generalizing ls with
  | nil => intro g h _; simpa using h
  | cons p ps ih =>
    intro g h hg
    have hx : IsItem (numForms g) (Quote.quote P p) (.more p) := .more _ _ (quotes_quote P h10 p)
    have := h.push hx (by cases hl : lastField g <;> simp [Starts]) (fun h => absurd h hg)
    have := ih this (by simp)
    simpa using this

theorem InEntry.string {ls gs g} (P : Nat → Bool) (h10 : P 10 = false) (h : InEntry ls gs g) (f : Field)
    (content : Str) (hs : ∀ d, ¬ Starts (lastField g) (.field f d)) (hf : g = [] → ∀ d, First (.field f d)) :
    InEntry (ls ++ stringLines P (numForms g) f content) gs (g ++ stringItems f content) := by
  unfold stringLines stringItems
  cases hsp : split content lineThreshold with
  | nil => exact absurd hsp (split_ne_nil content)
  | cons p ps =>
    have hx : IsItem (numForms g) (f.word (numForms g) ++ 32 :: Quote.quote P p) (.field f p) :=
      .field f _ _ (quotes_quote P h10 p)
    have h1 := h.push hx (hs p) (fun hg => hf hg p)
    have := h1.mores P h10 ps (by simp)
    simpa using this

theorem lastField_mores (g : List Item) (ps : List Str) :
    lastField (g ++ ps.map .more) = lastField g := by
  induction ps generalizing g with
  | nil => simp
  | cons p ps ih =>
    have := ih (g ++ [.more p])
    rw [lastField_more] at this
    simpa using this

theorem lastField_string (g : List Item) (f : Field) (content : Str) :
    lastField (g ++ stringItems f content) = some f := by
  unfold stringItems
  cases hsp : split content lineThreshold with
  | nil => exact absurd hsp (split_ne_nil content)
  | cons p ps =>
    dsimp only
    have : g ++ Item.field f p :: ps.map .more = (g ++ [.field f p]) ++ ps.map .more := by simp
    rw [this, lastField_mores, lastField_field]

theorem addLast_append (l : List Str) (a b : Str) : addLast (l ++ [a]) b = l ++ [a ++ b] := by
  induction l with
  | nil => rfl
  | cons x l ih =>
    cases l with
    | nil => rfl
    | cons y l =>
      simp only [List.cons_append] at ih ⊢
      simp only [addLast, ih]

theorem texts_mores (f : Field) (g : List Item) (l : List Str) (a : Str) (ps : List Str)
    (hl : lastField g = some f) (ht : texts f g = l ++ [a]) :
    texts f (g ++ ps.map .more) = l ++ [a ++ ps.flatten] := by
  induction ps generalizing g a with
  | nil => simp [ht]
  | cons p ps ih =>
    have := ih (g ++ [.more p]) (a ++ p) (by rw [lastField_more, hl]) (by
      rw [texts_more, if_pos hl, ht, addLast_append])
    simpa using this

theorem texts_mores_ne (f : Field) (g : List Item) (ps : List Str) (hl : lastField g ≠ some f) :
    texts f (g ++ ps.map .more) = texts f g := by
  induction ps generalizing g with
  | nil => simp
  | cons p ps ih =>
    have := ih (g ++ [.more p]) (by rw [lastField_more]; exact hl)
    rw [texts_more, if_neg hl] at this
    simpa using this

theorem texts_string (f f' : Field) (g : List Item) (content : Str) :
    texts f' (g ++ stringItems f content) = if f = f' then texts f' g ++ [content] else texts f' g := by
  unfold stringItems
  have hflat : (split content lineThreshold).flatten = content := (C20_split content lineThreshold).1
  cases hsp : split content lineThreshold with
  | nil => exact absurd hsp (split_ne_nil content)
  | cons p ps =>
    rw [hsp] at hflat
    dsimp only
    have : g ++ Item.field f p :: ps.map .more = (g ++ [.field f p]) ++ ps.map .more := by simp
    rw [this]
    by_cases hf : f = f'
    · subst hf
      rw [texts_mores f _ (texts f g) p ps (lastField_field g f p) (by rw [texts_field]; simp)]
      rw [if_pos rfl]
      simp only [List.flatten_cons] at hflat
      rw [hflat]
    · rw [texts_mores_ne f' _ ps (by rw [lastField_field]; simpa using hf), texts_field, if_neg hf, if_neg hf]

theorem comments_mores (ps : List Str) : comments (ps.map .more) = [] := by
  induction ps with
  | nil => rfl
  | cons p ps ih => simp [comments]

theorem comments_string (g : List Item) (f : Field) (content : Str) :
    comments (g ++ stringItems f content) = comments g := by
  unfold stringItems
  cases hsp : split content lineThreshold with
  | nil => simp
  | cons p ps =>
    have := comments_mores ps
    simp only [comments] at this ⊢
    rw [List.filterMap_append, List.filterMap_cons, this]
    simp

theorem string_ne_nil (g : List Item) (f : Field) (content : Str) : g ++ stringItems f content ≠ [] := by
  intro h
  have := lastField_string g f content
  rw [h] at this
  cases this

/-- Comments before the first field. -/
theorem InEntry.comments {ls gs} (cs : List Str) (hc : ∀ c ∈ cs, ∃ t, c = 35 :: t) :
    ∀ {g}, InEntry ls gs g → lastField g = none →
      InEntry (ls ++ cs) gs (g ++ cs.map .comment) ∧ lastField (g ++ cs.map .comment) = none := by
  induction cs generalizing ls with
  | nil => intro g h hl; simpa using ⟨h, hl⟩
  | cons c cs ih =>
    intro g h hl
    obtain ⟨t, rfl⟩ := hc c (by simp)
    have h1 := h.push (.comment t) (by simp [hl, Starts]) (fun _ => trivial)
    have := ih (fun c hc' => hc c (by simp [hc'])) h1 (by rw [lastField_comment, hl])
    simpa using this

theorem comments_comments (cs : List Str) : comments (cs.map .comment) = cs := by
  induction cs with
  | nil => rfl
  | cons c cs ih => simpa [comments] using ih

theorem texts_comments (f : Field) (cs : List Str) : texts f (cs.map .comment) = [] := by
  induction cs with
  | nil => rfl
  | cons c cs ih => simpa [texts] using ih

/-- The lines of the plural forms from index `i` on. -/
def formLines (P : Nat → Bool) : Nat → List Str → List Str
  | _, [] => []
  | i, s :: ss => stringLines P i .form s ++ formLines P (i + 1) ss

/-- Their items. -/
def formItems (ss : List Str) : List Item := ss.flatMap (stringItems .form)

theorem writeForms_eq (P : Nat → Bool) (i : Nat) (ss : List Str) :
    writeForms P i ss = unlines (formLines P i ss) := by
  induction ss generalizing i with
  | nil => rfl
  | cons s ss ih =>
    rw [writeForms, formLines, unlines_append, ih, ← writeString_eq, word_form]

theorem InEntry.forms (P : Nat → Bool) (h10 : P 10 = false) (ss : List Str) :
    ∀ {ls gs g}, InEntry ls gs g → g ≠ [] → lastField g ≠ some .str →
      InEntry (ls ++ formLines P (numForms g) ss) gs (g ++ formItems ss) := by
  induction ss with
  | nil => intro ls gs g h _ _; simpa [formLines, formItems] using h
  | cons s ss ih =>
    intro ls gs g h hg hl
    have h1 := h.string P h10 .form s (by
      intro d; cases hlf : lastField g with
      | none => simp [Starts]
      | some p => simp only [Starts]; rintro rfl; exact hl hlf) (fun h => absurd h hg)
    have hn : numForms (g ++ stringItems .form s) = numForms g + 1 := by
      rw [numForms_eq, numForms_eq, texts_string]; simp
    have := ih h1 (string_ne_nil _ _ _) (by rw [lastField_string]; simp)
    rw [hn] at this
    simpa [formLines, formItems] using this

theorem texts_forms (f : Field) (ss : List Str) : ∀ g,
    texts f (g ++ formItems ss) = if f = .form then texts f g ++ ss else texts f g := by
  induction ss with
  | nil => intro g; simp [formItems]
  | cons s ss ih =>
    intro g
    have : g ++ formItems (s :: ss) = (g ++ stringItems .form s) ++ formItems ss := by simp [formItems]
    rw [this, ih, texts_string]
    by_cases hf : f = .form
    · subst hf; simp
    · simp [hf, Ne.symm hf]

theorem comments_forms (ss : List Str) : ∀ g, comments (g ++ formItems ss) = comments g := by
  induction ss with
  | nil => intro g; simp [formItems]
  | cons s ss ih =>
    intro g
    have : g ++ formItems (s :: ss) = (g ++ stringItems .form s) ++ formItems ss := by simp [formItems]
    rw [this, ih, comments_string]

theorem lastField_forms (ss : List Str) (h : ss ≠ []) : ∀ g, lastField (g ++ formItems ss) = some .form := by
  induction ss with
  | nil => exact absurd rfl h
  | cons s ss ih =>
    intro g
    have e : g ++ formItems (s :: ss) = (g ++ stringItems .form s) ++ formItems ss := by simp [formItems]
    rw [e]
    by_cases hs : ss = []
    · subst hs; simp [formItems, lastField_string]
    · exact ih hs _

theorem formLines_plain (P : Nat → Bool) (h10 : P 10 = false) (h13 : P 13 = false) (i : Nat) (ss : List Str) :
    ∀ l ∈ formLines P i ss, Plain l := by
  induction ss generalizing i with
  | nil => intro l hl; cases hl
  | cons s ss ih =>
    intro l hl
    rw [formLines, List.mem_append] at hl
    rcases hl with hl | hl
    · exact stringLines_plain P h10 h13 _ _ _ l hl
    · exact ih _ l hl

/-- What is written for an entry: comments, optional context, id, optional plural id, then a single
translation or plural forms. -/
structure Shape where
  cmts : List Str
  ctxt : Str
  id : Str
  id2 : Option Str
  str : Option Str
  forms : List Str

/-- An optional string. -/
def optLines (P : Nat → Bool) (f : Field) : Option Str → List Str
  | none => []
  | some s => stringLines P 0 f s

/-- See `optLines`. -/
def optItems (f : Field) : Option Str → List Item
  | none => []
  | some s => stringItems f s

/-- The lines of a shape. -/
def Shape.lines (P : Nat → Bool) (s : Shape) : List Str :=
  s.cmts ++ optLines P .ctxt (if s.ctxt = [] then none else some s.ctxt) ++ stringLines P 0 .id s.id
    ++ optLines P .id2 s.id2 ++ optLines P .str s.str ++ formLines P 0 s.forms

/-- The items of a shape. -/
def Shape.items (s : Shape) : List Item :=
  s.cmts.map .comment ++ optItems .ctxt (if s.ctxt = [] then none else some s.ctxt) ++ stringItems .id s.id
    ++ optItems .id2 s.id2 ++ optItems .str s.str ++ formItems s.forms

/-- The entry of a shape. -/
def Shape.entry (s : Shape) : Entry where
  cmts := s.cmts
  ctxt := s.ctxt
  id := s.id
  isPlural := s.id2.isSome
  id2 := s.id2.getD []
  str := s.str.getD []
  strN := s.forms

theorem texts_opt (f f' : Field) (g : List Item) (o : Option Str) :
    texts f' (g ++ optItems f o) = if f = f' then texts f' g ++ o.toList else texts f' g := by
  cases o with
  | none => simp [optItems]
  | some s => simp [optItems, texts_string]

theorem comments_opt (f : Field) (g : List Item) (o : Option Str) :
    comments (g ++ optItems f o) = comments g := by
  cases o with
  | none => simp [optItems]
  | some s => simp [optItems, comments_string]

theorem shape_entry (s : Shape) : entryOf s.items = s.entry := by
  unfold entryOf Shape.entry Shape.items
  simp only [comments_forms, comments_opt, comments_string, comments_comments, texts_forms, texts_opt,
    texts_string, texts_comments]
  cases h2 : s.id2 <;> cases hs : s.str <;> by_cases hc : s.ctxt = [] <;> simp [hc]

theorem opt_ne_nil (f : Field) (g : List Item) (o : Option Str) (h : g ≠ []) : g ++ optItems f o ≠ [] := by
  simp [h]

/-- Writing a shape after translated entries yields one more translated entry. -/
theorem shape_parse (P : Nat → Bool) (h10 : P 10 = false) (s : Shape)
    (hc : ∀ c ∈ s.cmts, ∃ t, c = 35 :: t) (hex : s.str = none ∨ s.forms = [])
    (hsome : s.str ≠ none ∨ s.forms ≠ []) {ls gs} (h : InEntry ls gs []) :
    InEntry (ls ++ s.lines P) (gs ++ [s.items]) [] := by
  obtain ⟨h1, hl1⟩ := h.comments s.cmts hc rfl
  rw [List.nil_append] at h1 hl1
  have hn1 : numForms (s.cmts.map .comment) = 0 := by rw [numForms_eq, texts_comments]; rfl
  -- context
  have h2 : InEntry (ls ++ s.cmts ++ optLines P .ctxt (if s.ctxt = [] then none else some s.ctxt)) gs
      (s.cmts.map .comment ++ optItems .ctxt (if s.ctxt = [] then none else some s.ctxt)) ∧
      (lastField (s.cmts.map .comment ++ optItems .ctxt (if s.ctxt = [] then none else some s.ctxt)) = none ∨
      lastField (s.cmts.map .comment ++ optItems .ctxt (if s.ctxt = [] then none else some s.ctxt)) = some .ctxt) := by
    by_cases hx : s.ctxt = []
    · simp [hx, optLines, optItems, h1, hl1]
    · have := h1.string P h10 .ctxt s.ctxt (by intro d; simp [hl1, Starts]) (fun _ d => trivial)
      rw [hn1] at this
      simp only [hx, if_false, optLines, optItems]
      exact ⟨this, .inr (lastField_string _ _ _)⟩
  obtain ⟨h2, hl2⟩ := h2
  generalize hg2 : s.cmts.map Item.comment ++ optItems .ctxt (if s.ctxt = [] then none else some s.ctxt) = g2 at h2 hl2
  have hn2 : numForms g2 = 0 := by
    rw [numForms_eq, ← hg2, texts_opt, texts_comments]; simp
  -- id
  have h3 := h2.string P h10 .id s.id (by
    intro d; rcases hl2 with hl2 | hl2 <;> simp [hl2, Starts]) (fun _ d => trivial)
  rw [hn2] at h3
  generalize hg3 : g2 ++ stringItems .id s.id = g3 at h3
  have hne3 : g3 ≠ [] := by rw [← hg3]; exact string_ne_nil _ _ _
  have hl3 : lastField g3 = some .id := by rw [← hg3]; exact lastField_string _ _ _
  have hn3 : numForms g3 = 0 := by
    rw [numForms_eq, ← hg3, texts_string, if_neg (by simp), ← numForms_eq, hn2]
  -- plural id
  have h4 : InEntry (ls ++ s.cmts ++ optLines P .ctxt (if s.ctxt = [] then none else some s.ctxt) ++
      stringLines P 0 .id s.id ++ optLines P .id2 s.id2) gs (g3 ++ optItems .id2 s.id2) ∧
      (lastField (g3 ++ optItems .id2 s.id2) = some .id ∨ lastField (g3 ++ optItems .id2 s.id2) = some .id2) := by
    cases hx : s.id2 with
    | none =>
      have e1 : optLines P .id2 none = [] := rfl
      have e2 : optItems .id2 none = [] := rfl
      rw [e1, e2, List.append_nil, List.append_nil]
      exact ⟨h3, .inl hl3⟩
    | some d2 =>
      have := h3.string P h10 .id2 d2 (by intro d; simp [hl3, Starts]) (fun h => absurd h hne3)
      rw [hn3] at this
      exact ⟨this, .inr (lastField_string _ _ _)⟩
  obtain ⟨h4, hl4⟩ := h4
  have hn4 : numForms (g3 ++ optItems .id2 s.id2) = 0 := by
    rw [numForms_eq, texts_opt, if_neg (by simp), ← numForms_eq, hn3]
  generalize hg4 : g3 ++ optItems .id2 s.id2 = g4 at h4 hl4 hn4
  have hne4 : g4 ≠ [] := by rw [← hg4]; exact opt_ne_nil _ _ _ hne3
  have hit : s.items = g4 ++ optItems .str s.str ++ formItems s.forms := by
    rw [← hg4, ← hg3, ← hg2]; rfl
  have hli : ls ++ s.lines P = ls ++ s.cmts ++ optLines P .ctxt (if s.ctxt = [] then none else some s.ctxt) ++
      stringLines P 0 .id s.id ++ optLines P .id2 s.id2 ++ optLines P .str s.str ++ formLines P 0 s.forms := by
    simp [Shape.lines]
  have fin : InEntry (ls ++ s.lines P) gs s.items ∧
      (lastField s.items = some .str ∨ lastField s.items = some .form) := by
    rw [hit, hli]
    rcases hex with hx | hx
    · rw [hx]
      have hf : s.forms ≠ [] := by
        rcases hsome with h | h
        · exact absurd hx h
        · exact h
      simp only [optLines, optItems, List.append_nil]
      refine ⟨?_, .inr (lastField_forms _ hf _)⟩
      have := h4.forms P h10 s.forms hne4 (by rcases hl4 with hl4 | hl4 <;> simp [hl4])
      rw [hn4] at this
      exact this
    · cases hs : s.str with
      | none =>
        rcases hsome with h | h
        · exact absurd hs h
        · exact absurd hx h
      | some d =>
        rw [hx]
        simp only [optLines, optItems, formLines, formItems, List.flatMap_nil, List.append_nil]
        refine ⟨?_, .inl (lastField_string _ _ _)⟩
        have := h4.string P h10 .str d (by intro d; rcases hl4 with hl4 | hl4 <;> simp [hl4, Starts])
          (fun h => absurd h hne4)
        rw [hn4] at this
        exact this
  left
  refine ⟨rfl, .inr ⟨gs, s.items, rfl, ?_, fin.2⟩⟩
  rcases fin.1 with ⟨hn, _⟩ | ⟨_, hp⟩
  · have := fin.2
    rw [hn] at this
    rcases this with h | h <;> cases h
  · exact hp

theorem shapes_parse (P : Nat → Bool) (h10 : P 10 = false) (ss : List Shape)
    (hss : ∀ s ∈ ss, (∀ c ∈ s.cmts, ∃ t, c = 35 :: t) ∧ (s.str = none ∨ s.forms = []) ∧
      (s.str ≠ none ∨ s.forms ≠ [])) {ls gs} (h : InEntry ls gs []) :
    InEntry (ls ++ ss.flatMap (Shape.lines P)) (gs ++ ss.map Shape.items) [] := by
  induction ss generalizing ls gs with
  | nil => simpa using h
  | cons s ss ih =>
    obtain ⟨a, b, c⟩ := hss s (by simp)
    have := ih (fun s hs => hss s (by simp [hs])) (shape_parse P h10 s a b c h)
    simpa using this

theorem shape_plain (P : Nat → Bool) (h10 : P 10 = false) (h13 : P 13 = false) (s : Shape)
    (hc : ∀ c ∈ s.cmts, Plain c) : ∀ l ∈ s.lines P, Plain l := by
  intro l hl
  have ho : ∀ f o, l ∈ optLines P f o → Plain l := by
    intro f o h
    cases o with
    | none => cases h
    | some d => exact stringLines_plain P h10 h13 _ _ _ l h
  simp only [Shape.lines, List.mem_append] at hl
  rcases hl with ((((h | h) | h) | h) | h) | h
  · exact hc l h
  · exact ho _ _ h
  · exact stringLines_plain P h10 h13 _ _ _ l h
  · exact ho _ _ h
  · exact ho _ _ h
  · exact formLines_plain P h10 h13 _ _ l h

theorem string_nonblank (P : Nat → Bool) (n : Nat) (f : Field) (d : Str) :
    ∀ l ∈ stringLines P n f d, ¬ Blank l := by
  intro l hl
  unfold stringLines at hl
  split at hl
  · cases hl
  · simp only [List.mem_cons, List.mem_map] at hl
    rcases hl with rfl | ⟨p, _, rfl⟩
    · obtain ⟨t, ht⟩ := word_head n f
      rw [ht]
      exact GoStr.trimSpace_ne_nil _ _ GoStr.solid_m
    · exact GoStr.trimSpace_ne_nil _ _ GoStr.solid_quote

theorem form_nonblank (P : Nat → Bool) (i : Nat) (ss : List Str) : ∀ l ∈ formLines P i ss, ¬ Blank l := by
  induction ss generalizing i with
  | nil => intro l hl; cases hl
  | cons s ss ih =>
    intro l hl
    rw [formLines, List.mem_append] at hl
    rcases hl with hl | hl
    · exact string_nonblank P _ _ _ l hl
    · exact ih _ l hl

theorem shape_nonblank (P : Nat → Bool) (s : Shape) (hc : ∀ c ∈ s.cmts, ∃ t, c = 35 :: t) :
    ∀ l ∈ s.lines P, ¬ Blank l := by
  intro l hl
  have ho : ∀ f o, l ∈ optLines P f o → ¬ Blank l := by
    intro f o h
    cases o with
    | none => cases h
    | some d => exact string_nonblank P _ _ _ l h
  simp only [Shape.lines, List.mem_append] at hl
  rcases hl with ((((h | h) | h) | h) | h) | h
  · obtain ⟨t, rfl⟩ := hc l h
    exact GoStr.trimSpace_ne_nil _ _ GoStr.solid_hash
  · exact ho _ _ h
  · exact string_nonblank P _ _ _ l h
  · exact ho _ _ h
  · exact ho _ _ h
  · exact form_nonblank P _ _ l h

/-- The text of shapes: each followed by an empty line. -/
def shapeText (P : Nat → Bool) (ss : List Shape) : Str :=
  ss.flatMap fun s => unlines (s.lines P ++ [[]])

theorem shapeText_eq (P : Nat → Bool) (ss : List Shape) :
    shapeText P ss = unlines (ss.flatMap fun s => s.lines P ++ [[]]) := by
  induction ss with
  | nil => rfl
  | cons s ss ih =>
    have : shapeText P (s :: ss) = unlines (s.lines P ++ [[]]) ++ shapeText P ss := by simp [shapeText]
    rw [this, ih, List.flatMap_cons]
    simp [unlines]

/-- The text of well-formed shapes consists of their entries. -/
theorem shapeText_parses (P : Nat → Bool) (h10 : P 10 = false) (h13 : P 13 = false) (ss : List Shape)
    (hne : ss ≠ [])
    (hss : ∀ s ∈ ss, (∀ c ∈ s.cmts, (∃ t, c = 35 :: t) ∧ Plain c) ∧ (s.str = none ∨ s.forms = []) ∧
      (s.str ≠ none ∨ s.forms ≠ [])) :
    PoText (shapeText P ss) (ss.map Shape.entry) := by
  have hml : meaningfulLines (shapeText P ss) = ss.flatMap (Shape.lines P) := by
    rw [shapeText_eq, meaningful_unlines]
    · clear hne
      induction ss with
      | nil => rfl
      | cons s ss ih =>
        rw [List.flatMap_cons, List.flatMap_cons, List.filter_append, ih (fun x hx => hss x (by simp [hx])),
          List.filter_append]
        congr 1
        have h1 : (s.lines P).filter (fun l => ¬ Blank l) = s.lines P := by
          rw [List.filter_eq_self]
          intro l hl
          simpa using shape_nonblank P s (fun c hc => ((hss s (by simp)).1 c hc).1) l hl
        have h2 : (([[]] : List Str).filter fun l => ¬ Blank l) = [] := by decide
        rw [h1, h2, List.append_nil]
    · intro l hl
      simp only [List.mem_flatMap, List.mem_append, List.mem_singleton] at hl
      obtain ⟨s, hs, hl⟩ := hl
      rcases hl with hl | rfl
      · exact shape_plain P h10 h13 s (fun c hc => ((hss s hs).1 c hc).2) l hl
      · exact ⟨by simp, by simp⟩
  have hp := shapes_parse P h10 ss (fun s hs => ⟨fun c hc => ((hss s hs).1 c hc).1, (hss s hs).2⟩)
    (ls := []) (gs := []) (.inl ⟨rfl, .inl ⟨rfl, rfl⟩⟩)
  rw [List.nil_append, List.nil_append] at hp
  rcases hp with ⟨_, ⟨_, h2⟩ | ⟨gs, g, h2, hp, _⟩⟩ | ⟨h, _⟩
  · simp [hne] at h2
  · refine ⟨gs, g, by rw [hml]; exact hp, ?_⟩
    rw [← h2, List.map_map]
    apply List.map_congr_left
    intro s _
    exact (shape_entry s).symm
  · exact absurd rfl h

end Verif.Tr
