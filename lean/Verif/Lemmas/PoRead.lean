import Verif.Spec.Po
import Verif.Lemmas.PoReader
import Verif.Lemmas.Trim
import Verif.Lemmas.Strings
/-! # Reading PO text: the reader follows `Parse` -/
namespace Verif.Tr
open Verif
set_option linter.unusedSimpArgs false

/-- `previousLineState` for a last field. -/
def stOf : Option Field → PState
  | none => .start
  | some .ctxt => .ctxt
  | some .id => .id
  | some .id2 => .id2
  | some .str => .str
  | some .form => .strN

theorem stOf_inj (a b : Option Field) (h : stOf a = stOf b) : a = b := by
  rcases a with _ | a <;> rcases b with _ | b <;> (try cases a) <;> (try cases b) <;> first | rfl | cases h

theorem lastField_field (g : List Item) (f : Field) (d : Str) :
    lastField (g ++ [.field f d]) = some f := by simp [lastField]
theorem lastField_more (g : List Item) (d : Str) : lastField (g ++ [.more d]) = lastField g := by
  simp [lastField]
theorem lastField_comment (g : List Item) (d : Str) : lastField (g ++ [.comment d]) = lastField g := by
  simp [lastField]

theorem texts_field (f f' : Field) (g : List Item) (d : Str) :
    texts f (g ++ [.field f' d]) = if f' = f then texts f g ++ [d] else texts f g := by
  induction g with
  | nil => simp [texts, moreText]
  | cons x g ih =>
    have hm : moreText (g ++ [.field f' d]) = moreText g := by
      clear ih
      induction g with
      | nil => simp [moreText]
      | cons y g ih2 => cases y <;> simp [moreText, ih2]
    cases x with
    | comment l => simp [texts, ih]
    | more l => simp [texts, ih]
    | field f'' d' =>
      simp only [List.cons_append, texts, hm, ih]
      split <;> split <;> simp

theorem texts_comment (f : Field) (g : List Item) (d : Str) :
    texts f (g ++ [.comment d]) = texts f g := by
  induction g with
  | nil => simp [texts]
  | cons x g ih =>
    have hm : moreText (g ++ [.comment d]) = moreText g := by
      clear ih
      induction g with
      | nil => simp [moreText]
      | cons y g ih2 => cases y <;> simp [moreText, ih2]
    cases x <;> simp [texts, ih, hm]

/-- Append to the last element. -/
def addLast (l : List Str) (d : Str) : List Str :=
  match l with
  | [] => []
  | [s] => [s ++ d]
  | s :: t :: l => s :: addLast (t :: l) d

theorem addLast_flatten (l : List Str) (d : Str) (h : l ≠ []) : (addLast l d).flatten = l.flatten ++ d := by
  match l, h with
  | [s], _ => simp [addLast]
  | s :: t :: l, _ =>
    have := addLast_flatten (t :: l) d (by simp)
    simp [addLast, this]

theorem addLast_length (l : List Str) (d : Str) : (addLast l d).length = l.length := by
  match l with
  | [] => rfl
  | [s] => rfl
  | s :: t :: l => simp [addLast, addLast_length (t :: l) d]

theorem appendLast_eq (l : List Str) (d : Str) (h : l ≠ []) : appendLast l d = some (addLast l d) := by
  have key : ∀ l : List Str, ∀ s, appendLast (l ++ [s]) d = some (l ++ [s ++ d]) := by
    intro l s; simp [appendLast]
  have key2 : ∀ l : List Str, ∀ s, addLast (l ++ [s]) d = l ++ [s ++ d] := by
    intro l s
    induction l with
    | nil => rfl
    | cons a l ih =>
      cases l with
      | nil => rfl
      | cons b l => simp only [List.cons_append] at ih ⊢; simp [addLast, ih]
  obtain ⟨l', s, rfl⟩ : ∃ l' s, l = l' ++ [s] := ⟨l.dropLast, l.getLast h, (List.dropLast_concat_getLast h).symm⟩
  rw [key, key2]

theorem lastField_cons (x : Item) (g : List Item) : lastField (x :: g) =
    match lastField g with
    | some f => some f
    | none => match x with
      | .field f _ => some f
      | _ => none := by
  unfold lastField
  cases x with
  | comment l => simp only [List.filterMap_cons]; cases List.getLast? _ <;> rfl
  | more l => simp only [List.filterMap_cons]; cases List.getLast? _ <;> rfl
  | field f d =>
    simp only [List.filterMap_cons]
    cases h : List.filterMap _ g with
    | nil => rfl
    | cons a l => simp [List.getLast?_cons_cons]; rw [List.getLast?_eq_some_getLast (by simp)]

theorem texts_ne_nil (f : Field) (g : List Item) (h : lastField g = some f) : texts f g ≠ [] := by
  induction g with
  | nil => simp [lastField] at h
  | cons x g ih =>
    rw [lastField_cons] at h
    cases hl : lastField g with
    | some f' =>
      rw [hl] at h
      simp at h
      subst h
      have := ih hl
      cases x with
      | comment l => simpa [texts] using this
      | more l => simpa [texts] using this
      | field f'' d => simp only [texts]; split <;> simp [this]
    | none =>
      rw [hl] at h
      cases x with
      | comment l => simp at h
      | more l => simp at h
      | field f'' d => simp at h; subst h; simp [texts]

theorem moreText_more (g : List Item) (d : Str) :
    moreText (g ++ [.more d]) = if lastField g = none then moreText g ++ d else moreText g := by
  induction g with
  | nil => simp [moreText, lastField]
  | cons x g ih =>
    rw [lastField_cons]
    cases x with
    | comment l =>
      simp only [List.cons_append, moreText, ih]
      cases lastField g <;> simp
    | more l =>
      simp only [List.cons_append, moreText, ih]
      cases lastField g <;> simp
    | field f d' =>
      simp only [List.cons_append, moreText]
      cases lastField g <;> simp

theorem texts_none (f : Field) (g : List Item) (h : lastField g = none) : texts f g = [] := by
  induction g with
  | nil => rfl
  | cons x g ih =>
    rw [lastField_cons] at h
    cases hl : lastField g with
    | some f' => rw [hl] at h; simp at h
    | none =>
      rw [hl] at h
      cases x with
      | comment l => simpa [texts] using ih hl
      | more l => simpa [texts] using ih hl
      | field f d => simp at h

theorem texts_more (f : Field) (g : List Item) (d : Str) :
    texts f (g ++ [.more d]) = if lastField g = some f then addLast (texts f g) d else texts f g := by
  induction g with
  | nil => simp [texts, lastField]
  | cons x g ih =>
    rw [lastField_cons]
    cases x with
    | comment l => simp only [List.cons_append, texts, ih]; cases lastField g <;> simp
    | more l => simp only [List.cons_append, texts, ih]; cases lastField g <;> simp
    | field f' d' =>
      simp only [List.cons_append, texts, ih, moreText_more]
      cases hl : lastField g with
      | none =>
        have := texts_none f g hl
        by_cases hf : f' = f
        · simp [hf, this, addLast]
        · simp [hf, this]
      | some f'' =>
        by_cases hf' : f' = f
        · by_cases hf : f'' = f
          · subst hf; subst hf'
            have hne := texts_ne_nil _ g hl
            cases ht : texts f' g with
            | nil => exact absurd ht hne
            | cons a l => simp [addLast]
          · simp [hf, hf']
        · by_cases hf : f'' = f
          · simp [hf, hf']
          · simp [hf, hf']

theorem numForms_eq (g : List Item) : numForms g = (texts .form g).length := by
  induction g with
  | nil => rfl
  | cons x g ih =>
    unfold numForms at ih ⊢
    rw [List.countP_cons, ih]
    cases x with
    | comment l => simp [texts]
    | more l => simp [texts]
    | field f d => cases f <;> simp [texts]

theorem word_form (n : Nat) : Field.word n .form = msgstrN n := rfl

/-- The prefix test for the keyword of a field. -/
theorem prefix_word (n : Nat) (f : Field) (line : Str) :
    GoStr.hasPrefix line (f.word n ++ [32]) = true ↔ ∃ q, line = f.word n ++ 32 :: q := by
  rw [GoStr.hasPrefix_iff]
  constructor
  · rintro ⟨t, h⟩; exact ⟨t, by simpa using h⟩
  · rintro ⟨t, h⟩; exact ⟨t, by simpa using h⟩

theorem trim_word (n : Nat) (f : Field) (q : Str) :
    GoStr.trimPrefix (f.word n ++ 32 :: q) (f.word n ++ [32]) = q := by
  have : f.word n ++ 32 :: q = (f.word n ++ [32]) ++ q := by simp
  rw [this, GoStr.trimPrefix_append]

/-- The keyword branch of a field, in the state given by its items. -/
def fieldStep (e : Entry) (f : Field) (d : Str) : Step :=
  match f with
  | .ctxt => .cont { e with ctxt := e.ctxt ++ d } .ctxt
  | .id2 => .cont { e with id2 := e.id2 ++ d, isPlural := true } .id2
  | .id => .cont { e with id := e.id ++ d } .id
  | .form => .cont { e with strN := e.strN ++ [d] } .strN
  | .str => .cont { e with str := e.str ++ d } .str

/-- Is a keyword line of this field the start of the next entry? -/
def fieldDone (st : PState) (f : Field) : Bool :=
  match f with
  | .ctxt => st ≠ .start
  | .id2 => st = .id2 ∨ st = .str ∨ st = .strN
  | .id => st = .id ∨ st = .id2 ∨ st = .str ∨ st = .strN
  | .form => st = .str
  | .str => st = .strN

theorem fieldDone_iff (p : Option Field) (f : Field) (d : Str) :
    fieldDone (stOf p) f = true ↔ Starts p (.field f d) := by
  rcases p with _ | p
  · cases f <;> simp [fieldDone, stOf, Starts]
  · cases p <;> cases f <;> simp [fieldDone, stOf, Starts]

/-- `step` on a line that starts with the keyword of a field. -/
theorem step_word (e : Entry) (st : PState) (f : Field) (n : Nat) (hn : n = e.strN.length) (q : Str) :
    step e st (f.word n ++ 32 :: q) =
      if fieldDone st f then .done
      else match Quote.unquote (GoStr.trimSpace q) with
        | some d => fieldStep e f d
        | none => .bad badQuote := by
  have hnb : GoStr.trimSpace (f.word n ++ 32 :: q) ≠ [] := by
    cases f <;> exact GoStr.trimSpace_ne_nil 109 _ GoStr.solid_m
  have hp := (prefix_word n f (f.word n ++ 32 :: q)).mpr ⟨q, rfl⟩
  have ht := trim_word n f q
  have hfp : formPrefix e = Field.word n .form ++ [32] := by simp [formPrefix, word_form, hn]
  unfold step
  rw [if_neg hnb, hfp]
  cases f with
  | ctxt =>
    have h1 : GoStr.hasPrefix (Field.word n .ctxt ++ 32 :: q) b!"#" = false := by
      simp [GoStr.hasPrefix, Field.word, List.isPrefixOf]
    have h2 : GoStr.hasPrefix (Field.word n .ctxt ++ 32 :: q) b!"msgctxt " = true := hp
    have h3 : GoStr.trimPrefix (Field.word n .ctxt ++ 32 :: q) b!"msgctxt " = q := ht
    simp only [h1, h2, if_true, Bool.false_eq_true, if_false, keywordLine, removePrefixAndUnquote, h3, fieldDone]
    simp only [decide_eq_true_eq]
    rfl
  | id2 =>
    have h1 : GoStr.hasPrefix (Field.word n .id2 ++ 32 :: q) b!"#" = false := by
      simp [GoStr.hasPrefix, Field.word, List.isPrefixOf]
    have h2 : GoStr.hasPrefix (Field.word n .id2 ++ 32 :: q) b!"msgctxt " = false := by
      simp [GoStr.hasPrefix, Field.word, List.isPrefixOf]
    have h3 : GoStr.hasPrefix (Field.word n .id2 ++ 32 :: q) b!"msgid_plural " = true := hp
    have h4 : GoStr.trimPrefix (Field.word n .id2 ++ 32 :: q) b!"msgid_plural " = q := ht
    simp only [h1, h2, h3, if_true, Bool.false_eq_true, if_false, keywordLine, removePrefixAndUnquote, h4, fieldDone]
    simp only [decide_eq_true_eq]
    rfl
  | id =>
    have h1 : GoStr.hasPrefix (Field.word n .id ++ 32 :: q) b!"#" = false := by
      simp [GoStr.hasPrefix, Field.word, List.isPrefixOf]
    have h2 : GoStr.hasPrefix (Field.word n .id ++ 32 :: q) b!"msgctxt " = false := by
      simp [GoStr.hasPrefix, Field.word, List.isPrefixOf]
    have h2' : GoStr.hasPrefix (Field.word n .id ++ 32 :: q) b!"msgid_plural " = false := by
      simp [GoStr.hasPrefix, Field.word, List.isPrefixOf]
    have h3 : GoStr.hasPrefix (Field.word n .id ++ 32 :: q) b!"msgid " = true := hp
    have h4 : GoStr.trimPrefix (Field.word n .id ++ 32 :: q) b!"msgid " = q := ht
    simp only [h1, h2, h2', h3, if_true, Bool.false_eq_true, if_false, keywordLine, removePrefixAndUnquote, h4, fieldDone]
    simp only [decide_eq_true_eq]
    rfl
  | form =>
    have h1 : GoStr.hasPrefix (Field.word n .form ++ 32 :: q) b!"#" = false := by
      simp [GoStr.hasPrefix, Field.word, List.isPrefixOf]
    have h2 : GoStr.hasPrefix (Field.word n .form ++ 32 :: q) b!"msgctxt " = false := by
      simp [GoStr.hasPrefix, Field.word, List.isPrefixOf]
    have h2' : GoStr.hasPrefix (Field.word n .form ++ 32 :: q) b!"msgid_plural " = false := by
      simp [GoStr.hasPrefix, Field.word, List.isPrefixOf]
    have h2'' : GoStr.hasPrefix (Field.word n .form ++ 32 :: q) b!"msgid " = false := by
      simp [GoStr.hasPrefix, Field.word, List.isPrefixOf]
    simp only [h1, h2, h2', h2'', hp, if_true, Bool.false_eq_true, if_false, keywordLine, removePrefixAndUnquote, ht, fieldDone]
    simp only [decide_eq_true_eq]
    rfl
  | str =>
    have h1 : GoStr.hasPrefix (Field.word n .str ++ 32 :: q) b!"#" = false := by
      simp [GoStr.hasPrefix, Field.word, List.isPrefixOf]
    have h2 : GoStr.hasPrefix (Field.word n .str ++ 32 :: q) b!"msgctxt " = false := by
      simp [GoStr.hasPrefix, Field.word, List.isPrefixOf]
    have h2' : GoStr.hasPrefix (Field.word n .str ++ 32 :: q) b!"msgid_plural " = false := by
      simp [GoStr.hasPrefix, Field.word, List.isPrefixOf]
    have h2'' : GoStr.hasPrefix (Field.word n .str ++ 32 :: q) b!"msgid " = false := by
      simp [GoStr.hasPrefix, Field.word, List.isPrefixOf]
    have h2''' : GoStr.hasPrefix (Field.word n .str ++ 32 :: q) (Field.word n .form ++ [32]) = false := by
      simp [GoStr.hasPrefix, Field.word, List.isPrefixOf]
    have h3 : GoStr.hasPrefix (Field.word n .str ++ 32 :: q) b!"msgstr " = true := hp
    have h4 : GoStr.trimPrefix (Field.word n .str ++ 32 :: q) b!"msgstr " = q := ht
    simp only [h1, h2, h2', h2'', h2''', h3, if_true, Bool.false_eq_true, if_false, keywordLine, removePrefixAndUnquote, h4, fieldDone]
    simp only [decide_eq_true_eq]
    rfl

theorem step_comment (e : Entry) (st : PState) (t : Str) :
    step e st (35 :: t) =
      if st ≠ .start then .done else .cont { e with cmts := e.cmts ++ [35 :: t] } st := by
  unfold step
  rw [if_neg (GoStr.trimSpace_ne_nil 35 _ GoStr.solid_hash), if_pos (by simp [GoStr.hasPrefix, List.isPrefixOf])]

theorem step_more (e : Entry) (st : PState) (t : Str) :
    step e st (34 :: t) = contLine e st (34 :: t) := by
  unfold step
  rw [if_neg (GoStr.trimSpace_ne_nil 34 _ GoStr.solid_quote)]
  have : ∀ p : Str, GoStr.hasPrefix (34 :: t) (109 :: p) = false := by simp [GoStr.hasPrefix, List.isPrefixOf]
  have h1 : GoStr.hasPrefix (34 :: t) (formPrefix e) = false := this _
  have h2 : GoStr.hasPrefix (34 :: t) b!"#" = false := by simp [GoStr.hasPrefix, List.isPrefixOf]
  have h3 : GoStr.hasPrefix (34 :: t) b!"\"" = true := by simp [GoStr.hasPrefix, List.isPrefixOf]
  simp only [this, h1, h2, h3, Bool.false_eq_true, if_false, if_true]

/-- Every other non-blank line is an error. -/
theorem step_junk (e : Entry) (st : PState) (line : Str) (hb : ¬ Blank line)
    (h1 : ∀ t, line ≠ 35 :: t) (h2 : ∀ f q, line ≠ Field.word e.strN.length f ++ 32 :: q)
    (h3 : ∀ t, line ≠ 34 :: t) : step e st line = .bad badLine := by
  have hw : ∀ f, GoStr.hasPrefix line (Field.word e.strN.length f ++ [32]) = false := by
    intro f
    rw [Bool.eq_false_iff]
    intro h
    obtain ⟨q, hq⟩ := (prefix_word _ _ _).mp h
    exact h2 f q hq
  have hc : ∀ c, (∀ t, line ≠ c :: t) → GoStr.hasPrefix line [c] = false := by
    intro c h
    rw [Bool.eq_false_iff]
    intro hh
    obtain ⟨q, hq⟩ := (GoStr.hasPrefix_iff _ _).mp hh
    exact h q (by simpa using hq)
  unfold Blank at hb
  unfold step
  rw [if_neg hb]
  have e1 : GoStr.hasPrefix line b!"msgctxt " = false := hw .ctxt
  have e2 : GoStr.hasPrefix line b!"msgid_plural " = false := hw .id2
  have e3 : GoStr.hasPrefix line b!"msgid " = false := hw .id
  have e4 : GoStr.hasPrefix line (formPrefix e) = false := hw .form
  have e5 : GoStr.hasPrefix line b!"msgstr " = false := hw .str
  simp [hc 35 h1, hc 34 h3, e1, e2, e3, e4, e5]

/-- The ways a non-blank line can look. -/
theorem line_cases (n : Nat) (line : Str) :
    (∃ t, line = 35 :: t) ∨ (∃ f q, line = Field.word n f ++ 32 :: q) ∨ (∃ t, line = 34 :: t) ∨
    ((∀ t, line ≠ 35 :: t) ∧ (∀ f q, line ≠ Field.word n f ++ 32 :: q) ∧ (∀ t, line ≠ 34 :: t)) := by
  by_cases h1 : ∃ t, line = 35 :: t
  · exact Or.inl h1
  by_cases h2 : ∃ f q, line = Field.word n f ++ 32 :: q
  · exact Or.inr (Or.inl h2)
  by_cases h3 : ∃ t, line = 34 :: t
  · exact Or.inr (Or.inr (Or.inl h3))
  · refine Or.inr (Or.inr (Or.inr ⟨?_, ?_, ?_⟩))
    · intro t h; exact h1 ⟨t, h⟩
    · intro f q h; exact h2 ⟨f, q, h⟩
    · intro t h; exact h3 ⟨t, h⟩

theorem word_head (n : Nat) (f : Field) : ∃ t, Field.word n f = 109 :: t := by
  cases f <;> exact ⟨_, rfl⟩

theorem entryOf_field (g : List Item) (f : Field) (d : Str) :
    fieldStep (entryOf g) f d =
      .cont (entryOf (g ++ [.field f d])) (stOf (lastField (g ++ [.field f d]))) := by
  rw [lastField_field]
  cases f <;> simp [fieldStep, stOf, entryOf, texts_field, comments]

theorem entryOf_comment (g : List Item) (l : Str) :
    { entryOf g with cmts := (entryOf g).cmts ++ [l] } = entryOf (g ++ [.comment l]) := by
  simp [entryOf, texts_comment, comments]

theorem contLine_spec (g : List Item) (t : Str) :
    contLine (entryOf g) (stOf (lastField g)) (34 :: t) =
      match Quote.unquote (GoStr.trimSpace (34 :: t)) with
      | some d => .cont (entryOf (g ++ [.more d])) (stOf (lastField (g ++ [.more d])))
      | none => .bad badQuote := by
  unfold contLine removePrefixAndUnquote
  have : GoStr.trimPrefix (34 :: t) [] = 34 :: t := by simp [GoStr.trimPrefix, GoStr.hasPrefix]
  rw [this]
  cases Quote.unquote (GoStr.trimSpace (34 :: t)) with
  | none => rfl
  | some d =>
    dsimp only
    rw [lastField_more]
    cases hl : lastField g with
    | none => simp [stOf, entryOf, texts_more, hl, comments]
    | some f =>
      have hne := texts_ne_nil f g hl
      cases f with
      | form =>
        have := appendLast_eq (texts .form g) d hne
        simp only [stOf, entryOf, this]
        simp [texts_more, hl, comments]
      | _ =>
        simp only [stOf, entryOf]
        simp [texts_more, hl, comments, addLast_flatten _ _ hne]
        try (constructor <;> intro h <;> exfalso <;> apply hne <;> first
          | exact h
          | (have := congrArg List.length h; rw [addLast_length] at this; simpa using this))

theorem digitsAux_mem (f n : Nat) : ∀ c ∈ Num.digitsAux f n, 48 ≤ c.toNat ∧ c.toNat ≤ 57 := by
  have hb : ∀ d, d < 10 → 48 ≤ (UInt8.ofNat (48 + d)).toNat ∧ (UInt8.ofNat (48 + d)).toNat ≤ 57 := by
    intro d hd
    have : (UInt8.ofNat (48 + d)).toNat = 48 + d := by
      rw [UInt8.toNat_ofNat']; omega
    omega
  induction f generalizing n with
  | zero => simp [Num.digitsAux]
  | succ f ih =>
    intro c hc
    rw [Num.digitsAux] at hc
    split at hc
    · rw [List.mem_singleton] at hc
      subst hc; apply hb; omega
    · rw [List.mem_append, List.mem_singleton] at hc
      rcases hc with hc | rfl
      · exact ih _ c hc
      · apply hb; omega

theorem word_no_blank (n : Nat) (f : Field) : (32 : UInt8) ∉ Field.word n f := by
  cases f with
  | form =>
    intro h
    simp only [Field.word, List.mem_append] at h
    rcases h with (h | h) | h
    · revert h; decide
    · have := digitsAux_mem _ _ _ h
      revert this; decide
    · revert h; decide
  | _ => simp [Field.word]

theorem word_inj (n m : Nat) (f f' : Field) (q q' : Str)
    (h : Field.word n f ++ 32 :: q = Field.word m f' ++ 32 :: q') : f = f' ∧ q = q' := by
  obtain ⟨h1, h2⟩ := GoStr.first_occurrence 32 _ _ _ _ (word_no_blank n f) (word_no_blank m f') h
  refine ⟨?_, h2⟩
  cases f <;> cases f' <;> first | rfl | (exfalso; simp [Field.word] at h1)

/-- What `step` does on a non-blank line, in the state given by the items of the current entry. -/
theorem step_spec (g : List Item) (line : Str) (hb : ¬ Blank line)
    (hinv : lastField g = some .str → numForms g = 0) :
    (∃ x, IsItem (numForms g) line x ∧ ¬ Starts (lastField g) x ∧
      step (entryOf g) (stOf (lastField g)) line =
        .cont (entryOf (g ++ [x])) (stOf (lastField (g ++ [x])))) ∨
    (step (entryOf g) (stOf (lastField g)) line = .done ∧
      (∀ x, IsItem (numForms g) line x → Starts (lastField g) x) ∧
      (∀ x, IsItem 0 line x → Starts (lastField g) x)) ∨
    ((∃ err, step (entryOf g) (stOf (lastField g)) line = .bad err ∧ Errors.is Errors.eof err = false) ∧
      (∀ x, ¬ IsItem (numForms g) line x) ∧
      (∀ x, IsItem 0 line x → ¬ Starts (lastField g) x)) := by
  have hnf : numForms g = (entryOf g).strN.length := numForms_eq g
  have hq : Errors.is Errors.eof badQuote = false := by decide
  have hj : Errors.is Errors.eof badLine = false := by decide
  rcases line_cases (numForms g) line with ⟨t, rfl⟩ | ⟨f, q, rfl⟩ | ⟨t, rfl⟩ | ⟨h1, h2, h3⟩
  · -- comment
    have hit : ∀ n x, IsItem n (35 :: t) x → x = .comment (35 :: t) := by
      intro n x hx
      generalize hl : 35 :: t = line at hx
      cases hx with
      | comment t => rfl
      | field f q d h =>
        obtain ⟨w, hw⟩ := word_head n f
        rw [hw] at hl; cases hl
      | more => cases hl
    rw [step_comment]
    cases hl : lastField g with
    | none =>
      refine Or.inl ⟨_, .comment t, by simp [Starts], ?_⟩
      rw [lastField_comment, hl]
      simp [stOf, ← entryOf_comment]
    | some f =>
      refine Or.inr (Or.inl ⟨?_, ?_, ?_⟩)
      · rw [if_pos]; cases f <;> simp [stOf]
      · intro x hx; rw [hit _ x hx]; simp [Starts]
      · intro x hx; rw [hit _ x hx]; simp [Starts]
  · -- keyword
    have hit : ∀ n x, IsItem n (f.word (numForms g) ++ 32 :: q) x → ∃ d, x = .field f d ∧ Quotes q d := by
      intro n x hx
      generalize hl : f.word (numForms g) ++ 32 :: q = line at hx
      cases hx with
      | comment t =>
        obtain ⟨w, hw⟩ := word_head (numForms g) f
        rw [hw] at hl; cases hl
      | more t =>
        obtain ⟨w, hw⟩ := word_head (numForms g) f
        rw [hw] at hl; cases hl
      | field f' q' d h =>
        obtain ⟨rfl, rfl⟩ := word_inj _ _ _ _ _ _ hl
        exact ⟨d, rfl, h⟩
    rw [step_word (entryOf g) _ f _ hnf q]
    by_cases hd : fieldDone (stOf (lastField g)) f = true
    · rw [if_pos hd]
      have hs := fun d => (fieldDone_iff (lastField g) f d).mp hd
      refine Or.inr (Or.inl ⟨rfl, ?_, ?_⟩)
      · intro x hx; obtain ⟨d, rfl, _⟩ := hit _ x hx; exact hs d
      · intro x hx; obtain ⟨d, rfl, _⟩ := hit _ x hx; exact hs d
    · rw [if_neg hd]
      have hs : ∀ d, ¬ Starts (lastField g) (.field f d) := fun d h => hd ((fieldDone_iff _ f d).mpr h)
      cases hu : Quote.unquote (GoStr.trimSpace q) with
      | some d => exact Or.inl ⟨.field f d, .field f q d hu, hs d, entryOf_field g f d⟩
      | none =>
        refine Or.inr (Or.inr ⟨⟨_, rfl, hq⟩, ?_, ?_⟩)
        · intro x hx; obtain ⟨d, rfl, h⟩ := hit _ x hx; unfold Quotes at h; rw [hu] at h; cases h
        · intro x hx; obtain ⟨d, rfl, h⟩ := hit _ x hx; exact hs d
  · -- continuation
    have hit : ∀ n x, IsItem n (34 :: t) x → ∃ d, x = .more d ∧ Quotes (34 :: t) d := by
      intro n x hx
      generalize hl : 34 :: t = line at hx
      cases hx with
      | comment t => cases hl
      | field f q d h =>
        obtain ⟨w, hw⟩ := word_head n f
        rw [hw] at hl; cases hl
      | more t d h => exact ⟨d, rfl, h⟩
    rw [step_more, contLine_spec]
    cases hu : Quote.unquote (GoStr.trimSpace (34 :: t)) with
    | some d =>
      refine Or.inl ⟨.more d, .more t d hu, ?_, rfl⟩
      cases lastField g <;> simp [Starts]
    | none =>
      refine Or.inr (Or.inr ⟨⟨_, rfl, hq⟩, ?_, ?_⟩)
      · intro x hx; obtain ⟨d, rfl, h⟩ := hit _ x hx; unfold Quotes at h; rw [hu] at h; cases h
      · intro x hx; obtain ⟨d, rfl, h⟩ := hit _ x hx; unfold Quotes at h; rw [hu] at h; cases h
  · -- junk
    have hj' := step_junk (entryOf g) (stOf (lastField g)) line hb h1 (by rw [← hnf]; exact h2) h3
    refine Or.inr (Or.inr ⟨⟨_, hj', hj⟩, ?_, ?_⟩)
    · intro x hx
      cases hx with
      | comment t => exact h1 _ rfl
      | field f q d h => exact h2 _ _ rfl
      | more t d h => exact h3 _ rfl
    · intro x hx hs
      cases hx with
      | comment t => exact h1 _ rfl
      | field f q d h =>
        by_cases hf : f = .form
        · subst hf
          have hl : lastField g = some .str := by
            cases hl : lastField g with
            | none => rw [hl] at hs; simp [Starts] at hs
            | some p => rw [hl] at hs; simp [Starts] at hs; rw [hs]
          exact h2 .form q (by rw [hinv hl])
        · apply h2 f q
          cases f <;> first | rfl | exact absurd rfl hf
      | more t d h => exact h3 _ rfl

theorem parse_inv {ls gs g} (h : Parse ls gs g) : 0 < numForms g → lastField g = some .form := by
  induction h with
  | nil => intro h; simp [numForms] at h
  | @same ls gs g line x hp hx hs ih =>
    intro hpos
    cases x with
    | comment l =>
      rw [lastField_comment]; apply ih
      simpa [numForms, List.countP_append] using hpos
    | more d =>
      rw [lastField_more]; apply ih
      simpa [numForms, List.countP_append] using hpos
    | field f d =>
      rw [lastField_field]
      by_cases hf : f = .form
      · rw [hf]
      · exfalso
        have h0 : 0 < numForms g := by
          rw [numForms, List.countP_append] at hpos
          cases f <;> simp at hpos <;> first | exact absurd rfl hf | (rw [numForms, List.countP_pos_iff]; simpa using hpos)
        have hl := ih h0
        rw [hl] at hs
        cases f <;> simp [Starts] at hs <;> exact absurd rfl hf
  | @next ls gs g line x hp hx hs ih =>
    intro hpos
    cases x with
    | comment l => simp [numForms] at hpos
    | more d => simp [numForms] at hpos
    | field f d => cases f <;> simp [numForms, lastField] at hpos ⊢

/-- The loop of `readPo` in the middle of an entry. -/
def loopFrom (pot : Bool) (lines : List Str) (f : File) (e : Entry) (st : PState) : Res File :=
  match readEntry lines e st with
  | .eof e => .ok (addRead pot f e)
  | .entry e rest => readLoop pot rest (addRead pot f e)
  | .bad err => if pot then .panic else if Errors.is Errors.eof err then .ok f else .err
  | .panic => .panic

theorem readLoop_eq (pot : Bool) (lines : List Str) (f : File) :
    readLoop pot lines f = loopFrom pot lines f {} .start := by
  rw [readLoop]
  unfold loopFrom
  split <;> rename_i h <;> rw [h]

theorem loopFrom_cont (pot : Bool) (line : Str) (lines : List Str) (f : File) (e e' : Entry)
    (st st' : PState) (h : step e st line = .cont e' st') :
    loopFrom pot (line :: lines) f e st = loopFrom pot lines f e' st' := by
  unfold loopFrom
  rw [readEntry, h]

theorem loopFrom_done (pot : Bool) (line : Str) (lines : List Str) (f : File) (e : Entry)
    (st : PState) (h : step e st line = .done) :
    loopFrom pot (line :: lines) f e st = loopFrom pot (line :: lines) (addRead pot f e) {} .start := by
  rw [← readLoop_eq]
  conv => lhs; unfold loopFrom
  rw [readEntry, h]

theorem loopFrom_bad (pot : Bool) (line : Str) (lines : List Str) (f : File) (e : Entry)
    (st : PState) (err : Errors.Err) (h : step e st line = .bad err)
    (he : Errors.is Errors.eof err = false) :
    loopFrom pot (line :: lines) f e st = if pot then .panic else .err := by
  unfold loopFrom
  rw [readEntry, h]
  simp [he]

theorem step_blank (line : Str) (h : Blank line) (e : Entry) (st : PState) :
    step e st line = .cont e st := by
  unfold step
  exact if_pos h

/-- Blank lines do not matter. -/
theorem loopFrom_blank (pot : Bool) (lines : List Str) (f : File) (e : Entry) (st : PState) :
    loopFrom pot lines f e st = loopFrom pot (lines.filter fun l => ¬ Blank l) f e st := by
  have key : ∀ n (lines : List Str), lines.length ≤ n → ∀ f e st,
      loopFrom pot lines f e st = loopFrom pot (lines.filter fun l => ¬ Blank l) f e st := by
    intro n
    induction n with
    | zero =>
      intro lines hl f e st
      have : lines = [] := by simpa using hl
      subst this; rfl
    | succ n ih =>
      intro lines hl f e st
      cases lines with
      | nil => rfl
      | cons line lines =>
        have hl' : lines.length ≤ n := by simpa using hl
        by_cases hb : Blank line
        · rw [loopFrom_cont pot line lines f e e st st (step_blank line hb e st), ih lines hl']
          simp [hb]
        · have hf : ((line :: lines).filter fun l => ¬ Blank l) =
              line :: (lines.filter fun l => ¬ Blank l) := by simp [hb]
          rw [hf]
          have hgo : ∀ f e st, (∀ x, step e st line = x → x ≠ .done) →
              loopFrom pot (line :: lines) f e st =
                loopFrom pot (line :: (lines.filter fun l => ¬ Blank l)) f e st := by
            intro f e st hnd
            cases hs : step e st line with
            | cont e' st' => rw [loopFrom_cont _ _ _ _ _ _ _ _ hs, loopFrom_cont _ _ _ _ _ _ _ _ hs, ih lines hl']
            | done => exact absurd rfl (hnd _ hs)
            | bad err => unfold loopFrom; rw [readEntry, hs, readEntry, hs]
            | panic => unfold loopFrom; rw [readEntry, hs, readEntry, hs]
          cases hs : step e st line with
          | done =>
            rw [loopFrom_done _ _ _ _ _ _ hs, loopFrom_done _ _ _ _ _ _ hs]
            exact hgo _ _ _ (fun x hx => hx ▸ step_start_not_done _ _)
          | cont => exact hgo _ _ _ (fun x hx => by rw [← hx, hs]; simp)
          | bad => exact hgo _ _ _ (fun x hx => by rw [← hx, hs]; simp)
          | panic => exact hgo _ _ _ (fun x hx => by rw [← hx, hs]; simp)
  exact key lines.length lines (Nat.le_refl _) f e st

/-- The file after the complete entries. -/
def fileOf (pot : Bool) (es : List Entry) : File := es.foldl (addRead pot) {}

/-- From a parsed prefix, the loop either succeeds with the parse of everything or stops at the first
malformed line. -/
theorem loop_parse (pot : Bool) (lines pre : List Str) (hnb : ∀ l ∈ lines, ¬ Blank l)
    (gs : List (List Item)) (g : List Item) (hp : Parse pre gs g) :
    (∃ gs' g', Parse (pre ++ lines) gs' g' ∧
      loopFrom pot lines (fileOf pot (gs.map entryOf)) (entryOf g) (stOf (lastField g)) =
        .ok (fileOf pot ((gs' ++ [g']).map entryOf))) ∨
    (∃ mid line post gs' g', lines = mid ++ line :: post ∧ Parse (pre ++ mid) gs' g' ∧
      (∀ x, IsItem (numForms g') line x → Starts (lastField g') x) ∧
      (∀ x, IsItem 0 line x → ¬ Starts (lastField g') x) ∧
      loopFrom pot lines (fileOf pot (gs.map entryOf)) (entryOf g) (stOf (lastField g)) =
        if pot then .panic else .err) := by
  induction lines generalizing pre gs g with
  | nil =>
    left
    refine ⟨gs, g, by simpa using hp, ?_⟩
    unfold loopFrom
    rw [readEntry]
    simp [fileOf, List.foldl_append]
  | cons line lines ih =>
    have hb := hnb line (by simp)
    have hnb' : ∀ l ∈ lines, ¬ Blank l := fun l hl => hnb l (by simp [hl])
    have hinv : lastField g = some .str → numForms g = 0 := by
      intro h
      rcases Nat.eq_zero_or_pos (numForms g) with h0 | h0
      · exact h0
      · have := parse_inv hp h0
        rw [h] at this; cases this
    have lift : ∀ gs1 g1, Parse (pre ++ [line]) gs1 g1 →
        loopFrom pot (line :: lines) (fileOf pot (gs.map entryOf)) (entryOf g) (stOf (lastField g)) =
          loopFrom pot lines (fileOf pot (gs1.map entryOf)) (entryOf g1) (stOf (lastField g1)) →
        (∃ gs' g', Parse (pre ++ line :: lines) gs' g' ∧
          loopFrom pot (line :: lines) (fileOf pot (gs.map entryOf)) (entryOf g) (stOf (lastField g)) =
            .ok (fileOf pot ((gs' ++ [g']).map entryOf))) ∨
        (∃ mid l post gs' g', line :: lines = mid ++ l :: post ∧ Parse (pre ++ mid) gs' g' ∧
          (∀ x, IsItem (numForms g') l x → Starts (lastField g') x) ∧
          (∀ x, IsItem 0 l x → ¬ Starts (lastField g') x) ∧
          loopFrom pot (line :: lines) (fileOf pot (gs.map entryOf)) (entryOf g) (stOf (lastField g)) =
            if pot then .panic else .err) := by
      intro gs1 g1 hp1 heq
      rw [heq]
      rcases ih (pre ++ [line]) hnb' gs1 g1 hp1 with ⟨gs', g', h1, h2⟩ | ⟨mid, l, post, gs', g', h1, h2, h3, h4, h5⟩
      · left; exact ⟨gs', g', by simpa using h1, h2⟩
      · right
        exact ⟨line :: mid, l, post, gs', g', by simp [h1], by simpa using h2, h3, h4, h5⟩
    rcases step_spec g line hb hinv with ⟨x, hx, hs, hst⟩ | ⟨hst, h1, h2⟩ | ⟨⟨err, hst, he⟩, h1, h2⟩
    · exact lift gs (g ++ [x]) (.same hp hx hs) (loopFrom_cont _ _ _ _ _ _ _ _ hst)
    · rw [loopFrom_done _ _ _ _ _ _ hst]
      have hf : addRead pot (fileOf pot (gs.map entryOf)) (entryOf g) =
          fileOf pot ((gs ++ [g]).map entryOf) := by simp [fileOf, List.foldl_append]
      rw [hf]
      have h0 : ({} : Entry) = entryOf [] := by simp [entryOf, texts, comments]
      have h0' : PState.start = stOf (lastField []) := rfl
      have heq := loopFrom_done pot line lines (fileOf pot (gs.map entryOf)) _ _ hst
      rw [hf] at heq
      rcases step_spec [] line hb (by intro h; cases h) with ⟨x, hx, hs, hst'⟩ | ⟨hst', h1', h2'⟩ | ⟨⟨err, hst', he⟩, h1', h2'⟩
      · have hx0 : IsItem 0 line x := hx
        have := loopFrom_cont pot line lines (fileOf pot ((gs ++ [g]).map entryOf)) _ _ _ _ hst'
        rw [← h0, ← h0'] at this
        have hlift := lift (gs ++ [g]) [x] (.next hp hx0 (h2 x hx0)) (by rw [heq, this]; rfl)
        rw [heq] at hlift
        exact hlift
      · rw [← h0, ← h0'] at hst'
        exact absurd hst' (step_start_not_done _ _)
      · right
        refine ⟨[], line, lines, gs, g, by simp, by simpa using hp, h1, ?_, ?_⟩
        · intro x hx _; exact h1' x hx
        · rw [← h0, ← h0'] at hst'
          exact loopFrom_bad _ _ _ _ _ _ err hst' he
    · right
      refine ⟨[], line, lines, gs, g, by simp, by simpa using hp, ?_, h2, loopFrom_bad _ _ _ _ _ _ err hst he⟩
      intro x hx; exact absurd hx (h1 x)

/-- A line is at most one item, whatever the number of plural forms. -/
theorem item_unique (n m : Nat) (line : Str) (x y : Item) (hx : IsItem n line x) (hy : IsItem m line y) :
    x = y := by
  cases hx with
  | comment t =>
    generalize hl : 35 :: t = line at hy
    cases hy with
    | comment => rfl
    | field f q d hq => obtain ⟨t', ht⟩ := word_head m f; rw [ht] at hl; cases hl
    | more => cases hl
  | more t d hq =>
    generalize hl : 34 :: t = line at hy
    cases hy with
    | comment => cases hl
    | more _ d' hq' => rw [Quotes, ← hl, hq] at hq'; cases hq'; rfl
    | field f q d hq => obtain ⟨t', ht⟩ := word_head m f; rw [ht] at hl; cases hl
  | field f q d hq =>
    generalize hl : Field.word n f ++ 32 :: q = line at hy
    cases hy with
    | comment => obtain ⟨t', ht⟩ := word_head n f; rw [ht] at hl; cases hl
    | more => obtain ⟨t', ht⟩ := word_head n f; rw [ht] at hl; cases hl
    | field f' q' d' hq' =>
      obtain ⟨h1, h2⟩ := word_inj _ _ _ _ _ _ hl
      subst h1; subst h2
      rw [Quotes, hq] at hq'; cases hq'; rfl

theorem item_not_blank (n : Nat) (line : Str) (x : Item) (hx : IsItem n line x) : ¬ Blank line := by
  cases hx with
  | comment t => exact GoStr.trimSpace_ne_nil _ _ GoStr.solid_hash
  | more t d hq => exact GoStr.trimSpace_ne_nil _ _ GoStr.solid_quote
  | field f q d hq =>
    obtain ⟨t', ht⟩ := word_head n f
    rw [ht]
    exact GoStr.trimSpace_ne_nil _ _ GoStr.solid_m

theorem parse_str {ls gs g} (hp : Parse ls gs g) : lastField g = some .str → numForms g = 0 := by
  intro h
  rcases Nat.eq_zero_or_pos (numForms g) with h0 | h0
  · exact h0
  · have := parse_inv hp h0
    rw [h] at this; cases this

/-- After the lines of a parse the loop is in the corresponding state. -/
theorem loop_prefix (pot : Bool) {pre gs g} (hp : Parse pre gs g) (rest : List Str) :
    loopFrom pot (pre ++ rest) {} {} .start =
      loopFrom pot rest (fileOf pot (gs.map entryOf)) (entryOf g) (stOf (lastField g)) := by
  induction hp generalizing rest with
  | nil => rfl
  | @same ls gs g line x hp hx hs ih =>
    rw [List.append_assoc, ih]
    rcases step_spec g line (item_not_blank _ _ _ hx) (parse_str hp) with
      ⟨y, hy, hys, hst⟩ | ⟨hst, h1, h2⟩ | ⟨⟨err, hst, he⟩, h1, h2⟩
    · rw [item_unique _ _ _ _ _ hy hx] at hst
      exact loopFrom_cont _ _ _ _ _ _ _ _ hst
    · exact absurd (h1 x hx) hs
    · exact absurd hx (h1 x)
  | @next ls gs g line x hp hx hs ih =>
    rw [List.append_assoc, ih]
    rcases step_spec g line (item_not_blank _ _ _ hx) (parse_str hp) with
      ⟨y, hy, hys, hst⟩ | ⟨hst, h1, h2⟩ | ⟨⟨err, hst, he⟩, h1, h2⟩
    · rw [item_unique _ _ _ _ _ hy hx] at hys
      exact absurd hs hys
    · rw [List.singleton_append, loopFrom_done _ _ _ _ _ _ hst]
      have hf : addRead pot (fileOf pot (gs.map entryOf)) (entryOf g) =
          fileOf pot ((gs ++ [g]).map entryOf) := by simp [fileOf, List.foldl_append]
      rw [hf]
      have h0 : ({} : Entry) = entryOf [] := by simp [entryOf, texts, comments]
      have h0' : PState.start = stOf (lastField []) := rfl
      rcases step_spec [] line (item_not_blank _ _ _ hx) (by intro h; cases h) with
        ⟨y, hy, hys, hst'⟩ | ⟨hst', h1', h2'⟩ | ⟨⟨err, hst', he⟩, h1', h2'⟩
      · rw [item_unique _ _ _ _ _ hy hx, ← h0, ← h0'] at hst'
        exact loopFrom_cont _ _ _ _ _ _ _ _ hst'
      · rw [← h0, ← h0'] at hst'
        exact absurd hst' (step_start_not_done _ _)
      · exact absurd hx (h1' x)
    · exact absurd hs (h2 x hx)

theorem readPo0_eq (pot : Bool) (c : Str) (h : c ≠ []) :
    readPo0 pot c = loopFrom pot (meaningfulLines c) {} {} .start := by
  unfold readPo0
  rw [if_neg h, reader_readLoop, newReader_rest, readLoop_eq, loopFrom_blank]
  · rfl
  · simp [newReader]

theorem readPo0_text (pot : Bool) (c : Str) (h : c ≠ []) (es : List Entry) (hp : PoText c es) :
    readPo0 pot c = .ok (fileOf pot es) := by
  obtain ⟨gs, g, hp, rfl⟩ := hp
  rw [readPo0_eq pot c h]
  have := loop_prefix pot hp []
  rw [List.append_nil] at this
  rw [this]
  unfold loopFrom
  rw [readEntry]
  simp [fileOf, List.foldl_append]

theorem readPo0_malformed (pot : Bool) (c : Str) (h : c ≠ []) (hm : Malformed c) :
    readPo0 pot c = if pot then .panic else .err := by
  obtain ⟨pre, line, post, gs, g, hl, hp, h1, h2⟩ := hm
  rw [readPo0_eq pot c h, hl, loop_prefix pot hp]
  have hb : ¬ Blank line := by
    have : line ∈ meaningfulLines c := by rw [hl]; simp
    simpa using (List.mem_filter.mp this).2
  rcases step_spec g line hb (parse_str hp) with
    ⟨y, hy, hys, hst⟩ | ⟨hst, h1', h2'⟩ | ⟨⟨err, hst, he⟩, h1', h2'⟩
  · exact absurd (h1 y hy) hys
  · rw [loopFrom_done _ _ _ _ _ _ hst]
    have h0 : ({} : Entry) = entryOf [] := by simp [entryOf, texts, comments]
    have h0' : PState.start = stOf (lastField []) := rfl
    rcases step_spec [] line hb (by intro h; cases h) with
      ⟨y, hy, hys, hst'⟩ | ⟨hst', h1', h2'⟩ | ⟨⟨err, hst', he⟩, h1', h2'⟩
    · exact absurd (h2' y hy) (h2 y hy)
    · rw [← h0, ← h0'] at hst'
      exact absurd hst' (step_start_not_done _ _)
    · rw [← h0, ← h0'] at hst'
      exact loopFrom_bad _ _ _ _ _ _ err hst' he
  · exact loopFrom_bad _ _ _ _ _ _ err hst he

/-- Every text is well-formed or malformed. -/
theorem text_or_malformed (c : Str) : (∃ es, PoText c es) ∨ Malformed c := by
  have hnb : ∀ l ∈ meaningfulLines c, ¬ Blank l := by
    intro l hl
    simpa using (List.mem_filter.mp hl).2
  rcases loop_parse false (meaningfulLines c) [] hnb [] [] .nil with
    ⟨gs, g, hp, _⟩ | ⟨mid, line, post, gs, g, h1, h2, h3, h4, _⟩
  · left; exact ⟨_, gs, g, by simpa using hp, rfl⟩
  · right; exact ⟨mid, line, post, gs, g, h1, by simpa using h2, h3, h4⟩

theorem text_unique (c : Str) (es es' : List Entry) (h : PoText c es) (h' : PoText c es') : es = es' := by
  obtain ⟨gs, g, hp, rfl⟩ := h
  obtain ⟨gs', g', hp', rfl⟩ := h'
  have key : ∀ {ls gs g}, Parse ls gs g → ∀ {gs' g'}, Parse ls gs' g' → gs = gs' ∧ g = g' := by
    intro ls gs g hp
    induction hp with
    | nil =>
      intro gs' g' hp'
      generalize hl : ([] : List Str) = ls' at hp'
      cases hp' with
      | nil => exact ⟨rfl, rfl⟩
      | same => simp at hl
      | next => simp at hl
    | @same ls gs g line x hp hx hs ih =>
      intro gs' g' hp'
      generalize hl : ls ++ [line] = ls' at hp'
      cases hp' with
      | nil => simp at hl
      | @same ls2 _ g2 line2 x2 hp2 hx2 hs2 =>
        obtain ⟨h1, h2⟩ := List.append_inj' hl rfl
        cases h2; subst h1
        obtain ⟨r1, r2⟩ := ih hp2
        subst r1; subst r2
        exact ⟨rfl, by rw [item_unique _ _ _ _ _ hx hx2]⟩
      | @next ls2 gs2 g2 line2 x2 hp2 hx2 hs2 =>
        obtain ⟨h1, h2⟩ := List.append_inj' hl rfl
        cases h2; subst h1
        obtain ⟨r1, r2⟩ := ih hp2
        subst r1; subst r2
        rw [item_unique _ _ _ _ _ hx hx2] at hs
        exact absurd hs2 hs
    | @next ls gs g line x hp hx hs ih =>
      intro gs' g' hp'
      generalize hl : ls ++ [line] = ls' at hp'
      cases hp' with
      | nil => simp at hl
      | @same ls2 _ g2 line2 x2 hp2 hx2 hs2 =>
        obtain ⟨h1, h2⟩ := List.append_inj' hl rfl
        cases h2; subst h1
        obtain ⟨r1, r2⟩ := ih hp2
        subst r1; subst r2
        rw [item_unique _ _ _ _ _ hx hx2] at hs
        exact absurd hs hs2
      | @next ls2 gs2 g2 line2 x2 hp2 hx2 hs2 =>
        obtain ⟨h1, h2⟩ := List.append_inj' hl rfl
        cases h2; subst h1
        obtain ⟨r1, r2⟩ := ih hp2
        subst r1; subst r2
        exact ⟨rfl, by rw [item_unique _ _ _ _ _ hx hx2]⟩
  obtain ⟨h1, h2⟩ := key hp hp'
  rw [h1, h2]

end Verif.Tr
