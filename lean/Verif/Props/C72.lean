import Verif.Model.PoError
import Verif.Spec.PoError
import Verif.Lemmas.PoRead
import Verif.Props.C22_C26
/-! # C72: what the message about a malformed PO file says -/
namespace Verif.Tr
open Verif

/-! ## The message from the list of unread lines -/

/-- The message of the loop of `readPo` in the middle of an entry; `k` lines were read. -/
def textFrom (k : Nat) : List Str → Entry → PState → Option Str
  | [], _, _ => none
  | line :: rest, e, st =>
    match step e st line with
    | .cont e st => textFrom (k + 1) rest e st
    | .done =>
      match step {} .start line with
      | .cont e st => textFrom (k + 1) rest e st
      | .bad _ => stepText {} .start line k
      | _ => none
    | .bad _ => stepText e st line k
    | .panic => none

theorem entryText_unfold (r : Reader) (e : Entry) (st : PState) : r.entryText e st =
    match r.nextLine with
    | (.line line, r) =>
      match step e st line with
      | .cont e st => r.entryText e st
      | .bad _ => stepText e st line r.lineNo
      | .done => none
      | .panic => none
    | (.eof, _) => none
    | (.err, _) => some (b!"invalid entry" ++ b!": " ++ (b!"read entry failed" ++ b!": " ++ b!"you should call nextLine() first"))
    | (.panic, _) => none := by
  rw [Reader.entryText]
  split <;> (rename_i h; rw [h]; try rfl)

theorem loopText_unfold (r : Reader) : r.loopText =
    match r.readEntry {} .start with
    | .eof _ => none
    | .entry _ r => r.loopText
    | .bad _ => r.entryText {} .start
    | .panic => none := by
  rw [Reader.loopText]
  split <;> rename_i h <;> rw [h]

/-- The message of the loop, from the middle of an entry. -/
def midText (r : Reader) (e : Entry) (st : PState) : Option Str :=
  match r.readEntry e st with
  | .eof _ => none
  | .entry _ r => r.loopText
  | .bad _ => r.entryText e st
  | .panic => none

theorem midText_eq (r : Reader) (h : -1 ≤ r.lineNo) (e : Entry) (st : PState) :
    midText r e st = textFrom (r.lineNo + 1).toNat r.rest e st := by
  induction hn : (r.lines.length - r.lineNo).toNat using Nat.strongRecOn generalizing r e st with
  | _ n ih =>
    rcases nextLine_rest r h with ⟨h1, r1, h2⟩ | ⟨s, r1, h1, h2, h3, h4, h5⟩
    · unfold midText
      rw [entry_unfold, h2, h1]; rfl
    · obtain ⟨e1, e2, e3, e4⟩ := Reader.nextLine_line _ _ _ h2
      have hk : (r1.lineNo + 1).toNat = (r.lineNo + 1).toNat + 1 := by omega
      have hno : r1.lineNo = (((r.lineNo + 1).toNat : Nat) : Int) := by omega
      have hgo : ∀ e st, step e st s ≠ .done → midText r e st =
          match step e st s with
          | .cont e st => textFrom ((r.lineNo + 1).toNat + 1) r1.rest e st
          | .bad _ => stepText e st s ((r.lineNo + 1).toNat : Nat)
          | _ => none := by
        intro e st hnd
        unfold midText
        rw [entry_unfold, entryText_unfold, h2]
        dsimp only
        cases hs : step e st s with
        | cont e' st' =>
          dsimp only
          rw [← hk, ← ih _ (by rw [e1]; omega) r1 (by omega) e' st' rfl]
          rfl
        | done => exact absurd hs hnd
        | bad err => dsimp only; rw [hno]
        | panic => rfl
      rw [h1, textFrom]
      cases hs : step e st s with
      | done =>
        have hrest : r1.unGetLine = r := by
          obtain ⟨lines, no⟩ := r
          obtain ⟨lines1, no1⟩ := r1
          simp only at e1 e2 e3 h
          subst e1 e2
          simp only [Reader.unGetLine, if_neg (show ¬ no + 1 < 0 by omega)]
          congr 1
          omega
        have : midText r e st = midText r {} .start := by
          conv => lhs; unfold midText
          rw [entry_unfold, h2]
          dsimp only
          rw [hs]
          dsimp only
          rw [loopText_unfold, hrest]; rfl
        rw [this, hgo _ _ (step_start_not_done _ _)]
      | cont e' st' => rw [hgo _ _ (by rw [hs]; simp), hs]
      | bad err => rw [hgo _ _ (by rw [hs]; simp), hs]
      | panic => rw [hgo _ _ (by rw [hs]; simp), hs]

theorem readPoText_eq (c : Str) (h : c ≠ []) : readPoText c = textFrom 0 (textLines c) {} .start := by
  unfold readPoText
  rw [if_neg h, loopText_unfold]
  exact midText_eq (newReader _) (by simp [newReader]) {} .start

/-! ## The message for one line -/

theorem stepText_word (e : Entry) (st : PState) (f : Field) (n : Nat) (hn : n = e.strN.length) (q : Str) (no : Int)
    (hd : fieldDone st f = false) (hq : Quote.unquote (GoStr.trimSpace q) = none) :
    stepText e st (f.word n ++ 32 :: q) no =
      some (quoteText (f.word n ++ if f = .form then b!" " else []) no (f.word n ++ 32 :: q)) := by
  have hnb : GoStr.trimSpace (f.word n ++ 32 :: q) ≠ [] := by
    cases f <;> exact GoStr.trimSpace_ne_nil 109 _ GoStr.solid_m
  have hfp : formPrefix e = Field.word n .form ++ [32] := by simp [formPrefix, word_form, hn]
  have hkw : ∀ what, keywordText (f.word n ++ 32 :: q) (f.word n ++ [32]) what no = some (quoteText what no (f.word n ++ 32 :: q)) := by
    intro what
    unfold keywordText removePrefixAndUnquote
    rw [trim_word n f q, hq]
  have hother : ∀ f', f' ≠ f → GoStr.hasPrefix (f.word n ++ 32 :: q) (f'.word n ++ [32]) = false := by
    intro f' hne
    rw [Bool.eq_false_iff]
    intro h
    obtain ⟨q', hq'⟩ := (prefix_word _ _ _).mp h
    exact hne (word_inj _ _ _ _ _ _ hq').1.symm
  have hself := (prefix_word n f (f.word n ++ 32 :: q)).mpr ⟨q, rfl⟩
  have hh : GoStr.hasPrefix (f.word n ++ 32 :: q) b!"#" = false := by
    cases f <;> simp [GoStr.hasPrefix, Field.word, List.isPrefixOf]
  unfold stepText
  rw [if_neg hnb, hh, if_neg (by simp), hfp]
  have hp : ∀ f', f' ≠ .form → ∀ m, Field.word m f' = Field.word 0 f' := by
    intro f' hf m; cases f' <;> first | rfl | exact absurd rfl hf
  cases f with
  | ctxt =>
    rw [if_pos (show GoStr.hasPrefix (Field.word n .ctxt ++ 32 :: q) b!"msgctxt " = true from hself), if_neg (by simpa [fieldDone] using hd)]
    exact (hkw _).trans (by rw [if_neg (by simp), List.append_nil]; rfl)
  | id2 =>
    rw [show GoStr.hasPrefix (Field.word n .id2 ++ 32 :: q) b!"msgctxt " = false from hother .ctxt (by simp), if_neg (by simp),
      if_pos (show GoStr.hasPrefix (Field.word n .id2 ++ 32 :: q) b!"msgid_plural " = true from hself), if_neg (by simpa [fieldDone] using hd)]
    exact (hkw _).trans (by rw [if_neg (by simp), List.append_nil]; rfl)
  | id =>
    rw [show GoStr.hasPrefix (Field.word n .id ++ 32 :: q) b!"msgctxt " = false from hother .ctxt (by simp), if_neg (by simp),
      show GoStr.hasPrefix (Field.word n .id ++ 32 :: q) b!"msgid_plural " = false from hother .id2 (by simp), if_neg (by simp),
      if_pos (show GoStr.hasPrefix (Field.word n .id ++ 32 :: q) b!"msgid " = true from hself), if_neg (by simpa [fieldDone] using hd)]
    exact (hkw _).trans (by rw [if_neg (by simp), List.append_nil]; rfl)
  | form =>
    rw [show GoStr.hasPrefix (Field.word n .form ++ 32 :: q) b!"msgctxt " = false from hother .ctxt (by simp), if_neg (by simp),
      show GoStr.hasPrefix (Field.word n .form ++ 32 :: q) b!"msgid_plural " = false from hother .id2 (by simp), if_neg (by simp),
      show GoStr.hasPrefix (Field.word n .form ++ 32 :: q) b!"msgid " = false from hother .id (by simp), if_neg (by simp),
      if_pos hself, if_neg (by simpa [fieldDone] using hd)]
    exact (hkw _).trans (by rw [if_pos rfl])
  | str =>
    rw [show GoStr.hasPrefix (Field.word n .str ++ 32 :: q) b!"msgctxt " = false from hother .ctxt (by simp), if_neg (by simp),
      show GoStr.hasPrefix (Field.word n .str ++ 32 :: q) b!"msgid_plural " = false from hother .id2 (by simp), if_neg (by simp),
      show GoStr.hasPrefix (Field.word n .str ++ 32 :: q) b!"msgid " = false from hother .id (by simp), if_neg (by simp),
      hother .form (by simp), if_neg (by simp),
      if_pos (show GoStr.hasPrefix (Field.word n .str ++ 32 :: q) b!"msgstr " = true from hself), if_neg (by simpa [fieldDone] using hd)]
    exact (hkw _).trans (by rw [if_neg (by simp), List.append_nil]; rfl)

theorem stepText_more (e : Entry) (st : PState) (t : Str) (no : Int) (hq : Quote.unquote (GoStr.trimSpace (34 :: t)) = none) :
    stepText e st (34 :: t) no = some (quoteText st.name no (34 :: t)) := by
  unfold stepText
  rw [if_neg (GoStr.trimSpace_ne_nil 34 _ GoStr.solid_quote)]
  have : ∀ p : Str, GoStr.hasPrefix (34 :: t) (109 :: p) = false := by simp [GoStr.hasPrefix, List.isPrefixOf]
  have h1 : GoStr.hasPrefix (34 :: t) (formPrefix e) = false := this _
  have h2 : GoStr.hasPrefix (34 :: t) b!"#" = false := by simp [GoStr.hasPrefix, List.isPrefixOf]
  have h3 : GoStr.hasPrefix (34 :: t) b!"\"" = true := by simp [GoStr.hasPrefix, List.isPrefixOf]
  simp only [this, h1, h2, h3, Bool.false_eq_true, if_false, if_true]
  unfold keywordText removePrefixAndUnquote
  rw [show GoStr.trimPrefix (34 :: t) [] = 34 :: t by simp [GoStr.trimPrefix, GoStr.hasPrefix], hq]

theorem stepText_junk (e : Entry) (st : PState) (line : Str) (no : Int) (hb : ¬ Blank line)
    (h1 : ∀ t, line ≠ 35 :: t) (h2 : ∀ f q, line ≠ Field.word e.strN.length f ++ 32 :: q)
    (h3 : ∀ t, line ≠ 34 :: t) : stepText e st line no = some (junkText no line) := by
  have hw : ∀ f, GoStr.hasPrefix line (Field.word e.strN.length f ++ [32]) = false := by
    intro f
    rw [Bool.eq_false_iff]
    intro h
    obtain ⟨q, hq⟩ := (prefix_word _ _ _).mp h
    exact h2 f q hq
  have hc : ∀ c, (∀ t, line ≠ c :: t) → GoStr.hasPrefix line [c] = false := by
    intro c h
    rw [Bool.eq_false_iff]
    intro hh
    obtain ⟨q, hq⟩ := (GoStr.hasPrefix_iff _ _).mp hh
    exact h q (by simpa using hq)
  unfold Blank at hb
  unfold stepText
  rw [if_neg hb]
  have e1 : GoStr.hasPrefix line b!"msgctxt " = false := hw .ctxt
  have e2 : GoStr.hasPrefix line b!"msgid_plural " = false := hw .id2
  have e3 : GoStr.hasPrefix line b!"msgid " = false := hw .id
  have e4 : GoStr.hasPrefix line (formPrefix e) = false := hw .form
  have e5 : GoStr.hasPrefix line b!"msgstr " = false := hw .str
  simp [hc 35 h1, hc 34 h3, e1, e2, e3, e4, e5]

theorem name_open (p : Option Field) : (stOf p).name = openName p := by
  cases p with
  | none => rfl
  | some f => cases f <;> rfl

/-- The message for a line that is in error in the state given by the items of the current entry. -/
theorem stepText_spec (g : List Item) (line : Str) (n : Nat) (hb : ¬ Blank line) (err : Errors.Err)
    (hbad : step (entryOf g) (stOf (lastField g)) line = .bad err) :
    ∃ msg, stepText (entryOf g) (stOf (lastField g)) line n = some msg ∧ Complaint g n line msg := by
  have hnf : numForms g = (entryOf g).strN.length := numForms_eq g
  rcases line_cases (numForms g) line with ⟨t, rfl⟩ | ⟨f, q, rfl⟩ | ⟨t, rfl⟩ | ⟨h1, h2, h3⟩
  · rw [step_comment] at hbad
    split at hbad <;> cases hbad
  · rw [step_word (entryOf g) _ f _ hnf q] at hbad
    by_cases hd : fieldDone (stOf (lastField g)) f = true
    · rw [if_pos hd] at hbad; cases hbad
    · rw [if_neg hd] at hbad
      cases hu : Quote.unquote (GoStr.trimSpace q) with
      | some d =>
        rw [hu] at hbad
        cases f <;> cases hbad
      | none =>
        refine ⟨_, stepText_word _ _ f _ hnf q n (by simpa using hd) hu, ?_⟩
        have := Complaint.field (g := g) (n := n) f q rfl (fun d hd => by unfold Quotes at hd; rw [hu] at hd; cases hd)
        unfold quoteText
        rw [show Num.intDigits (n : Int) = Num.natDigits n from rfl]
        simpa [List.append_assoc] using this
  · rw [step_more, contLine_spec] at hbad
    cases hu : Quote.unquote (GoStr.trimSpace (34 :: t)) with
    | some d => rw [hu] at hbad; cases hbad
    | none =>
      refine ⟨_, stepText_more _ _ t n hu, ?_⟩
      have := Complaint.more (g := g) (n := n) t rfl (fun d hd => by unfold Quotes at hd; rw [hu] at hd; cases hd)
      unfold quoteText
      rw [show Num.intDigits (n : Int) = Num.natDigits n from rfl, name_open]
      simpa [List.append_assoc] using this
  · refine ⟨_, stepText_junk _ _ line n hb h1 (by rw [← hnf]; exact h2) h3, ?_⟩
    have := Complaint.junk (g := g) (n := n) hb h1 h2 h3
    unfold junkText
    rw [show Num.intDigits (n : Int) = Num.natDigits n from rfl]
    simpa [List.append_assoc] using this

theorem entry_empty : ({} : Entry) = entryOf [] := by simp [entryOf, texts, comments]

/-- The message for a line that ends the entry and is in error in the next one. -/
theorem stepText_next (g : List Item) (line : Str) (n : Nat) (hb : ¬ Blank line)
    (hinv : lastField g = some .str → numForms g = 0) (err : Errors.Err)
    (hdone : step (entryOf g) (stOf (lastField g)) line = .done) (hbad : step {} .start line = .bad err) :
    ∃ msg, stepText {} .start line n = some msg ∧ Complaint g n line msg := by
  have hnf : numForms g = (entryOf g).strN.length := numForms_eq g
  rw [entry_empty] at hbad ⊢
  obtain ⟨msg, h1, h2⟩ := stepText_spec [] line n hb err hbad
  refine ⟨msg, h1, ?_⟩
  rcases line_cases (numForms g) line with ⟨t, rfl⟩ | ⟨f, q, rfl⟩ | ⟨t, rfl⟩ | ⟨g1, g2, g3⟩
  · rw [step_comment] at hbad; cases hbad
  · rw [step_word (entryOf g) _ f _ hnf q] at hdone
    have hd : fieldDone (stOf (lastField g)) f = true := by
      by_contra hd
      rw [if_neg hd] at hdone
      cases hu : Quote.unquote (GoStr.trimSpace q) with
      | some d => rw [hu] at hdone; cases f <;> cases hdone
      | none => rw [hu] at hdone; cases hdone
    have hword : f.word (numForms g) = f.word 0 := by
      cases f with
      | form =>
        have hl : lastField g = some .str := by
          have h3 : stOf (lastField g) = .str := by simpa [fieldDone] using hd
          exact stOf_inj _ (some .str) h3
        rw [hinv hl]
      | _ => rfl
    rw [hword] at h2 ⊢
    generalize hl : f.word 0 ++ 32 :: q = line at h2 ⊢
    cases h2 with
    | field f' q' h3 h4 =>
      have h5 : f.word 0 ++ 32 :: q = f'.word 0 ++ 32 :: q' := by rw [hl]; exact h3
      obtain ⟨rfl, rfl⟩ := word_inj _ _ _ _ _ _ h5
      have := Complaint.field (g := g) (n := n) (line := line) f q (by rw [hword]; exact hl.symm) h4
      rw [hword] at this
      exact this
    | more t h3 => 
      obtain ⟨w, hw⟩ := word_head 0 f
      rw [hw, h3] at hl; cases hl
    | junk _ _ h3 _ => exact absurd hl.symm (h3 f q)
  · rw [step_more, contLine_spec] at hdone
    split at hdone <;> cases hdone
  · rw [step_junk _ _ line hb g1 (by rw [← hnf]; exact g2) g3] at hdone; cases hdone

/-- From a parsed prefix, the loop either succeeds or complains about the first malformed line. -/
theorem text_parse (lines pre : List Str) (k : Nat) (gs : List (List Item)) (g : List Item) (hp : Parse pre gs g) :
    (textFrom k lines (entryOf g) (stOf (lastField g)) = none ∧
      ∃ gs' g', Parse (pre ++ lines.filter fun l => ¬ Blank l) gs' g') ∨
    ∃ mid line post gs' g' msg, lines = mid ++ line :: post ∧ Parse (pre ++ mid.filter fun l => ¬ Blank l) gs' g' ∧
      ¬ Blank line ∧ (∀ x, IsItem (numForms g') line x → Starts (lastField g') x) ∧
      (∀ x, IsItem 0 line x → ¬ Starts (lastField g') x) ∧ Complaint g' (k + mid.length) line msg ∧
      ∀ post', textFrom k (mid ++ line :: post') (entryOf g) (stOf (lastField g)) = some msg := by
  induction lines generalizing pre k gs g with
  | nil => exact .inl ⟨rfl, gs, g, by simpa using hp⟩
  | cons line lines ih =>
    have lift : ∀ pre1 gs1 g1, Parse pre1 gs1 g1 → pre1 = pre ++ [line].filter (fun l => ¬ Blank l) →
        (∀ rest, textFrom k (line :: rest) (entryOf g) (stOf (lastField g)) =
          textFrom (k + 1) rest (entryOf g1) (stOf (lastField g1))) →
        (textFrom k (line :: lines) (entryOf g) (stOf (lastField g)) = none ∧
          ∃ gs' g', Parse (pre ++ (line :: lines).filter fun l => ¬ Blank l) gs' g') ∨
        ∃ mid l post gs' g' msg, line :: lines = mid ++ l :: post ∧
          Parse (pre ++ mid.filter fun l => ¬ Blank l) gs' g' ∧
          ¬ Blank l ∧ (∀ x, IsItem (numForms g') l x → Starts (lastField g') x) ∧
          (∀ x, IsItem 0 l x → ¬ Starts (lastField g') x) ∧ Complaint g' (k + mid.length) l msg ∧
          ∀ post', textFrom k (mid ++ l :: post') (entryOf g) (stOf (lastField g)) = some msg := by
      intro pre1 gs1 g1 hp1 hpre heq
      have hf : ∀ ls : List Str, pre1 ++ ls.filter (fun l => ¬ Blank l) = pre ++ (line :: ls).filter (fun l => ¬ Blank l) := by
        intro ls
        rw [hpre, List.append_assoc, ← List.filter_append]; rfl
      rcases ih pre1 (k + 1) gs1 g1 hp1 with ⟨h1, gs', g', h2⟩ | ⟨mid, l, post, gs', g', msg, h1, h2, h3, h4, h5, h6, h7⟩
      · left
        exact ⟨by rw [heq, h1], gs', g', by rw [← hf]; exact h2⟩
      · right
        refine ⟨line :: mid, l, post, gs', g', msg, by rw [h1]; rfl, by rw [← hf]; exact h2, h3, h4, h5, ?_, fun post' => ?_⟩
        · rw [List.length_cons, show k + (mid.length + 1) = k + 1 + mid.length by omega]; exact h6
        · rw [List.cons_append, heq, h7]
    by_cases hb : Blank line
    · refine lift pre gs g hp (by simp [hb]) fun rest => ?_
      rw [textFrom, step_blank line hb]
    · have hpre : ∀ ls : List Str, pre ++ [line] = pre ++ [line].filter (fun l => ¬ Blank l) := by simp [hb]
      rcases step_spec g line hb (parse_str hp) with ⟨x, hx, hs, hst⟩ | ⟨hst, h1, h2⟩ | ⟨⟨err, hst, he⟩, h1, h2⟩
      · exact lift _ gs (g ++ [x]) (.same hp hx hs) (by simp [hb]) fun rest => by rw [textFrom, hst]
      · rcases step_spec [] line hb (by intro h; cases h) with
          ⟨y, hy, hys, hst'⟩ | ⟨hst', h1', h2'⟩ | ⟨⟨err, hst', he⟩, h1', h2'⟩
        · refine lift _ (gs ++ [g]) [y] (.next hp hy (h2 y hy)) (by simp [hb]) fun rest => ?_
          rw [← entry_empty] at hst'
          rw [textFrom, hst]
          dsimp only
          rw [show PState.start = stOf (lastField []) from rfl, hst']
          rfl
        · rw [← entry_empty] at hst'
          exact absurd hst' (step_start_not_done _ _)
        · right
          rw [← entry_empty] at hst'
          obtain ⟨msg, h3, h4⟩ := stepText_next g line k hb (parse_str hp) err hst hst'
          refine ⟨[], line, lines, gs, g, msg, rfl, by simpa using hp, hb, h1, fun x hx => absurd hx (h1' x), h4, fun post' => ?_⟩
          rw [List.nil_append, textFrom, hst]
          dsimp only
          rw [show step {} .start line = .bad err from hst']
          exact h3
      · right
        obtain ⟨msg, h3, h4⟩ := stepText_spec g line k hb err hst
        refine ⟨[], line, lines, gs, g, msg, rfl, by simpa using hp, hb, fun x hx => absurd hx (h1 x), h2, h4, fun post' => ?_⟩
        rw [List.nil_append, textFrom, hst]
        exact h3

/-! ## The claims -/

/-- **C72** `ReadPo` has a message exactly if it reports an error. -/
theorem C72_message (c : Str) : (∃ msg, readPoText c = some msg) ↔ readPo c = .err := by
  rw [C26_error_iff]
  by_cases hc : c = []
  · subst hc; exact ⟨fun _ => .inl rfl, fun _ => ⟨_, rfl⟩⟩
  · rw [readPoText_eq c hc]
    have hm := C26_exclusive c
    rcases text_parse (textLines c) [] 0 [] [] .nil with ⟨h1, gs, g, h2⟩ | ⟨mid, line, post, gs, g, msg, h1, h2, h3, h4, h5, h6, h7⟩
    · rw [← entry_empty] at h1
      rw [show PState.start = stOf (lastField []) from rfl, h1]
      constructor
      · rintro ⟨_, h⟩; cases h
      · rintro (h | h)
        · exact absurd h hc
        · exact absurd h (hm.1.1 ⟨_, gs, g, h2, rfl⟩)
    · rw [← entry_empty] at h7
      constructor
      · intro _
        refine .inr ⟨mid.filter (fun l => ¬ Blank l), line, post.filter (fun l => ¬ Blank l), gs, g, ?_, by simpa using h2, h4, h5⟩
        unfold meaningfulLines
        rw [show GoStr.splitByte 10 (c.filter (· != 13)) = mid ++ line :: post from h1, List.filter_append,
          List.filter_cons_of_pos (by simpa using h3)]
      · intro _
        exact ⟨msg, by rw [h1]; exact h7 post⟩

/-- **C72** The message about a text without bytes. -/
theorem C72_empty (c msg : Str) (hc : c = []) (h : readPoText c = some msg) : msg = b!"read po file failed: empty po file" := by
  subst hc
  exact (Option.some.inj h).symm

/-- **C72** The message names the first line (counted from 0) that makes the text malformed, says what is wrong with it
and quotes it.  It does not depend on anything behind that line, and what precedes is well-formed. -/
theorem C72_line (c : Str) (hc : c ≠ []) (msg : Str) (h : readPoText c = some msg) :
    ∃ n line gs g, (textLines c)[n]? = some line ∧
      Parse (((textLines c).take n).filter fun l => ¬ Blank l) gs g ∧
      (∀ x, IsItem (numForms g) line x → Starts (lastField g) x) ∧ (∀ x, IsItem 0 line x → ¬ Starts (lastField g) x) ∧
      Complaint g n line msg ∧
      ∀ c', c' ≠ [] → (textLines c).take (n + 1) <+: textLines c' → readPoText c' = some msg := by
  rw [readPoText_eq c hc] at h
  rcases text_parse (textLines c) [] 0 [] [] .nil with ⟨h1, _⟩ | ⟨mid, line, post, gs, g, msg', h1, h2, h3, h4, h5, h6, h7⟩
  · rw [← entry_empty] at h1
    rw [show PState.start = stOf (lastField []) from rfl, h1] at h; cases h
  · rw [← entry_empty] at h7
    have hmsg : msg' = msg := by
      have := h7 post
      rw [← h1] at this
      exact Option.some.inj (this.symm.trans h)
    subst hmsg
    refine ⟨mid.length, line, gs, g, by rw [h1]; simp, by rw [h1, List.take_left]; simpa using h2, h4, h5, by simpa using h6, ?_⟩
    intro c' hc' hpre
    rw [readPoText_eq c' hc']
    obtain ⟨post', hpost⟩ := hpre
    have ht : (mid ++ line :: post).take (mid.length + 1) = mid ++ [line] := by
      rw [List.take_length_add_append]; rfl
    rw [h1, ht] at hpost
    rw [← hpost, List.append_assoc]
    exact h7 post'

/-- **C72** There is one message about a line. -/
theorem C72_unique (g : List Item) (n : Nat) (line m m' : Str) (h : Complaint g n line m) (h' : Complaint g n line m') :
    m = m' := by
  have word_quote : ∀ (f : Field) (q t : Str), f.word (numForms g) ++ 32 :: q ≠ 34 :: t := by
    intro f q t h
    obtain ⟨w, hw⟩ := word_head (numForms g) f
    rw [hw] at h; cases h
  cases h with
  | field f q h1 _ =>
    cases h' with
    | field f' q' h2 _ =>
      obtain ⟨rfl, -⟩ := word_inj _ _ _ _ _ _ (h1.symm.trans h2)
      rfl
    | more t h2 => exact absurd (h1.symm.trans h2) (word_quote f q t)
    | junk _ _ h2 _ => exact absurd h1 (h2 f q)
  | more t h1 _ =>
    cases h' with
    | field f q h2 _ => exact absurd (h2.symm.trans h1) (word_quote f q t)
    | more t' h2 _ => rfl
    | junk _ _ _ h2 => exact absurd h1 (h2 t)
  | junk _ _ h1 h2 =>
    cases h' with
    | field f q h3 _ => exact absurd h3 (h1 f q)
    | more t h3 _ => exact absurd h3 (h2 t)
    | junk => rfl

/-- The second line of a file is called line 1. -/
example : readPoText b!"msgid \"a\"\r\nmsgtr \"b\"\r\n" = some b!"invalid entry: unexpected line 1: msgtr \"b\"" := by
  rw [readPoText_eq _ (by decide)]; decide +kernel

example : readPoText b!"msgid \"a\"\nmsgstr[0] 'bc'\n" =
    some b!"invalid entry: unquote msgstr[0]  failed|line 1: msgstr[0] 'bc': invalid syntax" := by
  rw [readPoText_eq _ (by decide)]; decide +kernel

example : readPoText b!"msgid \"a\"\nmsgstr \"\"\n\n\"b" =
    some b!"invalid entry: unquote msgstr failed|line 3: \"b: invalid syntax" := by
  rw [readPoText_eq _ (by decide)]; decide +kernel

example : readPoText [] = some b!"read po file failed: empty po file" := rfl


/-- **C72** The error about a line is `errInvalidEntry`, never `io.EOF`, for errors.Is; it is `strconv.ErrSyntax` exactly if the line begins
with a keyword that can come next or with a quote. -/
theorem C72_syntax (e : Entry) (st : PState) (line : Str) (err : Errors.Err) (h : step e st line = .bad err) :
    Errors.is Errors.invalidEntry err = true ∧ Errors.is Errors.eof err = false ∧
      (Errors.is Errors.syntaxErr err = true ↔ (∃ f q, line = Field.word e.strN.length f ++ 32 :: q) ∨ ∃ t, line = 34 :: t) := by
  have quote : Errors.is Errors.invalidEntry badQuote = true ∧ Errors.is Errors.eof badQuote = false ∧ Errors.is Errors.syntaxErr badQuote = true := by decide
  have junk : Errors.is Errors.invalidEntry badLine = true ∧ Errors.is Errors.eof badLine = false ∧ Errors.is Errors.syntaxErr badLine = false := by decide
  have word : ∀ (f : Field) (pre : Str), pre = Field.word e.strN.length f ++ [32] → ∀ k, (∀ d, ∃ e' st', k d = Step.cont e' st') →
      GoStr.hasPrefix line pre = true → keywordLine line pre k = .bad err →
      Errors.is Errors.invalidEntry err = true ∧ Errors.is Errors.eof err = false ∧
        (Errors.is Errors.syntaxErr err = true ↔ (∃ f q, line = Field.word e.strN.length f ++ 32 :: q) ∨ ∃ t, line = 34 :: t) := by
    intro f pre hpre k hk hp hb
    obtain ⟨q, hq⟩ := (GoStr.hasPrefix_iff _ _).1 hp
    unfold keywordLine at hb
    split at hb
    · next d _ =>
      obtain ⟨e', st', he⟩ := hk d
      rw [he] at hb
      cases hb
    · cases hb
      exact ⟨quote.1, quote.2.1, fun _ => .inl ⟨f, q, by rw [hq, hpre, List.append_assoc]; rfl⟩, fun _ => quote.2.2⟩
  unfold step at h
  split at h; · cases h
  split at h; · split at h <;> cases h
  split at h
  · next hp => split at h; · cases h
               exact word .ctxt _ rfl _ (fun d => ⟨_, _, rfl⟩) hp h
  next h1 =>
  split at h
  · next hp => split at h; · cases h
               exact word .id2 _ rfl _ (fun d => ⟨_, _, rfl⟩) hp h
  next h2 =>
  split at h
  · next hp => split at h; · cases h
               exact word .id _ rfl _ (fun d => ⟨_, _, rfl⟩) hp h
  next h3 =>
  split at h
  · next hp => split at h; · cases h
               exact word .form _ rfl _ (fun d => ⟨_, _, rfl⟩) hp h
  next h4 =>
  split at h
  · next hp => split at h; · cases h
               exact word .str _ rfl _ (fun d => ⟨_, _, rfl⟩) hp h
  next h5 =>
  split at h
  · next hp =>
    obtain ⟨t, ht⟩ := (GoStr.hasPrefix_iff _ _).1 hp
    have : err = badQuote := by
      unfold contLine at h
      split at h
      · cases h; rfl
      · split at h <;> first | (cases h; done) | (split at h <;> cases h)
    subst this
    exact ⟨quote.1, quote.2.1, fun _ => .inr ⟨t, ht⟩, fun _ => quote.2.2⟩
  next h6 =>
  cases h
  refine ⟨junk.1, junk.2.1, fun h => absurd h (by rw [junk.2.2]; decide), ?_⟩
  rintro (⟨f, q, hq⟩ | ⟨t, ht⟩)
  · exfalso
    have no : ∀ pre, GoStr.hasPrefix line pre ≠ true → pre ≠ Field.word e.strN.length f ++ [32] := by
      rintro pre hn rfl
      exact hn ((GoStr.hasPrefix_iff _ _).2 ⟨q, by rw [hq, List.append_assoc]; rfl⟩)
    cases f with
    | ctxt => exact no _ h1 rfl
    | id => exact no _ h3 rfl
    | id2 => exact no _ h2 rfl
    | str => exact no _ h5 rfl
    | form => exact no _ h4 rfl
  · exact absurd ((GoStr.hasPrefix_iff _ _).2 ⟨t, ht⟩) h6

/-- **C72** Every error of `readEntry` is `errInvalidEntry`, and none is `io.EOF`, for errors.Is. -/
theorem C72_is (r : Reader) (e : Entry) (st : PState) (err : Errors.Err) (h : r.readEntry e st = .bad err) :
    Errors.is Errors.invalidEntry err = true ∧ Errors.is Errors.eof err = false := by
  induction hn : (r.lines.length - r.lineNo).toNat using Nat.strongRecOn generalizing r e st with
  | _ k ih =>
    rw [Reader.readEntry] at h
    split at h
    · rename_i line r1 hl
      obtain ⟨h1, h2, h3, h4⟩ := Reader.nextLine_line _ _ _ hl
      split at h
      · exact ih _ (by rw [h1]; omega) _ _ _ h rfl
      · cases h
      · rename_i hb
        cases h
        exact ⟨(C72_syntax _ _ _ _ hb).1, (C72_syntax _ _ _ _ hb).2.1⟩
      · cases h
    · cases h
    · cases h
      exact ⟨by decide, by decide⟩
    · cases h

/-- A line with a keyword and no string, and one without a keyword. -/
example : step {} .start b!"msgid x" = .bad badQuote ∧ step {} .start b!"x" = .bad badLine ∧
    (newReader [b!"x", b!"y"]).readEntry {} .start = .bad badLine := by
  refine ⟨by rfl, by rfl, ?_⟩
  rw [Reader.readEntry]
  simp only [newReader]
  rfl

/-- Example: the errors that the code compares with are different from each other and from every error made by `Errorf`, which is none
of them; one made by `Wrapf` or `WithSecondaryError` is only those it is made of. -/
example : [Errors.eof, Errors.invalidEntry, Errors.syntaxErr, Errors.readMo].Nodup ∧
    (∀ i ∈ [Errors.eof, Errors.invalidEntry, Errors.syntaxErr, Errors.readMo], Errors.is i Errors.errorf = false ∧
      (∀ e, Errors.is i (Errors.wrapf e) = Errors.is i e) ∧
      ∀ a b, Errors.is i (Errors.withSecondary a b) = (Errors.is i a || Errors.is i b)) := by
  refine ⟨by decide, fun i hi => ?_⟩
  have h : (Errors.fresh == i) = false := by
    simp only [List.mem_cons, List.not_mem_nil, or_false] at hi
    rcases hi with rfl | rfl | rfl | rfl <;> decide
  simp [Errors.errorf, Errors.wrapf, Errors.withSecondary, Errors.is, Errors.isAny, h]

end Verif.Tr
