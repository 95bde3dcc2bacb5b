import Verif.Spec.PoSize
import Verif.Lemmas.GnuPo
import Verif.Props.C87
import Verif.Props.C92
/-! # C119: how large a PO file becomes in memory -/
namespace Verif.Tr
open Verif
open Verif.Literal (utf8 OneChar Body Literal Digits letters)
open Verif.GnuPo (Valid)

/-! ## Literals -/

theorem utf8_length (ch : Char) : (utf8 ch).length ≤ 4 := by
  rw [← Literal.encode_char]
  unfold Utf8.encode
  repeat' split
  all_goals simp

theorem one_length {q : UInt8} {t r d : Str} (h : OneChar q t r d) : d.length ≤ 3 * t.length := by
  cases h with
  | char ch rest => omega
  | bad b rest => simp [show (utf8 '�').length = 3 by decide]
  | letter => simp
  | quote => simp
  | octal => simp; omega
  | hex => simp; omega
  | short ds ch rest hl => have := utf8_length ch; simp only [List.length_cons, hl]; omega
  | long ds ch rest hl => have := utf8_length ch; simp only [List.length_cons, hl]; omega

theorem body_length {t d : Str} (h : Body t d) : d.length ≤ 3 * t.length := by
  induction h with
  | nil => simp
  | cons h1 _ ih => have := one_length h1; simp; omega

theorem literal_length {s d : Str} (h : Literal s d) : d.length + 2 ≤ 3 * s.length := by
  cases h with
  | interpreted hb => have := body_length hb; simp; omega
  | character ho => have := one_length ho; simp; omega
  | noCharacter => simp
  | @raw t _ => have := List.length_filter_le (· ≠ 13) t; simp; simp at this; omega

theorem quotes_length {q d : Str} (h : Quotes q d) : d.length ≤ 3 * q.length := by
  obtain ⟨w1, lit, w2, -, -, rfl, hl⟩ := (Literal.C91_quotes q d).mp h
  have := literal_length hl
  simp
  omega

/-! ## Literals in UTF-8 -/

theorem valid_cut {a b : Str} {c : UInt8} (hc : c.toNat < 128) (h : Valid (a ++ c :: b)) : Valid a ∧ Valid b := by
  generalize hz : a ++ c :: b = z at h
  induction h generalizing a with
  | nil => simp at hz
  | @cons t ch ht ih =>
    cases a with
    | nil =>
      refine ⟨.nil, ?_⟩
      have : Valid (c :: b) := by
        rw [show c :: b = _ from hz]; exact .cons ch ht
      exact GnuPo.valid_ascii hc this
    | cons x a =>
      rcases GnuPo.utf8_cases ch with ⟨h1, h2⟩ | ⟨h1, h2⟩
      · rw [h2] at hz
        simp only [List.cons_append, List.nil_append, List.cons.injEq] at hz
        obtain ⟨v1, v2⟩ := ih hz.2
        refine ⟨?_, v2⟩
        have : x :: a = utf8 ch ++ a := by rw [h2, hz.1]; rfl
        rw [this]; exact .cons ch v1
      · rcases List.append_eq_append_iff.mp hz with ⟨u, hu, hr⟩ | ⟨u, hu, hr⟩
        · cases u with
          | nil =>
            simp only [List.append_nil] at hu
            obtain ⟨v1, v2⟩ := ih (a := []) (by simpa using hr)
            refine ⟨?_, v2⟩
            rw [← hu]
            have := Valid.cons ch Valid.nil
            simpa using this
          | cons y u =>
            simp only [List.cons_append, List.cons.injEq] at hr
            have := h2 c (by rw [hu, hr.1]; simp)
            omega
        · obtain ⟨v1, v2⟩ := ih hr.symm
          refine ⟨?_, v2⟩
          rw [hu]
          exact .cons ch v1

theorem one_valid {q : UInt8} {t r d : Str} (hq : q.toNat < 128) (h : OneChar q t r d) (hv : Valid (t ++ r)) :
    d.length ≤ t.length ∧ Valid r := by
  have dig {base : Nat} (hb : base ≤ 16) {acc v : Nat} {ds : Str} (h : Digits base acc ds v) : ∀ c ∈ ds, c.toNat < 128 := by
    intro c hc
    obtain ⟨x, hx⟩ := GnuPo.digits_all h c hc
    exact GnuPo.digit_ascii hb hx
  cases h with
  | char ch rest => exact ⟨Nat.le_refl _, GnuPo.valid_tail hv⟩
  | bad b rest hb hno =>
    exfalso
    generalize hz : [b] ++ r = z at hv
    cases hv with
    | nil => simp at hz
    | cons ch' h' => exact hno _ _ hz
  | letter c v rest hm =>
    refine ⟨by simp, GnuPo.valid_asciis ?_ hv⟩
    have : ∀ p ∈ letters, p.1.toNat < 128 := by decide
    intro x hx
    simp only [List.mem_cons, List.not_mem_nil, or_false] at hx
    rcases hx with rfl | rfl
    · decide
    · exact this _ hm
  | quote rest =>
    refine ⟨by simp, GnuPo.valid_asciis ?_ hv⟩
    intro x hx
    simp only [List.mem_cons, List.not_mem_nil, or_false] at hx
    rcases hx with rfl | rfl
    · decide
    · exact hq
  | octal ds v rest hl hd =>
    refine ⟨by simp, GnuPo.valid_asciis ?_ hv⟩
    intro x hx
    rcases List.mem_cons.mp hx with rfl | hx
    · decide
    · exact dig (by decide) hd x hx
  | hex ds v rest hl hd =>
    refine ⟨by simp, GnuPo.valid_asciis ?_ hv⟩
    intro x hx
    rcases List.mem_cons.mp hx with rfl | hx
    · decide
    rcases List.mem_cons.mp hx with rfl | hx
    · decide
    · exact dig (by decide) hd x hx
  | short ds ch rest hl hd =>
    refine ⟨by have := utf8_length ch; simp only [List.length_cons, hl]; omega, GnuPo.valid_asciis ?_ hv⟩
    intro x hx
    rcases List.mem_cons.mp hx with rfl | hx
    · decide
    rcases List.mem_cons.mp hx with rfl | hx
    · decide
    · exact dig (by decide) hd x hx
  | long ds ch rest hl hd =>
    refine ⟨by have := utf8_length ch; simp only [List.length_cons, hl]; omega, GnuPo.valid_asciis ?_ hv⟩
    intro x hx
    rcases List.mem_cons.mp hx with rfl | hx
    · decide
    rcases List.mem_cons.mp hx with rfl | hx
    · decide
    · exact dig (by decide) hd x hx

theorem body_valid {t d : Str} (h : Body t d) (hv : Valid t) : d.length ≤ t.length := by
  induction h with
  | nil => simp
  | cons h1 _ ih =>
    obtain ⟨a, b⟩ := one_valid (by decide) h1 hv
    have := ih b
    simp; omega

theorem quotes_valid {q d : Str} (h : Quotes q d) (hv : Valid q) : d.length ≤ q.length := by
  obtain ⟨w1, lit, w2, -, -, rfl, hl⟩ := (Literal.C91_quotes q d).mp h
  have cut {c : UInt8} (hc : c.toNat < 128) {t : Str} (hv : Valid (w1 ++ (c :: t ++ [c]) ++ w2)) : Valid t := by
    have e : w1 ++ (c :: t ++ [c]) ++ w2 = w1 ++ c :: (t ++ c :: w2) := by simp
    rw [e] at hv
    exact (valid_cut hc (valid_cut hc hv).2).1
  cases hl with
  | @interpreted t d hb => have := body_valid hb (cut (by decide) hv); simp; omega
  | @character t d ho => have := (one_valid (by decide) ho (by rw [List.append_nil]; exact cut (by decide) hv)).1; simp; omega
  | noCharacter => simp
  | @raw t _ => have := List.length_filter_le (· ≠ 13) t; simp; simp at this; omega

/-! ## Items and entries -/

/-- The bytes an item brings. -/
def Item.size : Item → Nat
  | .comment l => l.length
  | .field _ d => d.length
  | .more d => d.length

theorem item_length {n : Nat} {line : Str} {x : Item} (h : IsItem n line x) :
    x.size ≤ 3 * line.length ∧ (Valid line → x.size ≤ line.length) := by
  cases h with
  | comment t => exact ⟨by simp only [Item.size]; omega, fun _ => Nat.le_refl _⟩
  | field f q d hq =>
    refine ⟨by have := quotes_length hq; simp [Item.size]; omega, fun hv => ?_⟩
    have := quotes_valid hq (valid_cut (by decide) hv).2
    simp [Item.size]; omega
  | more t d hq => exact ⟨quotes_length hq, fun hv => quotes_valid hq hv⟩

/-- The bytes some items bring. -/
def itemsSize (g : List Item) : Nat := (g.map Item.size).sum

theorem sum_flatten (l : List Str) : l.flatten.length = (l.map List.length).sum := by simp [List.length_flatten]

theorem texts_size (g : List Item) :
    ((comments g).map List.length).sum + ((texts .ctxt g).map List.length).sum + ((texts .id g).map List.length).sum +
      ((texts .id2 g).map List.length).sum + ((texts .str g).map List.length).sum + ((texts .form g).map List.length).sum +
      (moreText g).length = itemsSize g := by
  induction g with
  | nil => rfl
  | cons x g ih =>
    unfold itemsSize at *
    rw [List.map_cons, List.sum_cons, ← ih]
    cases x with
    | comment l => simp [comments, texts, moreText, Item.size]; omega
    | more d => simp [comments, texts, moreText, Item.size]; omega
    | field f d => cases f <;> simp [comments, texts, moreText, Item.size] <;> omega

theorem entry_size (g : List Item) : (entryOf g).size ≤ itemsSize g := by
  have := texts_size g
  unfold Entry.size entryOf
  simp only [sum_flatten]
  omega

theorem parse_size {ls gs g} (h : Parse ls gs g) :
    ((gs ++ [g]).map itemsSize).sum ≤ 3 * (ls.map List.length).sum ∧
    ((∀ l ∈ ls, Valid l) → ((gs ++ [g]).map itemsSize).sum ≤ (ls.map List.length).sum) ∧
    ((gs ++ [g]).filter (· ≠ [])).length ≤ ls.length := by
  induction h with
  | nil => simp [itemsSize]
  | @same ls gs g line x _ hi _ ih =>
    obtain ⟨i1, i2⟩ := item_length hi
    obtain ⟨h1, h2, h3⟩ := ih
    simp only [List.map_append, List.map_cons, List.map_nil, List.sum_append, List.sum_cons, List.sum_nil, itemsSize] at *
    refine ⟨by omega, fun hv => ?_, ?_⟩
    · have := h2 fun l hl => hv l (by simp [hl])
      have := i2 (hv line (by simp))
      omega
    · rw [List.filter_append, List.length_append] at h3 ⊢
      rw [List.filter_cons_of_pos (by simp)]
      simp only [List.filter_nil, List.length_cons, List.length_nil, List.length_append]
      omega
  | @next ls gs g line x _ hi _ ih =>
    obtain ⟨i1, i2⟩ := item_length hi
    obtain ⟨h1, h2, h3⟩ := ih
    simp only [List.map_append, List.map_cons, List.map_nil, List.sum_append, List.sum_cons, List.sum_nil, itemsSize] at *
    refine ⟨by omega, fun hv => ?_, ?_⟩
    · have := h2 fun l hl => hv l (by simp [hl])
      have := i2 (hv line (by simp))
      omega
    · rw [List.filter_append, List.length_append]
      rw [List.filter_cons_of_pos (by simp)]
      simp only [List.filter_nil, List.length_cons, List.length_nil, List.length_append]
      omega

/-! ## Lines -/

theorem split_sum (s : Str) : ((GoStr.splitByte 10 s).map List.length).sum ≤ s.length := by
  have h := GoStr.intercalate_splitByte 10 s
  generalize GoStr.splitByte 10 s = ls at h
  subst h
  induction ls with
  | nil => simp
  | cons x ls ih =>
    cases ls with
    | nil => simp
    | cons y ls =>
      rw [GoStr.intercalate_cons_cons]
      simp only [List.map_cons, List.sum_cons, List.length_append, List.length_cons] at *
      omega

theorem sum_filter (p : Str → Bool) (ls : List Str) : ((ls.filter p).map List.length).sum ≤ (ls.map List.length).sum := by
  induction ls with
  | nil => simp
  | cons x ls ih =>
    by_cases h : p x
    · rw [List.filter_cons_of_pos h]; simpa using ih
    · rw [List.filter_cons_of_neg h]; simp; omega

theorem lines_sum (c : Str) : ((meaningfulLines c).map List.length).sum ≤ c.length := by
  unfold meaningfulLines
  have h1 := sum_filter (fun l => ¬ Blank l) (GoStr.splitByte 10 (c.filter (· != 13)))
  have h2 := split_sum (c.filter (· != 13))
  have h3 := List.length_filter_le (· != 13) c
  omega

theorem valid_lines (ls : List Str) (h : Valid (List.intercalate [10] ls)) : ∀ l ∈ ls, Valid l := by
  induction ls with
  | nil => simp
  | cons x ls ih =>
    cases ls with
    | nil =>
      intro l hl
      simp only [List.mem_singleton] at hl
      subst hl
      simpa [GoStr.intercalate_single] using h
    | cons y ls =>
      rw [GoStr.intercalate_cons_cons] at h
      obtain ⟨h1, h2⟩ := valid_cut (by decide) h
      intro l hl
      rcases List.mem_cons.mp hl with rfl | hl
      · exact h1
      · exact ih h2 l hl

theorem valid_filter {s : Str} (h : Valid s) : Valid (s.filter (· != 13)) := by
  induction h with
  | nil => exact .nil
  | @cons t ch _ ih =>
    rw [List.filter_append]
    by_cases hc : utf8 ch = [13]
    · rw [hc]; exact ih
    · have : (utf8 ch).filter (· != 13) = utf8 ch := by
        rw [List.filter_eq_self]
        intro x hx
        rcases GnuPo.utf8_cases ch with ⟨h1, h2⟩ | ⟨h1, h2⟩
        · rw [h2] at hx hc
          simp only [List.mem_singleton] at hx
          subst hx
          simpa using hc
        · have := h2 x hx
          simp only [bne_iff_ne, ne_eq]
          rintro rfl
          exact absurd this (by decide)
      rw [this]
      exact .cons ch ih

theorem content_lines {c : Str} (h : Valid c) : ∀ l ∈ meaningfulLines c, Valid l := by
  intro l hl
  unfold meaningfulLines at hl
  refine valid_lines _ ?_ l (List.mem_filter.mp hl).1
  rw [GoStr.intercalate_splitByte]
  exact valid_filter h

/-! ## Files -/

theorem set_size (m : GMap Entry) (k : Str) (e : Entry) :
    ((m.set k e).map fun p => p.2.size).sum ≤ (m.map fun p => p.2.size).sum + e.size ∧ (m.set k e).length ≤ m.length + 1 := by
  induction m with
  | nil => simp [GMap.set]
  | cons p m ih =>
    unfold GMap.set
    split <;> simp <;> omega

theorem addEntry_entries (f : File) (e : Entry) : (f.addEntry e).entries = f.entries.set e.key e := by
  unfold File.addEntry
  dsimp only
  split
  · rw [initPlural_entries, initHeader_entries]
  · rfl

theorem foldl_size (es : List Entry) (f : File) :
    (es.foldl File.addEntry f).size ≤ f.size + (es.map Entry.size).sum ∧
      (es.foldl File.addEntry f).entries.length ≤ f.entries.length + es.length := by
  induction es generalizing f with
  | nil => simp
  | cons e es ih =>
    obtain ⟨h1, h2⟩ := ih (f.addEntry e)
    obtain ⟨h3, h4⟩ := set_size f.entries e.key e
    rw [List.foldl_cons]
    unfold File.size at *
    rw [addEntry_entries] at h1 h2
    simp only [List.map_cons, List.sum_cons, List.length_cons]
    omega

theorem filter_size (p : Entry → Bool) (es : List Entry) : ((es.filter p).map Entry.size).sum ≤ (es.map Entry.size).sum := by
  induction es with
  | nil => simp
  | cons x es ih =>
    by_cases h : p x
    · rw [List.filter_cons_of_pos h]; simpa using ih
    · rw [List.filter_cons_of_neg h]; simp; omega

theorem map_size (gs : List (List Item)) : ((gs.map entryOf).map Entry.size).sum ≤ (gs.map itemsSize).sum := by
  induction gs with
  | nil => simp
  | cons g gs ih => have := entry_size g; simp only [List.map_cons, List.sum_cons]; omega

/-- **C119** Reading a PO text of `n` bytes makes a file of `3 n` bytes at most, of `n` at most if the text is UTF-8,
and of no more entries than the text has lines that are not blank. -/
theorem C119_size (c : Str) (f : File) (h : readPo c = .ok f) :
    f.size ≤ 3 * c.length ∧ (Valid c → f.size ≤ c.length) ∧ f.entries.length ≤ lineCount c := by
  obtain ⟨-, es, ⟨gs, g, hp, rfl⟩, rfl⟩ := (C26_ok_iff c f).mp h
  obtain ⟨h1, h2, h3⟩ := parse_size hp
  obtain ⟨h4, h5⟩ := foldl_size (((gs ++ [g]).map entryOf).filter fun e => Translated e) {}
  have h6 := filter_size (fun e => Translated e) ((gs ++ [g]).map entryOf)
  have h7 := map_size (gs ++ [g])
  have h8 := lines_sum c
  have h0 : File.size {} = 0 := rfl
  rw [h0] at h4
  refine ⟨by omega, fun hv => ?_, ?_⟩
  · have := h2 (content_lines hv)
    omega
  · refine Nat.le_trans h5 (Nat.le_trans ?_ h3)
    rw [show ([] : GMap Entry).length = 0 from rfl, Nat.zero_add, List.filter_map, List.length_map]
    clear h hp h1 h2 h3 h4 h5 h6 h7 h0
    generalize gs ++ [g] = l
    induction l with
    | nil => simp
    | cons x l ih =>
      by_cases hx : x = []
      · subst hx
        rw [List.filter_cons_of_neg (by simp [Translated, entryOf, texts]), List.filter_cons_of_neg (by simp)]
        exact ih
      · rw [List.filter_cons_of_pos (p := fun g => decide (g ≠ [])) (by simpa using hx)]
        by_cases ht : Translated (entryOf x)
        · rw [List.filter_cons_of_pos (by simpa using ht)]; simp only [List.length_cons]; omega
        · rw [List.filter_cons_of_neg (by simpa using ht)]; simp only [List.length_cons]; omega

/-- A text with a translation of `n` bytes that are no UTF-8. -/
def invalidText (n : Nat) : Str := b!"msgid \"a\"\nmsgstr \"" ++ List.replicate n 255 ++ b!"\""

theorem invalid_lines (n : Nat) :
    meaningfulLines (invalidText n) = [b!"msgid " ++ b!"\"a\"", b!"msgstr " ++ (34 :: List.replicate n 255 ++ [34])] := by
  have h := Literal.oneMessage_lines b!"\"a\"" (34 :: List.replicate n 255 ++ [34]) (by decide) (by
    intro c hc
    simp only [List.cons_append, List.mem_cons, List.mem_append, List.mem_replicate, List.not_mem_nil, or_false] at hc
    rcases hc with rfl | ⟨_, rfl⟩ | rfl <;> decide)
  rw [← h]
  congr 1

theorem invalid_body (n : Nat) : Body (List.replicate n 255) (List.replicate n (utf8 '�')).flatten := by
  induction n with
  | zero => exact .nil
  | succ n ih =>
    rw [List.replicate_succ, List.replicate_succ, List.flatten_cons]
    refine Body.cons (t := [255]) (.bad 255 _ (by decide) ?_) ih
    intro ch u h
    have hd := Literal.decode_char ch u
    rw [← h] at hd
    have e : Utf8.decode (255 :: List.replicate n 255) = (Utf8.runeError, 1) := by
      cases n <;> rfl
    rw [e, Prod.mk.injEq] at hd
    have hc : ch = '�' := by
      apply Char.ext
      apply UInt32.toNat_inj.1
      exact hd.1.symm
    rw [hc] at hd
    exact absurd hd.2 (by decide)

/-- **C119** The factor 3 is reached: a text of `n + 19` bytes makes a file of `3 n + 1`. -/
theorem C119_tight (n : Nat) (hn : n ≠ 0) : (invalidText n).length = n + 19 ∧
    ∃ f, readPo (invalidText n) = .ok f ∧ f.size = 3 * n + 1 := by
  refine ⟨by simp [invalidText], ?_⟩
  have hq : Quotes (34 :: List.replicate n 255 ++ [34]) (List.replicate n (utf8 '�')).flatten := by
    refine (Literal.C91_quotes _ _).mpr ⟨[], _, [], ⟨[], by simp, rfl⟩, ⟨[], by simp, rfl⟩, by simp, .interpreted (invalid_body n)⟩
  have p1 : Parse [Field.id.word 0 ++ 32 :: b!"\"a\""] [] [.field .id b!"a"] :=
    Parse.same .nil (.field .id b!"\"a\"" b!"a" (by unfold Quotes; decide +kernel)) (by simp [Starts, lastField])
  have p2 := Parse.same p1 (.field .str _ _ hq) (by simp [Starts, lastField])
  have hl : meaningfulLines (invalidText n) = _ := invalid_lines n
  have ht : PoText (invalidText n) [entryOf [.field .id b!"a", .field .str (List.replicate n (utf8 '�')).flatten]] :=
    ⟨[], _, by rw [hl]; exact p2, rfl⟩
  refine ⟨_, (C26_ok_iff _ _).mpr ⟨by simp [invalidText], _, ht, rfl⟩, ?_⟩
  have hlen : (List.replicate n (utf8 '�')).flatten.length = 3 * n := by
    simp [List.length_flatten, show (utf8 '�').length = 3 by decide]; omega
  generalize (List.replicate n (utf8 '�')).flatten = d at hlen
  have hd : d ≠ [] := by rintro rfl; simp at hlen; omega
  have he : entryOf [.field .id b!"a", .field .str d] = { id := b!"a", str := d } := by
    simp [entryOf, comments, texts, moreText]
  rw [he]
  rw [List.filter_cons_of_pos (by simp [Translated, hd]), List.filter_nil, List.foldl_cons, List.foldl_nil]
  unfold File.size
  rw [addEntry_entries]
  simp [GMap.set, Entry.size, hlen]
  omega

/-- A case of the theorems: a text of 24 bytes with five that are no UTF-8 makes a file of 16. -/
example : (invalidText 5).length = 24 ∧ ∃ f, readPo (invalidText 5) = .ok f ∧ f.size = 16 ∧ f.size ≤ 3 * 24 ∧ f.entries.length ≤ lineCount (invalidText 5) := by
  obtain ⟨h, f, hf, hs⟩ := C119_tight 5 (by decide)
  have := C119_size _ _ hf
  exact ⟨h, f, hf, hs, by omega, this.2.2⟩

theorem valid_chars (cs : List Char) : Valid (cs.flatMap utf8) := by
  induction cs with
  | nil => exact .nil
  | cons ch cs ih => rw [List.flatMap_cons]; exact .cons ch ih

/-- A valid text: the bound without the factor. -/
example : Valid b!"msgid \"a\"\nmsgstr \"é\\n\"\n" ∧ (∃ f, readPo b!"msgid \"a\"\nmsgstr \"é\\n\"\n" = .ok f ∧ f.size = 4) ∧
    lineCount b!"msgid \"a\"\nmsgstr \"é\\n\"\n" = 2 := by
  refine ⟨?_, of_okAnd _ _ (by decide +kernel), by decide +kernel⟩
  have h := valid_chars "msgid \"a\"\nmsgstr \"é\\n\"\n".toList
  rwa [show "msgid \"a\"\nmsgstr \"é\\n\"\n".toList.flatMap utf8 = b!"msgid \"a\"\nmsgstr \"é\\n\"\n" by decide +kernel] at h

end Verif.Tr
