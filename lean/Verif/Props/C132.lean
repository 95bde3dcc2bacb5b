import Verif.Spec.Encoding
import Verif.Props.C118
import Verif.Props.C119
/-! # C132: the encoding of PO files -/
namespace Verif.Tr
open Verif
open Verif.Literal (utf8 OneChar Body Literal Digits letters IsDigit)
open Verif.GnuPo (Valid)

/-! ## Byte order marks -/

theorem foreign_line {c : UInt8} (h : Foreign c) (t : Str) : ¬ Blank (c :: t) ∧ ∀ n x, ¬ IsItem n (c :: t) x := by
  obtain ⟨h1, h2, h3, h4⟩ := h
  constructor
  · intro hb
    obtain ⟨w1, w2, ⟨r1, hr1, rfl⟩, ⟨r2, hr2, rfl⟩, he, -⟩ := GoStr.trims_trimSpace (c :: t)
    rw [show GoStr.trimSpace (c :: t) = [] from hb, List.append_nil, ← List.flatten_append] at he
    have hr : ∀ r ∈ r1 ++ r2, r ∈ GoStr.whiteSpace := fun r hr => by
      rcases List.mem_append.mp hr with h | h
      · exact hr1 r h
      · exact hr2 r h
    cases hc : r1 ++ r2 with
    | nil => rw [hc] at he; cases he
    | cons w ws =>
      rw [hc] at he hr
      have hw := hr w (by simp)
      have hne : w ≠ [] := by rintro rfl; revert hw; decide
      cases w with
      | nil => exact hne rfl
      | cons x w =>
        rw [List.flatten_cons, List.cons_append] at he
        exact h4 _ hw (by rw [List.head?_cons, (List.cons.inj he).1])
  · intro n x hx
    generalize hl : c :: t = line at hx
    cases hx with
    | comment u => exact h1 (List.cons.inj hl).1
    | more u d hq => exact h2 (List.cons.inj hl).1
    | field f q d hq =>
      obtain ⟨t', ht⟩ := word_head n f
      rw [ht] at hl
      exact h3 (List.cons.inj hl).1

theorem foreign_malformed {c : UInt8} (h : Foreign c) (t : Str) : Malformed (c :: t) := by
  have h13 : c ≠ 13 := fun hc => h.2.2.2 [13] (by decide) (by rw [hc]; rfl)
  have h10 : c ≠ 10 := fun hc => h.2.2.2 [10] (by decide) (by rw [hc]; rfl)
  obtain ⟨p, ps, -, hp⟩ := GoStr.splitByte_cons_ne 10 c (t.filter (· != 13)) h10
  obtain ⟨hb, hi⟩ := foreign_line h p
  refine ⟨[], c :: p, ps.filter (fun l => ¬ Blank l), [], [], ?_, .nil, fun x hx => absurd hx (hi _ x), fun x hx => absurd hx (hi _ x)⟩
  unfold meaningfulLines
  rw [List.filter_cons_of_pos (by simpa using h13), hp, List.filter_cons_of_pos (by simpa using hb)]
  rfl

/-- **C132** A text that begins with a byte with which nothing of a PO text begins is refused, and as a template makes ReadPot panic. -/
theorem C132_foreign (c : UInt8) (h : Foreign c) (t : Str) : readPo (c :: t) = .err ∧ readPot (c :: t) = .panic :=
  ⟨(C26_error_iff _).2 (.inr (foreign_malformed h t)), (C23_exact _).1.2 (foreign_malformed h t)⟩

/-- **C132** No text with a byte order mark is read. -/
theorem C132_mark (m : Str) (hm : m ∈ byteOrderMarks) (t : Str) : readPo (m ++ t) = .err ∧ readPot (m ++ t) = .panic := by
  have h : ∃ c m', m = c :: m' ∧ Foreign c := by
    simp only [byteOrderMarks, List.mem_cons, List.not_mem_nil, or_false] at hm
    rcases hm with rfl | rfl | rfl | rfl <;> exact ⟨_, _, rfl, by unfold Foreign; decide⟩
  obtain ⟨c, m', rfl, hc⟩ := h
  exact C132_foreign c hc _

/-! ## All texts are UTF-8 -/

theorem valid_append {s t : Str} (hs : Valid s) (ht : Valid t) : Valid (s ++ t) := by
  induction hs with
  | nil => exact ht
  | cons ch _ ih => rw [List.append_assoc]; exact .cons ch ih

theorem valid_char (ch : Char) : Valid (utf8 ch) := by
  have := Valid.cons ch Valid.nil
  rwa [List.append_nil] at this

theorem valid_flatten {l : List Str} (h : ∀ s ∈ l, Valid s) : Valid l.flatten := by
  induction l with
  | nil => exact .nil
  | cons s l ih => exact valid_append (h s (by simp)) (ih fun s hs => h s (by simp [hs]))

theorem octal_digit {c : UInt8} {v : Nat} (h : IsDigit 8 c v) : 48 ≤ c ∧ c ≤ 55 := by
  obtain ⟨hv, h⟩ := h
  have h1 : ∀ v < 8, b!"0123456789abcdef"[v]? = some (UInt8.ofNat (48 + v)) ∧ b!"0123456789ABCDEF"[v]? = some (UInt8.ofNat (48 + v)) ∧
      48 ≤ UInt8.ofNat (48 + v) ∧ UInt8.ofNat (48 + v) ≤ 55 := by decide +kernel
  obtain ⟨h2, h3, h4⟩ := h1 v hv
  rw [h2, h3, or_self, Option.some.injEq] at h
  rw [← h]
  exact h4

theorem one_textual {q : UInt8} {t r d : Str} (hq : q = 34 ∨ q = 39) (h : OneChar q t r d)
    (ht : ∀ d : UInt8, d = 120 ∨ (48 ≤ d ∧ d ≤ 55) → ¬ [92, d] <:+: t) : Valid d := by
  cases h with
  | char ch r h1 h2 h3 => exact valid_char ch
  | bad b r h1 h2 => exact valid_char _
  | letter c v r h =>
    have : ∀ p ∈ letters, ∃ ch : Char, utf8 ch = [p.2] := by
      intro p hp
      refine ⟨Char.ofNat p.2.toNat, ?_⟩
      revert p
      decide +kernel
    obtain ⟨ch, hc⟩ := this _ h
    rw [← hc]
    exact valid_char ch
  | quote r =>
    rcases hq with rfl | rfl
    · exact valid_char '"'
    · exact valid_char '\''
  | octal ds v r hl hd hv =>
    cases hd with
    | nil => cases hl
    | cons hd' _ => exact absurd ⟨[], _, rfl⟩ (ht _ (.inr (octal_digit hd')))
  | hex ds v r hl hd => exact absurd ⟨[], _, rfl⟩ (ht 120 (.inl rfl))
  | short ds ch r hl hd => exact valid_char ch
  | long ds ch r hl hd => exact valid_char ch

theorem body_textual {t d : Str} (h : Body t d) (ht : ∀ d : UInt8, d = 120 ∨ (48 ≤ d ∧ d ≤ 55) → ¬ [92, d] <:+: t) : Valid d := by
  induction h with
  | nil => exact .nil
  | @cons t s d e h1 h2 ih =>
    refine valid_append (one_textual (.inl rfl) h1 fun c hc hi => ht c hc ?_) (ih fun c hc hi => ht c hc ?_)
    · exact hi.trans ⟨[], s, rfl⟩
    · exact hi.trans ⟨t, [], by simp⟩

theorem quotes_textual {q d : Str} (h : Quotes q d) (ht : Textual q) : Valid d := by
  obtain ⟨w1, lit, w2, -, -, rfl, hl⟩ := (Literal.C91_quotes q d).1 h
  obtain ⟨h96, ht⟩ := ht
  cases hl with
  | @interpreted t d hb =>
    exact body_textual hb fun c hc hi => ht c hc (hi.trans ⟨w1 ++ [34], 34 :: w2, by simp⟩)
  | @character t d hb =>
    exact one_textual (.inr rfl) hb fun c hc hi => ht c hc (hi.trans ⟨w1 ++ [39], 39 :: w2, by simp⟩)
  | noCharacter => exact .nil
  | raw hr => exact absurd (by simp) h96

/-- The text of the item is UTF-8. -/
def SoundItem : Item → Prop
  | .comment _ => True
  | .field _ d => Valid d
  | .more d => Valid d

theorem item_sound {n : Nat} {line : Str} {x : Item} (h : IsItem n line x) (ht : Textual line) : SoundItem x := by
  cases h with
  | comment t => trivial
  | more t d hq => exact quotes_textual hq ht
  | field f q d hq =>
    refine quotes_textual hq ⟨fun h => ht.1 (by simp [h]), fun c hc hi => ht.2 c hc (hi.trans ⟨f.word n ++ [32], [], by simp⟩)⟩

theorem parse_sound {ls gs g} (h : Parse ls gs g) (ht : ∀ l ∈ ls, Textual l) : ∀ g' ∈ gs ++ [g], ∀ x ∈ g', SoundItem x := by
  induction h with
  | nil => simp
  | @same ls gs g line x hp hi hs ih =>
    have ih := ih fun l hl => ht l (by simp [hl])
    have hx := item_sound hi (ht line (by simp))
    intro g' hg'
    rcases List.mem_append.mp hg' with h | h
    · exact ih g' (by simp [h])
    · rw [List.mem_singleton] at h
      subst h
      intro y hy
      rcases List.mem_append.mp hy with h | h
      · exact ih g (by simp) y h
      · rw [List.mem_singleton] at h
        subst h
        exact hx
  | @next ls gs g line x hp hi hs ih =>
    have ih := ih fun l hl => ht l (by simp [hl])
    have hx := item_sound hi (ht line (by simp))
    intro g' hg'
    rcases List.mem_append.mp hg' with h | h
    · exact ih g' h
    · rw [List.mem_singleton] at h
      subst h
      intro y hy
      rw [List.mem_singleton] at hy
      subst hy
      exact hx

theorem more_sound (g : List Item) (h : ∀ x ∈ g, SoundItem x) : Valid (moreText g) := by
  induction g with
  | nil => exact .nil
  | cons x g ih =>
    have ih := ih fun y hy => h y (by simp [hy])
    cases x with
    | comment l => exact ih
    | field f d => exact .nil
    | more d => exact valid_append (h (.more d) (by simp)) ih

theorem texts_sound (f : Field) (g : List Item) (h : ∀ x ∈ g, SoundItem x) : ∀ s ∈ texts f g, Valid s := by
  induction g with
  | nil => simp [texts]
  | cons x g ih =>
    have hg : ∀ y ∈ g, SoundItem y := fun y hy => h y (by simp [hy])
    have ih := ih hg
    cases x with
    | comment l => exact ih
    | more d => exact ih
    | field f' d =>
      rw [texts]
      split
      · intro s hs
        rcases List.mem_cons.mp hs with rfl | hs
        · exact valid_append (h (.field f' d) (by simp)) (more_sound g hg)
        · exact ih s hs
      · exact ih

/-- **C132** Whatever the encoding of a PO text, all that is read is UTF-8, if no byte is written as a number. -/
theorem C132_utf8 (c : Str) (f : File) (h : readPo c = .ok f) (ht : ∀ l ∈ meaningfulLines c, Textual l) :
    ∀ p ∈ f.entries, ∀ s ∈ p.2.strings, Valid s := by
  obtain ⟨-, es, ⟨gs, g, hp, rfl⟩, rfl⟩ := (C26_ok_iff c f).1 h
  intro p hp' s hs
  have hm := (List.mem_filter.1 (foldl_mem _ p hp')).1
  obtain ⟨g', hg', he⟩ := List.mem_map.1 hm
  have hsd := parse_sound hp ht g' hg'
  rw [← he] at hs
  have fl : ∀ f, Valid (texts f g').flatten := fun f => valid_flatten (texts_sound f g' hsd)
  simp only [Entry.strings, entryOf, List.mem_append, List.mem_cons, List.not_mem_nil, or_false] at hs
  rcases hs with (rfl | rfl | rfl | rfl) | hs
  · exact fl _
  · exact fl _
  · exact fl _
  · exact fl _
  · exact texts_sound _ g' hsd s hs

/-! ## Texts in other encodings -/

theorem simple_char {c : UInt8} (h : 32 ≤ c ∧ c < 127 ∧ c ≠ 34 ∧ c ≠ 92) : ∃ ch : Char, utf8 ch = [c] ∧ ch.toNat = c.toNat := by
  have h1 : ∀ n < 127, utf8 (Char.ofNat n) = [UInt8.ofNat n] ∧ (Char.ofNat n).toNat = n := by decide +kernel
  obtain ⟨h2, h3⟩ := h1 c.toNat (UInt8.lt_iff_toNat_lt.1 h.2.1)
  exact ⟨Char.ofNat c.toNat, by rw [h2, UInt8.ofNat_toNat], h3⟩

theorem simple_body {t : Str} (h : Simple t) {s e : Str} (hs : Body s e) : Body (t ++ s) (t ++ e) := by
  induction t with
  | nil => exact hs
  | cons c t ih =>
    have hc := h c (by simp)
    obtain ⟨ch, h1, h2⟩ := simple_char hc
    have hn : ∀ k : UInt8, c ≠ k → ch.toNat ≠ k.toNat := fun k hk he => hk (UInt8.toNat_inj.1 (by rw [← h2, he]))
    have h10 : c ≠ 10 := by rintro rfl; exact absurd hc.1 (by decide)
    have := Body.cons (OneChar.char (q := 34) ch (t ++ s) (hn 10 h10) (hn 92 hc.2.2.2) (hn 34 hc.2.2.1)) (ih fun c hc => h c (by simp [hc]))
    rw [h1] at this
    exact this

theorem lone_byte (b : UInt8) (hb : 0x80 ≤ b) (t : Str) (h : Simple t) : ∀ ch u, b :: t ≠ utf8 ch ++ u := by
  intro ch u he
  have hb : 128 ≤ b.toNat := UInt8.le_iff_toNat_le.1 hb
  rcases GnuPo.utf8_cases ch with ⟨h1, h2⟩ | ⟨h1, h2⟩
  · rw [h2] at he
    have := congrArg UInt8.toNat (List.cons.inj he).1
    simp only [UInt8.toNat_ofNat'] at this
    omega
  · have hl : 2 ≤ (utf8 ch).length := by
      rw [String.length_utf8EncodeChar, Char.utf8Size]
      split
      · next h => exact absurd h1 (by have := UInt32.le_iff_toNat_le.1 h; exact Nat.not_le.2 (Nat.lt_succ_of_le this))
      · split
        · decide
        · split <;> decide
    cases hu : utf8 ch with
    | nil => rw [hu] at hl; exact absurd hl (by decide)
    | cons x w =>
      cases w with
      | nil => rw [hu, List.length_singleton] at hl; omega
      | cons y w =>
        have hy := h2 y (by rw [hu]; simp)
        rw [hu] at he
        have ht := (List.cons.inj he).2
        have := (h y (by rw [ht]; simp)).2.1
        have := UInt8.lt_iff_toNat_lt.1 this
        exact absurd (Nat.lt_of_le_of_lt hy this) (by decide)

theorem lone_quotes (u v : Str) (hu : Simple u) (hv : Simple v) (b : UInt8) (hb : 0x80 ≤ b) :
    Literal.Spaced (34 :: (u ++ b :: v) ++ [34]) (u ++ (utf8 '\uFFFD' ++ v)) := by
  refine ⟨[], _, [], ⟨[], by simp, rfl⟩, ⟨[], by simp, rfl⟩, by rw [List.nil_append, List.append_nil], .interpreted (simple_body hu ?_)⟩
  have h0 := simple_body hv Body.nil
  rw [List.append_nil] at h0
  exact Body.cons (t := [b]) (.bad b v hb (lone_byte b hb v hv)) h0

/-- **C132** In an encoding with one byte for each letter, letters outside ASCII are told apart neither in ids nor in translations: a lone
byte is shown as U+FFFD, whichever it is. -/
theorem C132_alone (u v u' v' : Str) (hu : Simple u) (hv : Simple v) (hu' : Simple u') (hv' : Simple v') (b b' : UInt8) (hb : 0x80 ≤ b) (hb' : 0x80 ≤ b') :
    ∃ f, readPo (Literal.oneMessage (34 :: (u ++ b :: v) ++ [34]) (34 :: (u' ++ b' :: v') ++ [34])) = .ok f ∧
      ∀ (α : Type) (E : Fmt.Env α), f.x E [] (u ++ (b!"\uFFFD" ++ v)) [] = u' ++ (b!"\uFFFD" ++ v') := by
  have low : ∀ (u v : Str) (b : UInt8), Simple u → Simple v → 0x80 ≤ b → ∀ c ∈ 34 :: (u ++ b :: v) ++ [34], c ≠ 10 ∧ c ≠ 13 := by
    intro u v b hu hv hb c hc
    have hs : ∀ t, Simple t → c ∈ t → c ≠ 10 ∧ c ≠ 13 := by
      intro t ht hc
      have := (ht c hc).1
      constructor <;> rintro rfl <;> exact absurd this (by decide)
    simp only [List.cons_append, List.mem_cons, List.mem_append, List.not_mem_nil, or_false] at hc
    rcases hc with rfl | (hc | rfl | hc) | rfl
    · decide
    · exact hs u hu hc
    · constructor <;> rintro rfl <;> exact absurd hb (by decide)
    · exact hs v hv hc
    · decide
  obtain ⟨f, hf, hx⟩ := (Literal.C91_message _ _ (low u v b hu hv hb) (low u' v' b' hu' hv' hb')).1 _ _ (lone_quotes u v hu hv b hb) (lone_quotes u' v' hu' hv' b' hb')
  refine ⟨f, hf, fun α E => ?_⟩
  have := hx α E
  rw [if_neg (by simp)] at this
  exact this


theorem simple_low {t : Str} (h : Simple t) : ∀ c ∈ t, c ≠ 10 ∧ c ≠ 13 := by
  intro c hc
  have := (h c hc).1
  constructor <;> rintro rfl <;> exact absurd this (by decide)

/-- A message can stand anywhere, and it defines what its texts say. -/
theorem message_piece (q1 q2 d1 d2 : Str) (h1 : ∀ c ∈ q1, c ≠ 10 ∧ c ≠ 13) (h2 : ∀ c ∈ q2, c ≠ 10 ∧ c ≠ 13)
    (hd1 : Literal.Spaced q1 d1) (hd2 : Literal.Spaced q2 d2) (hne : d2 ≠ []) :
    Piece (Literal.oneMessage q1 q2) ∧ Defines (Literal.oneMessage q1 q2) [] d1 := by
  have hl := Literal.oneMessage_lines q1 q2 h1 h2
  have p1 := Parse.same .nil (IsItem.field (n := 0) .id q1 d1 ((Literal.C91_quotes q1 d1).mpr hd1)) (by simp [Starts, lastField])
  have p2 := Parse.same p1 (IsItem.field .str q2 d2 ((Literal.C91_quotes q2 d2).mpr hd2)) (by simp [Starts, lastField])
  refine ⟨⟨?_, [], _, by rw [hl]; exact p2, .inl (by simp [lastField])⟩, [{ id := d1, str := d2 }], { id := d1, str := d2 },
    ⟨[], _, by rw [hl]; exact p2, by simp [entryOf, texts, comments, moreText]⟩, by simp, by simp [Translated, hne], rfl⟩
  intro l h
  rw [hl] at h
  cases h
  exact .inr (.inr (List.prefix_append _ _))

/-- **C132** Any number of messages whose ids differ only in a lone byte become one: what is found is the translation of the last. -/
theorem C132_merged (u v : Str) (hu : Simple u) (hv : Simple v) (ms : List (UInt8 × Str)) (m : UInt8 × Str)
    (h : ∀ x ∈ ms ++ [m], 0x80 ≤ x.1 ∧ Simple x.2 ∧ x.2 ≠ []) :
    ∃ f, readPo (joined ((ms ++ [m]).map fun x => Literal.oneMessage (34 :: (u ++ x.1 :: v) ++ [34]) (34 :: x.2 ++ [34]))) = .ok f ∧
      ∀ (α : Type) (E : Fmt.Env α), f.x E [] (u ++ (b!"\uFFFD" ++ v)) [] = m.2 := by
  have low1 : ∀ x : UInt8 × Str, 0x80 ≤ x.1 → ∀ c ∈ 34 :: (u ++ x.1 :: v) ++ [34], c ≠ 10 ∧ c ≠ 13 := by
    intro x hx c hc
    simp only [List.cons_append, List.mem_cons, List.mem_append, List.not_mem_nil, or_false] at hc
    rcases hc with rfl | (hc | rfl | hc) | rfl
    · decide
    · exact simple_low hu c hc
    · constructor <;> intro he <;> rw [he] at hx <;> exact absurd hx (by decide)
    · exact simple_low hv c hc
    · decide
  have low2 : ∀ x : UInt8 × Str, Simple x.2 → ∀ c ∈ 34 :: x.2 ++ [34], c ≠ 10 ∧ c ≠ 13 := by
    intro x hx c hc
    simp only [List.cons_append, List.mem_cons, List.mem_append, List.not_mem_nil, or_false] at hc
    rcases hc with rfl | hc | rfl
    · decide
    · exact simple_low hx c hc
    · decide
  have sp2 : ∀ x : UInt8 × Str, Simple x.2 → Literal.Spaced (34 :: x.2 ++ [34]) x.2 := by
    intro x hx
    have h0 := simple_body hx Body.nil
    rw [List.append_nil] at h0
    exact ⟨[], _, [], ⟨[], by simp, rfl⟩, ⟨[], by simp, rfl⟩, by rw [List.nil_append, List.append_nil], .interpreted h0⟩
  have one := fun x (hx : x ∈ ms ++ [m]) => message_piece _ _ _ _ (low1 x (h x hx).1) (low2 x (h x hx).2.1)
    (lone_quotes u v hu hv x.1 (h x hx).1) (sp2 x (h x hx).2.1) (h x hx).2.2
  obtain ⟨f, hf, hread, -⟩ := C118_read ((ms ++ [m]).map fun x => Literal.oneMessage (34 :: (u ++ x.1 :: v) ++ [34]) (34 :: x.2 ++ [34]))
    (by simp) (by
      intro c hc
      obtain ⟨x, hx, rfl⟩ := List.mem_map.1 hc
      exact (one x hx).1)
  have hm : m ∈ ms ++ [m] := by simp
  obtain ⟨fc, hfc, hx⟩ := (Literal.C91_message _ _ (low1 m (h m hm).1) (low2 m (h m hm).2.1)).1 _ _
    (lone_quotes u v hu hv m.1 (h m hm).1) (sp2 m (h m hm).2.1)
  have hget := (hread _ _ [] fc (by rw [List.map_append]; rfl) hfc).1 _ _ (one m hm).2 (by simp)
  refine ⟨f, hf, fun α E => ?_⟩
  have := hx α E
  rw [if_neg (h m hm).2.2] at this
  unfold File.x at this ⊢
  rw [show key [] (u ++ (b!"\uFFFD" ++ v)) = key [] (u ++ (utf8 '\uFFFD' ++ v)) from rfl, hget]
  exact this

/-- Cases of the theorems: a line in Latin-1 meets the condition, one with a byte written as a number does not. -/
example : Textual (b!"msgstr \"caf" ++ [0xE9] ++ b!" \\\"noir\\\"\\n\"") ∧ ¬ Textual b!"msgstr \"caf\\xE9\"" ∧ Simple b!"caf" ∧ Foreign 0xEF ∧ ¬ Foreign 0xE2 := by
  refine ⟨⟨by decide +kernel, fun d hd => ?_⟩, fun h => ?_, by unfold Simple; decide, by unfold Foreign; decide, by unfold Foreign; decide⟩
  · have hn : ∀ n < 256, (n = 120 ∨ (48 ≤ n ∧ n ≤ 55)) → ¬ [92, UInt8.ofNat n] <:+: (b!"msgstr \"caf" ++ [0xE9] ++ b!" \\\"noir\\\"\\n\"") := by
      decide +kernel
    have := hn d.toNat (UInt8.toNat_lt d) (by
      rcases hd with rfl | ⟨h1, h2⟩
      · exact .inl rfl
      · exact .inr ⟨UInt8.le_iff_toNat_le.1 h1, UInt8.le_iff_toNat_le.1 h2⟩)
    rw [UInt8.ofNat_toNat] at this
    exact this
  · exact h.2 120 (.inl rfl) ⟨b!"msgstr \"caf", b!"E9\"", by decide⟩

/-- Two ids that differ in Latin-1 are the same message, and the texts read are UTF-8. -/
example : ∃ f g, readPo (b!"msgid \"caf" ++ [0xE9] ++ b!"\"\nmsgstr \"th" ++ [0xE9] ++ b!"\"") = .ok f ∧
    readPo (b!"msgid \"caf" ++ [0xE8] ++ b!"\"\nmsgstr \"th" ++ [0xEA] ++ b!"\"") = .ok g ∧
    (f.entries.map fun p => (p.2.id, p.2.str)) = [(b!"caf\uFFFD", b!"th\uFFFD")] ∧ g.entries = f.entries := by
  obtain ⟨f, h, hf⟩ := of_okAnd (readPo (b!"msgid \"caf" ++ [0xE9] ++ b!"\"\nmsgstr \"th" ++ [0xE9] ++ b!"\""))
    (fun f => f.entries = [(key [] b!"caf\uFFFD", { id := b!"caf\uFFFD", str := b!"th\uFFFD" })]) (by decide +kernel)
  obtain ⟨g, h', hg⟩ := of_okAnd (readPo (b!"msgid \"caf" ++ [0xE8] ++ b!"\"\nmsgstr \"th" ++ [0xEA] ++ b!"\""))
    (fun f => f.entries = [(key [] b!"caf\uFFFD", { id := b!"caf\uFFFD", str := b!"th\uFFFD" })]) (by decide +kernel)
  exact ⟨f, g, h, h', by rw [hf]; rfl, by rw [hf, hg]⟩

/-- Two messages in one Latin-1 file. -/
example : ∃ f, readPo (b!"msgid \"caf" ++ [0xE9] ++ b!"\"\nmsgstr \"tea\"\nmsgid \"caf" ++ [0xE8] ++ b!"\"\nmsgstr \"milk\"") = .ok f ∧
    ∀ (α : Type) (E : Fmt.Env α), f.x E [] b!"caf�" [] = b!"milk" :=
  C132_merged b!"caf" [] (by unfold Simple; decide) (by unfold Simple; decide) [(0xE9, b!"tea")] (0xE8, b!"milk")
    (by unfold Simple; decide)

end Verif.Tr
