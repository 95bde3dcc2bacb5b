import Verif.Spec.PoSize
import Verif.Spec.Wrap
import Verif.Props.C122
import Verif.Lemmas.Quote
/-!
# C126 How large saved PO and POT files are
-/
namespace Verif.Tr
open Verif Verif.Quote

/-- The room a text takes at most when it is quoted: two bytes for a line end, four for any other byte. -/
def room : Str → Nat
  | [] => 0
  | c :: s => (if c = 10 then 2 else 4) + room s

theorem room_append (a b : Str) : room (a ++ b) = room a + room b := by
  induction a with
  | nil => simp [room]
  | cons c a ih => rw [List.cons_append, room, room, ih, Nat.add_assoc]

theorem room_le (s : Str) : room s ≤ 4 * s.length := by
  induction s with
  | nil => simp [room]
  | cons c s ih => rw [room, List.length_cons]; split <;> omega

theorem room_ge (s : Str) : 2 * s.length ≤ room s := by
  induction s with
  | nil => simp [room]
  | cons c s ih => rw [room, List.length_cons]; split <;> omega

theorem hexN_length (k r : Nat) : (hexN k r).length = k := by
  induction k with
  | zero => rfl
  | succ k ih => rw [hexN, List.length_cons, ih]

theorem esc_room (P : Nat → Bool) (hP : ∀ r, 32 ≤ r → r < 127 → P r = true) (r : Nat) (x : Str) (hr : Utf8.validRune r = true) (hx : Utf8.encode r = x)
    (h : r < 0x80 ∨ ∃ b t, x = b :: t ∧ ¬ b < 0x80) : (escRune P r).length ≤ room x ∧ x.length ≤ (escRune P r).length := by
  have hlen : x.length = if r < 0x80 then 1 else if r < 0x800 then 2 else if r < 0x10000 then 3 else 4 := by
    rw [← hx, Utf8.encode]
    simp only [hr, Bool.not_true, Bool.false_eq_true, if_false]
    split
    · rfl
    · split
      · rfl
      · split <;> rfl
  have hesc : x.length ≤ (escRune P r).length ∧ ((escRune P r).length ≤ 4 ∨ (0x80 ≤ r ∧ (escRune P r).length ≤ 6) ∨
      (0x10000 ≤ r ∧ (escRune P r).length ≤ 10)) ∧ (r = 10 → (escRune P r).length ≤ 2) := by
    unfold escRune
    split
    · rename_i h1
      rcases h1 with rfl | rfl <;> simp [hlen]
    · split
      · rw [hx]
        refine ⟨Nat.le_refl _, .inl (by rw [hlen]; split <;> (try split) <;> (try split) <;> omega), ?_⟩
        rintro rfl
        rw [hlen]
        simp
      · rename_i hnp
        cases hl : letterEsc r with
        | some c =>
          have : r < 0x80 := by
            unfold letterEsc at hl
            repeat' split at hl
            all_goals first | omega | cases hl
          simp [hlen, this]
        | none =>
          have h10 : r ≠ 10 := by rintro rfl; simp [letterEsc] at hl
          dsimp only
          simp only [hr, Bool.not_true, Bool.false_eq_true, if_false]
          split
          · simp only [List.length_append, List.length_cons, List.length_nil, hexN_length]
            refine ⟨by rw [hlen]; split <;> (try split) <;> (try split) <;> omega, by omega, fun h => absurd h h10⟩
          · rename_i h32
            have h80 : 0x80 ≤ r := by
              rcases Nat.lt_or_ge r 127 with h | h
              · exact absurd (hP r (by omega) h) hnp
              · omega
            split
            · simp only [List.length_append, List.length_cons, List.length_nil, hexN_length]
              refine ⟨by rw [hlen]; split <;> (try split) <;> (try split) <;> omega, by omega, fun h => absurd h h10⟩
            · simp only [List.length_append, List.length_cons, List.length_nil, hexN_length]
              refine ⟨by rw [hlen]; split <;> (try split) <;> (try split) <;> omega, by omega, fun h => absurd h h10⟩
  refine ⟨?_, hesc.1⟩
  obtain ⟨-, h2, h3⟩ := hesc
  rcases h with h | ⟨b, t, rfl, hb⟩
  · obtain ⟨b, rfl⟩ : ∃ b, x = [b] := List.length_eq_one_iff.1 (by rw [hlen, if_pos h])
    have hb : b = UInt8.ofNat r := by
      rw [Utf8.encode, if_pos h] at hx
      exact (List.cons.inj hx).1.symm
    by_cases h10 : r = 10
    · have := h3 h10
      rw [room, room]
      split <;> omega
    · have hb10 : b ≠ 10 := by
        rintro rfl
        have := congrArg UInt8.toNat hb
        rw [UInt8.toNat_ofNat'] at this
        simp at this
        omega
      rw [room, room, if_neg hb10]
      omega
  · have hb10 : b ≠ 10 := by rintro rfl; exact hb (by decide)
    have := room_ge t
    rw [room, if_neg hb10]
    rw [List.length_cons] at hlen
    split at hlen
    · omega
    · split at hlen
      · omega
      · split at hlen <;> omega

theorem quoteLoop_room (P : Nat → Bool) (hP : ∀ r, 32 ≤ r → r < 127 → P r = true) (k : Nat) (s : Str) (hk : s.length ≤ k) :
    (quoteLoop P k s).length ≤ room s ∧ s.length ≤ (quoteLoop P k s).length := by
  induction k generalizing s with
  | zero =>
    obtain rfl : s = [] := List.length_eq_zero_iff.1 (by omega)
    simp [quoteLoop]
  | succ k ih =>
    cases s with
    | nil => simp [quoteLoop]
    | cons b t =>
      rw [quoteLoop, decodeStep]
      obtain ⟨hw1, hw2⟩ := Utf8.decode_width (b :: t) (by simp)
      dsimp only
      have hsplit : b :: t = (b :: t).take (Utf8.decode (b :: t)).2 ++ (b :: t).drop (Utf8.decode (b :: t)).2 := (List.take_append_drop _ _).symm
      obtain ⟨i1, i2⟩ := ih ((b :: t).drop (Utf8.decode (b :: t)).2) (by rw [List.length_drop]; omega)
      have key : ∀ c : Str, c.length ≤ room ((b :: t).take (Utf8.decode (b :: t)).2) →
          ((b :: t).take (Utf8.decode (b :: t)).2).length ≤ c.length →
          (c ++ quoteLoop P k ((b :: t).drop (Utf8.decode (b :: t)).2)).length ≤ room (b :: t) ∧
            (b :: t).length ≤ (c ++ quoteLoop P k ((b :: t).drop (Utf8.decode (b :: t)).2)).length := by
        intro c h1 h2
        have e1 := congrArg room hsplit
        have e2 := congrArg List.length hsplit
        rw [room_append] at e1
        rw [List.length_append] at e2
        rw [List.length_append]
        omega
      by_cases h : (Utf8.decode (b :: t)).2 = 1 ∧ (Utf8.decode (b :: t)).1 = Utf8.runeError
      · rw [if_pos h]
        apply key
        · have hb10 : b ≠ 10 := by
            rintro rfl
            have := h.2
            simp [Utf8.decode, Utf8.runeError] at this
          rw [h.1]
          simp [room, hb10, hexN_length]
        · rw [h.1]
          simp
      · rw [if_neg h]
        obtain ⟨h1, -, -, h4, h5⟩ := Utf8.encode_decode (b :: t) (by simp) h
        have := esc_room P hP _ _ h1 h4 (by
          rcases h5 with h5 | ⟨b', t', he, hb, -⟩
          · exact .inl h5
          · right
            rw [he] at hw1 ⊢
            obtain ⟨w, hw⟩ : ∃ w, (Utf8.decode (b' :: t')).2 = w + 1 := ⟨(Utf8.decode (b' :: t')).2 - 1, by omega⟩
            exact ⟨b', t'.take w, by rw [hw, List.take_succ_cons], hb⟩)
        exact key _ this.1 this.2

theorem quote_room (P : Nat → Bool) (hP : ∀ r, 32 ≤ r → r < 127 → P r = true) (s : Str) :
    (quote P s).length ≤ room s + 2 ∧ s.length + 2 ≤ (quote P s).length := by
  obtain ⟨h1, h2⟩ := quoteLoop_room P hP s.length s (Nat.le_refl _)
  simp only [quote, List.cons_append, List.length_cons, List.length_append, List.length_nil]
  omega

/-- The pieces, quoted and with a line end each. -/
def written (P : Nat → Bool) (ps : List Str) : Str := ps.flatMap fun line => quote P line ++ [10]

theorem written_append (P : Nat → Bool) (a b : List Str) : written P (a ++ b) = written P a ++ written P b := by
  simp [written]

theorem written_room (P : Nat → Bool) (hP : ∀ r, 32 ≤ r → r < 127 → P r = true) (ps : List Str) :
    (written P ps).length ≤ room ps.flatten + 3 * ps.length ∧ ps.flatten.length + 3 * ps.length ≤ (written P ps).length := by
  induction ps with
  | nil => simp [written, room]
  | cons p ps ih =>
    have := quote_room P hP p
    simp only [written, List.flatMap_cons, List.length_append, List.length_cons, List.length_nil, List.flatten_cons, room_append] at ih ⊢
    omega

theorem room_lines (ls : List Str) : room (ls.map (· ++ [10])).flatten + 3 * ls.length ≤ 5 * (ls.map (· ++ [10])).flatten.length := by
  induction ls with
  | nil => simp [room]
  | cons l ls ih =>
    have := room_le l
    simp only [List.map_cons, List.flatten_cons, room_append, List.length_cons, List.length_append, List.length_nil, room, if_true]
    omega

/-- **C126** A text of `n` bytes takes `5 n + 5` bytes at most, after its keyword and a blank, and `n + 3` at least. -/
theorem C126_text (P : Nat → Bool) (hP : ∀ r, 32 ≤ r → r < 127 → P r = true) (keyword s : Str) :
    (writeString P keyword s).length ≤ keyword.length + 1 + (5 * s.length + 5) ∧
      keyword.length + 1 + (s.length + 3) ≤ (writeString P keyword s).length := by
  obtain ⟨ls, last, tail, h1, -, -, h4, h5, h6⟩ := (C122_pieces lineThreshold s _).1 rfl
  have hw : writeString P keyword s = keyword ++ [32] ++ written P (split s lineThreshold) := rfl
  have hr := written_room P hP (split s lineThreshold)
  have htail : tail.flatten = last ∧ (tail.length = 1 ∨ tail.length = 2 ∧ 77 < last.length) := by
    cases h5 with
    | broken a b h =>
      obtain ⟨g1, g2, -, -⟩ := h
      refine ⟨by simp [g2], .inr ⟨rfl, ?_⟩⟩
      have : (77 : Int) < last.length := g1
      omega
    | whole h => exact ⟨by simp, .inl rfl⟩
  obtain ⟨ht, htl⟩ := htail
  have hfl : (split s lineThreshold).flatten = s := by
    rw [h6, h1]
    by_cases hls : ls = [] <;> simp [hls, ht]
  have hlen : (split s lineThreshold).length = (if ls = [] then 0 else 1) + (ls.length + tail.length) := by
    rw [h6]
    by_cases hls : ls = [] <;> simp [hls]
    omega
  have hroom := room_lines ls
  have hlast := room_le last
  have hs1 : room s = room (ls.map (· ++ [10])).flatten + room last := by rw [h1, room_append]
  have hs2 : s.length = (ls.map (· ++ [10])).flatten.length + last.length := by rw [h1, List.length_append]
  rw [hfl, hlen] at hr
  rw [hw]
  simp only [List.length_append, List.length_cons, List.length_nil]
  by_cases hls : ls = []
  · rw [if_pos hls] at hr
    subst hls
    simp only [List.map_nil, List.flatten_nil, List.length_nil, room] at hs1 hs2 hr
    omega
  · rw [if_neg hls] at hr
    have hne : 0 < last.length := List.length_pos_iff.2 (h4 hls)
    omega

/-- **C126** The `5 n + 5` bytes are needed: for line ends with a control character behind them. -/
theorem C126_tight (P : Nat → Bool) (hP : P 10 = false ∧ P 1 = false) (keyword : Str) (n : Nat) (hn : n ≠ 0) :
    (writeString P keyword (List.replicate n 10 ++ [1])).length = keyword.length + 1 + (5 * (n + 1) + 5) := by
  have hsplit : split (List.replicate n 10 ++ [1]) lineThreshold = [[]] ++ (List.replicate n [10] ++ [[1]]) := by
    refine (C122_pieces _ _ _).2 ⟨List.replicate n [], [1], [[1]], by simp, ?_, ?_, by simp, .whole ?_, ?_⟩
    · intro l hl
      rw [List.eq_of_mem_replicate hl]
      simp
    · intro a b hab
      cases a with
      | nil => simp at hab
      | cons x a =>
        have := congrArg List.length hab
        simp at this
    · rintro a b ⟨h, -⟩
      exact absurd h (by decide)
    · simp [hn]
  have hw : writeString P keyword (List.replicate n 10 ++ [1]) = keyword ++ [32] ++ written P (split (List.replicate n 10 ++ [1]) lineThreshold) := rfl
  have q0 : (quote P []).length = 2 := rfl
  have q10 : (quote P [10]).length = 4 := by
    simp [quote, quoteLoop, escRune, hP.1, letterEsc, Utf8.runeError]
  have q1 : (quote P [1]).length = 6 := by
    simp [quote, quoteLoop, escRune, hP.2, letterEsc, Utf8.runeError, hexN_length]
  have hrep : (written P (List.replicate n [10])).length = 5 * n := by
    simp [written, q10, Nat.mul_comm]
  rw [hw, hsplit, written_append, written_append]
  simp only [List.length_append, hrep]
  simp only [written, List.flatMap_cons, List.flatMap_nil, List.length_append, List.length_cons, List.length_nil, q0, q1]
  omega

theorem comments_length (e : Entry) : (writeComments e).length = (e.cmts.map List.length).sum + e.cmts.length := by
  unfold writeComments
  induction e.cmts with
  | nil => rfl
  | cons c l ih =>
    simp only [List.flatMap_cons, List.length_append, List.length_cons, List.length_nil, List.map_cons, List.sum_cons] at ih ⊢
    omega

/-- The bytes of the keywords of plural forms, with the numbers of the forms from `i` on: up to 14 and the digits of the number. -/
def formWords : Nat → Nat → Nat
  | _, 0 => 0
  | i, n + 1 => 14 + (Num.natDigits i).length + formWords (i + 1) n

theorem msgstrN_length (i : Nat) : (msgstrN i).length = 8 + (Num.natDigits i).length := by
  simp [msgstrN]
  omega

theorem forms_length (P : Nat → Bool) (hP : ∀ r, 32 ≤ r → r < 127 → P r = true) (ss : List Str) (i : Nat) :
    (writeForms P i ss).length ≤ 5 * (ss.map List.length).sum + formWords i ss.length ∧ (ss.map List.length).sum ≤ (writeForms P i ss).length := by
  induction ss generalizing i with
  | nil => simp [writeForms, formWords]
  | cons s ss ih =>
    have h1 := C126_text P hP (msgstrN i) s
    have h2 := ih (i + 1)
    rw [msgstrN_length] at h1
    simp only [writeForms, List.length_append, List.map_cons, List.sum_cons, List.length_cons, formWords]
    omega

theorem opt_length (P : Nat → Bool) (hP : ∀ r, 32 ≤ r → r < 127 → P r = true) (keyword s : Str) (c : Prop) [Decidable c] :
    (if c then writeString P keyword s else []).length ≤ keyword.length + 1 + (5 * s.length + 5) ∧
      ((¬ c → s = []) → s.length ≤ (if c then writeString P keyword s else []).length) := by
  have := C126_text P hP keyword s
  split
  · exact ⟨this.1, fun _ => by omega⟩
  · rename_i h
    exact ⟨by simp, fun h' => by rw [h' h]⟩

theorem entry_length (P : Nat → Bool) (hP : ∀ r, 32 ≤ r → r < 127 → P r = true) (e : Entry) :
    (poEntry P e).length ≤ 5 * e.size + e.cmts.length + 55 + formWords 0 e.strN.length ∧
      ((e.isPlural = false → e.id2 = []) → e.size + e.cmts.length < (poEntry P e).length) := by
  have h1 := comments_length e
  have h2 := opt_length P hP b!"msgctxt" e.ctxt (e.ctxt ≠ [])
  have h3 := C126_text P hP b!"msgid" e.id
  have h4 := opt_length P hP b!"msgid_plural" e.id2 (e.isPlural = true)
  have h5 := opt_length P hP b!"msgstr" e.str (e.str ≠ [])
  have h6 := forms_length P hP e.strN 0
  have g2 := h2.2 (by simp)
  have g5 := h5.2 (by simp)
  unfold poEntry Entry.size
  simp only [List.length_append, List.length_cons, List.length_nil] at *
  refine ⟨by omega, fun h => ?_⟩
  have g4 := h4.2 (fun hn => h (by simpa using hn))
  omega

/-- **C126** So a saved PO file is at most five times as large as its texts, apart from keywords, quotation marks and line ends, which take up to
55 bytes for each message, one for each comment and 14 and the digits of its number for each form; and it is larger than its texts. -/
theorem C126_po (P : Nat → Bool) (hP : ∀ r, 32 ≤ r → r < 127 → P r = true) (f : File) (es : List Entry) (hs : SortedEntry f es) :
    (savePo P es).length ≤ 5 * f.size + (es.map fun e => e.cmts.length + 55 + formWords 0 e.strN.length).sum ∧
      ((∀ e ∈ es, e.isPlural = false → e.id2 = []) → f.size + es.length ≤ (savePo P es).length) := by
  have hsize : f.size = (es.map Entry.size).sum := by
    have : f.size = (f.entries.vals.map Entry.size).sum := by
      simp [File.size, GMap.vals, List.map_map, Function.comp_def]
    rw [this]
    exact ((hs.1.map Entry.size).sum_nat).symm
  rw [hsize]
  unfold savePo
  clear hs hsize
  induction es with
  | nil => simp
  | cons e es ih =>
    have h := entry_length P hP e
    simp only [List.flatMap_cons, List.length_append, List.map_cons, List.sum_cons, List.length_cons]
    refine ⟨by omega, fun hid => ?_⟩
    have h1 := h.2 (hid e (by simp))
    have h2 := ih.2 (fun x hx => hid x (by simp [hx]))
    omega


theorem pot_length (P : Nat → Bool) (hP : ∀ r, 32 ≤ r → r < 127 → P r = true) (e : Entry) :
    (potEntry P e).length ≤ 5 * e.size + e.cmts.length + 69 := by
  have h1 := comments_length e
  have h2 := (opt_length P hP b!"msgctxt" e.ctxt (e.ctxt ≠ [])).1
  have h3 := (C126_text P hP b!"msgid" e.id).1
  have h4 := (C126_text P hP b!"msgid_plural" e.id2).1
  have h5 := (C126_text P hP b!"msgstr" e.str).1
  have q : ∀ keyword, (writeString P keyword []).length = keyword.length + 4 := by
    intro keyword
    have : split [] lineThreshold = [[]] := by decide +kernel
    simp [writeString, this, quote, quoteLoop]
  have m0 : (msgstrN 0).length = 9 := by decide +kernel
  have m1 : (msgstrN 1).length = 9 := by decide +kernel
  have qs := q b!"msgstr"
  unfold potEntry Entry.size
  have hrest : (if e.isPlural then writeString P b!"msgid_plural" e.id2 ++ writeString P (msgstrN 0) [] ++ writeString P (msgstrN 1) []
      else if e.id = [] then writeString P b!"msgstr" e.str else writeString P b!"msgstr" []).length ≤ 5 * e.id2.length + 5 * e.str.length + 44 := by
    simp only [List.length_cons, List.length_nil] at h4 h5 qs
    split
    · simp only [List.length_append, q, m0, m1]
      omega
    · split <;> omega
  simp only [List.length_append, List.length_cons, List.length_nil] at *
  omega

/-- **C126** The same for POT files, with 69 bytes for each message. -/
theorem C126_pot (P : Nat → Bool) (hP : ∀ r, 32 ≤ r → r < 127 → P r = true) (es : List Entry) :
    (savePot P es).length ≤ (es.map fun e => 5 * e.size + e.cmts.length + 69).sum := by
  unfold savePot
  induction es with
  | nil => simp
  | cons e es ih =>
    have h := pot_length P hP e
    simp only [List.flatMap_cons, List.length_append, List.map_cons, List.sum_cons]
    omega

/-- Up to ten forms the numbers have one digit. -/
theorem formWords_ten (n : Nat) (h : n ≤ 10) : formWords 0 n = 15 * n := by
  have : n = 0 ∨ n = 1 ∨ n = 2 ∨ n = 3 ∨ n = 4 ∨ n = 5 ∨ n = 6 ∨ n = 7 ∨ n = 8 ∨ n = 9 ∨ n = 10 := by omega
  rcases this with rfl | rfl | rfl | rfl | rfl | rfl | rfl | rfl | rfl | rfl | rfl <;> decide +kernel

/-- A printable character is one of these here. -/
def ascii (r : Nat) : Bool := 32 ≤ r && r < 127

/-- A text of 3 bytes that takes 20 bytes after its keyword and the blank. -/
example : (∀ r, 32 ≤ r → r < 127 → ascii r = true) ∧ ascii 10 = false ∧ ascii 1 = false ∧
    (writeString ascii b!"msgid" b!"\n\n\x01").length = 26 ∧ writeString ascii b!"msgid" b!"\n\n\x01" = b!"msgid \"\"\n\"\\n\"\n\"\\n\"\n\"\\x01\"\n" := by
  refine ⟨fun r h1 h2 => by simp [ascii, h1, h2], by decide, by decide, ?_, ?_⟩ <;> decide +kernel


/-- A file with one message: 30 bytes of texts become 84 bytes; the limit is 5 * 30 + 1 + 55 + 30. -/
example : ∃ f es, SortedEntry f es ∧ f.size = 30 ∧ (savePo ascii es).length = 84 := by
  let e : Entry := { cmts := [b!"#: a.go:1"], id := b!"file", isPlural := true, id2 := b!"files", strN := [b!"Datei", b!"Datei\tn"] }
  refine ⟨{ entries := [(e.key, e)] }, [e], ⟨.refl _, by simp⟩, by decide +kernel, by decide +kernel⟩

end Verif.Tr
