import Verif.Lemmas.GnuPo
import Verif.Lemmas.PoWrite
/-!
# C116 PO files are exchanged with GNU gettext
-/
namespace Verif.GnuPo
open Verif
open Verif.Literal (utf8 IsDigit Digits letters)

/-! ## Strings both understand -/

theorem letters_low : ∀ p ∈ (34, 34) :: letters, p.1.toNat < 128 := by decide

/-- **C116** A string that Go and GNU gettext both accept means the same to both, if it is UTF-8 and no hexadecimal escape has more than two
digits. -/
theorem C116_agree (body d d' : Str) (hv : Valid body)
    (hx : ∀ a ds v b, body = a ++ 92 :: 120 :: ds ++ b → ds.length = 3 → ¬ Digits 16 0 ds v) (h : Literal.Body body d) (h' : Body body d') :
    d = d' := by
  induction h generalizing d' with
  | nil => exact (body_nil h').symm
  | @cons t s d0 e h1 h2 ih =>
    have hx' : ∀ a ds v b, s = a ++ 92 :: 120 :: ds ++ b → ds.length = 3 → ¬ Digits 16 0 ds v := by
      intro a ds v b hs hl
      exact hx (t ++ a) ds v b (by rw [hs]; simp) hl
    cases h1 with
    | char ch _ h10 h92 h34 =>
      have hp : ∀ c ∈ utf8 ch, c ≠ 34 ∧ c ≠ 92 ∧ c ≠ 10 := by
        rcases utf8_cases ch with ⟨hlt, hu⟩ | ⟨-, hu⟩
        · rw [hu]
          intro c hc
          rw [List.mem_singleton] at hc
          have : c.toNat = ch.toNat := by rw [hc]; simp; omega
          refine ⟨?_, ?_, ?_⟩ <;> rintro rfl
          · exact h34 this.symm
          · exact h92 this.symm
          · exact h10 this.symm
        · intro c hc
          have := hu c hc
          refine ⟨?_, ?_, ?_⟩ <;> rintro rfl <;> exact absurd this (by decide)
      obtain ⟨e', rfl, he⟩ := (body_plain hp).1 h'
      rw [ih e' (valid_tail hv) hx' he]
    | bad b _ hb hn =>
      exfalso
      generalize hz : [b] ++ s = z at hv
      cases hv with
      | nil => cases hz
      | cons ch _ => exact hn ch _ hz
    | letter c v _ hm =>
      have hm' : (c, v) ∈ (34, 34) :: letters := List.mem_cons_of_mem _ hm
      obtain ⟨e', rfl, he⟩ := (body_letter hm').1 h'
      have hv' : Valid s := by
        apply valid_asciis (a := [92, c]) ?_ hv
        have := letters_low _ hm'
        simp; exact this
      rw [ih e' hv' hx' he]; rfl
    | quote =>
      obtain ⟨e', rfl, he⟩ := (body_letter (c := 34) (v := 34) (by decide)).1 h'
      have hv' : Valid s := valid_asciis (a := [92, 34]) (by decide) hv
      rw [ih e' hv' hx' he]; rfl
    | octal ds v _ hl hd hle =>
      obtain ⟨e', rfl, he⟩ := (body_octal hl hd).1 h'
      have hv' : Valid s := by
        apply valid_asciis (a := 92 :: ds) ?_ hv
        intro c hc
        rcases List.mem_cons.1 hc with rfl | hc
        · decide
        · obtain ⟨x, hx⟩ := digits_all hd c hc
          exact digit_ascii (by decide) hx
      rw [ih e' hv' hx' he]; rfl
    | hex ds v _ hl hd =>
      have hs : ¬ Starts 16 s := by
        rintro ⟨c, t', w, rfl, hw⟩
        have : ∃ v', Digits 16 0 (ds ++ [c]) v' := by
          have app : ∀ (ds : Str) (acc v : Nat), Digits 16 acc ds v → ∃ v', Digits 16 acc (ds ++ [c]) v' := by
            intro ds
            induction ds with
            | nil => intro acc v h; exact ⟨_, .cons hw (.nil _)⟩
            | cons a ds ih =>
              intro acc v h
              cases h with
              | cons p q =>
                obtain ⟨v', hv'⟩ := ih _ _ q
                exact ⟨v', .cons p hv'⟩
          exact app ds 0 v hd
        obtain ⟨v', hv'⟩ := this
        exact hx [] (ds ++ [c]) v' t' (by simp) (by simp [hl]) hv'
      obtain ⟨e', rfl, he⟩ := (body_hex (by intro h; rw [h] at hl; cases hl) hd hs).1 h'
      have hv' : Valid s := by
        apply valid_asciis (a := 92 :: 120 :: ds) ?_ hv
        intro c hc
        rcases List.mem_cons.1 hc with rfl | hc
        · decide
        rcases List.mem_cons.1 hc with rfl | hc
        · decide
        · obtain ⟨x, hx⟩ := digits_all hd c hc
          exact digit_ascii (by decide) hx
      rw [ih e' hv' hx' he]; rfl
    | short ds ch _ _ _ => exact absurd h' (body_unknown (by decide) (by decide) (by decide))
    | long ds ch _ _ _ => exact absurd h' (body_unknown (by decide) (by decide) (by decide))

/-- **C116** What GNU gettext writes is read back by both, as what was meant. -/
theorem C116_written (body d : Str) (h : Written body d) :
    Body body d ∧ Literal.Body body d ∧ Quote.unquote (34 :: body ++ [34]) = some d := by
  have key : Body body d ∧ Literal.Body body d := by
    induction h with
    | nil => exact ⟨.nil, .nil⟩
    | raw ch h34 h92 h10 _ ih =>
      refine ⟨?_, .cons (.char ch _ h10 h92 h34) ih.2⟩
      refine (body_plain ?_).2 ⟨_, rfl, ih.1⟩
      rcases utf8_cases ch with ⟨hlt, hu⟩ | ⟨-, hu⟩
      · rw [hu]
        intro c hc
        rw [List.mem_singleton] at hc
        have : c.toNat = ch.toNat := by rw [hc]; simp; omega
        refine ⟨?_, ?_, ?_⟩ <;> rintro rfl
        · exact h34 this.symm
        · exact h92 this.symm
        · exact h10 this.symm
      · intro c hc
        have := hu c hc
        refine ⟨?_, ?_, ?_⟩ <;> rintro rfl <;> exact absurd this (by decide)
    | letter c v hm _ ih =>
      refine ⟨(body_letter hm).2 ⟨_, rfl, ih.1⟩, ?_⟩
      rcases List.mem_cons.1 hm with heq | hm
      · cases heq
        exact .cons (.quote _) ih.2
      · exact .cons (.letter c v _ hm) ih.2
    | octal ds v hl hd hle _ ih =>
      exact ⟨(body_octal hl hd).2 ⟨_, rfl, ih.1⟩, .cons (.octal ds v _ hl hd hle) ih.2⟩
  exact ⟨key.1, key.2, (Literal.C91_unquote _ _).2 (.interpreted key.2)⟩


/-! ## Strings that are saved -/

/-- What `%q` writes between the quotes. -/
def inner (P : Nat → Bool) (s : Str) : Str := Quote.quoteLoop P s.length s

theorem quoteLoop_fuel (P : Nat → Bool) : ∀ (n m : Nat) (s : Str), s.length ≤ n → s.length ≤ m → Quote.quoteLoop P n s = Quote.quoteLoop P m s := by
  intro n
  induction n with
  | zero =>
    intro m s hn _
    have : s = [] := by simpa using hn
    subst this
    cases m <;> rfl
  | succ n ih =>
    intro m s hn hm
    cases s with
    | nil => cases m <;> rfl
    | cons b t =>
      cases m with
      | zero => simp at hm
      | succ m =>
        rw [Quote.quoteLoop, Quote.quoteLoop, Quote.decodeStep]
        dsimp only
        obtain ⟨h1, h2⟩ := Utf8.decode_width (b :: t) (by simp)
        have hl : ((b :: t).drop (Utf8.decode (b :: t)).2).length ≤ t.length := by
          rw [List.length_drop, List.length_cons]; omega
        rw [ih m _ (by simp only [List.length_cons] at hn; omega) (by simp only [List.length_cons] at hm; omega)]

/-- A character. -/
theorem inner_char (P : Nat → Bool) (ch : Char) (t : Str) : inner P (utf8 ch ++ t) = Quote.escRune P ch.toNat ++ inner P t := by
  have hne := Literal.utf8_ne_nil ch
  have hd := Literal.decode_char ch t
  unfold inner
  cases hu : utf8 ch with
  | nil => exact absurd hu hne
  | cons b u =>
    rw [hu] at hd
    rw [List.cons_append, List.length_cons, Quote.quoteLoop, Quote.decodeStep]
    rw [List.cons_append] at hd
    dsimp only
    rw [hd]
    dsimp only
    have hdrop : (b :: (u ++ t)).drop (b :: u).length = t := by
      rw [← List.cons_append, List.drop_left]
    rw [hdrop, quoteLoop_fuel P (u ++ t).length t.length t (by simp) (by omega)]
    rw [if_neg]
    rintro ⟨h1, h2⟩
    rcases utf8_cases ch with ⟨hlt, -⟩ | ⟨hge, -⟩
    · rw [h2] at hlt; revert hlt; decide
    · have he := Literal.encode_char ch
      rw [h2, hu] at he
      have hl := congrArg List.length he
      rw [h1] at hl
      revert hl
      decide

/-- A byte that belongs to no character. -/
theorem inner_bad (P : Nat → Bool) (b : UInt8) (t : Str) (h : ∀ ch u, b :: t ≠ utf8 ch ++ u) :
    inner P (b :: t) = 92 :: 120 :: Quote.hexN 2 b.toNat ++ inner P t := by
  have hbad : (Utf8.decode (b :: t)).2 = 1 ∧ (Utf8.decode (b :: t)).1 = Utf8.runeError := by
    by_contra hc
    obtain ⟨h1, -, -, h4, -⟩ := Utf8.encode_decode (b :: t) (by simp) hc
    obtain ⟨ch, hch⟩ := Literal.exists_char _ h1
    apply h ch ((b :: t).drop (Utf8.decode (b :: t)).2)
    rw [← Literal.encode_char, hch, h4, List.take_append_drop]
  unfold inner
  rw [List.length_cons, Quote.quoteLoop, Quote.decodeStep]
  dsimp only
  rw [if_pos hbad, hbad.1]
  rfl

/-- A text begins with a character or with a byte that belongs to none. -/
theorem text_cases (s : Str) : s = [] ∨ (∃ ch t, s = utf8 ch ++ t) ∨ ∃ b t, s = b :: t ∧ 0x80 ≤ b.toNat ∧ ∀ ch u, b :: t ≠ utf8 ch ++ u := by
  cases s with
  | nil => exact .inl rfl
  | cons b t =>
    by_cases h : ∃ ch u, b :: t = utf8 ch ++ u
    · exact .inr (.inl h)
    · refine .inr (.inr ⟨b, t, rfl, ?_, fun ch u hh => h ⟨ch, u, hh⟩⟩)
      by_contra hlt
      apply h
      have hc : (Char.ofNat b.toNat).toNat = b.toNat := by
        rw [Char.ofNat, dif_pos (.inl (by omega))]
        simp [Char.ofNatAux, Char.toNat]
      refine ⟨Char.ofNat b.toNat, t, ?_⟩
      rcases utf8_cases (Char.ofNat b.toNat) with ⟨-, hu⟩ | ⟨hge, -⟩
      · rw [hu, hc]; simp
      · omega

/-- How a character is written. -/
inductive Look (P : Nat → Bool) (ch : Char) : Prop
  | plain : P ch.toNat = true → Quote.escRune P ch.toNat = utf8 ch → (∀ c ∈ utf8 ch, c ≠ 34 ∧ c ≠ 92 ∧ c ≠ 10) → Look P ch
  | letter (c v : UInt8) : P ch.toNat = true ∨ (7 ≤ ch.toNat ∧ ch.toNat ≤ 13) → (c, v) ∈ (34, 34) :: letters → utf8 ch = [v] →
      Quote.unhex v = none → Quote.escRune P ch.toNat = [92, c] → Look P ch
  | control (v : UInt8) : v.toNat < 32 ∨ v.toNat = 127 → ¬(P ch.toNat = true ∨ (7 ≤ ch.toNat ∧ ch.toNat ≤ 13)) → utf8 ch = [v] →
      Quote.escRune P ch.toNat = 92 :: 120 :: Quote.hexN 2 v.toNat → Look P ch
  | code (c : UInt8) (ds : Str) : ¬(P ch.toNat = true ∨ (7 ≤ ch.toNat ∧ ch.toNat ≤ 13)) → 128 ≤ ch.toNat → (c = 117 ∨ c = 85) →
      Quote.escRune P ch.toNat = 92 :: c :: ds → Look P ch

theorem low_byte {n : Nat} (h : n < 128) : (UInt8.ofNat n).toNat = n := Utf8.ofNat_toNat n (by omega)

theorem look (P : Nat → Bool) (hP : Ascii P) (ch : Char) : Look P ch := by
  rcases utf8_cases ch with ⟨hlt, hu⟩ | ⟨hge, hu⟩
  · have hp := hP _ hlt
    by_cases hq : ch.toNat = 34
    · exact .letter 34 34 (.inl (hp.2 (by omega))) (by decide) (by rw [hu, hq]; rfl) (by decide) (by rw [hq]; rfl)
    by_cases hb : ch.toNat = 92
    · exact .letter 92 92 (.inl (hp.2 (by omega))) (by decide) (by rw [hu, hb]; rfl) (by decide) (by rw [hb]; rfl)
    by_cases hpr : 32 ≤ ch.toNat ∧ ch.toNat < 127
    · refine .plain (hp.2 hpr) ?_ ?_
      · unfold Quote.escRune
        rw [if_neg (by omega), if_pos (hp.2 hpr), Literal.encode_char]
      · rw [hu]
        intro c hc
        rw [List.mem_singleton] at hc
        have hn : c.toNat = ch.toNat := by rw [hc, low_byte hlt]
        refine ⟨?_, ?_, ?_⟩ <;> rintro rfl <;> simp at hn <;> omega
    have hnp : ¬ P ch.toNat = true := fun h => hpr (hp.1 h)
    by_cases hl : 7 ≤ ch.toNat ∧ ch.toNat ≤ 13
    · have hcase : ch.toNat = 7 ∨ ch.toNat = 8 ∨ ch.toNat = 9 ∨ ch.toNat = 10 ∨ ch.toNat = 11 ∨ ch.toNat = 12 ∨ ch.toNat = 13 := by omega
      have hesc : ∀ c, Quote.letterEsc ch.toNat = some c → Quote.escRune P ch.toNat = [92, c] := by
        intro c hc
        unfold Quote.escRune
        rw [if_neg (by omega), if_neg hnp, hc]
      rcases hcase with h | h | h | h | h | h | h
      · exact .letter 97 7 (.inr hl) (by decide) (by rw [hu, h]; rfl) (by decide) (hesc _ (by rw [h]; rfl))
      · exact .letter 98 8 (.inr hl) (by decide) (by rw [hu, h]; rfl) (by decide) (hesc _ (by rw [h]; rfl))
      · exact .letter 116 9 (.inr hl) (by decide) (by rw [hu, h]; rfl) (by decide) (hesc _ (by rw [h]; rfl))
      · exact .letter 110 10 (.inr hl) (by decide) (by rw [hu, h]; rfl) (by decide) (hesc _ (by rw [h]; rfl))
      · exact .letter 118 11 (.inr hl) (by decide) (by rw [hu, h]; rfl) (by decide) (hesc _ (by rw [h]; rfl))
      · exact .letter 102 12 (.inr hl) (by decide) (by rw [hu, h]; rfl) (by decide) (hesc _ (by rw [h]; rfl))
      · exact .letter 114 13 (.inr hl) (by decide) (by rw [hu, h]; rfl) (by decide) (hesc _ (by rw [h]; rfl))
    · have hlow : ch.toNat < 32 ∨ ch.toNat = 127 := by omega
      refine .control (UInt8.ofNat ch.toNat) (by rw [low_byte hlt]; exact hlow) (by rintro (h | h); exacts [hnp h, hl h]) hu ?_
      unfold Quote.escRune
      have hno : Quote.letterEsc ch.toNat = none := by
        unfold Quote.letterEsc
        rw [if_neg (by omega), if_neg (by omega), if_neg (by omega), if_neg (by omega), if_neg (by omega), if_neg (by omega), if_neg (by omega)]
      rw [if_neg (by omega), if_neg hnp, hno]
      dsimp only
      rw [if_pos hlow, low_byte hlt]
      rfl
  · by_cases hp : P ch.toNat = true
    · refine .plain hp ?_ ?_
      · unfold Quote.escRune
        rw [if_neg (by omega), if_pos hp, Literal.encode_char]
      · intro c hc
        have := hu c hc
        refine ⟨?_, ?_, ?_⟩ <;> rintro rfl <;> exact absurd this (by decide)
    · have hno : Quote.letterEsc ch.toNat = none := by
        unfold Quote.letterEsc
        rw [if_neg (by omega), if_neg (by omega), if_neg (by omega), if_neg (by omega), if_neg (by omega), if_neg (by omega), if_neg (by omega)]
      have hval := Literal.char_valid ch
      by_cases h16 : ch.toNat < 0x10000
      · refine .code 117 (Quote.hexN 4 ch.toNat) (by rintro (h | h); exacts [hp h, by omega]) hge (.inl rfl) ?_
        unfold Quote.escRune
        rw [if_neg (by omega), if_neg hp, hno]
        dsimp only
        rw [if_neg (by omega), hval, if_neg (by decide), if_pos h16]
        rfl
      · refine .code 85 (Quote.hexN 8 ch.toNat) (by rintro (h | h); exacts [hp h, by omega]) hge (.inr rfl) ?_
        unfold Quote.escRune
        rw [if_neg (by omega), if_neg hp, hno]
        dsimp only
        rw [if_neg (by omega), hval, if_neg (by decide), if_neg h16]
        rfl

theorem hex2_digits (v : UInt8) : Digits 16 0 (Quote.hexN 2 v.toNat) v.toNat := by
  have h := Quote.readHex_hexN 2 0 v.toNat []
  have hv : v.toNat < 256 := v.toNat_lt
  rw [List.append_nil] at h
  obtain ⟨ds, h1, -, h3⟩ := (Literal.readHex_iff 2 0 _ _ _).1 h
  rw [List.append_nil] at h1
  rw [h1]
  rw [show v.toNat = 0 * 16 ^ 2 + v.toNat % 16 ^ 2 from by omega]
  exact h3

theorem hex2_ne (v : UInt8) : Quote.hexN 2 v.toNat ≠ [] := by simp [Quote.hexN]

/-- A digit at the beginning of what is written is one of the text. -/
theorem inner_digit (P : Nat → Bool) (hP : Ascii P) {s r : Str} {c : UInt8} {v : Nat} (h : inner P s = c :: r) (hc : IsDigit 16 c v) :
    ∃ t, s = c :: t ∧ r = inner P t := by
  have hx : Quote.unhex c = some v := (Literal.unhex_iff c v).2 hc
  have h92 : c ≠ 92 := by rintro rfl; revert hx; simp [Quote.unhex]
  rcases text_cases s with rfl | ⟨ch, t, rfl⟩ | ⟨b, t, rfl, -, hb⟩
  · cases h
  · rw [inner_char] at h
    cases look P hP ch with
    | plain _ h2 _ =>
      rw [h2] at h
      have hlow := digit_ascii (by decide) hc
      rcases utf8_cases ch with ⟨hlt, hu⟩ | ⟨-, hu⟩
      · rw [hu] at h ⊢
        simp only [List.cons_append, List.nil_append, List.cons.injEq] at h
        exact ⟨t, by rw [h.1]; rfl, h.2.symm⟩
      · exfalso
        cases hz : utf8 ch with
        | nil => exact Literal.utf8_ne_nil ch hz
        | cons a u =>
          rw [hz] at h
          simp only [List.cons_append, List.cons.injEq] at h
          have := hu a (by rw [hz]; simp)
          rw [h.1] at this
          omega
    | letter c' v' _ _ _ _ h2 => rw [h2] at h; cases h; exact absurd rfl h92
    | control v' _ _ _ h2 => rw [h2] at h; cases h; exact absurd rfl h92
    | code c' ds _ _ _ h2 => rw [h2] at h; cases h; exact absurd rfl h92
  · rw [inner_bad P b t hb] at h
    cases h
    exact absurd rfl h92

theorem inner_digits (P : Nat → Bool) (hP : Ascii P) {ds : Str} : ∀ {s r : Str}, inner P s = ds ++ r → (∀ c ∈ ds, ∃ v, IsDigit 16 c v) →
    ∃ t, s = ds ++ t ∧ r = inner P t := by
  induction ds with
  | nil => intro s r h _; exact ⟨s, rfl, h.symm⟩
  | cons c ds ih =>
    intro s r h hd
    obtain ⟨v, hv⟩ := hd c (by simp)
    obtain ⟨t, rfl, h2⟩ := inner_digit P hP h hv
    obtain ⟨t', rfl, h3⟩ := ih h2.symm (fun c hc => hd c (by simp [hc]))
    exact ⟨t', rfl, h3⟩

theorem starts_inner (P : Nat → Bool) (hP : Ascii P) (s : Str) : Starts 16 (inner P s) ↔ Starts 16 s := by
  constructor
  · rintro ⟨c, t, v, h, hv⟩
    obtain ⟨u, rfl, -⟩ := inner_digit P hP h hv
    exact ⟨c, u, v, rfl, hv⟩
  · rintro ⟨c, t, v, rfl, hv⟩
    have hlow := digit_ascii (by decide) hv
    have hx : Quote.unhex c = some v := (Literal.unhex_iff c v).2 hv
    rcases text_cases (c :: t) with h | ⟨ch, u, h⟩ | ⟨b, u, h, hb, -⟩
    · cases h
    · rw [h, inner_char]
      rcases utf8_cases ch with ⟨hlt, hu⟩ | ⟨-, hu⟩
      · rw [hu] at h
        simp only [List.cons_append, List.nil_append, List.cons.injEq] at h
        cases look P hP ch with
        | plain _ h2 _ => rw [h2, hu, ← h.1]; exact ⟨c, _, v, rfl, hv⟩
        | letter c' v' _ _ h1 h3 _ =>
          rw [hu, ← h.1] at h1
          cases h1
          rw [hx] at h3
          cases h3
        | control v' h0 _ h1 _ =>
          rw [hu, ← h.1] at h1
          cases h1
          exfalso
          have : ∀ c : UInt8, Quote.unhex c ≠ none → ¬ (c.toNat < 32 ∨ c.toNat = 127) := by apply u8; decide +kernel
          exact this c (by rw [hx]; simp) h0
        | code _ _ _ h0 => omega
      · exfalso
        cases hz : utf8 ch with
        | nil => exact Literal.utf8_ne_nil ch hz
        | cons a w =>
          rw [hz] at h
          simp only [List.cons_append, List.cons.injEq] at h
          have := hu a (by rw [hz]; simp)
          rw [← h.1] at this
          omega
    · cases h
      omega

/-- The hexadecimal escape of a byte in what is written. -/
theorem inner_hex (P : Nat → Bool) (hP : Ascii P) (b : UInt8) (t : Str) {d : Str} (h : Body (92 :: 120 :: Quote.hexN 2 b.toNat ++ inner P t) d) :
    (¬ Starts 16 t ∧ ∃ e, d = b :: e ∧ Body (inner P t) e) ∨
    (∃ a t' x e, t = a ++ t' ∧ a ≠ [] ∧ d = x :: e ∧ Body (inner P t') e) := by
  by_cases hs : Starts 16 t
  · right
    obtain ⟨ds, v, r, e, h1, h2, h3, h4, rfl, h6⟩ := body_x h
    have hpre : Quote.hexN 2 b.toNat <+: ds ∨ ds <+: Quote.hexN 2 b.toNat :=
      List.prefix_or_prefix_of_prefix (l₃ := ds ++ r) (by rw [← h1]; exact List.prefix_append _ _) (List.prefix_append _ _)
    have hstart : Starts 16 (inner P t) := (starts_inner P hP t).2 hs
    rcases hpre with ⟨a, rfl⟩ | ⟨a, ha⟩
    · rw [List.append_assoc] at h1
      have h1 := List.append_cancel_left h1
      obtain ⟨t', rfl, rfl⟩ := inner_digits P hP h1 (fun c hc => digits_all h3 c (by simp [hc]))
      cases a with
      | nil =>
        exact absurd hstart h4
      | cons c a => exact ⟨c :: a, t', _, e, rfl, by simp, rfl, h6⟩
    · exfalso
      rw [← ha] at h1
      change (ds ++ a) ++ inner P t = ds ++ r at h1
      rw [List.append_assoc] at h1
      have h1 := List.append_cancel_left h1
      cases a with
      | nil =>
        rw [List.nil_append] at h1
        rw [h1] at hstart
        exact h4 hstart
      | cons c a =>
        obtain ⟨x, hx⟩ := digits_all (hex2_digits b) c (by rw [← ha]; simp)
        exact h4 ⟨c, a ++ inner P t, x, h1.symm, hx⟩
  · left
    refine ⟨hs, ?_⟩
    obtain ⟨e, h1, h2⟩ := (body_hex (hex2_ne b) (hex2_digits b) (by rw [starts_inner P hP]; exact hs)).1 h
    exact ⟨e, by rw [h1]; simp, h2⟩

/-- GNU gettext reads no more bytes than were meant. -/
theorem inner_short (P : Nat → Bool) (hP : Ascii P) : ∀ (k : Nat) (s d : Str), s.length ≤ k → Body (inner P s) d → d.length ≤ s.length := by
  intro k
  induction k with
  | zero =>
    intro s d hs h
    have : s = [] := by simpa using hs
    subst this
    rw [body_nil h]
  | succ k ih =>
    intro s d hs h
    have hexCase : ∀ b t, s = b :: t → Body (92 :: 120 :: Quote.hexN 2 b.toNat ++ inner P t) d → d.length ≤ s.length := by
      rintro b t rfl h
      rcases inner_hex P hP b t h with ⟨-, e, rfl, he⟩ | ⟨a, t', x, e, rfl, ha, rfl, he⟩
      · have := ih t e (by simpa using hs) he
        simpa using this
      · have := ih t' e (by simp at hs; omega) he
        simp
        omega
    rcases text_cases s with rfl | ⟨ch, t, rfl⟩ | ⟨b, t, rfl, -, hb⟩
    · rw [body_nil h]
    · rw [inner_char] at h
      have hpos : 0 < (utf8 ch).length := List.length_pos_iff.2 (Literal.utf8_ne_nil ch)
      have hlen : t.length ≤ k := by rw [List.length_append] at hs; omega
      cases look P hP ch with
      | plain _ h2 h3 =>
        rw [h2] at h
        obtain ⟨e, rfl, he⟩ := (body_plain h3).1 h
        have := ih t e hlen he
        simp; omega
      | letter c' v' _ hm hu _ h2 =>
        rw [h2] at h
        obtain ⟨e, rfl, he⟩ := (body_letter hm).1 h
        have := ih t e hlen he
        rw [hu]
        simp; omega
      | control v' _ _ hu h2 =>
        rw [h2] at h
        exact hexCase v' t (by rw [hu]; rfl) h
      | code c' ds _ _ hc h2 =>
        rw [h2] at h
        rcases hc with rfl | rfl
        · exact absurd h (body_unknown (by decide) (by decide) (by decide))
        · exact absurd h (body_unknown (by decide) (by decide) (by decide))
    · rw [inner_bad P b t hb] at h
      exact hexCase b t rfl h

theorem inner_portable (P : Nat → Bool) (hP : Ascii P) : ∀ (k : Nat) (s : Str), s.length ≤ k → Body (inner P s) s → Portable P s := by
  intro k
  induction k with
  | zero =>
    intro s hs _
    have : s = [] := by simpa using hs
    subst this
    exact .nil
  | succ k ih =>
    intro s hs h
    have hexCase : ∀ b t, s = b :: t → Body (92 :: 120 :: Quote.hexN 2 b.toNat ++ inner P t) s → ¬ Starts 16 t ∧ Portable P t := by
      rintro b t rfl h
      rcases inner_hex P hP b t h with ⟨hn, e, he, hb⟩ | ⟨a, t', x, e, rfl, ha, hx, he⟩
      · cases he
        exact ⟨hn, ih t (by simpa using hs) hb⟩
      · exfalso
        have := inner_short P hP _ t' e (Nat.le_refl _) he
        have hl := congrArg List.length hx
        have hap : 0 < a.length := List.length_pos_iff.2 ha
        simp at hl
        omega
    rcases text_cases s with rfl | ⟨ch, t, rfl⟩ | ⟨b, t, rfl, h80, hb⟩
    · exact .nil
    · rw [inner_char] at h
      have hpos : 0 < (utf8 ch).length := List.length_pos_iff.2 (Literal.utf8_ne_nil ch)
      have hlen : t.length ≤ k := by rw [List.length_append] at hs; omega
      cases look P hP ch with
      | plain h1 h2 h3 =>
        rw [h2] at h
        obtain ⟨e, heq, he⟩ := (body_plain h3).1 h
        have := List.append_cancel_left heq
        subst this
        exact .shown ch (.inl h1) (ih t hlen he)
      | letter c' v' h0 hm hu _ h2 =>
        rw [h2] at h
        obtain ⟨e, heq, he⟩ := (body_letter hm).1 h
        rw [hu] at heq
        cases heq
        exact .shown ch h0 (ih t hlen he)
      | control v' h0 _ hu h2 =>
        rw [h2] at h
        obtain ⟨g1, g2⟩ := hexCase v' t (by rw [hu]; rfl) h
        rw [hu]
        exact .control v' h0 g1 g2
      | code c' ds _ _ hc h2 =>
        rw [h2] at h
        rcases hc with rfl | rfl
        · exact absurd h (body_unknown (by decide) (by decide) (by decide))
        · exact absurd h (body_unknown (by decide) (by decide) (by decide))
    · rw [inner_bad P b t hb] at h
      obtain ⟨g1, g2⟩ := hexCase b t rfl h
      exact .bad b h80 hb g1 g2

theorem portable_inner (P : Nat → Bool) (hP : Ascii P) {s : Str} (h : Portable P s) : Body (inner P s) s := by
  induction h with
  | nil => exact .nil
  | @shown t ch h0 _ ih =>
    rw [inner_char]
    cases look P hP ch with
    | plain h1 h2 h3 =>
      rw [h2]
      exact (body_plain h3).2 ⟨t, rfl, ih⟩
    | letter c' v' _ hm hu _ h2 =>
      rw [h2, hu]
      exact (body_letter hm).2 ⟨t, rfl, ih⟩
    | control v' _ h1 _ _ => exact absurd h0 h1
    | code _ _ h1 _ _ _ => exact absurd h0 h1
  | @control t c hc hs _ ih =>
    rcases text_cases (c :: t) with h | ⟨ch, u, h⟩ | ⟨b, u, h, h80, -⟩
    · cases h
    · rw [h, inner_char]
      have hu : utf8 ch = [c] ∧ t = u := by
        rcases utf8_cases ch with ⟨_, hu⟩ | ⟨_, hu⟩
        · rw [hu] at h ⊢
          simp only [List.cons_append, List.nil_append, List.cons.injEq] at h
          exact ⟨by rw [h.1], h.2⟩
        · exfalso
          cases hz : utf8 ch with
          | nil => exact Literal.utf8_ne_nil ch hz
          | cons a w =>
            rw [hz] at h
            simp only [List.cons_append, List.cons.injEq] at h
            have := hu a (by rw [hz]; simp)
            rw [← h.1] at this
            omega
      obtain ⟨hu, rfl⟩ := hu
      cases look P hP ch with
      | plain _ h2 h3 => rw [h2]; exact (body_plain h3).2 ⟨t, rfl, ih⟩
      | letter c' v' _ hm hu' _ h2 =>
        rw [h2, hu']
        exact (body_letter hm).2 ⟨t, rfl, ih⟩
      | control v' _ _ hu' h2 =>
        rw [hu] at hu' ⊢
        cases hu'
        rw [h2]
        refine (body_hex (hex2_ne c) (hex2_digits c) (by rw [starts_inner P hP]; exact hs)).2 ⟨t, by simp, ih⟩
      | code _ _ _ h1 _ _ =>
        exfalso
        have := Literal.utf8_low ch c [] hu (by rw [UInt8.lt_iff_toNat_lt]; simp; omega)
        omega
    · cases h
      omega
  | @bad t b hb hn hs _ ih =>
    rw [inner_bad P b t hn]
    exact (body_hex (hex2_ne b) (hex2_digits b) (by rw [starts_inner P hP]; exact hs)).2 ⟨t, by simp, ih⟩

/-- **C116** GNU gettext reads a string written with `%q` as what was meant exactly if the text can be exchanged. -/
theorem C116_saved (P : Nat → Bool) (hP : Ascii P) (s : Str) :
    ∃ body, Quote.quote P s = 34 :: body ++ [34] ∧ (Body body s ↔ Portable P s) :=
  ⟨inner P s, rfl, inner_portable P hP _ s (Nat.le_refl _), portable_inner P hP⟩


/-! ## Files that are saved -/

theorem portable_cut {P : Nat → Bool} {s : Str} (h : Portable P s) : ∀ {a : Str} {x : UInt8} {b : Str}, s = a ++ x :: b → x.toNat < 128 →
    Portable P (a ++ [x]) ∧ Portable P b := by
  induction h with
  | nil => intro a x b h _; simp at h
  | @shown t ch h0 ht ih =>
    intro a x b h hx
    rcases List.append_eq_append_iff.1 h with ⟨a', rfl, h2⟩ | ⟨c, hc, h2⟩
    · obtain ⟨g1, g2⟩ := ih h2 hx
      rw [List.append_assoc]
      exact ⟨.shown ch h0 g1, g2⟩
    · cases c with
      | nil =>
        rw [List.nil_append] at h2
        obtain ⟨g1, g2⟩ := ih (a := []) h2.symm hx
        rw [List.append_nil] at hc
        rw [← hc]
        exact ⟨.shown ch h0 g1, g2⟩
      | cons y c =>
        rw [List.cons_append, List.cons.injEq] at h2
        obtain ⟨rfl, rfl⟩ := h2
        rcases utf8_cases ch with ⟨hlt, hu⟩ | ⟨-, hu⟩
        · have hl := congrArg List.length (hu.symm.trans hc)
          simp at hl
          have ha : a = [] := List.length_eq_zero_iff.1 (by omega)
          have hc' : c = [] := List.length_eq_zero_iff.1 (by omega)
          subst ha hc'
          rw [← hc]
          exact ⟨by simpa using Portable.shown (P := P) ch h0 .nil, ht⟩
        · have := hu x (by rw [hc]; simp)
          omega
  | @control t c hc hs ht ih =>
    intro a x b h hx
    cases a with
    | nil =>
      cases h
      exact ⟨.control c hc (by rintro ⟨_, _, _, h, _⟩; cases h) .nil, ht⟩
    | cons y a =>
      simp only [List.cons_append, List.cons.injEq] at h
      obtain ⟨rfl, rfl⟩ := h
      obtain ⟨g1, g2⟩ := ih rfl hx
      refine ⟨.control c hc ?_ g1, g2⟩
      rintro ⟨c', u, v, h, hv⟩
      apply hs
      refine ⟨c', u ++ b, v, ?_, hv⟩
      rw [← List.cons_append, ← h]
      simp
  | @bad t c hc hn hs ht ih =>
    intro a x b h hx
    cases a with
    | nil => cases h; omega
    | cons y a =>
      simp only [List.cons_append, List.cons.injEq] at h
      obtain ⟨rfl, rfl⟩ := h
      obtain ⟨g1, g2⟩ := ih rfl hx
      refine ⟨.bad c hc ?_ ?_ g1, g2⟩
      · intro ch u h
        apply hn ch (u ++ b)
        rw [← List.append_assoc, ← h]
        simp
      · rintro ⟨c', u, v, h, hv⟩
        apply hs
        refine ⟨c', u ++ b, v, ?_, hv⟩
        rw [← List.cons_append, ← h]
        simp

theorem portable_split (P : Nat → Bool) (n : Nat) (long : Str) (hn : long.length ≤ n) (th : Int) (depth : Nat) (h : Portable P long) :
    ∀ p ∈ Tr.split0 long th depth, Portable P p := by
  induction n generalizing long depth with
  | zero =>
    have : long = [] := by simpa using hn
    subst this
    have h1 : Tr.split0 [] th depth = [[]] := by
      rw [Tr.split0]
      simp [GoStr.indexByte, GoStr.lastIndexByte]
    rw [h1]
    simpa using Portable.nil
  | succ n ih =>
    have cut : ∀ (i : Nat) (x : UInt8), x.toNat < 128 → long[i]? = some x → i + 1 < long.length →
        Portable P (long.take (i + 1)) ∧ Portable P (long.drop (i + 1)) := by
      intro i x hx hi _
      have e : long = long.take i ++ x :: long.drop (i + 1) := by
        obtain ⟨hlt, hi⟩ := List.getElem?_eq_some_iff.1 hi
        rw [← hi, ← List.drop_eq_getElem_cons hlt, List.take_append_drop]
      obtain ⟨g1, g2⟩ := portable_cut h e hx
      have : long.take (i + 1) = long.take i ++ [x] := by rw [List.take_add_one, hi]; rfl
      exact ⟨by rw [this]; exact g1, g2⟩
    have byBlank : ∀ p ∈ (if (long.length : Int) ≤ th then [long]
        else match GoStr.lastIndexByte 32 long with
          | some i => if i + 1 < long.length then Tr.split0 (long.take (i + 1)) th (depth + 1) ++ [long.drop (i + 1)] else [long]
          | none => [long]), Portable P p := by
      intro p hp
      split at hp
      · rw [List.mem_singleton] at hp; rw [hp]; exact h
      · split at hp
        · rename_i i hi
          split at hp
          · rename_i hlt
            obtain ⟨g1, g2⟩ := cut i 32 (by decide) (Tr.lastIndexByte_spec 32 long i hi).2 hlt
            rw [List.mem_append, List.mem_singleton] at hp
            rcases hp with hp | rfl
            · exact ih _ (by rw [List.length_take]; omega) _ g1 p hp
            · exact g2
          · rw [List.mem_singleton] at hp; rw [hp]; exact h
        · rw [List.mem_singleton] at hp; rw [hp]; exact h
    rw [Tr.split0]
    split
    · rename_i i hi
      obtain ⟨a, b, hab, -, hlen⟩ := Tr.indexByte_spec 10 long i hi
      split
      · rename_i hlt
        obtain ⟨g1, g2⟩ := cut i 10 (by decide) (by rw [hab, ← hlen]; simp) hlt
        intro p hp
        rw [List.mem_append] at hp
        rcases hp with hp | hp
        · split at hp
          · simp only [List.mem_cons, List.not_mem_nil, or_false] at hp
            rcases hp with rfl | rfl
            · exact .nil
            · exact g1
          · rw [List.mem_singleton] at hp; rw [hp]; exact g1
        · exact ih _ (by rw [List.length_drop]; omega) _ g2 p hp
      · exact byBlank
    · exact byBlank

theorem strings_pieces (P : Nat → Bool) (hP : Ascii P) : ∀ (ps : List Str), ps ≠ [] → (∀ p ∈ ps, Portable P p) →
    Strings Body (ps.flatMap fun line => Quote.quote P line ++ [10]) ps.flatten := by
  intro ps
  induction ps with
  | nil => intro h; exact absurd rfl h
  | cons p ps ih =>
    intro _ hp
    have hb := portable_inner P hP (hp p (by simp))
    have e : Quote.quote P p ++ [10] = 34 :: inner P p ++ [34, 10] := by
      unfold Quote.quote inner; simp
    by_cases hps : ps = []
    · subst hps
      rw [List.flatMap_cons, List.flatMap_nil, List.append_nil, e, List.flatten_cons, List.flatten_nil, List.append_nil]
      exact .one hb
    · rw [List.flatMap_cons, e, List.flatten_cons]
      exact .more hb (ih hps fun p h => hp p (by simp [h]))

/-- **C116** A keyword is written with strings that stand for the text. -/
theorem C116_field (P : Nat → Bool) (hP : Ascii P) (key s : Str) (h : Portable P s) : Field Body key (Tr.writeString P key s) s := by
  refine ⟨_, by unfold Tr.writeString; rw [List.append_assoc]; rfl, ?_⟩
  have := strings_pieces P hP (Tr.split s Tr.lineThreshold) (Tr.split_ne_nil s) (portable_split P _ s (Nat.le_refl _) _ 0 h)
  unfold Tr.split at this
  rwa [(Tr.split0_spec s.length s (Nat.le_refl _) Tr.lineThreshold 0).1] at this

theorem forms_written (P : Nat → Bool) (hP : Ascii P) (ss : List Str) (h : ∀ s ∈ ss, Portable P s) : ∀ i, Forms Body i (Tr.writeForms P i ss) ss := by
  induction ss with
  | nil => intro i; exact .nil
  | cons s ss ih =>
    intro i
    exact .cons (C116_field P hP _ s (h s (by simp))) (ih (fun s hs => h s (by simp [hs])) (i + 1))

theorem context_written (P : Nat → Bool) (hP : Ascii P) (c : Str) (h : Portable P c) :
    Context Body (if c ≠ [] then Tr.writeString P b!"msgctxt" c else []) (if c ≠ [] then some c else none) := by
  by_cases hc : c ≠ []
  · rw [if_pos hc, if_pos hc]
    exact .some (C116_field P hP _ c h)
  · rw [if_neg hc, if_neg hc]
    exact .none

theorem reads_comments {cs : List Str} (hc : ∀ c ∈ cs, Comment c) {s : Str} {ms : List Msg} (h : Reads Body s ms) :
    Reads Body (cs.flatMap (fun c => c ++ [10]) ++ s) ms := by
  induction cs with
  | nil => exact h
  | cons c cs ih =>
    rw [List.flatMap_cons, List.append_assoc, List.append_assoc]
    exact .comment (hc c (by simp)) (ih fun c h => hc c (by simp [h]))

/-- What a template says about an entry. -/
def potMsg (e : Tr.Entry) : Msg where
  ctxt := if e.ctxt ≠ [] then some e.ctxt else none
  id := e.id
  plural := if e.isPlural then some e.id2 else none
  forms := if e.isPlural then [[], []] else if e.id = [] then [e.str] else [[]]

/-- What a translation says about an entry. -/
def poMsg (e : Tr.Entry) : Msg where
  ctxt := if e.ctxt ≠ [] then some e.ctxt else none
  id := e.id
  plural := if e.isPlural then some e.id2 else none
  forms := if e.isPlural then e.strN else [e.str]

/-- **C116** GNU gettext reads the template that is saved, and finds the messages with no translations but that of the header. -/
theorem C116_pot (P : Nat → Bool) (hP : Ascii P) (es : List Tr.Entry) (hc : ∀ e ∈ es, ∀ c ∈ e.cmts, Comment c)
    (h : ∀ e ∈ es, Portable P e.ctxt ∧ Portable P e.id ∧ (e.isPlural = true → Portable P e.id2) ∧
      (e.isPlural = false → e.id = [] → Portable P e.str)) : Reads Body (Tr.savePot P es) (es.map potMsg) := by
  induction es with
  | nil => exact .nil
  | cons e es ih =>
    have hr := ih (fun e he => hc e (by simp [he])) (fun e he => h e (by simp [he]))
    obtain ⟨h1, h2, h3, h4⟩ := h e (by simp)
    have hctxt := context_written P hP e.ctxt h1
    have hid := C116_field P hP b!"msgid" e.id h2
    have hnil : ∀ key, Field Body key (Tr.writeString P key []) [] := fun key => C116_field P hP key [] .nil
    unfold Tr.savePot at hr ⊢
    rw [List.flatMap_cons, List.map_cons]
    generalize es.flatMap (Tr.potEntry P) = rest at hr ⊢
    unfold Tr.potEntry
    rw [Tr.writeComments]
    simp only [List.append_assoc]
    apply reads_comments (hc e (by simp))
    by_cases hp : e.isPlural = true
    · have hm := Message.plural hctxt hid (C116_field P hP b!"msgid_plural" e.id2 (h3 hp))
        (.cons (hnil (Tr.msgstrN 0)) (.cons (hnil (Tr.msgstrN 1)) .nil)) (by simp)
      have := Reads.message hm (.blank hr)
      simp only [potMsg, hp, if_true] at this ⊢
      simpa only [List.append_assoc, List.append_nil, List.cons_append, List.nil_append] using this
    · have hp' : e.isPlural = false := by simpa using hp
      by_cases hi : e.id = []
      · have hm := Message.single hctxt hid (C116_field P hP b!"msgstr" e.str (h4 hp' hi))
        have := Reads.message hm (.blank hr)
        simp only [potMsg, hp', hi, if_true, Bool.false_eq_true, if_false] at this ⊢
        simpa only [List.append_assoc, List.append_nil, List.cons_append, List.nil_append] using this
      · have hm := Message.single hctxt hid (hnil b!"msgstr")
        have := Reads.message hm (.blank hr)
        simp only [potMsg, hp', if_neg hi, Bool.false_eq_true, if_false] at this ⊢
        simpa only [List.append_assoc, List.append_nil, List.cons_append, List.nil_append] using this

/-- **C116** GNU gettext reads the translation that is saved, if every message is translated. -/
theorem C116_po (P : Nat → Bool) (hP : Ascii P) (es : List Tr.Entry) (hc : ∀ e ∈ es, ∀ c ∈ e.cmts, Comment c)
    (h : ∀ e ∈ es, Portable P e.ctxt ∧ Portable P e.id ∧ (e.isPlural = true → Portable P e.id2))
    (ht : ∀ e ∈ es, (e.isPlural = false ∧ e.str ≠ [] ∧ Portable P e.str ∧ e.strN = []) ∨
      (e.isPlural = true ∧ e.str = [] ∧ e.strN ≠ [] ∧ ∀ s ∈ e.strN, Portable P s)) : Reads Body (Tr.savePo P es) (es.map poMsg) := by
  induction es with
  | nil => exact .nil
  | cons e es ih =>
    have hr := ih (fun e he => hc e (by simp [he])) (fun e he => h e (by simp [he])) (fun e he => ht e (by simp [he]))
    obtain ⟨h1, h2, h3⟩ := h e (by simp)
    have hctxt := context_written P hP e.ctxt h1
    have hid := C116_field P hP b!"msgid" e.id h2
    unfold Tr.savePo at hr ⊢
    rw [List.flatMap_cons, List.map_cons]
    generalize es.flatMap (Tr.poEntry P) = rest at hr ⊢
    unfold Tr.poEntry
    rw [Tr.writeComments]
    simp only [List.append_assoc]
    apply reads_comments (hc e (by simp))
    rcases ht e (by simp) with ⟨hp, hs, hps, hn⟩ | ⟨hp, hs, hn, hpn⟩
    · have hm := Message.single hctxt hid (C116_field P hP b!"msgstr" e.str hps)
      have := Reads.message hm (.blank hr)
      simp only [poMsg, hp, hn, Tr.writeForms, if_pos hs, Bool.false_eq_true, if_false] at this ⊢
      simpa only [List.append_assoc, List.append_nil, List.cons_append, List.nil_append] using this
    · have hm := Message.plural hctxt hid (C116_field P hP b!"msgid_plural" e.id2 (h3 hp)) (forms_written P hP e.strN hpn 0) hn
      have := Reads.message hm (.blank hr)
      simp only [poMsg, hp, hs, if_true, ne_eq, not_true_eq_false, if_false] at this ⊢
      simpa only [List.append_assoc, List.append_nil, List.cons_append, List.nil_append] using this


/-! ## Files that are read -/

theorem written_line {b d : Str} (h : Written b d) : 10 ∉ b := by
  induction h with
  | nil => simp
  | raw ch _ _ h10 _ ih =>
    rw [List.mem_append, not_or]
    refine ⟨fun hm => ?_, ih⟩
    rcases utf8_cases ch with ⟨hlt, hu⟩ | ⟨-, hu⟩
    · rw [hu, List.mem_singleton] at hm
      apply h10
      rw [← low_byte hlt, ← hm]
      rfl
    · exact absurd (hu 10 hm) (by decide)
  | letter c v hm _ ih =>
    have : ∀ p ∈ (34, 34) :: letters, p.1 ≠ 10 := by decide
    simp only [List.mem_cons, not_or]
    exact ⟨by decide, (this _ hm).symm, ih⟩
  | octal ds v _ hd _ _ ih =>
    simp only [List.cons_append, List.mem_cons, List.mem_append, not_or]
    refine ⟨by decide, fun hm => ?_, ih⟩
    obtain ⟨x, hx⟩ := digits_all hd 10 hm
    exact not_octal (by decide) x hx

/-- A quoted string in its line. -/
def Line (l d : Str) : Prop := Tr.Quotes l d ∧ 10 ∉ l ∧ ∃ x, l = 34 :: x

theorem written_quotes {b d : Str} (h : Written b d) : Line (34 :: b ++ [34]) d := by
  refine ⟨?_, ?_, ⟨_, rfl⟩⟩
  · unfold Tr.Quotes
    rw [show GoStr.trimSpace (34 :: b ++ [34]) = 34 :: b ++ [34] from GoStr.trimSpace_solid 34 34 _ GoStr.solid_quote GoStr.solid_quote]
    exact (C116_written b d h).2.2
  · have := written_line h
    simp [this]

theorem strings_lines {t d : Str} (h : Strings Written t d) : ∃ l ls p ps, t = Tr.unlines (l :: ls) ∧ Line l p ∧ List.Forall₂ Line ls ps ∧
    d = p ++ ps.flatten := by
  induction h with
  | @one t d hb => exact ⟨_, [], d, [], by simp [Tr.unlines], written_quotes hb, .nil, by simp⟩
  | @more t d s e hb _ ih =>
    obtain ⟨l, ls, p, ps, rfl, h1, h2, rfl⟩ := ih
    exact ⟨_, l :: ls, d, p :: ps, by simp [Tr.unlines], written_quotes hb, .cons h1 h2, by simp⟩

theorem inEntry_mores {gs} {xs ps : List Str} (h : List.Forall₂ Line xs ps) : ∀ {ls g}, Tr.InEntry ls gs g → g ≠ [] →
    Tr.InEntry (ls ++ xs) gs (g ++ ps.map .more) := by
  induction h with
  | nil => intro ls g h _; simpa using h
  | @cons x p xs ps hx _ ih =>
    intro ls g hg hne
    obtain ⟨hq, -, y, rfl⟩ := hx
    have := hg.push (.more y p hq) (by cases hl : Tr.lastField g <;> simp [Tr.Starts]) (fun h => absurd h hne)
    have := ih this (by simp)
    simpa using this

/-- Reading the text leads from one point in the entries to another. -/
def Ate (s : Str) (gs : List (List Tr.Item)) (g : List Tr.Item) (gs' : List (List Tr.Item)) (g' : List Tr.Item) : Prop :=
  ∀ ls, Tr.InEntry ls gs g → ∃ lines, s = Tr.unlines lines ∧ (∀ l ∈ lines, 10 ∉ l) ∧
    Tr.InEntry (ls ++ lines.filter fun l => ¬ Tr.Blank l) gs' g'

theorem Ate.trans {s t : Str} {gs g gs' g' gs'' g''} (h1 : Ate s gs g gs' g') (h2 : Ate t gs' g' gs'' g'') : Ate (s ++ t) gs g gs'' g'' := by
  intro ls h
  obtain ⟨l1, rfl, a1, b1⟩ := h1 ls h
  obtain ⟨l2, rfl, a2, b2⟩ := h2 _ b1
  refine ⟨l1 ++ l2, (Tr.unlines_append _ _).symm, ?_, ?_⟩
  · intro l hl
    rcases List.mem_append.1 hl with hl | hl
    exacts [a1 l hl, a2 l hl]
  · rw [List.filter_append, ← List.append_assoc]
    exact b2

theorem forall₂_left {α β : Type} {R : α → β → Prop} {xs : List α} {ys : List β} (h : List.Forall₂ R xs ys) : ∀ x ∈ xs, ∃ y, R x y := by
  induction h with
  | nil => intro x hx; cases hx
  | cons hxy _ ih =>
    intro x hx
    rcases List.mem_cons.1 hx with rfl | hx
    exacts [⟨_, hxy⟩, ih x hx]

/-- A keyword with its strings. -/
theorem ate_field {f : Tr.Field} {gs : List (List Tr.Item)} {g : List Tr.Item} {s d : Str} (h : Field Written (f.word (Tr.numForms g)) s d)
    (hs : ∀ d, ¬ Tr.Starts (Tr.lastField g) (.field f d)) (hf : g = [] → ∀ d, Tr.First (.field f d)) :
    ∃ g', Ate s gs g gs g' ∧ g' ≠ [] ∧ Tr.lastField g' = some f ∧
      ∀ f', Tr.texts f' g' = if f = f' then Tr.texts f' g ++ [d] else Tr.texts f' g := by
  obtain ⟨t, rfl, ht⟩ := h
  obtain ⟨l, ls, p, ps, rfl, h1, h2, rfl⟩ := strings_lines ht
  refine ⟨(g ++ [.field f p]) ++ ps.map .more, ?_, by simp, ?_, ?_⟩
  · intro ls0 h0
    refine ⟨(f.word (Tr.numForms g) ++ 32 :: l) :: ls, by simp [Tr.unlines], ?_, ?_⟩
    · intro x hx
      rcases List.mem_cons.1 hx with rfl | hx
      · have := (Tr.word_plain (Tr.numForms g) f).1
        simp [this, h1.2.1]
      · obtain ⟨y, hy⟩ := forall₂_left h2 x hx
        exact hy.2.1
    · have hall : ((f.word (Tr.numForms g) ++ 32 :: l) :: ls).filter (fun l => ¬ Tr.Blank l) = (f.word (Tr.numForms g) ++ 32 :: l) :: ls := by
        rw [List.filter_eq_self]
        intro x hx
        rw [decide_eq_true_eq]
        rcases List.mem_cons.1 hx with rfl | hx
        · obtain ⟨t, ht⟩ := Tr.word_head (Tr.numForms g) f
          rw [ht]
          exact GoStr.trimSpace_ne_nil _ _ GoStr.solid_m
        · obtain ⟨y, -, -, z, rfl⟩ := forall₂_left h2 x hx
          exact GoStr.trimSpace_ne_nil _ _ GoStr.solid_quote
      rw [hall]
      have := h0.push (.field f l p h1.1) (hs p) (fun hg => hf hg p)
      have := inEntry_mores h2 this (by simp)
      simpa using this
  · rw [Tr.lastField_mores, Tr.lastField_field]
  · intro f'
    by_cases e : f = f'
    · subst e
      rw [Tr.texts_mores f _ (Tr.texts f g) p ps (Tr.lastField_field g f p) (by rw [Tr.texts_field]; simp), if_pos rfl]
    · rw [Tr.texts_mores_ne f' _ ps (by rw [Tr.lastField_field]; simpa using e), Tr.texts_field, if_neg e, if_neg e]

theorem ate_context {gs : List (List Tr.Item)} {g : List Tr.Item} {s : Str} {c : Option Str} (h : Context Written s c) (hl : Tr.lastField g = none) :
    ∃ g', Ate s gs g gs g' ∧ (Tr.lastField g' = none ∨ Tr.lastField g' = some .ctxt) ∧
      ∀ f', Tr.texts f' g' = if .ctxt = f' then c.toList else [] := by
  have h0 : ∀ f, Tr.texts f g = [] := fun f => Tr.texts_none f g hl
  cases h with
  | none =>
    refine ⟨g, fun ls h => ⟨[], rfl, by simp, by simpa using h⟩, .inl hl, fun f' => ?_⟩
    rw [h0]; simp
  | some hf =>
    obtain ⟨g', h1, -, h3, h4⟩ := ate_field (gs := gs) (f := .ctxt) (g := g) hf (by intro d; simp [hl, Tr.Starts]) (fun _ d => trivial)
    refine ⟨g', h1, .inr h3, fun f' => ?_⟩
    rw [h4, h0]; simp

theorem ate_forms {gs : List (List Tr.Item)} {s : Str} {i : Nat} {ds : List Str} (h : Forms Written i s ds) : ∀ {g : List Tr.Item},
    Tr.numForms g = i → g ≠ [] → Tr.lastField g ≠ some .str → ds ≠ [] ∨ Tr.lastField g = some .form →
    ∃ g', Ate s gs g gs g' ∧ Tr.lastField g' = some .form ∧ ∀ f', Tr.texts f' g' = if .form = f' then Tr.texts f' g ++ ds else Tr.texts f' g := by
  induction h with
  | nil =>
    intro g _ _ _ hd
    refine ⟨g, fun ls h => ⟨[], rfl, by simp, by simpa using h⟩, by simpa using hd, fun f' => by simp⟩
  | @cons i s d t ds hf _ ih =>
    intro g hi hg hl _
    subst hi
    obtain ⟨g1, h1, h2, h3, h4⟩ := ate_field (gs := gs) (f := .form) (g := g) hf
      (by intro d; cases hx : Tr.lastField g with
        | none => simp [Tr.Starts]
        | some p => rw [hx] at hl; simpa [Tr.Starts] using hl) (fun h => absurd h hg)
    obtain ⟨g2, k1, k2, k3⟩ := ih (g := g1) (by rw [Tr.numForms_eq, h4, Tr.numForms_eq]; simp) h2 (by rw [h3]; simp) (.inr h3)
    refine ⟨g2, h1.trans k1, k2, fun f' => ?_⟩
    rw [k3, h4]
    by_cases e : Tr.Field.form = f'
    · simp [e]
    · simp [e]

/-- The entry for a message. -/
def msgEntry (m : Msg) : Tr.Entry where
  ctxt := m.ctxt.getD []
  id := m.id
  isPlural := m.plural.isSome
  id2 := m.plural.getD []
  str := if m.plural.isSome then [] else m.forms.flatten
  strN := if m.plural.isSome then m.forms else []

/-- The entry without its comments. -/
def bare (e : Tr.Entry) : Tr.Entry := { e with cmts := [] }

/-- A message read in full is a finished entry. -/
theorem ate_done {s : Str} {gs g g'} (h : Ate s gs g gs g') (hl : Tr.lastField g' = some .str ∨ Tr.lastField g' = some .form) :
    Ate s gs g (gs ++ [g']) [] := by
  intro ls h0
  obtain ⟨lines, h1, h2, h3⟩ := h ls h0
  refine ⟨lines, h1, h2, .inl ⟨rfl, .inr ⟨gs, g', rfl, ?_, hl⟩⟩⟩
  rcases h3 with ⟨rfl, _⟩ | ⟨_, hp⟩
  · rcases hl with hl | hl <;> cases hl
  · exact hp

theorem ate_message {gs : List (List Tr.Item)} {g : List Tr.Item} {s : Str} {m : Msg} (h : Message Written s m) (hl : Tr.lastField g = none) :
    ∃ g', Ate s gs g (gs ++ [g']) [] ∧ bare (Tr.entryOf g') = msgEntry m := by
  cases h with
  | @single a c b id s str hc hi hs =>
    obtain ⟨g1, a1, l1, t1⟩ := ate_context (gs := gs) hc hl
    obtain ⟨g2, a2, n2, l2, t2⟩ := ate_field (gs := gs) (f := .id) (g := g1) hi
      (by intro d; rcases l1 with l1 | l1 <;> simp [l1, Tr.Starts]) (fun _ d => trivial)
    obtain ⟨g3, a3, n3, l3, t3⟩ := ate_field (gs := gs) (f := .str) (g := g2) hs
      (by intro d; simp [l2, Tr.Starts]) (fun h => absurd h n2)
    refine ⟨g3, ate_done ((a1.trans a2).trans a3) (.inl l3), ?_⟩
    unfold bare Tr.entryOf msgEntry
    simp only [t3, t2, t1]
    cases c <;> simp
  | @plural a c b id p id2 s strs hc hi hp hs hne =>
    obtain ⟨g1, a1, l1, t1⟩ := ate_context (gs := gs) hc hl
    obtain ⟨g2, a2, n2, l2, t2⟩ := ate_field (gs := gs) (f := .id) (g := g1) hi
      (by intro d; rcases l1 with l1 | l1 <;> simp [l1, Tr.Starts]) (fun _ d => trivial)
    obtain ⟨g3, a3, n3, l3, t3⟩ := ate_field (gs := gs) (f := .id2) (g := g2) hp
      (by intro d; simp [l2, Tr.Starts]) (fun h => absurd h n2)
    obtain ⟨g4, a4, l4, t4⟩ := ate_forms (gs := gs) hs (g := g3) (by rw [Tr.numForms_eq, t3, t2, t1]; simp) n3 (by rw [l3]; simp) (.inl hne)
    refine ⟨g4, ate_done (((a1.trans a2).trans a3).trans a4) (.inr l4), ?_⟩
    unfold bare Tr.entryOf msgEntry
    simp only [t4, t3, t2, t1]
    cases c <;> simp

theorem ate_reads {s : Str} {ms : List Msg} (h : Reads Written s ms) : ∀ (gs : List (List Tr.Item)) (g : List Tr.Item), Tr.lastField g = none →
    ∃ new g', Ate s gs g (gs ++ new) g' ∧ Tr.lastField g' = none ∧ new.map (fun x => bare (Tr.entryOf x)) = ms.map msgEntry := by
  induction h with
  | nil => intro gs g hl; exact ⟨[], g, fun ls h => ⟨[], rfl, by simp, by simpa using h⟩, hl, rfl⟩
  | @blank s ms _ ih =>
    intro gs g hl
    obtain ⟨new, g', h1, h2, h3⟩ := ih gs g hl
    refine ⟨new, g', ?_, h2, h3⟩
    have : Ate [10] gs g gs g := fun ls h => ⟨[[]], rfl, by simp, by
      rw [show ([[]] : List Str).filter (fun l => ¬ Tr.Blank l) = [] from by decide, List.append_nil]
      exact h⟩
    exact this.trans h1
  | @comment l s ms hc _ ih =>
    intro gs g hl
    obtain ⟨r, rfl, h10, -⟩ := hc
    obtain ⟨new, g', h1, h2, h3⟩ := ih gs (g ++ [.comment (35 :: r)]) (by rw [Tr.lastField_comment, hl])
    refine ⟨new, g', ?_, h2, h3⟩
    have : Ate (35 :: r ++ [10]) gs g gs (g ++ [.comment (35 :: r)]) := by
      intro ls h
      refine ⟨[35 :: r], by simp [Tr.unlines], by simp [h10], ?_⟩
      have hb : ¬ Tr.Blank (35 :: r) := GoStr.trimSpace_ne_nil _ _ GoStr.solid_hash
      rw [List.filter_cons_of_pos (by simpa using hb), List.filter_nil]
      exact h.push (.comment r) (by simp [hl, Tr.Starts]) (fun _ => trivial)
    have := this.trans h1
    simpa using this
  | @message t m s ms hm _ ih =>
    intro gs g hl
    obtain ⟨g1, h1, e1⟩ := ate_message (gs := gs) hm hl
    obtain ⟨new, g', h2, h3, h4⟩ := ih (gs ++ [g1]) [] rfl
    refine ⟨g1 :: new, g', ?_, h3, by simp [e1, h4]⟩
    have := h1.trans h2
    simpa using this

theorem translated_bare (e : Tr.Entry) : Tr.Translated (bare e) ↔ Tr.Translated e := Iff.rfl

/-- **C116** The file that GNU gettext wrote for these messages is well-formed, and consists of entries for those that are translated. -/
theorem C116_text (s : Str) (ms : List Msg) (h : Reads Written s ms) (h13 : 13 ∉ s) :
    ∃ es, Tr.PoText s es ∧ (es.filter fun e => Tr.Translated e).map bare = (ms.map msgEntry).filter fun e => Tr.Translated e := by
  obtain ⟨new, g', h1, h2, h3⟩ := ate_reads h [] [] rfl
  obtain ⟨lines, rfl, hl, hp⟩ := h1 [] (.inl ⟨rfl, .inl ⟨rfl, rfl⟩⟩)
  have hml : Tr.meaningfulLines (Tr.unlines lines) = lines.filter fun l => ¬ Tr.Blank l := by
    unfold Tr.meaningfulLines
    have e : (Tr.unlines lines).filter (· != 13) = Tr.unlines lines := by
      rw [List.filter_eq_self]
      intro a ha
      rw [bne_iff_ne]
      rintro rfl
      exact h13 ha
    rw [e, Tr.splitByte_unlines lines hl, List.filter_append]
    have : (([[]] : List Str).filter fun l => ¬ Tr.Blank l) = [] := by decide
    rw [this, List.append_nil]
  rw [List.nil_append, List.nil_append] at hp
  rw [← h3]
  have comm : ∀ l : List (List Tr.Item), ((l.map Tr.entryOf).filter fun e => Tr.Translated e).map bare =
      (l.map fun x => bare (Tr.entryOf x)).filter fun e => Tr.Translated e := by
    intro l
    induction l with
    | nil => rfl
    | cons x l ih =>
      rw [List.map_cons, List.map_cons, List.filter_cons, List.filter_cons]
      simp only [translated_bare]
      split
      · rw [List.map_cons, ih]
      · exact ih
  rcases hp with ⟨rfl, ⟨e1, rfl⟩ | ⟨gs0, g0, rfl, hp, -⟩⟩ | ⟨-, hp⟩
  · refine ⟨_, ⟨[], [], by rw [hml, e1]; exact .nil, rfl⟩, ?_⟩
    decide
  · exact ⟨_, ⟨gs0, g0, by rw [hml]; exact hp, rfl⟩, comm _⟩
  · refine ⟨_, ⟨new, g', by rw [hml]; exact hp, rfl⟩, ?_⟩
    rw [← comm, List.map_append, List.filter_append, List.map_append]
    have : ¬ Tr.Translated (Tr.entryOf g') := by
      unfold Tr.Translated Tr.entryOf
      simp [Tr.texts_none _ _ h2]
    simp [this]

theorem lastFor_bare (ctxt id : Str) (es : List Tr.Entry) : (Tr.lastFor ctxt id es).map bare = Tr.lastFor ctxt id (es.map bare) := by
  unfold Tr.lastFor
  rw [List.filter_map, List.getLast?_map]
  rfl

/-- **C116** It is read, and of the messages with the same context and id the last that is translated is found. -/
theorem C116_read (s : Str) (ms : List Msg) (h : Reads Written s ms) (h13 : 13 ∉ s) (hne : s ≠ []) (h4 : ∀ m ∈ ms, 4 ∉ m.ctxt.getD []) :
    ∃ f, Tr.readPo s = .ok f ∧ ∀ ctxt id, 4 ∉ ctxt → (f.entries.get? (Tr.key ctxt id)).map bare =
      Tr.lastFor ctxt id ((ms.map msgEntry).filter fun e => Tr.Translated e) := by
  obtain ⟨es, h1, h2⟩ := C116_text s ms h h13
  refine ⟨_, (Tr.C26_ok_iff s _).2 ⟨hne, es, h1, rfl⟩, fun ctxt id hctxt => ?_⟩
  rw [Tr.foldl_addEntry_entries, ← h2, ← lastFor_bare]
  congr 1
  simp only [GMap.get?, Option.or_none, Tr.lastFor]
  congr 1
  apply List.filter_congr
  intro e hm
  have he : 4 ∉ e.ctxt := by
    have : bare e ∈ (es.filter fun e => Tr.Translated e).map bare := List.mem_map.2 ⟨e, hm, rfl⟩
    rw [h2, List.mem_filter, List.mem_map] at this
    obtain ⟨⟨m, hm, hb⟩, -⟩ := this
    have : e.ctxt = m.ctxt.getD [] := congrArg Tr.Entry.ctxt hb.symm
    rw [this]
    exact h4 m hm
  apply decide_eq_decide.mpr
  constructor
  · intro hk
    exact Tr.key_inj _ _ _ _ he hctxt hk
  · rintro ⟨h1, h2⟩
    rw [Tr.Entry.key, h1, h2]

/-! ## Messages that are not translated -/

theorem strings_end {B : Str → Str → Prop} {t d : Str} (h : Strings B t d) : ∃ u, t = u ++ [10] := by
  induction h with
  | one => exact ⟨_, (List.append_assoc _ [34] [10]).symm⟩
  | more _ _ ih =>
    obtain ⟨u, rfl⟩ := ih
    exact ⟨_, (List.append_assoc _ u [10]).symm⟩

/-- No line but the first begins with a letter. -/
theorem no_keyword (P : Nat → Bool) (h10 : P 10 = false) (h13 : P 13 = false) (w : Str) (hw : 10 ∉ w) (ps : List Str) : ∀ (a b : Str),
    w ++ (ps.flatMap fun line => Quote.quote P line ++ [10]) ++ [10] ≠ a ++ 10 :: 109 :: b := by
  induction ps generalizing w with
  | nil =>
    intro a b h
    rw [List.flatMap_nil, List.append_nil] at h
    rcases List.append_eq_append_iff.1 h with ⟨a', rfl, h2⟩ | ⟨c, rfl, h2⟩
    · cases a' with
      | nil => simp at h2
      | cons x a' => simp at h2
    · cases c with
      | nil => simp at h2
      | cons x c =>
        simp only [List.cons_append, List.cons.injEq] at h2
        exact hw (by simp [h2.1])
  | cons p ps ih =>
    intro a b h
    have hq := (Tr.quote_plain P h10 h13 p).1
    have e : w ++ ((p :: ps).flatMap fun line => Quote.quote P line ++ [10]) ++ [10] =
        (w ++ Quote.quote P p) ++ 10 :: ((ps.flatMap fun line => Quote.quote P line ++ [10]) ++ [10]) := by simp
    rw [e] at h
    rcases List.append_eq_append_iff.1 h with ⟨a', ha, h2⟩ | ⟨c, hc, h2⟩
    · cases a' with
      | nil =>
        simp only [List.nil_append, List.cons.injEq, true_and] at h2
        cases ps with
        | nil => simp at h2
        | cons q qs => simp [Quote.quote] at h2
      | cons x a' =>
        simp only [List.cons_append, List.cons.injEq] at h2
        exact ih [] (by simp) a' b h2.2
    · cases c with
      | nil =>
        simp only [List.nil_append, List.cons.injEq, true_and] at h2
        cases ps with
        | nil => simp at h2
        | cons q qs => simp [Quote.quote] at h2
      | cons x c =>
        simp only [List.cons_append, List.cons.injEq] at h2
        have : (10 : UInt8) ∈ w ++ Quote.quote P p := by rw [hc, ← h2.1]; simp
        rcases List.mem_append.1 this with h | h
        exacts [hw h, hq h]

/-- **C116** The translation that is saved for a message without one is not a file for GNU gettext: the keyword is missing. -/
theorem C116_untranslated (P : Nat → Bool) (h10 : P 10 = false) (h13 : P 13 = false) (id : Str) (ms : List Msg) :
    ¬ Reads Body (Tr.savePo P [{ id := id }]) ms := by
  have key := no_keyword P h10 h13 b!"msgid " (by decide) (Tr.split id Tr.lineThreshold)
  have e : Tr.savePo P [{ id := id }] = b!"msgid " ++ ((Tr.split id Tr.lineThreshold).flatMap fun line => Quote.quote P line ++ [10]) ++ [10] := by
    simp [Tr.savePo, Tr.poEntry, Tr.writeComments, Tr.writeString, Tr.writeForms]
  rw [e]
  generalize hs : b!"msgid " ++ ((Tr.split id Tr.lineThreshold).flatMap fun line => Quote.quote P line ++ [10]) ++ [10] = s at key
  have hm : s.head? = some 109 := by rw [← hs]; rfl
  have fields : ∀ {k k' x y d d' : Str} (r : Str), Field Body k x d → Field Body (109 :: k') y d' → ∃ a b, x ++ (y ++ r) = a ++ 10 :: 109 :: b := by
    rintro k k' x y d d' r ⟨t, rfl, ht⟩ ⟨t', rfl, -⟩
    obtain ⟨u, rfl⟩ := strings_end ht
    exact ⟨k ++ 32 :: u, k' ++ 32 :: t' ++ r, by simp⟩
  intro h
  cases h with
  | nil => cases hm
  | blank => cases hm
  | comment hc =>
    obtain ⟨r, rfl, -⟩ := hc
    cases hm
  | @message t m r ms hmsg =>
    cases hmsg with
    | @single a c b i x str _ hi hst =>
      obtain ⟨a', b', h⟩ := fields r hi hst
      exact key (a ++ a') b' (by simp only [List.append_assoc] at h ⊢; rw [h])
    | @plural a c b i p i2 x strs _ hi hp _ _ =>
      obtain ⟨a', b', h⟩ := fields (x ++ r) hi hp
      exact key (a ++ a') b' (by simp only [List.append_assoc] at h ⊢; rw [h])


/-! ## Examples -/

/-- Printable characters for the examples. -/
def someP (r : Nat) : Bool := (32 ≤ r && r < 127) || r == 0xe9

theorem someP_ascii : Ascii someP := by
  intro r hr
  unfold someP
  simp
  omega

instance (base : Nat) (c : UInt8) (v : Nat) : Decidable (IsDigit base c v) := inferInstanceAs (Decidable (_ ∧ _))

theorem ascii_char {c : UInt8} (h : c.toNat < 128) : (Char.ofNat c.toNat).toNat = c.toNat ∧ utf8 (Char.ofNat c.toNat) = [c] := by
  have e : (Char.ofNat c.toNat).toNat = c.toNat := by
    rw [Char.ofNat, dif_pos (.inl (by omega))]
    simp [Char.ofNatAux, Char.toNat]
  refine ⟨e, ?_⟩
  rcases utf8_cases (Char.ofNat c.toNat) with ⟨-, hu⟩ | ⟨hge, -⟩
  · rw [hu, e]; simp
  · omega

theorem plain_portable (s : Str) (h : ∀ c ∈ s, 32 ≤ c.toNat ∧ c.toNat < 127 ∨ 7 ≤ c.toNat ∧ c.toNat ≤ 13) : Portable someP s := by
  induction s with
  | nil => exact .nil
  | cons c s ih =>
    have hc := h c (by simp)
    obtain ⟨e, hu⟩ := ascii_char (c := c) (by omega)
    rw [show c :: s = utf8 (Char.ofNat c.toNat) ++ s from by rw [hu]; rfl]
    refine .shown _ ?_ (ih fun c hc => h c (by simp [hc]))
    rw [e]
    rcases hc with hc | hc
    · left; simp [someP, hc]
    · exact .inr hc

theorem plain_written (s : Str) (h : ∀ c ∈ s, 32 ≤ c.toNat ∧ c.toNat < 127 ∧ c.toNat ≠ 34 ∧ c.toNat ≠ 92) : Written s s := by
  induction s with
  | nil => exact .nil
  | cons c s ih =>
    have hc := h c (by simp)
    obtain ⟨e, hu⟩ := ascii_char (c := c) (by omega)
    rw [show c :: s = utf8 (Char.ofNat c.toNat) ++ s from by rw [hu]; rfl]
    exact .raw _ (by omega) (by omega) (by omega) (ih fun c hc => h c (by simp [hc]))

/-- A hexadecimal escape with three digits means one thing to Go and another to GNU gettext. -/
example : Quote.unquote b!"\"\\x41a\"" = some b!"Aa" ∧ Body b!"\\x41a" [0x1a] := by
  refine ⟨by decide, ?_⟩
  have hd : Digits 16 0 b!"41a" 0x41a := .cons (d := 4) (by decide) (.cons (d := 1) (by decide) (.cons (d := 10) (by decide) (.nil _)))
  exact (body_hex (ds := b!"41a") (by decide) hd (y := []) (by rintro ⟨_, _, _, h, _⟩; cases h)).2 ⟨[], rfl, .nil⟩

/-- A string both understand: a letter, a tabulator, and a character in octal. -/
example : Written b!"a\\t\\303\\251" b!"a\t\u00e9" ∧ Quote.unquote b!"\"a\\t\\303\\251\"" = some b!"a\t\u00e9" := by
  have h : Written b!"a\\t\\303\\251" b!"a\t\u00e9" :=
    .raw (b := b!"\\t\\303\\251") (d := b!"\t\u00e9") 'a' (by decide) (by decide) (by decide)
      (.letter 116 9 (by decide)
        (.octal b!"303" 0xc3 rfl (.cons (d := 3) (by decide) (.cons (d := 0) (by decide) (.cons (d := 3) (by decide) (.nil _)))) (by decide)
          (.octal (b := []) b!"251" 0xa9 rfl (.cons (d := 2) (by decide) (.cons (d := 5) (by decide) (.cons (d := 1) (by decide) (.nil _)))) (by decide) .nil)))
  exact ⟨h, (C116_written _ _ h).2.2⟩

/-- A text that can be exchanged, a letter that is printable, a space that is not, and a control character before a letter and before a digit. -/
example : Portable someP b!"a \"word\"\n" ∧ Portable someP b!"\u00e9" ∧ ¬ Portable someP b!"\u00a0" ∧ Portable someP [127, 122] ∧
    ¬ Portable someP [127, 97] := by
  refine ⟨plain_portable _ (by decide), .shown (t := []) 'é' (.inl (by decide)) .nil, fun h => ?_, ?_, fun h => ?_⟩
  · have := portable_inner someP someP_ascii h
    rw [show inner someP b!"\u00a0" = 92 :: 117 :: b!"00a0" from by decide +kernel] at this
    exact body_unknown (by decide) (by decide) (by decide) this
  · refine .control 127 (by decide) ?_ (plain_portable _ (by decide))
    rintro ⟨c, t, v, h, hv⟩
    cases h
    exact not_digit (by decide) (by decide) v hv
  · have := portable_inner someP someP_ascii h
    rw [show inner someP [127, 97] = 92 :: 120 :: b!"7fa" ++ [] from by decide +kernel] at this
    have hd : Digits 16 0 b!"7fa" 0x7fa := .cons (d := 7) (by decide) (.cons (d := 15) (by decide) (.cons (d := 10) (by decide) (.nil _)))
    obtain ⟨e, h1, h2⟩ := (body_hex (by decide) hd (by rintro ⟨_, _, _, h, _⟩; cases h)).1 this
    rw [body_nil h2] at h1
    cases h1

/-- A template with a header and a plural message. -/
def someEntries : List Tr.Entry :=
  [{ str := b!"Language: de\n" }, { cmts := [b!"#: main.go:5"], ctxt := b!"menu", id := b!"%d file", isPlural := true, id2 := b!"%d files", strN := [b!"eine", b!"%d"] }]

theorem someEntries_portable : ∀ e ∈ someEntries, Portable someP e.ctxt ∧ Portable someP e.id ∧ Portable someP e.id2 ∧ Portable someP e.str ∧
    ∀ s ∈ e.strN, Portable someP s := by
  intro e he
  simp only [someEntries, List.mem_cons, List.not_mem_nil, or_false] at he
  rcases he with rfl | rfl
  · exact ⟨.nil, .nil, .nil, plain_portable _ (by decide), by simp⟩
  · refine ⟨plain_portable _ (by decide), plain_portable _ (by decide), plain_portable _ (by decide), .nil, ?_⟩
    intro s hs
    simp only [List.mem_cons, List.not_mem_nil, or_false] at hs
    rcases hs with rfl | rfl <;> exact plain_portable _ (by decide)

theorem someEntries_comments : ∀ e ∈ someEntries, ∀ c ∈ e.cmts, Comment c := by
  intro e he c hc
  simp only [someEntries, List.mem_cons, List.not_mem_nil, or_false] at he
  rcases he with rfl | rfl
  · cases hc
  · rw [List.mem_singleton] at hc
    exact ⟨b!": main.go:5", hc, by decide, by decide, by decide⟩

example : Reads Body (Tr.savePot someP someEntries) [⟨none, [], none, [b!"Language: de\n"]⟩, ⟨some b!"menu", b!"%d file", some b!"%d files", [[], []]⟩] :=
  C116_pot someP someP_ascii someEntries someEntries_comments fun e he =>
    have h := someEntries_portable e he
    ⟨h.1, h.2.1, fun _ => h.2.2.1, fun _ _ => h.2.2.2.1⟩

example : Reads Body (Tr.savePo someP someEntries)
    [⟨none, [], none, [b!"Language: de\n"]⟩, ⟨some b!"menu", b!"%d file", some b!"%d files", [b!"eine", b!"%d"]⟩] :=
  C116_po someP someP_ascii someEntries someEntries_comments
    (fun e he => have h := someEntries_portable e he; ⟨h.1, h.2.1, fun _ => h.2.2.1⟩)
    (fun e he => by
      have h := someEntries_portable e he
      simp only [someEntries, List.mem_cons, List.not_mem_nil, or_false] at he
      rcases he with rfl | rfl
      · exact .inl ⟨rfl, by decide, h.2.2.2.1, rfl⟩
      · exact .inr ⟨rfl, rfl, by decide, h.2.2.2.2⟩)

/-- A file with a comment, a message that is translated and one that is not. -/
def someGnu : Str := b!"# made by hand\nmsgid \"one\"\nmsgstr \"\"\n\"eins\"\n\nmsgid \"two\"\nmsgstr \"\"\n"

theorem someGnu_reads : Reads Written someGnu [⟨none, b!"one", none, [b!"eins"]⟩, ⟨none, b!"two", none, [[]]⟩] := by
  have hw : ∀ s : Str, (∀ c ∈ s, 32 ≤ c.toNat ∧ c.toNat < 127 ∧ c.toNat ≠ 34 ∧ c.toNat ≠ 92) → Written s s := plain_written
  have h1 : Message Written b!"msgid \"one\"\nmsgstr \"\"\n\"eins\"\n" ⟨none, b!"one", none, [b!"eins"]⟩ :=
    .single (a := []) (b := b!"msgid \"one\"\n") (s := b!"msgstr \"\"\n\"eins\"\n") .none
      ⟨b!"\"one\"\n", rfl, .one (t := b!"one") (hw _ (by decide))⟩
      ⟨b!"\"\"\n\"eins\"\n", rfl, .more (t := []) (d := []) .nil (.one (t := b!"eins") (hw _ (by decide)))⟩
  have h2 : Message Written b!"msgid \"two\"\nmsgstr \"\"\n" ⟨none, b!"two", none, [[]]⟩ :=
    .single (a := []) (b := b!"msgid \"two\"\n") (s := b!"msgstr \"\"\n") .none
      ⟨b!"\"two\"\n", rfl, .one (t := b!"two") (hw _ (by decide))⟩ ⟨b!"\"\"\n", rfl, .one (t := []) .nil⟩
  exact .comment (l := b!"# made by hand") ⟨_, rfl, by decide, by decide, by decide⟩ (.message h1 (.blank (.message (s := []) h2 .nil)))

example : ∃ f, Tr.readPo someGnu = .ok f ∧ ((f.entries.get? (Tr.key [] b!"one")).map fun e => e.str) = some b!"eins" ∧
    f.entries.get? (Tr.key [] b!"two") = none := by
  obtain ⟨f, h1, h2⟩ := C116_read someGnu _ someGnu_reads (by decide) (by decide) (by decide)
  refine ⟨f, h1, ?_, ?_⟩
  · have := h2 [] b!"one" (by simp)
    rw [show Tr.lastFor [] b!"one" _ = some { id := b!"one", str := b!"eins" } from by decide +kernel] at this
    cases hx : f.entries.get? (Tr.key [] b!"one") with
    | none => rw [hx] at this; cases this
    | some e =>
      rw [hx] at this
      simp only [Option.map_some, Option.some.injEq] at this ⊢
      exact congrArg Tr.Entry.str this
  · have := h2 [] b!"two" (by simp)
    rw [show Tr.lastFor [] b!"two" _ = none from by decide +kernel] at this
    simpa using this

end Verif.GnuPo
