import Verif.Lemmas.GnuPo
/-!
# What GNU gettext reads is determined by the text
-/
namespace Verif.GnuPo
open Verif
open Verif.Literal (utf8 IsDigit Digits letters)

/-! ## Strings -/

theorem octal_unique {a b x y : Str} (h : a ++ x = b ++ y) (ha : ∀ c ∈ a, ∃ v, IsDigit 8 c v) (hb : ∀ c ∈ b, ∃ v, IsDigit 8 c v)
    (ha3 : a.length ≤ 3) (hb3 : b.length ≤ 3) (hx : a.length < 3 → ¬ Starts 8 x) (hy : b.length < 3 → ¬ Starts 8 y) : a = b ∧ x = y := by
  rcases List.append_eq_append_iff.1 h with ⟨e, rfl, rfl⟩ | ⟨e, rfl, rfl⟩
  · cases e with
    | nil => simp
    | cons c e =>
      exfalso
      obtain ⟨v, hv⟩ := hb c (by simp)
      rw [List.length_append, List.length_cons] at hb3
      exact hx (by omega) ⟨c, e ++ y, v, rfl, hv⟩
  · cases e with
    | nil => simp
    | cons c e =>
      exfalso
      obtain ⟨v, hv⟩ := ha c (by simp)
      rw [List.length_append, List.length_cons] at ha3
      exact hy (by omega) ⟨c, e ++ x, v, rfl, hv⟩

/-- The first character of a string. -/
theorem oneChar_unique {t r t' r' : Str} {d d' : UInt8} (h : OneChar t r d) (h' : OneChar t' r' d') (he : t ++ r = t' ++ r') :
    t = t' ∧ r = r' ∧ d = d' := by
  cases h with
  | byte c _ _ h92 _ =>
    cases h' with
    | byte c' _ _ _ _ => cases he; exact ⟨rfl, rfl, rfl⟩
    | letter c' v' _ _ => cases he; exact absurd rfl h92
    | octal ds' v' _ _ _ _ _ => cases he; exact absurd rfl h92
    | hex ds' v' _ _ _ _ => cases he; exact absurd rfl h92
  | letter c v _ hc =>
    cases h' with
    | byte c' _ _ h92 _ => cases he; exact absurd rfl h92
    | letter c' v' _ hc' => cases he; exact ⟨rfl, rfl, letters_unique _ hc _ hc' rfl⟩
    | octal ds' v' _ hne _ hd _ =>
      exfalso
      cases ds' with
      | nil => exact hne rfl
      | cons x ds' =>
        cases he
        obtain ⟨w, hw⟩ := digits_all hd c (by simp)
        exact not_octal (letters_octal _ hc).1 w hw
    | hex ds' v' _ _ _ _ => cases he; exact absurd rfl (letters_octal _ hc).2
  | octal ds v _ hne h3 hd hs =>
    cases h' with
    | byte c' _ _ h92 _ => cases he; exact absurd rfl h92
    | letter c' v' _ hc' =>
      exfalso
      cases ds with
      | nil => exact hne rfl
      | cons x ds =>
        cases he
        obtain ⟨w, hw⟩ := digits_all hd c' (by simp)
        exact not_octal (letters_octal _ hc').1 w hw
    | octal ds' v' _ _ h3' hd' hs' =>
      obtain ⟨rfl, rfl⟩ := octal_unique (List.cons.inj he).2 (digits_all hd) (digits_all hd') h3 h3' hs hs'
      rw [digits_unique (by decide) hd hd']
      exact ⟨rfl, rfl, rfl⟩
    | hex ds' v' _ _ _ _ =>
      exfalso
      cases ds with
      | nil => exact hne rfl
      | cons x ds =>
        obtain rfl : x = 120 := (List.cons.inj (List.cons.inj he).2).1
        obtain ⟨w, hw⟩ := digits_all hd 120 (by simp)
        exact not_octal (by decide) w hw
  | hex ds v _ hne hd hs =>
    cases h' with
    | byte c' _ _ h92 _ => cases he; exact absurd rfl h92
    | letter c' v' _ hc' => cases he; exact absurd rfl (letters_octal _ hc').2
    | octal ds' v' _ hne' _ hd' _ =>
      exfalso
      cases ds' with
      | nil => exact hne' rfl
      | cons x ds' =>
        obtain rfl : 120 = x := (List.cons.inj (List.cons.inj he).2).1
        obtain ⟨w, hw⟩ := digits_all hd' 120 (by simp)
        exact not_octal (by decide) w hw
    | hex ds' v' _ _ hd' hs' =>
      obtain ⟨rfl, rfl⟩ := digits_maximal (List.cons.inj (List.cons.inj he).2).2 (digits_all hd) (digits_all hd') hs hs'
      rw [digits_unique (by decide) hd hd']
      exact ⟨rfl, rfl, rfl⟩

theorem oneChar_ne {t r : Str} {d : UInt8} (h : OneChar t r d) : t ≠ [] := by
  cases h <;> simp

/-- A string stands for one sequence of bytes only. -/
theorem body_unique {t d d' : Str} (h : Body t d) (h' : Body t d') : d = d' := by
  induction h generalizing d' with
  | nil => exact (body_nil h').symm
  | @cons t s d e h1 _ ih =>
    generalize hz : t ++ s = z at h'
    cases h' with
    | nil => exact absurd (List.append_eq_nil_iff.1 hz).1 (oneChar_ne h1)
    | cons h1' h2' =>
      obtain ⟨rfl, rfl, rfl⟩ := oneChar_unique h1 h1' hz
      rw [ih h2']

/-- The text up to the first quotation mark that is not escaped. -/
def cutQuote : Str → Option (Str × Str)
  | [] => none
  | [c] => if c = 34 then some ([], []) else none
  | c :: x :: s =>
    if c = 34 then some ([], x :: s)
    else if c = 92 then (cutQuote s).map fun p => (92 :: x :: p.1, p.2)
    else (cutQuote (x :: s)).map fun p => (c :: p.1, p.2)

theorem cut_quote (r : Str) : cutQuote (34 :: r) = some ([], r) := by cases r <;> simp [cutQuote]

theorem cut_byte {c : UInt8} (h34 : c ≠ 34) (h92 : c ≠ 92) {s : Str} {p : Str × Str} (h : cutQuote s = some p) :
    cutQuote (c :: s) = some (c :: p.1, p.2) := by
  cases s with
  | nil => cases h
  | cons x s => simp [cutQuote, h34, h92, h]

theorem cut_escape {x : UInt8} {s : Str} {p : Str × Str} (h : cutQuote s = some p) :
    cutQuote (92 :: x :: s) = some (92 :: x :: p.1, p.2) := by
  simp [cutQuote, h]

theorem cut_bytes {a : Str} (ha : ∀ c ∈ a, c ≠ 34 ∧ c ≠ 92) {s : Str} {p : Str × Str} (h : cutQuote s = some p) :
    cutQuote (a ++ s) = some (a ++ p.1, p.2) := by
  induction a with
  | nil => exact h
  | cons c a ih => exact cut_byte (ha c (by simp)).1 (ha c (by simp)).2 (ih fun c hc => ha c (by simp [hc]))

theorem digits_plain {base : Nat} (hb : base ≤ 16) {ds : Str} {a v : Nat} (h : Digits base a ds v) : ∀ c ∈ ds, c ≠ 34 ∧ c ≠ 92 := by
  intro c hc
  obtain ⟨w, hw⟩ := digits_all h c hc
  refine ⟨?_, ?_⟩ <;> rintro rfl <;> exact not_digit hb (by decide) w hw

theorem cut_body {t d : Str} (h : Body t d) (r : Str) : cutQuote (t ++ 34 :: r) = some (t, r) := by
  induction h with
  | nil => exact cut_quote r
  | @cons t s d e h1 _ ih =>
    rw [List.append_assoc]
    cases h1 with
    | byte c _ h34 h92 _ => exact cut_byte h34 h92 ih
    | letter c v _ _ => exact cut_escape ih
    | octal ds v _ hne _ hd _ =>
      cases ds with
      | nil => exact absurd rfl hne
      | cons x ds => exact cut_escape (cut_bytes (fun c hc => digits_plain (by decide) hd c (by simp [hc])) ih)
    | hex ds v _ _ hd _ => exact cut_escape (cut_bytes (digits_plain (by decide) hd) ih)

theorem quoted_unique {t d r t' d' r' : Str} (h : Body t d) (h' : Body t' d') (he : t ++ 34 :: r = t' ++ 34 :: r') :
    t = t' ∧ d = d' ∧ r = r' := by
  have h1 := cut_body h r
  rw [he, cut_body h' r'] at h1
  cases h1
  exact ⟨rfl, body_unique h h', rfl⟩

/-! ## Files -/

/-- The text does not go on with a string. -/
def NoString (r : Str) : Prop := r.head? ≠ some 34

theorem strings_unique {s d : Str} (h : Strings Body s d) : ∀ {r s' d' r' : Str}, Strings Body s' d' → NoString r → NoString r' →
    s ++ r = s' ++ r' → s = s' ∧ d = d' ∧ r = r' := by
  induction h with
  | @one t d hb =>
    intro r s' d' r' h' hr hr' he
    cases h' with
    | @one t' _ hb' =>
      simp only [List.cons_append, List.append_assoc, List.nil_append, List.cons.injEq, true_and] at he
      obtain ⟨rfl, rfl, he⟩ := quoted_unique hb hb' he
      cases he
      exact ⟨rfl, rfl, rfl⟩
    | @more t' d1 s1 e1 hb' hs' =>
      exfalso
      simp only [List.cons_append, List.append_assoc, List.nil_append, List.cons.injEq, true_and] at he
      obtain ⟨rfl, rfl, he⟩ := quoted_unique hb hb' he
      cases he
      cases hs' <;> exact hr rfl
  | @more t d s e hb hs ih =>
    intro r s' d' r' h' hr hr' he
    cases h' with
    | @one t' _ hb' =>
      exfalso
      simp only [List.cons_append, List.append_assoc, List.nil_append, List.cons.injEq, true_and] at he
      obtain ⟨rfl, rfl, he⟩ := quoted_unique hb hb' he
      cases he
      cases hs <;> exact hr' rfl
    | @more t' d1 s1 e1 hb' hs' =>
      simp only [List.cons_append, List.append_assoc, List.nil_append, List.cons.injEq, true_and] at he
      obtain ⟨rfl, rfl, he⟩ := quoted_unique hb hb' he
      simp only [List.cons.injEq, true_and] at he
      obtain ⟨rfl, rfl, rfl⟩ := ih hs' hr hr' he
      exact ⟨rfl, rfl, rfl⟩

theorem field_unique {key s d r s' d' r' : Str} (h : Field Body key s d) (h' : Field Body key s' d') (hr : NoString r) (hr' : NoString r')
    (he : s ++ r = s' ++ r') : s = s' ∧ d = d' ∧ r = r' := by
  obtain ⟨t, rfl, h⟩ := h
  obtain ⟨t', rfl, h'⟩ := h'
  rw [List.append_assoc, List.append_assoc] at he
  have he := (List.cons.inj (List.append_cancel_left he)).2
  obtain ⟨rfl, rfl, rfl⟩ := strings_unique h h' hr hr' he
  exact ⟨rfl, rfl, rfl⟩

/-- The text does not go on with the translation of a message. -/
def NoForm (r : Str) : Prop := r.take 4 ≠ b!"msgs"

theorem form_noString {B : Str → Str → Prop} {i : Nat} {s : Str} {ds : List Str} (h : Forms B i s ds) {r : Str} (hr : NoString r) : NoString (s ++ r) := by
  cases h with
  | nil => exact hr
  | cons hf _ => obtain ⟨t, rfl, -⟩ := hf; simp [NoString]

theorem forms_unique {i : Nat} {s : Str} {ds : List Str} (h : Forms Body i s ds) : ∀ {r s' r' : Str} {ds' : List Str}, Forms Body i s' ds' →
    NoString r → NoString r' → NoForm r → NoForm r' → s ++ r = s' ++ r' → s = s' ∧ ds = ds' ∧ r = r' := by
  induction h with
  | nil =>
    intro r s' r' ds' h' hr hr' hn hn' he
    cases h' with
    | nil => exact ⟨rfl, rfl, he⟩
    | cons hf _ =>
      exfalso
      obtain ⟨t, rfl, -⟩ := hf
      apply hn
      rw [List.nil_append] at he
      rw [he]
      simp
  | cons hf hg ih =>
    intro r s' r' ds' h' hr hr' hn hn' he
    cases h' with
    | nil =>
      exfalso
      obtain ⟨t, rfl, -⟩ := hf
      apply hn'
      rw [List.nil_append] at he
      rw [← he]
      simp
    | cons hf' hg' =>
      rw [List.append_assoc, List.append_assoc] at he
      obtain ⟨rfl, rfl, he⟩ := field_unique hf hf' (form_noString hg hr) (form_noString hg' hr') he
      obtain ⟨rfl, rfl, rfl⟩ := ih hg' hr hr' hn hn' he
      exact ⟨rfl, rfl, rfl⟩

theorem field_start {B : Str → Str → Prop} {key s d : Str} (h : Field B key s d) : ∃ t, s = key ++ 32 :: t := by
  obtain ⟨t, rfl, -⟩ := h
  exact ⟨t, rfl⟩

theorem context_unique {s b r s' b' r' id id' : Str} {c c' : Option Str} (h : Context Body s c) (h' : Context Body s' c')
    (hb : Field Body b!"msgid" b id) (hb' : Field Body b!"msgid" b' id') (he : s ++ (b ++ r) = s' ++ (b' ++ r')) :
    s = s' ∧ c = c' ∧ b ++ r = b' ++ r' := by
  obtain ⟨t, rfl⟩ := field_start hb
  obtain ⟨t', rfl⟩ := field_start hb'
  cases h with
  | none =>
    cases h' with
    | none => exact ⟨rfl, rfl, he⟩
    | some hf =>
      obtain ⟨u, rfl⟩ := field_start hf
      simp at he
  | some hf =>
    cases h' with
    | none =>
      obtain ⟨u, rfl⟩ := field_start hf
      simp at he
    | some hf' =>
      obtain ⟨rfl, rfl, he⟩ := field_unique hf hf' (by simp [NoString]) (by simp [NoString]) he
      exact ⟨rfl, rfl, he⟩

theorem message_unique {s r s' r' : Str} {m m' : Msg} (h : Message Body s m) (h' : Message Body s' m') (hr : NoString r) (hr' : NoString r')
    (hn : NoForm r) (hn' : NoForm r') (he : s ++ r = s' ++ r') : s = s' ∧ m = m' ∧ r = r' := by
  cases h with
  | single hc hi hs =>
    cases h' with
    | single hc' hi' hs' =>
      simp only [List.append_assoc] at he
      obtain ⟨rfl, rfl, he⟩ := context_unique hc hc' hi hi' he
      obtain ⟨rfl, rfl, he⟩ := field_unique hi hi' (by obtain ⟨t, rfl⟩ := field_start hs; simp [NoString])
        (by obtain ⟨t, rfl⟩ := field_start hs'; simp [NoString]) he
      obtain ⟨rfl, rfl, rfl⟩ := field_unique hs hs' hr hr' he
      exact ⟨rfl, rfl, rfl⟩
    | plural hc' hi' hp' hs' _ =>
      exfalso
      simp only [List.append_assoc] at he
      obtain ⟨rfl, rfl, he⟩ := context_unique hc hc' hi hi' he
      obtain ⟨rfl, rfl, he⟩ := field_unique hi hi' (by obtain ⟨t, rfl⟩ := field_start hs; simp [NoString])
        (by obtain ⟨t, rfl⟩ := field_start hp'; simp [NoString]) he
      obtain ⟨t, rfl⟩ := field_start hs
      obtain ⟨t', rfl⟩ := field_start hp'
      simp at he
  | plural hc hi hp hs hne =>
    cases h' with
    | single hc' hi' hs' =>
      exfalso
      simp only [List.append_assoc] at he
      obtain ⟨rfl, rfl, he⟩ := context_unique hc hc' hi hi' he
      obtain ⟨rfl, rfl, he⟩ := field_unique hi hi' (by obtain ⟨t, rfl⟩ := field_start hp; simp [NoString])
        (by obtain ⟨t, rfl⟩ := field_start hs'; simp [NoString]) he
      obtain ⟨t, rfl⟩ := field_start hp
      obtain ⟨t', rfl⟩ := field_start hs'
      simp at he
    | plural hc' hi' hp' hs' _ =>
      simp only [List.append_assoc] at he
      obtain ⟨rfl, rfl, he⟩ := context_unique hc hc' hi hi' he
      obtain ⟨rfl, rfl, he⟩ := field_unique hi hi' (by obtain ⟨t, rfl⟩ := field_start hp; simp [NoString])
        (by obtain ⟨t, rfl⟩ := field_start hp'; simp [NoString]) he
      obtain ⟨rfl, rfl, he⟩ := field_unique hp hp' (form_noString hs hr) (form_noString hs' hr') he
      obtain ⟨rfl, rfl, rfl⟩ := forms_unique hs hs' hr hr' hn hn' he
      exact ⟨rfl, rfl, rfl⟩

theorem message_start {B : Str → Str → Prop} {s : Str} {m : Msg} (h : Message B s m) : ∃ t, s = b!"msgid " ++ t ∨ s = b!"msgctxt " ++ t := by
  have key : ∀ {a b id r : Str} {c : Option Str}, Context B a c → Field B b!"msgid" b id →
      ∃ t, a ++ b ++ r = b!"msgid " ++ t ∨ a ++ b ++ r = b!"msgctxt " ++ t := by
    intro a b id r c hc hi
    obtain ⟨t, rfl⟩ := field_start hi
    cases hc with
    | none => exact ⟨t ++ r, .inl (by simp)⟩
    | some hf =>
      obtain ⟨u, rfl⟩ := field_start hf
      exact ⟨_, .inr (by simp only [List.append_assoc, List.cons_append, List.nil_append]; rfl)⟩
  cases h with
  | single hc hi _ => exact key hc hi
  | plural hc hi _ _ _ =>
    rw [List.append_assoc]
    exact key hc hi

theorem reads_start {B : Str → Str → Prop} {s : Str} {ms : List Msg} (h : Reads B s ms) : NoString s ∧ NoForm s := by
  cases h with
  | nil => simp [NoString, NoForm]
  | blank _ => simp [NoString, NoForm]
  | comment hc _ =>
    obtain ⟨r, rfl, -⟩ := hc
    simp [NoString, NoForm]
  | message hm _ =>
    obtain ⟨t, rfl | rfl⟩ := message_start hm <;> simp [NoString, NoForm]

theorem line_unique {a b x y : Str} (h : a ++ 10 :: x = b ++ 10 :: y) (ha : 10 ∉ a) (hb : 10 ∉ b) : a = b ∧ x = y := by
  induction a generalizing b with
  | nil =>
    cases b with
    | nil => cases h; exact ⟨rfl, rfl⟩
    | cons c b => cases h; exact absurd (List.mem_cons_self) hb
  | cons c a ih =>
    cases b with
    | nil => cases h; exact absurd (List.mem_cons_self) ha
    | cons c' b =>
      obtain ⟨rfl, h1⟩ := List.cons.inj h
      obtain ⟨rfl, rfl⟩ := ih h1 (fun hh => ha (List.mem_cons_of_mem _ hh)) (fun hh => hb (List.mem_cons_of_mem _ hh))
      exact ⟨rfl, rfl⟩

/-- The text determines the messages. -/
theorem reads_unique {s : Str} {ms : List Msg} (h : Reads Body s ms) : ∀ {ms' : List Msg}, Reads Body s ms' → ms = ms' := by
  induction h with
  | nil =>
    intro ms' h'
    generalize hz : ([] : Str) = z at h'
    cases h' with
    | nil => rfl
    | blank _ => cases hz
    | comment hc _ => obtain ⟨r, rfl, -⟩ := hc; cases hz
    | message hm _ => obtain ⟨t, rfl | rfl⟩ := message_start hm <;> cases hz
  | @blank s ms _ ih =>
    intro ms' h'
    generalize hz : 10 :: s = z at h'
    cases h' with
    | nil => cases hz
    | blank h' => cases hz; exact ih h'
    | comment hc _ => obtain ⟨r, rfl, -⟩ := hc; cases hz
    | message hm _ => obtain ⟨t, rfl | rfl⟩ := message_start hm <;> cases hz
  | @comment l s ms hc _ ih =>
    intro ms' h'
    obtain ⟨r, rfl, h10, -⟩ := hc
    generalize hz : (35 :: r) ++ 10 :: s = z at h'
    cases h' with
    | nil => cases hz
    | blank h' => cases hz
    | comment hc' h' =>
      obtain ⟨r', rfl, h10', -⟩ := hc'
      obtain ⟨rfl, rfl⟩ := line_unique (List.cons.inj hz).2 h10 h10'
      exact ih h'
    | message hm _ => obtain ⟨t, rfl | rfl⟩ := message_start hm <;> cases hz
  | @message t m s ms hm hs ih =>
    intro ms' h'
    generalize hz : t ++ s = z at h'
    cases h' with
    | nil => obtain ⟨u, rfl | rfl⟩ := message_start hm <;> cases hz
    | blank h' => obtain ⟨u, rfl | rfl⟩ := message_start hm <;> cases hz
    | comment hc' h' =>
      obtain ⟨r', rfl, -⟩ := hc'
      obtain ⟨u, rfl | rfl⟩ := message_start hm <;> cases hz
    | message hm' h' =>
      obtain ⟨h1, h2⟩ := reads_start hs
      obtain ⟨h1', h2'⟩ := reads_start h'
      obtain ⟨rfl, rfl, rfl⟩ := message_unique hm hm' h1 h1' h2 h2' hz
      rw [ih h']

end Verif.GnuPo
