import Verif.Lemmas.AtnLexer
/-!
# C68  The lexer's tables say what the grammar file says

The lexer is a table of numbers (plurals/parser/plural_lexer.go:61-118) interpreted by the ANTLR runtime.
For every text it finds the longest token in the sense of plurals/plural.g4, of the right type, and drops
exactly the spaces; it reports an error exactly if no token begins there.
-/
namespace Verif.Antlr
open Verif

theorem Lexeme.ne_nil {ty : Nat} {w : List Nat} (h : Lexeme ty w) : w ≠ [] := by
  rw [← lexType_iff] at h
  rintro rfl
  rw [lexType, if_pos rfl] at h; cases h

/-- A text has at most one type. -/
theorem lexeme_unique {ty ty' : Nat} {w : List Nat} (h : Lexeme ty w) (h' : Lexeme ty' w) : ty = ty' := by
  rw [← lexType_iff] at h h'
  exact Option.some.inj (h.symm.trans h')

theorem prefix_take {w inp : List Nat} (h : w <+: inp) : inp.take w.length = w := by
  obtain ⟨r, rfl⟩ := h
  rw [List.take_left]

/-- One token: the longest one, or none if there is none. -/
theorem lexMatch_spec (inp : List Nat) : ∃ r pos, lexMatch lexAtn inp = some (r, pos) ∧
    (∀ a, r = some a → 0 < a.len ∧ a.len ≤ inp.length ∧ Longest a.type (inp.take a.len) inp ∧
      (6 ∈ a.acts ↔ a.type = 29)) ∧
    (r = none → ∀ type w, Lexeme type w → ¬ w <+: inp) := by
  have h0 : capture lexAtn lex0 0 none = none := by decide +kernel
  obtain ⟨r, p, h, -, -, hs⟩ := lexRun_spec lexAtn reached_step inp lex0 none 0 (.inl rfl)
  refine ⟨r, p, ?_, ?_, ?_⟩
  · rw [lexMatch, lexStart_eq]; dsimp only; rw [h0]; exact h
  · rintro a rfl
    rcases hs with ⟨h1, -⟩ | ⟨a', k, h1, h2, h3, h4, h5, h6⟩
    · cases h1
    · cases h1
      rw [Nat.zero_add] at h2
      subst h2
      rw [accept_lex0, Option.map_eq_some_iff] at h5
      obtain ⟨ty, ht, he⟩ := h5
      have e1 : ty = a.type := congrArg Prod.fst he
      have e2 : lexActs ty = a.acts := congrArg Prod.snd he
      subst e1
      refine ⟨h3, h4, ⟨(lexType_iff _ _).1 ht, List.take_prefix _ _, ?_⟩, ?_⟩
      · intro ty' w' hl hp
        by_contra hc
        rw [List.length_take, Nat.min_eq_left h4] at hc
        have := h6 w'.length (by omega) hp.length_le
        rw [prefix_take hp, accept_lex0, (lexType_iff _ _).2 hl] at this
        cases this
      · rw [← e2, lexActs]
        by_cases hc : a.type = 29 <;> simp [hc]
  · rintro rfl type w hl hp
    rcases hs with ⟨-, h1⟩ | ⟨a', k, h1, -⟩
    · have := h1 w.length (List.length_pos_iff.2 hl.ne_nil) hp.length_le
      rw [prefix_take hp, accept_lex0, (lexType_iff _ _).2 hl] at this
      cases this
    · cases h1

/-- **C68** The tables can be read; one token is found as the grammar file says. -/
theorem C68_match (inp : List Nat) : ∃ A, deserialize lexerData = some A ∧ ∃ r pos, lexMatch A inp = some (r, pos) ∧
    (∀ a, r = some a → 0 < a.len ∧ a.len ≤ inp.length ∧ Longest a.type (inp.take a.len) inp ∧
      (6 ∈ a.acts ↔ a.type = 29)) ∧
    (r = none → ∀ type w, Lexeme type w → ¬ w <+: inp) :=
  ⟨lexAtn, lexer_deserialize, lexMatch_spec inp⟩

/-- The whole text is cut as the grammar file says. -/
theorem lexTokens_scans : ∀ (f : Nat) (inp : List Nat), inp.length ≤ f →
    ∃ items, lexTokens lexAtn f inp = some items ∧ Scans inp items := by
  intro f
  induction f with
  | zero =>
    intro inp h
    cases inp with
    | nil => exact ⟨[], rfl, .nil⟩
    | cons c cs => simp at h
  | succ f ih =>
    intro inp h
    cases inp with
    | nil => exact ⟨[], rfl, .nil⟩
    | cons c cs =>
      obtain ⟨r, pos, hm, hs, hn⟩ := lexMatch_spec (c :: cs)
      rw [lexTokens, hm]
      cases r with
      | none =>
        obtain ⟨items, h1, -⟩ := ih ((c :: cs).drop (pos + 1)) (by simp at h ⊢; omega)
        exact ⟨.bad :: items, by dsimp only; rw [h1]; rfl, .bad (by simp) (hn rfl)⟩
      | some a =>
        obtain ⟨l1, l2, l3, l4⟩ := hs a rfl
        obtain ⟨items, h1, h2⟩ := ih ((c :: cs).drop a.len) (by simp at h ⊢; omega)
        have he : (c :: cs).take a.len ++ (c :: cs).drop a.len = c :: cs := List.take_append_drop _ _
        by_cases hc : 6 ∈ a.acts
        · refine ⟨items, by dsimp only; rw [if_pos hc, h1], ?_⟩
          rw [← he]
          refine .skip ?_ h2
          rw [he, ← l4.1 hc]; exact l3
        · refine ⟨_, by dsimp only; rw [if_neg hc, h1]; rfl, ?_⟩
          have := Scans.tok (type := a.type) (w := (c :: cs).take a.len) (by rw [he]; exact l3)
            (fun hx => hc (l4.2 hx)) h2
          rwa [he] at this

/-- **C68** The lexer always comes to an end, having cut the text as the grammar file says. -/
theorem C68_tokens (s : Str) : ∃ items, tokens s = some items ∧ Scans (runes s.length s) items := by
  unfold tokens
  rw [lexer_deserialize]
  exact lexTokens_scans _ _ (Nat.le_refl _)

theorem Longest.unique {ty ty' : Nat} {w w' r r' : List Nat} (h : Longest ty w (w ++ r)) (h' : Longest ty' w' (w' ++ r'))
    (he : w ++ r = w' ++ r') : ty = ty' ∧ w = w' ∧ r = r' := by
  have h1 := h.2.2 _ _ h'.1 (he ▸ List.prefix_append w' r')
  have h2 := h'.2.2 _ _ h.1 (he ▸ List.prefix_append w r)
  obtain ⟨rfl, rfl⟩ := List.append_inj he (by omega)
  exact ⟨lexeme_unique h.1 h'.1, rfl, rfl⟩

/-- What comes before the first error, and whether there is one. -/
def upToBad : List Item → List (Nat × List Nat) × Bool
  | [] => ([], false)
  | .bad :: _ => ([], true)
  | .tok ty w :: l => ((ty, w) :: (upToBad l).1, (upToBad l).2)

/-- **C68** There is only one way to cut a text, up to the first error. -/
theorem C68_unique {inp : List Nat} {a b : List Item} (ha : Scans inp a) (hb : Scans inp b) : upToBad a = upToBad b := by
  induction ha generalizing b with
  | nil =>
    generalize hi : ([] : List Nat) = inp at hb
    cases hb with
    | nil => rfl
    | tok h1 => exact absurd (List.append_eq_nil_iff.1 hi.symm).1 h1.1.ne_nil
    | skip h1 => exact absurd (List.append_eq_nil_iff.1 hi.symm).1 h1.1.ne_nil
    | bad h1 => exact absurd hi.symm h1
  | @tok ty w r items h1 h2 h3 ih =>
    generalize hi : w ++ r = inp at hb
    cases hb with
    | nil => exact absurd (List.append_eq_nil_iff.1 hi).1 h1.1.ne_nil
    | tok h1' h2' h3' =>
      obtain ⟨rfl, rfl, rfl⟩ := h1.unique h1' hi
      rw [upToBad, upToBad, ih h3']
    | skip h1' h3' => exact absurd (h1.unique h1' hi).1 h2
    | bad h1' h2' => exact absurd (hi ▸ List.prefix_append w r) (h2' _ _ h1.1)
  | @skip w r items h1 h3 ih =>
    generalize hi : w ++ r = inp at hb
    cases hb with
    | nil => exact absurd (List.append_eq_nil_iff.1 hi).1 h1.1.ne_nil
    | tok h1' h2' h3' => exact absurd (h1.unique h1' hi).1.symm h2'
    | skip h1' h3' =>
      obtain ⟨-, rfl, rfl⟩ := h1.unique h1' hi
      exact ih h3'
    | bad h1' h2' => exact absurd (hi ▸ List.prefix_append w r) (h2' _ _ h1.1)
  | bad h1 h2 =>
    cases hb with
    | nil => exact absurd rfl h1
    | tok h1' => exact absurd (List.prefix_append _ _) (h2 _ _ h1'.1)
    | skip h1' => exact absurd (List.prefix_append _ _) (h2 _ _ h1'.1)
    | bad => rfl

/-! ## Examples -/

/-- `n%10>=2`: seven characters, five tokens. -/
example : tokens b!"n%10 >=2" = some [.tok 27 [110], .tok 9 [37], .tok 28 [49, 48], .tok 14 [62, 61], .tok 28 [50]] := by
  decide +kernel

/-- A single `=` is not a token; the lexer also swallows the character behind. -/
example : tokens b!"n=1 " = some [.tok 27 [110], .bad] := by decide +kernel

/-- Letters outside of ASCII are not tokens. -/
example : tokens b!"n≠1" = some [.tok 27 [110], .bad, .tok 28 [49]] := by decide +kernel

example : Lexeme 14 [62, 61] := .inl ⟨b!">=", rfl, by decide, rfl⟩

end Verif.Antlr
