import Verif.Lemmas.AtnEval
/-! Property C70: `plurals.Eval` computed through the generated tables is `plurals.Eval` as modelled by hand. -/
namespace Verif.Antlr
open Verif

/-! ## Runes -/

/-- The runes of a text. -/
def rs (s : Str) : List Nat := runes s.length s

theorem runes_fuel : ∀ (f g : Nat) (s : Str), s.length ≤ f → s.length ≤ g → runes f s = runes g s := by
  intro f
  induction f with
  | zero =>
    intro g s hf _
    obtain rfl : s = [] := List.eq_nil_of_length_eq_zero (by omega)
    cases g <;> rfl
  | succ f ih =>
    intro g s hf hg
    cases s with
    | nil => cases g <;> rfl
    | cons c s =>
      cases g with
      | zero => simp at hg
      | succ g =>
        have hw := Utf8.decode_width (c :: s) (by simp)
        rw [runes, runes, ih g _ (by rw [List.length_drop]; omega) (by rw [List.length_drop]; omega)]

theorem rs_step {s : Str} (hs : s ≠ []) : rs s = (Utf8.decode s).1 :: rs (s.drop (Utf8.decode s).2) := by
  cases s with
  | nil => exact absurd rfl hs
  | cons c s =>
    have hw := Utf8.decode_width (c :: s) (by simp)
    unfold rs
    rw [List.length_cons, runes]
    rw [runes_fuel s.length _ _ (by rw [List.length_drop, List.length_cons]; omega) (Nat.le_refl _)]

theorem rs_low {c : UInt8} (hc : c.toNat < 128) (s : Str) : rs (c :: s) = c.toNat :: rs s := by
  have hd : Utf8.decode (c :: s) = (c.toNat, 1) := by
    rw [Utf8.decode.eq_def]
    dsimp only
    rw [if_pos (show c < 0x80 from by rw [UInt8.lt_iff_toNat_lt]; exact hc)]
  rw [rs_step (by simp), hd]; rfl

theorem rs_high {c : UInt8} (hc : 128 ≤ c.toNat) (s : Str) : ∃ x r, rs (c :: s) = x :: r ∧ 128 ≤ x := by
  refine ⟨_, _, rs_step (by simp), ?_⟩
  by_cases h : (Utf8.decode (c :: s)).2 = 1 ∧ (Utf8.decode (c :: s)).1 = Utf8.runeError
  · rw [h.2]; decide
  · obtain ⟨-, h2, -, h4, -⟩ := Utf8.encode_decode (c :: s) (by simp) h
    apply Nat.le_of_not_lt
    intro hlt
    obtain ⟨k, hk⟩ : ∃ k, (Utf8.decode (c :: s)).2 = k + 1 := ⟨(Utf8.decode (c :: s)).2 - 1, by omega⟩
    rw [hk, List.take_succ_cons, Utf8.encode, if_pos hlt] at h4
    have : c = UInt8.ofNat (Utf8.decode (c :: s)).1 := (List.cons.inj h4).1.symm
    have h5 : c.toNat = (Utf8.decode (c :: s)).1 := by
      conv => lhs; rw [this]
      exact Utf8.ofNat_toNat _ (by omega)
    omega

theorem rs_nil {s : Str} (h : rs s = []) : s = [] := by
  cases s with
  | nil => rfl
  | cons c s => rw [rs_step (by simp)] at h; cases h

/-- Characters of tokens take one byte. -/
theorem rs_append : ∀ (w : List Nat) {s : Str} {r : List Nat}, (∀ c ∈ w, c < 128) → rs s = w ++ r →
    ∃ s', s = w.map UInt8.ofNat ++ s' ∧ rs s' = r := by
  intro w
  induction w with
  | nil => intro s r _ h; exact ⟨s, rfl, h⟩
  | cons a w ih =>
    intro s r hw h
    cases s with
    | nil => cases h
    | cons c s =>
      by_cases hc : c.toNat < 128
      · rw [rs_low hc, List.cons_append] at h
        obtain ⟨h1, h2⟩ := List.cons.inj h
        obtain ⟨s', h3, hs'⟩ := ih (fun x hx => hw x (by simp [hx])) h2
        exact ⟨s', by rw [h3, ← h1, List.map_cons, UInt8.ofNat_toNat]; rfl, hs'⟩
      · obtain ⟨x, r', hr, hx⟩ := rs_high (c := c) (by omega) s
        rw [hr, List.cons_append] at h
        obtain ⟨rfl, -⟩ := List.cons.inj h
        exact absurd (hw x (by simp)) (by omega)

theorem rs_head {d : UInt8} {s : Str} (h : d ∈ s.head?) (hd : d.toNat < 128) : ∃ r, rs s = d.toNat :: r := by
  cases s with
  | nil => cases h
  | cons c s => cases h; exact ⟨_, rs_low hd s⟩

/-! ## Tokens -/

/-- The tokens up to the first error. -/
def cut : List Plural.Tok → List Plural.Tok
  | [] => []
  | t :: r => if t = .bad then [.bad] else t :: cut r

theorem low_lexeme {ty : Nat} {w : List Nat} (h : Lexeme ty w) : ∀ c ∈ w, c < 128 := by
  rcases h with ⟨s, hs, -, rfl⟩ | ⟨-, -, h⟩ | ⟨-, -, h⟩
  · have : ∀ s ∈ literals, ∀ c ∈ s.map UInt8.toNat, c < 128 := by decide
    exact this s (List.mem_of_getElem? hs)
  · intro c hc; have := h c hc; omega
  · intro c hc; have := h c hc; omega

theorem tok2_lexeme : ∀ c d : UInt8, Plural.tok2 c d ≠ none →
    c.toNat < 128 ∧ d.toNat < 128 ∧ ∃ ty, Lexeme ty [c.toNat, d.toNat] := by
  intro c d h
  have hm : [c, d] ∈ literals := by
    unfold Plural.tok2 at h
    split at h <;> first | decide | exact absurd rfl h
  obtain ⟨i, hi⟩ := List.getElem?_of_mem hm
  have hl : Lexeme (i + 1) [c.toNat, d.toNat] := .inl ⟨_, hi, by omega, rfl⟩
  have := low_lexeme hl
  exact ⟨this _ (by simp), this _ (by simp), _, hl⟩

theorem tok1_lexeme : ∀ c : UInt8, Plural.tok1 c ≠ .bad ∨ Num.isDigit c = true ∨ Plural.isWs c = true →
    c.toNat < 128 ∧ ∃ ty, Lexeme ty [c.toNat] := by
  intro c h
  have key : ∀ c : UInt8, Plural.tok1 c ≠ .bad → [c] ∈ literals := by
    intro c h
    unfold Plural.tok1 at h
    split at h <;> first | decide | exact absurd rfl h
  rcases h with h | h | h
  · obtain ⟨i, hi⟩ := List.getElem?_of_mem (key c h)
    have hl : Lexeme (i + 1) [c.toNat] := .inl ⟨_, hi, by omega, rfl⟩
    exact ⟨low_lexeme hl _ (by simp), _, hl⟩
  · have h' : 48 ≤ c.toNat ∧ c.toNat ≤ 57 := by
      simpa [Num.isDigit, UInt8.le_iff_toNat_le] using h
    exact ⟨by omega, 28, .inr (.inl ⟨rfl, by simp, by simpa using h'⟩)⟩
  · have h' : c = 32 ∨ c = 9 := by simpa [Plural.isWs] using h
    refine ⟨by rcases h' with rfl | rfl <;> decide, 29, .inr (.inr ⟨rfl, by simp, ?_⟩)⟩
    rcases h' with rfl | rfl <;> decide

/-- The literal tokens for the lexer of `Model/Plural.lean`. -/
def LitLex (s : Str) (t : Plural.Tok) : Prop :=
  (∃ c d, s = [c, d] ∧ Plural.tok2 c d = some t) ∨
  (∃ c, s = [c] ∧ Num.isDigit c = false ∧ Plural.isWs c = false ∧ Plural.tok1 c = t)

theorem litLex : ∀ i < 27, ∀ s ∈ literals[i]?, LitLex s ((litToks[i]?).getD .bad) := by
  have : ∀ i < 27, ∀ s ∈ literals[i]?,
      (match s with
        | [c, d] => Plural.tok2 c d == some ((litToks[i]?).getD .bad)
        | [c] => !Num.isDigit c && !Plural.isWs c && Plural.tok1 c == (litToks[i]?).getD .bad
        | _ => false) = true := by decide +kernel
  intro i hi s hs
  have h := this i hi s hs
  split at h
  · exact .inl ⟨_, _, rfl, by simpa using h⟩
  · rename_i c
    simp only [Bool.and_eq_true, Bool.not_eq_true', beq_iff_eq] at h
    exact .inr ⟨c, rfl, h.1.1, h.1.2, h.2⟩
  · cases h

theorem map_ofNat_toNat (s : Str) : (s.map UInt8.toNat).map UInt8.ofNat = s := by
  induction s with
  | nil => rfl
  | cons c s ih => rw [List.map_cons, List.map_cons, ih, UInt8.ofNat_toNat]

/-- The two lexers agree up to the first error. -/
theorem lexers_agree {inp : List Nat} {items : List Item} (h : Scans inp items) :
    ∀ s, rs s = inp → cut (items.map itemTok) = cut (Plural.lexGo [] s) := by
  induction h with
  | nil => intro s hs; rw [rs_nil hs]; rfl
  | @tok ty w r items hl hty _ ih =>
    intro s hs
    obtain ⟨s', rfl, hs'⟩ := rs_append w (low_lexeme hl.1) hs
    have key : Plural.lexGo [] (w.map UInt8.ofNat ++ s') = itemTok (.tok ty w) :: Plural.lexGo [] s' := by
      rcases hl.1 with ⟨l, hi, h0, hw⟩ | ⟨h28, hne, hd⟩ | ⟨h29, -⟩
      · have hlt : ty - 1 < 27 := (List.getElem?_eq_some_iff.1 hi).1
        rw [itemTok_lit (by omega)]
        subst hw
        rw [map_ofNat_toNat]
        rcases litLex (ty - 1) hlt l hi with ⟨c, d, rfl, ht⟩ | ⟨c, rfl, h1, h2, ht⟩
        · exact Plural.lexGo_two ht s'
        · rw [List.singleton_append, Plural.lexGo_one s' h1 h2 ?_, ht]
          intro d hd
          by_contra hne
          obtain ⟨-, hd2, ty', hl'⟩ := tok2_lexeme c d hne
          obtain ⟨r', hr'⟩ := rs_head hd hd2
          have := hl.2.2 ty' _ hl' ⟨r', by rw [← hs', hr']; rfl⟩
          simp at this
      · subst h28
        refine Plural.lexGo_int (by simpa using hne) ?_ ?_
        · rw [List.all_eq_true]
          intro x hx
          obtain ⟨c, hc, rfl⟩ := List.mem_map.1 hx
          have := hd c hc
          simp only [Num.isDigit, Bool.and_eq_true, decide_eq_true_eq, UInt8.le_iff_toNat_le]
          rw [Utf8.ofNat_toNat _ (by omega)]
          exact this
        · intro c hc
          by_contra hne'
          have hdig : 48 ≤ c.toNat ∧ c.toNat ≤ 57 := by
            simpa [Num.isDigit, UInt8.le_iff_toNat_le] using hne'
          obtain ⟨r', hr'⟩ := rs_head hc (by omega)
          have := hl.2.2 28 (w ++ [c.toNat]) (.inr (.inl ⟨rfl, by simp, by
            intro x hx
            rcases List.mem_append.1 hx with hx | hx
            · exact hd x hx
            · rw [List.mem_singleton.1 hx]; exact hdig⟩)) ⟨r', by rw [← hs', hr', List.append_assoc]; rfl⟩
          simp at this
      · exact absurd h29 hty
    rw [key, List.map_cons, cut, cut, ih s' hs']
  | @skip w r items hl _ ih =>
    intro s hs
    obtain ⟨s', rfl, hs'⟩ := rs_append w (low_lexeme hl.1) hs
    have hw : Plural.IsSep (w.map UInt8.ofNat) := by
      rcases hl.1 with ⟨l, hi, -⟩ | ⟨h28, -⟩ | ⟨-, -, hd⟩
      · have := (List.getElem?_eq_some_iff.1 hi).1
        exact absurd this (by decide)
      · cases h28
      · intro x hx
        obtain ⟨c, hc, rfl⟩ := List.mem_map.1 hx
        rcases hd c hc with rfl | rfl
        · exact .inl rfl
        · exact .inr rfl
    rw [Plural.lexGo_ws hw, ih s' hs']
  | @bad inp items hne hno =>
    intro s hs
    cases s with
    | nil => exact absurd hs.symm hne
    | cons c s =>
      have h1 : ∀ ty, Lexeme ty [c.toNat] → c.toNat < 128 → False := fun ty hl hc =>
        hno ty _ hl ⟨rs s, by rw [← hs, rs_low hc]; rfl⟩
      have hbad : Plural.tok1 c = .bad ∧ Num.isDigit c = false ∧ Plural.isWs c = false := by
        refine ⟨?_, ?_, ?_⟩
        · by_contra hx; obtain ⟨hc, ty, hl⟩ := tok1_lexeme c (.inl hx); exact h1 ty hl hc
        · by_contra hx; obtain ⟨hc, ty, hl⟩ := tok1_lexeme c (.inr (.inl (by simpa using hx))); exact h1 ty hl hc
        · by_contra hx; obtain ⟨hc, ty, hl⟩ := tok1_lexeme c (.inr (.inr (by simpa using hx))); exact h1 ty hl hc
      rw [Plural.lexGo_one s hbad.2.1 hbad.2.2 ?_, hbad.1, List.map_cons]
      · rfl
      · intro d hd
        by_contra hx
        obtain ⟨hc, hd2, ty, hl⟩ := tok2_lexeme c d hx
        obtain ⟨r', hr'⟩ := rs_head hd hd2
        exact hno ty _ hl ⟨r', by rw [← hs, rs_low hc, hr']; rfl⟩

theorem lexTokens_good : ∀ (f : Nat) (inp : List Nat) (items : List Item), lexTokens lexAtn f inp = some items →
    ∀ i ∈ items, Good i := by
  intro f
  induction f with
  | zero =>
    intro inp items h
    cases inp with
    | nil => cases h; simp
    | cons c cs => cases h
  | succ f ih =>
    intro inp items h
    cases inp with
    | nil => cases h; simp
    | cons c cs =>
      obtain ⟨r, pos, hm, h1, -⟩ := lexMatch_spec (c :: cs)
      rw [lexTokens, hm] at h
      cases r with
      | none =>
        dsimp only at h
        obtain ⟨is, his, rfl⟩ := Option.map_eq_some_iff.1 h
        intro i hi
        rcases List.mem_cons.1 hi with rfl | hi
        · trivial
        · exact ih _ _ his i hi
      | some a =>
        obtain ⟨-, -, hl, ha⟩ := h1 a rfl
        dsimp only at h
        by_cases h6 : 6 ∈ a.acts
        · rw [if_pos h6] at h; exact ih _ _ h
        · rw [if_neg h6] at h
          obtain ⟨is, his, rfl⟩ := Option.map_eq_some_iff.1 h
          intro i hi
          rcases List.mem_cons.1 hi with rfl | hi
          · exact ⟨hl.1, fun h29 => h6 (ha.2 h29)⟩
          · exact ih _ _ his i hi

/-! ## Trees -/

theorem toks_not_bad (t : Plural.Exp) : Plural.Tok.bad ∉ Plural.toks t := by
  induction t with
  | n => simp [Plural.toks]
  | int ds => simp [Plural.toks]
  | paren e ih => simp [Plural.toks, ih]
  | post o e ih => cases o <;> simp [Plural.toks, ih, Plural.Post.tok]
  | pre o e ih => cases o <;> simp [Plural.toks, ih, Plural.Pre.tok]
  | bin o l r ihl ihr => simp [Plural.toks, ihl, ihr]
  | tern c a b ihc iha ihb => simp [Plural.toks, ihc, iha, ihb]

theorem cut_append {a r : List Plural.Tok} (ha : Plural.Tok.bad ∉ a) : cut (a ++ r) = a ++ cut r := by
  induction a with
  | nil => rfl
  | cons t a ih =>
    rw [List.cons_append, cut, if_neg (fun h => ha (by simp [h])), ih (fun h => ha (by simp [h]))]
    rfl

theorem cut_split {a : List Plural.Tok} (ha : Plural.Tok.bad ∉ a) : ∀ {ts x : List Plural.Tok}, cut ts = a ++ x →
    ∃ r, ts = a ++ r ∧ cut r = x := by
  induction a with
  | nil => intro ts x h; exact ⟨ts, rfl, h⟩
  | cons t a ih =>
    intro ts x h
    cases ts with
    | nil => cases h
    | cons u ts =>
      rw [cut] at h
      by_cases hu : u = .bad
      · rw [if_pos hu, List.cons_append] at h
        exact absurd (List.cons.inj h).1 (fun h => ha (by simp [h]))
      · rw [if_neg hu, List.cons_append] at h
        obtain ⟨h1, h2⟩ := List.cons.inj h
        obtain ⟨r, h3, hr⟩ := ih (fun h => ha (by simp [h])) h2
        exact ⟨r, by rw [h1, h3]; rfl, hr⟩

theorem cut_head (r : List Plural.Tok) : (cut r).head? = r.head? := by
  cases r with
  | nil => rfl
  | cons t r =>
    rw [cut]
    by_cases h : t = .bad
    · rw [if_pos h, h]; rfl
    · rw [if_neg h]; rfl

theorem parse_cut {T : Plural.Table} {ts ts' r : List Plural.Tok} {t : Plural.Exp} (h : cut ts = cut ts')
    (hp : Plural.parse T ts = some (t, r)) : ∃ r', Plural.parse T ts' = some (t, r') := by
  obtain ⟨rfl, hw, he⟩ := (Plural.parse_iff _ _ _).1 hp
  rw [cut_append (toks_not_bad t)] at h
  obtain ⟨r', rfl, hr⟩ := cut_split (toks_not_bad t) h.symm
  refine ⟨r', (Plural.parse_iff _ _ _).2 ⟨rfl, hw, ?_⟩⟩
  unfold Plural.Ends
  rw [← cut_head, hr, cut_head]
  exact he

/-- What follows the first error does not matter to the parser. -/
theorem parse_cut_eq {T : Plural.Table} {ts ts' : List Plural.Tok} (h : cut ts = cut ts') :
    (Plural.parse T ts).map Prod.fst = (Plural.parse T ts').map Prod.fst := by
  cases h1 : Plural.parse T ts with
  | some x =>
    obtain ⟨r', h2⟩ := parse_cut h (t := x.1) (r := x.2) h1
    rw [h2]; rfl
  | none =>
    cases h2 : Plural.parse T ts' with
    | none => rfl
    | some x =>
      obtain ⟨r', h3⟩ := parse_cut h.symm (t := x.1) (r := x.2) h2
      rw [h1] at h3; cases h3

theorem gParse_eq (ts : List Item) : gParse ts = gExp parAtn (2 * ts.length + 3) 0 ts := by
  unfold gParse; rw [parser_deserialize]

attribute [local irreducible] parAtn lexAtn

/-- **C70** The tree found through the tables is the tree found by the parser written by hand. -/
theorem C70_tree (exp : Str) :
    ((tokens exp).bind gParse).map Prod.fst = (Plural.parse Plural.goTable (Plural.lex exp)).map Prod.fst := by
  obtain ⟨items, hi, hsc⟩ := C68_tokens exp
  have hg : ∀ i ∈ items, Good i := by
    unfold tokens at hi
    rw [lexer_deserialize] at hi
    exact lexTokens_good _ _ _ hi
  rw [hi, Option.bind_some, gParse_eq]
  obtain ⟨h1, -⟩ := (parsers_agree (2 * items.length + 3)).1 0 items hg
  have hl : cut (items.map itemTok) = cut (Plural.lex exp) := lexers_agree hsc exp rfl
  rw [← parse_cut_eq (T := Plural.goTable) hl, Plural.parse, List.length_map, h1]
  cases gExp parAtn (2 * items.length + 3) 0 items with
  | none => rfl
  | some x => rfl

/-- **C70** `Eval` through the generated tables is `Eval` without further diagnostics. -/
theorem C70_eval (exp : Str) (n : Int64) : eval exp n = Plural.eval (fun _ => false) exp n := by
  have h := C70_tree exp
  have hb : evalBody exp n = Plural.evalBody (fun _ => false) exp n := by
    unfold evalBody Plural.evalBody
    cases Plural.commonsGet (GoStr.removeByte 32 exp) with
    | some f => rfl
    | none =>
      dsimp only
      unfold evalTables Plural.evalGeneral
      cases h1 : (tokens exp).bind gParse with
      | none =>
        rw [h1] at h
        cases h2 : Plural.parse Plural.goTable (Plural.lex exp) with
        | none => rfl
        | some x => rw [h2] at h; cases h
      | some x =>
        rw [h1] at h
        cases h2 : Plural.parse Plural.goTable (Plural.lex exp) with
        | none => rw [h2] at h; cases h
        | some y =>
          rw [h2] at h
          obtain ⟨t, r⟩ := x
          obtain ⟨u, r'⟩ := y
          cases h
          rfl
  unfold eval Plural.eval
  rw [hb]
  cases Plural.evalBody (fun _ => false) exp n <;> rfl

/-- **C70** Off the built-in table, `Eval` through the generated tables returns `v` exactly when the leading
expression has the value `v`: nothing is left open about diagnostics. -/
theorem C70_value (exp : Str) (n v : Int64) (hc : ∀ p ∈ Plural.commons, p.1 ≠ GoStr.removeByte 32 exp) :
    eval exp n = .ok v ↔ ∃ t r, Plural.lex exp = Plural.toks t ++ r ∧ Plural.Wf Plural.g4Table 0 t ∧ Plural.Ends r ∧
      Plural.den n t = some v := by
  rw [C70_eval, Plural.C01_eval_iff _ exp n v hc]
  exact ⟨fun h => h.2, fun h => ⟨rfl, h⟩⟩

/-- **C70** Each built-in function computes what the generated lexer, parser and the listener compute from the
text it stands for. -/
theorem C70_builtin : ∀ p ∈ Plural.commons, ∀ n : Int64, evalTables p.1 n = .ok (p.2 n) := by
  intro p hp n
  have h := Plural.C02_builtin_eq_general p hp (fun _ => false) n rfl
  rw [← h]
  have ht := C70_tree p.1
  unfold evalTables Plural.evalGeneral
  cases h1 : (tokens p.1).bind gParse with
  | none =>
    rw [h1] at ht
    cases h2 : Plural.parse Plural.goTable (Plural.lex p.1) with
    | none => rfl
    | some x => rw [h2] at ht; cases ht
  | some x =>
    rw [h1] at ht
    cases h2 : Plural.parse Plural.goTable (Plural.lex p.1) with
    | none => rw [h2] at ht; cases ht
    | some y =>
      rw [h2] at ht
      obtain ⟨t, r⟩ := x
      obtain ⟨u, r'⟩ := y
      cases ht
      rfl

/-! ## Examples -/

/-- A value, found through the tables alone. -/
example : evalTables b!"n%10 == 1 ? 0 : n>4 || (n- 2)" 21 = .ok 0 := by decide +kernel

example : evalTables b!"2 + 3 * n" 4 = .ok 14 := by decide +kernel

/-- An error of the lexer behind the expression is seen if it is the next character … -/
example : evalTables b!"n $" 4 = .err := by decide +kernel

/-- … and not otherwise. -/
example : evalTables b!"n 1 $" 4 = .ok 4 := by decide +kernel

/-- A character of three bytes is one error. -/
example : tokens [110, 0xE2, 0x82, 0xAC] = some [.tok 27 [110], .bad] := by decide +kernel

example : ∀ p ∈ Plural.commons, p.1 ≠ GoStr.removeByte 32 b!"2 + 3 * n" := by decide +kernel

end Verif.Antlr
