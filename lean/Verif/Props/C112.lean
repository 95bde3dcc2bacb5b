import Verif.Lemmas.AtnFirst
import Verif.Props.C111
/-!
# C112 The first thing ANTLR reports about a malformed plural expression

It is about the first place at which the text cannot go on: characters that are not part of a token, or a token (or the end) with which no
expression goes on that begins with the tokens in front of it.  The message says what could come there.
-/
namespace Verif.Antlr
open Verif

/-! ## The items -/

theorem single_lexeme : ∀ c ∈ firsts, c ≠ 61 → ∃ ty, Lexeme ty [c] := by
  have : ∀ c ∈ firsts, c ≠ 61 → (lexType [c]).isSome = true := by decide +kernel
  intro c hc h
  obtain ⟨ty, ht⟩ := Option.isSome_iff_exists.1 (this c hc h)
  exact ⟨ty, (lexType_iff _ _).1 ht⟩

theorem lexeme_head {ty c : Nat} {v : List Nat} (h : Lexeme ty (c :: v)) : c ∈ firsts ∨ (48 ≤ c ∧ c ≤ 57) ∨ (c = 32 ∨ c = 9) := by
  rcases h with ⟨s, hs, -, he⟩ | ⟨-, -, h⟩ | ⟨-, -, h⟩
  · exact .inl ((literals_shape s (List.mem_of_getElem? hs)).2.2.2 c (by rw [← he]; rfl))
  · exact .inr (.inl (h c List.mem_cons_self))
  · exact .inr (.inr (h c List.mem_cons_self))

theorem lexeme_equals {ty : Nat} {v : List Nat} (h : Lexeme ty (61 :: v)) : v = [61] := by
  rcases h with ⟨s, hs, -, he⟩ | ⟨-, -, h⟩ | ⟨-, -, h⟩
  · have key : ∀ s ∈ literals, (s.map UInt8.toNat).head? = some 61 → s.map UInt8.toNat = [61, 61] := by decide +kernel
    have := key s (List.mem_of_getElem? hs) (by rw [← he]; rfl)
    rw [this] at he
    simpa using he
  · have := h 61 List.mem_cons_self; omega
  · have := h 61 List.mem_cons_self; omega

theorem equals_lexeme : Lexeme 16 [61, 61] := .inl ⟨b!"==", rfl, by decide, by decide⟩

theorem two_equals (d : Nat) (h : d ≠ 61) : two 61 d = [] := by
  by_cases hd : d < 127
  · have : ∀ d < 127, d ≠ 61 → two 61 d = [] := by decide +kernel
    exact this d hd h
  · unfold two
    rw [low_reach (low_one 61 (by decide)) (by omega)]
    rfl

theorem plain_prefix {a b c : List Nat} {x : Nat} (h : x :: a <+: b) (hb : b = x :: c) : a <+: c := by
  subst hb
  exact (List.cons_prefix_cons.1 h).2

/-- Where the lexer stops if there is no token. -/
theorem lexMatch_fail {c : Nat} {cs : List Nat} {pos : Nat} (h : lexMatch lexAtn (c :: cs) = some (none, pos)) :
    Begins ((c :: cs).take (pos + 1)).dropLast ∧ (Begins ((c :: cs).take (pos + 1)) → (c :: cs).drop (pos + 1) = []) := by
  obtain ⟨r, p, h', -, hn⟩ := lexMatch_spec (c :: cs)
  rw [h] at h'
  simp only [Option.some.injEq, Prod.mk.injEq] at h'
  obtain ⟨rfl, rfl⟩ := h'
  have hno := hn rfl
  have hempty : Begins [] := ⟨16, [61, 61], equals_lexeme, List.nil_prefix⟩
  have h0 : capture lexAtn lex0 0 none = none := by decide +kernel
  rw [lexMatch, lexStart_eq] at h
  dsimp only at h
  rw [h0, lexRun, reach_one] at h
  have hdig : ¬(48 ≤ c ∧ c ≤ 57) := by
    intro hd
    refine hno 28 [c] (.inr (.inl ⟨rfl, by simp, by simpa using hd⟩)) ?_
    simp
  have hws : ¬(c = 32 ∨ c = 9) := by
    intro hd
    refine hno 29 [c] (.inr (.inr ⟨rfl, by simp, by simpa using hd⟩)) ?_
    simp
  by_cases hf : c ∈ firsts
  · have hc : c = 61 := by
      by_contra hc
      obtain ⟨ty, ht⟩ := single_lexeme c hf hc
      exact hno ty [c] ht (by simp)
    subst hc
    have hne : ∃ x xs, one 61 = x :: xs := by
      have : (one 61).isEmpty = false := by decide +kernel
      cases ho : one 61 with
      | nil => rw [ho] at this; cases this
      | cons x xs => exact ⟨x, xs, rfl⟩
    obtain ⟨x, xs, ho⟩ := hne
    have hcap : capture lexAtn (x :: xs) 1 none = none := by rw [← ho]; decide +kernel
    rw [ho] at h
    dsimp only at h
    rw [hcap] at h
    cases cs with
    | nil =>
      cases h
      exact ⟨hempty, fun _ => rfl⟩
    | cons d ds =>
      have hd : d ≠ 61 := by
        rintro rfl
        exact hno 16 [61, 61] equals_lexeme (by simp)
      rw [lexRun, ← ho, (reach_two 61 (by decide) d).1, two_equals d hd] at h
      cases h
      refine ⟨⟨16, [61, 61], equals_lexeme, by simp⟩, ?_⟩
      rintro ⟨ty, v, hv, hp⟩
      cases v with
      | nil => simp at hp
      | cons y v =>
        have hy : (61 : Nat) = y := (List.cons_prefix_cons.1 hp).1
        subst hy
        rw [lexeme_equals hv] at hp
        simp at hp
        exact absurd hp hd
  · rw [one_other c hf hdig hws] at h
    cases h
    refine ⟨hempty, ?_⟩
    rintro ⟨ty, v, hv, hp⟩
    cases v with
    | nil => simp at hp
    | cons y v =>
      have hy : c = y := (List.cons_prefix_cons.1 hp).1
      subst hy
      rcases lexeme_head hv with h | h | h
      · exact absurd h hf
      · exact absurd h hdig
      · exact absurd h hws

theorem lexElems_stream : ∀ (f : Nat) (before inp : List Nat) (es : List Elem), lexElems lexAtn f before inp = some es →
    Stream before inp es := by
  intro f
  induction f with
  | zero =>
    intro before inp es h
    cases inp with
    | nil => cases h; exact .nil
    | cons => cases h
  | succ f ih =>
    intro before inp es h
    cases inp with
    | nil => cases h; exact .nil
    | cons c cs =>
      obtain ⟨r, pos, hm, hs, hn⟩ := lexMatch_spec (c :: cs)
      rw [lexElems, hm] at h
      have hsplit : ∀ k, (c :: cs).take k ++ (c :: cs).drop k = c :: cs := fun k => List.take_append_drop k _
      cases r with
      | none =>
        dsimp only at h
        obtain ⟨es', h', rfl⟩ := Option.map_eq_some_iff.1 h
        obtain ⟨b1, b2⟩ := lexMatch_fail hm
        have := Stream.bad (before := before) (w := (c :: cs).take (pos + 1)) (r := (c :: cs).drop (pos + 1)) (by simp)
          (by rw [hsplit]; exact hn rfl) b1 b2 (ih _ _ _ h')
        rw [hsplit] at this
        rw [position_eq]
        exact this
      | some a =>
        dsimp only at h
        obtain ⟨-, -, l3, l4⟩ := hs a rfl
        by_cases h6 : 6 ∈ a.acts
        · rw [if_pos h6] at h
          have := Stream.skip (before := before) (w := (c :: cs).take a.len) (r := (c :: cs).drop a.len)
            (by rw [hsplit, ← l4.1 h6]; exact l3) (ih _ _ _ h)
          rwa [hsplit] at this
        · rw [if_neg h6] at h
          obtain ⟨es', h', rfl⟩ := Option.map_eq_some_iff.1 h
          have := Stream.tok (before := before) (type := a.type) (w := (c :: cs).take a.len) (r := (c :: cs).drop a.len)
            (by rw [hsplit]; exact l3) (fun hx => h6 (l4.2 hx)) (ih _ _ _ h')
          rw [hsplit] at this
          rw [position_eq]
          exact this

/-! ## The first report -/

theorem rParse_first (eof : Nat × Nat) (es : List Elem) (hg : ∀ e ∈ es, Good (erase e)) {t : Tree} {σ : Rec}
    (h : rParse parAtn eof es = some (t, σ)) (hr : σ.reports ≠ []) : First eof [] es σ.reports := by
  have hok := fetch_init_ok eof hg
  have hlen : (Rec.init eof es).fetch.rest.length ≤ es.length := (settle_suffix es).length_le
  obtain ⟨t', σ', h', hs, hf⟩ := (at_all (2 * es.length + 3)).1 0 [6] _ hok (by omega)
  unfold rParse at h
  rw [h'] at h
  cases h
  by_cases hb : (settle es).1 = []
  · have e1 : (Rec.init eof es).fetch.rest = es := settle_none hb
    have e2 : (Rec.init eof es).fetch.reports = [] := by
      show [] ++ (settle es).1 = []
      rw [hb]; rfl
    have hgrew : Grew (Rec.init eof es).fetch σ := by
      unfold Grew
      rw [e2]
      exact List.length_pos_iff.2 hr
    obtain ⟨new, n1, n2⟩ := (first_all (2 * es.length + 3)).1 0 [6] [] _ _ _ (by simp [callStates]) hok (by omega) rfl
      Plural.here_start h' hgrew
    rw [e2, List.nil_append] at n1
    rw [e1] at n2
    rw [n1]
    exact n2
  · refine ⟨[], es, rfl, ?_, .inl ?_⟩
    · exact here_viable Plural.here_start
    · cases es with
      | nil => exact absurd rfl hb
      | cons x r =>
        cases x with
        | tok => exact absurd rfl hb
        | bad l c w =>
          refine ⟨l, c, w, r, rfl, ?_⟩
          refine List.IsPrefix.trans ?_ hs.rep
          exact ⟨(settle r).1, rfl⟩

/-- **C112** The first report about a malformed text is about the first place at which the text cannot go on, and says what is wanted. -/
theorem C112_first (exp : Str) (hm : Plural.Malformed exp) : ∃ es t reports, Stream [] (runes exp.length exp) es ∧
    parseText exp = some (t, reports) ∧
    First (lineOf (runes exp.length exp), columnOf (runes exp.length exp)) [] es reports := by
  obtain ⟨es, he, ht, hg, hp⟩ := elems_of exp
  obtain ⟨t, σ, h, hs, hc⟩ := rParse_spec (position (rs exp)) es hg
  obtain ⟨t', reports, h1, h2, -⟩ := C111_reported exp
  have hpt : parseText exp = some (t, σ.reports) := by
    rw [parseText_eq, he, Option.bind_some, h]
    rfl
  rw [hpt] at h1
  cases h1
  refine ⟨es, t, σ.reports, lexElems_stream _ _ _ _ he, hpt, ?_⟩
  have := rParse_first _ es hg h (h2.2 hm)
  rwa [position_eq] at this

/-! ## The specification leaves no choice -/

theorem lexeme_type {ty ty' : Nat} {w : List Nat} (h : Lexeme ty w) (h' : Lexeme ty' w) : ty = ty' := by
  have := (lexType_iff _ _).2 h
  rw [(lexType_iff _ _).2 h'] at this
  exact (Option.some.inj this).symm

theorem prefix_split {w r w' r' : List Nat} (h : w ++ r = w' ++ r') (hl : w.length = w'.length) : w = w' ∧ r = r' :=
  List.append_inj h hl

theorem longest_split {ty ty' : Nat} {w r w' r' : List Nat} (he : w ++ r = w' ++ r') (h : Longest ty w (w ++ r))
    (h' : Longest ty' w' (w' ++ r')) : ty = ty' ∧ w = w' ∧ r = r' := by
  have l1 := h.2.2 _ _ h'.1 (by rw [he]; exact h'.2.1)
  have l2 := h'.2.2 _ _ h.1 (by rw [← he]; exact h.2.1)
  obtain ⟨rfl, rfl⟩ := prefix_split he (Nat.le_antisymm l2 l1)
  exact ⟨lexeme_type h.1 h'.1, rfl, rfl⟩

theorem lexeme_ne {ty : Nat} {w : List Nat} (h : Lexeme ty w) : w ≠ [] := by
  rintro rfl
  have := (lexType_iff _ _).2 h
  have h0 : lexType [] = none := by decide +kernel
  rw [h0] at this
  cases this

/-- The end of an error of the lexer is where it has to be. -/
theorem bad_split {w r w' r' : List Nat} (he : w ++ r = w' ++ r') (h2 : Begins w → r = []) (h1 : Begins w'.dropLast) :
    w'.length ≤ w.length := by
  by_contra hlt
  have hlt : w.length < w'.length := by omega
  have hp : w <+: w'.dropLast := by
    refine List.prefix_of_prefix_length_le (l₃ := w ++ r) (List.prefix_append _ _) ?_ (by simp; omega)
    rw [he]
    exact (List.dropLast_prefix w').trans (List.prefix_append _ _)
  obtain ⟨ty, v, hv, hv'⟩ := h1
  have hr := h2 ⟨ty, v, hv, hp.trans hv'⟩
  have := congrArg List.length he
  rw [hr] at this
  simp at this
  omega

theorem stream_unique : ∀ {before inp es}, Stream before inp es → ∀ es', Stream before inp es' → es' = es := by
  intro before inp es h
  induction h with
  | nil =>
    intro es' h'
    generalize hi : ([] : List Nat) = inp at h'
    cases h' with
    | nil => rfl
    | tok hl => exact absurd (List.append_eq_nil_iff.1 hi.symm).1 (lexeme_ne hl.1)
    | skip hl => exact absurd (List.append_eq_nil_iff.1 hi.symm).1 (lexeme_ne hl.1)
    | bad hw => exact absurd (List.append_eq_nil_iff.1 hi.symm).1 hw
  | @tok before ty w r es hl ht hs ih =>
    intro es' h'
    generalize hi : w ++ r = inp at h'
    cases h' with
    | nil => exact absurd (List.append_eq_nil_iff.1 hi).1 (lexeme_ne hl.1)
    | tok hl' ht' hs' =>
      obtain ⟨rfl, rfl, rfl⟩ := longest_split hi hl hl'
      rw [ih _ hs']
    | skip hl' hs' =>
      obtain ⟨rfl, rfl, rfl⟩ := longest_split hi hl hl'
      exact absurd rfl ht
    | bad hw hn =>
      exact absurd (by rw [← hi]; exact hl.2.1) (hn _ _ hl.1)
  | @skip before w r es hl hs ih =>
    intro es' h'
    generalize hi : w ++ r = inp at h'
    cases h' with
    | nil => exact absurd (List.append_eq_nil_iff.1 hi).1 (lexeme_ne hl.1)
    | tok hl' ht' hs' =>
      obtain ⟨rfl, rfl, rfl⟩ := longest_split hi hl hl'
      exact absurd rfl ht'
    | skip hl' hs' =>
      obtain ⟨-, rfl, rfl⟩ := longest_split hi hl hl'
      exact ih _ hs'
    | bad hw hn =>
      exact absurd (by rw [← hi]; exact hl.2.1) (hn _ _ hl.1)
  | @bad before w r es hw hn h1 h2 hs ih =>
    intro es' h'
    generalize hi : w ++ r = inp at h'
    cases h' with
    | nil => exact absurd (List.append_eq_nil_iff.1 hi).1 hw
    | tok hl' => exact absurd (by rw [hi]; exact hl'.2.1) (hn _ _ hl'.1)
    | skip hl' => exact absurd (by rw [hi]; exact hl'.2.1) (hn _ _ hl'.1)
    | bad hw' hn' h1' h2' hs' =>
      obtain ⟨rfl, rfl⟩ := prefix_split hi (Nat.le_antisymm (bad_split hi.symm h2' h1) (bad_split hi h2 h1'))
      rw [ih _ hs']

theorem says_unique {pre : List Plural.Tok} {x y : Option Plural.Tok} {d m m' : Str} (h : Plural.Says pre x y d m)
    (h' : Plural.Says pre x y d m') : m = m' := by
  obtain ⟨w, hw, h⟩ := h
  obtain ⟨w', hw', h'⟩ := h'
  have : w = w' := (hw' w).1 ((hw w).2 rfl)
  subst this
  rcases h with ⟨a, rfl⟩ | ⟨a, b, rfl⟩ | ⟨a, b, rfl⟩ <;> rcases h' with ⟨a', rfl⟩ | ⟨a', b', rfl⟩ | ⟨a', b', rfl⟩ <;>
    first | rfl | exact absurd a' a | exact absurd a a' | exact absurd b' b | exact absurd b b'

theorem toks_bad (t : Plural.Exp) : Plural.Tok.bad ∉ Plural.toks t := by
  induction t with
  | post o e ih => cases o <;> simp_all [Plural.toks, Plural.Post.tok]
  | pre o e ih => cases o <;> simp_all [Plural.toks, Plural.Pre.tok]
  | _ => simp_all [Plural.toks]

theorem viable_left {a b : List Plural.Tok} (h : Plural.Viable (a ++ b)) : Plural.Viable a := by
  obtain ⟨more, h⟩ := h
  exact ⟨b ++ more, by rwa [List.append_assoc] at h⟩

theorem viable_bad {ts : List Plural.Tok} (h : Plural.Viable ts) : Plural.Tok.bad ∉ ts := by
  obtain ⟨more, t, h, -⟩ := h
  intro hb
  exact toks_bad t (by rw [h]; exact List.mem_append_left _ hb)

theorem bads_unique {bads bads' next next' : List Elem} (he : bads ++ next = bads' ++ next') (h1 : ∀ b ∈ bads, b.isBad = true)
    (h1' : ∀ b ∈ bads', b.isBad = true) (h2 : Clear next) (h2' : Clear next') : bads = bads' ∧ next = next' := by
  induction bads generalizing bads' with
  | nil =>
    cases bads' with
    | nil => exact ⟨rfl, he⟩
    | cons b bs =>
      have : next = b :: (bs ++ next') := he
      have := h2 b (by rw [this]; rfl)
      rw [h1' b List.mem_cons_self] at this
      cases this
  | cons b bs ih =>
    cases bads' with
    | nil =>
      have : next' = b :: (bs ++ next) := he.symm
      have := h2' b (by rw [this]; rfl)
      rw [h1 b List.mem_cons_self] at this
      cases this
    | cons b' bs' =>
      obtain ⟨rfl, he'⟩ := List.cons.inj he
      obtain ⟨rfl, rfl⟩ := ih he' (fun x hx => h1 x (List.mem_cons_of_mem _ hx)) fun x hx => h1' x (List.mem_cons_of_mem _ hx)
      exact ⟨rfl, rfl⟩

/-- What follows the longest beginning cannot be part of a longer one. -/
theorem first_split {pre : List Plural.Tok} {ds rem ds' rem' : List Elem} (he : ds ++ rem = ds' ++ rem')
    (hv : Plural.Viable (pre ++ ds'.map Elem.token))
    (h : (∃ l c w r, rem = .bad l c w :: r) ∨ (∀ x ∈ rem.head?, ¬Plural.Viable (pre ++ ds.map Elem.token ++ [x.token]))) :
    ds'.length ≤ ds.length := by
  by_contra hlt
  have hp : ds <+: ds' := List.prefix_of_prefix_length_le (l₃ := ds ++ rem) (List.prefix_append _ _)
    (by rw [he]; exact List.prefix_append _ _) (by omega)
  obtain ⟨k, rfl⟩ := hp
  cases k with
  | nil => simp at hlt
  | cons x k =>
    rw [List.append_assoc] at he
    have hr : rem = x :: (k ++ rem') := List.append_cancel_left he
    have hv2 : Plural.Viable (pre ++ ds.map Elem.token ++ [x.token]) := by
      refine viable_left (b := k.map Elem.token) ?_
      simpa using hv
    rcases h with ⟨l, c, w, r, h⟩ | h
    · rw [hr] at h
      cases h
      exact viable_bad hv2 (by simp [Elem.token])
    · exact h x (by rw [hr]; rfl) hv2

theorem prefix_first {x : Plural.Report} {r : List Plural.Report} (h : [x] <+: r) : r.head? = some x := by
  obtain ⟨t, rfl⟩ := h
  rfl

theorem prefix_heads {a r r' : List Plural.Report} (ha : a ≠ []) (h : a <+: r) (h' : a <+: r') : r.head? = r'.head? := by
  cases a with
  | nil => exact absurd rfl ha
  | cons x a =>
    obtain ⟨t, rfl⟩ := h
    obtain ⟨t', rfl⟩ := h'
    rfl

/-- **C112** The description leaves no choice: the text has one sequence of items, and they have one first report. -/
theorem C112_unique (before inp : List Nat) (es es' : List Elem) (eof : Nat × Nat) (reports reports' : List Plural.Report)
    (hs : Stream before inp es) (hs' : Stream before inp es') (h : First eof [] es reports) (h' : First eof [] es' reports') :
    es' = es ∧ reports.head? = reports'.head? ∧ reports ≠ [] := by
  have := stream_unique hs _ hs'
  subst this
  refine ⟨rfl, ?_⟩
  obtain ⟨ds, rem, e1, v1, c1⟩ := h
  obtain ⟨ds', rem', e2, v2, c2⟩ := h'
  have he : ds ++ rem = ds' ++ rem' := e1.symm.trans e2
  have hl := Nat.le_antisymm
    (first_split he.symm v1 (c2.imp (fun ⟨l, c, w, r, h, _⟩ => ⟨l, c, w, r, h⟩) fun h => h.2.2.1))
    (first_split he v2 (c1.imp (fun ⟨l, c, w, r, h, _⟩ => ⟨l, c, w, r, h⟩) fun h => h.2.2.1))
  obtain ⟨rfl, rfl⟩ := List.append_inj he hl
  have hne : ∀ {a : List Plural.Report}, a ≠ [] → a <+: reports → reports ≠ [] := by
    rintro a ha h rfl
    exact ha (List.prefix_nil.1 h)
  rcases c1 with ⟨l, c, w, r, rfl, h1⟩ | ⟨k1, -, -, b, nx, m, d1, d2, d3, d4, d5⟩
  · rcases c2 with ⟨l', c', w', r', h2, h3⟩ | ⟨k1, -⟩
    · cases h2
      exact ⟨prefix_heads (by simp [Elem.complaint]) h1 h3, hne (by simp [Elem.complaint]) h1⟩
    · have := k1 _ rfl
      cases this
  · rcases c2 with ⟨l', c', w', r', rfl, h3⟩ | ⟨-, -, -, b', nx', m', d1', d2', d3', d4', d5'⟩
    · have := k1 _ rfl
      cases this
    · obtain ⟨rfl, rfl⟩ := bads_unique (d1.symm.trans d1') d2 d2' d3 d3'
      have := says_unique d4 d4'
      subst this
      exact ⟨prefix_heads (by simp) d5 d5', hne (by simp) d5⟩

/-! ## Examples -/

/-- `(n` is malformed: the tokens are at these places, and this is what is said first. -/
example : ∃ es t reports, Stream [] (runes 2 b!"(n") es ∧ parseText b!"(n" = some (t, reports) ∧ First (1, 2) [] es reports ∧
    reports = [.syntaxError 1 2 b!"missing ')' at '<EOF>'"] ∧ es = [.tok 25 [40] 1 0, .tok 27 [110] 1 1] := by
  obtain ⟨es, t, reports, h1, h2, h3⟩ := C112_first b!"(n" malformed_open
  have hp : parseText b!"(n" = some (.paren .n, [.syntaxError 1 2 b!"missing ')' at '<EOF>'"]) := by rw [parseText_eq]; decide +kernel
  have he : lexElems lexAtn 2 [] (runes 2 b!"(n") = some [.tok 25 [40] 1 0, .tok 27 [110] 1 1] := by decide +kernel
  have e := stream_unique h1 _ (lexElems_stream _ _ _ _ he)
  rw [hp] at h2
  cases h2
  exact ⟨es, _, _, h1, hp, h3, rfl, e.symm⟩

/-- An error of the lexer that is behind the token in question is reported before; one equals sign takes the next character with it. -/
example : parseText b!")$n" = some (.n, [.syntaxError 1 1 b!"token recognition error at: '$'",
      .syntaxError 1 0 b!"extraneous input ')' expecting {'++', '--', '+', '-', '~', '!', '(', 'n', INT}"]) ∧
    parseText b!"n=1" = some (.n, [.syntaxError 1 1 b!"token recognition error at: '=1'"]) := by
  rw [parseText_eq, parseText_eq]; decide +kernel

end Verif.Antlr
