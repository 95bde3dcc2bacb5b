import Verif.Lemmas.AtnRecover
import Verif.Spec.AtnRecover
import Verif.Props.C70
import Verif.Props.C106
/-!
# C111 What ANTLR reports about a malformed plural expression

The generated parser does not stop at an error: it drops tokens or pretends that some are there, and goes on.  This ends for every text;
something is reported exactly if the text does not begin with an expression; then every report names a place in the text; otherwise the tree
is that of the expression.  So nothing about the error of `Eval` is left open.
-/
namespace Verif.Antlr
open Verif

/-! ## The lexer -/

theorem lexElems_tokens (A : Atn) : ∀ (f : Nat) (before inp : List Nat),
    (lexElems A f before inp).map (·.map erase) = lexTokens A f inp := by
  intro f
  induction f with
  | zero =>
    intro before inp
    cases inp <;> rfl
  | succ f ih =>
    intro before inp
    cases inp with
    | nil => rfl
    | cons c cs =>
      rw [lexElems, lexTokens]
      cases lexMatch A (c :: cs) with
      | none => rfl
      | some x =>
        obtain ⟨a, pos⟩ := x
        cases a with
        | none =>
          dsimp only
          rw [← ih (before ++ (c :: cs).take (pos + 1))]
          cases lexElems A f (before ++ (c :: cs).take (pos + 1)) ((c :: cs).drop (pos + 1)) <;> rfl
        | some a =>
          dsimp only
          rw [← ih (before ++ (c :: cs).take a.len)]
          by_cases h6 : 6 ∈ a.acts
          · rw [if_pos h6, if_pos h6]
          · rw [if_neg h6, if_neg h6]
            cases lexElems A f (before ++ (c :: cs).take a.len) ((c :: cs).drop a.len) <;> rfl

theorem lexElems_place (A : Atn) : ∀ (f : Nat) (before inp : List Nat) (es : List Elem), lexElems A f before inp = some es →
    ∀ e ∈ es, ∃ b, b <+: before ++ inp ∧ e.place = position b := by
  intro f
  induction f with
  | zero =>
    intro before inp es h
    cases inp with
    | nil => cases h; simp
    | cons => cases h
  | succ f ih =>
    intro before inp es h
    cases inp with
    | nil => cases h; simp
    | cons c cs =>
      rw [lexElems] at h
      have here : before <+: before ++ (c :: cs) := List.prefix_append _ _
      have later : ∀ k es', lexElems A f (before ++ (c :: cs).take k) ((c :: cs).drop k) = some es' →
          ∀ e ∈ es', ∃ b, b <+: before ++ (c :: cs) ∧ e.place = position b := by
        intro k es' h' e he
        have := ih _ _ _ h' e he
        rwa [List.append_assoc, List.take_append_drop] at this
      cases hm : lexMatch A (c :: cs) with
      | none => rw [hm] at h; cases h
      | some x =>
        obtain ⟨a, pos⟩ := x
        rw [hm] at h
        cases a with
        | none =>
          dsimp only at h
          obtain ⟨es', h', rfl⟩ := Option.map_eq_some_iff.1 h
          intro e he
          rcases List.mem_cons.1 he with rfl | he
          · exact ⟨before, here, rfl⟩
          · exact later _ _ h' e he
        | some a =>
          dsimp only at h
          by_cases h6 : 6 ∈ a.acts
          · rw [if_pos h6] at h
            exact later _ _ h
          · rw [if_neg h6] at h
            obtain ⟨es', h', rfl⟩ := Option.map_eq_some_iff.1 h
            intro e he
            rcases List.mem_cons.1 he with rfl | he
            · exact ⟨before, here, rfl⟩
            · exact later _ _ h' e he

theorem position_eq (before : List Nat) : position before = (lineOf before, columnOf before) := by
  induction before using List.reverseRecOn with
  | nil => rfl
  | append_singleton l c ih =>
    have : position (l ++ [c]) = if c = 10 then ((position l).1 + 1, 0) else ((position l).1, (position l).2 + 1) := by
      unfold position
      rw [List.foldl_append]
      rfl
    rw [this, ih]
    unfold lineOf columnOf
    rw [List.reverse_append, List.count_append]
    by_cases hc : c = 10
    · subst hc
      rw [if_pos rfl]
      simp
      omega
    · rw [if_neg hc]
      simp [hc]

/-! ## The parser -/

theorem fetch_init_ok {es : List Elem} (eof : Nat × Nat) (h : ∀ e ∈ es, Good (erase e)) : Ok (Rec.init eof es).fetch :=
  ⟨settle_settled _, fun e he => h e ((settle_suffix _).mem he)⟩

/-- The parser on a stream of tokens, compared with the one that stops at the first error. -/
theorem rParse_spec (eof : Nat × Nat) (es : List Elem) (hg : ∀ e ∈ es, Good (erase e)) :
    ∃ t σ, rParse parAtn eof es = some (t, σ) ∧ Step (Rec.init eof es).fetch σ ∧
      ((σ.reports = [] ∧ ∃ e r, gParse (es.map erase) = some (e, r) ∧ t = treeOf e) ∨
       (σ.reports ≠ [] ∧ gParse (es.map erase) = none)) := by
  have hok := fetch_init_ok eof hg
  have hlen : (Rec.init eof es).fetch.rest.length ≤ es.length := (settle_suffix es).length_le
  obtain ⟨t, σ, h, hs, hf⟩ := (at_all (2 * es.length + 3)).1 0 [6] _ hok (by omega)
  refine ⟨t, σ, h, hs, ?_⟩
  rw [gParse_eq, List.length_map]
  by_cases hb : (settle es).1 = []
  · have hr : (Rec.init eof es).fetch.rest = es := settle_none hb
    have hrep : (Rec.init eof es).fetch.reports = [] := by
      show [] ++ (settle es).1 = []
      rw [hb]; rfl
    rw [hr] at hf
    rcases hf rfl with hc | ⟨hgr, hn⟩
    · obtain ⟨e, e1, -, e3, e4⟩ := hc.elim
      exact .inl ⟨e1.trans hrep, e, _, e3, e4⟩
    · refine .inr ⟨?_, hn⟩
      intro h0
      unfold Grew at hgr
      rw [h0] at hgr
      exact absurd hgr (Nat.not_lt_zero _)
  · have hp : peek (es.map erase) = none := by
      by_contra hp
      exact hb ((settle_peek es).2 hp)
    rw [gExp_bad hp]
    refine .inr ⟨?_, rfl⟩
    intro h0
    have := hs.rep
    rw [h0] at this
    have h1 : (Rec.init eof es).fetch.reports = (settle es).1 := rfl
    rw [h1] at this
    exact hb (List.prefix_nil.1 this)

theorem parseText_eq (exp : Str) : parseText exp =
    (lexElems lexAtn (rs exp).length [] (rs exp)).bind fun es => (rParse parAtn (position (rs exp)) es).map fun x => (x.1, x.2.reports) := by
  unfold parseText
  rw [lexer_deserialize, parser_deserialize]
  rfl

/-- The stream of tokens of a text. -/
theorem elems_of (exp : Str) : ∃ es, lexElems lexAtn (rs exp).length [] (rs exp) = some es ∧ tokens exp = some (es.map erase) ∧
    (∀ e ∈ es, Good (erase e)) ∧ ∀ e ∈ es, InText (rs exp) e.place := by
  obtain ⟨items, hi, -⟩ := lexTokens_scans (rs exp).length (rs exp) (Nat.le_refl _)
  have h := lexElems_tokens lexAtn (rs exp).length [] (rs exp)
  rw [hi] at h
  obtain ⟨es, he, hm⟩ := Option.map_eq_some_iff.1 h
  refine ⟨es, he, ?_, ?_, ?_⟩
  · unfold tokens
    rw [lexer_deserialize]
    change lexTokens lexAtn (rs exp).length (rs exp) = _
    rw [hi, hm]
  · intro e hee
    exact lexTokens_good _ _ _ hi _ (hm ▸ List.mem_map_of_mem hee)
  · intro e hee
    obtain ⟨b, hb, hp⟩ := lexElems_place lexAtn _ _ _ _ he e hee
    exact ⟨b, by simpa using hb, by rw [hp, position_eq]⟩

theorem gParse_malformed (exp : Str) : (tokens exp).bind gParse = none ↔ Plural.Malformed exp := by
  rw [Plural.malformed_iff]
  have h := C70_tree exp
  constructor
  · intro h1
    rw [h1] at h
    cases hp : Plural.parse Plural.goTable (Plural.lex exp) with
    | none => rfl
    | some x => rw [hp] at h; cases h
  · intro h1
    rw [h1] at h
    cases hp : (tokens exp).bind gParse with
    | none => rfl
    | some x => rw [hp] at h; cases h

/-- **C111** For every text the parser comes to an end; it reports something exactly if the text is malformed; every report is a syntax
error at a place in the text. -/
theorem C111_reported (exp : Str) : ∃ t reports, parseText exp = some (t, reports) ∧ Plural.Reported exp reports ∧
    ∀ r ∈ reports, ∃ line column msg, r = .syntaxError line column msg ∧ InText (runes exp.length exp) (line, column) := by
  obtain ⟨es, he, ht, hg, hp⟩ := elems_of exp
  obtain ⟨t, σ, h, hs, hc⟩ := rParse_spec (position (rs exp)) es hg
  refine ⟨t, σ.reports, ?_, ?_, ?_⟩
  · rw [parseText_eq, he, Option.bind_some, h]
    rfl
  · unfold Plural.Reported
    rw [← gParse_malformed, ht, Option.bind_some]
    rcases hc with ⟨h0, e, r, hgp, -⟩ | ⟨h0, hn⟩
    · rw [h0, hgp]
      simp
    · rw [hn]
      simp [h0]
  · have hpl : Places (InText (rs exp)) (Rec.init (position (rs exp)) es) :=
      ⟨hp, ⟨rs exp, List.prefix_rfl, position_eq _⟩, by intro r hr; cases hr⟩
    exact (((fetch_step _).trans hs).place _ hpl).reports

/-- **C111** If the text begins with an expression, the tree is its tree, and nothing is reported. -/
theorem C111_tree (exp : Str) (e : Plural.Exp) (r : List Plural.Tok) (hl : Plural.lex exp = Plural.toks e ++ r)
    (hw : Plural.Wf Plural.goTable 0 e) (he : Plural.Ends r) : parseText exp = some (treeOf e, []) := by
  obtain ⟨es, hes, ht, hg, -⟩ := elems_of exp
  obtain ⟨t, σ, h, -, hc⟩ := rParse_spec (position (rs exp)) es hg
  have hp := (Plural.parse_iff (T := Plural.goTable) _ _ _).2 ⟨hl, hw, he⟩
  have h70 := C70_tree exp
  rw [hp, ht, Option.bind_some] at h70
  rcases hc with ⟨h0, e', r', hgp, rfl⟩ | ⟨-, hn⟩
  · rw [hgp] at h70
    cases h70
    rw [parseText_eq, hes, Option.bind_some, h, ← h0]
    rfl
  · rw [hn] at h70
    cases h70

/-! ## Eval -/

theorem walkR_treeOf (n : Int64) (e : Plural.Exp) : ∀ s, walkR n (treeOf e) s = Plural.walkP n e s := by
  induction e with
  | n => intro s; rfl
  | int ds => intro s; rfl
  | paren e ih => intro s; exact ih s
  | post o e ih => intro s; simp only [treeOf, walkR, Plural.walkP, ih]
  | pre o e ih => intro s; simp only [treeOf, walkR, Plural.walkP, ih]
  | bin o l r ihl ihr => intro s; simp only [treeOf, walkR, Plural.walkP, ihl, ihr]
  | tern c a b ihc iha ihb => intro s; simp only [treeOf, walkR, Plural.walkP, ihc, iha, ihb]

/-- **C111** What `evalE` leaves open is determined: `Eval` always comes to an end, with what `evalE` gives for the reports and for the
outcome of the tree walk; that these are there exactly for malformed texts need not be assumed. -/
theorem C111_eval (L : Fmt.Lib) (exp : Str) (n : Int64) : ∃ t reports other, parseText exp = some (t, reports) ∧
    Plural.Reported exp reports ∧ evalR L exp n = some (Plural.evalE L reports other exp n) ∧
    other = (walkR n t []).map Plural.exitStart := by
  obtain ⟨t, reports, h, hr, -⟩ := C111_reported exp
  refine ⟨t, reports, (walkR n t []).map Plural.exitStart, h, hr, ?_, rfl⟩
  unfold evalR Plural.evalE
  cases hc : Plural.commonsGet (GoStr.removeByte 32 exp) with
  | some f => rfl
  | none =>
    dsimp only
    rw [h, Option.map_some]
    cases hp : Plural.parse Plural.goTable (Plural.lex exp) with
    | none =>
      dsimp only
      cases walkR n t [] <;> rfl
    | some x =>
      obtain ⟨e, r⟩ := x
      obtain ⟨h1, h2, h3⟩ := (Plural.parse_iff (T := Plural.goTable) _ _ _).1 hp
      have ht := C111_tree exp e r h1 h2 h3
      rw [h] at ht
      simp only [Option.some.injEq, Prod.mk.injEq] at ht
      dsimp only
      rw [ht.1, walkR_treeOf]
      cases Plural.walkP n e [] <;> rfl

/-- **C111** A result is returned without an error exactly if `Eval` succeeds in the sense of the other properties, and it is the same. -/
theorem C111_same (L : Fmt.Lib) (exp : Str) (n : Int64) : ∃ v err, evalR L exp n = some (v, err) ∧
    Plural.eval (fun _ => false) exp n = match err with
      | none => .ok v
      | some _ => .err := by
  obtain ⟨t, reports, other, -, hr, he, -⟩ := C111_eval L exp n
  have := Plural.C106_same L reports other exp n hr
  rcases hx : Plural.evalE L reports other exp n with ⟨v, err⟩
  rw [hx] at this he
  refine ⟨v, err, he, ?_⟩
  rw [this]
  cases err <;> rfl

theorem rs_length (s : Str) : (rs s).length ≤ s.length := by
  have key : ∀ f (s : Str), s.length ≤ f → (runes f s).length ≤ s.length := by
    intro f
    induction f with
    | zero =>
      intro s h
      cases s with
      | nil => simp [runes]
      | cons => simp at h
    | succ f ih =>
      intro s h
      cases s with
      | nil => simp [runes]
      | cons c s =>
        rw [runes, List.length_cons]
        have hd := (Utf8.decode_width (c :: s) (by simp)).1
        have hl : ((c :: s).drop (Utf8.decode (c :: s)).2).length ≤ s.length := by
          rw [List.length_drop, List.length_cons]; omega
        have := ih ((c :: s).drop (Utf8.decode (c :: s)).2) (by simp only [List.length_cons] at h; omega)
        rw [List.length_cons]
        omega
  exact key _ s (Nat.le_refl _)

/-- The numbers in reports are `int`s. -/
theorem reports_small (exp : Str) (hlen : exp.length + 1 < 2 ^ 63) {t : Tree} {reports : List Plural.Report}
    (hp : parseText exp = some (t, reports)) : ∀ r ∈ reports, r.small := by
  obtain ⟨t', reports', hp', -, hs⟩ := C111_reported exp
  rw [hp] at hp'
  simp only [Option.some.injEq, Prod.mk.injEq] at hp'
  obtain ⟨rfl, rfl⟩ := hp'
  intro r hr
  obtain ⟨l, c, m, rfl, b, hb, hx⟩ := hs r hr
  have h1 := hb.length_le
  have h2 : (runes exp.length exp).length ≤ exp.length := rs_length exp
  simp only [Prod.mk.injEq] at hx
  obtain ⟨rfl, rfl⟩ := hx
  have h3 : b.count 10 ≤ b.length := List.count_le_length
  have h4 : columnOf b ≤ b.length := by
    unfold columnOf
    have := (List.takeWhile_prefix (p := fun x => decide (x ≠ 10)) (l := b.reverse)).length_le
    rwa [List.length_reverse] at this
  constructor
  · unfold lineOf; omega
  · omega

/-- **C111** The error for a malformed text: `ErrAntlr` with everything that was reported, in order, unless the walk of the tree panics;
there is at least one report. -/
theorem C111_error (L : Fmt.Lib) (exp : Str) (n : Int64) (hc : Plural.commonsGet (GoStr.removeByte 32 exp) = none)
    (hm : Plural.Malformed exp) (hlen : exp.length + 1 < 2 ^ 63) : ∃ t reports, parseText exp = some (t, reports) ∧ reports ≠ [] ∧
    ((∃ s e, walkR n t [] = .ok s ∧ evalR L exp n = some (Plural.exitStart s, some e) ∧ Errors.is Plural.antlrId e.err = true ∧
        e.text = b!"err antlr" ++ (reports.map fun r => b!": " ++ r.says).flatten) ∨
     (∃ p e, walkR n t [] = .error p ∧ evalR L exp n = some (0, some e) ∧ Errors.is Plural.antlrId e.err = false ∧
        e.text = b!"unexpected error: " ++ p.text)) := by
  obtain ⟨t, reports, other, hp, hr, he, ho⟩ := C111_eval L exp n
  obtain ⟨t', reports', hp', -, hs⟩ := C111_reported exp
  rw [hp] at hp'
  simp only [Option.some.injEq, Prod.mk.injEq] at hp'
  obtain ⟨rfl, rfl⟩ := hp'
  have hsm := reports_small exp hlen hp
  obtain ⟨g1, g2⟩ := Plural.C106_malformed L reports other exp n hc hm hr hsm
  refine ⟨t, reports, hp, hr.2 hm, ?_⟩
  cases hw : walkR n t [] with
  | ok s =>
    rw [hw] at ho
    obtain ⟨e, e1, e2, e3⟩ := g1 _ ho
    exact .inl ⟨s, e, rfl, by rw [he, e1], e2, e3⟩
  | error p =>
    rw [hw] at ho
    obtain ⟨e, e1, e2, e3⟩ := g2 _ ho
    exact .inr ⟨p, e, rfl, by rw [he, e1], e2, e3⟩


/-! ## Examples -/

/-- A missing colon is reported at the end, in the second line. -/
example : parseText b!"n?\n2" = some (.cut .n (.int b!"2"), [.syntaxError 1 2 b!"token recognition error at: '\n'",
    .syntaxError 2 1 b!"mismatched input '<EOF>' expecting ':'"]) := by rw [parseText_eq]; decide +kernel

/-- A missing parenthesis, an extra operator. -/
example : parseText b!"(n" = some (.paren .n, [.syntaxError 1 2 b!"missing ')' at '<EOF>'"]) ∧
    parseText b!"n+*2" = some (.bin .add .n (.int b!"2"),
      [.syntaxError 1 2 b!"extraneous input '*' expecting {'++', '--', '+', '-', '~', '!', '(', 'n', INT}"]) := by
  rw [parseText_eq, parseText_eq]; decide +kernel

/-- Recovery drops the parenthesis at which two conditional expressions miss their colon, and says it once. -/
example : parseText b!"(n?n?n)+1" = some (.bin .add (.paren (.cut .n (.cut .n .n))) (.int b!"1"),
    [.syntaxError 1 6 b!"mismatched input ')' expecting ':'"]) := by rw [parseText_eq]; decide +kernel

/-- The text of the first examples is malformed, as something is reported. -/
theorem malformed_open : Plural.Malformed b!"(n" := by
  obtain ⟨t, reports, h, hr, -⟩ := C111_reported b!"(n"
  have : parseText b!"(n" = some (.paren .n, [.syntaxError 1 2 b!"missing ')' at '<EOF>'"]) := by rw [parseText_eq]; decide +kernel
  rw [this] at h
  simp only [Option.some.injEq, Prod.mk.injEq] at h
  exact hr.1 (by rw [← h.2]; simp)

/-- `Eval("(n", 7)` gives 7 and this error. -/
example (L : Fmt.Lib) : ∃ e, evalR L b!"(n" 7 = some (7, some e) ∧ e.text = b!"err antlr: SyntaxError(line 1:2): missing ')' at '<EOF>'" := by
  obtain ⟨t, reports, h, -, hc⟩ := C111_error L b!"(n" 7 (by decide +kernel) malformed_open (by decide)
  have hp : parseText b!"(n" = some (.paren .n, [.syntaxError 1 2 b!"missing ')' at '<EOF>'"]) := by rw [parseText_eq]; decide +kernel
  rw [hp] at h
  simp only [Option.some.injEq, Prod.mk.injEq] at h
  obtain ⟨rfl, rfl⟩ := h
  rcases hc with ⟨s, e, h1, h2, -, h3⟩ | ⟨p, e, h1, -⟩
  · cases h1
    exact ⟨e, h2, by rw [h3]; decide +kernel⟩
  · cases h1

/-- If the right operand is missing, the left one is taken for it, so this panics. -/
example (L : Fmt.Lib) : ∃ e, evalR L b!"n/" 0 = some (0, some e) ∧ e.text = b!"unexpected error: runtime error: integer divide by zero" := by
  have hp : parseText b!"n/" = some (.bin .div .n .hole,
      [.syntaxError 1 2 b!"mismatched input '<EOF>' expecting {'++', '--', '+', '-', '~', '!', '(', 'n', INT}"]) := by
    rw [parseText_eq]; decide +kernel
  refine ⟨{ err := Errors.errorf, text := b!"unexpected error: runtime error: integer divide by zero" }, ?_, rfl⟩
  · unfold evalR
    rw [show Plural.commonsGet (GoStr.removeByte 32 b!"n/") = none from by decide +kernel]
    dsimp only
    rw [hp, Option.map_some]
    exact congrArg some (Plural.unexpected_text L .divide)

end Verif.Antlr
