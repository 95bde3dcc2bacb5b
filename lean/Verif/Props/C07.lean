import Mathlib.Data.List.Chain
import Verif.Props.C01_C05
import Verif.Props.C02_C03
import Verif.Spec.PluralText
/-! Property C07: white space between the tokens of a plural expression. -/
namespace Verif.Plural

theorem sep_head {w r : Str} {c : UInt8} (hw : IsSep w) (hne : w ≠ []) (h : c ∈ (w ++ r).head?) :
    c = 32 ∨ c = 9 := by
  cases w with
  | nil => exact absurd rfl hne
  | cons a w => simp at h; subst h; exact hw _ (by simp)

theorem lexGo_ws {w : Str} (hw : IsSep w) (r : Str) : lexGo [] (w ++ r) = lexGo [] r := by
  induction w with
  | nil => rfl
  | cons c w ih =>
    have hc := hw c (by simp)
    rw [List.cons_append, lexGo.eq_def]
    dsimp only
    rw [if_neg (by rcases hc with rfl | rfl <;> decide), if_pos (by rcases hc with rfl | rfl <;> decide)]
    simp only [flush, List.isEmpty_nil, if_true]
    exact ih fun c h => hw c (by simp [h])

theorem lexGo_digits (ds : Str) (hd : ds.all Num.isDigit = true) : ∀ cur r,
    lexGo cur (ds ++ r) = lexGo (cur ++ ds) r := by
  induction ds with
  | nil => simp
  | cons c ds ih =>
    intro cur r
    simp at hd
    rw [List.cons_append, lexGo.eq_def]
    dsimp only
    rw [if_pos hd.1, ih (by simpa using hd.2)]
    simp

theorem flush_stop {cur r : Str} (h : ∀ c ∈ r.head?, Num.isDigit c = false) :
    lexGo cur r = flush cur (lexGo [] r) := by
  cases r with
  | nil => rw [lexGo, lexGo]; simp [flush]
  | cons c r =>
    have := h c (by simp)
    rw [lexGo.eq_def, lexGo.eq_def [] (c :: r)]
    simp only [this, Bool.false_eq_true, if_false]
    simp [flush]

theorem lexGo_int {ds r : Str} (hne : ds ≠ []) (hd : ds.all Num.isDigit = true)
    (h : ∀ c ∈ r.head?, Num.isDigit c = false) : lexGo [] (ds ++ r) = .int ds :: lexGo [] r := by
  rw [lexGo_digits ds hd, flush_stop h]
  simp [flush, hne]

theorem lexGo_two {c d : UInt8} {t : Tok} (h : tok2 c d = some t) (r : Str) :
    lexGo [] (c :: d :: r) = t :: lexGo [] r := by
  have h1 : Num.isDigit c = false ∧ isWs c = false := by
    unfold tok2 at h; split at h <;> first | decide | simp at h
  rw [lexGo.eq_def]
  dsimp only
  simp [h1.1, h1.2, flush, h]

theorem lexGo_one {c : UInt8} (r : Str) (h1 : Num.isDigit c = false) (h2 : isWs c = false)
    (h : ∀ d ∈ r.head?, tok2 c d = none) : lexGo [] (c :: r) = tok1 c :: lexGo [] r := by
  rw [lexGo.eq_def]
  dsimp only
  cases r with
  | nil => simp [h1, h2, flush, lexGo]
  | cons d r => simp [h1, h2, flush, h d (by simp)]

theorem tok2_none {c d : UInt8} (h : [c, d] ∉ [b!"++", b!"--", b!">>", b!"<<", b!">=", b!"<=", b!"==",
    b!"!=", b!"&&", b!"||"]) : tok2 c d = none := by
  unfold tok2
  split <;> simp at h ⊢

/-- The lexer ends the token `t` in front of `r`. -/
def CutOk (t : Tok) (r : Str) : Prop :=
  match t with
  | .int _ => ∀ c ∈ r.head?, Num.isDigit c = false
  | t => match t.text with
    | [c] => ∀ d ∈ r.head?, tok2 c d = none
    | _ => True

theorem lexGo_tok {t : Tok} {r : Str} (ht : Writable t) (h : CutOk t r) : lexGo [] (t.text ++ r) = t :: lexGo [] r := by
  cases t
  case int ds => exact lexGo_int ht.1 ht.2 h
  case bad => exact absurd ht id
  case inc => exact lexGo_two rfl r
  case dec => exact lexGo_two rfl r
  case op o =>
    cases o <;> first
      | exact lexGo_two rfl r
      | exact lexGo_one r (by decide) (by decide) h
  all_goals exact lexGo_one r (by decide) (by decide) h

theorem head_text_digit {u : Tok} {x : Str} (hu : Writable u) (h : ∀ ds, u ≠ .int ds) :
    ∀ c ∈ (u.text ++ x).head?, Num.isDigit c = false := by
  cases u
  case int ds => exact absurd rfl (h ds)
  case bad => exact absurd hu id
  case op o => cases o <;> simp [Tok.text, Op.text] <;> decide
  all_goals (simp [Tok.text]; try decide)

theorem text_ne {u : Tok} (hu : Writable u) : u.text ≠ [] := by
  cases u
  case int ds => exact hu.1
  case bad => exact absurd hu id
  case op o => cases o <;> simp [Tok.text, Op.text]
  all_goals simp [Tok.text]

/-- The condition under which the lexer cuts after `t`, from the conditions on texts. -/
theorem spaced_cond {t : Tok} {w : Str} {l : List (Tok × Str)} (h : Spaced ((t, w) :: l)) :
    CutOk t (w ++ textOf l) := by
  have hws : IsSep w := by
    cases l with
    | nil => exact h.2
    | cons p l => exact h.2.1
  by_cases hw : w = []
  · subst hw
    cases l with
    | nil =>
      cases t
      case op o => cases o <;> simp [CutOk, textOf, Tok.text, Op.text]
      all_goals simp [CutOk, textOf, Tok.text]
    | cons p l =>
      obtain ⟨u, w'⟩ := p
      have ha := h.2.2.1 rfl
      have hu : Writable u := by
        have := h.2.2.2
        cases l with
        | nil => exact this.1
        | cons => exact this.1
      have hne := text_ne hu
      have key : ∀ c d, d ∈ (textOf ((u, w') :: l)).head? → (∀ d ∈ u.text.head?, [c, d] ∉ [b!"++",
          b!"--", b!">>", b!"<<", b!">=", b!"<=", b!"==", b!"!=", b!"&&", b!"||"]) → tok2 c d = none := by
        intro c d hd h
        apply tok2_none (h d _)
        simpa [textOf, List.head?_append, hne] using hd
      cases t
      case int ds =>
        simp only [CutOk, textOf, List.nil_append, List.append_assoc]
        exact head_text_digit hu ha
      case op o =>
        cases o <;> first
          | trivial
          | exact fun d hd => key _ d hd ha
      all_goals first
          | trivial
          | exact fun d hd => key _ d hd ha
  · have hh := fun c => sep_head (c := c) (r := textOf l) hws hw
    cases t
    case int ds =>
      intro c hc
      rcases hh c hc with rfl | rfl <;> decide
    all_goals
      dsimp only [CutOk]
      split
      · intro d hd
        have : d = 32 ∨ d = 9 := hh d hd
        rcases this with rfl | rfl <;> (unfold tok2; split <;> simp_all)
      · trivial

theorem lex_spaced (l : List (Tok × Str)) (h : Spaced l) : lexGo [] (textOf l) = l.map (·.1) := by
  induction l with
  | nil => simp [textOf, lexGo, flush]
  | cons p l ih =>
    obtain ⟨t, w⟩ := p
    have hws : IsSep w := by
      cases l with
      | nil => exact h.2
      | cons p l => exact h.2.1
    have ht : Writable t := by
      cases l with
      | nil => exact h.1
      | cons p l => exact h.1
    have hl : Spaced l := by
      cases l with
      | nil => trivial
      | cons p l => exact h.2.2.2
    simp only [textOf, List.append_assoc, List.map_cons]
    rw [lexGo_tok ht (spaced_cond h), lexGo_ws hws, ih hl]

/-- **C07** The lexer returns exactly the tokens written, whatever blanks and tabs are put before,
between and after them (some where two tokens would otherwise merge). -/
theorem C07_lex (w : Str) (l : List (Tok × Str)) (hw : IsSep w) (h : Spaced l) :
    lex (w ++ textOf l) = l.map (·.1) := by
  rw [lex, lexGo_ws hw, lex_spaced l h]

example : Spaced [(.n, b!" "), (.op .mod, []), (.int b!"10", b!"  "), (.op .ne, []), (.op .sub, b!" "),
    (.op .sub, b!"\t"), (.int b!"1", [])] := by
  simp [Spaced, Writable, IsSep, Apart, Tok.text, Op.text, Num.isDigit]

/-! ### Eval

`Eval` removes blanks (not tabs) and looks the result up in the built-in table first, so for whole
expressions we show that this shortcut never changes the tokens. -/

/-- Adjacent tokens of an expression: only `+ +` and `- -` would merge. -/
def AdjOk (a b : Tok) : Prop := Apart a b ∨ a = .op .add ∨ a = .op .sub

def isStart : Tok → Bool
  | .n | .int _ | .lp | .op .add | .op .sub | .inc | .dec | .tilde | .bang => true
  | _ => false
def isLast : Tok → Bool
  | .n | .int _ | .rp | .inc | .dec => true
  | _ => false

theorem start_head {b : Tok} (hb : isStart b = true) (hw : Writable b) :
    ∀ d ∈ b.text.head?, d ≠ 62 ∧ d ≠ 60 ∧ d ≠ 61 ∧ d ≠ 38 ∧ d ≠ 124 := by
  cases b <;> simp [isStart] at hb
  case int ds =>
    intro d hd
    have : Num.isDigit d = true := by
      have := hw.2
      cases ds with
      | nil => simp [Tok.text] at hd
      | cons c ds => simp [Tok.text] at hd this; subst hd; exact this.1
    refine ⟨?_, ?_, ?_, ?_, ?_⟩ <;> rintro rfl <;> simp [Num.isDigit] at this
  case op o => cases o <;> simp at hb <;> simp [Tok.text, Op.text]
  all_goals simp [Tok.text]

theorem apart_start {a b : Tok} (ha : isLast a = false) (hb : isStart b = true) (hw : Writable b) :
    AdjOk a b := by
  have hd := start_head hb hw
  have key : ∀ c : UInt8, c ≠ 43 → c ≠ 45 → ∀ d ∈ b.text.head?, [c, d] ∉ [b!"++", b!"--", b!">>",
      b!"<<", b!">=", b!"<=", b!"==", b!"!=", b!"&&", b!"||"] := by
    intro c h1 h2 d h3
    obtain ⟨g1, g2, g3, g4, g5⟩ := hd d h3
    simp_all
  cases a <;> simp [isLast] at ha
  case op o =>
    cases o
    case add => exact .inr (.inl rfl)
    case sub => exact .inr (.inr rfl)
    all_goals first | exact .inl trivial | exact .inl (key _ (by decide) (by decide))
  all_goals first | exact .inl trivial | exact .inl (key _ (by decide) (by decide))

theorem apart_last {a b : Tok} (ha : isLast a = true) (hb : ∀ ds, b ≠ .int ds) : AdjOk a b := by
  left
  cases a <;> simp [isLast] at ha
  case int ds => exact hb
  all_goals simp [Apart, Tok.text]

theorem toks_ends (t : Exp) :
    (∃ a l, toks t = a :: l ∧ isStart a = true) ∧ (∃ l z, toks t = l ++ [z] ∧ isLast z = true) := by
  induction t with
  | n => exact ⟨⟨_, _, rfl, rfl⟩, [], _, rfl, rfl⟩
  | int ds => exact ⟨⟨_, _, rfl, rfl⟩, [], _, rfl, rfl⟩
  | paren e ih => exact ⟨⟨_, _, rfl, rfl⟩, _, _, rfl, rfl⟩
  | post o e ih =>
    obtain ⟨⟨a, l, h, h'⟩, _⟩ := ih
    refine ⟨⟨a, l ++ [o.tok], by simp [toks, h], h'⟩, _, _, rfl, by cases o <;> rfl⟩
  | pre o e ih =>
    obtain ⟨_, l, z, h, h'⟩ := ih
    exact ⟨⟨_, _, rfl, by cases o <;> rfl⟩, o.tok :: l, z, by simp [toks, h], h'⟩
  | bin o l r ihl ihr =>
    obtain ⟨⟨a, x, h, h'⟩, _⟩ := ihl
    obtain ⟨_, y, z, g, g'⟩ := ihr
    exact ⟨⟨a, x ++ .op o :: toks r, by simp [toks, h], h'⟩, toks l ++ .op o :: y, z,
      by simp [toks, g], g'⟩
  | tern c a b ihc _ ihb =>
    obtain ⟨⟨k, x, h, h'⟩, _⟩ := ihc
    obtain ⟨_, y, z, g, g'⟩ := ihb
    exact ⟨⟨k, x ++ .quest :: (toks a ++ .colon :: toks b), by simp [toks, h], h'⟩,
      toks c ++ .quest :: toks a ++ .colon :: y, z, by simp [toks, g], g'⟩

theorem chain_start {k : Tok} {t : Exp} (hk : isLast k = false) (hw : ∀ a ∈ toks t, Writable a)
    (h : List.IsChain AdjOk (toks t)) : List.IsChain AdjOk (k :: toks t) := by
  obtain ⟨⟨a, l, he, ha⟩, _⟩ := toks_ends t
  rw [he] at h hw ⊢
  exact List.isChain_cons_cons.2 ⟨apart_start hk ha (hw a (by simp)), h⟩

theorem chain_last {k : Tok} {t : Exp} {r : List Tok} (hk : ∀ ds, k ≠ .int ds)
    (h : List.IsChain AdjOk (toks t)) (hr : List.IsChain AdjOk (k :: r)) :
    List.IsChain AdjOk (toks t ++ k :: r) := by
  obtain ⟨_, l, z, he, hz⟩ := toks_ends t
  rw [List.isChain_append]
  refine ⟨h, hr, ?_⟩
  intro x hx y hy
  rw [he] at hx
  simp at hx hy
  subst hx; subst hy
  exact apart_last hz hk

theorem chain_toks (t : Exp) (hw : ∀ a ∈ toks t, Writable a) : List.IsChain AdjOk (toks t) := by
  induction t with
  | n => simp [toks]
  | int ds => simp [toks]
  | paren e ih =>
    have hwe : ∀ a ∈ toks e, Writable a := fun a h => hw a (by simp [toks, h])
    simp only [toks, List.cons_append]
    obtain ⟨⟨a, l, he, ha⟩, _⟩ := toks_ends e
    have h1 := chain_last (k := .rp) (r := []) (by simp) (ih hwe) (by simp)
    rw [he] at h1 ⊢
    exact List.isChain_cons_cons.2 ⟨apart_start rfl ha (hwe a (by simp [he])), h1⟩
  | post o e ih =>
    exact chain_last (by cases o <;> simp [Post.tok]) (ih fun a h => hw a (by simp [toks, h])) (by simp)
  | pre o e ih =>
    have hwe : ∀ a ∈ toks e, Writable a := fun a h => hw a (by simp [toks, h])
    by_cases ho : o = .inc ∨ o = .dec
    · obtain ⟨⟨a, l, he, ha⟩, _⟩ := toks_ends e
      have := ih hwe
      simp only [toks]
      rw [he] at this ⊢
      refine List.isChain_cons_cons.2 ⟨?_, this⟩
      rcases ho with rfl | rfl <;> exact .inl trivial
    · exact chain_start (by cases o <;> simp_all [isLast, Pre.tok]) hwe (ih hwe)
  | bin o l r ihl ihr =>
    have hwl : ∀ a ∈ toks l, Writable a := fun a h => hw a (by simp [toks, h])
    have hwr : ∀ a ∈ toks r, Writable a := fun a h => hw a (by simp [toks, h])
    exact chain_last (by simp) (ihl hwl) (chain_start rfl hwr (ihr hwr))
  | tern c a b ihc iha ihb =>
    have hwc : ∀ k ∈ toks c, Writable k := fun k h => hw k (by simp [toks, h])
    have hwa : ∀ k ∈ toks a, Writable k := fun k h => hw k (by simp [toks, h])
    have hwb : ∀ k ∈ toks b, Writable k := fun k h => hw k (by simp [toks, h])
    simp only [toks, List.append_assoc]
    refine chain_last (by simp) (ihc hwc) ?_
    obtain ⟨⟨x, l, he, hx⟩, _⟩ := toks_ends a
    have h1 := chain_last (k := .colon) (by simp) (iha hwa) (chain_start rfl hwb (ihb hwb))
    rw [he] at h1 ⊢
    exact List.isChain_cons_cons.2 ⟨apart_start rfl hx (hwa x (by simp [he])), h1⟩

/-- Remove the blanks from the white space of a text. -/
def unblank (l : List (Tok × Str)) : List (Tok × Str) := l.map fun p => (p.1, GoStr.removeByte 32 p.2)

theorem removeByte_append (c : UInt8) (a b : Str) :
    GoStr.removeByte c (a ++ b) = GoStr.removeByte c a ++ GoStr.removeByte c b := by
  simp [GoStr.removeByte]

theorem text_noblank {t : Tok} (ht : Writable t) : GoStr.removeByte 32 t.text = t.text := by
  cases t
  case int ds =>
    have := ht.2
    simp only [GoStr.removeByte, Tok.text, List.filter_eq_self]
    intro c hc
    simp only [List.all_eq_true] at this
    have := this c hc
    simp only [bne_iff_ne, ne_eq]
    rintro rfl
    simp [Num.isDigit] at this
  case op o => cases o <;> decide
  case bad => exact absurd ht id
  all_goals decide

theorem spaced_writable {l : List (Tok × Str)} (h : Spaced l) : ∀ p ∈ l, Writable p.1 ∧ IsSep p.2 := by
  induction l with
  | nil => simp
  | cons p l ih =>
    cases l with
    | nil => intro x hx; simp at hx; subst hx; exact h
    | cons q l =>
      intro x hx
      rw [List.mem_cons] at hx
      rcases hx with rfl | hx
      · exact ⟨h.1, h.2.1⟩
      · exact ih h.2.2.2 x hx

theorem textOf_unblank {l : List (Tok × Str)} (h : ∀ p ∈ l, Writable p.1 ∧ IsSep p.2) :
    GoStr.removeByte 32 (textOf l) = textOf (unblank l) := by
  induction l with
  | nil => rfl
  | cons p l ih =>
    obtain ⟨t, w⟩ := p
    simp only [textOf, unblank, List.map_cons, removeByte_append]
    rw [text_noblank (h (t, w) (by simp)).1, ih fun q hq => h q (by simp [hq])]
    rfl

/-- No `+` or `-` token: then a chain of adjacent tokens is a text with arbitrary white space. -/
theorem spaced_of_chain {l : List (Tok × Str)} (h : ∀ p ∈ l, Writable p.1 ∧ IsSep p.2)
    (hc : List.IsChain AdjOk (l.map (·.1))) (hp : ∀ p ∈ l, p.1 ≠ .op .add ∧ p.1 ≠ .op .sub) :
    Spaced l := by
  induction l with
  | nil => trivial
  | cons p l ih =>
    cases l with
    | nil => exact h p (by simp)
    | cons q l =>
      simp only [List.map_cons, List.isChain_cons_cons] at hc
      refine ⟨(h p (by simp)).1, (h p (by simp)).2, fun _ => ?_,
        ih (fun x hx => h x (by simp_all)) (by simpa using hc.2) (fun x hx => hp x (by simp_all))⟩
      rcases hc.1 with ha | ha | ha
      · exact ha
      · exact absurd ha (hp p (by simp)).1
      · exact absurd ha (hp p (by simp)).2

theorem get_mem {V : Type} {m : GMap V} {k : Str} {v : V} (h : GMap.get? m k = some v) : (k, v) ∈ m := by
  induction m with
  | nil => simp [GMap.get?] at h
  | cons p m ih =>
    simp only [GMap.get?] at h
    split at h
    · rename_i hk; simp at h; subst h; subst hk; simp
    · exact List.mem_cons_of_mem _ (ih h)

theorem commons_noplus : ∀ p ∈ commons, ∀ c ∈ p.1, c ≠ 43 ∧ c ≠ 45 := by
  decide

theorem evalGeneral_congr {diag : Diag} {s s' : Str} (h : lex s = lex s') (n : Int64) :
    evalGeneral goTable diag s n = evalGeneral goTable diag s' n := by
  simp only [evalGeneral, h]

/-- The shortcut through the built-in table does not change the result for a spaced expression. -/
theorem eval_spaced (diag : Diag) (n : Int64) (t : Exp) (w : Str) (l : List (Tok × Str))
    (hw : IsSep w) (h : Spaced l) (hl : l.map (·.1) = toks t) (hd : diag (toks t) = false) :
    eval diag (w ++ textOf l) n =
      (match evalGeneral goTable diag (w ++ textOf l) n with | .panic => .err | r => r) := by
  have hlex := C07_lex w l hw h
  unfold eval evalBody
  cases hc : commonsGet (GoStr.removeByte 32 (w ++ textOf l)) with
  | none => rfl
  | some f =>
    have hmem := get_mem hc
    have hwr := spaced_writable h
    have hww : IsSep (GoStr.removeByte 32 w) := fun c hc => hw c (List.mem_filter.1 hc).1
    have hu : ∀ p ∈ unblank l, Writable p.1 ∧ IsSep p.2 := by
      intro p hp
      simp only [unblank, List.mem_map] at hp
      obtain ⟨q, hq, rfl⟩ := hp
      exact ⟨(hwr q hq).1, fun c hc => (hwr q hq).2 c (List.mem_filter.1 hc).1⟩
    have hkey : GoStr.removeByte 32 (w ++ textOf l) =
        GoStr.removeByte 32 w ++ textOf (unblank l) := by
      rw [removeByte_append, textOf_unblank hwr]
    have hul : (unblank l).map (·.1) = toks t := by
      rw [← hl]; simp [unblank, Function.comp_def]
    have hsp : Spaced (unblank l) := by
      refine spaced_of_chain hu ?_ ?_
      · rw [hul]
        refine chain_toks t fun a ha => ?_
        rw [← hl] at ha
        simp only [List.mem_map] at ha
        obtain ⟨p, hp, rfl⟩ := ha
        exact (hwr p hp).1
      · intro p hp
        have hin : ∀ (l : List (Tok × Str)), p ∈ l → ∀ c ∈ p.1.text, c ∈ textOf l := by
          intro l
          induction l with
          | nil => simp
          | cons q l ih =>
            intro hp c hc
            rw [List.mem_cons] at hp
            rcases hp with rfl | hp
            · simp [textOf, hc]
            · simp [textOf, ih hp c hc]
        have hno := commons_noplus _ hmem
        constructor
        · intro he
          refine (hno 43 ?_).1 rfl
          rw [hkey]
          exact List.mem_append_right _ (hin _ hp 43 (by simp [he, Tok.text, Op.text]))
        · intro he
          refine (hno 45 ?_).2 rfl
          rw [hkey]
          exact List.mem_append_right _ (hin _ hp 45 (by simp [he, Tok.text, Op.text]))
    have hlex2 : lex (GoStr.removeByte 32 (w ++ textOf l)) = toks t := by
      rw [hkey, C07_lex _ _ hww hsp, hul]
    have hg := C02_builtin_eq_general _ hmem diag n (by simpa [hlex2] using hd)
    dsimp only at hg
    rw [evalGeneral_congr (s' := w ++ textOf l) (by rw [hlex2, hlex, hl])] at hg
    simp [hg]

/-- **C07** For any expression, two texts that differ only in the blanks and tabs around its tokens
evaluate alike, also when one of them is recognised as a built-in expression and the other not. -/
theorem C07_eval (diag : Diag) (n : Int64) (t : Exp) (w w' : Str) (l l' : List (Tok × Str))
    (hw : IsSep w) (hw' : IsSep w') (h : Spaced l) (h' : Spaced l') (hl : l.map (·.1) = toks t)
    (hl' : l'.map (·.1) = toks t) (hd : diag (toks t) = false) :
    eval diag (w ++ textOf l) n = eval diag (w' ++ textOf l') n := by
  rw [eval_spaced diag n t w l hw h hl hd, eval_spaced diag n t w' l' hw' h' hl' hd,
    evalGeneral_congr (s' := w' ++ textOf l') (by rw [C07_lex _ _ hw h, C07_lex _ _ hw' h', hl, hl'])]

-- `n > 1` with a blank and with a tab: the first takes the shortcut, the second does not
example : eval (fun _ => false) b!" n > 1" 5 = eval (fun _ => false) b!"n\t>1" 5 :=
  C07_eval _ 5 (.bin .gt .n (.int b!"1")) b!" " [] [(.n, b!" "), (.op .gt, b!" "), (.int b!"1", [])]
    [(.n, b!"\t"), (.op .gt, []), (.int b!"1", [])]
    (by simp [IsSep]) (by simp [IsSep])
    (by simp [Spaced, Writable, IsSep, Num.isDigit])
    (by simp [Spaced, Writable, IsSep, Apart, Tok.text, Op.text, Num.isDigit]) rfl rfl rfl

/-- Why C07 is about the tokens of an *expression*: the shortcut also removes blanks inside tokens.
`n ! = 1` is not an expression but evaluates like `n!=1`; with tabs it is an error. -/
theorem C07_blank_inside_token :
    (¬ ∃ t r, lex b!"n ! = 1" = toks t ++ r ∧ Wf g4Table 0 t ∧ Ends r ∧ r = []) ∧
    eval (fun _ => false) b!"n ! = 1" 1 = .ok 0 ∧
    eval (fun _ => false) b!"n%1 0==1&&n%100!=11?0:n!=0?1:2" 7 = .ok 1 ∧
    eval (fun _ => false) b!"n%1\t0==1&&n%100!=11?0:n!=0?1:2" 7 = .ok 0 := by
  refine ⟨?_, by decide, by decide, by decide⟩
  rw [← goTable_eq_g4]
  rintro ⟨t, r, h1, h2, h3, rfl⟩
  have := (parse_iff (T := goTable) _ _ _).2 ⟨h1, h2, h3⟩
  have h2 : parse goTable (lex b!"n ! = 1") = some (.n, [.bang, .bad, .int b!"1"]) := by decide
  rw [h2] at this; simp at this

end Verif.Plural
