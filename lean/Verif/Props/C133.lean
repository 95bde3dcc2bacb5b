import Verif.Spec.GapsDebug
import Verif.Props.C103
import Verif.Props.C115
/-!
# C133 What is printed about a malformed plural expression
-/
namespace Verif.Antlr
open Verif

/-! ## Without the lines -/

theorem andThen_result (p : PrintedP) (f : Plural.Stack → PrintedP) : (p.andThen f).2 = p.2.bind fun s => (f s).2 := by
  unfold PrintedP.andThen
  cases p.2 <;> rfl

/-- The walk, with lines or without, is the walk. -/
theorem walkRD_result (L : Fmt.Lib) (debug : Bool) (text : Place → Str) (n : Int64) (t : Tree) (p : Place) (s : Plural.Stack) :
    (walkRD L debug text n p t s).2 = walkR n t s := by
  have hb : ∀ o s, (bopRD L debug o s).2 = Plural.onBopP o s := by
    intro o s
    unfold bopRD
    rw [andThen_result]
    cases Plural.onBopP o s <;> rfl
  induction t generalizing p s with
  | hole => rfl
  | n => rfl
  | int ds =>
    rw [walkRD, walkR, andThen_result]
    cases Plural.walkP n (.int ds) s <;> rfl
  | paren e ih =>
    rw [walkRD, walkR, andThen_result, ih]
    cases walkR n e s <;> rfl
  | post o e ih => rw [walkRD, walkR, andThen_result, ih]
  | pre o e ih => rw [walkRD, walkR, andThen_result, ih]
  | bin o l r ihl ihr =>
    rw [walkRD, walkR, andThen_result, ihl]
    congr 1
    funext s
    rw [andThen_result, ihr]
    congr 1
    funext s
    exact hb o s
  | tern c a b ihc iha ihb =>
    rw [walkRD, walkR, andThen_result, ihc]
    congr 1
    funext s
    rw [andThen_result, iha]
    congr 1
    funext s
    rw [andThen_result, ihb]
    rfl
  | cut c a ihc iha =>
    rw [walkRD, walkR, andThen_result, ihc]
    congr 1
    funext s
    rw [andThen_result, iha]
    rfl

theorem walkRD_quiet (L : Fmt.Lib) (text : Place → Str) (n : Int64) (t : Tree) (p : Place) (s : Plural.Stack) :
    (walkRD L false text n p t s).1 = [] := by
  have hthen : ∀ (p : PrintedP) (f : Plural.Stack → PrintedP), p.1 = [] → (∀ a, (f a).1 = []) → (p.andThen f).1 = [] := by
    intro p f h1 h2
    unfold PrintedP.andThen
    cases p.2 <;> simp [h1, h2]
  induction t generalizing p s with
  | hole => rfl
  | n => rfl
  | int ds => exact hthen _ _ rfl fun a => rfl
  | paren e ih => exact hthen _ _ (ih _ s) fun a => rfl
  | post o e ih => exact hthen _ _ (ih _ s) fun a => rfl
  | pre o e ih => exact hthen _ _ (ih _ s) fun a => rfl
  | bin o l r ihl ihr => exact hthen _ _ (ihl _ s) fun s => hthen _ _ (ihr _ s) fun s => hthen _ _ rfl fun s => rfl
  | tern c a b ihc iha ihb => exact hthen _ _ (ihc _ s) fun s => hthen _ _ (iha _ s) fun s => hthen _ _ (ihb _ s) fun s => rfl
  | cut c a ihc iha => exact hthen _ _ (ihc _ s) fun s => hthen _ _ (iha _ s) fun s => rfl

/-! ## The log -/

theorem logs_unique {s : List Int64} {r : List Act} {a b : List Str} (ha : Logs s r a) (hb : Logs s r b) : a = b := by
  induction ha generalizing b with
  | done => cases hb; rfl
  | num _ ih => cases hb with | num h => rw [ih h]
  | big => cases hb; rfl
  | close _ ih => cases hb with | close h => rw [ih h]
  | plus _ ih => cases hb with | plus h => rw [ih h]
  | pre _ ih => cases hb with | pre h => rw [ih h]
  | post _ ih => cases hb with | post h => rw [ih h]
  | bin hx _ ih =>
    cases hb with
    | bin hy h => rw [hx] at hy; cases hy; rw [ih h]
    | undefined hy => rw [hx] at hy; cases hy
  | undefined hx =>
    cases hb with
    | bin hy h => rw [hx] at hy; cases hy
    | undefined hy => rfl
  | cond hx _ ih => cases hb with | cond hy h => subst hx; subst hy; rw [ih h]

/-- What was printed is the log of the steps. -/
def Logged (s : List Int64) (a : List Act) (w : PrintedP) : Prop :=
  match w.2 with
  | .ok s' => ∀ r ls, Logs s' r ls → Logs s (a ++ r) (w.1 ++ ls)
  | .error _ => ∀ r, Logs s (a ++ r) w.1

theorem logged_then {s : List Int64} {a b : List Act} {w : PrintedP} {f : Plural.Stack → PrintedP} (h : Logged s a w)
    (hf : ∀ s', Logged s' b (f s')) : Logged s (a ++ b) (w.andThen f) := by
  unfold PrintedP.andThen
  cases hw : w.2 with
  | error e =>
    unfold Logged at h ⊢
    rw [hw] at h
    dsimp only at h ⊢
    intro r
    rw [List.append_assoc]
    exact h _
  | ok s' =>
    have h2 := hf s'
    unfold Logged at h h2 ⊢
    rw [hw] at h
    dsimp only at h ⊢
    cases hw2 : (f s').2 with
    | error e =>
      rw [hw2] at h2
      dsimp only at h2 ⊢
      intro r
      rw [List.append_assoc]
      exact h _ _ (h2 r)
    | ok s2 =>
      rw [hw2] at h2
      dsimp only at h2 ⊢
      intro r ls hl
      rw [List.append_assoc, List.append_assoc]
      exact h _ _ (h2 r ls hl)

theorem stack_shown (s : List Int64) : Plural.stackText s = Plural.numbers s.reverse := by
  have := Plural.stack_text s.reverse
  rwa [List.reverse_reverse] at this

theorem undefined_of {o : Plural.Op} {s : List Int64} {c : Plural.Cause} (h : ∀ r, Calculates s (.bin o :: r) (.error c)) :
    Plural.opVal o (s.getD 1 0) (s.getD 0 0) = none := by
  cases hv : Plural.opVal o (s.getD 1 0) (s.getD 0 0) with
  | none => rfl
  | some x =>
    have := calculates_unique (h []) (.bin hv .done)
    cases this

theorem logged_bop (L : Fmt.Lib) (o : Plural.Op) (s : List Int64) : Logged s [.bin o] (bopRD L true o s) := by
  unfold bopRD
  rw [Plural.dbg_bop, Plural.op_text, stack_shown]
  rcases bin_step o s with ⟨x, h1, h2⟩ | ⟨c, h1, h2⟩
  · rw [h1]
    unfold PrintedP.andThen
    dsimp only
    rw [Plural.dbg_done, stack_shown]
    intro r ls hl
    have := Logs.bin h2 hl
    simpa [logLine] using this
  · rw [h1]
    unfold PrintedP.andThen
    intro r
    have := Logs.undefined (r := r) (undefined_of h2)
    simpa [logLine] using this

theorem logged_tern (L : Fmt.Lib) (s : List Int64) : Logged s [.cond] (ternRD L true s) := by
  unfold ternRD
  rw [Plural.dbg_bop, Plural.dbg_bare, Plural.dbg_done, stack_shown, stack_shown, cond_step]
  intro r ls hl
  have := Logs.cond rfl hl
  simpa [logLine] using this

theorem logged (L : Fmt.Lib) (text : Place → Str) (n : Int64) (t : Tree) : t.Lits → ∀ p s,
    Logged s (t.acts text n p) (walkRD L true text n p t s) := by
  induction t with
  | hole => intro _ p s r ls hl; exact hl
  | n =>
    intro _ p s
    rw [walkRD, Plural.dbg_primary, stack_shown]
    intro r ls hl
    have := Logs.num (t := b!"n") hl
    simpa [logLine, Tree.acts] using this
  | int ds =>
    intro h p s
    have h1 := Plural.litVal_eq ds h.1 h.2
    unfold Tree.acts walkRD Plural.walkP
    rw [← h1]
    cases Num.parseInt ds with
    | none => intro r; exact .big
    | some i =>
      unfold PrintedP.andThen
      dsimp only [Option.map_some]
      rw [Plural.dbg_primary, stack_shown]
      intro r ls hl
      have := Logs.num (t := ds) hl
      simpa [logLine] using this
  | paren e ih =>
    intro h p s
    refine logged_then (ih h _ s) fun s => ?_
    rw [Plural.dbg_exp, Plural.dbg_primary, stack_shown]
    intro r ls hl
    have := Logs.close (t := text p) hl
    simpa [logLine] using this
  | post o e ih =>
    intro h p s
    refine logged_then (ih h _ s) fun s => ?_
    rw [Plural.dbg_postfix, stack_shown, Plural.post_text, post_step]
    intro r ls hl
    have := Logs.post hl
    simpa [logLine] using this
  | pre o e ih =>
    intro h p s
    by_cases ho : o = .plus
    · subst ho
      refine logged_then (ih h _ s) fun s => ?_
      rw [Plural.dbg_prefix, stack_shown]
      intro r ls hl
      have := Logs.plus (s := s) hl
      simpa [logLine, Plural.preText] using this
    · have ha : (Tree.pre o e).acts text n p = e.acts text n (0 :: p) ++ [.pre o] := by
        cases o with
        | plus => exact absurd rfl ho
        | _ => rfl
      rw [ha]
      refine logged_then (ih h _ s) fun s => ?_
      rw [Plural.dbg_prefix, stack_shown, Plural.pre_text, pre_step o ho]
      intro r ls hl
      have := Logs.pre hl
      simpa [logLine] using this
  | bin o l r ihl ihr =>
    intro h p s
    exact logged_then (ihl h.1 _ s) fun s => logged_then (ihr h.2 _ s) fun s => logged_bop L o s
  | tern c a b ihc iha ihb =>
    intro h p s
    exact logged_then (ihc h.1 _ s) fun s => logged_then (iha h.2.1 _ s) fun s => logged_then (ihb h.2.2 _ s) fun s => logged_tern L s
  | cut c a ihc iha =>
    intro h p s
    exact logged_then (ihc h.1 _ s) fun s => logged_then (iha h.2 _ s) fun s => logged_tern L s

/-! ## Eval -/

/-- **C133** Whether lines are printed or not, `Eval` returns the same. -/
theorem C133_same (L : Fmt.Lib) (debug : Bool) (text : Place → Str) (exp : Str) (n : Int64) :
    (evalRD L debug text exp n).map Prod.snd = evalR L exp n := by
  unfold evalRD evalR
  cases Plural.commonsGet (GoStr.removeByte 32 exp) with
  | some f => rfl
  | none =>
    dsimp only
    rw [Option.map_map]
    congr 1
    funext x
    simp only [Function.comp, walkRD_result]
    cases walkR n x.1 [] <;> rfl

/-- **C133** Without a debug context nothing is printed, and nothing for a built-in expression. -/
theorem C133_quiet (L : Fmt.Lib) (debug : Bool) (text : Place → Str) (exp : Str) (n : Int64)
    (h : debug = false ∨ ∃ p ∈ Plural.commons, p.1 = GoStr.removeByte 32 exp) : ∃ r, evalRD L debug text exp n = some ([], r) := by
  unfold evalRD
  cases hc : Plural.commonsGet (GoStr.removeByte 32 exp) with
  | some f => exact ⟨_, rfl⟩
  | none =>
    rcases h with rfl | ⟨p, hp, hk⟩
    · obtain ⟨t, reports, ht, -⟩ := C111_reported exp
      dsimp only
      rw [ht, Option.map_some, walkRD_quiet]
      exact ⟨_, rfl⟩
    · unfold Plural.commonsGet at hc
      rw [GMap.get?_eq_none] at hc
      exact absurd (hk ▸ List.mem_map_of_mem hp) hc

/-- **C133** With a debug context the lines printed are the log of the steps, for any text; there is one log. -/
theorem C133_lines (L : Fmt.Lib) (text : Place → Str) (exp : Str) (n : Int64)
    (hc : ∀ p ∈ Plural.commons, p.1 ≠ GoStr.removeByte 32 exp) : ∃ t reports ls r, parseText exp = some (t, reports) ∧
    evalRD L true text exp n = some (ls, r) ∧ ∀ ls', Logs [] (t.acts text n []) ls' ↔ ls' = ls := by
  obtain ⟨t, reports, ht, -⟩ := C111_reported exp
  have hcg : Plural.commonsGet (GoStr.removeByte 32 exp) = none := by
    unfold Plural.commonsGet
    rw [GMap.get?_eq_none]
    intro h
    obtain ⟨p, hp, hk⟩ := List.mem_map.mp h
    exact hc p hp hk
  have h := logged L text n t (parseText_lits ht) [] []
  have hl : Logs [] (t.acts text n []) (walkRD L true text n [] t []).1 := by
    unfold Logged at h
    split at h
    · simpa using h [] [] .done
    · simpa using h []
  have he : ∃ r, evalRD L true text exp n = some ((walkRD L true text n [] t []).1, r) := by
    unfold evalRD
    rw [hcg]
    dsimp only
    rw [ht, Option.map_some]
    exact ⟨_, rfl⟩
  obtain ⟨r, he⟩ := he
  exact ⟨t, reports, _, r, ht, he, fun ls' => ⟨fun h' => logs_unique h' hl, fun h' => h' ▸ hl⟩⟩

/-! ## Without gaps -/

theorem andThen_forget {w : PrintedP} {w' : Plural.Printed Plural.Stack} {f : Plural.Stack → PrintedP}
    {g : Plural.Stack → Plural.Printed Plural.Stack} (h : w' = (w.1, Plural.forget w.2)) (hf : ∀ s, g s = ((f s).1, Plural.forget (f s).2)) :
    w'.then g = ((w.andThen f).1, Plural.forget (w.andThen f).2) := by
  subst h
  unfold Plural.Printed.then PrintedP.andThen
  cases hw : w.2 with
  | error e => rfl
  | ok s => simp [Plural.forget, hf]

/-- The walk of a tree without gaps prints what the walk of the expression prints. -/
theorem walkRD_whole (L : Fmt.Lib) (text : Place → Str) (n : Int64) (e : Plural.Exp) : ∀ p s, Verbatim text p e →
    Plural.walkD L true n e s = ((walkRD L true text n p (treeOf e) s).1, Plural.forget (walkRD L true text n p (treeOf e) s).2) := by
  induction e with
  | n => intro p s _; rfl
  | int ds =>
    intro p s _
    rw [treeOf, walkRD, Plural.walkD, Plural.walkP]
    cases Num.parseInt ds <;> rfl
  | paren e ih =>
    intro p s h
    rw [treeOf, walkRD, Plural.walkD]
    refine andThen_forget (ih _ s h.2) fun s => ?_
    rw [h.1, ← Plural.exp_text]
    rfl
  | post o e ih => intro p s h; exact andThen_forget (ih _ s h) fun s => rfl
  | pre o e ih => intro p s h; exact andThen_forget (ih _ s h) fun s => rfl
  | bin o l r ihl ihr =>
    intro p s h
    refine andThen_forget (ihl _ s h.1) fun s => andThen_forget (ihr _ s h.2) fun s => ?_
    exact andThen_forget (by rw [Plural.onBopP_eq]) fun s => rfl
  | tern c a b ihc iha ihb =>
    intro p s h
    exact andThen_forget (ihc _ s h.1) fun s => andThen_forget (iha _ s h.2.1) fun s => andThen_forget (ihb _ s h.2.2) fun s => rfl

/-- **C133** For a tree without gaps the log is what C103 says about the expression. -/
theorem C133_whole (text : Place → Str) (n : Int64) (e : Plural.Exp) (hl : Plural.GoodLits e) (hv : Verbatim text [] e) (ls : List Str) :
    Logs [] ((treeOf e).acts text n []) ls ↔ ∃ out, Plural.Trace n [] e ls out := by
  let L : Fmt.Lib := { isPrint := fun _ => false, quoteRune := fun _ _ => [] }
  have lits : ∀ e, Plural.GoodLits e → (treeOf e).Lits := by
    intro e
    induction e with
    | n => exact fun _ => trivial
    | int ds => exact fun h => h
    | paren e ih => exact fun h => ih h
    | post o e ih => exact fun h => ih h
    | pre o e ih => exact fun h => ih h
    | bin o l r ihl ihr => exact fun h => ⟨ihl h.1, ihr h.2⟩
    | tern c a b ihc iha ihb => exact fun h => ⟨ihc h.1, iha h.2.1, ihb h.2.2⟩
  have h := logged L text n (treeOf e) (lits e hl) [] []
  have hlog : Logs [] ((treeOf e).acts text n []) (walkRD L true text n [] (treeOf e) []).1 := by
    unfold Logged at h
    split at h
    · simpa using h [] [] .done
    · simpa using h []
  obtain ⟨ls', h1, h2⟩ := Plural.walkD_trace L n e hl []
  have h3 := walkRD_whole L text n e [] [] hv
  rw [List.reverse_nil] at h2
  rw [h2] at h3
  have h4 := (Prod.mk.inj h3).1
  rw [← h4] at hlog
  constructor
  · intro h'
    rw [logs_unique h' hlog]
    exact ⟨_, h1⟩
  · rintro ⟨out, h'⟩
    rw [(Plural.trace_unique _ _ _ _ _ _ _ h' h1).1]
    exact hlog

/-! ## Examples -/

/-- `n-` with n = 5: the missing operand is not mentioned, and the operator takes 5 and what is not there. -/
example : Logs [] ((Tree.bin .sub .n .hole).acts (fun _ => []) 5 []) [b!"primary: n stack=[5]\n", b!"bop   : - stack=[5]\n",
    b!"bop done stack=[-5]\n"] :=
  Logs.num (x := 5) (.bin (x := -5) (by decide +kernel) .done)

/-- The tree of this text, which is not among the built-in ones, is this one, so the above is printed. -/
example : parseText b!"n-" = some (.bin .sub .n .hole, [.syntaxError 1 2 b!"mismatched input '<EOF>' expecting {'++', '--', '+', '-', '~', '!', '(', 'n', INT}"]) ∧
    ∀ p ∈ Plural.commons, p.1 ≠ GoStr.removeByte 32 b!"n-" := by
  constructor <;> decide +kernel

/-- `(n` with the text that ANTLR makes of it; the parentheses are not closed. -/
example : Logs [] ((Tree.paren .n).acts (fun _ => b!"(n<missing ')'>") 5 []) [b!"primary: n stack=[5]\n",
    b!"primary: (exp) stack=[5]\n", b!"primary: (n<missing ')'> stack=[5]\n"] :=
  Logs.num (x := 5) (.close .done)

/-- `n/0` ends in front of the result. -/
example : Logs [] ((Tree.bin .div .n (.int b!"0")).acts (fun _ => []) 5 []) [b!"primary: n stack=[5]\n", b!"primary: 0 stack=[5 0]\n",
    b!"bop   : / stack=[5 0]\n"] :=
  Logs.num (x := 5) (.num (x := 0) (.undefined (by decide +kernel)))

/-- The text of the parentheses in `(n)*2`. -/
example : Verbatim (fun _ => b!"(n)") [] (.bin .mul (.paren .n) (.int b!"2")) := ⟨⟨by decide, trivial⟩, trivial⟩

end Verif.Antlr
