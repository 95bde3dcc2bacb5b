import Verif.Model.TmplLex
/-!
# What the scanner of templates does with the functions

Registered functions make a difference only to whether a name is known, `break` and `continue` apart.
-/
namespace Verif.Tmpl
open Verif

variable {C : Cfg}

/-- The scanner with other functions. -/
def Cfg.with (C : Cfg) (h : Str → Bool) : Cfg := { C with has := h }

/-- The item with other functions. -/
def relabel (h : Str → Bool) (i : Item) : Item :=
  match i.tok with
  | .ident w _ => ⟨.ident w (h w), i.line⟩
  | _ => i

theorem relabel_other {h : Str → Bool} {i : Item} (hi : ∀ w k, i.tok ≠ .ident w k) : relabel h i = i := by
  unfold relabel
  split
  · next w k hw => exact absurd hw (hi w k)
  · rfl

/-- Agreement on the loop keywords that may be functions. -/
def Loops (h h' : Str → Bool) : Prop := h b!"break" = h' b!"break" ∧ h b!"continue" = h' b!"continue"

theorem keyword_brk {w : Str} (h : keyword w = some .brk) : w = b!"break" := by
  unfold keyword at h
  repeat (split at h; first | assumption | cases h)
  cases h

theorem keyword_cont {w : Str} (h : keyword w = some .cont) : w = b!"continue" := by
  unfold keyword at h
  repeat (split at h; first | assumption | cases h)
  cases h

theorem word_with {h : Str → Bool} (hb : Loops C.has h) (w : Str) (line : Nat) :
    (⟨(C.with h).word w, line⟩ : Item) = relabel h ⟨C.word w, line⟩ := by
  have e1 : (C.with h).has = h := rfl
  unfold Cfg.word
  rw [e1]
  cases hk : keyword w with
  | none =>
    dsimp only
    split
    · rfl
    · split
      · rfl
      · rfl
  | some k =>
    cases k with
    | brk =>
      have := keyword_brk hk
      subst this
      dsimp only
      rw [hb.1]
      cases hh : h b!"break" with
      | true => rw [if_pos rfl]; simp only [relabel, hh]
      | false => rfl
    | cont =>
      have := keyword_cont hk
      subst this
      dsimp only
      rw [hb.2]
      cases hh : h b!"continue" with
      | true => rw [if_pos rfl]; simp only [relabel, hh]
      | false => rfl
    | _ => rfl

theorem lexText_with (h : Str → Bool) : ∀ n l, (C.with h).lexText n l = C.lexText n l
  | 0, _ => rfl
  | n + 1, l => by
    rw [Cfg.lexText, Cfg.lexText]
    simp only [lexText_with h n]
    rfl

theorem spanN_with (h : Str → Bool) : ∀ n s, (C.with h).spanN n s = C.spanN n s
  | 0, _ => rfl
  | n + 1, s => by
    rw [Cfg.spanN, Cfg.spanN]
    simp only [spanN_with h n]
    rfl

theorem span_with (h : Str → Bool) (s : Str) : (C.with h).span s = C.span s := spanN_with h _ _

theorem lexIdent_with {h : Str → Bool} (hb : Loops C.has h) (l : Lx) :
    (C.with h).lexIdent l = (relabel h (C.lexIdent l).1, (C.lexIdent l).2) := by
  unfold Cfg.lexIdent
  rw [span_with]
  change (if C.terminator (C.span l.rest).2 then l.emit ((C.with h).word (C.span l.rest).1) (C.span l.rest).2 else l.fail) = _
  dsimp only
  split
  · rw [Lx.emit, Lx.emit, word_with hb]
  · rfl

theorem lexName_with (h : Str → Bool) (l : Lx) (s : Str) (single : Tok) (named : Str → Tok) :
    (C.with h).lexName l s single named = C.lexName l s single named := by
  unfold Cfg.lexName
  rw [span_with]
  rfl

/-- The result of a function that does not look at the functions. -/
theorem same_pair {h : Str → Bool} {x : Item × Lx} (hx : ∀ w k, x.1.tok ≠ .ident w k) : x = (relabel h x.1, x.2) := by
  rw [relabel_other hx]

theorem ite_pair {h : Str → Bool} {c : Prop} [Decidable c] {a b a' b' : Item × Lx} (h1 : c → a = (relabel h a'.1, a'.2))
    (h2 : ¬c → b = (relabel h b'.1, b'.2)) :
    (if c then a else b) = (relabel h (if c then a' else b').1, (if c then a' else b').2) := by
  by_cases hc : c
  · rw [if_pos hc, if_pos hc]; exact h1 hc
  · rw [if_neg hc, if_neg hc]; exact h2 hc

theorem lexRight_tok (l : Lx) (b : Bool) : ∀ w k, (C.lexRight l b).1.tok ≠ .ident w k := by
  intro w k h; cases h

theorem lexSpace_tok (l : Lx) : ∀ w k, (C.lexSpace l).1.tok ≠ .ident w k := by
  intro w k
  unfold Cfg.lexSpace
  dsimp only
  split
  · split
    · exact lexRight_tok l true w k
    · intro h; cases h
  · intro h; cases h

theorem lexNumber_tok (l : Lx) : ∀ w k, (C.lexNumber l).1.tok ≠ .ident w k := by
  intro w k
  unfold Cfg.lexNumber
  split
  · intro h; cases h
  · split
    · split
      · split
        · intro h; cases h
        · split
          · intro h; cases h
          · intro h; cases h
      · intro h; cases h
    · intro h; cases h

theorem lexName_tok (l : Lx) (s : Str) {single : Tok} {named : Str → Tok} (h1 : ∀ w k, single ≠ .ident w k)
    (h2 : ∀ n w k, named n ≠ .ident w k) : ∀ w k, (C.lexName l s single named).1.tok ≠ .ident w k := by
  intro w k
  unfold Cfg.lexName
  split
  · exact h1 w k
  · dsimp only
    split
    · exact h2 _ w k
    · intro h; cases h

theorem lexInside_with {h : Str → Bool} (hb : Loops C.has h) (l : Lx) :
    (C.with h).lexInside l = (relabel h (C.lexInside l).1, (C.lexInside l).2) := by
  unfold Cfg.lexInside
  rw [show (C.with h).atRight l.rest = C.atRight l.rest from rfl]
  cases C.atRight l.rest with
  | some t =>
    exact ite_pair (fun _ => same_pair (lexRight_tok l t)) fun _ => rfl
  | none =>
    dsimp only
    cases hs : l.rest with
    | nil => rfl
    | cons c s =>
      dsimp only
      refine ite_pair (fun _ => same_pair (lexSpace_tok l)) fun _ => ?_
      refine ite_pair (fun _ => rfl) fun _ => ?_
      refine ite_pair (fun _ => ?_) fun _ => ?_
      · split <;> rfl
      refine ite_pair (fun _ => rfl) fun _ => ?_
      refine ite_pair (fun _ => ?_) fun _ => ?_
      · split <;> rfl
      refine ite_pair (fun _ => ?_) fun _ => ?_
      · split <;> rfl
      refine ite_pair (fun _ => ?_) fun _ => ?_
      · rw [lexName_with]
        exact same_pair (lexName_tok l s (by intro w k h; cases h) (by intro n w k h; cases h))
      refine ite_pair (fun _ => ?_) fun _ => ?_
      · split <;> rfl
      refine ite_pair (fun _ => ?_) fun _ => ?_
      · split
        · refine ite_pair (fun _ => same_pair (lexNumber_tok l)) fun _ => ?_
          rw [lexName_with]
          exact same_pair (lexName_tok l _ (by intro w k h; cases h) (by intro n w k h; cases h))
        · exact same_pair (lexNumber_tok l)
      refine ite_pair (fun _ => same_pair (lexNumber_tok l)) fun _ => ?_
      refine ite_pair (fun _ => lexIdent_with hb l) fun _ => ?_
      refine ite_pair (fun _ => rfl) fun _ => ?_
      refine ite_pair (fun _ => ?_) fun _ => ?_
      · exact ite_pair (fun _ => rfl) fun _ => rfl
      exact ite_pair (fun _ => rfl) fun _ => rfl

theorem lexText_tok : ∀ (n : Nat) (l : Lx) w k, (C.lexText n l).1.tok ≠ .ident w k
  | 0, l, w, k => by intro h; cases h
  | n + 1, l, w, k => by
    rw [Cfg.lexText]
    split
    · split <;> (intro h; cases h)
    · dsimp only
      generalize (if leftTrim _ = true then trimEnd _ else _) = text
      by_cases ht : text ≠ []
      · rw [if_pos ht]; intro h; cases h
      · rw [if_neg ht]
        split
        · split
          · intro h; cases h
          · exact lexText_tok n _ w k
        · intro h; cases h

theorem next_with {h : Str → Bool} (hb : Loops C.has h) (l : Lx) :
    (C.with h).next l = (relabel h (C.next l).1, (C.next l).2) := by
  unfold Cfg.next
  refine ite_pair (fun _ => lexInside_with hb l) fun _ => ?_
  rw [lexText_with]
  exact same_pair (lexText_tok _ l)

theorem relabel_end {h : Str → Bool} (i : Item) :
    ((relabel h i).tok = .eof ∨ (relabel h i).tok = .err) ↔ (i.tok = .eof ∨ i.tok = .err) := by
  unfold relabel
  split
  · next hw => simp [hw]
  · rfl

theorem itemsN_with {h : Str → Bool} (hb : Loops C.has h) : ∀ n l,
    (C.with h).itemsN n l = (C.itemsN n l).map (relabel h)
  | 0, _ => rfl
  | n + 1, l => by
    rw [Cfg.itemsN, Cfg.itemsN, next_with hb]
    dsimp only
    rw [itemsN_with hb n]
    simp only [relabel_end]
    split <;> rfl

/-- The functions make a difference only to whether a name is known. -/
theorem items_with {h : Str → Bool} (hb : Loops C.has h) (src : Str) :
    (C.with h).items src = (C.items src).map (relabel h) := itemsN_with hb _ _

end Verif.Tmpl
