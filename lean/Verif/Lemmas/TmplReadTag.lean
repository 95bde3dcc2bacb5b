import Verif.Lemmas.TmplReadPipe
/-!
# What the scanner and the parser make of written actions
-/
namespace Verif.Tmpl
open Verif Verif.Xt

variable {C : Cfg} {P : PCfg} {K : Str → Prop}

/-! ## Declarations -/

theorem lex_sign (hC : Std C) {a : Str} (h : Sign a) : ∃ a0 t, Blank a0 ∧ (t = .assign ∨ t = .declare) ∧ (∀ r, Stop C (a ++ r)) ∧
    ∀ r line d, C.run (.at (a ++ r) line d) = spaceTok a0 line ++ ⟨t, line + breaks a⟩ :: C.run (.at r (line + breaks a) d) := by
  rcases h with ⟨a0, ha, rfl⟩ | ⟨a0, ha, rfl⟩
  · refine ⟨a0, .declare, ha, .inr rfl, fun r => ?_, fun r line d => ?_⟩
    · cases a0 with
      | nil => exact ⟨58, 61 :: r, rfl, by simp⟩
      | cons x a0 => exact ⟨x, _, rfl, .inl ha.cons.1⟩
    · rw [List.append_assoc, lex_spaces hC ha (r := b!":=" ++ r) (.of (by decide)), breaks_append,
        show breaks b!":=" = 0 from rfl, Nat.add_zero]
      change _ ++ C.run (.at (58 :: 61 :: r) _ _) = _
      rw [lex_declare hC]
  · refine ⟨a0, .assign, ha.1, .inl rfl, fun r => ?_, fun r line d => ?_⟩
    · exact (follow_spaces ha (b!"=" ++ r)).stop.elim fun c h => by
        obtain ⟨t, h1, h2⟩ := h
        exact ⟨c, t, by rw [← h1]; simp, h2⟩
    · rw [List.append_assoc, lex_spaces hC ha.1 (r := b!"=" ++ r) (.of (by decide)), breaks_append,
        show breaks b!"=" = 0 from rfl, Nat.add_zero]
      change _ ++ C.run (.at (61 :: r) _ _) = _
      rw [lex_assign hC]

theorem decl_sign {p : Place} {second : Bool} {v : Str} {l l' : Nat} {sp : List Item} (hs : Sp sp) {t : Tok} (ht : t = .assign ∨ t = .declare)
    (r : List Item) (vars : List Str) :
    decl p second (⟨.var v, l⟩ :: (sp ++ ⟨t, l'⟩ :: r)) vars = some (r, vars ++ [v], false) := by
  rw [decl, skip_solid (by simp)]
  dsimp only
  rw [skip_sp hs]
  rcases ht with rfl | rfl
  · rw [skip_solid (by simp)]
  · rw [skip_solid (by simp)]

theorem decl_comma {v w : Str} {l l' l2 : Nat} {sp sp' : List Item} (hs : Sp sp) (hs' : Sp sp') (r : List Item) (vars : List Str) :
    decl .rangeP false (⟨.var v, l⟩ :: (sp ++ ⟨.char 44, l'⟩ :: (sp' ++ ⟨.var w, l2⟩ :: r))) vars =
      some (sp' ++ ⟨.var w, l2⟩ :: r, vars ++ [v], true) := by
  rw [decl, skip_solid (by simp)]
  dsimp only
  rw [skip_sp hs, skip_solid (by simp)]
  simp only [and_self, if_true]
  rw [skip_sp hs', skip_solid (by simp)]

theorem decl_sp {p : Place} {second : Bool} {sp is : List Item} (h : Sp sp) (vars : List Str) :
    decl p second (sp ++ is) vars = decl p second is vars := by
  rw [decl, decl, skip_sp h]

/-- What the scanner and the parser make of a pipeline with declarations. -/
structure ReadHead (C : Cfg) (P : PCfg) (place : Place) (vars vars' : List Str) (s : Str) (p : Pipe) (line : Nat) (i : Item) (tl : List Item) :
    Prop where
  ln : i.line = line
  start : starts i.tok = true
  good : ∀ j ∈ i :: tl, Good j
  scan : ∀ r, Follow C r → C.run (.at (s ++ r) line 0) = i :: tl ++ C.run (.at r (line + breaks s) 0)
  pipe : ∀ sp e r, Sp sp → place.ends e.tok = true →
    Ev fun n => P.pipeline n place (i :: tl ++ (sp ++ e :: r)) vars = some (p, r, vars')

theorem read_head_plain {place : Place} {vars : List Str} {s : Str} {p : Pipe} {line : Nat} {i : Item} {tl : List Item}
    (hp : checkPipe p = true) (h : ReadPipe C P vars s p line 0 i tl) : ReadHead C P place vars vars s p line i tl where
  ln := h.ln
  start := h.start
  good := h.good
  scan := h.scan
  pipe sp e r hs he := pipeline_of (h.nodecl place sp e r hs (ends_ender he).1) (h.cmds place sp e r hs he) hp

theorem breaks_var {v : Str} (h : Ident v) : breaks (36 :: v) = 0 := by
  rw [breaks, List.count_cons_of_ne (by decide)]; exact breaks_ident h

theorem read_head (hC : Std C) {rg : Prop} {vars vars' : List Str} {dc core : Str} {p : Pipe} {place : Place} (hd : SpellDecl rg vars dc vars')
    (hrg : rg → place = .rangeP) (hs : Solid core) (hp : checkPipe p = true)
    (h : ∀ line, ∃ i tl, ReadPipe C P vars' core p line 0 i tl) (line : Nat) :
    ∃ i tl, ReadHead C P place vars vars' (dc ++ core) p line i tl := by
  cases hd with
  | none =>
    obtain ⟨i, tl, h⟩ := h line
    exact ⟨i, tl, read_head_plain hp h⟩
  | @one v a b hv ha hb =>
    obtain ⟨a0, t, ha0, ht, hstop, hsc⟩ := lex_sign hC ha
    obtain ⟨i, tl, h⟩ := h (line + breaks (36 :: v ++ a ++ b))
    have hgt : Good ⟨t, line + breaks a⟩ := by
      rcases ht with rfl | rfl <;> exact good_of (by simp)
    refine ⟨⟨.var (36 :: v), line⟩, spaceTok a0 line ++ ⟨t, line + breaks a⟩ :: (spaceTok b (line + breaks a) ++ i :: tl), rfl, rfl, ?_, ?_, ?_⟩
    · exact good_cons (good_of (by simp)) (good_append (good_space _ _) (good_cons hgt (good_append (good_space _ _) h.good)))
    · intro r hr
      have e : 36 :: v ++ a ++ b ++ core ++ r = 36 :: v ++ (a ++ (b ++ (core ++ r))) := by simp
      have e2 : line + breaks a + breaks b = line + breaks (36 :: v ++ a ++ b) := by
        rw [breaks_append, breaks_append, breaks_var hv]; omega
      have e3 : line + breaks (36 :: v ++ a ++ b ++ core) = line + breaks (36 :: v ++ a ++ b) + breaks core := by
        rw [breaks_append (36 :: v ++ a ++ b)]; omega
      rw [e, lex_var hC (.inr hv) (hstop _), hsc, lex_spaces hC hb (hs.append r), e2, h.scan r hr, e3]
      simp
    · intro sp e r hsp he
      have hdec : decls place (⟨.var (36 :: v), line⟩ :: (spaceTok a0 line ++ ⟨t, line + breaks a⟩ :: (spaceTok b (line + breaks a) ++
          (i :: tl ++ (sp ++ e :: r))))) vars = some (spaceTok b (line + breaks a) ++ (i :: tl ++ (sp ++ e :: r)), vars ++ [36 :: v]) := by
        rw [decls, decl_sign (spaceTok_sp _ _) ht]
      have := pipeline_of hdec ((h.cmds place sp e r hsp he).mono fun n hn => by rw [cmds_sp (spaceTok_sp _ _), hn]) hp
      simpa using this
  | @two v w a b c d hr0 hv ha hb hw hc hd =>
    have hpl := hrg hr0
    subst hpl
    obtain ⟨a0, t, ha0, ht, hstop, hsc⟩ := lex_sign hC hc
    obtain ⟨i, tl, h⟩ := h (line + breaks (a ++ b ++ c ++ d))
    have hgt : Good ⟨t, line + breaks (a ++ b) + breaks c⟩ := by
      rcases ht with rfl | rfl <;> exact good_of (by simp)
    refine ⟨⟨.var (36 :: v), line⟩, spaceTok a line ++ ⟨.char 44, line + breaks a⟩ :: (spaceTok b (line + breaks a) ++
      ⟨.var (36 :: w), line + breaks (a ++ b)⟩ :: (spaceTok a0 (line + breaks (a ++ b)) ++ ⟨t, line + breaks (a ++ b) + breaks c⟩ ::
      (spaceTok d (line + breaks (a ++ b) + breaks c) ++ i :: tl))), rfl, rfl, ?_, ?_, ?_⟩
    · exact good_cons (good_of (by simp)) (good_append (good_space _ _) (good_cons (good_of (by simp)) (good_append (good_space _ _)
        (good_cons (good_of (by simp)) (good_append (good_space _ _) (good_cons hgt (good_append (good_space _ _) h.good)))))))
    · intro r hr
      have e : 36 :: v ++ a ++ b!"," ++ b ++ 36 :: w ++ c ++ d ++ core ++ r =
          36 :: v ++ (a ++ 44 :: (b ++ (36 :: w ++ (c ++ (d ++ (core ++ r)))))) := by simp
      have hst : Stop C (a ++ 44 :: (b ++ (36 :: w ++ (c ++ (d ++ (core ++ r)))))) := by
        cases a with
        | nil => exact ⟨44, _, rfl, by simp⟩
        | cons x a => exact ⟨x, _, rfl, .inl ha.cons.1⟩
      have e1 : line + breaks a + breaks b = line + breaks (a ++ b) := by rw [breaks_append]; omega
      have e2 : line + breaks (a ++ b) + breaks c + breaks d = line + breaks (a ++ b ++ c ++ d) := by
        simp only [breaks_append]; omega
      have e3 : line + breaks (36 :: v ++ a ++ b!"," ++ b ++ 36 :: w ++ c ++ d ++ core) = line + breaks (a ++ b ++ c ++ d) + breaks core := by
        simp only [breaks_append, breaks_var hv, breaks_var hw, show breaks b!"," = 0 from rfl]; omega
      rw [e, lex_var hC (.inr hv) hst, lex_spaces hC ha (.of (by decide)), lex_comma hC,
        lex_spaces hC hb (r := 36 :: w ++ (c ++ (d ++ (core ++ r)))) (.of (by decide)), e1, lex_var hC (.inr hw) (hstop _), hsc,
        lex_spaces hC hd (hs.append r), e2, h.scan r hr, e3]
      simp
    · intro sp e r hsp he
      have hdec : decls .rangeP (⟨.var (36 :: v), line⟩ :: (spaceTok a line ++ ⟨.char 44, line + breaks a⟩ :: (spaceTok b (line + breaks a) ++
          ⟨.var (36 :: w), line + breaks (a ++ b)⟩ :: (spaceTok a0 (line + breaks (a ++ b)) ++ ⟨t, line + breaks (a ++ b) + breaks c⟩ ::
          (spaceTok d (line + breaks (a ++ b) + breaks c) ++ (i :: tl ++ (sp ++ e :: r))))))) vars =
          some (spaceTok d (line + breaks (a ++ b) + breaks c) ++ (i :: tl ++ (sp ++ e :: r)), vars ++ [36 :: v, 36 :: w]) := by
        rw [decls, decl_comma (spaceTok_sp _ _) (spaceTok_sp _ _)]
        dsimp only
        rw [decl_sp (spaceTok_sp _ _), decl_sign (spaceTok_sp _ _) ht]
        simp
      have := pipeline_of hdec ((h.cmds .rangeP sp e r hsp he).mono fun n hn => by rw [cmds_sp (spaceTok_sp _ _), hn]) hp
      simpa using this

/-! ## Delimiters -/

theorem head_ok {sp t : Str} (hs : Blank sp) (ht : Solid t) : leftTrim (sp ++ t) = false ∧ GoStr.hasPrefix (sp ++ t) b!"/*" = false := by
  have key : ∀ c s, (c = 45 → ∃ e u, s = e :: u ∧ isSpace e = false) → c ≠ 47 →
      leftTrim (c :: s) = false ∧ GoStr.hasPrefix (c :: s) b!"/*" = false := by
    intro c s h1 h2
    constructor
    · unfold leftTrim
      split
      · next heq =>
        cases heq
        obtain ⟨e, u, he, hx⟩ := h1 rfl
        cases he; exact hx
      · rfl
    · rw [Bool.eq_false_iff]
      simp [GoStr.hasPrefix, Ne.symm h2]
  cases sp with
  | nil =>
    obtain ⟨c, s, rfl, -, h1, h2⟩ := ht
    refine key c s (fun e => ?_) h1
    obtain ⟨x, u, he, hx, -⟩ := h2 e
    exact ⟨x, u, he, hx⟩
  | cons x sp =>
    have hx := hs.cons.1
    refine key x (sp ++ t) ?_ ?_
    · rintro rfl; exact absurd hx (by decide)
    · rintro rfl; exact absurd hx (by decide)

theorem read_open (hC : Std C) {b : Bool} {o sp t : Str} (ho : Open C.delims b o) (hs : Blank sp) (ht : Solid t) (line : Nat) :
    C.run { rest := o ++ (sp ++ t), line } =
      ⟨.left, line⟩ :: (spaceTok sp (line + breaks o) ++ C.run (.at t (line + breaks (o ++ sp)) 0)) := by
  rw [lex_open hC ho (head_ok hs ht).1 (head_ok hs ht).2, lex_spaces hC hs ht, breaks_append, Nat.add_assoc]

theorem open_head {b : Bool} {o sp t : Str} (ho : Open C.delims b o) (hs : Blank sp) (ht : Solid t) : OpenAt C b (o ++ (sp ++ t)) :=
  open_at ho (head_ok hs ht).1 (.inl (head_ok hs ht).2)

theorem follow_close (hC : Std C) {c : Bool} {e : Str} (h : Close C.delims c e) (r : Str) : Follow C (e ++ r) := by
  cases h with
  | plain =>
    obtain ⟨c, t, h1, h2⟩ := hC.right
    have h3 := has_self C.right r
    rw [h1, List.cons_append] at h3
    refine ⟨c, t ++ r, ?_, .inr (.inr (.inr ⟨h2, ?_⟩))⟩
    · change C.right ++ r = _; rw [h1]; rfl
    · rw [h1]; exact h3
  | @trim x hx => exact ⟨x, 45 :: C.right ++ r, rfl, .inl hx.cons.1⟩

theorem follow_blank_close (hC : Std C) {c : Bool} {sp e : Str} (hs : Blank sp) (h : Close C.delims c e) (r : Str) : Follow C (sp ++ (e ++ r)) :=
  follow_sp hs (follow_close hC h r)

/-- A word of letters. -/
theorem ident_of {w : Str} (h1 : w ≠ []) (h2 : w.all isIdentStart = true) : Ident w := by
  rw [List.all_eq_true] at h2
  cases w with
  | nil => exact absurd rfl h1
  | cons c t => exact ⟨c, t, rfl, (identStart_iff c).mp (h2 c (by simp)), fun x hx => .inl ((identStart_iff x).mp (h2 x (by simp [hx])))⟩

/-- The items of an action that consists of a keyword. -/
def KwToks (k : Kw) (toks : List Item) : Prop :=
  ∃ l sp l1 sp' l2, Sp sp ∧ Sp sp' ∧ toks = ⟨.left, l⟩ :: (sp ++ ⟨.kw k, l1⟩ :: (sp' ++ [⟨.right, l2⟩]))

theorem read_word (hC : Std C) {w : Str} {k : Kw} (hw : Ident w) (hk : C.word w = .kw k) {b c : Bool} {s : Str} (h : Word C.delims w b s c) (line : Nat) :
    (∀ r, OpenAt C b (s ++ r)) ∧
    ∀ r, ∃ toks, KwToks k toks ∧ C.run { rest := s ++ r, line } = toks ++ C.run (.out c r (line + breaks s)) := by
  cases h with
  | @mk _ o sp sp' e ho hsp hsp' he =>
    have he1 : ∀ r, o ++ sp ++ w ++ sp' ++ e ++ r = o ++ (sp ++ (w ++ (sp' ++ (e ++ r)))) := by intro r; simp
    refine ⟨fun r => ?_, fun r => ?_⟩
    · rw [he1]; exact open_head ho hsp ((ident_solid hw).append _)
    · obtain ⟨l2, h2⟩ := lex_blank_close hC hsp' he r (line + breaks (o ++ sp))
      refine ⟨_, ⟨line, spaceTok sp (line + breaks o), line + breaks (o ++ sp), spaceTok sp' (line + breaks (o ++ sp)), l2, spaceTok_sp _ _,
        spaceTok_sp _ _, rfl⟩, ?_⟩
      rw [he1, read_open hC ho hsp ((ident_solid hw).append _), lex_word hC hw (follow_blank_close hC hsp' he r).stop, hk,
        ← List.append_assoc sp', h2]
      have : line + breaks (o ++ sp) + breaks (sp' ++ e) = line + breaks (o ++ sp ++ w ++ sp' ++ e) := by
        simp only [breaks_append, breaks_ident hw]; omega
      rw [this]
      simp

theorem good_kw {k : Kw} {toks : List Item} (h : KwToks k toks) : ∀ j ∈ toks, Good j := by
  obtain ⟨l, sp, l1, sp', l2, hs, hs', rfl⟩ := h
  have key : ∀ sp, Sp sp → ∀ j ∈ sp, Good j := by
    rintro sp (rfl | ⟨l, rfl⟩) j hj
    · cases hj
    · rw [List.mem_singleton.mp hj]; exact good_of (by simp)
  exact good_cons (good_of (by simp)) (good_append (key sp hs) (good_cons (good_of (by simp)) (good_append (key sp' hs')
    (good_cons (good_of (by simp)) (by simp)))))

end Verif.Tmpl
