import Verif.Lemmas.TmplReadNode
import Verif.Lemmas.TmplFuel
/-!
# What the scanner and the parser make of written files
-/
namespace Verif.Tmpl
open Verif Verif.Xt

variable {C : Cfg} {P : PCfg} {K : Str → Prop}

theorem read_file (hC : Std C) (hK : Knows C K) (hN : Accepts P.num) {vars : List Str} {before : Bool} {l : Nat}
    {s : Str} {ns : List Stmt} {ds : Defs} (h : SpellFile K C.delims vars before l s ns ds) :
    ∃ toks xs R, (∀ j ∈ toks, Good j) ∧ xs.map (·.1) = ns ∧ Er R ds ∧ C.run (.out before s l) = toks ∧
      ∀ root trees, Fresh trees (ds ++ [([], [])]) →
        Ev fun m => P.top m ⟨toks, vars, trees⟩ root = some (trees ++ R ++ [([], root ++ xs)]) := by
  induction h with
  | @last vars before l t ns hf hg =>
    obtain ⟨toks, k, ht, hs⟩ := lex_last hC hf hg l
    obtain ⟨hgood, xs, hx, hst⟩ := gap_steps (P := P) ht 0
    refine ⟨toks ++ [⟨.eof, k⟩], xs, [], good_append hgood (good_cons (good_of (l := k) (by simp)) (by simp)), hx, rfl, hs, fun root trees hfr => ?_⟩
    refine top_steps (hst [⟨.eof, k⟩] vars trees) (Ev.of fun n => ?_)
    rw [PCfg.top]
    dsimp only
    rw [if_pos rfl, add_fresh hfr, List.append_nil]
  | @cons vars vars' before b l s rest ns ns' ds ds' h _ ih =>
    obtain ⟨t1, x1, R1, g1, m1, e1, s1, p1⟩ := read_piece (P := P) hC hK hN h rest
    obtain ⟨t2, x2, R2, g2, m2, e2, s2, p2⟩ := ih
    refine ⟨t1 ++ t2, x1 ++ x2, R1 ++ R2, good_append g1 g2, by rw [List.map_append, m1, m2], e1.append e2, by rw [s1, s2], fun root trees hfr => ?_⟩
    rw [List.append_assoc] at hfr
    refine top_steps (p1 t2 trees hfr.left) ?_
    have := p2 (root ++ x1) (trees ++ R1) (hfr.right e1)
    simpa using this
  | @define vars vars' before b b' b'' c l t o sp sp' q name sp'' e body fin rest ns ns' ns'' ds ds' hf hg ho hsp hsp' hq hsp'' he hb hw _ ih =>
    obtain ⟨tk, htk, hh⟩ := read_named (C := C) (k := .define) hC ho hsp (ident_of (w := b!"define") (by simp) (by decide +kernel)) rfl hsp' hq
    have hb := read_nodes (P := P) hC hK hN hb
    obtain ⟨t2, x2, R2, g2, m2, e2, s2, p2⟩ := ih
    obtain ⟨t1, x1, R1, g1, m1, e1, s1, p1⟩ := list_end hC hb hw rest
    have ea : t ++ o ++ sp ++ b!"define" ++ sp' ++ q ++ sp'' ++ e ++ body ++ fin ++ rest =
        t ++ (o ++ sp ++ b!"define" ++ sp' ++ q ++ (sp'' ++ (e ++ (body ++ fin ++ rest)))) := by simp
    obtain ⟨t0, ht0, hs0⟩ := lex_gap hC hf hg (hh 0 (sp'' ++ (e ++ (body ++ fin ++ rest)))).1 l
    obtain ⟨g0, x0, hx0, hst⟩ := gap_steps (P := P) ht0 0
    obtain ⟨k, hk⟩ := close_ok hC hsp'' he (body ++ fin ++ rest) (l + breaks t + breaks (o ++ sp ++ b!"define" ++ sp' ++ q))
    have eb : l + breaks t + breaks (o ++ sp ++ b!"define" ++ sp' ++ q) + breaks (sp'' ++ e) =
        l + breaks (t ++ o ++ sp ++ b!"define" ++ sp' ++ q ++ sp'' ++ e) := by
      simp only [breaks_append]; omega
    have ec : l + breaks (t ++ o ++ sp ++ b!"define" ++ sp' ++ q ++ sp'' ++ e) + breaks (body ++ fin) =
        l + breaks (t ++ o ++ sp ++ b!"define" ++ sp' ++ q ++ sp'' ++ e ++ body ++ fin) := by
      simp only [breaks_append]; omega
    generalize hl' : l + breaks t = l' at *
    refine ⟨t0 ++ ⟨.left, l'⟩ :: (spaceTok sp (l' + breaks o) ++ ⟨.kw .define, l' + breaks (o ++ sp)⟩ :: (spaceTok sp' (l' + breaks (o ++ sp)) ++
      ⟨tk, l' + breaks (o ++ sp ++ sp')⟩ :: (spaceTok sp'' (l' + breaks (o ++ sp ++ b!"define" ++ sp' ++ q)) ++ ⟨.right, k⟩ :: (t1 ++ t2)))),
      x0 ++ x2, R1 ++ (name, x1) :: R2, ?_, by rw [List.map_append, hx0, m2], ?_, ?_, fun root trees hfr => ?_⟩
    · exact good_append g0 (good_cons (good_left _) (good_append (good_space _ _) (good_cons (good_key _ _) (good_append (good_space _ _)
        (good_cons (good_lit htk _) (good_append (good_space _ _) (good_cons (good_right _) (good_append g1 g2))))))))
    · have : Er ((name, x1) :: R2) ((name, ns') :: ds') := by rw [Er, List.map_cons, e2, m1]
      exact e1.append this
    · rw [ea, hs0, (hh l' _).2, hk, eb, s1, ec, s2]
    · refine top_steps (hst _ vars trees) ?_
      have hfr1 : Fresh trees (ds ++ ((name, ns') :: (ds' ++ [([], [])]))) := by simpa using hfr
      have hfr2 : Fresh (trees ++ R1) ([(name, ns')] ++ (ds' ++ [([], [])])) := hfr1.right e1
      have hfr3 : Fresh (trees ++ R1 ++ [(name, x1)]) (ds' ++ [([], [])]) := hfr2.right (by rw [Er, ← m1]; rfl)
      have hadd := add_fresh hfr2.left x1
      have h2 := p2 (root ++ x0) (trees ++ R1 ++ [(name, x1)]) hfr3
      have := top_define (P := P) (l := l') (l1 := l' + breaks (o ++ sp)) (l2 := l' + breaks (o ++ sp ++ sp')) (l3 := k) (vars := vars)
        (root := root ++ x0) (spaceTok_sp sp (l' + breaks o)) (spaceTok_sp sp' (l' + breaks (o ++ sp)))
        (spaceTok_sp sp'' (l' + breaks (o ++ sp ++ b!"define" ++ sp' ++ q))) htk (p1 t2 trees hfr1.left).2 hadd h2
      simpa using this

/-- A written file is parsed, with its trees. -/
theorem parse_written {num : Tok → Bool} (hC : Std C) (hK : Knows C K) (hN : Accepts num) {src : Str}
    {main : List Stmt} {named : Defs} (h : Written K C.delims src main named) :
    parse num C src = some (named.map (·.2) ++ [main]) ∧ ∀ i ∈ C.items src, Good i := by
  obtain ⟨toks, xs, R, hg, hx, hR, hs, hp⟩ := read_file (P := ⟨num⟩) hC hK hN h.1
  have hit : C.items src = toks := hs
  refine ⟨?_, by rw [hit]; exact hg⟩
  have hfr : Fresh [] (named ++ [([], [])]) := by
    have := h.2
    rw [Fresh, List.map_append]
    rw [List.nodup_cons] at this
    simp only [List.map_nil, List.nil_append, List.map_cons]
    rw [List.nodup_append]
    refine ⟨this.2, by simp, ?_⟩
    rintro a ha b hb rfl
    rw [List.mem_singleton] at hb
    exact this.1 (hb ▸ ha)
  obtain ⟨n0, hn⟩ := hp [] [] hfr
  unfold parse
  dsimp only
  rw [hit, ← top_enough (n := 16 * toks.length + 16) (by dsimp only; omega) [] n0, show ([36] : Str) = b!"$" from rfl, hn _ (by omega)]
  simp only [List.nil_append, Option.map_some, List.map_append, List.map_cons, List.map_nil, hx]
  rw [← hR, List.map_map]
  rfl

end Verif.Tmpl
