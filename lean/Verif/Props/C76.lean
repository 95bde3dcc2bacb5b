import Verif.Lemmas.TmplReadFile
import Verif.Props.C74
/-!
# C76: what is written is what is extracted
-/
namespace Verif.Tmpl
open Verif Verif.Xt

open Classical in
/-- **C76**: a text that is written for trees, with delimiters that nothing else is mistaken for, is parsed to these trees by a run of the
extractor, whichever functions it calls. -/
theorem C76_parsed {E : Env} {num : Tok → Bool} (hg : GoParser E num) (hE : AsciiClasses E)
    (hN : Accepts num) (p : Param) (hD : (delimsOf p).Plain) (kws : List Keyword) (src : Str) (main : List Stmt) (named : Defs)
    (h : Written (Given kws p) (delimsOf p) src main named) : parsed E p kws src = some (named.map (·.2) ++ [main]) := by
  generalize hreg : (fun n => decide (Given kws p n ∨ n ≠ b!"break" ∧ n ≠ b!"continue")) = registered
  have hhas : ∀ n, registered n = true ↔ Given kws p n ∨ n ≠ b!"break" ∧ n ≠ b!"continue" := by
    intro n; rw [← hreg, decide_eq_true_eq]
  have hsame : SameLoops kws p registered := by
    constructor
    · rw [hhas]; exact ⟨fun h => h.elim id fun h => absurd rfl h.1, .inl⟩
    · rw [hhas]; exact ⟨fun h => h.elim id fun h => absurd rfl h.2, .inl⟩
  have hstd : Std (mkCfg p.left p.right (hasFunction registered) E.letter E.digit) := by
    obtain ⟨⟨c, t, h1, h2⟩, -, h3, ⟨c', t', h4, h5, h6, h7, h8, h9⟩, h10⟩ := hD
    have nb : ∀ c : UInt8, ¬ Blank [c] → isSpace c = false := by
      intro c hc
      rw [Bool.eq_false_iff]
      exact fun h => hc (blank_iff.mpr (by simpa using h))
    refine ⟨⟨c, t, h1, nb c h2⟩, ⟨c', t', h4, ?_⟩, List.count_eq_zero.mpr h3, List.count_eq_zero.mpr h10, cfg_ascii hE _ _ _⟩
    have hw : isWordByte c' = false := by
      rw [Bool.eq_false_iff]
      exact fun h => ((word_iff c').mp h).elim h7 h8
    rw [closing, decide_eq_true h5, nb c' h6, hw, List.contains_eq_mem, decide_eq_false h9]
    rfl
  have hknows : Knows (mkCfg p.left p.right (hasFunction registered) E.letter E.digit) (Given kws p) := by
    refine ⟨fun w hw => ?_, ?_, ?_⟩
    · change hasFunction registered w = true
      rw [hasFunction, Bool.or_eq_true, hhas]
      by_cases hb : w = b!"break" ∨ w = b!"continue"
      · exact .inr (.inl (hw.2.1 (by rcases hb with rfl | rfl <;> simp [TemplateKeyword])).2)
      · exact .inr (.inr (not_or.mp hb))
    · change hasFunction registered b!"break" = true ↔ _
      rw [hasFunction, show predefined.contains b!"break" = false by decide +kernel, Bool.false_or]; exact hsame.1
    · change hasFunction registered b!"continue" = true ↔ _
      rw [hasFunction, show predefined.contains b!"continue" = false by decide +kernel, Bool.false_or]; exact hsame.2
  have hpe : PlainEnd p.left := by
    intro a x ha
    refine hD.leftEnd a x ?_
    rw [← ha, delimsOf]
    exact if_neg (by rw [ha]; simp)
  obtain ⟨h1, h2⟩ := parse_written hstd hknows hN h
  refine suffices_items hg hE p hpe kws src registered hsame _ (fun i hi w k ht x hx => ?_) h1
  obtain ⟨⟨c, t, rfl, hc, ht⟩, -⟩ := h2 i hi w k ht
  refine word_low x ((word_iff x).mpr ?_)
  rcases List.mem_cons.mp hx with rfl | hx
  · exact .inl hc
  · exact ht x hx

/-- **C76**: the entries of a file are those of the trees it is written for. -/
theorem C76_entries {E : Env} {num : Tok → Bool} (hg : GoParser E num) (hE : AsciiClasses E)
    (hN : Accepts num) (p : Param) (hD : (delimsOf p).Plain) (kws : List Keyword) (d : Disk) (f src : Str) (hf : d.files (E.canon f) = some src)
    (main : List Stmt) (named : Defs) (h : Written (Given kws p) (delimsOf p) src main named) (es : List Tr.Entry) :
    FileOk E p kws d f es ↔ es.Perm ((main :: named.map (·.2)).flatMap (allEntries kws f)) := by
  have hp := C76_parsed hg hE hN p hD kws src main named h
  have hperm : ((named.map (·.2) ++ [main]).flatMap (allEntries kws f)).Perm ((main :: named.map (·.2)).flatMap (allEntries kws f)) :=
    List.Perm.flatMap_right _ List.perm_append_comm
  constructor
  · rintro ⟨src', roots, h1, h2, h3⟩
    rw [hf] at h1
    cases h1
    rw [hp] at h2
    cases h2
    exact h3.trans hperm
  · intro hes
    exact ⟨src, _, hf, hp, hes.trans hperm.symm⟩

/-- **C76**: an entry is among those of a file exactly if one of the trees it is written for asks for it. -/
theorem C76_exact {E : Env} {num : Tok → Bool} (hg : GoParser E num) (hE : AsciiClasses E)
    (hN : Accepts num) (p : Param) (hD : (delimsOf p).Plain) (kws : List Keyword) (d : Disk) (f src : Str) (hf : d.files (E.canon f) = some src)
    (main : List Stmt) (named : Defs) (h : Written (Given kws p) (delimsOf p) src main named) (es : List Tr.Entry) (hes : FileOk E p kws d f es)
    (e : Tr.Entry) :
    e ∈ es ↔ TemplateEntry kws f main e ∨ ∃ name root, (name, root) ∈ named ∧ TemplateEntry kws f root e := by
  have key : ∀ root, e ∈ allEntries kws f root ↔ TemplateEntry kws f root e := by
    intro root
    rw [← (C54_count kws f root).mem_iff, C54_exact]
  rw [((C76_entries hg hE hN p hD kws d f src hf main named h es).mp hes).mem_iff, List.mem_flatMap]
  constructor
  · rintro ⟨root, hm, he⟩
    rw [key] at he
    rcases List.mem_cons.mp hm with rfl | hm
    · exact .inl he
    · obtain ⟨⟨name, root⟩, hm', rfl⟩ := List.mem_map.mp hm
      exact .inr ⟨name, root, hm', he⟩
  · rintro (he | ⟨name, root, hm, he⟩)
    · exact ⟨main, by simp, (key main).mpr he⟩
    · exact ⟨root, List.mem_cons_of_mem _ (List.mem_map.mpr ⟨_, hm, rfl⟩), (key root).mpr he⟩

/-! ## One call -/

/-- Every text between actions has nodes. -/
theorem gap_exists (before after : Bool) (t : Str) : ∃ ns, Gap before after t ns ∧ ∀ n ∈ ns, n = .other := by
  have hl : ∀ t, ∃ u, TrimsLeft t u := by
    intro t
    refine ⟨t.dropWhile isSpace, t.takeWhile isSpace, List.takeWhile_append_dropWhile.symm, ?_, ?_⟩
    · exact blank_iff.mpr fun x hx => by
        have := List.mem_takeWhile_imp hx
        exact this
    · intro x v hu hb
      have := List.head?_dropWhile_not isSpace t
      rw [hu] at this
      have hx := blank_iff.mp hb x (by simp)
      simp [hx] at this
  have hrt : ∀ t, ∃ u, TrimsRight t u := by
    intro t
    obtain ⟨u, a, h1, h2, h3⟩ := hl t.reverse
    refine ⟨u.reverse, a.reverse, ?_, ?_, ?_⟩
    · have := congrArg List.reverse h1
      simpa using this
    · intro x hx; exact h2 x (List.mem_reverse.mp hx)
    · intro x v hu
      exact h3 x v.reverse (by have := congrArg List.reverse hu; simpa using this)
  obtain ⟨u, hu⟩ : ∃ u, if before then TrimsLeft t u else u = t := by
    cases before with
    | true => exact hl t
    | false => exact ⟨t, rfl⟩
  obtain ⟨v, hv⟩ : ∃ v, if after then TrimsRight u v else v = u := by
    cases after with
    | true => exact hrt u
    | false => exact ⟨u, rfl⟩
  by_cases h : v = []
  · subst h
    refine ⟨[], .nothing hu ?_, by simp⟩
    cases after with
    | true => exact hv
    | false => exact hv.symm
  · exact ⟨[.other], .text hu hv h, by simp⟩

/-- **C76**: a file that is a text with one action: its entries are those its pipeline asks for, with the line
the pipeline begins on. -/
theorem C76_action {E : Env} {num : Tok → Bool} (hg : GoParser E num) (hE : AsciiClasses E)
    (hN : Accepts num) (p : Param) (hD : (delimsOf p).Plain) (kws : List Keyword) (d : Disk) (f pre o sp s c post : Str) (b b' : Bool) (pipe : Pipe)
    (hf : d.files (E.canon f) = some (pre ++ o ++ sp ++ s ++ c ++ post)) (hpre : Free (delimsOf p).left pre)
    (hpost : ∀ x y, post ≠ x ++ (delimsOf p).left ++ y) (ho : Open (delimsOf p) b o) (hsp : Blank sp) (hs : SpellPipe (Given kws p) [b!"$"] s pipe)
    (hc : Close (delimsOf p) b' c) :
    ∃ es, FileOk E p kws d f es ∧
      ∀ e, e ∈ es ↔ PipeEntry kws (f ++ b!":" ++ Num.natDigits (1 + breaks (pre ++ o ++ sp))) pipe e := by
  obtain ⟨ns, hns, hns2⟩ := gap_exists false b pre
  obtain ⟨ns', hns', hns2'⟩ := gap_exists b' false post
  have hw : Written (Given kws p) (delimsOf p) (pre ++ o ++ sp ++ s ++ c ++ post)
      (ns ++ [.action (1 + breaks pre + breaks (o ++ sp)) pipe] ++ ns') [] := by
    refine ⟨?_, by simp⟩
    have h1 : SpellNode (Given kws p) (delimsOf p) 0 [b!"$"] b (1 + breaks pre) (o ++ sp ++ [] ++ s ++ c) _ [] [b!"$"] b' := .action ho hsp .none hs hc
    have h2 := SpellPiece.node hpre hns h1
    have h3 := SpellFile.cons h2 (.last hpost hns')
    simpa using h3
  obtain ⟨es, hes⟩ : ∃ es, FileOk E p kws d f es :=
    ⟨_, (C76_entries hg hE hN p hD kws d f _ hf _ _ hw _).mpr (List.Perm.refl _)⟩
  refine ⟨es, hes, fun e => ?_⟩
  rw [C76_exact hg hE hN p hD kws d f _ hf _ _ hw es hes]
  have hline : 1 + breaks pre + breaks (o ++ sp) = 1 + breaks (pre ++ o ++ sp) := by simp only [breaks_append]; omega
  rw [hline]
  constructor
  · rintro (⟨line, q, n, hn, hp, he⟩ | ⟨_, _, hm, -⟩)
    · simp only [List.mem_append, List.mem_singleton] at hn
      rcases hn with (hn | rfl) | hn
      · rw [hns2 n hn] at hp; cases hp
      · cases hp; exact he
      · rw [hns2' n hn] at hp; cases hp
    · cases hm
  · intro he
    exact .inl ⟨_, pipe, _, by simp, .action, he⟩

/-- **C76**: a call of a keyword with a literal for the message anywhere in a text is extracted: the entry has the
value of the literal and the place of the call. -/
theorem C76_message {E : Env} {num : Tok → Bool} (hg : GoParser E num) (hE : AsciiClasses E)
    (hN : Accepts num) (p : Param) (hD : (delimsOf p).Plain) (kws : List Keyword) (d : Disk) (f pre o sp n sp' q m sp'' c post : Str) (b b' : Bool)
    (hf : d.files (E.canon f) = some (pre ++ o ++ sp ++ n ++ sp' ++ q ++ sp'' ++ c ++ post)) (hpre : Free (delimsOf p).left pre)
    (hpost : ∀ x y, post ≠ x ++ (delimsOf p).left ++ y) (ho : Open (delimsOf p) b o) (hsp : Blank sp) (hn : FuncName (Given kws p) n) (hsp' : Spaces sp')
    (hq : Literal q m) (hsp'' : Blank sp'') (hc : Close (delimsOf p) b' c) (hk : (⟨n, 0, 1, 0⟩ : Keyword) ∈ kws) :
    ∃ es e, FileOk E p kws d f es ∧ e ∈ es ∧ e.id = m ∧ e.ctxt = [] ∧ e.isPlural = false ∧
      ∃ more, e.cmts = (b!"#: " ++ f ++ b!":" ++ Num.natDigits (1 + breaks (pre ++ o ++ sp))) :: more := by
  have hs : SpellPipe (Given kws p) [b!"$"] (n ++ sp' ++ q ++ sp'') [[.ident n, .str m]] :=
    .one (.cons (.name hn) hsp' (.one (.literal hq))) hsp''
  obtain ⟨es, h1, h2⟩ := C76_action hg hE hN p hD kws d f pre o sp _ c post b b' _
    (by simpa using hf) hpre hpost ho hsp hs hc
  obtain ⟨cmts, hcm⟩ : ∃ cmts, cmts = [b!"#: " ++ (f ++ b!":" ++ Num.natDigits (1 + breaks (pre ++ o ++ sp)))] ++
    if 37 ∈ m ∨ 37 ∈ ([] : Str) then [b!"#, go-format"] else [] := ⟨_, rfl⟩
  refine ⟨es, { cmts, id := m, isPlural := false, str := [] }, h1, (h2 _).mpr ?_, rfl, rfl, rfl, _, by rw [hcm]; simp; rfl⟩
  refine ⟨_, .self, _, .alone [] [] [.ident n, .str m] rfl (by simp), [], .ident n, [.str m], n, rfl, .ident n, _, hk, rfl, ?_⟩
  refine ⟨⟨[.str m], [], [m], rfl, .cons (.str m) .nil, ?_, ⟨[], [], rfl, rfl⟩, by simp, by simp⟩, by simp, hcm, rfl, rfl⟩
  intro k
  simp only [Declared, List.length_singleton]
  omega

/-! ## Examples -/

def stdDelims : Delims := ⟨b!"{{", b!"}}"⟩

theorem free_of {t : Str} (h : 123 ∉ t) : Free b!"{{" t := by
  intro a b he
  have hc := congrArg (List.count 123) he
  simp only [List.count_append, List.count_eq_zero_of_not_mem h, show List.count 123 b!"{{" = 2 from rfl] at hc
  by_contra hb
  obtain ⟨b', x, rfl⟩ : ∃ b' x, b = b' ++ [x] := ⟨b.dropLast, b.getLast hb, (List.dropLast_append_getLast hb).symm⟩
  have hl := congrArg List.getLast? he
  rw [← List.append_assoc, List.getLast?_concat] at hl
  have hx : x = 123 := by simpa using hl.symm
  subst hx
  rw [List.count_append, show List.count 123 [(123 : UInt8)] = 1 from rfl] at hc
  omega

def exText : Str := b!"{{define \"a\"}}x{{end}}é{{range $i, $x := .L}}\n{{- T \"m\" | printf $x.Y -}} {{else}}no{{end}}\n"

def exMain : List Stmt :=
  [.other, .rangeN 1 [[.field [b!"L"]]] [.action 2 [[.ident b!"T", .str b!"m"], [.ident b!"printf", .var [b!"$x", b!"Y"]]]] [.other], .other]

/-- Example: a text with a definition, a loop with two variables, trim markers and a pipeline. -/
theorem ex_written (K : Str → Prop) : Written K stdDelims exText exMain [(b!"a", [.other])] := by
  have fn : ∀ n, n = b!"T" ∨ n = b!"printf" → FuncName K n := by
    rintro n (rfl | rfl) <;>
    exact ⟨ident_of (by simp) (by decide +kernel), fun h => absurd h (by simp [TemplateKeyword]), by simp, by simp, by simp⟩
  have id : ∀ n : Str, n ≠ [] → n.all isIdentStart = true → Ident n := fun n => ident_of
  have lit : ∀ c, c = 97 ∨ c = 109 → Literal [34, c, 34] [c] := by
    rintro c (rfl | rfl) <;> exact .quoted (s := [_]) (.char (by decide) (by decide) (by decide) .nil) (by decide +kernel)
  have sp1 : Spaces b!" " := ⟨by simp [Blank], by simp⟩
  have nil : Blank [] := by simp [Blank]
  have cmd1 : SpellCmd K [b!"$", b!"$i", b!"$x"] b!"T \"m\"" [.ident b!"T", .str b!"m"] :=
    .cons (s := b!"T") (sp := b!" ") (.name (fn _ (.inl rfl))) sp1 (.one (.literal (lit 109 (.inr rfl))))
  have cmd2 : SpellCmd K [b!"$", b!"$i", b!"$x"] b!"printf $x.Y" [.ident b!"printf", .var [b!"$x", b!"Y"]] :=
    .cons (s := b!"printf") (sp := b!" ") (.name (fn _ (.inr rfl))) sp1
      (.one (.var (v := b!"x") (ids := [b!"Y"]) (.inr (id _ (by simp) (by decide +kernel))) (by simp) (by
        simpa using id b!"Y" (by simp) (by decide +kernel))))
  have pipe : SpellPipe K [b!"$", b!"$i", b!"$x"] b!"T \"m\" | printf $x.Y" _ :=
    .cons (sp := b!" ") (sp' := b!" ") cmd1 sp1.1 sp1.1 (.one (sp := []) cmd2 nil) trivial
  have act : SpellNode K stdDelims 1 [b!"$", b!"$i", b!"$x"] true 2 b!"{{- T \"m\" | printf $x.Y -}}" (.action 2 _) [] _ true :=
    .action (l := 2) (o := b!"{{- ") (sp := []) (dc := []) (e := b!" -}}") (.trim (by simp [Blank])) nil .none pipe (.trim (by simp [Blank]))
  have body : SpellNodes K stdDelims 1 [b!"$", b!"$i", b!"$x"] false 1 b!"\n{{- T \"m\" | printf $x.Y -}} " ([] ++ [.action 2 _] ++ []) ([] ++ []) _ false :=
    .cons (s := b!"\n{{- T \"m\" | printf $x.Y -}}") (rest := b!" ")
      (.node (b := true) (t := b!"\n") (free_of (by simp)) (.nothing (u := b!"\n") rfl ⟨b!"\n", rfl, by simp [Blank], by simp⟩) act)
      (.last (free_of (by simp)) (.nothing (u := []) ⟨b!" ", rfl, by simp [Blank], by simp⟩ rfl))
  have els : SpellTail K stdDelims b!"range" 0 [b!"$", b!"$i", b!"$x"] false 2 b!"{{else}}no{{end}}" [.other] [] false :=
    .els (s := b!"{{else}}") (body := b!"no") (fin := b!"{{end}}") (.mk (sp := []) (sp' := []) .plain nil nil .plain)
      (.last (after := false) (free_of (by simp)) (.text rfl rfl (by simp))) (.mk (sp := []) (sp' := []) .plain nil nil .plain)
  have range : SpellControl K stdDelims b!"range" 0 [b!"$"] 1 b!"range $i, $x := .L}}\n{{- T \"m\" | printf $x.Y -}} {{else}}no{{end}}"
      (.rangeN 1 [[.field [b!"L"]]] _ _) ([] ++ []) false :=
    .mk (mk := .rangeN) (sp' := b!" ") (dc := b!"$i, $x := ") (s := b!".L") (e := b!"}}") (body := b!"\n{{- T \"m\" | printf $x.Y -}} ")
      (tail := b!"{{else}}no{{end}}") .rangeC sp1
      (.two (v := b!"i") (w := b!"x") (a := []) (b := b!" ") (c := b!" :=") (d := b!" ") rfl (id _ (by simp) (by decide +kernel)) nil sp1.1
        (id _ (by simp) (by decide +kernel)) (.inl ⟨b!" ", sp1.1, rfl⟩) sp1.1)
      (.one (s := b!".L") (sp := []) (.one (.field (ids := [b!"L"]) (by simp) (by simpa using id b!"L" (by simp) (by decide +kernel)))) nil)
      .plain body els
  have file : SpellFile K stdDelims [b!"$"] false 1 exText ([] ++ ([.other] ++ [.rangeN 1 [[.field [b!"L"]]] _ _] ++ [.other]))
      ([] ++ (b!"a", [.other]) :: ([] ++ [])) :=
    .define (t := []) (o := b!"{{") (sp := []) (sp' := b!" ") (q := b!"\"a\"") (sp'' := []) (e := b!"}}") (body := b!"x") (fin := b!"{{end}}")
      (b := false) (b' := false) (b'' := false) (c := false)
      (free_of (by simp)) (.nothing rfl rfl) .plain nil sp1 (lit 97 (.inl rfl)) nil .plain (.last (free_of (by simp)) (.text rfl rfl (by simp)))
      (.mk (sp := []) (sp' := []) .plain nil nil .plain)
      (.cons (s := b!"é{{range $i, $x := .L}}\n{{- T \"m\" | printf $x.Y -}} {{else}}no{{end}}") (rest := b!"\n")
        (.node (b := false) (t := b!"é") (free_of (by decide)) (.text rfl rfl (by simp))
          (.control (o := b!"{{") (sp := []) .plain nil range))
        (.last (by
          intro a b h
          have := congrArg List.length h
          simp [stdDelims] at this
          omega) (.text rfl rfl (by simp))))
  exact ⟨file, by simp⟩

/-- Example: the parser agrees. -/
example : (goParse (fun _ => true) sampleEnv.letter sampleEnv.digit [] [] (fun n => n == b!"T") exText).isSome = true := by
  decide +kernel

theorem plain_of : ∀ D : Delims, (∃ c t, D.left = c :: t ∧ isSpace c = false) → (∀ x ∈ D.left.getLast?, isWordByte x = false) →
    10 ∉ D.left → (∃ c t, D.right = c :: t ∧ closing c = true) → 10 ∉ D.right → D.Plain := by
  rintro D ⟨c, t, h1, h2⟩ h3 h4 ⟨c', t', h5, h6⟩ h7
  refine ⟨⟨c, t, h1, fun h => ?_⟩, ?_, h4, ⟨c', t', h5, ?_⟩, h7⟩
  · rw [blank_iff.mp h c (by simp)] at h2; cases h2
  · intro a x ha h
    have := h3 x (by rw [ha]; simp)
    rw [(word_iff x).mpr h] at this; cases this
  · simp only [closing, Bool.and_eq_true, decide_eq_true_eq, Bool.not_eq_true'] at h6
    obtain ⟨⟨⟨h6, h7⟩, h8⟩, h9⟩ := h6
    refine ⟨h6, fun h => ?_, fun h => ?_, fun h => ?_, by simpa using h9⟩
    · rw [blank_iff.mp h c' (by simp)] at h7; cases h7
    · rw [(word_iff c').mpr (.inl h)] at h8; cases h8
    · rw [(word_iff c').mpr (.inr h)] at h8; cases h8

theorem plain_std : stdDelims.Plain := plain_of stdDelims ⟨_, _, rfl, by decide⟩ (by decide +kernel) (by decide) ⟨_, _, rfl, by decide +kernel⟩ (by decide)

/-- Example: the default delimiters and some others are plain. -/
example (p : Param) : (delimsOf { p with left := [], right := [] }).Plain ∧
    (delimsOf { p with left := b!"<%", right := b!"%>" }).Plain ∧ (delimsOf { p with left := b!"/*", right := b!"*/" }).Plain ∧
    (delimsOf { p with left := b!"@-", right := b!";" }).Plain :=
  ⟨plain_std, plain_of ⟨b!"<%", b!"%>"⟩ ⟨_, _, rfl, by decide⟩ (by decide +kernel) (by decide) ⟨_, _, rfl, by decide +kernel⟩ (by decide),
    plain_of ⟨b!"/*", b!"*/"⟩ ⟨_, _, rfl, by decide⟩ (by decide +kernel) (by decide) ⟨_, _, rfl, by decide +kernel⟩ (by decide),
    plain_of ⟨b!"@-", b!";"⟩ ⟨_, _, rfl, by decide⟩ (by decide +kernel) (by decide) ⟨_, _, rfl, by decide +kernel⟩ (by decide)⟩

/-- Example: a text with other delimiters. -/
example (K : Str → Prop) : Written K ⟨b!"<%", b!"%>"⟩ b!"{{<%- T \"m\"%>\n" [.other, .action 1 [[.ident b!"T", .str b!"m"]], .other] [] := by
  have sp1 : Spaces b!" " := ⟨by simp [Blank], by simp⟩
  have nil : Blank [] := by simp [Blank]
  have fn : FuncName K b!"T" :=
    ⟨ident_of (by simp) (by decide +kernel), fun h => absurd h (by simp [TemplateKeyword]), by simp, by simp, by simp⟩
  have cmd : SpellCmd K [b!"$"] b!"T \"m\"" [.ident b!"T", .str b!"m"] :=
    .cons (s := b!"T") (sp := b!" ") (.name fn) sp1 (.one (.literal (.quoted (s := [109])
      (.char (by decide) (by decide) (by decide) .nil) (by decide +kernel))))
  have act : SpellNode K ⟨b!"<%", b!"%>"⟩ 0 [b!"$"] true 1 b!"<%- T \"m\"%>" (.action 1 _) [] _ false :=
    .action (l := 1) (o := b!"<%- ") (sp := []) (dc := []) (e := b!"%>") (.trim (by simp [Blank])) nil .none (.one (sp := []) cmd nil) .plain
  refine ⟨.cons (b := false) (s := b!"{{<%- T \"m\"%>") (rest := b!"\n") (ns := [.other, .action 1 _]) (ns' := [.other])
    (.node (before := false) (b := true) (t := b!"{{") (ns := [.other]) ?_ (.text (u := b!"{{") (v := b!"{{") rfl ⟨[], rfl, by simp [Blank], ?_⟩ (by simp)) act)
    (.last ?_ (.text (u := b!"\n") (v := b!"\n") rfl rfl (by simp))), by simp⟩
  · intro a b h
    have h1 : ∀ (a b : Str), ([123, 123, 60, 37] : Str) = a ++ [60, 37] ++ b → b = [] := by
      intro a b h
      match a, h with
      | [], h => cases h
      | [_], h => cases h
      | [_, _], h => simp only [List.cons_append, List.nil_append, List.cons.injEq, true_and] at h; exact h.2.2.symm
      | _ :: _ :: _ :: a, h =>
        have := congrArg List.length h
        simp at this
        omega
    exact h1 a b h
  · intro x v h
    match v, h with
    | [], h => cases h
    | [_], h =>
      simp only [List.cons_append, List.nil_append, List.cons.injEq, and_true] at h
      rw [← h.2]
      simp [Blank]
    | _ :: _ :: v, h =>
      have := congrArg List.length h
      simp at this
  · intro a b h
    have := congrArg List.length h
    simp at this
    omega

/-- Example: the parser agrees.  With a right delimiter that is not plain, `)`, a text is not read as it is written: its first
parenthesis would be the end of the action. -/
example : (goParse (fun _ => true) sampleEnv.letter sampleEnv.digit b!"<%" b!"%>" (fun n => n == b!"T") b!"{{<%- T \"m\"%>\n").isSome = true ∧
    (goParse (fun _ => true) sampleEnv.letter sampleEnv.digit [] b!")" (fun n => n == b!"T") b!"{{T (print 1))").isSome = false := by
  decide +kernel

/-- Example: a call in a text. -/
example : Literal b!"\"Hi\\n\"" b!"Hi\n" ∧ Free b!"{{" b!"<p>\n" ∧ FuncName (fun _ => False) b!"T" ∧ Open stdDelims true b!"{{-\n" ∧
    Accepts (fun _ : Tok => true) := by
  refine ⟨?_, free_of (by decide), ⟨ident_of (by simp) (by decide +kernel), fun h => absurd h (by simp [TemplateKeyword]), by simp, by simp,
    by simp⟩, .trim (by simp [Blank]), ⟨fun _ _ => rfl, fun _ _ => rfl, fun _ _ => rfl⟩⟩
  exact .quoted (s := b!"Hi\\n") (.char (by decide) (by decide) (by decide) (.char (by decide) (by decide) (by decide)
    (.esc (by decide) .nil))) (by decide +kernel)

/-- Example: numbers and character constants. -/
example : NumberText b!"-1.5e+3" ∧ NumberText b!"0" ∧ NumberText b!"2.i" ∧ NumberText b!"+0x1F" ∧ ComplexText b!"1-0.5i" ∧
    CharText b!"'x'" ∧ CharText b!"'\\n'" ∧
    SpellCmd (fun _ => False) [] b!"print -1 'x'" [.ident b!"print", .other, .other] := by
  have one : ∀ c : UInt8, c ≠ 48 → DigitByte c → Decimal [c] := fun c h1 h2 => .inr ⟨c, [], rfl, h1, by simpa using h2, by simp⟩
  have h1 : Unsigned b!"1" := .mk (w := b!"1") (f := []) (e := []) (one _ (by decide) ⟨by decide, by decide⟩) (.inl rfl) (.inl rfl)
  refine ⟨?_, ?_, ?_, ?_, ?_, .plain (by decide) (by decide) (by decide) (by decide), .escaped (by decide), ?_⟩
  · refine .decimal (g := b!"-") (s := b!"1.5e+3") (.inr (.inr rfl)) (.mk (w := b!"1") (f := b!".5") (e := b!"e+3")
      (one _ (by decide) ⟨by decide, by decide⟩) (.inr ⟨b!"5", rfl, ?_⟩) (.inr ⟨101, b!"+", b!"3", rfl, .inl rfl, .inr (.inl rfl), .inl rfl, ?_⟩))
    · simp [DigitByte]
    · simp [DigitByte]
  · exact .decimal (g := []) (.inl rfl) (.mk (w := b!"0") (f := []) (e := []) (.inl rfl) (.inl rfl) (.inl rfl))
  · exact .imaginary (g := []) (s := b!"2.") (.inl rfl) (.mk (w := b!"2") (f := b!".") (e := []) (one _ (by decide) ⟨by decide, by decide⟩)
      (.inr ⟨[], rfl, by simp⟩) (.inl rfl))
  · exact .prefixed (g := b!"+") (s := b!"0x1F") (.inr (.inl rfl)) (.hex (.inl rfl) (by simp) (by simp) (by simp [DigitByte]))
  · exact .mk (g := []) (s := b!"1") (h := b!"-") (t := b!"0.5") (.inl rfl) h1 (.inr rfl)
      (.mk (w := b!"0") (f := b!".5") (e := []) (.inl rfl) (.inr ⟨b!"5", rfl, by simp [DigitByte]⟩) (.inl rfl))
  · refine .cons (s := b!"print") (sp := b!" ") (t := b!"-1 'x'") (.name ⟨ident_of (by simp) (by decide +kernel), fun h => absurd h
      (by simp [TemplateKeyword]), by simp, by simp, by simp⟩) ⟨by simp [Blank], by simp⟩ (.cons (s := b!"-1") (sp := b!" ") (t := b!"'x'")
      (.number (.decimal (g := b!"-") (.inr (.inr rfl)) h1)) ⟨by simp [Blank], by simp⟩ (.one (.char (.plain (by decide) (by decide)
        (by decide) (by decide)))))

/-- The number of nodes of each template of a text. -/
def nodeCounts (src : Str) : Option (List Nat) :=
  (goParse (fun _ => true) sampleEnv.letter sampleEnv.digit [] [] (fun n => n == b!"T") src).map (·.map List.length)

/-- Example: outside the grammar.  A loop declares two variables at most; a template defined twice keeps the definition that is not
only white space, whichever comes first, and two such definitions are an error. -/
example : nodeCounts b!"{{range $a, $b := .L}}{{end}}" = some [1] ∧ nodeCounts b!"{{range $a, $b, $c := .L}}{{end}}" = none ∧
    nodeCounts b!"{{range $a, $b, $a}}{{end}}" = none ∧
    nodeCounts b!"{{define \"a\"}} {{T \"m\"}}{{end}}{{define \"a\"}} {{end}}" = some [2, 0] ∧
    nodeCounts b!"{{define \"a\"}} {{end}}{{define \"a\"}} {{T \"m\"}}{{end}}" = some [2, 0] ∧
    nodeCounts b!"{{define \"a\"}} {{T \"m\"}}{{end}}{{define \"a\"}}x {{T \"n\"}}{{end}}" = none := by
  decide +kernel

end Verif.Tmpl
