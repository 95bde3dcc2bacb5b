import Verif.Props.C79
import Verif.Props.C81
import Verif.Props.C91
import Verif.Props.C95
import Verif.Spec.Directory
/-!
# C96: a run over a directory

The pieces are put together: which files the pattern names, what is read in them, what the POT says, and what the
message becomes.
-/
namespace Verif.Flow
open Verif
open Verif.W (PotFor answer Completes Within PluralAsForms InUse PoFor)
open Verif.Xt (Env Param Disk Keyword FileOk Conflicts NoEotIn ToStdout DeclaresAll OpenOk OneLine Globs)

/-- What is taken for granted about the system: `Glob`, the template parser and the character classes are those of Go, a
directory lists names, and what was written without an error was written. -/
structure System (E : Env) (view : (Str → Option Str) → Glob.Fs) (num : Tmpl.Tok → Bool) : Prop where
  globs : Globs E view
  proper : ∀ files, (view files).Proper
  parser : Tmpl.GoParser E num
  classes : Tmpl.AsciiClasses E
  numbers : Tmpl.Accepts num
  newline : E.isPrint 10 = false
  cr : E.isPrint 13 = false
  sink : ∀ t, (E.sink t).2 = true → (E.sink t).1 = t

/-- What a run that ends well has found out. -/
theorem run_facts {E : Env} {p : Param} {d d1 d' : Disk} (h1 : Xt.Opened E p d d1) {printed : List Xt.RunErr}
    (h : Xt.Run E p d (.returned none printed d')) :
    ∃ kws fs, DeclaresAll p.keyword kws ∧ OpenOk E p ∧ E.glob d1.files p.input = some fs := by
  rw [Xt.opened_iff] at h1
  subst h1
  generalize ho : Xt.Outcome.returned none printed d' = o at h
  cases h with
  | keyword => cases ho
  | openOutput => cases ho
  | glob => simp only [Xt.Outcome.returned.injEq, Xt.finish] at ho; split at ho <;> simp at ho
  | panic => cases ho
  | failed => simp only [Xt.Outcome.returned.injEq, Xt.finish] at ho; split at ho <;> simp at ho
  | written hk ho' hg => exact ⟨_, _, (Xt.C53_exact _ _).mp hk, (Xt.openOk_iff _ _).mp ho', hg⟩

variable {E : Env} {view : (Str → Option Str) → Glob.Fs} {num : Tmpl.Tok → Bool}

/-- The POT and the files it was made from. -/
theorem run_pot (hS : System E view num) (p : Param) (hout : ¬ ToStdout p) (kws : List Keyword) (hk : DeclaresAll p.keyword kws)
    (d d1 d' : Disk) (h1 : Xt.Opened E p d d1) (hc : Clean E (view d1.files) p kws d1) (printed : List Xt.RunErr)
    (h : Xt.Run E p d (.returned none printed d')) :
    ∃ fs ess text pot, Glob.glob (view d1.files) p.input = some fs ∧ List.Forall₂ (FileOk E p kws d1) fs ess ∧ NoEotIn ess.flatten ∧
      d'.files (E.canon p.output) = some text ∧ Tr.PoText text pot ∧ PotFor ess.flatten pot := by
  obtain ⟨_, fs, -, ho, hg⟩ := run_facts h1 h
  have hg' := hg
  rw [hS.globs] at hg'
  have hn := Glob.C95_glob_sound _ (hS.proper _) _ _ hg'
  obtain ⟨ess, h2, h3⟩ := C81_pot E hS.newline hS.cr hS.sink p hout d kws hk ho d1 h1 fs hg (fun f hf => (hc f (hn f hf)).1)
    printed d' h
  have h4 : NoEotIn ess.flatten := by
    intro e he
    obtain ⟨es, hes, he⟩ := List.mem_flatten.mp he
    obtain ⟨f, hf, hok⟩ := Xt.forall₂_mem_right h2 es hes
    exact (hc f (hn f hf)).2 es hok e he
  obtain ⟨text, pot, h5, h6, h7⟩ := h3 h4
  exact ⟨fs, ess, text, pot, hg', h2, h4, h5, h6, h7⟩

theorem litIn {body t : Str} (h : Tmpl.HasLit body t) : LitIn body t := by
  obtain ⟨x, s, y, h1, h2, -⟩ := h
  exact ⟨x, s, y, h1, (Literal.C91_unquote s t).mp h2⟩

/-- **C96** After a run that ends well with a file as output, this file is a POT for the directory: every file the pattern
names was read, every message asked for in one of them has an entry, every entry but the header is for a message that is
written, in a call of a keyword, in one of the files the pattern names, and no message has two entries. -/
theorem C96_pot (hS : System E view num) (p : Param) (hD : (Tmpl.delimsOf p).Plain) (hout : ¬ ToStdout p) (kws : List Keyword)
    (hk : DeclaresAll p.keyword kws) (d d1 d' : Disk) (h1 : Xt.Opened E p d d1) (hc : Clean E (view d1.files) p kws d1)
    (printed : List Xt.RunErr) (h : Xt.Run E p d (.returned none printed d')) :
    ∃ text pot, d'.files (E.canon p.output) = some text ∧ Tr.PoText text pot ∧
      (∀ f, Glob.Named true (view d1.files) p.input f → (d1.files (E.canon f)).isSome = true) ∧
      (∀ f src e, Glob.Named true (view d1.files) p.input f → E.canon f ≠ E.canon p.output → d.files (E.canon f) = some src →
        AsksFor p kws f src e → ∃ q ∈ pot, q.ctxt = e.ctxt ∧ q.id = e.id) ∧
      (∀ q ∈ pot, q.id ≠ [] → ∃ f src, ∃ kw ∈ kws, Glob.Named false (view d1.files) p.input f ∧ E.canon f ≠ E.canon p.output ∧
        d.files (E.canon f) = some src ∧ CallIn (Tmpl.delimsOf p) src kw.name q.ctxt q.id) ∧
      (pot.map fun q => (q.ctxt, q.id)).Nodup := by
  obtain ⟨fs, ess, text, pot, h2, h3, -, h5, h6, h7⟩ := run_pot hS p hout kws hk d d1 d' h1 hc printed h
  have hcomp := Glob.C95_glob_complete _ (hS.proper _) _ _ h2
  have hsound := Glob.C95_glob_sound _ (hS.proper _) _ _ h2
  obtain ⟨-, ho2, ho3⟩ := h1.2 hout
  refine ⟨text, pot, h5, h6, ?_, ?_, ?_, h7.once⟩
  · intro f hf
    obtain ⟨es, -, src, roots, h8, -⟩ := forall₂_mem_left h3 f (hcomp f hf)
    rw [h8]; rfl
  · intro f src e hf hne hsrc ⟨main, named, hw, he⟩
    obtain ⟨es, hes, hok⟩ := forall₂_mem_left h3 f (hcomp f hf)
    have hm := (Tmpl.C76_exact hS.parser hS.classes hS.numbers p hD kws d1 f src (by rw [ho3 _ hne]; exact hsrc) main named hw es hok e).mpr he
    obtain ⟨q, hq, h8, h9, -⟩ := h7.all e (List.mem_flatten.mpr ⟨es, hes, hm⟩)
    exact ⟨q, hq, h8, h9⟩
  · intro q hq hid
    obtain ⟨e, he, h8, h9⟩ := h7.only q hq hid
    obtain ⟨es, hes, he⟩ := List.mem_flatten.mp he
    obtain ⟨f, hf, hok⟩ := Xt.forall₂_mem_right h3 es hes
    obtain ⟨src, roots, hsrc, hr⟩ := hok
    have hl : 10 ∉ p.left := by
      have := hD.leftLine
      unfold Tmpl.delimsOf at this
      dsimp only at this
      split at this
      · rename_i hl; rw [hl]; simp
      · exact this
    have hr' : 10 ∉ p.right := by
      have := hD.rightLine
      unfold Tmpl.delimsOf at this
      dsimp only at this
      split at this
      · rename_i hl; rw [hl]; simp
      · exact this
    obtain ⟨kw, hkw, a, body, b, g1, g2, g3, g4, -⟩ := Tmpl.C79_text hS.parser hS.classes p hl hr' kws d1 f src hsrc es
      ⟨src, roots, hsrc, hr⟩ e he
    have hne : E.canon f ≠ E.canon p.output := by
      intro heq
      rw [heq, ho2] at hsrc
      cases hsrc
      have hlen := congrArg List.length g1
      have : (Tmpl.leftDelim p).length ≠ 0 := by
        unfold Tmpl.leftDelim
        split
        · decide
        · rename_i hl; simpa using hl
      simp only [List.length_append, List.length_nil] at hlen
      omega
    refine ⟨f, src, kw, hkw, hsound f hf, hne, by rw [← ho3 _ hne]; exact hsrc, a, body, b, g1, ?_, ?_, ?_⟩
    · obtain ⟨x, s, y, g5, g6⟩ := g2
      rcases g6 with rfl | rfl
      · exact ⟨x, y, g5⟩
      · exact ⟨x ++ b!".", y, by rw [g5]; simp⟩
    · rw [← h9]; exact litIn g3
    · rw [← h8]
      split at g4
      · exact .inr (litIn g4)
      · exact .inl g4

variable {α : Type}

/-- **C96** From the text of a template to what the caller gets: `{{T "m"}}` stands anywhere in a file that the pattern names,
the command is run, a PO that answers its POT is in use: then `T("m")` is the translation the PO has for `m`. -/
theorem C96_message (hS : System E view num) (p : Param) (hD : (Tmpl.delimsOf p).Plain) (hout : ¬ ToStdout p) (kws : List Keyword)
    (hk : DeclaresAll p.keyword kws) (d d1 d' : Disk) (h1 : Xt.Opened E p d d1) (hc : Clean E (view d1.files) p kws d1)
    (printed : List Xt.RunErr) (h : Xt.Run E p d (.returned none printed d'))
    -- a file with the call of a keyword
    (f : Str) (hf : Glob.Named true (view d1.files) p.input f) (hne : E.canon f ≠ E.canon p.output)
    (pre o sp n sp' q m sp'' cl post : Str) (b b' : Bool)
    (hsrc : d.files (E.canon f) = some (pre ++ o ++ sp ++ n ++ sp' ++ q ++ sp'' ++ cl ++ post)) (hpre : Tmpl.Free (Tmpl.delimsOf p).left pre)
    (hpost : ∀ x y, post ≠ x ++ (Tmpl.delimsOf p).left ++ y) (hopen : Tmpl.Open (Tmpl.delimsOf p) b o) (hsp : Tmpl.Blank sp)
    (hn : Tmpl.FuncName (Xt.Given kws p) n) (hsp' : Tmpl.Spaces sp') (hq : Tmpl.Literal q m) (hm : m ≠ [])
    (hsp'' : Tmpl.Blank sp'') (hcl : Tmpl.Close (Tmpl.delimsOf p) b' cl) (hkw : (⟨n, 0, 1, 0⟩ : Keyword) ∈ kws)
    -- the message is nowhere used with a plural
    (hsame : ∀ f es, Glob.Named false (view d1.files) p.input f → FileOk E p kws d1 f es →
      ∀ e ∈ es, e.ctxt = [] → e.id = m → e.isPlural = false) :
    ∃ text pot, d'.files (E.canon p.output) = some text ∧ Tr.PoText text pot ∧
      ∀ (c : W.Cfg α) po ts language forms, Tr.PoText po ts → PoFor ts language forms → Completes pot ts →
        ∀ w i, InUse c po language w i → ∃ t, answer ts [] m = some t ∧ t.str ≠ [] ∧
          ∀ args, w.x c i [] m args = .ok (Fmt.format c.fmt t.str args) := by
  obtain ⟨_, fs, -, ho, hg⟩ := run_facts h1 h
  have hg' := hg
  rw [hS.globs] at hg'
  have hsound := Glob.C95_glob_sound _ (hS.proper _) _ _ hg'
  obtain ⟨ess, h2, h3⟩ := C81_message hS.parser hS.classes hS.numbers hS.newline hS.cr hS.sink p hD hout d kws hk ho d1 h1 fs hg
    (fun f hf => (hc f (hsound f hf)).1) printed d' h f (Glob.C95_glob_complete _ (hS.proper _) _ _ hg' f hf) pre o sp n sp' q m sp'' cl
    post b b' (by rw [(h1.2 hout).2.2 _ hne]; exact hsrc) hpre hpost hopen hsp hn hsp' hq hm hsp'' hcl hkw
  refine h3 ?_ ?_
  · intro e he
    obtain ⟨es, hes, he⟩ := List.mem_flatten.mp he
    obtain ⟨f, hf, hok⟩ := Xt.forall₂_mem_right h2 es hes
    exact (hc f (hsound f hf)).2 es hok e he
  · intro e he
    obtain ⟨es, hes, he⟩ := List.mem_flatten.mp he
    obtain ⟨f, hf, hok⟩ := Xt.forall₂_mem_right h2 es hes
    exact hsame f es (hsound f hf) hok e he

/-! ## What the output was before -/

/-- **C96** What the output file was before a run, and whether there was one, has no influence on the run, even if the
pattern names it: the same outcomes are possible. -/
theorem C96_before (E : Env) (p : Param) (hout : ¬ ToStdout p) (kws : List Keyword) (hk : DeclaresAll p.keyword kws) (ho : OpenOk E p)
    (d d2 : Disk) (hs : d.stdout = d2.stdout) (hd : ∀ f, f ≠ E.canon p.output → d.files f = d2.files f) (o : Xt.Outcome) :
    Xt.Run E p d o ↔ Xt.Run E p d2 o := by
  have key : ∀ d d2 : Disk, d.stdout = d2.stdout → (∀ f, f ≠ E.canon p.output → d.files f = d2.files f) →
      Xt.Run E p d o → Xt.Run E p d2 o := by
    intro d d2 hs hd h
    have ht : d.truncate E p = d2.truncate E p := by
      have h2 := (Xt.opened_iff E p d2 _).mpr rfl
      symm
      rw [← Xt.opened_iff]
      obtain ⟨g1, g2, g3⟩ := h2.2 hout
      exact ⟨fun hx => absurd hx hout, fun _ => ⟨g1.trans hs.symm, g2, fun f hf => (g3 f hf).trans (hd f hf).symm⟩⟩
    rw [← Xt.C53_exact] at hk
    rw [← Xt.openOk_iff] at ho
    cases h with
    | keyword h => rw [hk] at h; cases h
    | openOutput _ h2 h3 => rw [h2, h3] at ho; cases ho
    | glob _ _ hg => rw [ht] at hg ⊢; exact .glob hk ho hg
    | panic h1 _ hg hl => rw [ht] at hg hl ⊢; exact .panic h1 ho hg hl
    | failed h1 _ hg hl => rw [ht] at hg hl ⊢; exact .failed h1 ho hg hl
    | written h1 _ hg hl hp => rw [ht] at hg hl ⊢; exact .written h1 ho hg hl hp
  exact ⟨key d d2 hs hd, key d2 d hs.symm fun f hf => (hd f hf).symm⟩

/-- The disk an outcome leaves. -/
def left : Xt.Outcome → Disk
  | .returned _ _ d => d
  | .panicked d => d

theorem run_left (E : Env) (p : Param) (hout : ¬ ToStdout p) (d : Disk) (o : Xt.Outcome) (h : Xt.Run E p d o) :
    (left o).stdout = d.stdout ∧ ∀ f, f ≠ E.canon p.output → (left o).files f = d.files f := by
  have hp : p.toStdout = false := by
    rw [Bool.eq_false_iff]
    intro hx
    unfold Param.toStdout at hx
    simp only [Bool.or_eq_true, decide_eq_true_eq] at hx
    exact hout hx
  have ht : (d.truncate E p).stdout = d.stdout ∧ ∀ f, f ≠ E.canon p.output → (d.truncate E p).files f = d.files f := by
    have h2 := ((Xt.opened_iff E p d _).mpr rfl).2 hout
    exact ⟨h2.1, h2.2.2⟩
  cases h with
  | keyword => exact ⟨rfl, fun _ _ => rfl⟩
  | openOutput => exact ⟨rfl, fun _ _ => rfl⟩
  | glob => exact ht
  | panic => exact ht
  | failed => exact ht
  | written =>
    refine ⟨?_, fun f hf => ?_⟩
    · simp only [left, Disk.write, hp, Bool.false_eq_true, if_false, Disk.put]; exact ht.1
    · simp only [left, Disk.write, hp, Bool.false_eq_true, if_false, Disk.put, if_neg hf]; exact ht.2 f hf

/-- **C96** A second run has the outcomes of the first, however that one ended: no run sees what an earlier one wrote. -/
theorem C96_again (E : Env) (p : Param) (hout : ¬ ToStdout p) (kws : List Keyword) (hk : DeclaresAll p.keyword kws) (ho : OpenOk E p)
    (d : Disk) (o : Xt.Outcome) (h : Xt.Run E p d o) (o2 : Xt.Outcome) : Xt.Run E p (left o) o2 ↔ Xt.Run E p d o2 := by
  obtain ⟨h1, h2⟩ := run_left E p hout d o h
  exact C96_before E p hout kws hk ho _ _ h1 h2 o2

/-! ## More files -/

theorem named_grown {e : Bool} {fs fs' : Glob.Fs} (hg : Grown fs fs') {p x : Str} (h : Glob.Named e fs p x) : Glob.Named e fs' p x := by
  have hi : ∀ {file d x : Str}, Glob.Inside e fs file d x → Glob.Inside e fs' file d x := by
    rintro file d x ⟨ps, ns, n, h1, h2, h3, h4, h5⟩
    obtain ⟨ns', h6, h7⟩ := hg.2 d ns h2
    exact ⟨ps, ns', n, h1, h6, h7 n h3, h4, h5⟩
  induction h with
  | itself h1 h2 => exact .itself h1 (hg.1 _ h2)
  | inDir h1 h2 h3 h4 h5 => exact .inDir h1 h2 h3 h4 (hi h5)
  | inDirs h1 h2 h3 h4 _ h5 ih => exact .inDirs h1 h2 h3 h4 ih (hi h5)

/-- **C96** With more files, and the old ones unchanged, no message is lost. -/
theorem C96_more (hS : System E view num) (p : Param) (hout : ¬ ToStdout p) (kws : List Keyword) (hk : DeclaresAll p.keyword kws)
    (d d1 d' e e1 e' : Disk) (h1 : Xt.Opened E p d d1) (g1 : Xt.Opened E p e e1) (hc : Clean E (view d1.files) p kws d1)
    (gc : Clean E (view e1.files) p kws e1) (ha : ∀ x ns, (view d1.files).names x = some ns → ∀ n ∈ ns, Glob.Ascii n)
    (hg : Grown (view d1.files) (view e1.files)) (hold : ∀ f src, d.files f = some src → f ≠ E.canon p.output → e.files f = some src)
    (pr1 pr2 : List Xt.RunErr) (h : Xt.Run E p d (.returned none pr1 d')) (g : Xt.Run E p e (.returned none pr2 e')) :
    ∃ text1 text2 pot1 pot2, d'.files (E.canon p.output) = some text1 ∧ e'.files (E.canon p.output) = some text2 ∧
      Tr.PoText text1 pot1 ∧ Tr.PoText text2 pot2 ∧
      ∀ q ∈ pot1, q.id ≠ [] → ∃ q' ∈ pot2, q'.ctxt = q.ctxt ∧ q'.id = q.id := by
  obtain ⟨fs, ess, text, pot, h2, h3, -, h5, h6, h7⟩ := run_pot hS p hout kws hk d d1 d' h1 hc pr1 h
  obtain ⟨fs', ess', text', pot', g2, g3, -, g5, g6, g7⟩ := run_pot hS p hout kws hk e e1 e' g1 gc pr2 g
  refine ⟨text, text', pot, pot', h5, g5, h6, g6, fun q hq hid => ?_⟩
  obtain ⟨x, hx, h8, h9⟩ := h7.only q hq hid
  obtain ⟨es, hes, hx⟩ := List.mem_flatten.mp hx
  obtain ⟨f, hf, hok⟩ := Xt.forall₂_mem_right h3 es hes
  have hn := named_grown hg ((Glob.C95_glob_exact _ (hS.proper _) ha _ _ h2 f).mp hf)
  obtain ⟨es', hes', src', roots', k1, k2, k3⟩ := forall₂_mem_left g3 f (Glob.C95_glob_complete _ (hS.proper _) _ _ g2 f hn)
  obtain ⟨src, roots, l1, l2, l3⟩ := hok
  have hsrc : src = src' := by
    by_cases hne : E.canon f = E.canon p.output
    · rw [hne, (h1.2 hout).2.1] at l1
      rw [hne, (g1.2 hout).2.1] at k1
      rw [← Option.some.inj l1, ← Option.some.inj k1]
    · rw [(h1.2 hout).2.2 _ hne] at l1
      rw [(g1.2 hout).2.2 _ hne, hold _ _ l1 hne] at k1
      exact Option.some.inj k1
  subst hsrc
  rw [l2] at k2
  cases k2
  obtain ⟨q', hq', m1, m2, -⟩ := g7.all x (List.mem_flatten.mpr ⟨es', hes', k3.symm.subset (l3.subset hx)⟩)
  exact ⟨q', hq', m1.trans h8, m2.trans h9⟩

/-! ## Example: a directory with two templates, in which the output is written -/

/-- A directory with three possible files. -/
def dirView (files : Str → Option Str) : Glob.Fs where
  found := fun p => (files p).isSome
  names := fun d => if d = b!"." then some ([b!"m.pot", b!"b.t", b!"a.t"].filter fun n => (files n).isSome) else none

/-- See above. -/
def dirEnv : Env := { flowEnv with glob := fun files p => Glob.glob (dirView files) p }

/-- Everything in the directory is input, also the output. -/
def dirParam : Param := ⟨b!"*", [], [], b!"T", [], b!"m.pot"⟩

/-- See above. -/
def dirDisk (old : Option Str) (b : Option Str) : Disk where
  files := fun f => if f = b!"a.t" then some b!"<p>{{ T \"a\" }}" else if f = b!"b.t" then b else if f = b!"m.pot" then old else none
  stdout := []

/-- See above. -/
def dirKws : List Keyword := [⟨b!"T", 0, 1, 0⟩]

theorem dirView_proper (files : Str → Option Str) : (dirView files).Proper := by
  intro d ns h
  unfold dirView at h
  simp only at h
  split at h
  · cases h
    refine ⟨List.Nodup.filter _ (by decide), fun n hn => ?_⟩
    have := (List.mem_filter.mp hn).1
    simp only [List.mem_cons, List.not_mem_nil, or_false] at this
    rcases this with rfl | rfl | rfl <;> exact ⟨by decide, by decide, by decide, by decide⟩
  · cases h

theorem dirView_ascii (files : Str → Option Str) (d : Str) (ns : List Str) (h : (dirView files).names d = some ns) :
    ∀ n ∈ ns, Glob.Ascii n := by
  unfold dirView at h
  simp only at h
  split at h
  · cases h
    intro n hn
    have := (List.mem_filter.mp hn).1
    simp only [List.mem_cons, List.not_mem_nil, or_false] at this
    rcases this with rfl | rfl | rfl <;> (unfold Glob.Ascii; decide)
  · cases h

theorem dir_system : System dirEnv dirView fun _ => true where
  globs := fun _ _ => rfl
  proper := dirView_proper
  parser := rfl
  classes := by
    constructor <;> intro r _ <;>
      simp only [dirEnv, flowEnv, Bool.or_eq_true, Bool.and_eq_true, decide_eq_true_eq]
  numbers := ⟨fun _ _ => rfl, fun _ _ => rfl, fun _ _ => rfl⟩
  newline := by decide
  cr := by decide
  sink := fun _ _ => rfl

theorem dir_plain : (Tmpl.delimsOf dirParam).Plain := by
  refine ⟨⟨123, b!"{", rfl, by unfold Tmpl.Blank; decide⟩, ?_, by decide,
    ⟨125, b!"}", rfl, by decide, by unfold Tmpl.Blank; decide, by unfold Xt.LetterByte; decide, by unfold Xt.DigitByte; decide, by decide⟩,
    by decide⟩
  intro a x h
  have h2 := congrArg List.getLast? h
  rw [List.getLast?_append, List.getLast?_singleton, Option.some_or] at h2
  cases (show some (123 : UInt8) = some x from h2)
  unfold Xt.LetterByte Xt.DigitByte; decide

theorem dir_keys : DeclaresAll dirParam.keyword dirKws := (Xt.C53_exact _ _).mp (by decide +kernel)

theorem dir_clean (d1 : Disk) : Clean dirEnv (dirView d1.files) dirParam dirKws d1 := by
  intro f hf
  refine ⟨?_, ?_⟩
  · have key : ∀ file d x, Glob.Inside false (dirView d1.files) file d x → OneLine x := by
      rintro file d x ⟨ps, ns, n, -, h2, h3, -, h5⟩
      unfold dirView at h2
      simp only at h2
      split at h2
      · rename_i hd
        cases h2
        have := (List.mem_filter.mp h3).1
        simp only [List.mem_cons, List.not_mem_nil, or_false] at this
        subst hd
        rcases this with rfl | rfl | rfl <;> rw [Glob.inDir_iff _ _ _ ⟨by decide, by decide, by decide, by decide⟩] at h5 <;> subst h5 <;>
          (unfold OneLine; decide +kernel)
      · cases h2
    generalize hp : dirParam.input = p at hf
    cases hf with
    | itself h => subst hp; exact absurd (h 42 (by decide)).1 (by decide)
    | inDir _ _ _ _ h => exact key _ _ _ h
    | inDirs _ _ _ _ _ h => exact key _ _ _ h
  · intro es hes e he
    obtain ⟨src, roots, h1, h2⟩ := id hes
    obtain ⟨kw, hkw, _, _, _, -, -, -, h3, -⟩ := Tmpl.C79_text dir_system.parser dir_system.classes dirParam (by decide) (by decide) dirKws d1 f src
      h1 es hes e he
    simp only [dirKws, List.mem_singleton] at hkw
    subst hkw
    rw [if_neg (by decide)] at h3
    rw [h3]; simp

theorem dir_open (d : Disk) : Xt.Opened dirEnv dirParam d (d.truncate dirEnv dirParam) := (Xt.opened_iff _ _ _ _).mpr rfl

theorem dir_file : ¬ ToStdout dirParam := by unfold ToStdout; decide

/-- The run succeeds, with or without the second template, whatever the output was. -/
theorem dir_run (old : Option Str) (b : Option Str) (hb : b = none ∨ b = some b!"{{T `b`}}") :
    ∃ d', Xt.Run dirEnv dirParam (dirDisk old b) (.returned none [] d') := by
  have h : ∀ b, b = none ∨ b = some b!"{{T `b`}}" → ∃ fs,
      dirEnv.glob ((dirDisk none b).truncate dirEnv dirParam).files dirParam.input = some fs ∧
      (Xt.loop dirEnv dirParam dirKws ((dirDisk none b).truncate dirEnv dirParam) fs {} none).map (·.2) = some (none, []) := by
    rintro b (rfl | rfl)
    · exact ⟨[b!"a.t", b!"m.pot"], by decide +kernel, by decide +kernel⟩
    · exact ⟨[b!"a.t", b!"b.t", b!"m.pot"], by decide +kernel, by decide +kernel⟩
  obtain ⟨fs, hfs, h⟩ := h b hb
  rw [Option.map_eq_some_iff] at h
  obtain ⟨⟨ctx, e, pr⟩, h1, h2⟩ := h
  cases h2
  obtain ⟨text, ht⟩ := Xt.C57_exists dirEnv.isPrint dirParam dirEnv.now ctx
  refine ⟨_, (C96_before dirEnv dirParam dir_file dirKws dir_keys (.inr (.inr rfl)) (dirDisk none b) (dirDisk old b) rfl ?_ _).mp
    (.written (kws := dirKws) (by decide +kernel) (by decide) hfs h1 ht)⟩
  intro f hf
  simp only [dirDisk]
  split
  · rfl
  · split
    · rfl
    · rw [if_neg (show f ≠ b!"m.pot" from hf), if_neg (show f ≠ b!"m.pot" from hf)]

/-- The first template asks for its message. -/
theorem dir_asks (f : Str) : AsksFor dirParam dirKws f b!"<p>{{ T \"a\" }}" { cmts := [b!"#: " ++ (f ++ b!":1")], id := b!"a" } := by
  have sp1 : Tmpl.Spaces b!" " := ⟨by simp [Tmpl.Blank], by simp⟩
  have fn : Tmpl.FuncName (Xt.Given dirKws dirParam) b!"T" :=
    ⟨Tmpl.ident_of (by simp) (by decide +kernel), fun h => absurd h (by simp [Xt.TemplateKeyword]), by simp, by simp, by simp⟩
  have hs : Tmpl.SpellPipe (Xt.Given dirKws dirParam) [b!"$"] (b!"T \"a\"" ++ b!" ") [[.ident b!"T", .str b!"a"]] :=
    .one (.cons (s := b!"T") (sp := b!" ") (.name fn) sp1 (.one (.literal (.quoted (s := [97])
      (.char (by decide) (by decide) (by decide) .nil) (by decide +kernel))))) sp1.1
  have act : Tmpl.SpellNode (Xt.Given dirKws dirParam) (Tmpl.delimsOf dirParam) 0 [b!"$"] false 1 b!"{{ T \"a\" }}" (.action 1 _) [] _ false :=
    .action (l := 1) (o := b!"{{") (sp := b!" ") (dc := []) (e := b!"}}") .plain sp1.1 .none hs .plain
  have hw : Tmpl.Written (Xt.Given dirKws dirParam) (Tmpl.delimsOf dirParam) b!"<p>{{ T \"a\" }}"
      ([.other, .action 1 [[.ident b!"T", .str b!"a"]]] ++ []) ([] ++ []) :=
    ⟨.cons (b := false) (s := b!"<p>{{ T \"a\" }}") (rest := []) (.node (before := false) (b := false) (t := b!"<p>") (ns := [.other])
      (Tmpl.free_of (by decide)) (.text (u := b!"<p>") (v := b!"<p>") rfl rfl (by simp)) act) (.last (by
        intro x y h
        have := congrArg List.length h
        rw [List.length_append, List.length_append, show (Tmpl.delimsOf dirParam).left.length = 2 from rfl] at this
        simp at this; omega) (.nothing (u := []) rfl rfl)), by simp⟩
  refine ⟨_, _, hw, .inl ⟨1, _, _, by simp, .action, _, .self, _, .alone [] [] _ rfl (by simp), [], .ident b!"T", [.str b!"a"], b!"T", rfl,
    .ident _, _, List.mem_singleton.mpr rfl, rfl, ⟨[.str b!"a"], [], [b!"a"], rfl, .cons (.str _) .nil, ?_, ⟨[], [], rfl, rfl⟩, by simp, by simp⟩, by simp,
    ?_, rfl, rfl⟩⟩
  · intro k
    simp only [Xt.Declared, List.length_singleton]
    omega
  · rw [show Num.natDigits 1 = b!"1" by decide +kernel]
    simp

/-- The POT has the message of the template, and nothing of what the output was before. -/
example (old : Option Str) : ∃ d' text pot, Xt.Run dirEnv dirParam (dirDisk old none) (.returned none [] d') ∧
    d'.files b!"m.pot" = some text ∧ Tr.PoText text pot ∧ (∃ q ∈ pot, q.ctxt = [] ∧ q.id = b!"a") ∧
    ∀ q ∈ pot, q.id ≠ [] → ∃ f src, f ≠ b!"m.pot" ∧ (dirDisk old none).files f = some src ∧
      CallIn (Tmpl.delimsOf dirParam) src b!"T" q.ctxt q.id := by
  obtain ⟨d', h⟩ := dir_run old none (.inl rfl)
  obtain ⟨text, pot, h1, h2, h3, h4, h5, h6⟩ := C96_pot dir_system dirParam dir_plain dir_file dirKws dir_keys _ _ d'
    (dir_open (dirDisk old none)) (dir_clean _) [] h
  refine ⟨d', text, pot, h, h1, h2, ?_, ?_⟩
  · have hn : Glob.Named true (dirView ((dirDisk old none).truncate dirEnv dirParam).files) dirParam.input b!"a.t" :=
      .inDir (pre := []) (file := b!"*") (dir := b!".") (fun h => absurd (h 42 (by decide)).1 (by decide)) (by decide) .nothing
        (by unfold Glob.Plain; decide)
        ⟨[.star], [b!"m.pot", b!"a.t"], b!"a.t", .star .nil, rfl, by decide, .star (a := b!"a.t") (by decide) .nil,
          (Glob.inDir_iff _ _ _ ⟨by decide, by decide, by decide, by decide⟩).mpr (by decide +kernel)⟩
    obtain ⟨q, hq, h7, h8⟩ := h4 b!"a.t" b!"<p>{{ T \"a\" }}" { cmts := [b!"#: a.t:1"], id := b!"a" } hn (by decide) rfl
      (dir_asks b!"a.t")
    exact ⟨q, hq, h7, h8⟩
  · intro q hq hid
    obtain ⟨f, src, kw, hkw, h7, h8, h9, h10⟩ := h5 q hq hid
    simp only [dirKws, List.mem_singleton] at hkw
    subst hkw
    exact ⟨f, src, h8, h9, h10⟩

/-- A second run may end like the first, and the run with one template more loses no message. -/
example : ∃ d' e', Xt.Run dirEnv dirParam (dirDisk none none) (.returned none [] d') ∧ Xt.Run dirEnv dirParam d' (.returned none [] d') ∧
    Xt.Run dirEnv dirParam (dirDisk none (some b!"{{T `b`}}")) (.returned none [] e') ∧
    ∃ text1 text2 pot1 pot2, d'.files b!"m.pot" = some text1 ∧ e'.files b!"m.pot" = some text2 ∧ Tr.PoText text1 pot1 ∧ Tr.PoText text2 pot2 ∧
      ∀ q ∈ pot1, q.id ≠ [] → ∃ q' ∈ pot2, q'.ctxt = q.ctxt ∧ q'.id = q.id := by
  obtain ⟨d', h⟩ := dir_run none none (.inl rfl)
  obtain ⟨e', g⟩ := dir_run none (some b!"{{T `b`}}") (.inr rfl)
  refine ⟨d', e', h, (C96_again dirEnv dirParam dir_file dirKws dir_keys (.inr (.inr rfl)) _ _ h _).mpr h, g,
    C96_more dir_system dirParam dir_file dirKws dir_keys _ _ d' _ _ e' (dir_open _) (dir_open _) (dir_clean _) (dir_clean _)
      (dirView_ascii _) ⟨?_, ?_⟩ ?_ [] [] h g⟩
  · intro x hx
    by_cases h1 : x = b!"m.pot"
    · subst h1; decide +kernel
    · have hf := (dir_open (dirDisk none none)).2 dir_file
      have hf' := (dir_open (dirDisk none (some b!"{{T `b`}}"))).2 dir_file
      unfold dirView at hx ⊢
      simp only at hx ⊢
      rw [hf.2.2 x h1] at hx
      rw [hf'.2.2 x h1]
      simp only [dirDisk] at hx ⊢
      split at hx
      · rename_i h2; rw [if_pos h2]; rfl
      · split at hx <;> simp at hx
  · intro x ns hx
    by_cases h1 : x = b!"."
    · subst h1
      cases (show some [b!"m.pot", b!"a.t"] = some ns from hx)
      exact ⟨[b!"m.pot", b!"b.t", b!"a.t"], rfl, by decide⟩
    · unfold dirView at hx
      simp only [if_neg h1] at hx
      cases hx
  · intro f src hf _
    simp only [dirDisk] at hf ⊢
    split at hf
    · rename_i h2; rw [if_pos h2]; exact hf
    · split at hf <;> simp at hf

end Verif.Flow
