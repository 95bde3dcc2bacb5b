import Verif.Lemmas.GlobFiles
import Verif.Props.C58
/-! # C95: which files a pattern names -/
namespace Verif.Glob
open Verif Verif.Literal

/-! ## Match -/

/-- **C95** A pattern that is not written well is an error, whatever the name. -/
theorem C95_match_bad (p name : Str) : matches? p name = none ↔ ¬ ∃ ps, Pattern p ps := matches_iff p name

/-- **C95** A name that matches fits the pattern. -/
theorem C95_match_sound (p name : Str) (ps : List Piece) (h : Pattern p ps) (hm : matches? p name = some true) : Fits false ps name :=
  matches_sound h hm

/-- **C95** A name that fits the pattern, character by character, matches. -/
theorem C95_match_complete (p name : Str) (ps : List Piece) (h : Pattern p ps) (h47 : 47 ∉ name) (hf : Fits true ps name) :
    matches? p name = some true := matches_complete h hf h47

/-- The pattern has stars and bytes only. -/
def Simple (ps : List Piece) : Prop := ∀ p ∈ ps, p = .star ∨ ∃ c, p = .byte c

/-- The text is ASCII. -/
def Ascii (s : Str) : Prop := ∀ c ∈ s, c < 0x80

theorem utf8_ascii (b : UInt8) (h : b < 0x80) : utf8 (Char.ofNat b.toNat) = [b] := by
  revert h; revert b; apply u8; decide +kernel

theorem fits_ascii {ps : List Piece} {s : Str} (h : Fits false ps s) : Ascii s → Fits true ps s := by
  have hb : ∀ {w s : Str} {n : Nat}, Begins false (w ++ s) w n → Ascii (w ++ s) → Begins true (w ++ s) w n := by
    intro w s n h ha
    generalize hx : w ++ s = x at h
    cases h with
    | char ch t => exact .char ch t
    | bad b t _ hno =>
      exfalso
      have hb := ha b (by rw [hx]; exact List.mem_cons_self)
      exact hno (Char.ofNat b.toNat) t (by rw [utf8_ascii b hb]; rfl)
  induction h with
  | nil => intro _; exact .nil
  | star h1 _ ih => intro ha; exact .star h1 (ih fun c hc => ha c (List.mem_append.mpr (.inr hc)))
  | one h1 h2 _ ih => intro ha; exact .one (hb h1 ha) h2 (ih fun c hc => ha c (List.mem_append.mpr (.inr hc)))
  | byte _ ih => intro ha; exact .byte (ih fun c hc => ha c (List.mem_cons_of_mem _ hc))
  | set h1 h2 _ ih => intro ha; exact .set (hb h1 ha) h2 (ih fun c hc => ha c (List.mem_append.mpr (.inr hc)))

theorem fits_simple {ps : List Piece} {s : Str} (h : Fits false ps s) : Simple ps → Fits true ps s := by
  have hc : ∀ {p : Piece} {ps : List Piece}, Simple (p :: ps) → Simple ps := fun h x hx => h x (List.mem_cons_of_mem _ hx)
  induction h with
  | nil => intro _; exact .nil
  | star h1 _ ih => intro ha; exact .star h1 (ih (hc ha))
  | byte _ ih => intro ha; exact .byte (ih (hc ha))
  | one => intro ha; rcases ha _ List.mem_cons_self with h | ⟨c, h⟩ <;> cases h
  | set => intro ha; rcases ha _ List.mem_cons_self with h | ⟨c, h⟩ <;> cases h

/-- **C95** ASCII names match iff they fit, and so does every name if the pattern has only stars and bytes. -/
theorem C95_match_exact (p name : Str) (ps : List Piece) (h : Pattern p ps) (h47 : 47 ∉ name) (hs : Ascii name ∨ Simple ps) :
    matches? p name = some true ↔ Fits true ps name := by
  refine ⟨fun hm => ?_, C95_match_complete p name ps h h47⟩
  have hf := C95_match_sound p name ps h hm
  rcases hs with hs | hs
  · exact fits_ascii hf hs
  · exact fits_simple hf hs

/-! Examples -/

theorem patternB {c : UInt8} {p : Str} {ps : List Piece} (h : Pattern p ps) (hc : c ≠ 42 ∧ c ≠ 63 ∧ c ≠ 91 ∧ c ≠ 92 := by decide) :
    Pattern (c :: p) (.byte c :: ps) := .byte hc.1 hc.2.1 hc.2.2.1 hc.2.2.2 h

/-- `*.t` -/
theorem pattern_t : Pattern b!"*.t" [.star, .byte 46, .byte 116] := .star (patternB (patternB .nil))

/-- `[a-c]?` -/
theorem pattern_set : Pattern b!"[a-c]?" [.set false [('a', 'c')], .one] :=
  .set (s := b!"a-c") (.last (.range (s := b!"a") (t := b!"c") (.plain 'a' (by decide) (by decide) (by decide))
    (.plain 'c' (by decide) (by decide) (by decide)))) (by decide) (.one .nil)

example : matches? b!"*.t" b!"x.t" = some true ∧ Fits true [.star, .byte 46, .byte 116] b!"x.t" :=
  ⟨by decide +kernel, .star (a := b!"x") (by decide) (.byte (.byte .nil))⟩

example : matches? b!"[a-c]?" b!"bz" = some true := C95_match_complete _ _ _ pattern_set (by decide)
  (.set (w := b!"b") (n := 98) (.char 'b' b!"z") (by simp) (.one (w := b!"z") (s := []) (n := 122) (.char 'z' []) (by decide) .nil))

/-- Three bytes of one character match two `?`, after a star. -/
example : matches? b!"*??" b!"€" = some true := by decide +kernel

/-- A set can match a slash, but then not every text that fits matches. -/
example : matches? b!"*[/a]/*c" b!"xa//c" = some false ∧
    Fits true [.star, .set false [('/', '/'), ('a', 'a')], .byte 47, .star, .byte 99] b!"xa//c" :=
  ⟨by decide +kernel, .star (a := b!"xa") (by decide) (.set (w := b!"/") (n := 47) (.char '/' b!"/c") (by simp)
    (.byte (.star (a := []) (by decide) (.byte .nil))))⟩

/-- Some patterns that are not written well. -/
example : ∀ p ∈ [b!"[", b!"[]", b!"[]a]", b!"a\\", b!"[a-]", b!"[-a]", b!"x*[a"], ¬ ∃ ps, Pattern p ps := by
  have h : ∀ p ∈ [b!"[", b!"[]", b!"[]a]", b!"a\\", b!"[a-]", b!"[-a]", b!"x*[a"], matches? p b!"y" = none := by decide +kernel
  exact fun p hp => (C95_match_bad p b!"y").mp (h p hp)

/-! ## Glob -/

/-- **C95** `Glob` fails iff the pattern, or what stands before a slash in it, is not written well. -/
theorem C95_glob_bad (fs : Fs) (p : Str) (hc : p.count 47 < 10000) : glob fs p = none ↔ ¬ WellFormed p := by
  constructor
  · intro h hw
    obtain ⟨xs, hxs⟩ := globN_some fs _ p hc hw
    rw [glob, hxs] at h; cases h
  · intro h
    cases hg : glob fs p with
    | none => rfl
    | some xs => exact absurd (globN_wellFormed fs _ p xs hg) h

/-- **C95** Every path it returns is one the pattern stands for. -/
theorem C95_glob_sound (fs : Fs) (hfs : fs.Proper) (p : Str) (xs : List Str) (h : glob fs p = some xs) : ∀ x ∈ xs, Named false fs p x :=
  globN_sound fs hfs _ p xs h

/-- **C95** Every path the pattern stands for is returned. -/
theorem C95_glob_complete (fs : Fs) (hfs : fs.Proper) (p : Str) (xs : List Str) (h : glob fs p = some xs) : ∀ x, Named true fs p x → x ∈ xs :=
  fun _ hx => globN_complete fs hfs hx _ xs h

theorem named_ascii {fs : Fs} (ha : ∀ d ns, fs.names d = some ns → ∀ n ∈ ns, Ascii n) {p x : Str} (h : Named false fs p x) :
    Named true fs p x := by
  have hi : ∀ {file d x : Str}, Inside false fs file d x → Inside true fs file d x := by
    rintro file d x ⟨ps, ns, n, h1, h2, h3, h4, h5⟩
    exact ⟨ps, ns, n, h1, h2, h3, fits_ascii h4 (ha d ns h2 n h3), h5⟩
  induction h with
  | itself h1 h2 => exact .itself h1 h2
  | inDir h1 h2 h3 h4 h5 => exact .inDir h1 h2 h3 h4 (hi h5)
  | inDirs h1 h2 h3 h4 _ h5 ih => exact .inDirs h1 h2 h3 h4 ih (hi h5)

/-- **C95** With ASCII names in the directories, the paths returned are the ones the pattern stands for. -/
theorem C95_glob_exact (fs : Fs) (hfs : fs.Proper) (ha : ∀ d ns, fs.names d = some ns → ∀ n ∈ ns, Ascii n) (p : Str) (xs : List Str)
    (h : glob fs p = some xs) (x : Str) : x ∈ xs ↔ Named true fs p x :=
  ⟨fun hx => named_ascii ha (C95_glob_sound fs hfs p xs h x hx), C95_glob_complete fs hfs p xs h x⟩

/-- **C95** A path without special bytes stands for itself, if it is there. -/
theorem C95_glob_plain (fs : Fs) (p : Str) (hp : Plain p) : glob fs p = some (if fs.found p then [p] else []) :=
  globN_plain fs 9999 p hp

theorem named_plain {e : Bool} {fs : Fs} {p x : Str} (hp : Plain p) (h : Named e fs p x) : x = p ∧ fs.found p = true := by
  cases h with
  | itself _ hf => exact ⟨rfl, hf⟩
  | inDir h => exact absurd hp h
  | inDirs h => exact absurd hp h

/-- **C95** No path is returned twice. -/
theorem C95_glob_nodup (fs : Fs) (hfs : fs.Proper) (p : Str) (xs : List Str) (h : glob fs p = some xs) : xs.Nodup :=
  globN_nodup fs hfs _ p xs h

/-- **C95** The result does not depend on the order in which the system lists a directory. -/
theorem C95_glob_order (fs fs' : Fs) (h : fs.Same fs') (p : Str) (hc : p.count 47 < 10000) : glob fs p = glob fs' p := by
  by_cases hw : WellFormed p
  · exact globN_same h _ p hw
  · rw [(C95_glob_bad fs p hc).mpr hw, (C95_glob_bad fs' p hc).mpr hw]

/-! Examples -/

/-- A working directory with two templates and a directory. -/
def exFs : Fs where
  found := fun p => p = b!"b.t" || p = b!"a.t" || p = b!"d" || p = b!"d/c.t" || p = b!"."
  names := fun d => if d = b!"." then some [b!"b.t", b!"d", b!"a.t"] else if d = b!"d" then some [b!"c.t"] else none

theorem exFs_proper : exFs.Proper := by
  intro d ns h
  unfold exFs at h
  simp only at h
  split at h
  · cases h; exact ⟨by decide, by unfold W.FileName; decide⟩
  · split at h
    · cases h; exact ⟨by decide, by unfold W.FileName; decide⟩
    · cases h

theorem ex_here : glob exFs b!"*.t" = some [b!"a.t", b!"b.t"] := by decide +kernel
theorem ex_below : glob exFs b!"*/*.t" = some [b!"d/c.t"] := by decide +kernel

example : Named false exFs b!"*.t" b!"a.t" := C95_glob_sound exFs exFs_proper _ _ ex_here _ (by decide)
example : [b!"a.t", b!"b.t"].Nodup := C95_glob_nodup exFs exFs_proper _ _ ex_here

/-- Nothing is found below `*//`, and slashes cannot be escaped or be in sets. -/
example : glob exFs b!"*//c.t" = some [] ∧ glob exFs b!"d\\/*" = none ∧ glob exFs b!"d[/]*" = none := by
  refine ⟨?_, ?_, ?_⟩ <;> decide +kernel

/-- The last two are patterns by themselves. -/
example : (∃ ps, Pattern b!"d[/]*" ps) ∧ ¬ WellFormed b!"d[/]*" :=
  ⟨⟨_, patternB (.set (s := b!"/") (.last (.char (.plain '/' (by decide) (by decide) (by decide)))) (by decide) (.star .nil))⟩,
    (C95_glob_bad exFs _ (by decide)).mp (by decide +kernel)⟩

end Verif.Glob

namespace Verif.Xt
open Verif

/-- The environment looks for files with `Glob`. -/
def Globs (E : Env) (view : (Str → Option Str) → Glob.Fs) : Prop := ∀ files p, E.glob files p = Glob.glob (view files) p

/-- **C95** A pattern that stands for no file is no failure: the POT of no files is written. -/
theorem C95_run_nothing (E : Env) (view : (Str → Option Str) → Glob.Fs) (hE : Globs E view) (p : Param) (d : Disk) (kws : List Keyword)
    (hk : DeclaresAll p.keyword kws) (ho : OpenOk E p) (d1 : Disk) (h1 : Opened E p d d1) (hfs : (view d1.files).Proper)
    (hc : p.input.count 47 < 10000) (hw : Glob.WellFormed p.input) (hn : ∀ x, ¬ Glob.Named false (view d1.files) p.input x)
    (o : Outcome) (h : Run E p d o) :
    ∃ err d' text, o = .returned err [] d' ∧ PotOf E.isPrint p E.now [] text ∧ Received E p d1 text d' ∧
      (err = none ↔ (E.sink text).2 = true ∧ CloseOk E p) := by
  have hg : E.glob d1.files p.input = some [] := by
    rw [hE]
    obtain ⟨xs, hxs⟩ : ∃ xs, Glob.glob (view d1.files) p.input = some xs := by
      cases hx : Glob.glob (view d1.files) p.input with
      | some xs => exact ⟨xs, rfl⟩
      | none => exact absurd hw ((Glob.C95_glob_bad _ _ hc).mp hx)
    rw [hxs]
    cases xs with
    | nil => rfl
    | cons x xs => exact absurd (Glob.C95_glob_sound _ hfs _ _ hxs x List.mem_cons_self) (hn x)
  cases o with
  | panicked d' =>
    exfalso
    have h1' := (opened_iff E p d d1).mp h1
    cases h with
    | panic hk' _ hg' hl =>
      rw [← h1', hg] at hg'
      cases hg'
      cases hl
  | returned err printed d' =>
    obtain ⟨fates, g1, g2, -, g3⟩ := C58_run E p d kws hk ho d1 h1 [] hg err printed d' h
    cases g1
    subst g2
    obtain ⟨ess, text, g4, g5, g6, g7⟩ := g3 rfl
    cases g4
    exact ⟨err, d', text, rfl, g5 (by intro e he; cases he), g6, g7⟩

/-- **C95** A pattern that is not written well is the only failure of `Glob`; no file is read then. -/
theorem C95_run_bad (E : Env) (view : (Str → Option Str) → Glob.Fs) (hE : Globs E view) (p : Param) (d : Disk) (kws : List Keyword)
    (hk : DeclaresAll p.keyword kws) (ho : OpenOk E p) (d1 : Disk) (h1 : Opened E p d d1) (hc : p.input.count 47 < 10000)
    (o : Outcome) (h : Run E p d o) :
    ¬ Glob.WellFormed p.input ↔ o = .returned (some .glob) [] d1 := by
  constructor
  · intro hw
    exact (C58_early E p d o h).2.2 kws d1 hk ho h1 (by rw [hE]; exact (Glob.C95_glob_bad _ _ hc).mpr hw)
  · intro hoe hw
    have h1' := (opened_iff E p d d1).mp h1
    have hk' := (C53_exact _ _).mpr hk
    have ho' := (openOk_iff E p).mpr ho
    cases h with
    | keyword h2 => rw [hk'] at h2; cases h2
    | openOutput _ h2 h3 => rw [h2, h3] at ho'; cases ho'
    | glob _ _ hg =>
      rw [hE] at hg
      exact (Glob.C95_glob_bad _ _ hc).mp hg hw
    | panic => cases hoe
    | failed _ _ _ hl =>
      obtain ⟨fates, -, h2, h3, -⟩ := loop_some _ _ _ _ _ _ _ _ hl
      rw [Outcome.returned.injEq] at hoe
      dsimp only at h2 h3
      rw [← h2, hoe.2.1] at h3
      cases h3
    | @written _ _ _ _ text =>
      rw [Outcome.returned.injEq] at hoe
      have := hoe.1
      unfold finish at this
      by_cases hs : (E.sink text).2 = true <;> by_cases hx : (p.toStdout || E.closes) = true <;> simp [hs, hx] at this

/-! Example: a file that is not there -/

/-- See above. -/
def globView (files : Str → Option Str) : Glob.Fs where
  found := fun p => (files p).isSome
  names := fun d => if d = b!"." then some ([b!"a.t", b!"o"].filter fun n => (files n).isSome) else none

/-- See above. -/
def globEnv : Env := { exEnv with glob := fun files p => Glob.glob (globView files) p }

/-- See above. -/
def globDisk : Disk := ⟨fun f => if f = b!"a.t" then some b!"hello" else none, []⟩

/-- See above. -/
def globParam (input : Str) : Param := { exParam b!"T" with input := input }

theorem globView_proper (files : Str → Option Str) : (globView files).Proper := by
  intro d ns h
  unfold globView at h
  simp only at h
  split at h
  · cases h
    refine ⟨List.Nodup.filter _ (by decide), fun n hn => ?_⟩
    have := (List.mem_filter.mp hn).1
    simp only [List.mem_cons, List.not_mem_nil, or_false] at this
    rcases this with rfl | rfl <;> exact ⟨by decide, by decide, by decide, by decide⟩
  · cases h

/-- The run for `b.t` succeeds and writes a POT without messages. -/
example : ∃ o, Run globEnv (globParam b!"b.t") globDisk o ∧ ∃ err d' text, o = .returned err [] d' ∧
    PotOf globEnv.isPrint (globParam b!"b.t") globEnv.now [] text ∧ err = none ∧ d'.files b!"o" = some text := by
  obtain ⟨o, ho⟩ := C58_total globEnv (globParam b!"b.t") globDisk
  have hp : Glob.Plain b!"b.t" := by unfold Glob.Plain; decide
  obtain ⟨err, d', text, h1, h2, h3, h4⟩ := C95_run_nothing globEnv globView (fun _ _ => rfl) (globParam b!"b.t") globDisk
    [⟨b!"T", 0, 1, 0⟩] ((C53_exact _ _).mp (by decide +kernel)) (.inr (.inr rfl)) _ ((opened_iff _ _ _ _).mpr rfl)
    (globView_proper _) (by decide) (Glob.plain_wellFormed _ hp)
    (fun x hx => absurd (Glob.named_plain hp hx).2 (by decide)) o ho
  refine ⟨o, ho, err, d', text, h1, h2, h4.mpr ⟨rfl, .inr (.inr rfl)⟩, ?_⟩
  exact (h3.2 (by unfold ToStdout; decide)).2.1

/-- The run for `[` fails. -/
example : ∃ o d1, Run globEnv (globParam b!"[") globDisk o ∧ o = .returned (some .glob) [] d1 := by
  obtain ⟨o, ho⟩ := C58_total globEnv (globParam b!"[") globDisk
  refine ⟨o, _, ho, (C95_run_bad globEnv globView (fun _ _ => rfl) (globParam b!"[") globDisk [⟨b!"T", 0, 1, 0⟩]
    ((C53_exact _ _).mp (by decide +kernel)) (.inr (.inr rfl)) _ ((opened_iff _ _ _ _).mpr rfl) (by decide) o ho).mp ?_⟩
  exact (Glob.C95_glob_bad (globView globDisk.files) b!"[" (by decide)).mp (by decide +kernel)

end Verif.Xt
