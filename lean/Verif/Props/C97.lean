import Verif.Props.C73
import Verif.Props.C94
import Verif.Props.C56_C57
import Verif.Props.C58
import Verif.Lemmas.Mo
import Verif.Spec.Stderr
/-! # C97: what a run writes to stderr -/
namespace Verif.Xt
open Verif
open Verif.Fmt (Part Star)

/-! ## Phrases -/

/-- The directives of the messages. -/
def Dir (x : Str) : Prop := x = b!"%v" ∨ x = b!"%+v" ∨ x = b!"%s"

/-- What a directive shows. -/
def dirShows (fmt : Fmt.Env Str) (x a : Str) : Str :=
  if x = b!"%+v" then fmt.render { plus := true } b!"v" a else if x = b!"%s" then fmt.render {} b!"s" a else fmt.render {} b!"v" a

/-- The directive as a part of a message. -/
def dirStar (x : Str) : Star :=
  if x = b!"%+v" then { flags := b!"+", verb := 118 } else if x = b!"%s" then { verb := 115 } else { verb := 118 }

theorem dirStar_written (x : Str) (h : Dir x) : (dirStar x).written = x := by
  rcases h with rfl | rfl | rfl <;> decide

theorem dirStar_wf (x : Str) (h : Dir x) : (dirStar x).Wf := by
  rcases h with rfl | rfl | rfl
  all_goals
    refine ⟨by decide, ?_, ?_, ?_, ?_, by decide⟩
    · exact ⟨by decide, by decide⟩
    · intro ds hd; cases hd; decide
    · intro p hp; cases hp
    · intro k hk; cases hk

theorem dirStar_next (x : Str) (h : Dir x) (n c : Nat) (hc : c < n) : (dirStar x).next n c = c + 1 := by
  rcases h with rfl | rfl | rfl <;>
    simp [dirStar, Star.next, Star.look, Star.past2, Star.past1, Fmt.Size.past, Fmt.Look.go, Fmt.Look.used, hc]

theorem dirStar_shown (fmt : Fmt.Env Str) (x : Str) (h : Dir x) (args : List Str) (c : Nat) (a : Str) (ha : args[c]? = some a) :
    (dirStar x).shown fmt args c = dirShows fmt x a := by
  rcases h with rfl | rfl | rfl <;>
    simp [dirStar, Star.shown, Star.complaint, Star.look, Star.past2, Star.past1, Fmt.Size.past, Fmt.Look.go, ha, Fmt.badWidth, Fmt.badPrec,
      Star.opts, Star.width, Fmt.Size.number, Star.precision, dirShows]

/-- The parts of a phrase. -/
def Phrase.parts (ph : Phrase) : List Part := .text ph.first :: ph.rest.flatMap fun q => [.dir (dirStar q.1), .text q.2]

theorem parts_shown (fmt : Fmt.Env Str) (args : List Str) (rest : List (Str × Str)) (hd : ∀ q ∈ rest, Dir q.1) (c : Nat)
    (hl : c + rest.length ≤ args.length) (tl : Str) :
    Fmt.shownParts fmt args c ((rest.flatMap fun q => [.dir (dirStar q.1), .text q.2]) ++ [.text tl]) =
      ((rest.zip (List.zipWith (dirShows fmt) (rest.map (·.1)) (args.drop c))).flatMap fun q => q.2 ++ q.1.2) ++ tl ∧
    Fmt.lastPart args.length c ((rest.flatMap fun q => [.dir (dirStar q.1), .text q.2]) ++ [.text tl]) = c + rest.length := by
  induction rest generalizing c with
  | nil => simp [Fmt.shownParts, Fmt.lastPart]
  | cons q rest ih =>
    have hq := hd q List.mem_cons_self
    rw [List.length_cons] at hl
    have hc : c < args.length := by omega
    obtain ⟨h1, h2⟩ := ih (fun q hq => hd q (List.mem_cons_of_mem _ hq)) (c + 1) (by omega)
    have hdrop : args.drop c = args[c] :: args.drop (c + 1) := List.drop_eq_getElem_cons hc
    rw [List.flatMap_cons, List.append_assoc, List.cons_append, List.cons_append, List.nil_append, hdrop]
    simp only [Fmt.shownParts, Fmt.lastPart, dirStar_next q.1 hq _ _ hc, dirStar_shown fmt q.1 hq args c _ (List.getElem?_eq_getElem hc), h1, h2]
    simp only [List.map_cons, List.zipWith_cons_cons, List.zip_cons_cons, List.flatMap_cons, List.append_assoc, true_and, List.length_cons]
    omega

theorem parts_written (ph : Phrase) (hd : ∀ q ∈ ph.rest, Dir q.1) (tl : Str) :
    Fmt.writtenParts (ph.parts ++ [.text tl]) = ph.written ++ tl := by
  have : ∀ rest : List (Str × Str), (∀ q ∈ rest, Dir q.1) →
      Fmt.writtenParts ((rest.flatMap fun q => [.dir (dirStar q.1), .text q.2]) ++ [.text tl]) = (rest.flatMap fun q => q.1 ++ q.2) ++ tl := by
    intro rest h
    induction rest with
    | nil => simp [Fmt.writtenParts, Fmt.Part.written]
    | cons q rest ih =>
      have := ih fun q hq => h q (List.mem_cons_of_mem _ hq)
      simp only [Fmt.writtenParts] at this
      rw [List.flatMap_cons, List.append_assoc, List.flatMap_cons, List.append_assoc, ← this]
      simp only [Fmt.writtenParts, List.flatMap_cons, List.flatMap_append, Fmt.Part.written, dirStar_written q.1 (h q List.mem_cons_self),
        List.flatMap_nil, List.append_nil, List.append_assoc]
  show ph.first ++ _ = _
  rw [Phrase.written, List.append_assoc, ← this _ hd]
  rfl

theorem phrase_wf (ph : Phrase) (hw : ph.Wf) (hd : ∀ q ∈ ph.rest, Dir q.1) (tl : Str) (ht : 37 ∉ tl) :
    ∀ i ∈ ph.parts ++ [.text tl], i.Wf := by
  intro i hi
  rcases List.mem_append.mp hi with hi | hi
  · rcases List.mem_cons.mp hi with rfl | hi
    · exact hw.1
    · obtain ⟨q, hq, hi⟩ := List.mem_flatMap.mp hi
      simp only [List.mem_cons, List.not_mem_nil, or_false] at hi
      rcases hi with rfl | rfl
      · exact dirStar_wf _ (hd q hq)
      · exact hw.2 q hq
  · rw [List.mem_singleton] at hi
    subst hi
    exact ht

/-- A phrase with as many arguments as places. -/
theorem phrase_sprintf (fmt : Fmt.Env Str) (ph : Phrase) (hw : ph.Wf) (hd : ∀ x ∈ ph.places, Dir x) (args : List Str)
    (hl : ph.places.length = args.length) (tl : Str) (ht : 37 ∉ tl) :
    Fmt.sprintf fmt (ph.written ++ tl) args = ph.filled (List.zipWith (dirShows fmt) ph.places args) ++ tl := by
  have hd' : ∀ q ∈ ph.rest, Dir q.1 := fun q hq => hd _ (List.mem_map_of_mem hq)
  have hwf := phrase_wf ph hw hd' tl ht
  obtain ⟨h1, h2⟩ := parts_shown fmt args ph.rest hd' 0 (by simp [Phrase.places] at hl; omega) tl
  have hlast : Fmt.lastPart args.length 0 (ph.parts ++ [.text tl]) = args.length := by
    have h2' : Fmt.lastPart args.length 0 (ph.parts ++ [.text tl]) = 0 + ph.rest.length := h2
    rw [h2', ← hl, Phrase.places, List.length_map, Nat.zero_add]
  rw [← parts_written ph hd' tl, (Fmt.C94_sprintf fmt _ hwf args).1 (.inr (by rw [hlast]))]
  show ph.first ++ Fmt.shownParts fmt args 0 (_ ++ _) = _
  rw [h1, Phrase.filled, List.append_assoc]
  rfl

/-- The same for `Format` with one argument. -/
theorem phrase_format (fmt : Fmt.Env Str) (hf : ShowsTexts fmt) (ph : Phrase) (hw : ph.Wf) (x a : Str) (hx : Dir x) (hp : ph.places = [x]) :
    Fmt.format fmt ph.written [a] = ph.filled [dirShows fmt x a] := by
  have hd' : ∀ q ∈ ph.rest, Dir q.1 := by
    intro q hq
    have : q.1 ∈ ph.places := List.mem_map_of_mem hq
    rw [hp, List.mem_singleton] at this
    rw [this]; exact hx
  have hlen : ph.rest.length = 1 := by
    have := congrArg List.length hp
    simpa [Phrase.places] using this
  obtain ⟨h1, -⟩ := parts_shown fmt ([a] ++ [fmt.empty]) ph.rest hd' 0 (by rw [hlen]; simp) []
  have hpw := parts_written ph hd' []
  rw [List.append_nil] at hpw
  rw [← hpw, Fmt.C94_format fmt (by rw [hf.2.1, hf.2.2]) _ (phrase_wf ph hw hd' [] (by simp)) [a] (by simp) (by simp)]
  show ph.first ++ Fmt.shownParts fmt ([a] ++ [fmt.empty]) 0 (_ ++ _) = _
  rw [h1, Phrase.filled, List.append_nil]
  rw [show ph.rest.map (·.1) = [x] from hp]
  rfl

/-! ## The texts -/

theorem errorVerb_dir (debug : Bool) : Dir (errorVerb debug) := by
  cases debug
  · exact .inl rfl
  · exact .inr (.inl rfl)

theorem shows_v {fmt : Fmt.Env Str} (hf : ShowsTexts fmt) (a : Str) : dirShows fmt b!"%v" a = a := by
  rw [dirShows, if_neg (by decide), if_neg (by decide)]; exact hf.1 a

theorem shows_s {fmt : Fmt.Env Str} (hf : ShowsTexts fmt) (a : Str) : dirShows fmt b!"%s" a = a := by
  rw [dirShows, if_neg (by decide), if_pos rfl]; exact hf.2.1 a

theorem shows_plus (fmt : Fmt.Env Str) (a : Str) : dirShows fmt b!"%+v" a = fmt.render { plus := true } b!"v" a := by
  rw [dirShows, if_pos rfl]

theorem shows_error {fmt : Fmt.Env Str} (hf : ShowsTexts fmt) (debug : Bool) (a : Str) :
    dirShows fmt (errorVerb debug) a = shownError fmt debug a := by
  cases debug
  · exact shows_v hf a
  · exact shows_plus fmt a

/-- A message with a phrase for translation. -/
theorem translated_sprintf (fmt : Fmt.Env Str) {tr : Str → Str} {m : Str} {ph : Phrase} {ps : List Str} (h : Translates tr m ph ps)
    (hd : ∀ x ∈ ps, Dir x) (args : List Str) (hl : ps.length = args.length) (tl : Str) (ht : 37 ∉ tl) :
    Fmt.sprintf fmt (tr m ++ tl) args = ph.filled (List.zipWith (dirShows fmt) ps args) ++ tl := by
  obtain ⟨h1, rfl, h3⟩ := h
  rw [h1, phrase_sprintf fmt ph h3 hd args hl tl ht]

theorem translated_sprintf' (fmt : Fmt.Env Str) {tr : Str → Str} {m : Str} {ph : Phrase} {ps : List Str} (h : Translates tr m ph ps)
    (hd : ∀ x ∈ ps, Dir x) (args : List Str) (hl : ps.length = args.length) :
    Fmt.sprintf fmt (tr m) args = ph.filled (List.zipWith (dirShows fmt) ps args) := by
  have := translated_sprintf fmt h hd args hl [] (by simp)
  simpa using this

section
variable {v : Phrases} {L : Lang} {debug : Bool} (hs : Speaks L.tr debug v) (hf : ShowsTexts L.fmt)
include hs hf

theorem failText (E : Env) (p : Param) (e : RunErr) (h1 : e ≠ .keyword) (h2 : e ≠ .openOutput) : FailText v L e (L.text E p e) := by
  cases e with
  | keyword => exact absurd rfl h1
  | openOutput => exact absurd rfl h2
  | glob =>
    have : L.text E p .glob = v.pattern ++ b!": syntax error in pattern" := by
      show Fmt.sprintf L.fmt (L.tr b!"invalid input pattern") [] ++ b!": " ++ b!"syntax error in pattern" = _
      rw [hs.pattern.1, (C73_plain L.fmt _).mpr hs.pattern.2, List.append_assoc]
      rfl
    rw [this]; exact .glob
  | read f =>
    have : L.text E p (.read f) = v.read.filled [f] ++ b!": " ++ L.cause (.read f) := by
      show Fmt.sprintf L.fmt (L.tr b!"failed to read file %v") [f] ++ _ ++ _ = _
      rw [translated_sprintf' L.fmt hs.read (by intro x hx; exact .inl (List.mem_singleton.mp hx)) [f] rfl]
      simp only [List.zipWith_cons_cons, List.zipWith_nil_left, shows_v hf]
    rw [this]; exact .read f
  | parse f =>
    have : L.text E p (.parse f) = v.parse.filled [f] ++ b!": " ++ L.cause (.parse f) := by
      show Fmt.sprintf L.fmt (L.tr b!"failed to parse file %v") [f] ++ _ ++ _ = _
      rw [translated_sprintf' L.fmt hs.parse (by intro x hx; exact .inl (List.mem_singleton.mp hx)) [f] rfl]
      simp only [List.zipWith_cons_cons, List.zipWith_nil_left, shows_v hf]
    rw [this]; exact .parse f
  | write => exact .write
  | close => exact .close

theorem failLine (E : Env) (p : Param) (f : Str) (e : RunErr) (h1 : e ≠ .keyword) (h2 : e ≠ .openOutput) :
    FailLine v L debug f e (L.printErr (L.tr (if debug then b!"failed to process file %v. error message: %+v"
        else b!"failed to process file %v. error message: %v")) [f, L.text E p e]) := by
  refine ⟨_, failText hs hf E p e h1 h2, ?_⟩
  have hm : (if debug then b!"failed to process file %v. error message: %+v"
        else b!"failed to process file %v. error message: %v") = b!"failed to process file %v. error message: " ++ errorVerb debug := by
    cases debug <;> rfl
  rw [hm, Lang.printErr, translated_sprintf L.fmt hs.process ?_ [f, L.text E p e] rfl b!"\n" (by decide)]
  · simp only [List.zipWith_cons_cons, List.zipWith_nil_left, shows_v hf, shows_error hf]
  · intro x hx
    simp only [List.mem_cons, List.not_mem_nil, or_false] at hx
    rcases hx with rfl | rfl
    · exact .inl rfl
    · exact errorVerb_dir _

theorem finalLine (text : Str) : Fmt.sprintf L.fmt (L.tr (if debug then b!"run error: %+v" else b!"run error: %v")) [text] =
    v.run.filled [shownError L.fmt debug text] := by
  have hm : (if debug then b!"run error: %+v" else b!"run error: %v") = b!"run error: " ++ errorVerb debug := by
    cases debug <;> rfl
  rw [hm, translated_sprintf' L.fmt hs.run (by intro x hx; rw [List.mem_singleton.mp hx]; exact errorVerb_dir _) [text] rfl]
  simp only [List.zipWith_cons_cons, List.zipWith_nil_left, shows_error hf]

theorem panicLine : Fmt.sprintf L.fmt (L.tr b!"unexpected error: %+v\n") [L.panic] =
    v.unexpected.filled [L.fmt.render { plus := true } b!"v" L.panic] := by
  have _ := hf
  rw [translated_sprintf' L.fmt hs.unexpected (by intro x hx; rw [List.mem_singleton.mp hx]; exact .inr (.inl rfl)) [L.panic] rfl]
  simp only [List.zipWith_cons_cons, List.zipWith_nil_left, shows_plus]

theorem warnLine {before : List Tr.Entry} {ctx : Ctx} (hI : Inv before ctx) (e : Tr.Entry) (he : 4 ∉ e.ctxt) :
    WarnLine v L debug before e (L.warning debug ctx e) := by
  have hg : ctx.entries.get? e.key = merged before e.ctxt e.id := hI.get _ _ he
  unfold Lang.warning
  rw [hg]
  cases hm : merged before e.ctxt e.id with
  | none => exact .fresh hm
  | some m =>
    dsimp only
    split
    · rename_i hne
      have hx : (if debug then b!"Warning: %+v" else b!"Warning: %v") = b!"Warning: " ++ errorVerb debug := by
        cases debug <;> rfl
      rw [hx, Lang.printErr, translated_sprintf L.fmt hs.warning ?_ [L.conflict e m] rfl b!"\n" (by decide)]
      · rw [Lang.conflict, translated_sprintf' L.fmt hs.conflict ?_ [e.id, listText e.cmts, listText m.cmts] rfl]
        · simp only [List.zipWith_cons_cons, List.zipWith_nil_left, shows_v hf, shows_error hf]
          simp only [listText, Tr.join_eq_intercalate]
          exact .differs hm hne
        · intro x hx
          simp only [List.mem_cons, List.not_mem_nil, or_false, or_self] at hx
          exact .inl hx
      · intro x hx; rw [List.mem_singleton.mp hx]; exact errorVerb_dir _
    · rename_i hne
      exact .agrees hm (by simpa using hne)

theorem warnLines {before : List Tr.Entry} {ctx : Ctx} (hI : Inv before ctx) (es : List Tr.Entry) (he : NoEotIn es) :
    WarnLines v L debug before es (L.warnings debug ctx es) ∧ Inv (before ++ es) (ctx.addAll es).1 := by
  induction es generalizing before ctx with
  | nil => exact ⟨.nil _, by simpa [Ctx.addAll] using hI⟩
  | cons e es ih =>
    have h1 := inv_add before ctx e hI (he e List.mem_cons_self)
    obtain ⟨h2, h3⟩ := ih h1 fun x hx => he x (List.mem_cons_of_mem _ hx)
    refine ⟨.cons (warnLine hs hf hI e (he e List.mem_cons_self)) h2, ?_⟩
    rw [List.append_assoc] at h3
    exact h3

theorem fileLines (E : Env) (p : Param) (kws : List Keyword) (d : Disk) (fs : List Str)
    (he : ∀ f ∈ fs, ∀ es, FileOk E p kws d f es → NoEotIn es) {before : List Tr.Entry} {ctx : Ctx} (hI : Inv before ctx) (first : Option RunErr) :
    (loop E p kws d fs ctx first ≠ none → FileLines v L debug E p kws d before fs (L.loop E p debug kws d fs ctx)) ∧
    (loop E p kws d fs ctx first = none → ∃ done f rest, fs = done ++ f :: rest ∧
      FileLines v L debug E p kws d before done (L.loop E p debug kws d fs ctx) ∧ resolveOneFile E p kws d f = .panic) := by
  induction fs generalizing before ctx first with
  | nil => exact ⟨fun _ => .nil _, fun h => by cases h⟩
  | cons f fs ih =>
    have he' : ∀ g ∈ fs, ∀ es, FileOk E p kws d g es → NoEotIn es := fun g hg => he g (List.mem_cons_of_mem _ hg)
    rw [loop, Lang.loop]
    cases hr : resolveOneFile E p kws d f with
    | entries es =>
      have hok := file_entries _ _ _ _ _ _ hr
      obtain ⟨h1, h2⟩ := warnLines hs hf hI es (he f List.mem_cons_self es hok)
      obtain ⟨i1, i2⟩ := ih he' h2 first
      dsimp only
      refine ⟨fun h => .ok hok h1 (i1 h), fun h => ?_⟩
      obtain ⟨done, g, rest, j1, j2, j3⟩ := i2 h
      exact ⟨f :: done, g, rest, by rw [j1]; rfl, .ok hok h1 j2, j3⟩
    | fail e =>
      have hff := file_fail _ _ _ _ _ _ hr
      have hline := failLine hs hf E p f e (by cases hff <;> simp) (by cases hff <;> simp)
      obtain ⟨i1, i2⟩ := ih he' hI (first.or (some e))
      dsimp only
      refine ⟨fun h => .fails hff hline (i1 fun hn => h (by rw [hn]; rfl)), fun h => ?_⟩
      rw [Option.map_eq_none_iff] at h
      obtain ⟨done, g, rest, j1, j2, j3⟩ := i2 h
      exact ⟨f :: done, g, rest, by rw [j1]; rfl, .fails hff hline j2, j3⟩
    | panic => exact ⟨fun h => absurd rfl h, fun _ => ⟨[], f, fs, rfl, .nil _, hr⟩⟩

theorem openText (E : Env) (p : Param) : L.text E p .openOutput =
    Fmt.sprintf L.fmt (v.output.filled [p.output]) [] ++ b!": " ++ L.cause .openOutput := by
  show Fmt.sprintf L.fmt (Fmt.format L.fmt (L.tr b!"can not open output file: %s") [p.output]) [] ++ _ ++ _ = _
  rw [hs.output.1, phrase_format L.fmt hf v.output hs.output.2.2 b!"%s" p.output (.inr (.inr rfl)) hs.output.2.1, shows_s hf]

theorem keywordsMsg (s : Str) : L.t b!"invalid keywords: %s" [s] = v.keywords.filled [s] := by
  show Fmt.format L.fmt (L.tr b!"invalid keywords: %s") [s] = _
  rw [hs.keywords.1, phrase_format L.fmt hf v.keywords hs.keywords.2.2 b!"%s" s (.inr (.inr rfl)) hs.keywords.2.1, shows_s hf]

end

/-! ## Runs -/

theorem loop_fails (E : Env) (p : Param) (kws : List Keyword) (d : Disk) (fs : List Str) (ctx : Ctx) (r : Ctx × Option RunErr × List RunErr)
    (h : loop E p kws d fs ctx none = some r) : ∀ e, r.2.1 = some e → ∃ f, f ∈ fs ∧ FileFails E p kws d f e := by
  intro e he
  obtain ⟨fates, h1, -, h3, -⟩ := loop_some _ _ _ _ _ _ _ _ h
  rw [he, Option.none_or] at h3
  have hm : e ∈ fates.filterMap id := List.mem_of_mem_head? h3.symm
  rw [List.mem_filterMap] at hm
  obtain ⟨o, ho, rfl⟩ := hm
  clear h3 he h
  induction h1 with
  | nil => cases ho
  | @cons f o' fs fates hf _ ih =>
    rcases List.mem_cons.mp ho with rfl | ho
    · exact ⟨f, List.mem_cons_self, hf⟩
    · obtain ⟨g, hg, h⟩ := ih ho
      exact ⟨g, List.mem_cons_of_mem _ hg, h⟩

theorem finish_cases (E : Env) (p : Param) (o : Option RunErr) (e : RunErr) (h : finish E p o = some e) : o = some e ∨ e = .close := by
  unfold finish at h
  split at h
  · exact .inl h
  · cases o with
    | none => exact .inr (Option.some.inj h).symm
    | some x => exact .inl h

section
variable (v : Phrases) (L : Lang) (debug : Bool) (hs : Speaks L.tr debug v) (hf : ShowsTexts L.fmt) (E : Env) (p : Param) (d d1 : Disk)
  (kws : List Keyword) (hk : DeclaresAll p.keyword kws) (ho : OpenOk E p) (h1 : Opened E p d d1) (fs : List Str)
  (hg : E.glob d1.files p.input = some fs) (he : ∀ f ∈ fs, ∀ es, FileOk E p kws d1 f es → NoEotIn es)
include hs hf hk ho h1 hg he

/-- **C97**: a run over files writes a line for each file that fails and for each entry that disagrees with the one kept for its
message, in the order of the files, and at the end, if it fails, why. -/
theorem C97_run (err : Option RunErr) (printed : List RunErr) (d' : Disk) (h : Run E p d (.returned err printed d')) :
    ∃ out last, FileLines v L debug E p kws d1 [] fs out ∧ L.stderr E p debug d (.returned err printed d') = out ++ last ∧
      (err = none → last = []) ∧
      ∀ e, err = some e → ∃ text, FailText v L e text ∧ last = v.run.filled [shownError L.fmt debug text] := by
  rw [opened_iff] at h1
  subst h1
  rw [← C53_exact] at hk
  have ho := (openOk_iff E p).mpr ho
  have hrun : L.run E p debug d = L.loop E p debug kws (d.truncate E p) fs {} := by
    unfold Lang.run
    rw [hk]
    dsimp only
    rw [if_pos ho, hg]
  have hfl := fileLines hs hf E p kws (d.truncate E p) fs he (inv_addAll [] (by intro x hx; cases hx)) none
  have key : loop E p kws (d.truncate E p) fs {} none ≠ none → (∀ e, err = some e → e ≠ .keyword ∧ e ≠ .openOutput) →
      ∃ out last, FileLines v L debug E p kws (d.truncate E p) [] fs out ∧
      L.stderr E p debug d (.returned err printed d') = out ++ last ∧ (err = none → last = []) ∧
      ∀ e, err = some e → ∃ text, FailText v L e text ∧ last = v.run.filled [shownError L.fmt debug text] := by
    intro hl hne
    refine ⟨_, L.final E p debug (.returned err printed d'), hfl.1 hl, by rw [Lang.stderr, hrun]; rfl, ?_, ?_⟩
    · rintro rfl; rfl
    · rintro e rfl
      obtain ⟨n1, n2⟩ := hne e rfl
      exact ⟨_, failText hs hf E p e n1 n2, finalLine hs hf _⟩
  cases h with
  | keyword hk' => rw [hk] at hk'; cases hk'
  | openOutput _ h1 h2 => rw [h1, h2] at ho; cases ho
  | glob _ _ hg' => rw [hg] at hg'; cases hg'
  | @failed kws' fs' ctx e _ hk' _ hg' hl =>
    rw [hk] at hk'; rw [hg] at hg'; cases hk'; cases hg'
    refine key (by rw [hl]; simp) fun e' he' => ?_
    rw [finish_some] at he'
    cases he'
    obtain ⟨f, -, hff⟩ := loop_fails _ _ _ _ _ _ _ hl e rfl
    constructor <;> (rintro rfl; cases hff)
  | @written kws' fs' ctx _ text hk' _ hg' hl ht =>
    rw [hk] at hk'; rw [hg] at hg'; cases hk'; cases hg'
    refine key (by rw [hl]; simp) fun e' he' => ?_
    rcases finish_cases _ _ _ _ he' with h | h
    · split at h
      · cases h
      · cases h; exact ⟨by simp, by simp⟩
    · subst h; exact ⟨by simp, by simp⟩

/-- **C97**: a run that panics has written the lines about the files before one that was read, and then says what happened. -/
theorem C97_panic (d' : Disk) (hE : Ascii E) (h : Run E p d (.panicked d')) :
    ∃ done f rest src out, fs = done ++ f :: rest ∧ FileLines v L debug E p kws d1 [] done out ∧ d1.files (E.canon f) = some src ∧
      ¬ GoodNames E p kws ∧
      L.stderr E p debug d (.panicked d') = out ++ v.unexpected.filled [L.fmt.render { plus := true } b!"v" L.panic] := by
  rw [opened_iff] at h1
  subst h1
  rw [← C53_exact] at hk
  have ho := (openOk_iff E p).mpr ho
  have hrun : L.run E p debug d = L.loop E p debug kws (d.truncate E p) fs {} := by
    unfold Lang.run
    rw [hk]
    dsimp only
    rw [if_pos ho, hg]
  have hfl := fileLines hs hf E p kws (d.truncate E p) fs he (inv_addAll [] (by intro x hx; cases hx)) none
  cases h with
  | panic hk' _ hg' hl =>
    rw [hk] at hk'; rw [hg] at hg'; cases hk'; cases hg'
    obtain ⟨done, f, rest, j1, j2, j3⟩ := hfl.2 hl
    obtain ⟨⟨src, hsrc⟩, hn⟩ := (file_panic E hE _ _ _ _).mp j3
    refine ⟨done, f, rest, src, _, j1, j2, hsrc, hn, ?_⟩
    rw [Lang.stderr, hrun]
    congr 1
    exact panicLine hs hf

end

/-- The line about a failing file is among the lines. -/
theorem line_of {v : Phrases} {L : Lang} {debug : Bool} {E : Env} {p : Param} {kws : List Keyword} {d : Disk} {before : List Tr.Entry}
    {fs : List Str} {out : Str} (h : FileLines v L debug E p kws d before fs out) (f : Str) (hf : f ∈ fs) (e : RunErr)
    (he : FileFails E p kws d f e) : ∃ a s b, FailLine v L debug f e s ∧ out = a ++ s ++ b := by
  induction h with
  | nil => cases hf
  | @ok before es g fs s t hok hw _ ih =>
    rcases List.mem_cons.mp hf with rfl | hf
    · obtain ⟨src, roots, h1, h2, -⟩ := hok
      cases he with
      | read h => rw [h1] at h; cases h
      | parse h h' => rw [h1] at h; cases h; rw [h2] at h'; cases h'
    · obtain ⟨a, x, b, h1, rfl⟩ := ih hf
      exact ⟨s ++ a, x, b, h1, by simp⟩
  | @fails before g fs e' s t hff hl _ ih =>
    rcases List.mem_cons.mp hf with rfl | hf
    · have : e' = e := by
        cases hff with
        | read h =>
          cases he with
          | read => rfl
          | parse h' => rw [h] at h'; cases h'
        | parse h _ =>
          cases he with
          | read h' => rw [h] at h'; cases h'
          | parse => rfl
      subst this
      exact ⟨[], s, t, hl, rfl⟩
    · obtain ⟨a, x, b, h1, rfl⟩ := ih hf
      exact ⟨s ++ a, x, b, h1, by simp⟩

/-- A file that is processed does not fail. -/
theorem ok_not_fails {E : Env} {p : Param} {kws : List Keyword} {d : Disk} {f : Str} {es : List Tr.Entry} {e : RunErr}
    (h : FileOk E p kws d f es) (he : FileFails E p kws d f e) : False := by
  obtain ⟨src, roots, h1, h2, -⟩ := h
  cases he with
  | read h => rw [h1] at h; cases h
  | parse h h' => rw [h1] at h; cases h; rw [h2] at h'; cases h'

/-! ## Silence -/

/-- Entries without disagreement with the ones before. -/
def AgreesWith (before es : List Tr.Entry) : Prop := ∀ a ∈ before ++ es, ∀ b ∈ es, a.ctxt = b.ctxt → a.id = b.id → a.isPlural = b.isPlural

theorem uniform_cons (before es : List Tr.Entry) (e : Tr.Entry) (hb : Uniform before) :
    AgreesWith before (e :: es) ↔ (∀ m, merged before e.ctxt e.id = some m → m.isPlural = e.isPlural) ∧ AgreesWith (before ++ [e]) es := by
  constructor
  · intro h
    refine ⟨fun m hm => ?_, ?_⟩
    · obtain ⟨f, hf, h1, h2, -, -, -, h6⟩ := merged_some _ _ _ _ hm
      rw [h6]
      exact h f (by simp [hf]) e (by simp) h1 h2
    · intro a ha b hb'
      exact h a (by simpa [or_assoc] using ha) b (by simp [hb'])
  · rintro ⟨h1, h2⟩ a ha b hb' hc hi
    have hbe : ∀ x ∈ before, x.ctxt = e.ctxt → x.id = e.id → x.isPlural = e.isPlural := by
      intro x hx hxc hxi
      obtain ⟨f, hff⟩ := firstOf_mem before x hx
      obtain ⟨f1, f2, f3⟩ := firstOf_some _ _ _ _ hff
      have hm : ∃ m, merged before e.ctxt e.id = some m ∧ m.isPlural = f.isPlural := by
        unfold merged
        rw [← hxc, ← hxi, hff]
        exact ⟨_, rfl, rfl⟩
      obtain ⟨m, hm, hmp⟩ := hm
      rw [← h1 m hm, hmp]
      exact hb x hx f f1 f2.symm f3.symm
    rcases List.mem_cons.mp hb' with rfl | hb'
    · rcases List.mem_append.mp ha with ha | ha
      · exact hbe a ha hc hi
      · rcases List.mem_cons.mp ha with rfl | ha
        · rfl
        · exact (h2 b (by simp) a ha hc.symm hi.symm).symm
    · exact h2 a (by simpa [or_assoc] using ha) b hb' hc hi

theorem uniform_append (before es : List Tr.Entry) : Uniform (before ++ es) ↔ Uniform before ∧ AgreesWith before es := by
  constructor
  · intro h
    exact ⟨fun a ha b hb => h a (by simp [ha]) b (by simp [hb]), fun a ha b hb => h a ha b (by simp [hb])⟩
  · rintro ⟨h1, h2⟩ a ha b hb hc hi
    rcases List.mem_append.mp hb with hb | hb
    · rcases List.mem_append.mp ha with ha | ha
      · exact h1 a ha b hb hc hi
      · exact (h2 b (by simp [hb]) a ha hc.symm hi.symm).symm
    · exact h2 a ha b hb hc hi

theorem warnLines_nil {v : Phrases} {L : Lang} {debug : Bool} {before es : List Tr.Entry} {s : Str} (h : WarnLines v L debug before es s)
    (hb : Uniform before) : s = [] ↔ Uniform (before ++ es) := by
  rw [uniform_append]
  induction h with
  | nil => simp [hb, AgreesWith]
  | @cons before e es s t hl _ ih =>
    rw [uniform_cons _ _ _ hb, List.append_eq_nil_iff]
    have h1 : s = [] ↔ ∀ m, merged before e.ctxt e.id = some m → m.isPlural = e.isPlural := by
      cases hl with
      | fresh h => simp [h]
      | agrees h h' => simp [h, h']
      | differs h h' => simp [h, h']
    rw [h1]
    refine ⟨fun ⟨g1, g2⟩ => ?_, fun ⟨_, g1, g2⟩ => ?_⟩
    · have hu : Uniform (before ++ [e]) := by
        rw [uniform_append]
        refine ⟨hb, (uniform_cons _ _ _ hb).mpr ⟨g1, ?_⟩⟩
        intro a _ b hb; cases hb
      exact ⟨hb, g1, ((ih hu).mp g2).2⟩
    · have hu : Uniform (before ++ [e]) := by
        rw [uniform_append]
        refine ⟨hb, (uniform_cons _ _ _ hb).mpr ⟨g1, ?_⟩⟩
        intro a _ b hb; cases hb
      exact ⟨g1, (ih hu).mpr ⟨hu, g2⟩⟩

theorem uniform_perm {a b : List Tr.Entry} (h : a.Perm b) : Uniform a ↔ Uniform b := by
  unfold Uniform
  simp only [h.mem_iff]

theorem fileLines_ok {v : Phrases} {L : Lang} {debug : Bool} {E : Env} {p : Param} {kws : List Keyword} {d : Disk} {before : List Tr.Entry}
    {fs : List Str} {out : Str} (h : FileLines v L debug E p kws d before fs out) (hok : ∀ f ∈ fs, ∀ e, ¬ FileFails E p kws d f e) :
    ∃ ess, List.Forall₂ (FileOk E p kws d) fs ess := by
  induction h with
  | nil => exact ⟨[], .nil⟩
  | ok hf _ _ ih =>
    obtain ⟨ess, h⟩ := ih fun f hf => hok f (List.mem_cons_of_mem _ hf)
    exact ⟨_, .cons hf h⟩
  | fails hff _ _ _ => exact absurd hff (hok _ List.mem_cons_self _)

theorem fileLines_nil {v : Phrases} {L : Lang} {debug : Bool} {E : Env} {p : Param} {kws : List Keyword} {d : Disk} {before : List Tr.Entry}
    {fs : List Str} {out : Str} (h : FileLines v L debug E p kws d before fs out) (hok : ∀ f ∈ fs, ∀ e, ¬ FileFails E p kws d f e)
    (hb : Uniform before) :
    ∃ ess, List.Forall₂ (FileOk E p kws d) fs ess ∧ (out = [] ↔ Uniform (before ++ ess.flatten)) := by
  induction h with
  | nil => exact ⟨[], .nil, by simp [hb]⟩
  | @ok before es f fs s t hf hw _ ih =>
    have h1 := warnLines_nil hw hb
    by_cases hs : s = []
    · obtain ⟨ess, g1, g2⟩ := ih (fun f hf => hok f (List.mem_cons_of_mem _ hf)) (h1.mp hs)
      refine ⟨es :: ess, .cons hf g1, ?_⟩
      rw [hs, List.nil_append, g2, List.flatten_cons, List.append_assoc]
    · rename_i ht
      obtain ⟨ess, h⟩ := fileLines_ok ht fun f hf => hok f (List.mem_cons_of_mem _ hf)
      refine ⟨es :: ess, .cons hf h, ?_⟩
      constructor
      · intro hn; exact absurd (List.append_eq_nil_iff.mp hn).1 hs
      · intro hu
        refine absurd (h1.mpr ?_) hs
        rw [List.flatten_cons, ← List.append_assoc, uniform_append] at hu
        exact hu.1
  | fails hff _ _ _ => exact absurd hff (hok _ List.mem_cons_self _)

theorem files_perm {E : Env} {p : Param} {kws : List Keyword} {d : Disk} {fs : List Str} {a b : List (List Tr.Entry)}
    (ha : List.Forall₂ (FileOk E p kws d) fs a) (hb : List.Forall₂ (FileOk E p kws d) fs b) : a.flatten.Perm b.flatten := by
  induction ha generalizing b with
  | nil => cases hb; exact .refl _
  | cons h _ ih =>
    cases hb with
    | cons h' hb =>
      obtain ⟨src, roots, h1, h2, h3⟩ := h
      obtain ⟨src', roots', h1', h2', h3'⟩ := h'
      rw [h1] at h1'; cases h1'
      rw [h2] at h2'; cases h2'
      exact (h3.trans h3'.symm).append (ih hb)

section
variable (v : Phrases) (L : Lang) (debug : Bool) (hs : Speaks L.tr debug v) (hf : ShowsTexts L.fmt) (E : Env) (p : Param) (d d1 : Disk)
  (kws : List Keyword) (hk : DeclaresAll p.keyword kws) (ho : OpenOk E p) (h1 : Opened E p d d1) (fs : List Str)
  (hg : E.glob d1.files p.input = some fs) (he : ∀ f ∈ fs, ∀ es, FileOk E p kws d1 f es → NoEotIn es)
include hs hf hk ho h1 hg he

/-- **C97**: every file that fails is named, with the reason. -/
theorem C97_named (err : Option RunErr) (printed : List RunErr) (d' : Disk) (h : Run E p d (.returned err printed d')) (f : Str) (hm : f ∈ fs)
    (e : RunErr) (hfe : FileFails E p kws d1 f e) :
    ∃ a s b, FailLine v L debug f e s ∧ L.stderr E p debug d (.returned err printed d') = a ++ s ++ b := by
  obtain ⟨out, last, g1, g2, -⟩ := C97_run v L debug hs hf E p d d1 kws hk ho h1 fs hg he err printed d' h
  obtain ⟨a, s, b, g3, rfl⟩ := line_of g1 f hm e hfe
  exact ⟨a, s, b ++ last, g3, by rw [g2]; simp⟩

/-- **C97**: a run that returns writes nothing to stderr exactly if it succeeds and every message is used with a plural everywhere or
nowhere. -/
theorem C97_silent (hne : v.run.first ≠ []) (err : Option RunErr) (printed : List RunErr) (d' : Disk)
    (h : Run E p d (.returned err printed d')) :
    L.stderr E p debug d (.returned err printed d') = [] ↔
      err = none ∧ ∀ ess, List.Forall₂ (FileOk E p kws d1) fs ess → Uniform ess.flatten := by
  obtain ⟨out, last, g1, g2, g3, g4⟩ := C97_run v L debug hs hf E p d d1 kws hk ho h1 fs hg he err printed d' h
  rw [g2, List.append_eq_nil_iff]
  cases err with
  | some e =>
    obtain ⟨text, -, rfl⟩ := g4 e rfl
    simp [Phrase.filled, hne]
  | none =>
    have hnf : ∀ f ∈ fs, ∀ e, ¬ FileFails E p kws d1 f e := by
      obtain ⟨fates, f1, f2, f3, f4⟩ := C58_run E p d kws hk ho d1 h1 fs hg none printed d' h
      by_cases hp : printed = []
      · obtain ⟨ess, _, f5, -⟩ := f4 hp
        intro f hf' e hfe
        obtain ⟨i, hi, rfl⟩ := List.mem_iff_getElem.mp hf'
        have hl := f5.length_eq
        exact ok_not_fails (List.Forall₂.get f5 hi (by omega)) hfe
      · have := (f3 hp).1
        cases printed with
        | nil => exact absurd rfl hp
        | cons => simp at this
    obtain ⟨ess, k1, k2⟩ := fileLines_nil g1 hnf (by intro a ha; cases ha)
    rw [List.nil_append] at k2
    rw [k2, g3 rfl]
    simp only [and_true, true_and]
    exact ⟨fun hu ess' h' => (uniform_perm (files_perm k1 h')).mp hu, fun hu => hu _ k1⟩

end

/-- **C97**: wrong keywords are all that is reported: the message of C73. -/
theorem C97_keyword (v : Phrases) (L : Lang) (debug : Bool) (hs : Speaks L.tr debug v) (hf : ShowsTexts L.fmt) (E : Env) (p : Param) (d : Disk)
    (o : Outcome) (h : Run E p d o) (pre post : List Str) (item : Str) (det : Option (Str × List Str)) (c : Option Str)
    (hno : ∀ t ∈ pre ++ item :: post, 59 ∉ t) (hp : p.keyword = List.intercalate b!";" (pre ++ item :: post))
    (hpre : ∀ t ∈ pre, ∃ k, Declares t k) (hb : Blames E.isPrint item det c) :
    L.stderr E p debug d o = v.run.filled [shownError L.fmt debug
      (Fmt.sprintf L.fmt (v.keywords.filled [p.keyword] ++ (det.map fun x => Fmt.format L.fmt (L.tr x.1) x.2).getD []) [] ++
        (c.map (b!": " ++ ·)).getD [])] := by
  have hm := (C73_message E.isPrint L.fmt L.t p.keyword _).mpr ⟨pre, item, post, det, c, hno, hp, hpre, hb, rfl⟩
  have hnone := (C73_exists E.isPrint L.fmt L.t p.keyword).mp ⟨_, hm⟩
  have hrun : L.run E p debug d = [] := by
    unfold Lang.run
    rw [hnone]
  cases h with
  | keyword =>
    rw [Lang.stderr, hrun, List.nil_append]
    show Fmt.sprintf L.fmt _ [(keywordsText E.isPrint L.fmt L.t p.keyword).getD []] = _
    rw [hm, finalLine hs hf, Option.getD_some, keywordsMsg hs hf]
    rfl
  | openOutput hk | glob hk | panic hk | failed hk | written hk => rw [hnone] at hk; cases hk

/-- **C97**: if the output cannot be opened, that is all that is reported, with the name of the output if there is no percent sign
in it (the text is used as a format). -/
theorem C97_output (v : Phrases) (L : Lang) (debug : Bool) (hs : Speaks L.tr debug v) (hf : ShowsTexts L.fmt) (E : Env) (p : Param) (d : Disk)
    (o : Outcome) (h : Run E p d o) (kws : List Keyword) (hk : DeclaresAll p.keyword kws) (ho : ¬ OpenOk E p) :
    (37 ∉ p.output → L.stderr E p debug d o =
      v.run.filled [shownError L.fmt debug (v.output.filled [p.output] ++ b!": " ++ L.cause .openOutput)]) ∧
    (37 ∈ p.output → debug = false → L.stderr E p debug d o ≠
      v.run.filled [shownError L.fmt debug (v.output.filled [p.output] ++ b!": " ++ L.cause .openOutput)]) := by
  rw [(C58_early E p d o h).2.1 kws hk ho]
  have ho' : ¬ (p.toStdout || E.canOpen) = true := fun h => ho ((openOk_iff E p).mp h)
  have hrun : L.run E p debug d = [] := by
    unfold Lang.run
    cases parseKeywords p.keyword with
    | none => rfl
    | some kws => dsimp only; rw [if_neg ho']
  rw [Lang.stderr, hrun, List.nil_append]
  have hfin : L.final E p debug (.returned (some .openOutput) [] d) = v.run.filled [shownError L.fmt debug (L.text E p .openOutput)] :=
    finalLine hs hf _
  rw [hfin, openText hs hf]
  obtain ⟨t, ht⟩ : ∃ t, v.output.filled [p.output] = v.output.first ++ p.output ++ t ∧ 37 ∉ v.output.first ∧ 37 ∉ t := by
    obtain ⟨-, hpl, hw⟩ := hs.output
    rcases hr : v.output.rest with _ | ⟨q, _ | ⟨q', r⟩⟩
    · rw [Phrase.places, hr] at hpl; simp at hpl
    · refine ⟨q.2, ?_, hw.1, hw.2 q (by rw [hr]; simp)⟩
      rw [Phrase.filled, hr]; simp
    · rw [Phrase.places, hr] at hpl; simp at hpl
  have hiff : 37 ∈ v.output.filled [p.output] ↔ 37 ∈ p.output := by
    rw [ht.1]; simp [ht.2.1, ht.2.2]
  refine ⟨fun hn => ?_, fun hm hd heq => ?_⟩
  · rw [(C73_plain L.fmt _).mpr (fun h => hn (hiff.mp h))]
  · subst hd
    obtain ⟨-, hpl, -⟩ := hs.run
    rcases hr : v.run.rest with _ | ⟨q, _ | ⟨q', r⟩⟩
    · rw [Phrase.places, hr] at hpl; simp at hpl
    · have hrf : ∀ x, v.run.filled [x] = v.run.first ++ (x ++ q.2) := by
        intro x; rw [Phrase.filled, hr]; simp
      rw [hrf, hrf] at heq
      simp only [shownError, Bool.false_eq_true, if_false,
        List.append_assoc, List.append_cancel_left_eq] at heq
      have := List.append_cancel_right heq
      exact (C73_plain L.fmt _).mp this (hiff.mpr hm)
    · rw [Phrase.places, hr] at hpl; simp at hpl

/-- **C97**: a bad pattern is all that is reported. -/
theorem C97_pattern (v : Phrases) (L : Lang) (debug : Bool) (hs : Speaks L.tr debug v) (hf : ShowsTexts L.fmt) (E : Env) (p : Param) (d d1 : Disk)
    (o : Outcome) (h : Run E p d o) (kws : List Keyword) (hk : DeclaresAll p.keyword kws) (ho : OpenOk E p) (h1 : Opened E p d d1)
    (hg : E.glob d1.files p.input = none) :
    L.stderr E p debug d o = v.run.filled [shownError L.fmt debug (v.pattern ++ b!": syntax error in pattern")] := by
  rw [(C58_early E p d o h).2.2 kws d1 hk ho h1 hg]
  rw [opened_iff] at h1
  subst h1
  rw [← C53_exact] at hk
  have hrun : L.run E p debug d = [] := by
    unfold Lang.run
    rw [hk]
    dsimp only
    rw [if_pos ((openOk_iff E p).mpr ho), hg]
  rw [Lang.stderr, hrun, List.nil_append]
  have hfin : L.final E p debug (.returned (some .glob) [] (d.truncate E p)) = v.run.filled [shownError L.fmt debug (L.text E p .glob)] :=
    finalLine hs hf _
  rw [hfin]
  have := failText hs hf E p .glob (by simp) (by simp)
  generalize L.text E p .glob = x at this
  cases this
  rfl

/-! ## The messages without translations -/

/-- The messages themselves. -/
def englishPhrases (debug : Bool) : Phrases where
  process := ⟨b!"failed to process file ", [(b!"%v", b!". error message: "), (errorVerb debug, [])]⟩
  conflict := ⟨b!"msgid '", [(b!"%v", b!"' is used without plural and with plural.\nLine    ="), (b!"%v", b!"\nPrevious="), (b!"%v", [])]⟩
  warning := ⟨b!"Warning: ", [(errorVerb debug, [])]⟩
  run := ⟨b!"run error: ", [(errorVerb debug, [])]⟩
  read := ⟨b!"failed to read file ", [(b!"%v", [])]⟩
  parse := ⟨b!"failed to parse file ", [(b!"%v", [])]⟩
  pattern := b!"invalid input pattern"
  output := ⟨b!"can not open output file: ", [(b!"%s", [])]⟩
  unexpected := ⟨b!"unexpected error: ", [(b!"%+v", b!"\n")]⟩
  keywords := ⟨b!"invalid keywords: ", [(b!"%s", [])]⟩

/-- **C97**: without translations the messages themselves are used. -/
theorem C97_english (debug : Bool) : Speaks id debug (englishPhrases debug) := by
  have wf : ∀ ph : Phrase, (37 ∉ ph.first && ph.rest.all fun q => 37 ∉ q.2) = true → ph.Wf := by
    intro ph h
    rw [Bool.and_eq_true, decide_eq_true_eq, List.all_eq_true] at h
    exact ⟨h.1, fun q hq => by simpa using h.2 q hq⟩
  cases debug
  all_goals
    constructor
    case pattern => exact ⟨rfl, by decide⟩
    all_goals exact ⟨rfl, rfl, wf _ (by decide)⟩

/-! ## Example: a template that uses a message with and without plural, a bad template, a missing file -/

/-- Texts as they are. -/
def plainFmt : Fmt.Env Str where
  render := fun _ _ a => a
  asInt := fun _ => none
  empty := []
  extra := fun _ => []

theorem plainFmt_shows : ShowsTexts plainFmt := ⟨fun _ => rfl, fun _ => rfl, rfl⟩

/-- See above. -/
def errEnv : Env where
  isPrint := fun r => 32 ≤ r
  letter := fun r => (65 ≤ r && r ≤ 90) || (97 ≤ r && r ≤ 122)
  digit := fun r => 48 ≤ r && r ≤ 57
  canon := id
  canOpen := true
  glob := fun _ p => if p = b!"*" then some [b!"a.t", b!"b.t", b!"c.t"] else none
  parse := fun _ _ _ src =>
    if src = b!"good" then some [[.action 1 [[.ident b!"T", .str b!"a"]], .action 2 [[.ident b!"N", .str b!"a", .str b!"b"]]]] else none
  now := b!"now"
  sink := fun text => (text, true)
  closes := true

/-- See above. -/
def errParam : Param := ⟨b!"*", [], [], b!"T;N:1,2", [], b!"-"⟩

/-- See above. -/
def errDisk : Disk where
  files := fun f => if f = b!"a.t" then some b!"good" else if f = b!"b.t" then some b!"bad" else none
  stdout := []

/-- See above. -/
def errKws : List Keyword := [⟨b!"T", 0, 1, 0⟩, ⟨b!"N", 0, 1, 2⟩]

/-- See above. -/
def errLang : Lang where
  tr := id
  fmt := plainFmt
  cause := fun e => match e with
    | .read _ => b!"no such file"
    | .openOutput => b!"permission denied"
    | _ => b!"unexpected \"}\""
  panic := b!"oops"

theorem err_keys : DeclaresAll errParam.keyword errKws := (C53_exact _ _).mp (by decide +kernel)

theorem err_run : ∃ printed, Run errEnv errParam errDisk (.returned (some (.parse b!"b.t")) printed errDisk) := by
  have : (loop errEnv errParam errKws (errDisk.truncate errEnv errParam) [b!"a.t", b!"b.t", b!"c.t"] {} none).map (·.2) =
      some (some (.parse b!"b.t"), [.parse b!"b.t", .read b!"c.t"]) := by decide +kernel
  rw [Option.map_eq_some_iff] at this
  obtain ⟨⟨ctx, e, pr⟩, h1, h2⟩ := this
  cases h2
  exact ⟨_, .failed (kws := errKws) (by decide +kernel) (by decide) rfl h1⟩

theorem err_eot : ∀ f ∈ [b!"a.t", b!"b.t", b!"c.t"], ∀ es, FileOk errEnv errParam errKws errDisk f es → NoEotIn es := by
  rintro f hf es ⟨src, roots, h1, h2, h3⟩ e he
  have he := (h3.trans (templates_perm _ _ _).symm).subset he
  unfold parsed errEnv at h2
  dsimp only at h2
  split at h2
  · cases h2
    have : ∀ e ∈ resolveTemplates errKws f [[Stmt.action 1 [[.ident b!"T", .str b!"a"]], .action 2 [[.ident b!"N", .str b!"a", .str b!"b"]]]],
        e.ctxt = [] := by
      simp only [List.mem_cons, List.not_mem_nil, or_false] at hf
      rcases hf with rfl | rfl | rfl <;> decide +kernel
    rw [this e he]; simp
  · cases h2

example : ∃ printed out last, Run errEnv errParam errDisk (.returned (some (.parse b!"b.t")) printed errDisk) ∧
    FileLines (englishPhrases false) errLang false errEnv errParam errKws errDisk [] [b!"a.t", b!"b.t", b!"c.t"] out ∧
    errLang.stderr errEnv errParam false errDisk (.returned (some (.parse b!"b.t")) printed errDisk) = out ++ last ∧
    last = b!"run error: failed to parse file b.t: unexpected \"}\"" ∧
    out = b!"Warning: msgid 'a' is used without plural and with plural.\nLine    =[#: a.t:2]\nPrevious=[#: a.t:1]\n" ++
      b!"failed to process file b.t. error message: failed to parse file b.t: unexpected \"}\"\n" ++
      b!"failed to process file c.t. error message: failed to read file c.t: no such file\n" := by
  obtain ⟨pr, h⟩ := err_run
  obtain ⟨out, last, h1, h2, h3, h4⟩ := C97_run (englishPhrases false) errLang false (C97_english false) plainFmt_shows errEnv errParam
    errDisk errDisk errKws err_keys (.inr (.inl rfl)) ⟨fun _ => rfl, fun h => absurd (.inr rfl) h⟩ _ rfl err_eot _ _ _ h
  obtain ⟨text, h5, h6⟩ := h4 _ rfl
  have h7 : last = b!"run error: failed to parse file b.t: unexpected \"}\"" := by
    cases h5
    rw [h6]; decide
  refine ⟨pr, out, last, h, h1, h2, h7, ?_⟩
  have h8 : errLang.stderr errEnv errParam false errDisk (.returned (some (.parse b!"b.t")) pr errDisk) =
      errLang.run errEnv errParam false errDisk ++ last := by
    rw [Lang.stderr, h7]
    show _ ++ errLang.final errEnv errParam false (.returned (some (.parse b!"b.t")) [] errDisk) = _
    rw [show errLang.final errEnv errParam false (.returned (some (.parse b!"b.t")) [] errDisk) =
      b!"run error: failed to parse file b.t: unexpected \"}\"" by decide +kernel]
  rw [← List.append_cancel_right (h8.symm.trans h2)]
  decide +kernel

/-- A wrong declaration, with a percent sign. -/
example (o : Outcome) (h : Run errEnv { errParam with keyword := b!"T:%d" } errDisk o) :
    errLang.stderr errEnv { errParam with keyword := b!"T:%d" } false errDisk o =
      b!"run error: invalid keywords: T:%!d(MISSING)msg id index is not a number: strconv.ParseInt: parsing \"%d\": invalid syntax" := by
  rw [C97_keyword (englishPhrases false) errLang false (C97_english false) plainFmt_shows errEnv _ errDisk o h [] [] b!"T:%d"
    (some (b!"msg id index is not a number", [])) (some b!"strconv.ParseInt: parsing \"%d\": invalid syntax") (by decide) rfl (by simp)
    (by rw [blames_iff]; decide +kernel)]
  decide +kernel

/-- An output that cannot be opened. -/
example (o : Outcome) (h : Run { errEnv with canOpen := false } { errParam with output := b!"m.pot" } errDisk o) :
    errLang.stderr { errEnv with canOpen := false } { errParam with output := b!"m.pot" } false errDisk o =
      b!"run error: can not open output file: m.pot: permission denied" := by
  rw [(C97_output (englishPhrases false) errLang false (C97_english false) plainFmt_shows _ _ errDisk o h errKws err_keys
    (by rintro (h | h | h) <;> cases h)).1 (by decide)]
  decide +kernel

/-- A pattern that is none. -/
example (o : Outcome) (h : Run errEnv { errParam with input := b!"[" } errDisk o) :
    errLang.stderr errEnv { errParam with input := b!"[" } false errDisk o = b!"run error: invalid input pattern: syntax error in pattern" := by
  rw [C97_pattern (englishPhrases false) errLang false (C97_english false) plainFmt_shows _ _ errDisk errDisk o h errKws err_keys
    (.inr (.inl rfl)) ⟨fun _ => rfl, fun h => absurd (.inr rfl) h⟩ rfl]
  decide +kernel

/-- A name that is none for a function. -/
example (d' : Disk) (h : Run errEnv { errParam with function := b!"a-b" } errDisk (.panicked d')) :
    errLang.stderr errEnv { errParam with function := b!"a-b" } false errDisk (.panicked d') = b!"unexpected error: oops\n" := by
  obtain ⟨done, f, rest, src, out, h1, h2, h3, h4, h5⟩ := C97_panic (englishPhrases false) errLang false (C97_english false) plainFmt_shows errEnv
    { errParam with function := b!"a-b" } errDisk errDisk errKws err_keys (.inr (.inl rfl)) ⟨fun _ => rfl, fun h => absurd (.inr rfl) h⟩ _ rfl
    err_eot d' ⟨by intro r hr; simp [errEnv]; omega, by intro r hr; simp [errEnv]; omega, by decide, by decide⟩ h
  show errLang.stderr errEnv { errParam with function := b!"a-b" } false errDisk (.panicked errDisk) = _
  decide +kernel

end Verif.Xt
