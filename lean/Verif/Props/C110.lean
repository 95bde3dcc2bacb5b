import Verif.Props.C109
import Verif.Props.C96
/-!
# C110: a later run changes one line of the POT
-/
namespace Verif.Xt
open Verif

/-! ## One line of the header -/

/-- A byte that is written as it is. -/
def AsIs (c : UInt8) : Prop := 32 ≤ c ∧ c ≤ 126 ∧ c ≠ 34 ∧ c ≠ 92

theorem escRune_asIs (P : Nat → Bool) (hP : ∀ r, 32 ≤ r → r ≤ 126 → P r = true) (c : UInt8) (h : AsIs c) :
    c < 0x80 ∧ c.toNat ≠ Utf8.runeError ∧ Quote.escRune P c.toNat = [c] := by
  obtain ⟨h1, h2, h3, h4⟩ := h
  have a1 : 32 ≤ c.toNat := UInt8.le_iff_toNat_le.1 h1
  have a2 : c.toNat ≤ 126 := UInt8.le_iff_toNat_le.1 h2
  have a3 : c.toNat ≠ 34 := fun h => h3 (UInt8.toNat_inj.1 h)
  have a4 : c.toNat ≠ 92 := fun h => h4 (UInt8.toNat_inj.1 h)
  refine ⟨UInt8.lt_iff_toNat_lt.2 (by show c.toNat < 128; omega), by unfold Utf8.runeError; omega, ?_⟩
  unfold Quote.escRune Utf8.encode
  rw [if_neg (by omega), if_pos (hP _ a1 a2), if_pos (by omega)]
  simp

theorem quoteLoop_asIs (P : Nat → Bool) (hP : ∀ r, 32 ≤ r → r ≤ 126 → P r = true) (s t : Str) (k : Nat) (h : ∀ c ∈ s, AsIs c) :
    Quote.quoteLoop P (s.length + k) (s ++ t) = s ++ Quote.quoteLoop P k t := by
  induction s with
  | nil => simp
  | cons c s ih =>
    obtain ⟨h1, h2, h3⟩ := escRune_asIs P hP c (h c (by simp))
    have : (c :: s).length + k = (s.length + k) + 1 := by simp only [List.length_cons]; omega
    rw [this, List.cons_append, Quote.quoteLoop]
    simp only [h1, if_true, h2, and_false, if_false, h3, List.drop_succ_cons, List.drop_zero, List.cons_append, List.nil_append]
    rw [ih fun x hx => h x (List.mem_cons_of_mem _ hx)]

theorem quote_line (P : Nat → Bool) (hP : ∀ r, 32 ≤ r → r ≤ 126 → P r = true) (h10 : P 10 = false) (s : Str) (h : ∀ c ∈ s, AsIs c) :
    Quote.quote P (s ++ [10]) = b!"\"" ++ s ++ b!"\\n\"" := by
  unfold Quote.quote
  rw [List.length_append, List.length_singleton, quoteLoop_asIs P hP s [10] 1 h]
  have : Quote.quoteLoop P 1 [10] = [92, 110] := by
    rw [Quote.quoteLoop, if_pos (by decide)]
    simp [Quote.quoteLoop, Quote.escRune, h10, Quote.letterEsc, Utf8.runeError]
  rw [this]
  simp

theorem split0_line (l rest : Str) (th : Int) (depth : Nat) (h : 10 ∉ l) (hr : rest ≠ []) :
    Tr.split0 (l ++ 10 :: rest) th (depth + 1) = (l ++ [10]) :: Tr.split0 rest th (depth + 2) ∧
    Tr.split0 (l ++ 10 :: rest) th 0 = [] :: (l ++ [10]) :: Tr.split0 rest th 1 := by
  have hi : GoStr.indexByte 10 (l ++ 10 :: rest) = some l.length := by
    rw [GoStr.indexByte_append 10 l _ h]
  have hl : l.length + 1 < (l ++ 10 :: rest).length := by
    have := List.length_pos_iff.2 hr
    simp only [List.length_append, List.length_cons]; omega
  have ht : (l ++ 10 :: rest).take (l.length + 1) = l ++ [10] := by simp [List.take_append]
  have hd : (l ++ 10 :: rest).drop (l.length + 1) = rest := by simp [List.drop_append]
  constructor <;>
  · rw [Tr.split0]
    simp only [hi, hl, dif_pos, ht, hd]
    rfl

/-- The line with the date. -/
def dateLine (now : Str) : Str := b!"\"POT-Creation-Date: " ++ now ++ b!"\\n\"" ++ [10]

theorem header_text (P : Nat → Bool) (hP : ∀ r, 32 ≤ r → r ≤ 126 → P r = true) (h10 : P 10 = false) (p : Param) (hasPlural : Bool) :
    ∃ A B, A.getLast? = some 10 ∧ ∀ now, (∀ c ∈ now, AsIs c) → Tr.potEntry P (header p now hasPlural) = A ++ dateLine now ++ B := by
  obtain ⟨l, ls, hls⟩ : ∃ l ls, ∀ now, (headerLines p now hasPlural).drop 3 = l :: ls := by cases hasPlural <;> exact ⟨_, _, fun _ => rfl⟩
  have hne : GoStr.join [10] (l :: ls) ≠ [] := by
    have : ∃ a b, l = a :: b := by
      have := hls []
      cases hasPlural <;> (cases this; exact ⟨_, _, rfl⟩)
    obtain ⟨a, b, rfl⟩ := this
    cases ls <;> simp [GoStr.join]
  refine ⟨headerCmts.flatMap (fun c => c ++ [10]) ++ Tr.writeString P b!"msgid" [] ++ b!"msgstr " ++ (Quote.quote P [] ++ [10]) ++
    (Quote.quote P b!"Project-Id-Version: PACKAGE VERSION\n" ++ [10]) ++ (Quote.quote P b!"Report-Msgid-Bugs-To: \n" ++ [10]),
    ((Tr.split0 (GoStr.join [10] (l :: ls)) 77 3).flatMap fun line => Quote.quote P line ++ [10]) ++ [10],
    by simp only [← List.append_assoc]; exact List.getLast?_concat, fun now hnow => ?_⟩
  have key : ∀ c ∈ b!"POT-Creation-Date: ", AsIs c := by unfold AsIs; decide
  have hdate : ∀ c ∈ b!"POT-Creation-Date: " ++ now, AsIs c := by
    intro c hc
    rcases List.mem_append.1 hc with hc | hc
    · exact key c hc
    · exact hnow c hc
  have hn10 : 10 ∉ b!"POT-Creation-Date: " ++ now := fun h => absurd (hdate 10 h).1 (by decide)
  have hstr : (header p now hasPlural).str = b!"Project-Id-Version: PACKAGE VERSION" ++ 10 :: (b!"Report-Msgid-Bugs-To: " ++ 10 ::
      ((b!"POT-Creation-Date: " ++ now) ++ 10 :: GoStr.join [10] (l :: ls))) := by
    have : headerLines p now hasPlural = b!"Project-Id-Version: PACKAGE VERSION" :: b!"Report-Msgid-Bugs-To: " ::
        (b!"POT-Creation-Date: " ++ now) :: l :: ls := by
      rw [← hls now]; rfl
    unfold header
    simp only [this, GoStr.join, List.append_assoc, List.cons_append, List.nil_append]
  unfold Tr.potEntry
  rw [if_neg (show ¬ (header p now hasPlural).isPlural = true by simp [header]), if_pos (show (header p now hasPlural).id = [] from rfl),
    if_neg (show ¬ (header p now hasPlural).ctxt ≠ [] by simp [header]), show (header p now hasPlural).id = [] from rfl]
  rw [Tr.writeString.eq_1 P b!"msgstr", Tr.split, hstr, (split0_line _ _ _ 0 (by decide) (by simp)).2, (split0_line _ _ _ 0 (by decide) (by simp)).1,
    (split0_line _ _ _ 1 hn10 hne).1]
  simp only [List.flatMap_cons]
  rw [quote_line P hP h10 _ hdate]
  unfold Tr.writeComments dateLine
  simp only [List.append_assoc, List.cons_append, List.nil_append, header, Tr.lineThreshold]

theorem stamp_asIs (u z : Int) (h1 : -62167219200 ≤ u + z) (h2 : u + z < 253402300800) (hz : z.natAbs < 360000) :
    ∀ c ∈ Time.stamp u z, AsIs c := by
  intro c hc
  have := (Time.stamp_bytes (Time.C109_stamp u z h1 h2 hz)).2.1 c hc
  exact u8 (P := fun c => (c = 32 ∨ (43 ≤ c ∧ c ≤ 58)) → 32 ≤ c ∧ c ≤ 126 ∧ c ≠ 34 ∧ c ≠ 92) (by decide +kernel) c this

/-! ## The texts -/

open Classical in
/-- **C110** The times at which a POT is written decide one of its lines and nothing else. -/
theorem C110_line (P : Nat → Bool) (hP : ∀ r, 32 ≤ r → r ≤ 126 → P r = true) (h10 : P 10 = false) (p : Param) (es : List Tr.Entry)
    (hn : NoEotIn es) (ht : NoTies es) (he : ¬ HasEmpty es) :
    ∃ A B, A.getLast? = some 10 ∧ ∀ u z : Int, -62167219200 ≤ u + z → u + z < 253402300800 → z.natAbs < 360000 → ∀ text,
      PotText P p (Time.stamp u z) (Ctx.addAll {} es).1 text ↔
        text = A ++ b!"\"POT-Creation-Date: " ++ Time.stamp u z ++ b!"\\n\"\n" ++ B := by
  obtain ⟨A, B, hA, hAB⟩ := header_text P hP h10 p (decide (SomePlural es))
  -- the entries after the header
  have hself : ∀ L, Collection es L → ∀ e ∈ L, e.id ≠ [] := by
    rintro L ⟨-, hL⟩ e h hid
    obtain ⟨c, i, hm⟩ := (hL e).1 h
    obtain ⟨f, hf, hfc, hfi, hpc, hpi, -, -⟩ := merged_some _ _ _ _ hm
    have : f.id = [] := by rw [hfi, ← hpi, hid]
    exact he ⟨f, hf, ht.2 f hf this, this⟩
  have hform : ∀ now text, PotOf P p now es text → ∃ L R, Collection es L ∧ R.Perm L ∧ R.Pairwise (fun a b => ¬ b.sortKey < a.sortKey) ∧
      text = Tr.potEntry P (header p now (decide (SomePlural es))) ++ Tr.savePot P R := by
    rintro now text ⟨L, M, hL, hM, hs, rfl⟩
    rw [if_neg he] at hM
    obtain ⟨R, rfl, hR⟩ := C57_header_first _ L M rfl (hself L hL) hM hs
    exact ⟨L, R, hL, hR, (List.pairwise_cons.1 hs).2, rfl⟩
  obtain ⟨t0, h0⟩ := C57_exists P p [] (Ctx.addAll {} es).1
  obtain ⟨L0, R0, hL0, hR0, hs0, -⟩ := hform _ _ (C57_pot P p [] es hn t0 h0)
  refine ⟨A, B ++ Tr.savePot P R0, hA, fun u z g1 g2 g3 text => ?_⟩
  have hto : ∀ text, PotText P p (Time.stamp u z) (Ctx.addAll {} es).1 text →
      text = A ++ b!"\"POT-Creation-Date: " ++ Time.stamp u z ++ b!"\\n\"\n" ++ (B ++ Tr.savePot P R0) := by
    intro text h
    have h1 := C57_pot P p _ es hn text h
    have h2 : PotOf P p (Time.stamp u z) es (Tr.savePot P (header p (Time.stamp u z) (decide (SomePlural es)) :: R0)) := by
      refine ⟨L0, _, hL0, ?_, List.pairwise_cons.2 ⟨fun e _ => ?_, hs0⟩, rfl⟩
      · rw [if_neg he]
        exact hR0.cons _
      · rw [show (header p (Time.stamp u z) _).sortKey = [] from (Tr.sortKey_nil _).mpr rfl]
        exact List.not_lt_nil _
    rw [C64_unique P p _ es ht _ _ h1 h2]
    show Tr.potEntry P _ ++ Tr.savePot P R0 = _
    rw [hAB _ (stamp_asIs u z g1 g2 g3)]
    unfold dateLine
    simp
  refine ⟨hto text, fun h => ?_⟩
  obtain ⟨t, h'⟩ := C57_exists P p (Time.stamp u z) (Ctx.addAll {} es).1
  rw [h, ← hto t h']
  exact h'

/-- **C110** With an empty message, which takes the place of the header, the POT does not tell when it was written. -/
theorem C110_empty (P : Nat → Bool) (p : Param) (es : List Tr.Entry) (hn : NoEotIn es) (ht : NoTies es) (he : HasEmpty es)
    (now now' text text' : Str) (h : PotText P p now (Ctx.addAll {} es).1 text) (h' : PotText P p now' (Ctx.addAll {} es).1 text') :
    text = text' := by
  obtain ⟨L, M, hL, hM, hs, rfl⟩ := C57_pot P p now es hn text h
  refine C64_unique P p now' es ht _ _ ⟨L, M, hL, ?_, hs, rfl⟩ (C57_pot P p now' es hn text' h')
  rw [if_pos he] at hM ⊢
  exact hM

/-! ## Two runs -/

theorem loop_now (E : Env) (now : Str) (p : Param) (kws : List Keyword) (d : Disk) (fs : List Str) (ctx : Ctx) (err : Option RunErr) :
    loop { E with now := now } p kws d fs ctx err = loop E p kws d fs ctx err := by
  induction fs generalizing ctx err with
  | nil => rfl
  | cons f fs ih =>
    have : resolveOneFile { E with now := now } p kws d f = resolveOneFile E p kws d f := rfl
    rw [loop, loop, this]
    simp only [ih]

/-- **C110** Two runs that write to a file and differ in their time: the files differ in one line, the one with the date.  What was in the
file before does not matter. -/
theorem C110_run (E : Env) (hP : ∀ r, 32 ≤ r → r ≤ 126 → E.isPrint r = true) (h10 : E.isPrint 10 = false)
    (hsink : ∀ t, (E.sink t).2 = true → (E.sink t).1 = t) (p : Param) (hout : ¬ ToStdout p) (d e : Disk) (hs : d.stdout = e.stdout)
    (hde : ∀ f, f ≠ E.canon p.output → d.files f = e.files f)
    (hd : ∀ kws d1 fs ess, DeclaresAll p.keyword kws → Opened E p d d1 → E.glob d1.files p.input = some fs →
      List.Forall₂ (FileOk E p kws d1) fs ess → NoEotIn ess.flatten ∧ NoTies ess.flatten ∧ ¬ HasEmpty ess.flatten)
    (u z v y : Int) (g1 : -62167219200 ≤ u + z) (g2 : u + z < 253402300800) (g3 : z.natAbs < 360000)
    (k1 : -62167219200 ≤ v + y) (k2 : v + y < 253402300800) (k3 : y.natAbs < 360000) (pr pr' : List RunErr) (d' e' : Disk)
    (h : Run { E with now := Time.stamp u z } p d (.returned none pr d')) (h' : Run { E with now := Time.stamp v y } p e (.returned none pr' e')) :
    ∃ A B, A.getLast? = some 10 ∧
      d'.files (E.canon p.output) = some (A ++ b!"\"POT-Creation-Date: " ++ Time.stamp u z ++ b!"\\n\"\n" ++ B) ∧
      e'.files (E.canon p.output) = some (A ++ b!"\"POT-Creation-Date: " ++ Time.stamp v y ++ b!"\\n\"\n" ++ B) := by
  have hf : ∀ (now t : Str) (d1 : Disk), finish { E with now := now } p (if (E.sink t).2 then none else some .write) = none →
      (d1.write { E with now := now } p t).files (E.canon p.output) = some t := by
    intro now t d1 hf
    have hr := (received_write { E with now := now } p d1 t).2 hout
    have : (E.sink t).2 = true := by
      by_contra hc
      rw [if_neg hc, finish_some] at hf
      cases hf
    rw [show (d1.write { E with now := now } p t).files (E.canon p.output) = some (E.sink t).1 from hr.2.1, hsink t this]
  have ht : e.truncate E p = d.truncate E p := by
    rw [← opened_iff]
    obtain ⟨g1, g2, g3⟩ := ((opened_iff E p e _).mpr rfl).2 hout
    exact ⟨fun hx => absurd hx hout, fun _ => ⟨g1.trans hs.symm, g2, fun f hf => (g3 f hf).trans (hde f hf).symm⟩⟩
  generalize ho : Outcome.returned none pr d' = o at h
  generalize ho' : Outcome.returned none pr' e' = o' at h'
  cases h with
  | keyword | openOutput => cases ho
  | glob | failed => rw [finish_some] at ho; cases ho
  | panic => cases ho
  | @written kws fs ctx pr text hk hop hg hl hpt =>
    cases h' with
    | keyword | openOutput => cases ho'
    | glob | failed => rw [finish_some] at ho'; cases ho'
    | panic => cases ho'
    | @written kws' fs' ctx' pr'' text' hk' hop' hg' hl' hpt' =>
      rw [loop_now] at hl hl'
      change loop E p kws' (e.truncate E p) fs' {} none = _ at hl'
      change E.glob (e.truncate E p).files p.input = _ at hg'
      change E.glob (d.truncate E p).files p.input = _ at hg
      change loop E p kws (d.truncate E p) fs {} none = _ at hl
      rw [ht] at hl' hg'
      rw [hg] at hg'
      rw [hk] at hk'
      cases hg'; cases hk'
      rw [hl] at hl'
      cases hl'
      obtain ⟨fates, -, h1, h2, h3⟩ := loop_some E p kws _ fs {} none _ hl
      dsimp only at h1 h2 h3
      have h0 : fates.filterMap id = [] := by
        cases hh : fates.filterMap id with
        | nil => rfl
        | cons a l => rw [hh] at h2; cases h2
      obtain ⟨ess, hess, rfl⟩ := h3 h0
      obtain ⟨x1, x2, x3⟩ := hd kws _ fs ess ((C53_exact _ _).mp hk) ((opened_iff _ _ _ _).mpr rfl) hg hess
      obtain ⟨A, B, hA, hAB⟩ := C110_line E.isPrint hP h10 p _ x1 x2 x3
      injection ho with ho1 ho2 ho3
      injection ho' with ho1' ho2' ho3'
      refine ⟨A, B, hA, ?_, ?_⟩
      · rw [ho3, ← (hAB u z g1 g2 g3 text).1 hpt]
        exact hf _ _ _ ho1.symm
      · rw [ho3', ← (hAB v y k1 k2 k3 text').1 hpt']
        exact hf _ _ _ ho1'.symm

/-! ## Examples -/

theorem ascii_printed : (∀ r, 32 ≤ r → r ≤ 126 → Tr.asciiPrint r = true) ∧ Tr.asciiPrint 10 = false := by
  refine ⟨fun r h1 h2 => ?_, by decide⟩
  unfold Tr.asciiPrint
  simp only [Bool.and_eq_true, decide_eq_true_eq]
  omega

example : ∃ A B, A.getLast? = some 10 ∧ ∀ u z : Int, -62167219200 ≤ u + z → u + z < 253402300800 → z.natAbs < 360000 → ∀ text,
    PotText Tr.asciiPrint noParam (Time.stamp u z) (Ctx.addAll {} someUses).1 text ↔
      text = A ++ b!"\"POT-Creation-Date: " ++ Time.stamp u z ++ b!"\\n\"\n" ++ B :=
  C110_line _ ascii_printed.1 ascii_printed.2 _ _ someUses_ok.1 someUses_ok.2.2.2 (by unfold HasEmpty; decide)

/-- An empty message. -/
def emptyUse : List Tr.Entry := [{ cmts := [b!"#: f:1"] }]

example : NoEotIn emptyUse ∧ NoTies emptyUse ∧ HasEmpty emptyUse := by
  refine ⟨by unfold NoEotIn; decide, ⟨?_, by decide⟩, by unfold HasEmpty; decide⟩
  intro c i e c' i' e' h h' _
  obtain ⟨f, hf, rfl, rfl, -⟩ := merged_some _ _ _ _ h
  obtain ⟨f', hf', rfl, rfl, -⟩ := merged_some _ _ _ _ h'
  rw [List.mem_singleton.1 hf, List.mem_singleton.1 hf']
  exact ⟨rfl, rfl⟩

/-- The environment of the examples of C58 with one file and a printable ASCII. -/
def dateEnv : Env := { exEnv with isPrint := Tr.asciiPrint, glob := fun _ _ => some [b!"a"] }

/-- Two runs, the second over the output of the first, at midnight of 1 January 2024 and a second later. -/
example : ∃ d' e', Run { dateEnv with now := Time.stamp 1704067200 0 } (exParam b!"T") (exDisk none) (.returned none [] d') ∧
    Run { dateEnv with now := Time.stamp 1704067201 0 } (exParam b!"T") d' (.returned none [] e') ∧
    ∃ A B, A.getLast? = some 10 ∧
      d'.files b!"o" = some (A ++ b!"\"POT-Creation-Date: 2024-01-01 00:00:00+0000\\n\"\n" ++ B) ∧
      e'.files b!"o" = some (A ++ b!"\"POT-Creation-Date: 2024-01-01 00:00:01+0000\\n\"\n" ++ B) := by
  have hrun : ∀ now d, d.files b!"a" = some b!"hello" → ∃ d', Run { dateEnv with now := now } (exParam b!"T") d (.returned none [] d') ∧
      d'.stdout = d.stdout ∧ ∀ f, f ≠ b!"o" → d'.files f = d.files f := by
    intro now d hd
    have ht : d.truncate { dateEnv with now := now } (exParam b!"T") = d.put b!"o" [] := rfl
    have hl : loop { dateEnv with now := now } (exParam b!"T") [⟨b!"T", 0, 1, 0⟩] (d.put b!"o" []) [b!"a"] {} none =
        some ((Ctx.addAll {} [{ cmts := [b!"#: a:1"], id := b!"hello" }]).1, none, []) := by
      have hr : resolveOneFile { dateEnv with now := now } (exParam b!"T") [⟨b!"T", 0, 1, 0⟩] (d.put b!"o" []) b!"a" =
          resolveOneFile dateEnv (exParam b!"T") [⟨b!"T", 0, 1, 0⟩] (exDisk none) b!"a" := by
        unfold resolveOneFile
        rw [show (d.put b!"o" []).files (Env.canon { dateEnv with now := now } b!"a") = some b!"hello" from hd,
          show (exDisk none).files (dateEnv.canon b!"a") = some b!"hello" from rfl]
      have hx : (match resolveOneFile dateEnv (exParam b!"T") [⟨b!"T", 0, 1, 0⟩] (exDisk none) b!"a" with
          | .entries es => some es
          | _ => none) = some [{ cmts := [b!"#: a:1"], id := b!"hello" }] := by decide +kernel
      rw [loop, hr]
      split at hx <;> cases hx
      rename_i h
      rw [h]
      rfl
    obtain ⟨text, h⟩ := C57_exists Tr.asciiPrint (exParam b!"T") now (Ctx.addAll {} [{ cmts := [b!"#: a:1"], id := b!"hello" }]).1
    refine ⟨_, .written (kws := [⟨b!"T", 0, 1, 0⟩]) (by decide +kernel) rfl rfl hl h, rfl, fun f hf => ?_⟩
    show (if f = b!"o" then _ else if f = b!"o" then _ else d.files f) = _
    rw [if_neg hf, if_neg hf]
  have hd : ∀ kws d1 fs ess, DeclaresAll (exParam b!"T").keyword kws → Opened dateEnv (exParam b!"T") (exDisk none) d1 →
      dateEnv.glob d1.files (exParam b!"T").input = some fs → List.Forall₂ (FileOk dateEnv (exParam b!"T") kws d1) fs ess →
      ess.flatten = [{ cmts := [b!"#: a:1"], id := b!"hello" }] := by
    intro kws d1 fs ess hk ho hg hess
    rw [← C53_exact] at hk
    rw [show parseKeywords (exParam b!"T").keyword = some [⟨b!"T", 0, 1, 0⟩] by decide +kernel] at hk
    cases hk
    rw [opened_iff] at ho
    subst ho
    cases hg
    cases hess with
    | @cons _ es _ l h hl =>
      cases hl
      obtain ⟨src, roots, h1, h2, h3⟩ := h
      cases h1
      have h4 := h3.trans (templates_perm _ _ _).symm
      have h5 : parsed dateEnv (exParam b!"T") [⟨b!"T", 0, 1, 0⟩] b!"hello" = some [[.action 1 [[.ident b!"T", .str b!"hello"]]]] := by
        rw [← parsed_eq]
        have h6 : (funcsFor [⟨b!"T", 0, 1, 0⟩] (exParam b!"T") b!"hello").contains b!"T" = true := by decide +kernel
        simp only [dateEnv, exEnv, h6]
        rfl
      rw [h5] at h2
      cases h2
      rw [show resolveTemplates [⟨b!"T", 0, 1, 0⟩] b!"a" [[.action 1 [[.ident b!"T", .str b!"hello"]]]] =
        [{ cmts := [b!"#: a:1"], id := b!"hello" }] by decide +kernel, List.perm_singleton] at h4
      subst h4
      rfl
  obtain ⟨d', r1, s1, t1⟩ := hrun (Time.stamp 1704067200 0) (exDisk none) (by decide)
  obtain ⟨e', r2, s2, t2⟩ := hrun (Time.stamp 1704067201 0) d' ((t1 _ (by decide)).trans (by decide))
  have hd' : ∀ kws d1 fs ess, DeclaresAll (exParam b!"T").keyword kws → Opened dateEnv (exParam b!"T") (exDisk none) d1 →
      dateEnv.glob d1.files (exParam b!"T").input = some fs → List.Forall₂ (FileOk dateEnv (exParam b!"T") kws d1) fs ess →
      NoEotIn ess.flatten ∧ NoTies ess.flatten ∧ ¬ HasEmpty ess.flatten := by
    intro kws d1 fs ess h1 h2 h3 h4
    rw [hd kws d1 fs ess h1 h2 h3 h4]
    refine ⟨by unfold NoEotIn; decide, ⟨?_, by decide⟩, by unfold HasEmpty; decide⟩
    intro c i e c' i' e' h h' _
    obtain ⟨f, hf, rfl, rfl, -⟩ := merged_some _ _ _ _ h
    obtain ⟨f', hf', rfl, rfl, -⟩ := merged_some _ _ _ _ h'
    rw [List.mem_singleton.1 hf, List.mem_singleton.1 hf']
    exact ⟨rfl, rfl⟩
  obtain ⟨A, B, hA, h1, h2⟩ := C110_run dateEnv ascii_printed.1 ascii_printed.2 (fun _ _ => rfl) (exParam b!"T") (by unfold ToStdout; decide)
    (exDisk none) d' s1.symm (fun f hf => (t1 f hf).symm) hd' 1704067200 0 1704067201 0 (by decide) (by decide) (by decide) (by decide)
    (by decide) (by decide) [] [] d' e' r1 r2
  refine ⟨d', e', r1, r2, A, B, hA, h1.trans ?_, h2.trans ?_⟩
  · rw [show Time.stamp 1704067200 0 = b!"2024-01-01 00:00:00+0000" by decide +kernel]; simp
  · rw [show Time.stamp 1704067201 0 = b!"2024-01-01 00:00:01+0000" by decide +kernel]; simp

end Verif.Xt
