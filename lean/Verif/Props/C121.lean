import Verif.Spec.PotHeader
import Verif.Props.C63_C64
import Verif.Props.C109
/-!
# C121 The header of a POT records the parameters of the run
-/
namespace Verif.Xt
open Verif

/-- The fields of a text of lines `key: value`. -/
theorem fields_of (F : List (Str × Str)) (hF : ∀ kv ∈ F, 10 ∉ kv.1 ∧ ¬ b!": " <:+: kv.1 ++ b!":" ∧ GoStr.trimSpace kv.1 = kv.1 ∧ 10 ∉ kv.2)
    (hnd : (F.map (·.1)).Nodup) (k v : Str) :
    Tr.HeaderField (GoStr.join [10] ((F.map fun kv => kv.1 ++ b!": " ++ kv.2) ++ [b!""])) k v ↔ ∃ w, (k, w) ∈ F ∧ v = GoStr.trimSpace w := by
  have hlines : Tr.Lines (GoStr.join [10] ((F.map fun kv => kv.1 ++ b!": " ++ kv.2) ++ [b!""]))
      ((F.map fun kv => kv.1 ++ b!": " ++ kv.2) ++ [b!""]) := by
    refine ⟨by simp, fun l hl => ?_, Tr.join_eq_intercalate _ _⟩
    rcases List.mem_append.1 hl with hl | hl
    · obtain ⟨kv, hkv, rfl⟩ := List.mem_map.1 hl
      obtain ⟨h1, -, -, h2⟩ := hF kv hkv
      simp [h1, h2]
    · rw [List.mem_singleton.1 hl]; decide
  have field : ∀ kv ∈ F, ∀ k v, Tr.FieldLine (kv.1 ++ b!": " ++ kv.2) k v ↔ k = kv.1 ∧ v = GoStr.trimSpace kv.2 := by
    intro kv hkv k v
    obtain ⟨-, h2, h3, -⟩ := hF kv hkv
    rw [Tr.fieldLine_iff, Tr.cutHeader_complete _ _ h2]
    constructor
    · rintro ⟨a, b, h, rfl, rfl⟩
      cases h
      exact ⟨h3, rfl⟩
    · rintro ⟨rfl, rfl⟩
      exact ⟨_, _, rfl, h3.symm, rfl⟩
  constructor
  · rintro ⟨pre, l, post, hl, hf, -⟩
    have he : (F.map fun kv => kv.1 ++ b!": " ++ kv.2) ++ [b!""] = pre ++ l :: post := by
      rw [Tr.lines_iff] at hl hlines
      rw [← hlines, hl]
    have hm : l ∈ (F.map fun kv => kv.1 ++ b!": " ++ kv.2) ++ [b!""] := by rw [he]; simp
    rcases List.mem_append.1 hm with hm | hm
    · obtain ⟨kv, hkv, rfl⟩ := List.mem_map.1 hm
      obtain ⟨rfl, rfl⟩ := (field kv hkv k v).1 hf
      exact ⟨kv.2, hkv, rfl⟩
    · rw [List.mem_singleton.1 hm, Tr.fieldLine_iff] at hf
      obtain ⟨a, b, h, -⟩ := hf
      simp [Tr.cutHeader] at h
  · rintro ⟨w, hw, rfl⟩
    obtain ⟨A, B, rfl⟩ := List.append_of_mem hw
    refine ⟨A.map fun kv => kv.1 ++ b!": " ++ kv.2, k ++ b!": " ++ w, (B.map fun kv => kv.1 ++ b!": " ++ kv.2) ++ [b!""], ?_, ?_, ?_⟩
    · simpa using hlines
    · exact (field (k, w) hw _ _).2 ⟨rfl, rfl⟩
    · intro l hl v' hf
      obtain ⟨kv, hkv, rfl⟩ := List.mem_map.1 hl
      have hk := ((field kv (by simp [hkv]) _ _).1 hf).1
      rw [List.map_append, List.nodup_append] at hnd
      exact hnd.2.2 kv.1 (List.mem_map.2 ⟨kv, hkv, rfl⟩) k (by simp) hk.symm

theorem records_iff (p : Param) (now : Str) (b : Bool) (k w : Str) : Records p now (b = true) k w ↔ (k, w) ∈ headerFields p now b := by
  constructor
  · intro h
    cases h with
    | forms h => subst h; simp [headerFields]
    | _ => cases b <;> simp [headerFields]
  · intro h
    cases b <;> simp only [headerFields, Bool.false_eq_true, if_true, if_false, List.cons_append, List.nil_append,
      List.append_nil, List.mem_cons, List.not_mem_nil, or_false, Prod.mk.injEq] at h
    · rcases h with ⟨rfl, rfl⟩ | ⟨rfl, rfl⟩ | ⟨rfl, rfl⟩ | ⟨rfl, rfl⟩ | ⟨rfl, rfl⟩ | ⟨rfl, rfl⟩ | ⟨rfl, rfl⟩ | ⟨rfl, rfl⟩ | ⟨rfl, rfl⟩ |
        ⟨rfl, rfl⟩ | ⟨rfl, rfl⟩ | ⟨rfl, rfl⟩ | ⟨rfl, rfl⟩ | ⟨rfl, rfl⟩ | ⟨rfl, rfl⟩ | ⟨rfl, rfl⟩ | ⟨rfl, rfl⟩
      · exact .project
      · exact .bugs
      · exact .date
      · exact .revision
      · exact .translator
      · exact .team
      · exact .language
      · exact .mime
      · exact .content
      · exact .encoding
      · exact .creator
      · exact .input
      · exact .left
      · exact .right
      · exact .keywords
      · exact .functions
      · exact .output
    · rcases h with ⟨rfl, rfl⟩ | ⟨rfl, rfl⟩ | ⟨rfl, rfl⟩ | ⟨rfl, rfl⟩ | ⟨rfl, rfl⟩ | ⟨rfl, rfl⟩ | ⟨rfl, rfl⟩ | ⟨rfl, rfl⟩ | ⟨rfl, rfl⟩ |
        ⟨rfl, rfl⟩ | ⟨rfl, rfl⟩ | ⟨rfl, rfl⟩ | ⟨rfl, rfl⟩ | ⟨rfl, rfl⟩ | ⟨rfl, rfl⟩ | ⟨rfl, rfl⟩ | ⟨rfl, rfl⟩ | ⟨rfl, rfl⟩
      · exact .project
      · exact .bugs
      · exact .date
      · exact .revision
      · exact .translator
      · exact .team
      · exact .language
      · exact .mime
      · exact .content
      · exact .encoding
      · exact .creator
      · exact .forms rfl
      · exact .input
      · exact .left
      · exact .right
      · exact .keywords
      · exact .functions
      · exact .output

/-- **C121** The header of a POT has exactly these fields, the parameters of the run among them, without white space at their ends. -/
theorem C121_fields (p : Param) (now : Str) (b : Bool) (hp : OneLineParam p) (hnow : 10 ∉ now) (k v : Str) :
    Tr.HeaderField (header p now b).str k v ↔ ∃ w, Records p now (b = true) k w ∧ v = GoStr.trimSpace w := by
  simp only [records_iff]
  show Tr.HeaderField (GoStr.join [10] (headerLines p now b)) k v ↔ _
  rw [headerLines_eq]
  obtain ⟨h1, h2, h3, h4, h5, h6⟩ := hp
  refine fields_of _ (fun kv hkv => ?_) ?_ k v
  · have hk : kv.1 ∈ (headerFields p now b).map (·.1) := List.mem_map.mpr ⟨kv, hkv, rfl⟩
    have hk' : ∀ b, ∀ k ∈ (headerFields noParam [] b).map (·.1), 10 ∉ k ∧ ¬ b!": " <:+: k ++ b!":" ∧ GoStr.trimSpace k = k := by
      decide +kernel
    have hks : kv.1 ∈ (headerFields noParam [] b).map (·.1) := by cases b <;> exact hk
    obtain ⟨a1, a2, a3⟩ := hk' b kv.1 hks
    refine ⟨a1, a2, a3, ?_⟩
    obtain ⟨k, w⟩ := kv
    cases (records_iff p now b k w).2 hkv <;> first | assumption | decide
  · have : ∀ b, ((headerFields noParam [] b).map (·.1)).Nodup := by decide +kernel
    cases b
    · exact this false
    · exact this true

/-- **C121** Of parameters without white space at their ends none is lost: different ones have different headers. -/
theorem C121_back (p p' : Param) (now now' : Str) (b b' : Bool) (hp : OneLineParam p) (hp' : OneLineParam p') (hnow : 10 ∉ now)
    (hnow' : 10 ∉ now') (ht : TrimmedParam p) (ht' : TrimmedParam p')
    (he : ∀ k v, Tr.HeaderField (header p now b).str k v → Tr.HeaderField (header p' now' b').str k v) : p = p' := by
  have key : ∀ k w, Records p now (b = true) k w → ∃ w', Records p' now' (b' = true) k w' ∧ GoStr.trimSpace w = GoStr.trimSpace w' := fun k w h =>
    (C121_fields p' now' b' hp' hnow' k _).1 (he k _ ((C121_fields p now b hp hnow k _).2 ⟨w, h, rfl⟩))
  have uniq : ∀ k w w', Records p' now' (b' = true) k w → Records p' now' (b' = true) k w' → w = w' := by
    intro k w w' h h'
    cases h <;> cases h' <;> rfl
  obtain ⟨a1, a2, a3, a4, a5, a6⟩ := ht
  obtain ⟨c1, c2, c3, c4, c5, c6⟩ := ht'
  have e1 : p.input = p'.input := by
    obtain ⟨w, h, e⟩ := key _ _ .input
    rwa [uniq _ _ _ h .input, a1, c1] at e
  have e2 : p.left = p'.left := by
    obtain ⟨w, h, e⟩ := key _ _ .left
    rwa [uniq _ _ _ h .left, a2, c2] at e
  have e3 : p.right = p'.right := by
    obtain ⟨w, h, e⟩ := key _ _ .right
    rwa [uniq _ _ _ h .right, a3, c3] at e
  have e4 : p.keyword = p'.keyword := by
    obtain ⟨w, h, e⟩ := key _ _ .keywords
    rwa [uniq _ _ _ h .keywords, a4, c4] at e
  have e5 : p.function = p'.function := by
    obtain ⟨w, h, e⟩ := key _ _ .functions
    rwa [uniq _ _ _ h .functions, a5, c5] at e
  have e6 : p.output = p'.output := by
    obtain ⟨w, h, e⟩ := key _ _ .output
    rwa [uniq _ _ _ h .output, a6, c6] at e
  cases p
  cases p'
  simp only at e1 e2 e3 e4 e5 e6
  subst e1 e2 e3 e4 e5 e6
  rfl

/-- **C121** White space at the ends of a parameter is lost: the delimiters `{{` and `{{ `, with which different texts are found, have the same
fields. -/
theorem C121_spaces (p : Param) (now : Str) (b : Bool) (hp : OneLineParam p) (hnow : 10 ∉ now) (k v : Str) :
    Tr.HeaderField (header { p with left := b!"{{" } now b).str k v ↔ Tr.HeaderField (header { p with left := b!"{{ " } now b).str k v := by
  obtain ⟨h1, h2, h3, h4, h5, h6⟩ := hp
  have a2 : 10 ∉ b!"{{" := by decide
  have a2' : 10 ∉ b!"{{ " := by decide
  rw [C121_fields { p with left := b!"{{" } now b ⟨h1, a2, h3, h4, h5, h6⟩ hnow,
    C121_fields { p with left := b!"{{ " } now b ⟨h1, a2', h3, h4, h5, h6⟩ hnow]
  have ht : GoStr.trimSpace b!"{{" = GoStr.trimSpace b!"{{ " := by decide +kernel
  constructor
  · rintro ⟨w, h, rfl⟩
    cases h with
    | left => exact ⟨_, .left, ht⟩
    | input => exact ⟨_, .input, rfl⟩
    | right => exact ⟨_, .right, rfl⟩
    | keywords => exact ⟨_, .keywords, rfl⟩
    | functions => exact ⟨_, .functions, rfl⟩
    | output => exact ⟨_, .output, rfl⟩
    | forms h => exact ⟨_, .forms h, rfl⟩
    | _ => exact ⟨_, by constructor, rfl⟩
  · rintro ⟨w, h, rfl⟩
    cases h with
    | left => exact ⟨_, .left, ht.symm⟩
    | input => exact ⟨_, .input, rfl⟩
    | right => exact ⟨_, .right, rfl⟩
    | keywords => exact ⟨_, .keywords, rfl⟩
    | functions => exact ⟨_, .functions, rfl⟩
    | output => exact ⟨_, .output, rfl⟩
    | forms h => exact ⟨_, .forms h, rfl⟩
    | _ => exact ⟨_, by constructor, rfl⟩

/-- **C121** The header is marked as fuzzy. -/
theorem C121_fuzzy (p : Param) (now : Str) (b : Bool) : HasFlag (header p now b).cmts b!"fuzzy" :=
  ⟨b!"#, fuzzy", by simp [header, headerCmts], [b!" fuzzy"], by decide, by decide, b!" fuzzy", by decide, by decide +kernel⟩


/-- **C121** With a line end in one parameter the header can say something else about another. -/
theorem C121_line_end : ∃ p : Param, p.output = b!"out.pot" ∧
    Tr.HeaderField (header p b!"2024-02-29 20:00:00+0800" false).str b!"X-Xtemplate-Output" b!"other.pot" := by
  refine ⟨{ noParam with left := b!"{{\nX-Xtemplate-Output: other.pot", output := b!"out.pot" }, rfl, ?_⟩
  rw [← Tr.parseHeaders_get]
  decide +kernel

/-! ## Reading it -/

theorem read_pot (P : Nat → Bool) (h10 : P 10 = false) (h13 : P 13 = false) (es : List Tr.Entry) (hne : es ≠ [])
    (hge : ∀ e ∈ es, ∀ c ∈ e.cmts, Tr.GoodComment c) :
    Tr.readPot (Tr.savePot P es) = .ok ((es.map Tr.template).foldl Tr.File.addEntry {}) := by
  have hp := Tr.shapeText_parses P h10 h13 (es.map Tr.potShape) (by simpa using hne) (by
    intro s hs'
    simp only [List.mem_map] at hs'
    obtain ⟨e, he, rfl⟩ := hs'
    refine ⟨fun c hc => ⟨(hge e he c hc).1, (hge e he c hc).2⟩, ?_, ?_⟩
    · simp only [Tr.potShape]; cases e.isPlural <;> simp
    · simp only [Tr.potShape]; cases e.isPlural <;> by_cases hi : e.id = [] <;> simp [hi])
  have hmap : (es.map Tr.potShape).map Tr.Shape.entry = es.map Tr.template := by
    rw [List.map_map]
    apply List.map_congr_left
    intro e he
    exact Tr.potShape_entry e
  rw [hmap, ← Tr.savePot_eq] at hp
  have hnn : Tr.savePot P es ≠ [] := by rw [Tr.savePot_eq]; exact Tr.shapeText_ne_nil P _ (by simpa using hne)
  rw [← Tr.fileOf_pot]
  exact Tr.readPo0_text true _ hnn _ hp

/-- **C121** The POT of a run, read by `ReadPot`, gives the parameters of the run as its headers, if no message is empty. -/
theorem C121_read (P : Nat → Bool) (h10 : P 10 = false) (h13 : P 13 = false) (p : Param) (hp : OneLineParam p) (now : Str) (hnow : 10 ∉ now)
    (es : List Tr.Entry) (hx : ∀ e ∈ es, Extracted e) (hid : ∀ e ∈ es, e.id ≠ []) (text : Str) (ht : PotOf P p now es text) :
    ∃ g, Tr.readPot text = .ok g ∧ ∀ k v, (g.getHeader k).1 = some v ↔ ∃ w, Records p now (SomePlural es) k w ∧ v = GoStr.trimSpace w := by
  obtain ⟨L, M, ⟨hnd, hL⟩, hM, hs, rfl⟩ := ht
  have hE : ¬ HasEmpty es := fun ⟨e, he, _, h⟩ => hid e he h
  rw [if_neg hE] at hM
  have hLx : ∀ e ∈ L, Extracted e ∧ e.id ≠ [] := by
    intro e he
    obtain ⟨c, i, hm⟩ := (hL e).mp he
    obtain ⟨f, hf, hfc, hfi, hpc, hpi, -, -⟩ := merged_some _ _ _ _ hm
    exact ⟨merged_extracted es hx c i e hm, by rw [hpi, ← hfi]; exact hid f hf⟩
  obtain ⟨rest, rfl, hrest⟩ := C57_header_first _ L M rfl (fun e he => (hLx e he).2) hM hs
  have hcm : ∀ c ∈ headerCmts, Tr.GoodComment c := by
    intro c hc
    have : ∀ c ∈ headerCmts, c.head? = some 35 ∧ 10 ∉ c ∧ 13 ∉ c := by decide
    obtain ⟨h1, h2, h3⟩ := this c hc
    refine ⟨?_, h2, h3⟩
    cases c with
    | nil => cases h1
    | cons a t => simp only [List.head?_cons, Option.some.injEq] at h1; exact ⟨t, by rw [h1]⟩
  refine ⟨_, read_pot P h10 h13 _ (by simp) (fun e he => ?_), fun k v => ?_⟩
  · rcases List.mem_cons.1 he with rfl | he
    · exact hcm
    · exact (hLx e (hrest.mem_iff.1 he)).1.1
  · rw [Tr.read_headers]
    have htemp : ∀ b, Tr.template (header p now b) = header p now b := fun b => by simp [Tr.template, header]
    rw [List.map_cons, htemp]
    have hfind : ∀ b l, (header p now b :: l).find? (fun e => e.id = []) = some (header p now b) := fun b l => by
      rw [List.find?_cons_of_pos]; simp [header]
    rw [hfind]
    have hR := C121_fields p now (@decide (SomePlural es) (Classical.propDecidable _)) hp hnow k v
    rw [@decide_eq_true_iff (SomePlural es) (Classical.propDecidable _)] at hR
    rw [← hR]
    constructor
    · rintro ⟨e, he, -, hf⟩
      cases he
      exact hf
    · intro h
      exact ⟨_, rfl, rfl, h⟩

/-- **C121** After a run that returns no error the output, read by `ReadPot`, says with which parameters the run was made. -/
theorem C121_run (E : Env) (h10 : E.isPrint 10 = false) (h13 : E.isPrint 13 = false)
    (hsink : ∀ t, (E.sink t).2 = true → (E.sink t).1 = t) (p : Param) (hp : OneLineParam p) (hnow : 10 ∉ E.now) (hout : ¬ ToStdout p) (d : Disk)
    (kws : List Keyword) (hk : DeclaresAll p.keyword kws) (ho : OpenOk E p) (d1 : Disk) (h1 : Opened E p d d1)
    (fs : List Str) (hg : E.glob d1.files p.input = some fs) (hfs : ∀ f ∈ fs, OneLine f) (printed : List RunErr)
    (d' : Disk) (h : Run E p d (.returned none printed d')) :
    ∃ ess, List.Forall₂ (FileOk E p kws d1) fs ess ∧ (NoEotIn ess.flatten → (∀ e ∈ ess.flatten, e.id ≠ []) →
      ∃ text g, d'.files (E.canon p.output) = some text ∧ Tr.readPot text = .ok g ∧
        ∀ k v, (g.getHeader k).1 = some v ↔ ∃ w, Records p E.now (SomePlural ess.flatten) k w ∧ v = GoStr.trimSpace w) := by
  obtain ⟨fates, hf, hpr, hfail, hok⟩ := C58_run E p d kws hk ho d1 h1 fs hg none printed d' h
  have hp0 : printed = [] := by
    by_contra hne
    obtain ⟨he, -⟩ := hfail hne
    cases printed with
    | nil => exact hne rfl
    | cons a l => cases he
  obtain ⟨ess, text, hess, hpot, hrec, herr⟩ := hok hp0
  refine ⟨ess, hess, fun hn hid => ?_⟩
  have hx : ∀ e ∈ ess.flatten, Extracted e := by
    intro e he
    obtain ⟨es, hes, he⟩ := List.mem_flatten.mp he
    obtain ⟨f, hf, hok⟩ := forall₂_mem_right hess es hes
    exact fileOk_extracted E p kws d1 f (hfs f hf) es hok e he
  obtain ⟨g, hg1, hg2⟩ := C121_read E.isPrint h10 h13 p hp E.now hnow ess.flatten hx hid text (hpot hn)
  refine ⟨text, g, ?_, hg1, hg2⟩
  rw [(hrec.2 hout).2.1, hsink text ((herr.mp rfl).1)]

/-- The text of C109 has no line end. -/
theorem C121_now (u z : Int) (h1 : -62167219200 ≤ u + z) (h2 : u + z < 253402300800) (hz : z.natAbs < 360000) : 10 ∉ Time.stamp u z := fun h => by
  have := (Time.stamp_bytes (Time.C109_stamp u z h1 h2 hz)).2.1 10 h
  revert this
  decide

/-- A POT with a header and one entry, written and read. -/
example : ∃ g, Tr.readPot (Tr.savePot Tr.asciiPrint [header { noParam with left := b!"{{", output := b!"a b.pot " } b!"now" false,
      { cmts := [b!"#: a:1"], id := b!"hello" }]) = .ok g ∧ (g.getHeader b!"X-Xtemplate-Left").1 = some b!"{{" ∧
    (g.getHeader b!"X-Xtemplate-Output").1 = some b!"a b.pot" ∧ (g.getHeader b!"Plural-Forms").1 = none := by
  refine ⟨_, read_pot Tr.asciiPrint (by decide) (by decide) _ (by simp) ?_, by decide +kernel, by decide +kernel, by decide +kernel⟩
  intro e he c hc
  have : ∀ e ∈ [header { noParam with left := b!"{{", output := b!"a b.pot " } b!"now" false, { cmts := [b!"#: a:1"], id := b!"hello" }],
    ∀ c ∈ e.cmts, c.head? = some 35 ∧ 10 ∉ c ∧ 13 ∉ c := by decide
  obtain ⟨h1, h2, h3⟩ := this e he c hc
  refine ⟨?_, h2, h3⟩
  cases c with
  | nil => cases h1
  | cons a t => simp only [List.head?_cons, Option.some.injEq] at h1; exact ⟨t, by rw [h1]⟩

end Verif.Xt
