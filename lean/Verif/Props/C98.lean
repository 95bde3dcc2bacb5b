import Verif.Props.C97
import Verif.Props.C40_C44
import Verif.Spec.Embed
/-! # C98: the messages of the command in Chinese and other languages -/
namespace Verif.Xt
open Verif
variable {α : Type}

/-! ## The file -/

/-- The file is read, is for `zh_CN`, and has these entries after the header. -/
theorem zh_read : ∃ f, Tr.readPo zhPo = .ok f ∧ f.lang.1 = b!"zh_CN" ∧
    ∃ h, f.entries.map (fun q => (q.1, q.2.str)) = (Tr.key [] [], h) :: chinese.map fun q => (Tr.key [] q.1, q.2) := by
  have : (match Tr.readPo zhPo with
      | .ok f => decide (f.lang.1 = b!"zh_CN" ∧ (f.entries.map (fun q => (q.1, q.2.str))).head?.map (·.1) = some (Tr.key [] []) ∧
          (f.entries.map (fun q => (q.1, q.2.str))).tail = chinese.map fun q => (Tr.key [] q.1, q.2))
      | _ => false) = true := by decide +kernel
  split at this
  · rename_i f hf
    rw [decide_eq_true_eq] at this
    obtain ⟨h1, h2, h3⟩ := this
    refine ⟨f, hf, h1, ?_⟩
    cases he : f.entries.map fun q => (q.1, q.2.str) with
    | nil => rw [he] at h2; cases h2
    | cons a l =>
      rw [he] at h2 h3
      simp only [List.head?_cons, Option.map_some, Option.some.injEq] at h2
      refine ⟨a.2, ?_⟩
      rw [← h2, ← h3]
      rfl
  · cases this

theorem chinese_ne : ∀ q ∈ chinese, q.2 ≠ [] := by decide +kernel

theorem get_lookup (m : GMap Tr.Entry) (T : List (Str × Str)) (h : m.map (fun q => (q.1, q.2.str)) = T.map fun q => (Tr.key [] q.1, q.2)) (id : Str) :
    (m.get? (Tr.key [] id)).map (·.str) = T.lookup id := by
  induction m generalizing T with
  | nil =>
    cases T with
    | nil => rfl
    | cons => cases h
  | cons q m ih =>
    cases T with
    | nil => cases h
    | cons r T =>
      simp only [List.map_cons, List.cons.injEq, Prod.mk.injEq] at h
      obtain ⟨⟨h1, h2⟩, h3⟩ := h
      obtain ⟨k, e⟩ := q
      obtain ⟨i, s⟩ := r
      dsimp only at h1 h2
      by_cases hi : id = i
      · subst hi
        rw [GMap.get?, if_pos h1, List.lookup_cons, show (id == id) = true by simp]
        simp [h2]
      · rw [GMap.get?, if_neg, ih T h3, List.lookup_cons, show (id == i) = false by simpa using hi]
        rw [h1]
        intro hk
        simp only [Tr.key, List.nil_append, List.cons_append, List.cons.injEq, true_and] at hk
        exact hi hk.symm

/-! ## The world of the command -/

theorem load_embed (c : W.Cfg α) (f : Tr.File) (hf : Tr.readPo zhPo = .ok f) (hl : f.lang.1 = b!"zh_CN") (d : Str) :
    (W.newTranslation c d []).loadFS c (some embedLangs) =
      (true, { domain := d, langs := [(c.norm b!"zh_CN", W.fileTor c f)] }) := by
  have h1 : GoStr.hasSuffix b!"zh_CN.po" W.extMo = false := by decide
  have h2 : GoStr.hasSuffix b!"zh_CN.po" W.extPo = true := by decide
  have hlang : (W.fileTor c f).lang = b!"zh_CN" := hl
  unfold W.Translation.loadFS embedLangs W.walkRoot
  simp only [W.walkNode, W.walkList, W.visitFile, h1, h2, if_true, W.Translation.loadFile, W.Translation.loadPo, hf,
    W.Translation.addOrReplace, hlang, W.newTranslation, Bool.false_eq_true, if_false]
  rw [if_neg (by decide)]
  rfl

/-- What `T` does with the translation that was loaded. -/
theorem t_loaded (c : W.Cfg α) (dflt : Str) (fsys : Option W.Node) (id : Str) (args : List α) :
    (((W.World.init c dflt).gLoadFS c fsys).gSetLocale c [] dflt).gT c id args =
      (((W.newTranslation c W.defaultDomain []).loadFS c fsys).2.getOrNoop c dflt).x [] id args := by
  unfold W.World.gLoadFS W.World.gBindFS W.World.bindFS
  rw [show (W.World.init c dflt).domain (W.World.init c dflt).glob = W.defaultDomain from rfl]
  have hno : ((W.newTranslation c W.defaultDomain []).loadFS c fsys).1 = false →
      ((W.newTranslation c W.defaultDomain []).loadFS c fsys).2 = W.newTranslation c W.defaultDomain [] := by
    rw [W.loadFS_eq]
    intro h
    simp only [Bool.or_eq_false_iff, Bool.not_eq_false', List.isEmpty_iff] at h
    rw [h.1, h.2]
    rfl
  cases h : (W.newTranslation c W.defaultDomain []).loadFS c fsys with
  | mk loaded tr =>
    rw [h] at hno
    cases loaded
    · have := hno rfl
      dsimp only at this
      subst this
      rfl
    · rfl

theorem init_embed (c : W.Cfg α) (dflt : Str) (langPath : Option Str) (tree : Str → Option W.Node)
    (hp : ∀ path, langPath = some path → GoStr.Trims path []) :
    initTranslation c dflt langPath tree = (((W.World.init c dflt).gLoadFS c (some embedLangs)).gSetLocale c [] dflt) := by
  unfold initTranslation
  cases langPath with
  | none => rfl
  | some path =>
    dsimp only
    rw [if_neg]
    exact fun h => h ((GoStr.trims_iff _ _).mp (hp path rfl))

theorem lookup_mem (T : List (Str × Str)) (i s : Str) (h : T.lookup i = some s) : (i, s) ∈ T := by
  induction T with
  | nil => cases h
  | cons q T ih =>
    rw [List.lookup_cons] at h
    split at h
    · rename_i hb
      cases h
      rw [beq_iff_eq] at hb
      subst hb
      exact List.mem_cons_self
    · exact List.mem_cons_of_mem _ (ih h)

/-- **C98**: without `LANG_PATH` (or with a blank one) and with the locale `zh_CN` of the system, every message of the command is in
Chinese as far as there is a translation. -/
theorem C98_chinese (c : W.Cfg α) (langPath : Option Str) (tree : Str → Option W.Node)
    (hp : ∀ path, langPath = some path → GoStr.Trims path []) (id : Str) (hid : id ≠ []) (args : List α) :
    (initTranslation c (c.norm b!"zh_CN") langPath tree).gT c id args = .ok (Fmt.format c.fmt (inChinese id) args) := by
  obtain ⟨f, h1, h2, hd, h3⟩ := zh_read
  rw [init_embed c _ langPath tree hp, t_loaded, load_embed c f h1 h2]
  dsimp only
  have hget : (f.entries.get? (Tr.key [] id)).map (·.str) = chinese.lookup id := by
    have := get_lookup f.entries (([], hd) :: chinese) (by rw [h3]; rfl) id
    rw [this, List.lookup_cons, show (id == []) = false by simpa using hid]
  have hx : ({ domain := W.defaultDomain, langs := [(c.norm b!"zh_CN", W.fileTor c f)] } : W.Translation α).getOrNoop c (c.norm b!"zh_CN") =
      W.fileTor c f := by
    simp [W.Translation.getOrNoop, GMap.get?]
  rw [hx]
  show Res.ok (f.x c.fmt [] id args) = _
  unfold Tr.File.x inChinese
  cases he : f.entries.get? (Tr.key [] id) with
  | none =>
    rw [he, Option.map_none] at hget
    rw [← hget]
    rfl
  | some e =>
    rw [he, Option.map_some] at hget
    have hne : e.str ≠ [] := chinese_ne _ (lookup_mem _ _ _ hget.symm)
    rw [← hget]
    dsimp only
    rw [if_neg hne]
    rfl

/-- **C98**: with another locale of the system the messages are as they are in the code. -/
theorem C98_other (c : W.Cfg α) (dflt : Str) (hd : dflt ≠ c.norm b!"zh_CN") (langPath : Option Str) (tree : Str → Option W.Node)
    (hp : ∀ path, langPath = some path → GoStr.Trims path []) (id : Str) (args : List α) :
    (initTranslation c dflt langPath tree).gT c id args = .ok (Fmt.format c.fmt id args) := by
  obtain ⟨f, h1, h2, -⟩ := zh_read
  rw [init_embed c _ langPath tree hp, t_loaded, load_embed c f h1 h2]
  have hx : ({ domain := W.defaultDomain, langs := [(c.norm b!"zh_CN", W.fileTor c f)] } : W.Translation α).getOrNoop c dflt = W.noopTor c := by
    simp [W.Translation.getOrNoop, GMap.get?, Ne.symm hd]
  dsimp only
  rw [hx]
  rfl

/-- **C98**: with `LANG_PATH` the files there are used, and nothing else: the last PO file for the locale of the system, else the last MO
file, else the messages are as they are in the code. -/
theorem C98_path (c : W.Cfg α) (dflt path : Str) (hp : ¬ GoStr.Trims path []) (tree : Str → Option W.Node) (id : Str) (args : List α) :
    (∀ t, W.LastFile c b!".po" dflt (W.filesFrom (tree path)) t →
      (initTranslation c dflt (some path) tree).gT c id args = t.x [] id args) ∧
    ((∀ t, ¬ W.LastFile c b!".po" dflt (W.filesFrom (tree path)) t) →
      (∀ t, W.LastFile c b!".mo" dflt (W.filesFrom (tree path)) t → (initTranslation c dflt (some path) tree).gT c id args = t.x [] id args) ∧
      ((∀ t, ¬ W.LastFile c b!".mo" dflt (W.filesFrom (tree path)) t) →
        (initTranslation c dflt (some path) tree).gT c id args = .ok (Fmt.format c.fmt id args))) := by
  have hinit : initTranslation c dflt (some path) tree = (((W.World.init c dflt).gLoadFS c (tree path)).gSetLocale c [] dflt) := by
    unfold initTranslation
    dsimp only
    rw [if_pos]
    exact fun h => hp ((GoStr.trims_iff _ _).mpr h)
  rw [hinit, t_loaded]
  have hw := W.C40_po_wins c (W.newTranslation c W.defaultDomain []) (tree path) dflt
  have hsome : ∀ t, ((W.newTranslation c W.defaultDomain []).loadFS c (tree path)).2.get dflt = some t →
      ((W.newTranslation c W.defaultDomain []).loadFS c (tree path)).2.getOrNoop c dflt = t := by
    intro t h
    unfold W.Translation.getOrNoop
    unfold W.Translation.get at h
    rw [h]
  refine ⟨fun t ht => ?_, fun hno => ⟨fun t ht => ?_, fun hno' => ?_⟩⟩
  · rw [hsome t ((hw t).mpr (.inl ht))]
  · rw [hsome t ((hw t).mpr (.inr ⟨hno, .inl ht⟩))]
  · have hnone : ((W.newTranslation c W.defaultDomain []).loadFS c (tree path)).2.get dflt = none := by
      cases h : ((W.newTranslation c W.defaultDomain []).loadFS c (tree path)).2.get dflt with
      | none => rfl
      | some t =>
        rcases (hw t).mp h with h | ⟨-, h | ⟨-, h⟩⟩
        · exact absurd h (hno t)
        · exact absurd h (hno' t)
        · cases h
    have : ((W.newTranslation c W.defaultDomain []).loadFS c (tree path)).2.getOrNoop c dflt = W.noopTor c := by
      unfold W.Translation.getOrNoop
      unfold W.Translation.get at hnone
      rw [hnone]
    rw [this]
    rfl

/-! ## The messages -/

/-- **C98**: every message of the command but one has a Chinese translation; all but two of the translations have the directives of the
message, in the same order. -/
theorem C98_complete : ∀ m ∈ usedMessages,
    ((∃ s, (m, s) ∈ chinese) ↔ m ≠ b!"failed to read file %v") ∧
    (placesOf (inChinese m) = placesOf m ↔ m ≠ b!"context index is not a number: %v" ∧ m ≠ b!"context index must end with 'c': %v") := by
  have h1 : ∀ m ∈ usedMessages, (chinese.any fun q => q.1 = m) = true ↔ m ≠ b!"failed to read file %v" := by decide +kernel
  have h2 : ∀ m ∈ usedMessages, placesOf (inChinese m) = placesOf m ↔
      m ≠ b!"context index is not a number: %v" ∧ m ≠ b!"context index must end with 'c': %v" := by decide +kernel
  refine fun m hm => ⟨?_, h2 m hm⟩
  rw [← h1 m hm, List.any_eq_true]
  constructor
  · rintro ⟨s, hs⟩; exact ⟨_, hs, by simp⟩
  · rintro ⟨q, hq, he⟩
    rw [decide_eq_true_eq] at he
    subst he
    exact ⟨q.2, hq⟩

/-- The messages for failures in Chinese. -/
def chinesePhrases (debug : Bool) : Phrases where
  process := ⟨b!"处理文件 ", [(b!"%v", b!" 失败。错误消息： "), (errorVerb debug, [])]⟩
  conflict := ⟨b!"待翻译原文 ‘", [(b!"%v", b!"’ 即用于单数也用于复数。\n当前行="), (b!"%v", b!"\n已扫描="), (b!"%v", [])]⟩
  warning := ⟨b!"警告：", [(errorVerb debug, [])]⟩
  run := ⟨b!"运行失败：", [(errorVerb debug, [])]⟩
  read := ⟨b!"failed to read file ", [(b!"%v", [])]⟩
  parse := ⟨b!"处理文件 ", [(b!"%v", b!" 失败")]⟩
  pattern := b!"输入文件不合法"
  output := ⟨b!"无法打开输出文件：", [(b!"%s", [])]⟩
  unexpected := ⟨b!"非预期错误：", [(b!"%+v", b!"\n")]⟩
  keywords := ⟨b!"非法的关键字：", [(b!"%s", [])]⟩

/-- **C98**: so what C97 says of runs holds in Chinese. -/
theorem C98_speaks (debug : Bool) : Speaks inChinese debug (chinesePhrases debug) := by
  have wf : ∀ ph : Phrase, (37 ∉ ph.first && ph.rest.all fun q => 37 ∉ q.2) = true → ph.Wf := by
    intro ph h
    rw [Bool.and_eq_true, decide_eq_true_eq, List.all_eq_true] at h
    exact ⟨h.1, fun q hq => by simpa using h.2 q hq⟩
  cases debug
  all_goals
    constructor
    case pattern => exact ⟨by decide +kernel, by decide⟩
    all_goals exact ⟨by decide +kernel, rfl, wf _ (by decide +kernel)⟩

/-- **C98**: the messages of C97 are those `T` gives: with the locale `zh_CN` the Chinese ones, with another one those in the code. -/
theorem C98_lang (c : W.Cfg Str) (dflt : Str) (langPath : Option Str) (tree : Str → Option W.Node)
    (hp : ∀ path, langPath = some path → GoStr.Trims path []) (L : Lang) (hf : L.fmt = c.fmt)
    (ht : L.tr = if dflt = c.norm b!"zh_CN" then inChinese else fun m => m) (debug : Bool) :
    (∀ m args, m ≠ [] → (initTranslation c dflt langPath tree).gT c m args = .ok (L.t m args)) ∧
    Speaks L.tr debug (if dflt = c.norm b!"zh_CN" then chinesePhrases debug else englishPhrases debug) := by
  by_cases hd : dflt = c.norm b!"zh_CN"
  · subst hd
    rw [if_pos rfl] at ht ⊢
    refine ⟨fun m args hm => ?_, ht ▸ C98_speaks debug⟩
    rw [C98_chinese c langPath tree hp m hm args, Lang.t, hf, ht]
  · rw [if_neg hd] at ht ⊢
    refine ⟨fun m args hm => ?_, ht ▸ C97_english debug⟩
    rw [C98_other c dflt hd langPath tree hp m args, Lang.t, hf, ht]

/-! ## Examples -/

/-- See the example of C97, in Chinese. -/
example : (∃ printed, Run errEnv errParam errDisk (.returned (some (.parse b!"b.t")) printed errDisk)) ∧
    { errLang with tr := inChinese }.stderr errEnv errParam false errDisk (.returned (some (.parse b!"b.t")) [] errDisk) =
      b!"警告：待翻译原文 ‘a’ 即用于单数也用于复数。\n当前行=[#: a.t:2]\n已扫描=[#: a.t:1]\n" ++
      b!"处理文件 b.t 失败。错误消息： 处理文件 b.t 失败: unexpected \"}\"\n" ++
      b!"处理文件 c.t 失败。错误消息： failed to read file c.t: no such file\n" ++
      b!"运行失败：处理文件 b.t 失败: unexpected \"}\"" :=
  ⟨err_run, by decide +kernel⟩

/-- The position that is no number is missing in the Chinese message, but is told by the cause. -/
example (o : Outcome) (h : Run errEnv { errParam with keyword := b!"X:xc,2" } errDisk o) :
    { errLang with tr := inChinese }.stderr errEnv { errParam with keyword := b!"X:xc,2" } false errDisk o =
      b!"运行失败：非法的关键字：X:xc,2翻译上下文的位置应该是数字: strconv.ParseInt: parsing \"x\": invalid syntax" := by
  rw [C97_keyword (chinesePhrases false) { errLang with tr := inChinese } false (C98_speaks false) plainFmt_shows errEnv _ errDisk o h [] [] b!"X:xc,2"
    (some (b!"context index is not a number: %v", [b!"x"])) (some b!"strconv.ParseInt: parsing \"x\": invalid syntax") (by decide) rfl (by simp)
    (by rw [blames_iff]; decide +kernel)]
  decide +kernel

/-- A directory with a PO file for the locale. -/
example (c : W.Cfg Str) (hn : c.norm b!"de" = b!"de_DE") :
    (initTranslation c b!"de_DE" (some b!"/l") fun _ => some (.dir b!"." true [.file b!"de.po" (some ⟨some b!"de.po",
      some b!"msgid \"\"\nmsgstr \"Language: de\\n\"\n\nmsgid \"debug mode\"\nmsgstr \"Fehlersuche\"\n"⟩)])).gT c b!"debug mode" [] =
      .ok b!"Fehlersuche" := by
  obtain ⟨f, hf, hl, hx⟩ : ∃ f, Tr.readPo b!"msgid \"\"\nmsgstr \"Language: de\\n\"\n\nmsgid \"debug mode\"\nmsgstr \"Fehlersuche\"\n" = .ok f ∧
      f.lang.1 = b!"de" ∧ (f.entries.get? (Tr.key [] b!"debug mode")).map (·.str) = some b!"Fehlersuche" := by
    have : (match Tr.readPo b!"msgid \"\"\nmsgstr \"Language: de\\n\"\n\nmsgid \"debug mode\"\nmsgstr \"Fehlersuche\"\n" with
      | .ok f => decide (f.lang.1 = b!"de" ∧ (f.entries.get? (Tr.key [] b!"debug mode")).map (·.str) = some b!"Fehlersuche")
      | _ => false) = true := by decide +kernel
    split at this
    · rename_i f hf
      rw [decide_eq_true_eq] at this
      exact ⟨f, hf, this⟩
    · cases this
  rw [(C98_path c b!"de_DE" b!"/l" (by rw [GoStr.trims_iff]; decide +kernel) _ b!"debug mode" []).1 (W.fileTor c f)
    ⟨[], _, [], rfl, ⟨by decide +kernel, ⟨_, rfl, ?_⟩, by show f.lang.1 ≠ []; rw [hl]; decide, by show c.norm f.lang.1 = _; rw [hl, hn]⟩, by simp⟩]
  · show Res.ok (f.x c.fmt [] b!"debug mode" []) = _
    unfold Tr.File.x
    rw [Option.map_eq_some_iff] at hx
    obtain ⟨e, he, hs⟩ := hx
    rw [he]
    dsimp only
    rw [hs, if_neg (by decide)]
    rfl
  · unfold W.contentTor
    dsimp only
    rw [if_pos (by decide), hf]
    show some (if f.lang.1 = [] then none else some (W.fileTor c f)) = _
    rw [if_neg (by rw [hl]; decide)]

end Verif.Xt
