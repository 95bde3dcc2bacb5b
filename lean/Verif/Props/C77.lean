import Verif.Spec.Race
import Verif.Lemmas.Domain
import Verif.Lemmas.File
import Verif.Lemmas.PoRead
import Verif.Lemmas.Mo
import Verif.Props.C50_C51
/-! # C77: loaded translations are only read -/
namespace Verif.Conc
open Verif
variable {α : Type}

/-! ## Lookups on a file whose lazy fields are set -/

/-- Where a goroutine may be if nothing has to be set up any more. -/
def Calm (f : Tr.File) : Pc α → Prop
  | .hWrite _ _ => False
  | .pWrite _ _ _ _ _ _ => False
  | .hCheck (.plural _ _ _ _ _) => False
  | .hRead (.plural _ _ _ _ _) => False
  | .pCheck _ _ _ _ _ => f.plural ≠ none
  | _ => True

theorem calm_step (E : Fmt.Env α) (dg : Plural.Diag) (f : Tr.File) (hh : f.headers ≠ none)
    (hp : f.plural ≠ none ∨ ¬ HasPlural f) (pc : Pc α) (h : Calm f pc) :
    (step E dg f pc).1 = f ∧ Calm f (step E dg f pc).2 := by
  cases pc with
  | start c =>
    cases c with
    | xn ctxt id id2 n args =>
      simp only [step]
      cases hg : f.entries.get? (Tr.key ctxt id) with
      | none => exact ⟨rfl, trivial⟩
      | some e =>
        dsimp only
        split
        · exact ⟨rfl, trivial⟩
        · rename_i hn
          refine ⟨rfl, ?_⟩
          rcases hp with hp | hp
          · exact hp
          · exact absurd ⟨ctxt, id, e, hg, fun hc => hn ⟨hc.1, by rw [hc.2]; rfl⟩⟩ hp
    | x ctxt id args => exact ⟨rfl, trivial⟩
    | getHeader key => exact ⟨rfl, trivial⟩
    | lang => exact ⟨rfl, trivial⟩
  | hCheck k =>
    cases hf : f.headers with
    | none => exact absurd hf hh
    | some m =>
      simp only [step, hf]
      refine ⟨trivial, ?_⟩
      cases k with
      | plural e id id2 n args => exact h
      | _ => trivial
  | hWrite m k => exact h.elim
  | hRead k =>
    cases k with
    | plural e id id2 n args => exact h.elim
    | header key => exact ⟨rfl, trivial⟩
    | lang => exact ⟨rfl, trivial⟩
  | pCheck e id id2 n args =>
    cases hf : f.plural with
    | none => exact absurd hf h
    | some m =>
      simp only [step, hf]
      exact ⟨trivial, trivial⟩
  | pWrite p e id id2 n args => exact h.elim
  | pRead e id id2 n args => exact ⟨rfl, trivial⟩
  | done r => exact ⟨rfl, trivial⟩

theorem calm_reach (E : Fmt.Env α) (dg : Plural.Diag) (f : Tr.File) (hh : f.headers ≠ none)
    (hp : f.plural ≠ none ∨ ¬ HasPlural f) (s : Sys α) (h : Sys.Reach E dg f s) :
    s.file = f ∧ ∀ t ∈ s.threads, Calm f t.2 := by
  induction h with
  | init => exact ⟨rfl, by simp⟩
  | step s s' _ hs ih =>
    obtain ⟨hf, ht⟩ := ih
    cases hs with
    | call c =>
      refine ⟨hf, ?_⟩
      intro t hm
      rcases List.mem_append.mp hm with hm | hm
      · exact ht t hm
      · simp only [List.mem_singleton] at hm
        subst hm
        trivial
    | run i c pc hi =>
      have hm := ht (c, pc) (List.mem_of_getElem? hi)
      rw [hf]
      obtain ⟨h1, h2⟩ := calm_step E dg f hh hp pc hm
      refine ⟨h1, ?_⟩
      intro t ht'
      rcases List.mem_or_eq_of_mem_set ht' with ht' | rfl
      · exact ht t ht'
      · exact h2

/-- No lookup writes to a file whose headers and plural rule are set up: under every interleaving of any
number of calls the file stays as it was and nobody is about to write. -/
theorem C77_read_only (E : Fmt.Env α) (dg : Plural.Diag) (f : Tr.File) (hh : f.headers ≠ none) (hp : f.plural ≠ none)
    (s : Sys α) (h : Sys.Reach E dg f s) :
    s.file = f ∧ ∀ t ∈ s.threads, ∀ v, t.2.access ≠ some (v, true) := by
  obtain ⟨h1, h2⟩ := calm_reach E dg f hh (.inl hp) s h
  refine ⟨h1, ?_⟩
  intro t ht v ha
  have := h2 t ht
  cases hc : t.2 <;> rw [hc] at ha this <;> simp [Pc.access] at ha
  · exact this
  · exact this

/-- Two goroutines that each take these steps. -/
theorem reach_two (E : Fmt.Env α) (dg : Plural.Diag) (f : Tr.File) (c : Call α) (pcs : List (Pc α))
    (hs : ∀ pre a b post, .start c :: pcs = pre ++ a :: b :: post → step E dg f a = (f, b)) (last : Pc α)
    (hl : (.start c :: pcs).getLast? = some last) :
    Sys.Reach E dg f { file := f, threads := [(c, last), (c, last)] } := by
  have s0 := Sys.Reach.init (E := E) (dg := dg) (f := f)
  have s1 := Sys.Reach.step _ _ s0 (.call _ c)
  have s2 := Sys.Reach.step _ _ s1 (.call _ c)
  have key : ∀ (pcs : List (Pc α)) (p q : Pc α), (∀ pre a b post, p :: pcs = pre ++ a :: b :: post → step E dg f a = (f, b)) →
      (p :: pcs).getLast? = some last →
      (Sys.Reach E dg f { file := f, threads := [(c, p), (c, q)] } →
        Sys.Reach E dg f { file := f, threads := [(c, last), (c, q)] }) ∧
      (Sys.Reach E dg f { file := f, threads := [(c, q), (c, p)] } →
        Sys.Reach E dg f { file := f, threads := [(c, q), (c, last)] }) := by
    intro pcs
    induction pcs with
    | nil =>
      intro p q _ hl
      simp only [List.getLast?_singleton, Option.some.injEq] at hl
      subst hl
      exact ⟨fun h => h, fun h => h⟩
    | cons x pcs ih =>
      intro p q hs hl
      have hx := hs [] p x pcs rfl
      obtain ⟨i1, i2⟩ := ih x q (fun pre a b post he => hs (p :: pre) a b post (by rw [he]; rfl)) (by
        rw [List.getLast?_cons_cons] at hl; exact hl)
      constructor
      · intro h
        have := Sys.Reach.step _ _ h (.run _ 0 c p rfl)
        simp only [hx] at this
        exact i1 this
      · intro h
        have := Sys.Reach.step _ _ h (.run _ 1 c p rfl)
        simp only [hx] at this
        exact i2 this
  exact (key pcs (.start c) last hs hl).2 ((key pcs (.start c) (.start c) hs hl).1 s2)

theorem race_two (f : Tr.File) (c : Call α) (pc : Pc α) (v : Var) (h : pc.access = some (v, true)) :
    Race (α := α) { file := f, threads := [(c, pc), (c, pc)] } :=
  ⟨0, 1, _, _, v, true, by decide, rfl, rfl, h, h⟩

/-- Exactly the files whose headers have not been read, or that have plural entries and no plural rule
yet, can be raced on. -/
theorem C77_race (E : Fmt.Env α) (dg : Plural.Diag) (f : Tr.File) :
    (∃ s, Sys.Reach E dg f s ∧ Race s) ↔ f.headers = none ∨ (f.plural = none ∧ HasPlural f) := by
  constructor
  · rintro ⟨s, hr, i, j, a, b, v, w, _, hi, _, ha, _⟩
    apply Classical.byContradiction
    intro hn
    have hh : f.headers ≠ none := fun h => hn (.inl h)
    have hp : f.plural ≠ none ∨ ¬ HasPlural f := by
      by_cases hp : f.plural = none
      · exact .inr fun h => hn (.inr ⟨hp, h⟩)
      · exact .inl hp
    have := (calm_reach E dg f hh hp s hr).2 a (List.mem_of_getElem? hi)
    cases hc : a.2 <;> rw [hc] at ha this <;> simp [Pc.access] at ha
    · exact this
    · exact this
  · intro h
    by_cases hh : f.headers = none
    · refine ⟨_, reach_two E dg f .lang [.hCheck .lang, .hWrite (localHeaders f) .lang] ?_ _ rfl, race_two f _ _ .headers rfl⟩
      intro pre a b post he
      match pre, he with
      | [], he =>
        simp only [List.nil_append, List.cons.injEq] at he
        obtain ⟨rfl, rfl, _⟩ := he
        rfl
      | [_], he =>
        simp only [List.cons_append, List.nil_append, List.cons.injEq] at he
        obtain ⟨_, rfl, rfl, _⟩ := he
        simp only [step, hh]
      | [_, _], he => simp at he
      | _ :: _ :: _ :: _, he => simp at he
    · obtain ⟨hp, ctxt, id, e, hg, hn⟩ := h.resolve_left hh
      obtain ⟨m, hm⟩ := Option.ne_none_iff_exists'.mp hh
      have hn' : ¬ (e.id2 = [] ∧ e.strN.length = 0) := fun hc => hn ⟨hc.1, List.length_eq_zero_iff.mp hc.2⟩
      refine ⟨_, reach_two E dg f (.xn ctxt id [] 0 [])
        [.pCheck e id [] 0 [], .hCheck (.plural e id [] 0 []), .hRead (.plural e id [] 0 []),
         .pWrite (Tr.parsePlural (((f.headers.getD []).get? Tr.hPluralForms).getD [])) e id [] 0 []] ?_ _ rfl,
        race_two f _ _ .plural rfl⟩
      intro pre a b post he
      match pre, he with
      | [], he =>
        simp only [List.nil_append, List.cons.injEq] at he
        obtain ⟨rfl, rfl, _⟩ := he
        simp only [step, hg]
        rw [if_neg hn']
      | [_], he =>
        simp only [List.cons_append, List.nil_append, List.cons.injEq] at he
        obtain ⟨_, rfl, rfl, _⟩ := he
        simp only [step, hp]
      | [_, _], he =>
        simp only [List.cons_append, List.nil_append, List.cons.injEq] at he
        obtain ⟨_, _, rfl, rfl, _⟩ := he
        simp only [step, hm]
      | [_, _, _], he =>
        simp only [List.cons_append, List.nil_append, List.cons.injEq] at he
        obtain ⟨_, _, _, rfl, rfl, _⟩ := he
        rfl
      | [_, _, _, _], he => simp at he
      | _ :: _ :: _ :: _ :: _ :: _, he => simp at he

/-! ## Files that are loaded -/

/-- What holds of a file built by `AddEntry` alone. -/
structure Built (f : Tr.File) : Prop where
  header : f.entries.get? (Tr.key [] []) ≠ none → f.headers ≠ none
  plural : f.headers ≠ none → f.plural ≠ none

theorem initPlural_plural (f : Tr.File) : f.initPlural.plural ≠ none := by
  unfold Tr.File.initPlural
  split
  · rename_i h; rw [h]; simp
  · simp

theorem initPlural_headers_ne (f : Tr.File) (h : f.headers ≠ none) : f.initPlural.headers ≠ none := by
  unfold Tr.File.initPlural
  split
  · exact h
  · simp [Tr.File.getHeader, Tr.initHeader_headers]

theorem built_add (f : Tr.File) (h : Built f) (e : Tr.Entry) : Built (f.addEntry e) := by
  unfold Tr.File.addEntry
  dsimp only
  split
  · exact ⟨fun _ => initPlural_headers_ne _ (by rw [Tr.initHeader_headers]; simp), fun _ => initPlural_plural _⟩
  · rename_i hid
    refine ⟨?_, h.plural⟩
    dsimp only
    rw [GMap.get?_set]
    split
    · rename_i hk
      exfalso
      have hk : Tr.key [] [] = e.ctxt ++ [4] ++ e.id := hk
      have hl := congrArg List.length hk
      simp only [Tr.key, List.length_append, List.length_nil, List.length_cons] at hl
      have : e.id = [] := List.length_eq_zero_iff.mp (by omega)
      exact hid (by simp [Tr.Entry.isHeader, this])
    · exact h.header

theorem built_new : Built {} := ⟨fun h => absurd rfl h, fun h => absurd rfl h⟩

theorem built_foldl (es : List Tr.Entry) : ∀ f, Built f → Built (es.foldl Tr.File.addEntry f) := by
  induction es with
  | nil => intro f h; exact h
  | cons e es ih => intro f h; exact ih _ (built_add f h e)

theorem built_addRead (pot : Bool) (f : Tr.File) (h : Built f) (e : Tr.Entry) : Built (Tr.addRead pot f e) := by
  unfold Tr.addRead
  split
  · exact built_add f h e
  · exact h

theorem built_po (c : Str) (f : Tr.File) (h : Tr.readPo c = .ok f) : Built f := by
  by_cases hc : c = []
  · subst hc; simp [Tr.readPo, Tr.readPo0] at h
  · rcases Tr.text_or_malformed c with ⟨es, he⟩ | hm
    · rw [Tr.readPo, Tr.readPo0_text false c hc es he] at h
      simp only [Res.ok.injEq] at h
      subst h
      unfold Tr.fileOf
      have : ∀ (es : List Tr.Entry) f, Built f → Built (es.foldl (Tr.addRead false) f) := by
        intro es
        induction es with
        | nil => intro f h; exact h
        | cons e es ih => intro f h; exact ih _ (built_addRead _ f h e)
      exact this es {} built_new
    · rw [Tr.readPo, Tr.readPo0_malformed false c hc hm] at h
      simp at h

theorem built_msgs (c : Str) (ids strs : List Tr.LenOff) (k : Nat) : ∀ i f g, Built f →
    Tr.readMsgs c ids strs i k f = .ok g → Built g := by
  induction k with
  | zero =>
    intro i f g hf h
    simp only [Tr.readMsgs, Res.ok.injEq] at h
    rw [← h]; exact hf
  | succ k ih =>
    intro i f g hf h
    rw [Tr.readMsgs] at h
    repeat' split at h
    all_goals first | cases h | exact ih _ _ _ (built_add f hf _) h

theorem built_mo (c : Str) (f : Tr.File) (h : Tr.readMo c = .ok f) : Built f := by
  have body : ∀ be, Tr.readMoBody be c = .ok f → Built f := by
    intro be h
    rw [Tr.readMoBody] at h
    dsimp only at h
    repeat' split at h
    all_goals first | cases h | exact built_msgs _ _ _ _ _ _ _ built_new h
  rw [Tr.readMo] at h
  dsimp only at h
  repeat' split at h
  all_goals first | cases h | exact body _ h

theorem built_lang (f : Tr.File) (h : Built f) (hl : f.lang.1 ≠ []) : f.headers ≠ none ∧ f.plural ≠ none := by
  have hh : f.headers ≠ none := by
    intro hn
    apply hl
    have he : f.entries.get? (Tr.key [] []) = none := by
      apply Classical.byContradiction
      intro hc
      exact h.header hc hn
    simp [Tr.File.lang, Tr.File.getHeader, Tr.File.initHeader, hn, he, GMap.get?]
  exact ⟨hh, h.plural hh⟩

/-- A PO or MO file that names a language has its headers and its plural rule set up when it has been
read. -/
theorem C77_loaded (c : Str) (f : Tr.File) (h : Tr.readPo c = .ok f ∨ Tr.readMo c = .ok f) (hl : f.lang.1 ≠ []) :
    f.headers ≠ none ∧ f.plural ≠ none := by
  rcases h with h | h
  · exact built_lang f (built_po c f h) hl
  · exact built_lang f (built_mo c f h) hl

/-- Every translator of a domain loaded from a file system is a file on which no interleaving of lookups
writes or races. -/
theorem C77_bound (c : W.Cfg α) (d : Str) (fsys : Option W.Node) (lang : Str) (t : W.Tor α)
    (h : ((W.newTranslation c d []).loadFS c fsys).2.get lang = some t) :
    ∃ f, t = W.fileTor c f ∧ f.headers ≠ none ∧ f.plural ≠ none ∧
      ∀ s, Sys.Reach c.fmt c.diag f s → s.file = f ∧ ¬ Race s := by
  rw [W.loadFS_eq] at h
  rw [W.Translation.get, W.addAll_get] at h
  have hnew : (W.newTranslation c d []).langs.get? lang = none := rfl
  rw [hnew, Option.or_none] at h
  unfold W.lastFor at h
  have hm := List.mem_of_getLast? h
  have hm := (List.mem_filter.mp hm).1
  have hfile : ∀ ext files, some t ∈ W.loadable c ext files →
      ∃ f c', t = W.fileTor c f ∧ (Tr.readPo c' = .ok f ∨ Tr.readMo c' = .ok f) ∧ f.lang.1 ≠ [] := by
    intro ext files hm
    obtain ⟨p, _, hp⟩ := List.mem_filterMap.mp hm
    split at hp
    · obtain ⟨o, _, ho⟩ := Option.bind_eq_some_iff.mp hp
      unfold W.contentTor at ho
      split at ho
      · rename_i name content _ _
        dsimp only at ho
        split at ho
        · cases ho
        · rename_i f hf
          split at ho
          · cases ho
          · rename_i hl
            simp only [Option.some.injEq] at ho
            refine ⟨f, content, ho.symm, ?_, hl⟩
            split at hf
            · simp only [Option.some.injEq] at hf; exact .inl hf
            · split at hf
              · simp only [Option.some.injEq] at hf; exact .inr hf
              · cases hf
        · cases ho
      · cases ho
    · cases hp
  have : ∃ ext files, some t ∈ W.loadable c ext files := by
    rcases List.mem_append.mp hm with hm | hm
    · obtain ⟨x, hx, hxt⟩ := List.mem_filterMap.mp hm
      exact ⟨_, _, by rw [← show x = some t from hxt]; exact hx⟩
    · obtain ⟨x, hx, hxt⟩ := List.mem_filterMap.mp hm
      exact ⟨_, _, by rw [← show x = some t from hxt]; exact hx⟩
  obtain ⟨ext, files, hm⟩ := this
  obtain ⟨f, c', rfl, hr, hl⟩ := hfile ext files hm
  obtain ⟨hh, hp⟩ := C77_loaded c' f hr hl
  refine ⟨f, rfl, hh, hp, ?_⟩
  intro s hs
  refine ⟨(C77_read_only c.fmt c.diag f hh hp s hs).1, ?_⟩
  rintro hrace
  rcases (C77_race c.fmt c.diag f).mp ⟨s, hs, hrace⟩ with h | h
  · exact hh h
  · exact hp h.1

/-- A PO file with a language and a plural entry, as it is after loading. -/
def exPo : Str := b!"msgid \"\"\nmsgstr \"Language: fr\\nPlural-Forms: nplurals=2; plural=n>1;\\n\"\n\nmsgid \"one\"\nmsgid_plural \"many\"\nmsgstr[0] \"un\"\nmsgstr[1] \"des\"\n"

def exPoFile : Tr.File := match Tr.readPo exPo with | .ok f => f | _ => {}

/-- The hypotheses of `C77_loaded` hold of it. -/
example : Tr.readPo exPo = .ok exPoFile ∧ exPoFile.lang.1 = b!"fr" ∧ HasPlural exPoFile := by
  refine ⟨by decide +kernel, by decide +kernel, [], b!"one",
    { id := b!"one", isPlural := true, id2 := b!"many", strN := [b!"un", b!"des"] }, by decide +kernel, by decide⟩

/-- Two goroutines race on a file that was assembled by `AddEntry` without a header entry. -/
example : let e : Tr.Entry := { id := b!"one", isPlural := true, id2 := b!"many", strN := [b!"un", b!"des"] }
    ∃ s : Sys Str, Sys.Reach Fmt.exEnv (fun _ => false) (Tr.File.addEntry {} e) s ∧ Race s :=
  (C77_race _ _ _).mpr (.inl (by decide))

end Verif.Conc
