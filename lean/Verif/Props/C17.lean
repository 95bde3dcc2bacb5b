import Verif.Lemmas.File
import Verif.Props.C09_C11
/-! # C17: lookups are pure -/
namespace Verif.Tr
set_option linter.unusedSimpArgs false
variable {α : Type}

/-- The file with both caches filled. -/
def File.norm (f : File) : File := f.initHeader.initPlural

theorem heads_initHeader (f : File) : f.initHeader.heads = f.heads :=
  heads_of_some _ _ (initHeader_headers f)

theorem initPlural_of_some (f : File) (p : Plural) (h : f.plural = some p) : f.initPlural = f := by
  unfold File.initPlural; rw [h]

theorem initPlural_of_none (f : File) (h : f.plural = none) :
    f.initPlural = { f.initHeader with
      plural := some (parsePlural ((f.heads.get? hPluralForms).getD [])) } := by
  unfold File.initPlural; rw [h]; rfl

/-- The plural rule a lookup would use now. -/
def File.rule (f : File) : Plural :=
  match f.plural with
  | some p => p
  | none => parsePlural ((f.heads.get? hPluralForms).getD [])

theorem initPlural_rule (f : File) : f.initPlural.plural = some f.rule := by
  unfold File.rule
  cases h : f.plural with
  | some p => rw [initPlural_of_some f p h, h]
  | none => rw [initPlural_of_none f h]

theorem heads_congr (f g : File) (h1 : f.headers = g.headers) (h2 : f.entries = g.entries) :
    f.heads = g.heads := by
  unfold File.heads File.initHeader
  rw [h1, h2]
  cases g.headers with
  | some _ => simp [h1]
  | none => dsimp only; cases g.entries.get? (key [] []) <;> rfl

theorem initPlural_heads (f : File) : f.initPlural.heads = f.heads := by
  cases h : f.plural with
  | some p => rw [initPlural_of_some f p h]
  | none =>
    rw [initPlural_of_none f h]
    refine Eq.trans ?_ (heads_initHeader f)
    exact heads_congr _ _ rfl rfl

/-- Everything a lookup can see: the entries, the headers and the plural rule. -/
def SameView (f g : File) : Prop :=
  f.entries = g.entries ∧ f.heads = g.heads ∧ f.rule = g.rule

theorem sameView_initHeader (f : File) : SameView f.initHeader f := by
  refine ⟨initHeader_entries f, heads_initHeader f, ?_⟩
  unfold File.rule
  rw [initHeader_plural, heads_initHeader]

theorem sameView_initPlural (f : File) : SameView f.initPlural f := by
  refine ⟨initPlural_entries f, initPlural_heads f, ?_⟩
  have := initPlural_rule f
  conv => lhs; unfold File.rule
  rw [this]

theorem exec_sameView (E : Fmt.Env α) (dg : Plural.Diag) (f : File) (c : Call α)
    (h : c.isLookup = true) : SameView (c.exec E dg f).2 f := by
  cases c with
  | add e => simp [Call.isLookup] at h
  | header k => exact sameView_initHeader f
  | lang => exact sameView_initHeader f
  | x => exact ⟨rfl, rfl, rfl⟩
  | xn ctxt id id2 n args =>
    simp only [Call.exec, File.xn]
    split
    · exact ⟨rfl, rfl, rfl⟩
    · split
      · exact ⟨rfl, rfl, rfl⟩
      · exact sameView_initPlural f

theorem obs_of_sameView (E : Fmt.Env α) (dg : Plural.Diag) (f g : File) (hv : SameView f g)
    (c : Call α) : (c.exec E dg f).1 = (c.exec E dg g).1 := by
  obtain ⟨h1, h2, h3⟩ := hv
  cases c with
  | add e => rfl
  | header k => simp [Call.exec, getHeader_eq, h2]
  | lang =>
    have : ∀ f : File, f.lang.1 = (f.heads.get? hLanguage).getD [] := fun _ => rfl
    simp [Call.exec, this, h2]
  | x => simp [Call.exec, File.x, h1]
  | xn ctxt id id2 n args =>
    simp only [Call.exec, File.xn, h1]
    split
    · rfl
    · split
      · rfl
      · simp only [initPlural_rule, h3]

/-- **C17** Lookups performed before a call do not change what that call returns. -/
theorem C17_lookups_pure (E : Fmt.Env α) (dg : Plural.Diag) (f : File) (cs : List (Call α))
    (hcs : ∀ c ∈ cs, c.isLookup = true) (c : Call α) :
    (c.exec E dg (execAll E dg f cs)).1 = (c.exec E dg f).1 := by
  apply obs_of_sameView
  induction cs generalizing f with
  | nil => exact ⟨rfl, rfl, rfl⟩
  | cons d cs ih =>
    have h1 := exec_sameView E dg f d (hcs d (by simp))
    obtain ⟨a, b, c⟩ := ih (d.exec E dg f).2 (fun c hc => hcs c (by simp [hc]))
    exact ⟨a.trans h1.1, b.trans h1.2.1, c.trans h1.2.2⟩

/-- **C17** Nor do they change which translations later `X` calls find after more entries are
added. -/
theorem C17_lookups_keep_entries (E : Fmt.Env α) (dg : Plural.Diag) (f : File) (cs ds : List (Call α))
    (hcs : ∀ c ∈ cs, c.isLookup = true) (ctxt id : Str) (args : List α) :
    (execAll E dg f (cs ++ ds)).x E ctxt id args = (execAll E dg f ds).x E ctxt id args := by
  have key : ∀ (ds : List (Call α)) (f g : File), f.entries = g.entries →
      (execAll E dg f ds).entries = (execAll E dg g ds).entries := by
    intro ds
    induction ds with
    | nil => intro f g h; exact h
    | cons d ds ih =>
      intro f g h
      refine ih _ _ ?_
      cases hd : d.isLookup with
      | true => rw [exec_lookup_entries E dg f d hd, exec_lookup_entries E dg g d hd, h]
      | false =>
        cases d with
        | add e => rw [exec_add_entries, exec_add_entries, h]
        | _ => simp [Call.isLookup] at hd
  have h1 : (execAll E dg f cs).entries = f.entries := by
    induction cs generalizing f with
    | nil => rfl
    | cons d cs ih =>
      rw [← exec_lookup_entries E dg f d (hcs d (by simp))]
      exact ih (d.exec E dg f).2 (fun c hc => hcs c (by simp [hc]))
  rw [execAll_append]
  simp only [File.x, key ds _ _ h1]

/-- **C17** They may however freeze the headers: a `Lang` call before the header entry is added
loses the language. -/
theorem C17_lookup_freezes_headers (E : Fmt.Env α) (dg : Plural.Diag) :
    (execAll E dg {} [.add { str := b!"Language: de\n" }]).lang.1 = b!"de" ∧
    (execAll E dg {} [.lang, .add { str := b!"Language: de\n" }]).lang.1 = b!"" := by
  constructor <;> rfl

/-! Concrete case. -/
example : ∀ c ∈ [Call.lang (α := Str), .header b!"Plural-Forms", .xn [] b!"a" b!"b" 2 []],
    c.isLookup = true := by simp [Call.isLookup]

end Verif.Tr
