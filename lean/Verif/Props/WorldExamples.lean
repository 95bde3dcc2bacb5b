import Verif.Props.C45_C49
import Verif.Props.C09_C11
/-! # C36-C49: concrete cases meeting the hypotheses -/
namespace Verif.W
open Verif

/-- Strings as arguments; `fr-FR` normalizes to `fr`. -/
def exCfg : Cfg Str where
  fmt := Fmt.exEnv
  diag := fun _ => false
  norm := fun s => s.takeWhile (· != 45)

def poFr : Str := b!"msgid \"\"\nmsgstr \"Language: fr-FR\\n\"\n\nmsgid \"a\"\nmsgstr \"po\"\n"
def poFr2 : Str := b!"msgid \"\"\nmsgstr \"Language: fr\\n\"\n\nmsgid \"a\"\nmsgstr \"po2\"\n"
def poNoLang : Str := b!"msgid \"a\"\nmsgstr \"b\"\n"
/-- The MO image of the same catalogue with the translation `mo`. -/
def moFr : Str := Tr.saveMo [{ str := b!"Language: fr\n" }, { id := b!"a", str := b!"mo" }]

def file (name content : Str) : Node := .file name (some { stat := some name, content := some content })

/-- Two PO files, an MO file, a broken one, one that cannot be opened, and one of another kind. -/
def exTree : Node := .dir b!"." true
  [file b!"a.po" poFr, .dir b!"d" true [file b!"b.po" poFr2, file b!"bad.po" b!"msgid"], .file b!"c.po" none,
   file b!"z.mo" moFr, file b!"readme.txt" b!"hello"]
/-- The same with a directory that cannot be read before the second PO file. -/
def exTree2 : Node := .dir b!"." true
  [file b!"a.po" poFr, .dir b!"d" false [], file b!"e.po" poFr2, file b!"z.mo" moFr]
def exBroken : Node := .dir b!"." true [file b!"bad.po" b!"msgid", file b!"readme.txt" b!"hello"]

theorem exTree_loads : Loads exCfg (some exTree) :=
  ⟨(b!"a.po", some { stat := some b!"a.po", content := some poFr }), by decide, .inl (by decide), _, rfl, by decide +kernel⟩

theorem exBroken_fails : ¬ Loads exCfg (some exBroken) := by
  rintro ⟨p, hp, hs, o, ho, hc⟩
  have : p = (b!"bad.po", some { stat := some b!"bad.po", content := some b!"msgid" }) ∨
      p = (b!"readme.txt", some { stat := some b!"readme.txt", content := some b!"hello" }) := by
    have h : filesFrom (some exBroken) = [(b!"bad.po", some { stat := some b!"bad.po", content := some b!"msgid" }),
      (b!"readme.txt", some { stat := some b!"readme.txt", content := some b!"hello" })] := by decide
    rw [h] at hp
    simpa using hp
  rcases this with rfl | rfl
  · simp only [Option.some.injEq] at ho
    subst ho
    revert hc
    decide +kernel
  · revert hs
    decide

/-- The global value (0) with the tree bound to its domain `default` and the locale `fr`; a copy (1) made
by `D`, and another value (2). -/
def exOps : List (Op Str) :=
  [.bindFS 0 b!"default" (some exTree), .setLocale 0 b!"fr-CA" [], .d 0 b!"default", .newTranslations b!"de",
   .bindFS 2 b!"x" (some exTree2)]
def exWorld : World Str := exOps.foldl (fun w o => o.exec exCfg w) (World.init exCfg b!"en")

theorem exRun : Run exCfg (World.init exCfg b!"en") exOps exWorld := by
  refine .cons _ _ _ _ (by show 0 < 1; decide) (.cons _ _ _ _ ?_ (.cons _ _ _ _ ?_ (.cons _ _ _ _ trivial (.cons _ _ _ _ ?_ (.nil _)))))
  · exact (by decide +kernel : 0 < (exOps.take 1 |>.foldl (fun w o => o.exec exCfg w) (World.init exCfg b!"en")).tss.length)
  · exact (by decide +kernel : 0 < (exOps.take 2 |>.foldl (fun w o => o.exec exCfg w) (World.init exCfg b!"en")).tss.length)
  · exact (by decide +kernel : 2 < (exOps.take 4 |>.foldl (fun w o => o.exec exCfg w) (World.init exCfg b!"en")).tss.length)

theorem exReach : Reach exCfg exWorld := run_reach exCfg _ exOps _ (Reach.init _) exRun

/-- C36: the copy is cleared and gets another locale, the original still translates. -/
example : (exWorld.x exCfg 0 [] b!"a" [] = .ok b!"po2") ∧ (exWorld.x exCfg 1 [] b!"a" [] = .ok b!"po2") ∧
    let w := (exWorld.clearDomains 1).setLocale exCfg 1 b!"xx" []
    w.x exCfg 0 [] b!"a" [] = .ok b!"po2" ∧ w.x exCfg 1 [] b!"a" [] = .ok b!"a" ∧
      w.usedLocale 0 = b!"fr" ∧ w.usedLocale 1 = b!"en_US" := by decide +kernel

/-- Changing the shared `Translation` object is seen through both. -/
example : let t : Tor Str := { lang := b!"fr", x := fun _ _ _ => .ok b!"new", xn := fun _ _ _ _ _ => .panic }
    let w := (Op.addOrReplace 1 t).exec exCfg exWorld
    w.x exCfg 0 [] b!"a" [] = .ok b!"new" ∧ w.x exCfg 1 [] b!"a" [] = .ok b!"new" := by decide +kernel

/-- C37: bound, removed, not there; the same for a copy that is not touched. -/
example : exWorld.hasDomain 0 b!"default" = true ∧ (exWorld.removeDomain 0 b!"default").1 = true ∧
    (exWorld.removeDomain 0 b!"default").2.hasDomain 0 b!"default" = false ∧
    (exWorld.removeDomain 0 b!"default").2.hasDomain 1 b!"default" = true ∧
    (exWorld.removeDomain 0 b!"x").1 = false ∧ (exWorld.removeDomain 0 []).1 = false := by decide +kernel

/-- The domain `""` can be bound and is never removed. -/
example : let w := exWorld.bindFS exCfg 0 [] (some exTree)
    w.hasDomain 0 [] = true ∧ (w.removeDomain 0 []).1 = false ∧ (w.removeDomain 0 []).2.hasDomain 0 [] = true := by
  decide +kernel

/-- C38: removing a domain that is current but not loaded does not reset it. -/
example : let w := exWorld.setDomain 2 b!"x"
    (w.removeDomain 2 b!"x").2.domain 2 = b!"default" ∧
    (((w.removeDomain 2 b!"x").2.setDomain 2 b!"x").removeDomain 2 b!"x").2.domain 2 = b!"x" ∧
    (w.clearDomains 2).domain 2 = b!"default" ∧ (w.clearDomains 2).locale 2 = b!"de" := by decide +kernel

/-- C39: the broken tree loads nothing; a PO file without a language loads and leaves the domain empty. -/
example : (exWorld.bindFS exCfg 0 b!"default" (some exBroken)).x exCfg 0 [] b!"a" [] = .ok b!"po2" ∧
    (exWorld.bindFS exCfg 0 b!"default" (some (file b!"n.po" poNoLang))).x exCfg 0 [] b!"a" [] = .ok b!"a" ∧
    (exWorld.bindFS exCfg 0 b!"default" (some (file b!"n.po" poNoLang))).hasDomain 0 b!"default" = true := by
  decide +kernel

/-- C40: the last PO file wins over the MO file; behind an unreadable directory nothing is seen. -/
example : (exWorld.x exCfg 0 [] b!"a" [] = .ok b!"po2") ∧
    ((exWorld.setDomain 2 b!"x").setLocale exCfg 2 b!"fr" []).x exCfg 2 [] b!"a" [] = .ok b!"po" ∧
    (let w := exWorld.bindFS exCfg 0 b!"m" (some (.dir b!"." true [file b!"bad.po" b!"msgid", file b!"z.mo" moFr]))
     (w.setDomain 0 b!"m").x exCfg 0 [] b!"a" [] = .ok b!"mo") ∧
    complete exTree = true ∧ complete exTree2 = false := by decide +kernel

/-- C41: the second translator for `fr` replaces the first, under an equivalent name. -/
example : let t1 : Tor Str := { lang := b!"fr", x := fun _ _ _ => .ok b!"1", xn := fun _ _ _ _ _ => .panic }
    let t2 : Tor Str := { lang := b!"fr-FR", x := fun _ _ _ => .ok b!"2", xn := fun _ _ _ _ _ => .panic }
    let t3 : Tor Str := { lang := [], x := fun _ _ _ => .ok b!"3", xn := fun _ _ _ _ _ => .panic }
    let tr := newTranslation exCfg b!"d" [t1, t2, t3]
    tr.langs.keys = [b!"fr"] ∧ ((tr.get b!"fr").map fun t => t.x [] [] []) = some (.ok b!"2") ∧
    ((newTranslation exCfg b!"d" [t1]).addOrReplace exCfg t2).1.map (fun t => t.x [] [] []) = some (.ok b!"1") ∧
    ((newTranslation exCfg b!"d" []).addOrReplace exCfg t2).1.isNone = true := by decide +kernel

/-- C42, C43: any name that normalizes to `fr` finds the translation, another one does not. -/
example : (exWorld.setLocale exCfg 0 b!"fr-BE" []).x exCfg 0 [] b!"a" [] = .ok b!"po2" ∧
    (exWorld.setLocale exCfg 0 b!"fr-BE" []).usedLocale 0 = b!"fr" ∧
    (exWorld.setLocale exCfg 0 b!"de" []).x exCfg 0 [] b!"a" [] = .ok b!"a" ∧
    (exWorld.setLocale exCfg 0 b!"de" []).usedLocale 0 = b!"en_US" ∧
    (exWorld.setLocale exCfg 0 [] b!"fr").x exCfg 0 [] b!"a" [] = .ok b!"po2" := by decide +kernel

/-- The hypothesis of the first half of C42 holds. -/
example : ∃ t, Holds exWorld 0 t ∧ exCfg.norm t.lang = exCfg.norm b!"fr-BE" := by
  have h : ((exWorld.get 0 (exWorld.domain 0)).bind fun p => ((exWorld.tr p).get b!"fr").map fun t => exCfg.norm t.lang) =
      some b!"fr" := by decide +kernel
  rw [Option.bind_eq_some_iff] at h
  obtain ⟨p, hp, h⟩ := h
  rw [Option.map_eq_some_iff] at h
  obtain ⟨t, ht, h⟩ := h
  exact ⟨t, ⟨p, _, hp, ht⟩, h⟩

/-- C44: the result for the global value. -/
example : exWorld.Locales exCfg 0 [b!"en_US", b!"fr"] :=
  ⟨[b!"fr"], by decide +kernel, by decide +kernel, by
    simp only [List.pairwise_cons, List.mem_cons, List.not_mem_nil, or_false, forall_eq,
      IsEmpty.forall_iff, implies_true, and_true, List.Pairwise.nil]
    decide⟩

/-- C46: the history above adds nothing to the shared object; an unknown domain gives the source text,
whatever its name. -/
example : (∀ o ∈ exOps, o.changes ≠ some 0) ∧ (exWorld.setDomain 0 b!"nope").get 0 b!"nope" = none ∧
    (exWorld.setDomain 0 b!"nope").x exCfg 0 [] b!"a" [] = .ok b!"a" ∧
    (exWorld.setDomain 0 b!"nope").xn64 exCfg 0 [] b!"a" b!"b" 2 [] = .ok b!"b" := by
  refine ⟨by simp [exOps, Op.changes], ?_⟩
  decide +kernel

/-- Somebody who adds a translator to the object `GetOrNoop` returns for an unknown domain changes all
unknown domains. -/
example : let t : Tor Str := { lang := b!"fr", x := fun _ _ _ => .ok b!"new", xn := fun _ _ _ _ _ => .panic }
    let w := (Op.addOrReplace (exWorld.getOrNoop 2 b!"nope") t).exec exCfg exWorld
    (w.setDomain 0 b!"other").x exCfg 0 [] b!"a" [] = .ok b!"new" := by decide +kernel

/-- C47: there is a normalization for which the claim fails. -/
example : ∃ l, exCfg.norm l ≠ b!"en_US" := ⟨b!"fr", by decide⟩
example : firstLang.InRange := fun _ _ hne => List.length_pos_of_ne_nil hne

/-- C48: with and without the cookie. -/
example : exWorld.GetUserLang firstLang exCfg { cookie := fun n => if n = b!"l" then some b!"zh" else none, accept := [] }
    [b!"lang", b!"l"] (.ok b!"zh") := by
  show (_ : Res Str) = _
  rfl

/-- C49: the last settings count, in any order. -/
example : lastLocale [.locale b!"de", .domain b!"x", .locale b!"fr-FR", .other] = some b!"fr-FR" ∧
    lastDomain [.locale b!"de", .domain b!"x", .locale b!"fr-FR", .other] = some b!"x" := ⟨rfl, rfl⟩
example : let r := exWorld.withContext exCfg (ctxOf [.locale b!"de", .domain b!"default", .locale b!"fr-FR", .other]) []
    r.1.x exCfg r.2 [] b!"a" [] = .ok b!"po2" ∧ r.1.locale r.2 = b!"fr" := by decide +kernel

end Verif.W
