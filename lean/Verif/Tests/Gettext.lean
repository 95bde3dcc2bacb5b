import Verif.Tests.Translator
import Verif.Model.World
/-!
# The tests and examples of package t
(example_test.go, n1_test.go, translations_test.go, context_test.go)
-/
namespace Verif.Tests
open Verif Verif.W

/-- Package `golang.org/x/text/language` on the names the examples use. -/
def testNorm (s : Str) : Str :=
  if s = b!"zh" ∨ s = b!"zh_hans" ∨ s = b!"zh_CN" then b!"zh_CN"
  else if s = b!"zh_hant" ∨ s = b!"zh_TW" then b!"zh_TW"
  else s

/-- The configuration of the examples. -/
def testCfg : Cfg Any := ⟨anyEnv, fun _ => false, testNorm⟩

/-- A file that can be read. -/
def readable (name content : Str) : Node := .file name (some ⟨some name, some content⟩)

/-- The directory testdata. -/
def testdata : Option Node := some (.dir b!"testdata" true [readable b!"messages.new.pot" messagesNewPot,
  readable b!"messages.pot" messagesPot, readable b!"zh_CN.mo" zhMo, readable b!"zh_CN.po" zhPo, readable b!"zh_CN_save.mo" zhSaveMo])

/-- The file testdata/zh_CN.po. -/
def testfile : Option Node := some (readable b!"zh_CN.po" zhPo)

/-- `markSeq` (example_test.go:14-18): a new global value; the system's language is `en_US`. -/
def start : World Any :=
  let w := (World.init testCfg b!"en_US").newTranslations b!"en_US"
  w.1.setGlobal w.2

/-- The world after `Load("testdata")`. -/
def loaded : World Any := start.gLoadFS testCfg testdata

/-- `Example_init_path`, `Example_initFS` (example_test.go:20-66). -/
example : ((loaded.gSetLocale testCfg [] b!"en_US").gSetLocale testCfg b!"zh_CN" b!"en_US").gT testCfg b!"Hello, World" [] = .ok b!"你好，世界" ∧
    (loaded.gSetLocale testCfg b!"zh" b!"en_US").gT testCfg b!"Hello, World" [] = .ok b!"你好，世界" := by decide +kernel

/-- `Example_init_file`, `Example_init_fileFS` (example_test.go:34-86). -/
example :
    let w := start.gLoadFS testCfg testfile
    let w1 := w.gSetLocale testCfg b!"zh_hans" b!"en_US"
    let w2 := w1.gSetLocale testCfg b!"zh_hant" b!"en_US"
    w1.gLocale = b!"zh_CN" ∧ w1.gT testCfg b!"Hello, World" [] = .ok b!"你好，世界" ∧
    w2.gLocale = b!"zh_TW" ∧ w2.gT testCfg b!"Hello, World" [] = .ok b!"Hello, World" := by decide +kernel

/-- `Example_locale` (example_test.go:88-113). -/
example :
    let w1 := loaded.gSetLocale testCfg b!"zh" b!"en_US"
    let w2 := w1.gSetLocale testCfg b!"zh_TW" b!"en_US"
    let p := w2.newTranslations b!"en_US"
    let w3 := (p.1.setSourceCodeLocale testCfg p.2 b!"zh_CN").setLocale testCfg p.2 b!"en_US" b!"en_US"
    w1.gUsedLocale = b!"zh_CN" ∧ w2.gUsedLocale = b!"en_US" ∧ w2.gSourceCodeLocale = b!"en_US" ∧
    w3.sourceCodeLocale p.2 = b!"zh_CN" ∧ w3.locale p.2 = b!"en_US" ∧ w3.usedLocale p.2 = b!"zh_CN" ∧
    w3.t testCfg p.2 b!"你好，世界" [] = .ok b!"你好，世界" := by decide +kernel

/-- `Example_bindDomain` (example_test.go:115-132). -/
example :
    let w := (start.gSetLocale testCfg b!"zh" b!"en_US").gBindFS testCfg b!"main" testfile
    w.gHasDomain b!"main" = true ∧ w.gHasDomain b!"no" = false ∧ (w.doms w.glob).keys = [b!"main"] ∧
    w.gT testCfg b!"Hello, World" [] = .ok b!"Hello, World" ∧
    (w.gSetDomain b!"main").gT testCfg b!"Hello, World" [] = .ok b!"你好，世界" := by decide +kernel

/-- `Example_gettext` (example_test.go:134-165). -/
example :
    let w := loaded.gSetLocale testCfg b!"zh_CN" b!"en_US"
    w.gT testCfg b!"Hello, World" [] = .ok b!"你好，世界" ∧
    w.gT testCfg b!"Hello, %s" [.str b!"Tom"] = .ok b!"你好，Tom" ∧
    w.gN testCfg b!"One apple" b!"%d apples" 1 [] = .ok b!"%d 个苹果" ∧
    w.gN testCfg b!"One apple" b!"%d apples" 1 [.int 1] = .ok b!"1 个苹果" ∧
    w.gN testCfg b!"One apple" b!"%d apples" 2 [] = .ok b!"%d 个苹果" ∧
    w.gN testCfg b!"One apple" b!"%d apples" 2 [.int 2] = .ok b!"2 个苹果" ∧
    w.gN64 testCfg b!"One apple" b!"%d apples" 200 [.int 200] = .ok b!"200 个苹果" ∧
    w.gX testCfg b!"File|" b!"Open" [] = .ok b!"打开文件" ∧
    w.gX testCfg b!"Project|" b!"Open" [] = .ok b!"打开工程" ∧
    w.gXN testCfg b!"File|" b!"Open One" b!"Open %d" 1 [.int 1] = .ok b!"打开 1 个文件" ∧
    w.gXN testCfg b!"Project|" b!"Open One" b!"Open %d" 1 [] = .ok b!"打开 %d 个工程" ∧
    w.gXN testCfg b!"Project|" b!"Open One" b!"Open %d" 1 [.int 1] = .ok b!"打开 1 个工程" ∧
    w.gXN64 testCfg b!"Project|" b!"Open One" b!"Open %d" 100 [.int 100] = .ok b!"打开 100 个工程" := by decide +kernel

/-- `Example_with` (example_test.go:167-179). -/
example :
    let w := start.gBindFS testCfg b!"main" testdata
    let l := w.gL testCfg b!"zh_CN" b!"en_US"
    let d := l.1.gD b!"main"
    let dl := d.1.l testCfg d.2 b!"zh_CN" b!"en_US"
    l.1.t testCfg l.2 b!"Hello, World" [] = .ok b!"Hello, World" ∧
    dl.1.t testCfg dl.2 b!"Hello, World" [] = .ok b!"你好，世界" := by decide +kernel

/-- `Example_locales` (example_test.go:181-196). -/
example :
    let w := loaded.gBindFS testCfg b!"main" testdata
    let d := w.gD b!"main"
    let e := w.gD b!"no-such-domain"
    start.GLocales testCfg [b!"en_US"] ∧ loaded.GLocales testCfg [b!"en_US", b!"zh_CN"] ∧
    d.1.Locales testCfg d.2 [b!"en_US", b!"zh_CN"] ∧ e.1.Locales testCfg e.2 [b!"en_US"] :=
  ⟨⟨[], by decide +kernel, by decide +kernel, by decide +kernel⟩, ⟨[b!"zh_CN"], by decide +kernel, by decide +kernel, by decide +kernel⟩,
    ⟨[b!"zh_CN"], by decide +kernel, by decide +kernel, by decide +kernel⟩, ⟨[], by decide +kernel, by decide +kernel, by decide +kernel⟩⟩

/-- `Example_removeDomain` (example_test.go:198-219), `TestTranslationsRemoveDomain` (translations_test.go:7-34). -/
example :
    let w := (((start.gBindFS testCfg b!"main" testdata).gBindFS testCfg b!"extra" testfile).gSetLocale testCfg b!"zh_CN" b!"en_US").gSetDomain b!"main"
    let r := w.gRemoveDomain b!"main"
    w.gHasDomain b!"main" = true ∧ w.gHasDomain b!"extra" = true ∧
    (w.gRemoveDomain []).1 = false ∧ (w.gRemoveDomain b!"missing").1 = false ∧
    w.GDomains [b!"extra", b!"main"] ∧ r.1 = true ∧ r.2.gDomain = b!"default" ∧ r.2.gHasDomain b!"main" = false ∧
    r.2.gHasDomain b!"extra" = true ∧ r.2.GDomains [b!"extra"] ∧
    r.2.gT testCfg b!"Hello, World" [] = .ok b!"Hello, World" :=
  ⟨by decide +kernel, by decide +kernel, by decide +kernel, by decide +kernel, by unfold World.GDomains World.Domains; decide +kernel,
    by decide +kernel, by decide +kernel, by decide +kernel, by decide +kernel, by unfold World.GDomains World.Domains; decide +kernel,
    by decide +kernel⟩

/-- `Example_clearDomains` (example_test.go:221-233), `TestTranslationsClearDomains` (translations_test.go:36-61). -/
example :
    let w := (((start.gSetLocale testCfg b!"zh_CN" b!"en_US").gSetSourceCodeLocale testCfg b!"zh_CN").gBindFS testCfg b!"main" testdata).gBindFS
      testCfg b!"extra" testfile
    let r := (w.gSetDomain b!"main").gClearDomains
    r.GDomains [] ∧ r.gDomain = b!"default" ∧ r.gLocale = b!"zh_CN" ∧ r.gSourceCodeLocale = b!"zh_CN" ∧
    r.gT testCfg b!"Hello, World" [] = .ok b!"Hello, World" :=
  ⟨by unfold World.GDomains World.Domains; decide +kernel, by decide +kernel, by decide +kernel, by decide +kernel, by decide +kernel⟩

/-- `ExampleN1`, `ExampleN1_withTranslation`, `ExampleTranslations_N1` (n1_test.go:10-54). -/
example :
    let w := loaded.gSetLocale testCfg b!"zh_CN" b!"en_US"
    let d := loaded.gD b!"default"
    let l := d.1.l testCfg d.2 b!"zh_CN" b!"en_US"
    start.gN1 testCfg b!"%d 个苹果" 1 [] = .ok b!"%d 个苹果" ∧ start.gN1 testCfg b!"%d 个苹果" 1 [.int 1] = .ok b!"1 个苹果" ∧
    start.gN1 testCfg b!"%d 个苹果" 2 [] = .ok b!"%d 个苹果" ∧ start.gN1 testCfg b!"%d 个苹果" 2 [.int 2] = .ok b!"2 个苹果" ∧
    w.gN1 testCfg b!"One apple" 1 [] = .ok b!"%d 个苹果" ∧ w.gN1 testCfg b!"One apple" 1 [.int 1] = .ok b!"1 个苹果" ∧
    w.gN1 testCfg b!"One apple" 2 [] = .ok b!"%d 个苹果" ∧ w.gN1 testCfg b!"One apple" 2 [.int 2] = .ok b!"2 个苹果" ∧
    l.1.n1 testCfg l.2 b!"One apple" 1 [] = .ok b!"%d 个苹果" ∧ l.1.n1 testCfg l.2 b!"One apple" 3 [.int 3] = .ok b!"3 个苹果" := by
  decide +kernel

/-- `TestWithContext` (context_test.go:9-30): the values of the fields. -/
example :
    let w := World.init testCfg b!"en_US"
    let view (p : World Any × Nat) := (p.1.locale p.2, p.1.domain p.2, (p.1.doms p.2).keys, p.1.sourceCodeLocale p.2)
    let new := w.newTranslations b!"en_US"
    view (w.withContext testCfg .base b!"en_US") = view new ∧
    view (w.withContext testCfg (.lang .base b!"zh_CN") b!"en_US") = view (new.1.l testCfg new.2 b!"zh_CN" b!"en_US") ∧
    view (w.withContext testCfg (.domain .base b!"my-domain") b!"en_US") = view (new.1.d new.2 b!"my-domain") := by decide +kernel

end Verif.Tests
