import Verif.Tests.Basic
import Verif.Model.Po
import Verif.Model.Mo
/-!
# The tests of package translator
-/
namespace Verif.Tests
open Verif Verif.Tr

/-- `Test_split` (translator/wrap_test.go:8-59). -/
example : ∀ t ∈ ([
    (b!"", 10, [b!""]),
    (b!"0123456789", 10, [b!"0123456789"]),
    (b!"0123456789", 5, [b!"0123456789"]),
    (b!" 0123456789", 5, [b!" ", b!"0123456789"]),
    (b!"0 123456789", 5, [b!"0 ", b!"123456789"]),
    (b!"01 23456789", 5, [b!"01 ", b!"23456789"]),
    (b!"012 3456789", 5, [b!"012 ", b!"3456789"]),
    (b!"0123 456789", 5, [b!"0123 ", b!"456789"]),
    (b!"01234 56789", 5, [b!"01234 ", b!"56789"]),
    (b!"012345 6789", 5, [b!"012345 ", b!"6789"]),
    (b!"0123456 789", 5, [b!"0123456 ", b!"789"]),
    (b!"01234567 89", 5, [b!"01234567 ", b!"89"]),
    (b!"012345678 9", 5, [b!"012345678 ", b!"9"]),
    (b!"0123456789 ", 5, [b!"0123456789 "]),
    (b!"0123456789  ", 5, [b!"0123456789  "]),
    (b!"0123456789\n", 5, [b!"0123456789\n"]),
    (b!"0123456789\n\n", 5, [b!"", b!"0123456789\n", b!"\n"]),
    (b!"012345678\n9", 5, [b!"", b!"012345678\n", b!"9"]),
    (b!"01234567\n89", 5, [b!"", b!"01234567\n", b!"89"]),
    (b!"0123456\n789", 5, [b!"", b!"0123456\n", b!"789"]),
    (b!"012345\n6789", 5, [b!"", b!"012345\n", b!"6789"]),
    (b!"01234\n56789", 5, [b!"", b!"01234\n", b!"56789"]),
    (b!"0123\n456789", 5, [b!"", b!"0123\n", b!"456789"]),
    (b!"012\n3456789", 5, [b!"", b!"012\n", b!"3456789"]),
    (b!"01\n23456789", 5, [b!"", b!"01\n", b!"23456789"]),
    (b!"0\n123456789", 5, [b!"", b!"0\n", b!"123456789"]),
    (b!"\n0123456789", 5, [b!"", b!"\n", b!"0123456789"]),
    (b!"01234\n56789", 15, [b!"", b!"01234\n", b!"56789"]),
    (b!"01234\n56789\n01234", 5, [b!"", b!"01234\n", b!"56789\n", b!"01234"])] : List (Str × Int × List Str)), split t.1 t.2.1 = t.2.2 := by decide +kernel

/-- `Test_reader_currentLine`, `Test_reader_nextLine`, `Test_reader_unGetLine` (translator/reader_test.go:36-92). -/
example : (newReader [b!"hello"]).currentLine = .err ∧
    (newReader [b!"hello"]).nextLine.1 = .line b!"hello" ∧
    (newReader [b!"hello"]).nextLine.2.currentLine = .line b!"hello" ∧
    (newReader []).nextLine.1 = .eof ∧
    (newReader [b!"hello"]).nextLine.2.nextLine.1 = .eof ∧
    (newReader [b!"hello"]).nextLine.2.unGetLine.nextLine.1 = .line b!"hello" := by decide +kernel

/-- `TestFile_Lang` (translator/file_test.go:8-36). -/
example : (({} : File).lang).1 = [] ∧
    ({ headers := some [(hLanguage, b!"zh_CN")] } : File).lang.1 = b!"zh_CN" ∧
    ({ entries := [(key [] [], { str := b!"Language: zh_CN" })] } : File).lang.1 = b!"zh_CN" := by decide +kernel

/-- `TestFile_T` (translator/file_test.go:38-83). -/
example : ({} : File).x anyEnv [] b!"hello" [] = b!"hello" ∧
    ({} : File).x anyEnv [] b!"hello %s" [.str b!"world"] = b!"hello world" ∧
    ({ entries := [(key [] b!"hello", { str := b!"你好" })] } : File).x anyEnv [] b!"hello" [] = b!"你好" ∧
    ({ entries := [(key [] b!"hello %s", { str := b!"你好 %s" })] } : File).x anyEnv [] b!"hello %s" [.str b!"world"] = b!"你好 world" := by
  decide +kernel

/-- `TestFile_N` (translator/file_test.go:85-232). -/
example :
    let n (f : File) (k : Int64) (args : List Any) := (f.xn anyEnv (fun _ => false) [] b!"one apple" b!"%d apples" k args).1
    let es : GMap Entry := [(key [] b!"one apple", { strN := [b!"%d 个苹果"] })]
    let h (v : Str) : Option (GMap Str) := some [(hPluralForms, v)]
    n {} 1 [] = .ok b!"one apple" ∧
    n {} 2 [] = .ok b!"%d apples" ∧
    n {} 1 [.int 1] = .ok b!"one apple" ∧
    n {} 2 [.int 2] = .ok b!"2 apples" ∧
    n { entries := es } 1 [] = .ok b!"one apple" ∧
    n { entries := es } 2 [.int 2] = .ok b!"2 apples" ∧
    n { entries := es, headers := h b!"nplurals=1;plural=0;" } 1 [] = .ok b!"%d 个苹果" ∧
    n { entries := es, headers := h b!"nplurals=1;plural=0;" } 2 [] = .ok b!"%d 个苹果" ∧
    n { entries := es, headers := h b!"nplurals=1;plural=0;" } 1 [.int 1] = .ok b!"1 个苹果" ∧
    n { entries := es, headers := h b!"nplurals=1;plural=1;" } 1 [.int 1] = .ok b!"one apple" := by decide +kernel

/-- What `readEntry` returns: the entry and whether there is an error. -/
def returned : ReadRes → Option Entry × Bool
  | .eof e => (some e, true)
  | .entry e _ => (some e, false)
  | .bad _ => (none, true)
  | .panic => (none, false)

/-- `Test_readEntry` (translator/po_test.go:97-229). -/
example : ∀ t ∈ ([
    ([], some {}, true),
    ([b!""], some {}, true),
    ([b!"msgid \"hello\"", b!"msgstr \"你好\""], some { id := b!"hello", str := b!"你好" }, true),
    ([b!"msgid \"hello\"", b!"msgstr[0] \"你好\""], some { id := b!"hello", strN := [b!"你好"] }, true),
    ([b!"msgid \"hello\"", b!"msgstr \"你好\"", b!"msgid \"entry 2"], some { id := b!"hello", str := b!"你好" }, false),
    ([b!"# bla bla", b!"msgstr \"你好\""], some { cmts := [b!"# bla bla"], id := b!"", str := b!"你好" }, true),
    ([b!"# bla bla", b!"msgstr \"你好\"", b!"#abc"], some { cmts := [b!"# bla bla"], id := b!"", str := b!"你好" }, false),
    ([b!"msgctxt \"ctxt\"", b!"msgstr \"你好\""], some { ctxt := b!"ctxt", str := b!"你好" }, true),
    ([b!"msgctxt ctxt", b!"msgstr \"你好\""], none, true),
    ([b!"msgctxt \"ctxt\"", b!"msgctxt \"你好\""], some { ctxt := b!"ctxt" }, false),
    ([b!"msgid_plural \"ctxt\"", b!"msgid_plural \"你好\""], some { id2 := b!"ctxt", isPlural := true }, false),
    ([b!"msgid_plural id2", b!"msgid_plural \"你好\""], none, true),
    ([b!"msgid id2", b!"msgid_plural \"你好\""], none, true),
    ([b!"msgstr[0] \"str0\"", b!"msgstr[1] \"str1\""], some { strN := [b!"str0", b!"str1"] }, true),
    ([b!"msgstr[0] \"str0\"", b!"msgstr \"str\""], some { strN := [b!"str0"] }, false),
    ([b!"msgstr[0] str0"], none, true),
    ([b!"msgstr \"str\""], some { str := b!"str" }, true),
    ([b!"msgstr str"], none, true),
    ([b!"msgstr \"str\"", b!"msgstr[0] \"str0\""], some { str := b!"str" }, false),
    ([b!"msgctxt \"line1\"", b!"\"line2\""], some { ctxt := b!"line1line2" }, true),
    ([b!"msgid \"line1\"", b!"\"line2\""], some { id := b!"line1line2" }, true),
    ([b!"msgid_plural \"line1\"", b!"\"line2\""], some { id2 := b!"line1line2", isPlural := true }, true),
    ([b!"msgstr \"line1\"", b!"\"line2\""], some { str := b!"line1line2" }, true),
    ([b!"msgstr[0] \"line1\"", b!"\"line2\""], some { strN := [b!"line1line2"] }, true),
    ([b!"msgctxt \"line1\"", b!"\"line2"], none, true),
    ([b!"msgctxt \"line1\"", b!"line2"], none, true),
    ([b!"msgid \"\"", b!"msgstr \"\"", b!"\"Project-Id-Version: t\\n\""], some { str := b!"Project-Id-Version: t\n" }, true),
    ([b!"#, c-format", b!"msgctxt \"Project|\"", b!"msgid \"Open One\"", b!"msgid_plural \"Open %d\"", b!"msgstr[0] \"打开 %d 个工程\""], some { cmts := [b!"#, c-format"], ctxt := b!"Project|", id := b!"Open One", id2 := b!"Open %d", isPlural := true, strN := [b!"打开 %d 个工程"] }, true),
    ([b!"#, c-format", b!"msgctxt \"Project|\"", b!"msgid \"Open One\"", b!"msgid_plural \"Open %d\"", b!"msgstr \"打开\"", b!"msgstr[0] \"打开 %d 个工程\""], some { cmts := [b!"#, c-format"], ctxt := b!"Project|", id := b!"Open One", id2 := b!"Open %d", isPlural := true, str := b!"打开" }, false)] : List (List Str × Option Entry × Bool)),
    returned ((newReader t.1).readEntry {} .start) = t.2 := by decide +kernel

/-- `TestReadPo` (translator/po_test.go:231-321). -/
example : readPo [] = .err ∧
    readPo b!"#: lang_test.go:22 lang_test.go:23 main_test.go:37\nmsgid \"Hello, World\"\nmsgstr \"你好，世界\"" =
      .ok { entries := [(key [] b!"Hello, World", { cmts := [b!"#: lang_test.go:22 lang_test.go:23 main_test.go:37"], id := b!"Hello, World", str := b!"你好，世界" })] } ∧
    readPo b!"#: lang_test.go:22 lang_test.go:23 main_test.go:37\nmsgid \"Hello, World\"\nmsgstr \"你好，世界\"\n\nmsgid \"one apple\"\nmsgid_plural \"%d apples\"\nmsgstr[0] \"%d 个苹果\"\n" =
      .ok { entries := [(key [] b!"Hello, World", { cmts := [b!"#: lang_test.go:22 lang_test.go:23 main_test.go:37"], id := b!"Hello, World", str := b!"你好，世界" }),
        (key [] b!"one apple", { id := b!"one apple", id2 := b!"%d apples", isPlural := true, strN := [b!"%d 个苹果"] })] } ∧
    readPo b!"#: lang_test.go:22 lang_test.go:23 main_test.go:37\nmsgid \"Hello, World\"\nmsgstr \"你好，世界\"\n\nmsgid \"one apple\"\nmsgid_plural \"%d apples\"\nmsgstr[0] \"%d 个苹果\"\n\nmsgctxt \"verb\"\nmsgid \"Post\"\nmsgstr \"发布\"\n" =
      .ok { entries := [(key [] b!"Hello, World", { cmts := [b!"#: lang_test.go:22 lang_test.go:23 main_test.go:37"], id := b!"Hello, World", str := b!"你好，世界" }),
        (key [] b!"one apple", { id := b!"one apple", id2 := b!"%d apples", isPlural := true, strN := [b!"%d 个苹果"] }),
        (key b!"verb" b!"Post", { ctxt := b!"verb", id := b!"Post", str := b!"发布" })] } ∧
    readPo b!"msgid hallo" = .err := by decide +kernel

/-- `strconv.IsPrint` on the characters of the tests. -/
def printable (r : Nat) : Bool := 32 ≤ r && r ≠ 127

/-- The entries are in an order in which `SortedEntry` may return them. -/
def sorted (es : List Entry) : Prop := es.Pairwise fun a b => ¬ b.sortKey < a.sortKey

instance (es : List Entry) : Decidable (sorted es) := inferInstanceAs (Decidable (List.Pairwise _ _))

/-- `TestFile_SaveAsPo` (translator/po_test.go:9-95). -/
example : ∀ t ∈ ([
    ([],
      b!""),
    ([{ id := b!"", str := b!"Project-Id-Version: MyProject\n" }],
      b!"msgid \"\"\nmsgstr \"Project-Id-Version: MyProject\\n\"\n\n"),
    ([{ id := b!"", str := b!"Project-Id-Version: MyProject\nLanguage: zh_CN\nContent-Type: text/plain; charset=UTF-8\nContent-Transfer-Encoding: 8bit\nPlural-Forms: nplurals=1; plural=0;\n" }],
      b!"msgid \"\"\nmsgstr \"\"\n\"Project-Id-Version: MyProject\\n\"\n\"Language: zh_CN\\n\"\n\"Content-Type: text/plain; charset=UTF-8\\n\"\n\"Content-Transfer-Encoding: 8bit\\n\"\n\"Plural-Forms: nplurals=1; plural=0;\\n\"\n\n"),
    ([{ cmts := [b!"# translators comment", b!"#: path/to/source"], id := b!"hello", str := b!"你好" }],
      b!"# translators comment\n#: path/to/source\nmsgid \"hello\"\nmsgstr \"你好\"\n\n"),
    ([{ id := b!"", str := b!"Project-Id-Version: MyProject\n" }, { cmts := [b!"# translators comment", b!"#: path/to/source"], ctxt := b!"ctx", id := b!"one apple", id2 := b!"%d apples", isPlural := true, strN := [b!"%d 个苹果"] }],
      b!"msgid \"\"\nmsgstr \"Project-Id-Version: MyProject\\n\"\n\n# translators comment\n#: path/to/source\nmsgctxt \"ctx\"\nmsgid \"one apple\"\nmsgid_plural \"%d apples\"\nmsgstr[0] \"%d 个苹果\"\n\n")] : List (List Entry × Str)),
    sorted t.1 ∧ savePo printable t.1 = t.2 := by decide +kernel

/-- `TestFile_SaveAsPot` (translator/pot_test.go:17-141). -/
example : ∀ t ∈ ([
    ([],
      b!""),
    ([{ id := b!"", str := b!"Project-Id-Version: MyProject\nLanguage: zh_CN\nContent-Type: text/plain; charset=UTF-8\nContent-Transfer-Encoding: 8bit\nPlural-Forms: nplurals=1; plural=0;\n" }],
      b!"msgid \"\"\nmsgstr \"\"\n\"Project-Id-Version: MyProject\\n\"\n\"Language: zh_CN\\n\"\n\"Content-Type: text/plain; charset=UTF-8\\n\"\n\"Content-Transfer-Encoding: 8bit\\n\"\n\"Plural-Forms: nplurals=1; plural=0;\\n\"\n\n"),
    ([{ cmts := [b!"# translators comment", b!"#: path/to/source"], id := b!"hello", str := b!"你好" }],
      b!"# translators comment\n#: path/to/source\nmsgid \"hello\"\nmsgstr \"\"\n\n"),
    ([{ cmts := [b!"# translators comment", b!"#: path/to/source"], ctxt := b!"ctx", id := b!"one apple", id2 := b!"%d apples", isPlural := true, strN := [b!"%d 个苹果"] }],
      b!"# translators comment\n#: path/to/source\nmsgctxt \"ctx\"\nmsgid \"one apple\"\nmsgid_plural \"%d apples\"\nmsgstr[0] \"\"\nmsgstr[1] \"\"\n\n"),
    ([{ id := b!"", str := b!"Project-Id-Version: MyProject\nLanguage: zh_CN\nContent-Type: text/plain; charset=UTF-8\nContent-Transfer-Encoding: 8bit\nPlural-Forms: nplurals=1; plural=0;\n" }, { cmts := [b!"# translators comment", b!"#: path/to/source"], ctxt := b!"ctx", id := b!"one apple", id2 := b!"%d apples", isPlural := true, strN := [b!"%d 个苹果"] }],
      b!"msgid \"\"\nmsgstr \"\"\n\"Project-Id-Version: MyProject\\n\"\n\"Language: zh_CN\\n\"\n\"Content-Type: text/plain; charset=UTF-8\\n\"\n\"Content-Transfer-Encoding: 8bit\\n\"\n\"Plural-Forms: nplurals=1; plural=0;\\n\"\n\n# translators comment\n#: path/to/source\nmsgctxt \"ctx\"\nmsgid \"one apple\"\nmsgid_plural \"%d apples\"\nmsgstr[0] \"\"\nmsgstr[1] \"\"\n\n"),
    ([{ cmts := [b!"#: test.go:42"], id := b!"%d 个苹果", id2 := b!"", isPlural := true }],
      b!"#: test.go:42\nmsgid \"%d 个苹果\"\nmsgid_plural \"\"\nmsgstr[0] \"\"\nmsgstr[1] \"\"\n\n")] : List (List Entry × Str)),
    sorted t.1 ∧ savePot printable t.1 = t.2 := by decide +kernel

/-- testdata/zh_CN.po -/
def zhPo : Str := [
    b!"msgid \"\"\n",
    b!"msgstr \"\"\n",
    b!"\"Project-Id-Version: testdata of github.com/youthlin/t\\n\"\n",
    b!"\"POT-Creation-Date: 2021-08-24 13:45+0800\\n\"\n",
    b!"\"PO-Revision-Date: 2021-08-24 13:45+0800\\n\"\n",
    b!"\"Last-Translator: Lin <youthlinchen@outlook.com>\\n\"\n",
    b!"\"Language-Team: https://youthlin.com/\\n\"\n",
    b!"\"Language: zh_CN\\n\"\n",
    b!"\"MIME-Version: 1.0\\n\"\n",
    b!"\"Content-Type: text/plain; charset=UTF-8\\n\"\n",
    b!"\"Content-Transfer-Encoding: 8bit\\n\"\n",
    b!"\"X-Generator: Poedit 2.4.2\\n\"\n",
    b!"\"X-Poedit-Basepath: ..\\n\"\n",
    b!"\"Plural-Forms: nplurals=1; plural=0;\\n\"\n",
    b!"\"X-Poedit-KeywordsList: T:1;N:1,2;N64:1,2;X:2,1c;XN:2,3,1c;XN64:2,3,1c\\n\"\n",
    b!"\"X-Poedit-SourceCharset: UTF-8\\n\"\n",
    b!"\"X-Poedit-SearchPath-0: .\\n\"\n",
    b!"\"X-Poedit-SearchPathExcluded-0: cmd\\n\"\n",
    b!"\n",
    b!"#: example_test.go:28 example_test.go:40 example_test.go:56 example_test.go:67\n",
    b!"#: example_test.go:72 example_test.go:114 example_test.go:116\n",
    b!"#: example_test.go:128\n",
    b!"msgid \"Hello, World\"\n",
    b!"msgstr \"你好，世界\"\n",
    b!"\n",
    b!"#: example_test.go:96\n",
    b!"msgid \"你好，世界\"\n",
    b!"msgstr \"\"\n",
    b!"\n",
    b!"#: example_test.go:129\n",
    b!"#, c-format\n",
    b!"msgid \"Hello, %s\"\n",
    b!"msgstr \"你好，%s\"\n",
    b!"\n",
    b!"#: example_test.go:130 example_test.go:131 example_test.go:132\n",
    b!"#: example_test.go:133\n",
    b!"#, c-format\n",
    b!"msgid \"One apple\"\n",
    b!"msgid_plural \"%d apples\"\n",
    b!"msgstr[0] \"%d 个苹果\"\n",
    b!"\n",
    b!"#: example_test.go:135\n",
    b!"msgctxt \"File|\"\n",
    b!"msgid \"Open\"\n",
    b!"msgstr \"打开文件\"\n",
    b!"\n",
    b!"#: example_test.go:136\n",
    b!"msgctxt \"Project|\"\n",
    b!"msgid \"Open\"\n",
    b!"msgstr \"打开工程\"\n",
    b!"\n",
    b!"#: example_test.go:137\n",
    b!"#, c-format\n",
    b!"msgctxt \"File|\"\n",
    b!"msgid \"Open One\"\n",
    b!"msgid_plural \"Open %d\"\n",
    b!"msgstr[0] \"打开 %d 个文件\"\n",
    b!"\n",
    b!"#: example_test.go:138 example_test.go:139\n",
    b!"#, c-format\n",
    b!"msgctxt \"Project|\"\n",
    b!"msgid \"Open One\"\n",
    b!"msgid_plural \"Open %d\"\n",
    b!"msgstr[0] \"打开 %d 个工程\"\n"].flatten

/-- testdata/zh_CN.mo -/
def zhMo : Str := [
    222, 18, 4, 149, 0, 0, 0, 0, 8, 0, 0, 0, 28, 0, 0, 0, 92, 0, 0, 0, 11, 0, 0, 0,
    156, 0, 0, 0, 0, 0, 0, 0, 200, 0, 0, 0, 10, 0, 0, 0, 201, 0, 0, 0, 22, 0, 0, 0,
    212, 0, 0, 0, 9, 0, 0, 0, 235, 0, 0, 0, 12, 0, 0, 0, 245, 0, 0, 0, 19, 0, 0, 0,
    2, 1, 0, 0, 13, 0, 0, 0, 22, 1, 0, 0, 25, 0, 0, 0, 36, 1, 0, 0, 17, 2, 0, 0,
    62, 1, 0, 0, 12, 0, 0, 0, 80, 3, 0, 0, 19, 0, 0, 0, 93, 3, 0, 0, 11, 0, 0, 0,
    113, 3, 0, 0, 15, 0, 0, 0, 125, 3, 0, 0, 12, 0, 0, 0, 141, 3, 0, 0, 12, 0, 0, 0,
    154, 3, 0, 0, 19, 0, 0, 0, 167, 3, 0, 0, 1, 0, 0, 0, 0, 0, 0, 0, 2, 0, 0, 0,
    5, 0, 0, 0, 7, 0, 0, 0, 3, 0, 0, 0, 6, 0, 0, 0, 4, 0, 0, 0, 0, 0, 0, 0,
    8, 0, 0, 0, 0, 0, 0, 0, 0, 70, 105, 108, 101, 124, 4, 79, 112, 101, 110, 0, 70, 105, 108, 101,
    124, 4, 79, 112, 101, 110, 32, 79, 110, 101, 0, 79, 112, 101, 110, 32, 37, 100, 0, 72, 101, 108, 108, 111,
    44, 32, 37, 115, 0, 72, 101, 108, 108, 111, 44, 32, 87, 111, 114, 108, 100, 0, 79, 110, 101, 32, 97, 112,
    112, 108, 101, 0, 37, 100, 32, 97, 112, 112, 108, 101, 115, 0, 80, 114, 111, 106, 101, 99, 116, 124, 4, 79,
    112, 101, 110, 0, 80, 114, 111, 106, 101, 99, 116, 124, 4, 79, 112, 101, 110, 32, 79, 110, 101, 0, 79, 112,
    101, 110, 32, 37, 100, 0, 80, 114, 111, 106, 101, 99, 116, 45, 73, 100, 45, 86, 101, 114, 115, 105, 111, 110,
    58, 32, 116, 101, 115, 116, 100, 97, 116, 97, 32, 111, 102, 32, 103, 105, 116, 104, 117, 98, 46, 99, 111, 109,
    47, 121, 111, 117, 116, 104, 108, 105, 110, 47, 116, 10, 80, 79, 45, 82, 101, 118, 105, 115, 105, 111, 110, 45,
    68, 97, 116, 101, 58, 32, 50, 48, 50, 49, 45, 48, 56, 45, 50, 52, 32, 49, 51, 58, 52, 53, 43, 48,
    56, 48, 48, 10, 76, 97, 115, 116, 45, 84, 114, 97, 110, 115, 108, 97, 116, 111, 114, 58, 32, 76, 105, 110,
    32, 60, 121, 111, 117, 116, 104, 108, 105, 110, 99, 104, 101, 110, 64, 111, 117, 116, 108, 111, 111, 107, 46, 99,
    111, 109, 62, 10, 76, 97, 110, 103, 117, 97, 103, 101, 45, 84, 101, 97, 109, 58, 32, 104, 116, 116, 112, 115,
    58, 47, 47, 121, 111, 117, 116, 104, 108, 105, 110, 46, 99, 111, 109, 47, 10, 76, 97, 110, 103, 117, 97, 103,
    101, 58, 32, 122, 104, 95, 67, 78, 10, 77, 73, 77, 69, 45, 86, 101, 114, 115, 105, 111, 110, 58, 32, 49,
    46, 48, 10, 67, 111, 110, 116, 101, 110, 116, 45, 84, 121, 112, 101, 58, 32, 116, 101, 120, 116, 47, 112, 108,
    97, 105, 110, 59, 32, 99, 104, 97, 114, 115, 101, 116, 61, 85, 84, 70, 45, 56, 10, 67, 111, 110, 116, 101,
    110, 116, 45, 84, 114, 97, 110, 115, 102, 101, 114, 45, 69, 110, 99, 111, 100, 105, 110, 103, 58, 32, 56, 98,
    105, 116, 10, 88, 45, 71, 101, 110, 101, 114, 97, 116, 111, 114, 58, 32, 80, 111, 101, 100, 105, 116, 32, 50,
    46, 52, 46, 50, 10, 88, 45, 80, 111, 101, 100, 105, 116, 45, 66, 97, 115, 101, 112, 97, 116, 104, 58, 32,
    46, 46, 10, 80, 108, 117, 114, 97, 108, 45, 70, 111, 114, 109, 115, 58, 32, 110, 112, 108, 117, 114, 97, 108,
    115, 61, 49, 59, 32, 112, 108, 117, 114, 97, 108, 61, 48, 59, 10, 88, 45, 80, 111, 101, 100, 105, 116, 45,
    75, 101, 121, 119, 111, 114, 100, 115, 76, 105, 115, 116, 58, 32, 84, 58, 49, 59, 78, 58, 49, 44, 50, 59,
    78, 54, 52, 58, 49, 44, 50, 59, 88, 58, 50, 44, 49, 99, 59, 88, 78, 58, 50, 44, 51, 44, 49, 99,
    59, 88, 78, 54, 52, 58, 50, 44, 51, 44, 49, 99, 10, 88, 45, 80, 111, 101, 100, 105, 116, 45, 83, 111,
    117, 114, 99, 101, 67, 104, 97, 114, 115, 101, 116, 58, 32, 85, 84, 70, 45, 56, 10, 88, 45, 80, 111, 101,
    100, 105, 116, 45, 83, 101, 97, 114, 99, 104, 80, 97, 116, 104, 45, 48, 58, 32, 46, 10, 88, 45, 80, 111,
    101, 100, 105, 116, 45, 83, 101, 97, 114, 99, 104, 80, 97, 116, 104, 69, 120, 99, 108, 117, 100, 101, 100, 45,
    48, 58, 32, 99, 109, 100, 10, 0, 230, 137, 147, 229, 188, 128, 230, 150, 135, 228, 187, 182, 0, 230, 137, 147,
    229, 188, 128, 32, 37, 100, 32, 228, 184, 170, 230, 150, 135, 228, 187, 182, 0, 228, 189, 160, 229, 165, 189, 239,
    188, 140, 37, 115, 0, 228, 189, 160, 229, 165, 189, 239, 188, 140, 228, 184, 150, 231, 149, 140, 0, 37, 100, 32,
    228, 184, 170, 232, 139, 185, 230, 158, 156, 0, 230, 137, 147, 229, 188, 128, 229, 183, 165, 231, 168, 139, 0, 230,
    137, 147, 229, 188, 128, 32, 37, 100, 32, 228, 184, 170, 229, 183, 165, 231, 168, 139, 0]

/-- testdata/zh_CN_save.mo -/
def zhSaveMo : Str := [
    222, 18, 4, 149, 0, 0, 0, 0, 8, 0, 0, 0, 75, 0, 0, 0, 139, 0, 0, 0, 0, 0, 0, 0,
    0, 0, 0, 0, 43, 0, 0, 0, 84, 104, 105, 115, 70, 105, 108, 101, 73, 115, 71, 101, 110, 101, 114, 97,
    116, 101, 66, 121, 58, 103, 105, 116, 104, 117, 98, 46, 99, 111, 109, 47, 121, 111, 117, 116, 104, 108, 105, 110,
    47, 116, 0, 0, 0, 0, 0, 203, 0, 0, 0, 9, 0, 0, 0, 204, 0, 0, 0, 12, 0, 0, 0, 214,
    0, 0, 0, 19, 0, 0, 0, 227, 0, 0, 0, 10, 0, 0, 0, 247, 0, 0, 0, 22, 0, 0, 0, 2,
    1, 0, 0, 13, 0, 0, 0, 25, 1, 0, 0, 25, 0, 0, 0, 39, 1, 0, 0, 17, 2, 0, 0, 65,
    1, 0, 0, 11, 0, 0, 0, 83, 3, 0, 0, 15, 0, 0, 0, 95, 3, 0, 0, 12, 0, 0, 0, 111,
    3, 0, 0, 12, 0, 0, 0, 124, 3, 0, 0, 19, 0, 0, 0, 137, 3, 0, 0, 12, 0, 0, 0, 157,
    3, 0, 0, 19, 0, 0, 0, 170, 3, 0, 0, 0, 72, 101, 108, 108, 111, 44, 32, 37, 115, 0, 72, 101,
    108, 108, 111, 44, 32, 87, 111, 114, 108, 100, 0, 79, 110, 101, 32, 97, 112, 112, 108, 101, 0, 37, 100, 32,
    97, 112, 112, 108, 101, 115, 0, 70, 105, 108, 101, 124, 4, 79, 112, 101, 110, 0, 70, 105, 108, 101, 124, 4,
    79, 112, 101, 110, 32, 79, 110, 101, 0, 79, 112, 101, 110, 32, 37, 100, 0, 80, 114, 111, 106, 101, 99, 116,
    124, 4, 79, 112, 101, 110, 0, 80, 114, 111, 106, 101, 99, 116, 124, 4, 79, 112, 101, 110, 32, 79, 110, 101,
    0, 79, 112, 101, 110, 32, 37, 100, 0, 80, 114, 111, 106, 101, 99, 116, 45, 73, 100, 45, 86, 101, 114, 115,
    105, 111, 110, 58, 32, 116, 101, 115, 116, 100, 97, 116, 97, 32, 111, 102, 32, 103, 105, 116, 104, 117, 98, 46,
    99, 111, 109, 47, 121, 111, 117, 116, 104, 108, 105, 110, 47, 116, 10, 80, 79, 45, 82, 101, 118, 105, 115, 105,
    111, 110, 45, 68, 97, 116, 101, 58, 32, 50, 48, 50, 49, 45, 48, 56, 45, 50, 52, 32, 49, 51, 58, 52,
    53, 43, 48, 56, 48, 48, 10, 76, 97, 115, 116, 45, 84, 114, 97, 110, 115, 108, 97, 116, 111, 114, 58, 32,
    76, 105, 110, 32, 60, 121, 111, 117, 116, 104, 108, 105, 110, 99, 104, 101, 110, 64, 111, 117, 116, 108, 111, 111,
    107, 46, 99, 111, 109, 62, 10, 76, 97, 110, 103, 117, 97, 103, 101, 45, 84, 101, 97, 109, 58, 32, 104, 116,
    116, 112, 115, 58, 47, 47, 121, 111, 117, 116, 104, 108, 105, 110, 46, 99, 111, 109, 47, 10, 76, 97, 110, 103,
    117, 97, 103, 101, 58, 32, 122, 104, 95, 67, 78, 10, 77, 73, 77, 69, 45, 86, 101, 114, 115, 105, 111, 110,
    58, 32, 49, 46, 48, 10, 67, 111, 110, 116, 101, 110, 116, 45, 84, 121, 112, 101, 58, 32, 116, 101, 120, 116,
    47, 112, 108, 97, 105, 110, 59, 32, 99, 104, 97, 114, 115, 101, 116, 61, 85, 84, 70, 45, 56, 10, 67, 111,
    110, 116, 101, 110, 116, 45, 84, 114, 97, 110, 115, 102, 101, 114, 45, 69, 110, 99, 111, 100, 105, 110, 103, 58,
    32, 56, 98, 105, 116, 10, 88, 45, 71, 101, 110, 101, 114, 97, 116, 111, 114, 58, 32, 80, 111, 101, 100, 105,
    116, 32, 50, 46, 52, 46, 50, 10, 88, 45, 80, 111, 101, 100, 105, 116, 45, 66, 97, 115, 101, 112, 97, 116,
    104, 58, 32, 46, 46, 10, 80, 108, 117, 114, 97, 108, 45, 70, 111, 114, 109, 115, 58, 32, 110, 112, 108, 117,
    114, 97, 108, 115, 61, 49, 59, 32, 112, 108, 117, 114, 97, 108, 61, 48, 59, 10, 88, 45, 80, 111, 101, 100,
    105, 116, 45, 75, 101, 121, 119, 111, 114, 100, 115, 76, 105, 115, 116, 58, 32, 84, 58, 49, 59, 78, 58, 49,
    44, 50, 59, 78, 54, 52, 58, 49, 44, 50, 59, 88, 58, 50, 44, 49, 99, 59, 88, 78, 58, 50, 44, 51,
    44, 49, 99, 59, 88, 78, 54, 52, 58, 50, 44, 51, 44, 49, 99, 10, 88, 45, 80, 111, 101, 100, 105, 116,
    45, 83, 111, 117, 114, 99, 101, 67, 104, 97, 114, 115, 101, 116, 58, 32, 85, 84, 70, 45, 56, 10, 88, 45,
    80, 111, 101, 100, 105, 116, 45, 83, 101, 97, 114, 99, 104, 80, 97, 116, 104, 45, 48, 58, 32, 46, 10, 88,
    45, 80, 111, 101, 100, 105, 116, 45, 83, 101, 97, 114, 99, 104, 80, 97, 116, 104, 69, 120, 99, 108, 117, 100,
    101, 100, 45, 48, 58, 32, 99, 109, 100, 10, 0, 228, 189, 160, 229, 165, 189, 239, 188, 140, 37, 115, 0, 228,
    189, 160, 229, 165, 189, 239, 188, 140, 228, 184, 150, 231, 149, 140, 0, 37, 100, 32, 228, 184, 170, 232, 139, 185,
    230, 158, 156, 0, 230, 137, 147, 229, 188, 128, 230, 150, 135, 228, 187, 182, 0, 230, 137, 147, 229, 188, 128, 32,
    37, 100, 32, 228, 184, 170, 230, 150, 135, 228, 187, 182, 0, 230, 137, 147, 229, 188, 128, 229, 183, 165, 231, 168,
    139, 0, 230, 137, 147, 229, 188, 128, 32, 37, 100, 32, 228, 184, 170, 229, 183, 165, 231, 168, 139, 0]

/-- testdata/messages.pot -/
def messagesPot : Str := [
    b!"# SOME DESCRIPTIVE TITLE.\n",
    b!"# Copyright (C) YEAR THE PACKAGE'S COPYRIGHT HOLDER\n",
    b!"# This file is distributed under the same license as the PACKAGE package.\n",
    b!"# FIRST AUTHOR <EMAIL@ADDRESS>, YEAR.\n",
    b!"#\n",
    b!"#, fuzzy\n",
    b!"msgid \"\"\n",
    b!"msgstr \"\"\n",
    b!"\"Project-Id-Version: PACKAGE VERSION\\n\"\n",
    b!"\"Report-Msgid-Bugs-To: \\n\"\n",
    b!"\"POT-Creation-Date: 2024-01-05 16:04:11+0800\\n\"\n",
    b!"\"PO-Revision-Date: YEAR-MO-DA HO:MI+ZONE\\n\"\n",
    b!"\"Last-Translator: FULL NAME <EMAIL@ADDRESS>\\n\"\n",
    b!"\"Language-Team: LANGUAGE <LL@li.org>\\n\"\n",
    b!"\"Language: \\n\"\n",
    b!"\"MIME-Version: 1.0\\n\"\n",
    b!"\"Content-Type: text/plain; charset=UTF-8\\n\"\n",
    b!"\"Content-Transfer-Encoding: 8bit\\n\"\n",
    b!"\"Plural-Forms: nplurals=INTEGER; plural=EXPRESSION;\\n\"\n",
    b!"\"X-Created-By: xtpl(https://github.com/pub-go/tpl/tree/main/cmd/xtpl)\\n\"\n",
    b!"\"X-xTpl-Path: .\\n\"\n",
    b!"\"X-xTpl-Pattern: .*\\\\.html\\n\"\n",
    b!"\"X-xTpl-Keywords: T;N:1,2;N64:1,2;X:1c,2;XN:1c,2,3;XN64:1c,2,3;__;_n:1,2;_x:1c,2;_xn:1c,2,3\\n\"\n",
    b!"\"X-xTpl-Output: testdata/messages.pot\\n\"\n",
    b!"\n",
    b!"#: testdata/index.html:11:23\n",
    b!"msgid \"And you?\"\n",
    b!"msgstr \"\"\n",
    b!"\n",
    b!"#: testdata/index.html:12:20\n",
    b!"msgid \"Hello, %s\"\n",
    b!"msgstr \"\"\n",
    b!"\n",
    b!"#: testdata/index.html:9:21\n",
    b!"msgid \"How are you?\"\n",
    b!"msgstr \"\"\n",
    b!"\n",
    b!"#: testdata/index.html:15:20\n",
    b!"msgid \"One Apple\"\n",
    b!"msgid_plural \"%d Apples\"\n",
    b!"msgstr[0] \"\"\n",
    b!"msgstr[1] \"\"\n",
    b!"\n",
    b!"#: testdata/index.html:6:24\n",
    b!"msgid \"Title\"\n",
    b!"msgstr \"\"\n",
    b!"\n",
    b!"#: testdata/index.html:16:28\n",
    b!"msgctxt \"ctx\"\n",
    b!"msgid \"One Book\"\n",
    b!"msgid_plural \"%d Books\"\n",
    b!"msgstr[0] \"\"\n",
    b!"msgstr[1] \"\"\n",
    b!"\n",
    b!"#: testdata/index.html:13:32\n",
    b!"msgctxt \"post new\"\n",
    b!"msgid \"Post\"\n",
    b!"msgstr \"\"\n",
    b!"\n",
    b!"#: testdata/index.html:14:29\n",
    b!"msgctxt \"posts\"\n",
    b!"msgid \"Post\"\n",
    b!"msgstr \"\"\n",
    b!"\n"].flatten

/-- testdata/messages.new.pot -/
def messagesNewPot : Str := [
    b!"# SOME DESCRIPTIVE TITLE.\n",
    b!"# Copyright (C) YEAR THE PACKAGE'S COPYRIGHT HOLDER\n",
    b!"# This file is distributed under the same license as the PACKAGE package.\n",
    b!"# FIRST AUTHOR <EMAIL@ADDRESS>, YEAR.\n",
    b!"#\n",
    b!"#, fuzzy\n",
    b!"msgid \"\"\n",
    b!"msgstr \"\"\n",
    b!"\"Project-Id-Version: PACKAGE VERSION\\n\"\n",
    b!"\"Report-Msgid-Bugs-To: \\n\"\n",
    b!"\"POT-Creation-Date: 2024-01-05 16:04:11+0800\\n\"\n",
    b!"\"PO-Revision-Date: YEAR-MO-DA HO:MI+ZONE\\n\"\n",
    b!"\"Last-Translator: FULL NAME <EMAIL@ADDRESS>\\n\"\n",
    b!"\"Language-Team: LANGUAGE <LL@li.org>\\n\"\n",
    b!"\"Language: \\n\"\n",
    b!"\"MIME-Version: 1.0\\n\"\n",
    b!"\"Content-Type: text/plain; charset=UTF-8\\n\"\n",
    b!"\"Content-Transfer-Encoding: 8bit\\n\"\n",
    b!"\"Plural-Forms: nplurals=INTEGER; plural=EXPRESSION;\\n\"\n",
    b!"\"X-Created-By: xtpl(https://github.com/pub-go/tpl/tree/main/cmd/xtpl)\\n\"\n",
    b!"\"X-xTpl-Path: .\\n\"\n",
    b!"\"X-xTpl-Pattern: .*\\\\.html\\n\"\n",
    b!"\"X-xTpl-Keywords: T;N:1,2;N64:1,2;X:1c,2;XN:1c,2,3;XN64:1c,2,3;__;_n:1,2;_x:1c,2;_xn:1c,2,3\\n\"\n",
    b!"\"X-xTpl-Output: testdata/messages.pot\\n\"\n",
    b!"\n",
    b!"#: testdata/index.html:6:24\n",
    b!"msgid \"Title\"\n",
    b!"msgstr \"\"\n",
    b!"\n",
    b!"#: testdata/index.html:9:21\n",
    b!"msgid \"How are you?\"\n",
    b!"msgstr \"\"\n",
    b!"\n",
    b!"#: testdata/index.html:11:23\n",
    b!"msgid \"And you?\"\n",
    b!"msgstr \"\"\n",
    b!"\n",
    b!"#: testdata/index.html:12:20\n",
    b!"msgid \"Hello, %s\"\n",
    b!"msgstr \"\"\n",
    b!"\n",
    b!"#: testdata/index.html:13:32\n",
    b!"msgctxt \"post new\"\n",
    b!"msgid \"Post\"\n",
    b!"msgstr \"\"\n",
    b!"\n",
    b!"#: testdata/index.html:14:29\n",
    b!"msgctxt \"posts\"\n",
    b!"msgid \"Post\"\n",
    b!"msgstr \"\"\n",
    b!"\n",
    b!"#: testdata/index.html:15:20\n",
    b!"msgid \"One Apple\"\n",
    b!"msgid_plural \"%d Apples\"\n",
    b!"msgstr[0] \"\"\n",
    b!"msgstr[1] \"\"\n",
    b!"\n",
    b!"#: testdata/index.html:16:28\n",
    b!"msgctxt \"ctx\"\n",
    b!"msgid \"One Book\"\n",
    b!"msgid_plural \"%d Books\"\n",
    b!"msgstr[0] \"\"\n",
    b!"msgstr[1] \"\"\n",
    b!"\n"].flatten

/-- Insertion by sort key. -/
def insertEntry (e : Entry) : List Entry → List Entry
  | [] => [e]
  | x :: l => if e.sortKey ≤ x.sortKey then e :: x :: l else x :: insertEntry e l

/-- The entries that were read, in the order of `SortedEntry` (the sort keys of the samples are distinct). -/
def inOrder : Res File → List Entry
  | .ok f => f.entries.vals.foldr insertEntry []
  | _ => []

/-- `TestSortedEntry` (translator/file_test.go:234-253): the text in testdata/messages.new.pot is the one the
program wrote. -/
example : savePot printable (inOrder (readPot messagesPot)) = messagesNewPot ∧
    (inOrder (readPot messagesPot)).Pairwise (fun a b => a.sortKey < b.sortKey) := by decide +kernel

/-- `TestReadMo` (translator/mo_test.go:10-37): testdata/zh_CN_save.mo is the image the program wrote. -/
example : saveMo (inOrder (readMo zhMo)) = zhSaveMo ∧ inOrder (readMo zhSaveMo) = inOrder (readMo zhMo) ∧
    (inOrder (readMo zhMo)).length = 8 ∧
    (inOrder (readMo zhMo)).Pairwise (fun a b => a.sortKey < b.sortKey) := by decide +kernel

end Verif.Tests
