import Verif.Model.World
import Verif.Model.Po
/-!
# The translations of the command (cmd/xtemplate/main.go:22-35, cmd/xtemplate/lang/zh_CN.po)

The file `lang/zh_CN.po` of the command, line by line, the embedded file system with this file in it, and `initTranslation`.
-/
namespace Verif.Xt
open Verif

/-- cmd/xtemplate/lang/zh_CN.po.  For cmd/xtemplate/main.go:22-23. -/
def zhPo : Str := List.flatten [
  b!"msgid \"\"\n",
  b!"msgstr \"\"\n",
  b!"\"Project-Id-Version: xtemplate\\n\"\n",
  b!"\"POT-Creation-Date: 2021-08-24 17:47+0800\\n\"\n",
  b!"\"PO-Revision-Date: 2021-08-24 17:48+0800\\n\"\n",
  b!"\"Last-Translator: Lin <youthlinchen@outlook.com>\\n\"\n",
  b!"\"Language-Team: https://youthlin.com\\n\"\n",
  b!"\"Language: zh_CN\\n\"\n",
  b!"\"MIME-Version: 1.0\\n\"\n",
  b!"\"Content-Type: text/plain; charset=UTF-8\\n\"\n",
  b!"\"Content-Transfer-Encoding: 8bit\\n\"\n",
  b!"\"X-Generator: Poedit 2.4.2\\n\"\n",
  b!"\"X-Poedit-Basepath: ..\\n\"\n",
  b!"\"Plural-Forms: nplurals=1; plural=0;\\n\"\n",
  b!"\"X-Poedit-SourceCharset: UTF-8\\n\"\n",
  b!"\"X-Poedit-KeywordsList: T;N:1,2;X:1c,2;XN:1c,2,3\\n\"\n",
  b!"\"X-Poedit-SearchPath-0: .\\n\"\n",
  b!"\"X-Poedit-SearchPathExcluded-0: *_test.go\\n\"\n",
  b!"\n",
  b!"#: internal/keyword.go:23\n",
  b!"#, c-format\n",
  b!"msgid \"invalid keywords: %s\"\n",
  b!"msgstr \"非法的关键字：%s\"\n",
  b!"\n",
  b!"#: internal/keyword.go:50\n",
  b!"msgid \"msg id index is not a number\"\n",
  b!"msgstr \"待翻译原文的位置应该是数字\"\n",
  b!"\n",
  b!"#: internal/keyword.go:61\n",
  b!"msgid \"context index is not a number: %v\"\n",
  b!"msgstr \"翻译上下文的位置应该是数字\"\n",
  b!"\n",
  b!"#: internal/keyword.go:67 internal/keyword.go:73 internal/keyword.go:99\n",
  b!"#: internal/keyword.go:105\n",
  b!"msgid \"msg id index is not a number: %v\"\n",
  b!"msgstr \"待翻译原文的位置应该是数字：%v\"\n",
  b!"\n",
  b!"#: internal/keyword.go:79\n",
  b!"msgid \"msg plural index is not a number: %v\"\n",
  b!"msgstr \"待翻译复数内容的位置应该是数字：%v\"\n",
  b!"\n",
  b!"#: internal/keyword.go:88\n",
  b!"msgid \"context index must end with 'c': %v\"\n",
  b!"msgstr \"翻译上下文的位置必须以 ‘c’ 结尾\"\n",
  b!"\n",
  b!"#: internal/keyword.go:93\n",
  b!"msgid \"msg context index is not a number: %v\"\n",
  b!"msgstr \"翻译上下文的位置应该是数字：%v\"\n",
  b!"\n",
  b!"#: internal/keyword.go:118\n",
  b!"msgid \"too much keyword index\"\n",
  b!"msgstr \"关键字指示的位置太多\"\n",
  b!"\n",
  b!"#: internal/keyword.go:122\n",
  b!"#, c-format\n",
  b!"msgid \"can not open output file: %s\"\n",
  b!"msgstr \"无法打开输出文件：%s\"\n",
  b!"\n",
  b!"#: internal/param.go:77\n",
  b!"msgid \"\"\n",
  b!"\"msgid '%v' is used without plural and with plural.\\n\"\n",
  b!"\"Line    =%v\\n\"\n",
  b!"\"Previous=%v\"\n",
  b!"msgstr \"\"\n",
  b!"\"待翻译原文 ‘%v’ 即用于单数也用于复数。\\n\"\n",
  b!"\"当前行=%v\\n\"\n",
  b!"\"已扫描=%v\"\n",
  b!"\n",
  b!"#: internal/run.go:27\n",
  b!"msgid \"invalid input pattern\"\n",
  b!"msgstr \"输入文件不合法\"\n",
  b!"\n",
  b!"#: internal/run.go:33\n",
  b!"msgid \"failed to process file %v. error message: %+v\"\n",
  b!"msgstr \"处理文件 %v 失败。错误消息： %+v\"\n",
  b!"\n",
  b!"#: internal/run.go:35\n",
  b!"msgid \"failed to process file %v. error message: %v\"\n",
  b!"msgstr \"处理文件 %v 失败。错误消息： %v\"\n",
  b!"\n",
  b!"#: internal/run.go:61\n",
  b!"msgid \"failed to parse file %v\"\n",
  b!"msgstr \"处理文件 %v 失败\"\n",
  b!"\n",
  b!"#: internal/run.go:250\n",
  b!"msgid \"Warning: %+v\"\n",
  b!"msgstr \"警告：%+v\"\n",
  b!"\n",
  b!"#: internal/run.go:252\n",
  b!"msgid \"Warning: %v\"\n",
  b!"msgstr \"警告：%v\"\n",
  b!"\n",
  b!"#: main.go:32\n",
  b!"msgid \"unexpected error: %+v\\n\"\n",
  b!"msgstr \"非预期错误：%+v\\n\"\n",
  b!"\n",
  b!"#: main.go:40\n",
  b!"msgid \"run error: %+v\"\n",
  b!"msgstr \"运行失败：%+v\"\n",
  b!"\n",
  b!"#: main.go:42\n",
  b!"msgid \"run error: %v\"\n",
  b!"msgstr \"运行失败：%v\"\n",
  b!"\n",
  b!"#: main.go:51\n",
  b!"msgid \"input file pattern\"\n",
  b!"msgstr \"输入文件\"\n",
  b!"\n",
  b!"#: main.go:52\n",
  b!"msgid \"left delim\"\n",
  b!"msgstr \"左分隔符\"\n",
  b!"\n",
  b!"#: main.go:53\n",
  b!"msgid \"right delim\"\n",
  b!"msgstr \"右分隔符\"\n",
  b!"\n",
  b!"#: main.go:58\n",
  b!"msgid \"keywords e.g.: gettext;T:1;N:1,2;X:1c,2;XN:1c,2,3\"\n",
  b!"msgstr \"关键字，例： gettext;T:1;N:1,2;X:1c,2;XN:1c,2,3\"\n",
  b!"\n",
  b!"#: main.go:55\n",
  b!"msgid \"function names of template\"\n",
  b!"msgstr \"模板中用到的函数名\"\n",
  b!"\n",
  b!"#: main.go:56\n",
  b!"msgid \"output file, - is stdout\"\n",
  b!"msgstr \"输出文件，- 表示标准输出\"\n",
  b!"\n",
  b!"#: main.go:57\n",
  b!"msgid \"debug mode\"\n",
  b!"msgstr \"debug 模式\"\n",
  b!"\n",
  b!"#: main.go:58\n",
  b!"msgid \"show version\"\n",
  b!"msgstr \"显示版本号\"\n",
  b!"\n",
  b!"#: main.go:59\n",
  b!"msgid \"show help message\"\n",
  b!"msgstr \"显示帮助信息\"\n",
  b!"\n",
  b!"#: main.go:64\n",
  b!"#, c-format\n",
  b!"msgid \"\"\n",
  b!"\"Usage of %s:\\n\"\n",
  b!"\"xtemplate -i input-pattern -k keywords [-f functions] [-o output]\\n\"\n",
  b!"msgstr \"\"\n",
  b!"\"%s 的用法：\\n\"\n",
  b!"\"xtemplate -i 输入文件 -k 关键字 [-f 模版中函数] [-o 输出文件]\\n\"\n",
  b!"\n",
  b!"#: main.go:90\n",
  b!"msgid \"flags -i and -k are required\"\n",
  b!"msgstr \"-i 和 -k 参数是必填的\"\n"]

/-- `embedLangs` (main.go:22-23). -/
def embedLangs : W.Node :=
  .dir b!"." true [.dir b!"lang" true [.file b!"zh_CN.po" (some { stat := some b!"zh_CN.po", content := some zhPo })]]

/-- `initTranslation` (main.go:27-35): the world it leaves.  `langPath` is `LANG_PATH` if it is set, `tree` what is found at a path,
`dflt` what `locale.GetDefault` returns. -/
def initTranslation {α : Type} (c : W.Cfg α) (dflt : Str) (langPath : Option Str) (tree : Str → Option W.Node) : W.World α :=
  let w := W.World.init c dflt
  let w := match langPath with
    | some path => if GoStr.trimSpace path ≠ [] then w.gLoadFS c (tree path) else w.gLoadFS c (some embedLangs)
    | none => w.gLoadFS c (some embedLangs)
  w.gSetLocale c [] dflt

end Verif.Xt
