import Verif.Model.Embed
/-!
# Specification vocabulary for the messages of the command

Message by message, what they are in Chinese; and the messages used in the code.
-/
namespace Verif.Xt
open Verif

/-- Messages and translations. -/
def chinese : List (Str × Str) := [
  (b!"invalid keywords: %s", b!"非法的关键字：%s"),
  (b!"msg id index is not a number", b!"待翻译原文的位置应该是数字"),
  (b!"context index is not a number: %v", b!"翻译上下文的位置应该是数字"),
  (b!"msg id index is not a number: %v", b!"待翻译原文的位置应该是数字：%v"),
  (b!"msg plural index is not a number: %v", b!"待翻译复数内容的位置应该是数字：%v"),
  (b!"context index must end with 'c': %v", b!"翻译上下文的位置必须以 ‘c’ 结尾"),
  (b!"msg context index is not a number: %v", b!"翻译上下文的位置应该是数字：%v"),
  (b!"too much keyword index", b!"关键字指示的位置太多"),
  (b!"can not open output file: %s", b!"无法打开输出文件：%s"),
  (b!"msgid '%v' is used without plural and with plural.\nLine    =%v\nPrevious=%v", b!"待翻译原文 ‘%v’ 即用于单数也用于复数。\n当前行=%v\n已扫描=%v"),
  (b!"invalid input pattern", b!"输入文件不合法"),
  (b!"failed to process file %v. error message: %+v", b!"处理文件 %v 失败。错误消息： %+v"),
  (b!"failed to process file %v. error message: %v", b!"处理文件 %v 失败。错误消息： %v"),
  (b!"failed to parse file %v", b!"处理文件 %v 失败"),
  (b!"Warning: %+v", b!"警告：%+v"),
  (b!"Warning: %v", b!"警告：%v"),
  (b!"unexpected error: %+v\n", b!"非预期错误：%+v\n"),
  (b!"run error: %+v", b!"运行失败：%+v"),
  (b!"run error: %v", b!"运行失败：%v"),
  (b!"input file pattern", b!"输入文件"),
  (b!"left delim", b!"左分隔符"),
  (b!"right delim", b!"右分隔符"),
  (b!"keywords e.g.: gettext;T:1;N:1,2;X:1c,2;XN:1c,2,3", b!"关键字，例： gettext;T:1;N:1,2;X:1c,2;XN:1c,2,3"),
  (b!"function names of template", b!"模板中用到的函数名"),
  (b!"output file, - is stdout", b!"输出文件，- 表示标准输出"),
  (b!"debug mode", b!"debug 模式"),
  (b!"show version", b!"显示版本号"),
  (b!"show help message", b!"显示帮助信息"),
  (b!"Usage of %s:\nxtemplate -i input-pattern -k keywords [-f functions] [-o output]\n", b!"%s 的用法：\nxtemplate -i 输入文件 -k 关键字 [-f 模版中函数] [-o 输出文件]\n"),
  (b!"flags -i and -k are required", b!"-i 和 -k 参数是必填的")]

/-- The messages in the code (main.go, internal/run.go, param.go, keyword.go). -/
def usedMessages : List Str := [
  b!"unexpected error: %+v\n",
  b!"run error: %+v",
  b!"run error: %v",
  b!"input file pattern",
  b!"left delim",
  b!"right delim",
  b!"keywords e.g.: gettext;T:1;N:1,2;X:1c,2;XN:1c,2,3",
  b!"function names of template",
  b!"output file, - is stdout",
  b!"debug mode",
  b!"show version",
  b!"show help message",
  b!"Usage of %s:\nxtemplate -i input-pattern -k keywords [-f functions] [-o output]\n",
  b!"flags -i and -k are required",
  b!"invalid input pattern",
  b!"failed to process file %v. error message: %+v",
  b!"failed to process file %v. error message: %v",
  b!"failed to read file %v",
  b!"failed to parse file %v",
  b!"Warning: %+v",
  b!"Warning: %v",
  b!"invalid keywords: %s",
  b!"msg id index is not a number",
  b!"context index is not a number: %v",
  b!"msg id index is not a number: %v",
  b!"msg plural index is not a number: %v",
  b!"context index must end with 'c': %v",
  b!"msg context index is not a number: %v",
  b!"too much keyword index",
  b!"can not open output file: %s",
  b!"msgid '%v' is used without plural and with plural.\nLine    =%v\nPrevious=%v"]

/-- What the message is in Chinese; itself if there is no translation. -/
def inChinese (id : Str) : Str := (chinese.lookup id).getD id

/-- The bytes after percent signs that are verbs here, in order: the kinds of the places. -/
def placesOf : Str → List Str
  | 37 :: 43 :: c :: s => [37, 43, c] :: placesOf s
  | 37 :: c :: s => [37, c] :: placesOf s
  | _ :: s => placesOf s
  | [] => []

end Verif.Xt
