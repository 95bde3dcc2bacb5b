import Verif.Model.TmplRun
import Verif.Model.Po
/-!
# The tests of cmd/xtemplate/internal
-/
namespace Verif.Tests
open Verif Verif.Xt

/-- `TestParseKeywords` (cmd/xtemplate/internal/param_test.go:10-64). -/
example : (∀ t ∈ ([
    (b!"T", [⟨b!"T", 0, 1, 0⟩]),
    (b!"T:1", [⟨b!"T", 0, 1, 0⟩]),
    (b!"N:1,2", [⟨b!"N", 0, 1, 2⟩]),
    (b!"X:1c,2", [⟨b!"X", 1, 2, 0⟩]),
    (b!"XN:1c,2,3", [⟨b!"XN", 1, 2, 3⟩]),
    (b!" T ; XN:1c, 2, 3 ", [⟨b!"T", 0, 1, 0⟩, ⟨b!"XN", 1, 2, 3⟩]),
    (b!"T;XN:1c,2,3", [⟨b!"T", 0, 1, 0⟩, ⟨b!"XN", 1, 2, 3⟩])] : List (Str × List Keyword)), parseKeywords t.1 = some t.2) ∧
    ∀ t ∈ [[], b!"T::", b!"T:a", b!"T:ac,2", b!"T:1c,a", b!"T:a,b", b!"T:1,b", b!"XN:1,2,3", b!"XN:ac,2,3", b!"XN:1c,,3", b!"XN:1c,a,3", b!"XN:1c,2,", b!"XN:1c,2,a", b!":1", b!"XN:", b!"XN:1,2,3,4"], parseKeywords t = none := by decide +kernel

/-- cmd/xtemplate/internal/testdata/base.tmpl -/
def baseTmpl : Str := [
    b!"{{- define \"header\" -}}\n",
    b!"<!DOCTYPE html>\n",
    b!"<html>\n",
    b!"\n",
    b!"<head>\n",
    b!"{{- end -}}\n",
    b!"\n",
    b!"{{- define \"title\" -}}\n",
    b!"    <title>{{.}}</title> \n",
    b!"</head>\n",
    b!"<body>\n",
    b!"{{- end -}}\n",
    b!"\n",
    b!"    {{ \"id2\" | .XN \"ctxt\" \"id\" }}// Cmd | Cmd // StringNode | FieldNode=[XN], StringNode=\"ctxt\", StringNOde=\"id\"\n",
    b!"    {{ .args | .XN \"ctxt\" \"id\" \"id2\" }}// FieldNode=[args] | FieldNode=[XN], StringNode=ctxt, id, id2\n",
    b!"    {{ .XN \"ctxt\" \"id\" `id2` }}// FieldNode=[XN], StringNode=ctxt, id, id2\n",
    b!"    {{- /* comment */ -}}\n",
    b!"    {{ T `haha` }}// IdentifierNode=T, StringNode='haha'\n",
    b!"    {{ `arg` | X \"ctxt\" \"id\" }}// StringNode | Ident=X, StringNode=ctxt, id\n",
    b!"    {{ call T \"haha\" }}// Ident=call, Ident=T, String=haha\n",
    b!"    {{ \"haha\" | T }}// String | Ident\n",
    b!"    {{ \"haha\" | .t.T }}// String | Field=[t, T]\n",
    b!"\n",
    b!"    {{ $arg := .arg | T \"id\" }}\n",
    b!"    {{ $arg = T \"id\" }}\n",
    b!"    {{ T (\"id\") }}// Ident PipeNode=() 不支持\n",
    b!"    {{ or (T \"id\") (T \"id\") }}// Ident=or PipeNode=() PipeNode=()\n",
    b!"    {{ if .cond }}{{ T \"inside if\" }}{{ else }}{{ T \"inside else\" }}{{ end }}\n",
    b!"    {{ range .list }}{{ T \"inside range\" }}{{ else }}{{ T \"inside range else\" }}{{ end }}\n",
    b!"    {{ with .arg }}{{ T \"inside with\" }}{{ else }}{{ T \"inside with else\" }}{{ end }}\n",
    b!"    {{ if .cond }}{{ $.t.T \"inside if without else\" }}{{ end }}\n",
    b!"    {{ range .list }}{{ $.t.T \"inside range without else\" }}{{ end }}\n",
    b!"    {{ with .arg }}{{ $.t.T \"inside with without else\" }}{{ end }}\n",
    b!"    {{ \"piped through T\" | T }}\n",
    b!"    {{ \"piped through field T\" | .t.T }}\n",
    b!"    {{ \"id-pipe\" | X \"ctxt-pipe\" }}\n",
    b!"    {{ T (\"wrapped string arg\") }}\n",
    b!"\n",
    b!"\n",
    b!"    1. PipeNode\n",
    b!"    2. Cmd.Args FieldNode[last] > StringNode\n",
    b!"    3. Cmd.Args Ident, Ident > String\n",
    b!"    4. Cmd.Args has PipeNode -> 1.\n",
    b!"\n",
    b!"{{- define \"footer\" -}}\n",
    b!"</body>\n",
    b!"\n",
    b!"</html>\n",
    b!"{{- end -}}\n"].flatten

/-- cmd/xtemplate/internal/testdata/index.tmpl -/
def indexTmpl : Str := [
    b!"{{- template \"header\" . -}}\n",
    b!"{{- template \"title\" .T \"Title\" -}}\n",
    b!"{{- /*Comments*/ -}}\n",
    b!"\n",
    b!"{{with $foo := .T \"foo\"}}\n",
    b!"{{$foo}}\n",
    b!"{{end}}\n",
    b!"{{if .T \"ok\"}}\n",
    b!"{{end}}\n",
    b!"{{range .T \"range\"}}\n",
    b!"<li>{{.}}</li>\n",
    b!"{{end}}\n",
    b!"\n",
    b!"{{ .T \"Hello, World\" }}\n",
    b!"{{ .T \"Hello, %v\" }}\n",
    b!"{{ .t.X \"ctx\" \"Hello, World\" }}\n",
    b!"{{ .X \"ctxt\" \"One apple\" }}\n",
    b!"{{ .X \"ctxt\" \"One apple\" }}\n",
    b!"{{ .t.XN \"ctxt\" \"One apple\" \"%v apples\" }}\n",
    b!"{{ .t.N \"id1\"\n",
    b!"\"id2\" }}\n",
    b!"\n",
    b!"{{- template \"footer\" . -}}"].flatten

/-- cmd/xtemplate/internal/testdata/pot_test.pot -/
def potTest : Str := [
    b!"# SOME DESCRIPTIVE TITLE.\n",
    b!"# Copyright (C) YEAR THE PACKAGE'S COPYRIGHT HOLDER\n",
    b!"# This file is distributed under the same license as the PACKAGE package.\n",
    b!"# FIRST AUTHOR <EMAIL@ADDRESS>, YEAR.\n",
    b!"#\n",
    b!"#, fuzzy\n",
    b!"msgid \"\"\n",
    b!"msgstr \"\"\n",
    b!"\"Project-Id-Version: PACKAGE VERSION\\n\"\n",
    b!"\"Report-Msgid-Bugs-To: \\n\"\n",
    b!"\"POT-Creation-Date: 2021-08-24 20:12:35+0800\\n\"\n",
    b!"\"PO-Revision-Date: YEAR-MO-DA HO:MI+ZONE\\n\"\n",
    b!"\"Last-Translator: FULL NAME <EMAIL@ADDRESS>\\n\"\n",
    b!"\"Language-Team: LANGUAGE <LL@li.org>\\n\"\n",
    b!"\"Language: \\n\"\n",
    b!"\"MIME-Version: 1.0\\n\"\n",
    b!"\"Content-Type: text/plain; charset=CHARSET\\n\"\n",
    b!"\"Content-Transfer-Encoding: 8bit\\n\"\n",
    b!"\"X-Created-By: xtemplate(https://github.com/youthlin/t/tree/main/cmd/xtemplate)\\n\"\n",
    b!"\"Plural-Forms: nplurals=INTEGER; plural=EXPRESSION;\\n\"\n",
    b!"\"X-Xtemplate-Input: internal/testdata/*.tmpl\\n\"\n",
    b!"\"X-Xtemplate-Left: {{\\n\"\n",
    b!"\"X-Xtemplate-Right: }}\\n\"\n",
    b!"\"X-Xtemplate-Keywords: T;X:1c,2;N:1,2;XN:1c,2,3\\n\"\n",
    b!"\"X-Xtemplate-Functions: \\n\"\n",
    b!"\"X-Xtemplate-Output: internal/testdata/pot_test.pot\\n\"\n",
    b!"\n",
    b!"#: internal/testdata/index.tmpl:4\n",
    b!"#, go-format\n",
    b!"msgid \"Hello, %v\"\n",
    b!"msgstr \"\"\n",
    b!"\n",
    b!"#: internal/testdata/base.tmpl:6\n",
    b!"#: internal/testdata/index.tmpl:3\n",
    b!"msgid \"Hello, World\"\n",
    b!"msgstr \"\"\n",
    b!"\n",
    b!"#: internal/testdata/base.tmpl:14\n",
    b!"#: internal/testdata/base.tmpl:16\n",
    b!"msgid \"haha\"\n",
    b!"msgstr \"\"\n",
    b!"\n",
    b!"#: internal/testdata/base.tmpl:20\n",
    b!"#: internal/testdata/base.tmpl:21\n",
    b!"#: internal/testdata/base.tmpl:23\n",
    b!"#: internal/testdata/base.tmpl:23\n",
    b!"msgid \"id\"\n",
    b!"msgstr \"\"\n",
    b!"\n",
    b!"#: internal/testdata/index.tmpl:9\n",
    b!"msgid \"id1\"\n",
    b!"msgid_plural \"id2\"\n",
    b!"msgstr[0] \"\"\n",
    b!"msgstr[1] \"\"\n",
    b!"\n",
    b!"#: internal/testdata/index.tmpl:5\n",
    b!"msgctxt \"ctx\"\n",
    b!"msgid \"Hello, World\"\n",
    b!"msgstr \"\"\n",
    b!"\n",
    b!"#: internal/testdata/index.tmpl:6\n",
    b!"#: internal/testdata/index.tmpl:7\n",
    b!"msgctxt \"ctxt\"\n",
    b!"msgid \"One apple\"\n",
    b!"msgstr \"\"\n",
    b!"\n",
    b!"#: internal/testdata/base.tmpl:11\n",
    b!"#: internal/testdata/base.tmpl:12\n",
    b!"msgctxt \"ctxt\"\n",
    b!"msgid \"id\"\n",
    b!"msgid_plural \"id2\"\n",
    b!"msgstr[0] \"\"\n",
    b!"msgstr[1] \"\"\n",
    b!"\n"].flatten

/-- `newTestContext` (cmd/xtemplate/internal/run_test.go:12-27). -/
def testKeywords : List Keyword := [⟨b!"T", 0, 1, 0⟩, ⟨b!"N", 0, 1, 2⟩, ⟨b!"X", 1, 2, 0⟩, ⟨b!"XN", 1, 2, 3⟩]

/-- See `testKeywords`. -/
def testParam : Param := { input := [], left := b!"{{", right := b!"}}", keyword := [], function := [], output := [] }

/-- Letters and digits: the templates have only ASCII in their actions. -/
def testEnv : Env :=
  let letter := fun r : Nat => (65 ≤ r && r ≤ 90) || (97 ≤ r && r ≤ 122)
  let digit := fun r : Nat => 48 ≤ r && r ≤ 57
  { isPrint := fun r => 32 ≤ r && r ≠ 127, letter, digit, canon := id, canOpen := true, glob := fun _ _ => none,
    parse := Tmpl.goParse (fun _ => true) letter digit, now := [], sink := fun s => (s, true), closes := true }

/-- The files. -/
def testDisk : Disk where
  files f := if f = b!"base.tmpl" then some baseTmpl else if f = b!"index.tmpl" then some indexTmpl else none
  stdout := []

/-- The collected entries of a file. -/
def collected (f : Str) : GMap Tr.Entry :=
  match resolveOneFile testEnv testParam testKeywords testDisk f with
  | .entries es => ((⟨[], false⟩ : Ctx).addAll es).1.entries
  | _ => []

/-- `TestFile` (cmd/xtemplate/internal/run_test.go:38-57). -/
example : ∀ k ∈ [(b!"", b!"inside if"), (b!"", b!"inside else"), (b!"", b!"inside range"), (b!"", b!"inside range else"), (b!"", b!"inside with"), (b!"", b!"inside with else"), (b!"", b!"inside if without else"), (b!"", b!"inside range without else"), (b!"", b!"inside with without else"), (b!"", b!"piped through T"), (b!"", b!"piped through field T"), (b!"ctxt-pipe", b!"id-pipe"), (b!"", b!"wrapped string arg")],
    ((collected b!"base.tmpl").get? (Tr.key k.1 k.2)).isSome = true := by decide +kernel

/-- `TestTemplateAndControlNodes` (cmd/xtemplate/internal/run_test.go:59-69). -/
example : ∀ k ∈ [(b!"", b!"Title"), (b!"", b!"foo"), (b!"", b!"ok"), (b!"", b!"range")],
    ((collected b!"index.tmpl").get? (Tr.key k.1 k.2)).isSome = true := by decide +kernel

/-- The options recorded in testdata/pot_test.pot. -/
def potParam : Param :=
  ⟨b!"internal/testdata/*.tmpl", b!"{{", b!"}}", b!"T;X:1c,2;N:1,2;XN:1c,2,3", [], b!"internal/testdata/pot_test.pot"⟩

/-- The header that the program wrote into testdata/pot_test.pot (its other entries are those of an older
index.tmpl). -/
example : (match Tr.readPot potTest with
      | .ok f => f.entries.get? (Tr.key [] [])
      | _ => none) =
    some (header potParam b!"2021-08-24 20:12:35+0800" true) := by decide +kernel

/-- The text that the program wrote for that header. -/
example : Tr.potEntry testEnv.isPrint (header potParam b!"2021-08-24 20:12:35+0800" true) <+: potTest := by decide +kernel

end Verif.Tests
