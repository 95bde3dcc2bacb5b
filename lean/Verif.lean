import Verif.Model.GoStr
import Verif.Model.Num
import Verif.Model.Plural
import Verif.Spec.Plural
import Verif.Lemmas.PluralParse
import Verif.Lemmas.PluralEval
import Verif.Props.C01_C05
import Verif.Spec.Gnu
import Verif.Spec.CSem
import Verif.Props.C02_C03
import Verif.Props.C06
import Verif.Spec.PluralText
import Verif.Props.C07
import Verif.Model.Utf8
import Verif.Model.Fmt
import Verif.Spec.Fmt
import Verif.Lemmas.Bytes
import Verif.Lemmas.Fmt
import Verif.Props.C09_C11
import Verif.Model.File
import Verif.Spec.File
import Verif.Lemmas.GMap
import Verif.Lemmas.Strings
import Verif.Lemmas.File
import Verif.Props.C12_C13
import Verif.Props.C17
import Verif.Props.C15
import Verif.Props.C18
import Verif.Props.C14
import Verif.Model.Quote
import Verif.Model.Errors
import Verif.Model.Po
import Verif.Spec.Po
import Verif.Lemmas.Utf8
import Verif.Lemmas.Quote
import Verif.Lemmas.Trim
import Verif.Lemmas.PoReader
import Verif.Lemmas.PoRead
import Verif.Lemmas.PoWrite
import Verif.Props.C19_C20
import Verif.Props.C22_C26
import Verif.Props.C21_C27
import Verif.Props.C28_C29
import Verif.Model.Mo
import Verif.Spec.Mo
import Verif.Lemmas.Mo
import Verif.Lemmas.MoWrite
import Verif.Props.C30_C33
import Verif.Props.C34_C35
import Verif.Model.Domain
import Verif.Model.World
import Verif.Spec.World
import Verif.Lemmas.Domain
import Verif.Lemmas.World
import Verif.Lemmas.WorldOps
import Verif.Props.C36_C39
import Verif.Props.C40_C44
import Verif.Props.C45_C49
import Verif.Props.WorldExamples
import Verif.Model.Conc
import Verif.Props.C50_C51
import Verif.Spec.Trim
import Verif.Lemmas.TrimSpec
import Verif.Model.Keyword
import Verif.Spec.Keyword
import Verif.Props.C53
import Verif.Model.Xtemplate
import Verif.Spec.Xtemplate
import Verif.Props.C54_C55
import Verif.Model.Run
import Verif.Spec.Run
import Verif.Props.C56_C57
import Verif.Props.C59
import Verif.Props.C58
import Verif.Model.Errorf
import Verif.Spec.Errors
import Verif.Props.C60
import Verif.Model.Slice
import Verif.Spec.Slice
import Verif.Props.C62
import Verif.Props.C63_C64
import Verif.Model.Main
import Verif.Spec.Main
import Verif.Props.C65
import Verif.Spec.Served
import Verif.Props.C66
import Verif.Model.Path
import Verif.Spec.Path
import Verif.Lemmas.Path
import Verif.Props.C67
import Verif.Model.Atn
import Verif.Spec.Lexeme
import Verif.Model.AtnLexer
import Verif.Lemmas.AtnLexer
import Verif.Props.C68
import Verif.Spec.Precedence
import Verif.Model.AtnParser
import Verif.Lemmas.AtnParser
import Verif.Props.C69
import Verif.Lemmas.AtnEval
import Verif.Props.C70
import Verif.Model.Regexp
import Verif.Spec.Regexp
import Verif.Lemmas.Regexp
import Verif.Props.C71
import Verif.Model.PoError
import Verif.Spec.PoError
import Verif.Props.C72
import Verif.Lemmas.FmtPlain
import Verif.Model.KeywordError
import Verif.Spec.KeywordError
import Verif.Props.C73
import Verif.Model.TmplLex
import Verif.Model.TmplParse
import Verif.Model.TmplRun
import Verif.Spec.Tmpl
import Verif.Lemmas.TmplScan
import Verif.Lemmas.TmplEats
import Verif.Lemmas.TmplFuel
import Verif.Lemmas.TmplWith
import Verif.Lemmas.TmplEnds
import Verif.Props.C74
import Verif.Props.C75
import Verif.Spec.TmplText
import Verif.Spec.TmplNumber
import Verif.Lemmas.TmplRunIn
import Verif.Lemmas.TmplRunArg
import Verif.Lemmas.TmplRunOut
import Verif.Lemmas.TmplReadPipe
import Verif.Lemmas.TmplReadTag
import Verif.Lemmas.TmplReadList
import Verif.Lemmas.TmplReadNode
import Verif.Lemmas.TmplReadFile
import Verif.Props.C76
import Verif.Spec.Race
import Verif.Props.C77
import Verif.Props.C78
import Verif.Spec.TmplPlace
import Verif.Lemmas.TmplLaid
import Verif.Lemmas.TmplFrom
import Verif.Props.C79
import Verif.Tests.Basic
import Verif.Tests.Fmt
import Verif.Tests.Plurals
import Verif.Tests.Translator
import Verif.Tests.Xtemplate
import Verif.Tests.Gettext
import Verif.Spec.Workflow
import Verif.Props.C80
import Verif.Props.C81
import Verif.Model.Serve
import Verif.Spec.Serve
import Verif.Lemmas.Serve
import Verif.Lemmas.ServeCalls
import Verif.Props.C82
import Verif.Model.Locale
import Verif.Spec.Locale
import Verif.Props.C83
import Verif.Spec.Order
import Verif.Props.C85
import Verif.Props.C86
import Verif.Props.C29_more
import Verif.Props.C87
import Verif.Props.C88
import Verif.Model.MoError
import Verif.Spec.MoError
import Verif.Props.C89
import Verif.Spec.Package
import Verif.Props.C90
import Verif.Spec.Literal
import Verif.Props.C91
import Verif.Spec.Joined
import Verif.Props.C92
import Verif.Spec.Cut
import Verif.Props.C93
import Verif.Spec.Star
import Verif.Props.C94
import Verif.Spec.Glob
import Verif.Spec.GlobFiles
import Verif.Props.C95
import Verif.Spec.Directory
import Verif.Props.C96
import Verif.Spec.Stderr
import Verif.Model.Stderr
import Verif.Props.C97
import Verif.Spec.Embed
import Verif.Model.Embed
import Verif.Props.C98
import Verif.Spec.Usage
import Verif.Model.Usage
import Verif.Props.C99
import Verif.Spec.Http
import Verif.Model.Http
import Verif.Props.C100
import Verif.Spec.Render
import Verif.Model.Render
import Verif.Props.C101
import Verif.Spec.Debug
import Verif.Model.Debug
import Verif.Props.C102
import Verif.Spec.PluralDebug
import Verif.Model.PluralDebug
import Verif.Props.C103
import Verif.Spec.Write
import Verif.Model.Write
import Verif.Props.C104
import Verif.Spec.Read
import Verif.Model.Read
import Verif.Props.C105
import Verif.Spec.PluralError
import Verif.Model.PluralError
import Verif.Props.C106
import Verif.Model.MoAlloc
import Verif.Spec.MoAlloc
import Verif.Props.C107
import Verif.Props.C108
import Verif.Model.Time
import Verif.Model.Layout
import Verif.Spec.Calendar
import Verif.Lemmas.Calendar
import Verif.Props.C109
import Verif.Props.C110
import Verif.Model.AtnRecover
import Verif.Spec.AtnRecover
import Verif.Lemmas.AtnRecover
import Verif.Props.C111
import Verif.Spec.Viable
import Verif.Spec.AtnFirst
import Verif.Lemmas.PluralViable
import Verif.Lemmas.AtnLook
import Verif.Lemmas.AtnFirst
import Verif.Props.C112
import Verif.Spec.AtnTold
import Verif.Lemmas.AtnKeep
import Verif.Lemmas.AtnTold
import Verif.Props.C113
import Verif.Spec.Word
import Verif.Model.Word
import Verif.Props.C114
import Verif.Spec.PluralGaps
import Verif.Props.C115
import Verif.Spec.GnuPo
import Verif.Lemmas.GnuPo
import Verif.Props.C116
import Verif.Spec.MoLookup
import Verif.Props.C117
import Verif.Spec.Pieces
import Verif.Props.C118
import Verif.Spec.PoSize
import Verif.Props.C119
import Verif.Model.EvalStack
import Verif.Spec.EvalStack
import Verif.Props.C120
import Verif.Spec.PotHeader
import Verif.Props.C121
import Verif.Model.WrapCost
import Verif.Spec.Wrap
import Verif.Props.C122
import Verif.Spec.PyMo
import Verif.Props.C123
import Verif.Spec.Msgfmt
import Verif.Props.C124
import Verif.Spec.LibintlPlural
import Verif.Props.C125
import Verif.Props.C126
import Verif.Spec.MoWrap
import Verif.Props.C127
import Verif.Spec.GnuFlow
import Verif.Lemmas.GnuUnique
import Verif.Props.C128
import Verif.Spec.MoUse
import Verif.Props.C129
import Verif.Spec.PluralShape
import Verif.Props.C130
import Verif.Spec.Remarks
import Verif.Props.C131
import Verif.Spec.Encoding
import Verif.Props.C132
import Verif.Model.AtnDebug
import Verif.Spec.GapsDebug
import Verif.Props.C133
import Verif.Props.C113_Any
