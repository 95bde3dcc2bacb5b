import Verif.Model.Fmt
/-!
# Names of languages (locale/detect.go)

`golang.org/x/text/language` and `github.com/Xuanwo/go-locale` are parameters: tags, what `Make` makes of
a string, what the base language and the region of a tag print as, the tag of the system (`language.Und`
if it cannot be detected).
-/
namespace Verif.Locale
open Verif

/-- The packages.  For locale/detect.go:15-30. -/
structure Pkg where
  Tag : Type
  make : Str → Tag
  base : Tag → Str
  region : Tag → Str
  detected : Tag

/-- `NormalizeTag` (locale/detect.go:26-30); `E` is package `fmt`, whose arguments here are `Stringer`s,
represented by what they print as. -/
def normalizeTag (E : Fmt.Env Str) (p : Pkg) (tag : p.Tag) : Str := Fmt.sprintf E b!"%v_%v" [p.base tag, p.region tag]

/-- `Normalize` (locale/detect.go:21-23). -/
def normalize (E : Fmt.Env Str) (p : Pkg) (lang : Str) : Str := normalizeTag E p (p.make lang)

/-- `GetDefault` (locale/detect.go:15-18). -/
def getDefault (E : Fmt.Env Str) (p : Pkg) : Str := normalizeTag E p p.detected

end Verif.Locale
