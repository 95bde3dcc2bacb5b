import Verif.Model.World
import Mathlib.Order.Defs.LinearOrder
/-!
# What a request says about the language (http.go:25-37)

`(*http.Request).Cookie`, `http.Header.Get` (net/http, net/textproto of Go 1.23) and `language.ParseAcceptLanguage`
(golang.org/x/text v0.23.0), which http.go calls.  Parameters: `language.Parse`, the table of names it does not know, and
`strconv.ParseFloat` for 32 bits.  Simplified: weights are a linear order, so NaN is no weight; `sort.Stable` is insertion.
-/
namespace Verif.Http
open Verif

/-- `http.Header`: canonical names of headers and their values.  For http.go:20-39. -/
abbrev Header := GMap (List Str)

/-- The values of a header.  For http.go:20-39. -/
def Header.values (h : Header) (key : Str) : List Str := (GMap.get? h key).getD []

/-- `Header.Get`: the first value or the empty string.  For http.go:20-39. -/
def Header.get (h : Header) (key : Str) : Str := (h.values key).headD []

/-- `isASCIISpace` of net/textproto.  For http.go:20-39. -/
def isASCIISpace (c : UInt8) : Bool := c = 32 || c = 9 || c = 10 || c = 13

/-- `textproto.TrimString`.  For http.go:20-39. -/
def trimString (s : Str) : Str := ((s.dropWhile isASCIISpace).reverse.dropWhile isASCIISpace).reverse

/-- The bytes of tokens (`httpguts.IsTokenRune`).  For http.go:20-39. -/
def isTokenByte (c : UInt8) : Bool :=
  (48 ≤ c && c ≤ 57) || (65 ≤ c && c ≤ 90) || (97 ≤ c && c ≤ 122) || b!"!#$%&'*+-.^_`|~".contains c

/-- `validCookieValueByte`.  For http.go:20-39. -/
def validCookieValueByte (c : UInt8) : Bool := 0x20 ≤ c && c < 0x7f && c ≠ 34 && c ≠ 59 && c ≠ 92

/-- `parseCookieValue(raw, true)`.  For http.go:20-39. -/
def parseCookieValue (raw : Str) : Option Str :=
  let raw := if 1 < raw.length ∧ raw.head? = some 34 ∧ raw.getLast? = some 34 then (raw.drop 1).dropLast else raw
  if raw.all validCookieValueByte then some raw else none

/-- `strings.Cut(s, c)` without the last result.  For http.go:20-39. -/
def cut (c : UInt8) (s : Str) : Str × Str :=
  match s.span (· ≠ c) with
  | (a, []) => (a, [])
  | (a, _ :: b) => (a, b)

/-- The inner loop of `readCookies`.  The first argument bounds the number of rounds; every round consumes at least one byte.
For http.go:20-39. -/
def readLine (filter : Str) : Nat → Str → List Str
  | 0, _ => []
  | k + 1, line =>
    if line = [] then []
    else
      let (part, line) := cut 59 line
      let part := trimString part
      if part = [] then readLine filter k line
      else
        let (name, val) := cut 61 part
        let name := trimString name
        if name = [] ∨ name.all isTokenByte = false then readLine filter k line
        else if filter ≠ [] ∧ filter ≠ name then readLine filter k line
        else match parseCookieValue val with
          | none => readLine filter k line
          | some v => v :: readLine filter k line

/-- `readCookies(h, filter)`: the values.  For http.go:20-39. -/
def readCookies (h : Header) (filter : Str) : List Str :=
  (h.values b!"Cookie").flatMap fun line => readLine filter (trimString line).length (trimString line)

/-- `(*Request).Cookie(name)`: the value, `none` for `ErrNoCookie`.  For http.go:20-39. -/
def cookie (h : Header) (name : Str) : Option Str := if name = [] then none else (readCookies h name).head?

/-- What `ParseAcceptLanguage` depends on.  For http.go:20-39. -/
structure Pkg where
  Tag : Type
  /-- `language.Parse`; `none` if it returns an error -/
  parse : Str → Option Tag
  /-- `acceptFallback` -/
  fallback : Str → Option Tag
  Weight : Type
  order : LinearOrder Weight
  zero : Weight
  one : Weight
  /-- `strconv.ParseFloat(s, 32)` -/
  parseFloat : Str → Option Weight

instance (G : Pkg) : LinearOrder G.Weight := G.order

/-- `split` of x/text/language.  For http.go:20-39. -/
def split (s : Str) (c : UInt8) : Str × Str :=
  match s.span (· ≠ c) with
  | (a, []) => (GoStr.trimSpace a, [])
  | (a, _ :: b) => (GoStr.trimSpace a, GoStr.trimSpace b)

/-- `consume` of x/text/language.  For http.go:20-39. -/
def consume (s : Str) (c : UInt8) : Str :=
  match s with
  | [] => []
  | x :: r => if x = c then GoStr.trimSpace r else []

/-- The loop of `ParseAcceptLanguage`; `none` if an error is returned.  The first argument bounds the number of rounds.
For http.go:20-39. -/
def acceptLoop (G : Pkg) : Nat → Str → List (G.Tag × G.Weight) → Option (List (G.Tag × G.Weight))
  | 0, _, acc => some acc
  | k + 1, s, acc =>
    if s = [] then some acc
    else
      let (entry, s) := split s 44
      if entry = [] then acceptLoop G k s acc
      else
        let (entry, weight) := split entry 59
        match (G.parse entry).or (G.fallback entry) with
        | none => none
        | some t =>
          if weight = [] then acceptLoop G k s (acc ++ [(t, G.one)])
          else match G.parseFloat (consume (consume weight 113) 61) with
            | none => none
            | some w => if w ≤ G.zero then acceptLoop G k s acc else acceptLoop G k s (acc ++ [(t, w)])

/-- One step of sorting: behind all that do not weigh less.  For http.go:20-39. -/
def insert {G : Pkg} (x : G.Tag × G.Weight) : List (G.Tag × G.Weight) → List (G.Tag × G.Weight)
  | [] => [x]
  | y :: ys => if y.2 < x.2 then x :: y :: ys else y :: insert x ys

/-- `sort.Stable(&tagSort{tag, q})`.  For http.go:20-39. -/
def stable {G : Pkg} (l : List (G.Tag × G.Weight)) : List (G.Tag × G.Weight) := l.foldl (fun acc x => insert x acc) []

/-- `ParseAcceptLanguage`: the tags.  For http.go:20-39. -/
def parseAccept (G : Pkg) (s : Str) : List G.Tag :=
  if 1000 < s.count 45 then []
  else match acceptLoop G s.length s [] with
    | none => []
    | some l => (stable l).map (·.1)

/-- What http.go reads from a request with these headers (http.go:25 and 35). -/
def request (h : Header) : W.Request := { cookie := cookie h, accept := h.get b!"Accept-Language" }

/-- The package language as http.go uses it; `index` is what the matcher returns. -/
def lang (G : Pkg) (make : Str → G.Tag) (index : List G.Tag → List G.Tag → Nat) : W.Lang where
  Tag := G.Tag
  make := make
  index := index
  parseAccept := parseAccept G

end Verif.Http
