import Verif.Spec.Trim
import Verif.Model.Http
import Mathlib.Data.List.Forall2
/-!
# Specification vocabulary for what a request says about the language

Of the model only the headers and the parameters are used.
-/
namespace Verif.Http
open Verif

/-- The text is these pieces with the byte between them. -/
def Pieces (c : UInt8) (s : Str) (ps : List Str) : Prop := ps ≠ [] ∧ (∀ p ∈ ps, c ∉ p) ∧ s = [c].intercalate ps

/-- A blank, tab, line feed or carriage return. -/
def Blank (c : UInt8) : Prop := c ∈ b!" \t\n\r"

/-- `t` is `s` without the blanks around it. -/
def Strips (s t : Str) : Prop :=
  ∃ l r, s = l ++ t ++ r ∧ (∀ c ∈ l, Blank c) ∧ (∀ c ∈ r, Blank c) ∧ (∀ c, t.head? = some c ∨ t.getLast? = some c → ¬ Blank c)

/-- Names of cookies (RFC 6265). -/
def Token (n : Str) : Prop := n ≠ [] ∧ ∀ c ∈ n,
  c ∈ b!"abcdefghijklmnopqrstuvwxyzABCDEFGHIJKLMNOPQRSTUVWXYZ0123456789!#$%&'*+-.^_`|~"

/-- Printable ASCII but no double quote, semicolon or backslash. -/
def CookieByte (c : UInt8) : Prop := 32 ≤ c ∧ c ≤ 126 ∧ c ∉ b!"\";\\"

/-- The part of a Cookie header is the cookie with this name and value. -/
def Gives (part name value : Str) : Prop :=
  Token name ∧ (∀ c ∈ value, CookieByte c) ∧ ∃ t, Strips part t ∧
    ((∃ a raw, t = a ++ b!"=" ++ raw ∧ 61 ∉ a ∧ Strips a name ∧ (raw = value ∨ raw = b!"\"" ++ value ++ b!"\"")) ∨
      61 ∉ t ∧ t = name ∧ value = [])

/-- The values of the header, none if it is not there. -/
def Sent (h : Header) (key : Str) (vs : List Str) : Prop := GMap.get? h key = some vs ∨ GMap.get? h key = none ∧ vs = []

/-- The first value of the header, empty if there is none. -/
def FirstValue (h : Header) (key s : Str) : Prop := ∃ vs, Sent h key vs ∧ ((∃ rest, vs = s :: rest) ∨ vs = [] ∧ s = [])

/-- The first cookie with the name in the Cookie headers has this value. -/
def FirstCookie (h : Header) (name value : Str) : Prop :=
  ∃ vs pss before part after, Sent h b!"Cookie" vs ∧ List.Forall₂ (Pieces 59) vs pss ∧ pss.flatten = before ++ part :: after ∧
    Gives part name value ∧ ∀ p ∈ before, ∀ v, ¬ Gives p name v

variable (G : Pkg)

/-- The part of the header names a language and has, after a semicolon, this text. -/
def Parts (part name weight : Str) : Prop :=
  59 ∉ part ∧ GoStr.Trims part name ∧ weight = [] ∨
  ∃ a b, part = a ++ b!";" ++ b ∧ 59 ∉ a ∧ GoStr.Trims a name ∧ GoStr.Trims b weight

/-- The tag for the name. -/
def Means (name : Str) (t : G.Tag) : Prop := G.parse name = some t ∨ G.parse name = none ∧ G.fallback name = some t

/-- The quality: 1, or what stands behind `q=`. -/
def Quality (weight : Str) (q : G.Weight) : Prop :=
  weight = [] ∧ q = G.one ∨
  ∃ a b c, weight = b!"q" ++ a ∧ GoStr.Trims a (b!"=" ++ b) ∧ GoStr.Trims b c ∧ G.parseFloat c = some q

/-- What the part of an Accept-Language header asks for, if it is well formed. -/
inductive Item (part : Str) : List (G.Tag × G.Weight) → Prop
  | blank : GoStr.White part → Item part []
  | asks {name weight : Str} {t : G.Tag} {q : G.Weight} : ¬ GoStr.White part → Parts part name weight → Means G name t →
      Quality G weight q → G.zero < q → Item part [(t, q)]
  | refuses {name weight : Str} {t : G.Tag} {q : G.Weight} : ¬ GoStr.White part → Parts part name weight → Means G name t →
      Quality G weight q → q ≤ G.zero → Item part []

/-- The header asks for these languages, in this order. -/
def Asks (s : Str) (l : List (G.Tag × G.Weight)) : Prop :=
  ∃ ps items, Pieces 44 s ps ∧ List.Forall₂ (Item G) ps items ∧ l = items.flatten

/-- The same in the order of quality; those of one quality stay in their order. -/
def ByQuality (l out : List (G.Tag × G.Weight)) : Prop :=
  out.Pairwise (fun a b => b.2 ≤ a.2) ∧ ∀ q, out.filter (·.2 = q) = l.filter (·.2 = q)

end Verif.Http
