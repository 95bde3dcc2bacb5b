import Verif.Model.Regexp
/-! # What a pattern matches, without preferences -/
namespace Verif.Re
open Verif

/-- `Matches whole ops s e`: the pattern matches the text between the positions `s` and `e` (a position is what follows
it). -/
inductive Matches (whole : Str) : List Op → Str → Str → Prop
  | nil (s) : Matches whole [] s s
  | one {c ops s r s' e} : step s = some (r, s') → c.has r = true → Matches whole ops s' e →
      Matches whole (.one c :: ops) s e
  | starNone {c g ops s e} : Matches whole ops s e → Matches whole (.star c g :: ops) s e
  | starMore {c g ops s r s' e} : step s = some (r, s') → c.has r = true → Matches whole (.star c g :: ops) s' e →
      Matches whole (.star c g :: ops) s e
  | save {k ops s e} : Matches whole ops s e → Matches whole (.save k :: ops) s e
  | bot {ops s e} : s.length = whole.length → Matches whole ops s e → Matches whole (.bot :: ops) s e
  | eot {ops e} : Matches whole ops [] e → Matches whole (.eot :: ops) [] e

/-- The position `b` is behind `n` runes of the text from `s` on. -/
inductive Behind : Nat → Str → Str → Prop
  | here (s) : Behind 0 s s
  | there {n s r s' b} : step s = some (r, s') → Behind n s' b → Behind (n + 1) s b

end Verif.Re
