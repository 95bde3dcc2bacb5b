import Verif.Model.GoStr
/-!
# Plural rules of the GNU gettext manual

Section "Additional functions for plural forms" of the GNU gettext manual, written as arithmetic on
natural numbers following the manual's descriptions (not its C expressions).
-/
namespace Verif.Gnu

/-- A plural rule: the text of its C expression without blanks, the number of forms, and the index
of the form used for a quantity. -/
structure Rule where
  text : Str
  nplurals : Nat
  form : Nat → Nat

def rules : List Rule := [
  -- "Only one form"
  { text := b!"0", nplurals := 1, form := fun _ => 0 },
  -- "Two forms, singular used for one only"
  { text := b!"n!=1", nplurals := 2, form := fun n => if n = 1 then 0 else 1 },
  -- "Two forms, singular used for zero and one"
  { text := b!"n>1", nplurals := 2, form := fun n => if n = 0 ∨ n = 1 then 0 else 1 },
  -- "Three forms, special case for zero" (Latvian)
  { text := b!"n%10==1&&n%100!=11?0:n!=0?1:2", nplurals := 3,
    form := fun n => if n % 10 = 1 ∧ n % 100 ≠ 11 then 0 else if n = 0 then 2 else 1 },
  -- "Three forms, special cases for one and two" (Irish)
  { text := b!"n==1?0:n==2?1:2", nplurals := 3,
    form := fun n => if n = 1 then 0 else if n = 2 then 1 else 2 },
  -- "Three forms, special case for numbers ending in 00 or [2-9][0-9]" (Romanian)
  { text := b!"n==1?0:(n==0||(n%100>0&&n%100<20))?1:2", nplurals := 3,
    form := fun n => if n = 1 then 0 else if n ≠ 0 ∧ (n % 100 = 0 ∨ 20 ≤ n % 100) then 2 else 1 },
  -- "Three forms, special case for numbers ending in 1[2-9]" (Lithuanian)
  { text := b!"n%10==1&&n%100!=11?0:n%10>=2&&(n%100<10||n%100>=20)?1:2", nplurals := 3,
    form := fun n =>
      if n % 10 = 0 ∨ (11 ≤ n % 100 ∧ n % 100 ≤ 19) then 2 else if n % 10 = 1 then 0 else 1 },
  -- "Three forms, special cases for numbers ending in 1 and 2, 3, 4, except those ending in 1[1-4]"
  { text := b!"n%10==1&&n%100!=11?0:n%10>=2&&n%10<=4&&(n%100<10||n%100>=20)?1:2", nplurals := 3,
    form := fun n =>
      if 11 ≤ n % 100 ∧ n % 100 ≤ 14 then 2
      else if n % 10 = 1 then 0
      else if n % 10 = 2 ∨ n % 10 = 3 ∨ n % 10 = 4 then 1 else 2 },
  -- "Three forms, special cases for 1 and 2, 3, 4" (Czech, Slovak)
  { text := b!"(n==1)?0:(n>=2&&n<=4)?1:2", nplurals := 3,
    form := fun n => if n = 1 then 0 else if n = 2 ∨ n = 3 ∨ n = 4 then 1 else 2 },
  -- "Three forms, special case for one and some numbers ending in 2, 3, or 4" (Polish)
  { text := b!"n==1?0:n%10>=2&&n%10<=4&&(n%100<10||n%100>=20)?1:2", nplurals := 3,
    form := fun n =>
      if n = 1 then 0
      else if (n % 10 = 2 ∨ n % 10 = 3 ∨ n % 10 = 4) ∧
        ¬ (n % 100 = 12 ∨ n % 100 = 13 ∨ n % 100 = 14) then 1 else 2 },
  -- "Four forms, special case for one and all numbers ending in 02, 03, or 04" (Slovenian)
  { text := b!"n%100==1?0:n%100==2?1:n%100==3||n%100==4?2:3", nplurals := 4,
    form := fun n =>
      if n % 100 = 1 then 0 else if n % 100 = 2 then 1
      else if n % 100 = 3 ∨ n % 100 = 4 then 2 else 3 },
  -- "Six forms, special cases for one, two, all numbers ending in 02, 03, … 10, all numbers ending
  -- in 11 … 99, and others" (Arabic)
  { text := b!"n==0?0:n==1?1:n==2?2:n%100>=3&&n%100<=10?3:n%100>=11?4:5", nplurals := 6,
    form := fun n =>
      if n ≤ 2 then n
      else if n % 100 ≤ 2 then 5 else if n % 100 ≤ 10 then 3 else 4 }]

end Verif.Gnu
