import Verif.Model.File
/-!
# The GNU MO file format

An independent description of MO files after the GNU gettext manual: numbers and strings at positions
of the content, and the messages they stand for.
-/
namespace Verif.Tr
open Verif

/-- The bytes `s` are at position `pos` of `c`. -/
def At (c : Str) (pos : Nat) (s : Str) : Prop := ∃ pre post, c = pre ++ s ++ post ∧ pre.length = pos

/-- The 16-bit number at `pos`, most significant byte first if `be`. -/
def Num16 (be : Bool) (c : Str) (pos v : Nat) : Prop :=
  ∃ x y, At c pos [x, y] ∧ v = if be then x.toNat * 256 + y.toNat else y.toNat * 256 + x.toNat

/-- The 32-bit number at `pos`, most significant byte first if `be`. -/
def Num32 (be : Bool) (c : Str) (pos v : Nat) : Prop :=
  ∃ w x y z, At c pos [w, x, y, z] ∧
    v = if be then ((w.toNat * 256 + x.toNat) * 256 + y.toNat) * 256 + z.toNat
        else ((z.toNat * 256 + y.toNat) * 256 + x.toNat) * 256 + w.toNat

/-- The `i`-th descriptor of the table at `pos` has this length and offset. -/
def Descr (be : Bool) (c : Str) (pos i len off : Nat) : Prop :=
  Num32 be c (pos + 8 * i) len ∧ Num32 be c (pos + 8 * i + 4) off

/-- The descriptor says that `s` is at some place, and it is there (the empty string is
everywhere). -/
def Described (be : Bool) (c : Str) (pos i : Nat) (s : Str) : Prop :=
  ∃ off, Descr be c pos i s.length off ∧ (s = [] ∨ At c off s)

/-- `c` is an MO file in byte order `be` with these original and translated strings. -/
def MoFile (be : Bool) (c : Str) (ps : List (Str × Str)) : Prop :=
  At c 0 (if be then [0x95, 0x04, 0x12, 0xde] else [0xde, 0x12, 0x04, 0x95]) ∧
  28 ≤ c.length ∧
  (∃ major minor, Num16 be c 4 major ∧ Num16 be c 6 minor ∧ major ≤ 1 ∧ minor ≤ 1) ∧
  ∃ O T, Num32 be c 8 ps.length ∧ Num32 be c 12 O ∧ Num32 be c 16 T ∧
    ∀ i p, ps[i]? = some p → Described be c O i p.1 ∧ Described be c T i p.2

/-- The original string without context, and the translation, describe this message: a NUL separates
the plural id, and then the plural forms. -/
def BodyOf (rest str : Str) (e : Entry) : Prop :=
  (0 ∉ rest ∧ e.id = rest ∧ e.isPlural = false ∧ e.id2 = [] ∧ e.str = str ∧ e.strN = []) ∨
  (∃ id id2, rest = id ++ 0 :: id2 ∧ 0 ∉ id ∧ e.id = id ∧ e.isPlural = true ∧ e.id2 = id2 ∧ e.str = [] ∧
    e.strN ≠ [] ∧ (∀ s ∈ e.strN, 0 ∉ s) ∧ str = List.intercalate [0] e.strN)

/-- The original string `id` and the translation `str` describe the entry `e`: an EOT separates the
context. -/
def MoMsg (id str : Str) (e : Entry) : Prop :=
  e.cmts = [] ∧
  ((4 ∉ id ∧ e.ctxt = [] ∧ BodyOf id str e) ∨
   (∃ ctxt rest, id = ctxt ++ 4 :: rest ∧ 4 ∉ ctxt ∧ e.ctxt = ctxt ∧ BodyOf rest str e))

/-- The original string of an entry: its id, after the context and before the plural id if any. -/
def origOf (e : Entry) : Str :=
  (if e.ctxt = [] then e.id else e.ctxt ++ 4 :: e.id) ++ (if e.isPlural then 0 :: e.id2 else [])

/-- The translated string of an entry: its forms if it has any. -/
def transOf (e : Entry) : Str := if e.strN = [] then e.str else List.intercalate [0] e.strN

end Verif.Tr
