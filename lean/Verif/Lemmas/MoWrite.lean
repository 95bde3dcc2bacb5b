import Verif.Lemmas.Mo
/-! # Writing MO files, in either byte order -/
namespace Verif.Tr
open Verif

/-- A 32-bit number in this byte order. -/
def putBe (be : Bool) (n : Nat) : Str := if be then (put32 n).reverse else put32 n

theorem putBe_length (be : Bool) (n : Nat) : (putBe be n).length = 4 := by cases be <;> rfl

theorem uintOf_putBe (be : Bool) (n : Nat) (h : n < 4294967296) : uintOf be (putBe be n) = n := by
  have : uintOf be (putBe be n) = leNat (put32 n) := by
    cases be
    · rfl
    · simp [uintOf, putBe]
  rw [this]
  simp only [put32, leNat, UInt8.toNat_ofNat']
  omega

theorem num32_putBe {be : Bool} {c : Str} {pos n : Nat} (ha : At c pos (putBe be n)) (h : n < 4294967296) :
    Num32 be c pos n := (num32_iff ..).mpr ⟨_, putBe_length be n, ha, uintOf_putBe be n h⟩

/-- A table of NUL-terminated strings from `off` on. -/
def tableBe (be : Bool) : Nat → List Str → Str
  | _, [] => []
  | off, s :: ss => putBe be s.length ++ putBe be off ++ tableBe be (off + (s.length + 1)) ss

theorem tableBe_false (off : Nat) (ss : List Str) : tableBe false off ss = writeTable off ss := by
  induction ss generalizing off with
  | nil => rfl
  | cons s ss ih => simp only [tableBe, writeTable, ih]; rfl

theorem tableBe_length (be : Bool) (off : Nat) (ss : List Str) : (tableBe be off ss).length = 8 * ss.length := by
  induction ss generalizing off with
  | nil => rfl
  | cons s ss ih => simp only [tableBe, List.length_append, ih, putBe_length, List.length_cons]; omega

theorem offsetAfter_eq (off : Nat) (ss : List Str) : offsetAfter off ss = off + (writeStrings ss).length := by
  induction ss generalizing off with
  | nil => rfl
  | cons s ss ih =>
    rw [offsetAfter, ih]
    simp only [writeStrings, List.flatMap_cons, List.length_append, List.length_cons, List.length_nil]
    omega

/-- Where the `i`-th of these NUL-terminated strings is. -/
def offsetOf (off : Nat) (ss : List Str) (i : Nat) : Nat := off + (writeStrings (ss.take i)).length

theorem writeStrings_append (a b : List Str) : writeStrings (a ++ b) = writeStrings a ++ writeStrings b := by
  simp [writeStrings]

theorem offsetOf_le (off : Nat) (ss : List Str) (i : Nat) : off ≤ offsetOf off ss i := Nat.le_add_right _ _

theorem getElem?_split {ss : List Str} {i : Nat} {s : Str} (h : ss[i]? = some s) :
    ss = ss.take i ++ s :: ss.drop (i + 1) := by
  obtain ⟨hi, rfl⟩ := List.getElem?_eq_some_iff.mp h
  rw [← List.drop_eq_getElem_cons hi, List.take_append_drop]

theorem strings_at {c : Str} {off : Nat} {ss : List Str} (ha : At c off (writeStrings ss)) {i : Nat} {s : Str}
    (h : ss[i]? = some s) : At c (offsetOf off ss i) (s ++ [0]) := by
  rw [getElem?_split h, writeStrings_append] at ha
  have h2 := at_right ha
  have h3 : writeStrings (s :: ss.drop (i + 1)) = (s ++ [0]) ++ writeStrings (ss.drop (i + 1)) := rfl
  rw [h3] at h2
  exact at_left h2

theorem offsetOf_step {ss : List Str} {i : Nat} {s : Str} (off : Nat) (h : ss[i]? = some s) :
    offsetOf off ss (i + 1) = offsetOf off ss i + s.length + 1 := by
  unfold offsetOf
  rw [List.take_add_one, h]
  simp [writeStrings]
  omega

theorem offsetOf_mono (off : Nat) (ss : List Str) {i j : Nat} (h : i ≤ j) : offsetOf off ss i ≤ offsetOf off ss j := by
  unfold offsetOf
  have : ss.take j = ss.take i ++ (ss.take j).drop i := by
    conv_lhs => rw [← List.take_append_drop i (ss.take j)]
    rw [List.take_take, Nat.min_eq_left h]
  rw [this, writeStrings_append]
  simp

theorem offsetOf_end (off : Nat) (ss : List Str) (i : Nat) : offsetOf off ss i ≤ off + (writeStrings ss).length := by
  unfold offsetOf
  conv_rhs => rw [← List.take_append_drop i ss, writeStrings_append]
  simp

theorem table_descr {be : Bool} {c : Str} {pos off : Nat} {ss : List Str} (ha : At c pos (tableBe be off ss))
    (hlt : off + (writeStrings ss).length < 4294967296) {i : Nat} {s : Str} (h : ss[i]? = some s) :
    Descr be c pos i s.length (offsetOf off ss i) := by
  induction ss generalizing pos off i with
  | nil => simp at h
  | cons t ss ih =>
    rw [tableBe, List.append_assoc] at ha
    have hlt' : off + (t.length + 1) + (writeStrings ss).length < 4294967296 := by
      simp only [writeStrings, List.flatMap_cons, List.length_append, List.length_cons, List.length_nil] at hlt ⊢
      omega
    have a1 := at_left ha
    have a2 := at_right ha
    rw [putBe_length] at a2
    cases i with
    | zero =>
      simp only [List.getElem?_cons_zero, Option.some.injEq] at h
      subst h
      have : offsetOf off (t :: ss) 0 = off := rfl
      rw [this]
      exact ⟨num32_putBe a1 (by omega), num32_putBe (at_left a2) (by omega)⟩
    | succ i =>
      simp only [List.getElem?_cons_succ] at h
      have a3 := at_right a2
      rw [putBe_length] at a3
      have := ih a3 hlt' h
      have e : offsetOf (off + (t.length + 1)) ss i = offsetOf off (t :: ss) (i + 1) := by
        simp [offsetOf, writeStrings]; omega
      rw [e] at this
      unfold Descr at this ⊢
      rw [show pos + 4 + 4 + 8 * i = pos + 8 * (i + 1) by omega] at this
      exact this

/-- The MO file of these messages in this byte order: a fixed header, `extra` bytes, the two tables
and the strings. -/
def moImage (be : Bool) (extra : Str) (ps : List (Str × Str)) : Str :=
  let n := ps.length
  let o := 28 + extra.length
  let ids := ps.map Prod.fst
  let strs := ps.map Prod.snd
  magicOf be ++ (putBe be 0 ++ (putBe be n ++ (putBe be o ++ (putBe be (o + n * 8) ++ (putBe be 0 ++ (putBe be 0
    ++ (extra ++ (tableBe be (o + n * 8 * 2) ids ++ (tableBe be (offsetAfter (o + n * 8 * 2) ids) strs
    ++ (writeStrings ids ++ writeStrings strs))))))))))

theorem moImage_length (be : Bool) (extra : Str) (ps : List (Str × Str)) :
    (moImage be extra ps).length = 28 + extra.length + ps.length * 8 * 2 +
      (writeStrings (ps.map Prod.fst)).length + (writeStrings (ps.map Prod.snd)).length := by
  have hm : (magicOf be).length = 4 := by cases be <;> rfl
  simp only [moImage, List.length_append, putBe_length, tableBe_length, List.length_map, hm]
  omega

/-- The extra bytes of `SaveAsMo`. -/
def moExtra : Str := put32 moFlag.length ++ moFlag

theorem saveMo_eq (es : List Entry) :
    saveMo es = moImage false moExtra (es.map fun e => (moMsgID e, moMsgStr e)) := by
  have h1 : put32 moMagic = magicOf false := by decide
  have h2 : offsetO = 28 + moExtra.length := by decide
  have h3 : ∀ n, putBe false n = put32 n := fun _ => rfl
  simp only [saveMo, moHeader, moImage, tableBe_false, h1, h2, h3, List.length_map, List.map_map, moExtra,
    List.append_assoc]
  rfl

/-- Where the parts of the image are. -/
structure ImageParts (be : Bool) (c : Str) (o t offI offS : Nat) (ps : List (Str × Str)) : Prop where
  magic : At c 0 (magicOf be)
  rev : At c 4 (putBe be 0)
  count : At c 8 (putBe be ps.length)
  posO : At c 12 (putBe be o)
  posT : At c 16 (putBe be t)
  hashSize : At c 20 (putBe be 0)
  hashOff : At c 24 (putBe be 0)
  tableO : At c o (tableBe be offI (ps.map Prod.fst))
  tableT : At c t (tableBe be offS (ps.map Prod.snd))
  ids : At c offI (writeStrings (ps.map Prod.fst))
  strs : At c offS (writeStrings (ps.map Prod.snd))

theorem at_zero (c : Str) : At c 0 c := ⟨[], [], by simp, rfl⟩

theorem moImage_parts (be : Bool) (extra : Str) (ps : List (Str × Str)) :
    ImageParts be (moImage be extra ps) (28 + extra.length) (28 + extra.length + ps.length * 8)
      (28 + extra.length + ps.length * 8 * 2)
      (28 + extra.length + ps.length * 8 * 2 + (writeStrings (ps.map Prod.fst)).length) ps := by
  have hm : (magicOf be).length = 4 := by cases be <;> rfl
  have h := at_zero (moImage be extra ps)
  generalize hc : moImage be extra ps = c at h ⊢
  rw [show At c 0 c = At c 0 (moImage be extra ps) by rw [hc]] at h
  unfold moImage at h
  dsimp only at h
  have a0 := at_left h
  have h := at_right h; rw [hm] at h
  have a1 := at_left h
  have h := at_right h; rw [putBe_length] at h
  have a2 := at_left h
  have h := at_right h; rw [putBe_length] at h
  have a3 := at_left h
  have h := at_right h; rw [putBe_length] at h
  have a4 := at_left h
  have h := at_right h; rw [putBe_length] at h
  have a5 := at_left h
  have h := at_right h; rw [putBe_length] at h
  have a6 := at_left h
  have h := at_right h; rw [putBe_length] at h
  have h := at_right h
  have a7 := at_left h
  have h := at_right h; rw [tableBe_length, List.length_map] at h
  have a8 := at_left h
  have h := at_right h; rw [tableBe_length, List.length_map] at h
  have a9 := at_left h
  have a10 := at_right h
  rw [offsetAfter_eq] at a8
  have e : ∀ x : Nat, 0 + 4 + 4 + 4 + 4 + 4 + 4 + 4 + x = 28 + x := by intro x; omega
  rw [e] at a7 a8 a9 a10
  refine ⟨a0, a1, a2, a3, a4, a5, a6, a7, ?_, ?_, ?_⟩
  · rw [show 28 + extra.length + ps.length * 8 = 28 + extra.length + 8 * ps.length by omega]; exact a8
  · rw [show 28 + extra.length + ps.length * 8 * 2 = 28 + extra.length + 8 * ps.length + 8 * ps.length by omega]
    exact a9
  · rw [show 28 + extra.length + ps.length * 8 * 2 + (writeStrings (ps.map Prod.fst)).length =
      28 + extra.length + 8 * ps.length + 8 * ps.length + (writeStrings (ps.map Prod.fst)).length by omega]
    exact a10

theorem moImage_file (be : Bool) (extra : Str) (ps : List (Str × Str))
    (hlt : (moImage be extra ps).length < 4294967296) : MoFile be (moImage be extra ps) ps := by
  have P := moImage_parts be extra ps
  have hl := moImage_length be extra ps
  generalize moImage be extra ps = c at P hl hlt ⊢
  refine ⟨P.magic, by omega, ⟨0, 0, ?_, ?_, by omega, by omega⟩, 28 + extra.length,
    28 + extra.length + ps.length * 8, num32_putBe P.count (by omega), num32_putBe P.posO (by omega),
    num32_putBe P.posT (by omega), ?_⟩
  · have := at_left (s := [0, 0]) (t := [0, 0]) (by
      have := P.rev; cases be <;> exact this)
    exact ⟨0, 0, this, by cases be <;> rfl⟩
  · have := at_right (s := [0, 0]) (t := [0, 0]) (by
      have := P.rev; cases be <;> exact this)
    exact ⟨0, 0, this, by cases be <;> rfl⟩
  · intro i p hi
    obtain ⟨g1, g2⟩ := getElem?_map_fst hi
    exact ⟨⟨_, table_descr P.tableO (by omega) g1, .inr (at_left (strings_at P.ids g1))⟩,
      ⟨_, table_descr P.tableT (by omega) g2, .inr (at_left (strings_at P.strs g2))⟩⟩

end Verif.Tr
