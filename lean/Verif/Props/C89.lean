import Verif.Model.MoError
import Verif.Spec.MoError
import Verif.Lemmas.Mo
import Verif.Props.C86
/-! # C89: what the error about a malformed MO file says -/
namespace Verif.Tr
open Verif

/-- How a lack of data at `pos` is reported. -/
def causeAt (c : Str) (pos : Option Nat) : Option Nat :=
  pos.map fun p => if c.length ≤ p then Errors.eof else unexpectedEof

theorem readFull_none_iff (c : Str) (pos n : Nat) : readFull c pos n = none ↔ Lacks c pos n := by
  unfold readFull Lacks
  split
  · simp_all
  · split
    · simp; omega
    · simp; omega

theorem readE_error (c : Str) (pos n : Nat) (h : Lacks c pos n) :
    readE c pos n = .error (if c.length ≤ pos then Errors.eof else unexpectedEof) := by
  unfold readE
  rw [(readFull_none_iff c pos n).mpr h]

theorem readE_ok (c : Str) (pos n : Nat) (h : ¬ Lacks c pos n) :
    ∃ s, readFull c pos n = some s ∧ readE c pos n = .ok s := by
  cases hr : readFull c pos n with
  | none => exact absurd ((readFull_none_iff c pos n).mp hr) h
  | some s => exact ⟨s, rfl, by unfold readE; rw [hr]⟩

/-! ## The same results as the reader without messages -/

theorem readTableE_ok (be : Bool) (c name : Str) : ∀ (k pos i : Nat),
    (∀ t, readTableE be c name pos i k = .ok t ↔ readTable be c pos k = some t)
  | 0, pos, i, t => by simp [readTableE, readTable]
  | k + 1, pos, i, t => by
    rw [readTableE, readTable]
    by_cases h : Lacks c pos 8
    · rw [readE_error c pos 8 h, (readFull_none_iff c pos 8).mpr h]; simp
    · obtain ⟨s, h1, h2⟩ := readE_ok c pos 8 h
      rw [h1, h2]
      dsimp only
      have ih := readTableE_ok be c name k (pos + 8) (i + 1)
      cases hr : readTable be c (pos + 8) k with
      | some t' => rw [(ih t').mpr hr]; simp
      | none =>
        cases he : readTableE be c name (pos + 8) (i + 1) k with
        | error e => simp
        | ok t' => rw [(ih t').mp he] at hr; cases hr

/-- A result with its error forgotten. -/
def forget : Option (Except MoErr File) → Res File
  | none => .panic
  | some (.error _) => .err
  | some (.ok f) => .ok f

theorem readMsgsE_forget (c : Str) (ids strs : List LenOff) : ∀ (k i : Nat) (f : File),
    forget (readMsgsE c ids strs i k f) = readMsgs c ids strs i k f
  | 0, i, f => rfl
  | k + 1, i, f => by
    rw [readMsgsE, readMsgs]
    cases ids[i]? with
    | none => rfl
    | some a =>
      dsimp only
      by_cases h : Lacks c a.off a.len
      · rw [readE_error c _ _ h, (readFull_none_iff c _ _).mpr h]; rfl
      · obtain ⟨s, h1, h2⟩ := readE_ok c _ _ h
        rw [h1, h2]
        dsimp only
        cases strs[i]? with
        | none => rfl
        | some b =>
          dsimp only
          by_cases h : Lacks c b.off b.len
          · rw [readE_error c _ _ h, (readFull_none_iff c _ _).mpr h]; rfl
          · obtain ⟨s', h1, h2⟩ := readE_ok c _ _ h
            rw [h1, h2]
            exact readMsgsE_forget c ids strs k (i + 1) _

theorem readMoBodyE_forget (be : Bool) (c : Str) : forget (readMoBodyE be c) = readMoBody be c := by
  unfold readMoBodyE readMoBody
  by_cases h : Lacks c 4 24
  · rw [readE_error c _ _ h, (readFull_none_iff c _ _).mpr h]; rfl
  · obtain ⟨s, h1, h2⟩ := readE_ok c _ _ h
    rw [h1, h2]
    dsimp only
    split
    · rfl
    · split
      · rfl
      · have hi := readTableE_ok be c b!"msg_id" (uintOf be ((s.drop 4).take 4)) (uintOf be ((s.drop 8).take 4)) 0
        have hs := readTableE_ok be c b!"msg_str" (uintOf be ((s.drop 4).take 4)) (uintOf be ((s.drop 12).take 4)) 0
        cases h3 : readTableE be c b!"msg_id" (uintOf be ((s.drop 8).take 4)) 0 (uintOf be ((s.drop 4).take 4)) with
        | error e =>
          cases h4 : readTable be c (uintOf be ((s.drop 8).take 4)) (uintOf be ((s.drop 4).take 4)) with
          | none => rfl
          | some t => rw [(hi t).mpr h4] at h3; cases h3
        | ok ids =>
          rw [(hi ids).mp h3]
          dsimp only
          cases h5 : readTableE be c b!"msg_str" (uintOf be ((s.drop 12).take 4)) 0 (uintOf be ((s.drop 4).take 4)) with
          | error e =>
            cases h4 : readTable be c (uintOf be ((s.drop 12).take 4)) (uintOf be ((s.drop 4).take 4)) with
            | none => rfl
            | some t => rw [(hs t).mpr h4] at h5; cases h5
          | ok strs =>
            rw [(hs strs).mp h5]
            exact readMsgsE_forget c ids strs _ 0 {}

theorem readMoE_forget (c : Str) : forget (readMoE c) = readMo c := by
  unfold readMoE readMo
  by_cases h : Lacks c 0 4
  · rw [readE_error c _ _ h, (readFull_none_iff c _ _).mpr h]; rfl
  · obtain ⟨s, h1, h2⟩ := readE_ok c _ _ h
    rw [h1, h2]
    dsimp only
    split
    · exact readMoBodyE_forget true c
    · split
      · exact readMoBodyE_forget false c
      · rfl

/-! ## Errors of the tables and of the messages -/

theorem readTableE_error (be : Bool) (c name : Str) : ∀ (k pos i : Nat) (e : MoErr),
    readTableE be c name pos i k = .error e ↔ ∃ j < k, (∀ j' < j, ¬ Lacks c (pos + 8 * j') 8) ∧ Lacks c (pos + 8 * j) 8 ∧
      e = ⟨b!"failed to read " ++ name ++ b!"[" ++ Num.natDigits (i + j) ++ b!"] length & offset", causeAt c (some (pos + 8 * j))⟩
  | 0, pos, i, e => by simp [readTableE]
  | k + 1, pos, i, e => by
    rw [readTableE]
    by_cases h : Lacks c pos 8
    · rw [readE_error c _ _ h]
      dsimp only
      constructor
      · intro he
        cases he
        exact ⟨0, by omega, by intro j' hj; omega, h, rfl⟩
      · rintro ⟨j, -, h1, -, rfl⟩
        cases j with
        | zero => rfl
        | succ j => exact absurd h (h1 0 (by omega))
    · obtain ⟨s, h1, h2⟩ := readE_ok c _ _ h
      rw [h2]
      dsimp only
      have ih := readTableE_error be c name k (pos + 8) (i + 1) e
      have hsplit : (match readTableE be c name (pos + 8) (i + 1) k with
          | .error e => (.error e : Except MoErr (List LenOff))
          | .ok t => .ok ({ len := uintOf be (s.take 4), off := uintOf be (s.drop 4) } :: t)) = .error e ↔
          readTableE be c name (pos + 8) (i + 1) k = .error e := by
        cases readTableE be c name (pos + 8) (i + 1) k with
        | error e' => exact Iff.rfl
        | ok t => simp
      refine Iff.trans hsplit (ih.trans ?_)
      have sh : ∀ j, pos + 8 + 8 * j = pos + 8 * (j + 1) := fun j => by omega
      constructor
      · rintro ⟨j, hj, h3, h4, rfl⟩
        refine ⟨j + 1, by omega, ?_, by rw [← sh]; exact h4, by rw [← sh, show i + 1 + j = i + (j + 1) by omega]⟩
        intro j' hj'
        cases j' with
        | zero => exact h
        | succ j' => rw [← sh]; exact h3 j' (by omega)
      · rintro ⟨j, hj, h3, h4, rfl⟩
        cases j with
        | zero => exact absurd h4 h
        | succ j =>
          refine ⟨j, by omega, ?_, by rw [sh]; exact h4, by rw [sh, show i + 1 + j = i + (j + 1) by omega]⟩
          intro j' hj'
          rw [sh]
          exact h3 (j' + 1) (by omega)

/-- The string of a descriptor is there. -/
def There (c : Str) (los : List LenOff) (i : Nat) : Prop := ∃ a, los[i]? = some a ∧ ¬ Lacks c a.off a.len

theorem readMsgsE_error (c : Str) (ids strs : List LenOff) : ∀ (k i : Nat) (f : File) (e : MoErr),
    i + k ≤ ids.length → i + k ≤ strs.length →
    (readMsgsE c ids strs i k f = some (.error e) ↔ ∃ j < k, (∀ j' < j, There c ids (i + j') ∧ There c strs (i + j')) ∧
      ((∃ a, ids[i + j]? = some a ∧ Lacks c a.off a.len ∧
          e = ⟨b!"failed to read msg_id[" ++ Num.natDigits (i + j) ++ b!"]", causeAt c (some a.off)⟩) ∨
       (There c ids (i + j) ∧ ∃ a, strs[i + j]? = some a ∧ Lacks c a.off a.len ∧
          e = ⟨b!"failed to read msg_str[" ++ Num.natDigits (i + j) ++ b!"]", causeAt c (some a.off)⟩)))
  | 0, i, f, e, _, _ => by simp [readMsgsE]
  | k + 1, i, f, e, hi, hs => by
    rw [readMsgsE]
    have h1 : ids[i]? = some ids[i] := List.getElem?_eq_getElem (by omega)
    have h2 : strs[i]? = some strs[i] := List.getElem?_eq_getElem (by omega)
    generalize ids[i] = a at h1
    generalize strs[i] = b at h2
    rw [h1]
    dsimp only
    by_cases hla : Lacks c a.off a.len
    · rw [readE_error c _ _ hla]
      constructor
      · intro he
        cases he
        exact ⟨0, by omega, by intro j' hj; omega, .inl ⟨a, h1, hla, rfl⟩⟩
      · rintro ⟨j, -, h3, h4⟩
        cases j with
        | zero =>
          rcases h4 with ⟨a', ha', -, rfl⟩ | ⟨⟨a', ha', hn⟩, -⟩
          · rw [Nat.add_zero, h1] at ha'; cases ha'; rfl
          · rw [Nat.add_zero, h1] at ha'; cases ha'; exact absurd hla hn
        | succ j =>
          obtain ⟨⟨a', ha', hn⟩, -⟩ := h3 0 (by omega)
          rw [Nat.add_zero, h1] at ha'; cases ha'; exact absurd hla hn
    · obtain ⟨s, -, hs2⟩ := readE_ok c _ _ hla
      rw [hs2, h2]
      dsimp only
      by_cases hlb : Lacks c b.off b.len
      · rw [readE_error c _ _ hlb]
        constructor
        · intro he
          cases he
          exact ⟨0, by omega, by intro j' hj; omega, .inr ⟨⟨a, h1, hla⟩, b, h2, hlb, rfl⟩⟩
        · rintro ⟨j, -, h3, h4⟩
          cases j with
          | zero =>
            rcases h4 with ⟨a', ha', hn, -⟩ | ⟨-, b', hb', -, rfl⟩
            · rw [Nat.add_zero, h1] at ha'; cases ha'; exact absurd hn hla
            · rw [Nat.add_zero, h2] at hb'; cases hb'; rfl
          | succ j =>
            obtain ⟨-, ⟨b', hb', hn⟩⟩ := h3 0 (by omega)
            rw [Nat.add_zero, h2] at hb'; cases hb'; exact absurd hlb hn
      · obtain ⟨s', -, hs3⟩ := readE_ok c _ _ hlb
        rw [hs3]
        dsimp only
        rw [readMsgsE_error c ids strs k (i + 1) _ e (by omega) (by omega)]
        have sh : ∀ j, i + 1 + j = i + (j + 1) := fun j => by omega
        constructor
        · rintro ⟨j, hj, h3, h4⟩
          refine ⟨j + 1, by omega, ?_, by rw [← sh]; exact h4⟩
          intro j' hj'
          cases j' with
          | zero => exact ⟨⟨a, h1, hla⟩, ⟨b, h2, hlb⟩⟩
          | succ j' => rw [← sh]; exact h3 j' (by omega)
        · rintro ⟨j, hj, h3, h4⟩
          cases j with
          | zero =>
            rcases h4 with ⟨a', ha', hn, -⟩ | ⟨-, b', hb', hn, -⟩
            · rw [Nat.add_zero, h1] at ha'; cases ha'; exact absurd hn hla
            · rw [Nat.add_zero, h2] at hb'; cases hb'; exact absurd hn hlb
          | succ j =>
            refine ⟨j, by omega, ?_, by rw [sh]; exact h4⟩
            intro j' hj'
            rw [sh]
            exact h3 (j' + 1) (by omega)

theorem table_ok (be : Bool) (c name : Str) (pos n : Nat) (h : ∀ j < n, ¬ Lacks c (pos + 8 * j) 8) :
    ∃ los, readTableE be c name pos 0 n = .ok los ∧ los.length = n ∧
      ∀ i lo, los[i]? = some lo → Descr be c pos i lo.len lo.off := by
  cases hr : readTableE be c name pos 0 n with
  | error e =>
    obtain ⟨j, hj, -, hl, -⟩ := (readTableE_error be c name n pos 0 e).mp hr
    exact absurd hl (h j hj)
  | ok los => exact ⟨los, rfl, (readTable_iff be c n pos los).mp ((readTableE_ok be c name n pos 0 los).mp hr)⟩

theorem table_whole (be : Bool) (c name : Str) (pos n : Nat) (los : List LenOff)
    (h : readTableE be c name pos 0 n = .ok los) : ∀ j < n, ¬ Lacks c (pos + 8 * j) 8 := by
  intro j hj hl
  have hex : ∃ j, j < n ∧ Lacks c (pos + 8 * j) 8 := ⟨j, hj, hl⟩
  obtain ⟨j, hj, h1, h2⟩ : ∃ j < n, (∀ j' < j, ¬ Lacks c (pos + 8 * j') 8) ∧ Lacks c (pos + 8 * j) 8 := by
    classical
    refine ⟨Nat.find hex, (Nat.find_spec hex).1, ?_, (Nat.find_spec hex).2⟩
    intro j' hj' hl'
    exact Nat.find_min hex hj' ⟨by have := (Nat.find_spec hex).1; omega, hl'⟩
  rw [(readTableE_error be c name n pos 0 _).mpr ⟨j, hj, h1, h2, rfl⟩] at h
  cases h

theorem descr_unique {be : Bool} {c : Str} {pos i l o l' o' : Nat} (h : Descr be c pos i l o) (h' : Descr be c pos i l' o') :
    l = l' ∧ o = o' := ⟨num32_unique h.1 h'.1, num32_unique h.2 h'.2⟩

theorem there_iff (be : Bool) (c : Str) (pos n : Nat) (los : List LenOff) (hl : los.length = n)
    (h : ∀ i lo, los[i]? = some lo → Descr be c pos i lo.len lo.off) (i : Nat) (hi : i < n) :
    There c los i ↔ Whole be c pos i := by
  constructor
  · rintro ⟨a, ha, hn⟩
    exact ⟨a.len, a.off, h i a ha, hn⟩
  · rintro ⟨l, o, hd, hn⟩
    have hg : los[i]? = some los[i] := List.getElem?_eq_getElem (by omega)
    obtain ⟨rfl, rfl⟩ := descr_unique hd (h i _ hg)
    exact ⟨_, hg, hn⟩

theorem readMoE_magic (be : Bool) (c : Str) (h : At c 0 (magicOf be)) : readMoE c = readMoBodyE be c := by
  have hl : (magicOf be).length = 4 := by cases be <;> rfl
  unfold readMoE readE
  rw [(readFull_iff c 0 4 _).mpr ⟨hl, .inr h⟩]
  dsimp only
  rw [(magic_iff be _ hl).mpr rfl]
  cases be
  · rw [if_neg (by decide), if_pos (by decide)]
  · rw [if_pos (by decide)]

theorem readMoBodyE_head (be : Bool) (c : Str) (hlen : 28 ≤ c.length) : ∃ major minor n O T,
    Num16 be c 4 major ∧ Num16 be c 6 minor ∧ Num32 be c 8 n ∧ Num32 be c 12 O ∧ Num32 be c 16 T ∧
    readMoBodyE be c =
      if major ≠ 0 ∧ major ≠ 1 then some (.error ⟨b!"unsopported major version: " ++ Num.natDigits major, none⟩)
      else if minor ≠ 0 ∧ minor ≠ 1 then some (.error ⟨b!"unsopported minor version: " ++ Num.natDigits minor, none⟩)
      else match readTableE be c b!"msg_id" O 0 n with
        | .error e => some (.error e)
        | .ok ids =>
          match readTableE be c b!"msg_str" T 0 n with
          | .error e => some (.error e)
          | .ok strs => readMsgsE c ids strs 0 n {} := by
  obtain ⟨s, h1, h2⟩ := readE_ok c 4 24 (by unfold Lacks; omega)
  obtain ⟨hl, ha⟩ := readFull_some_at h1 (by omega)
  obtain ⟨f1, f2, f3, f4, f5⟩ := header_fields be c s hl ha
  exact ⟨_, _, _, _, _, f1, f2, f3, f4, f5, by unfold readMoBodyE; rw [h2]; rfl⟩

/-- With a whole header, reading goes on with the tables. -/
theorem readMoE_head (be : Bool) (c : Str) (n O T : Nat) (h : MoHead be c n O T) : readMoE c =
    match readTableE be c b!"msg_id" O 0 n with
    | .error e => some (.error e)
    | .ok ids =>
      match readTableE be c b!"msg_str" T 0 n with
      | .error e => some (.error e)
      | .ok strs => readMsgsE c ids strs 0 n {} := by
  rw [readMoE_magic be c h.magic]
  obtain ⟨major, minor, n', O', T', f1, f2, f3, f4, f5, he⟩ := readMoBodyE_head be c h.length
  obtain ⟨ma, mi, g1, g2, h1, h2⟩ := h.version
  obtain rfl := num16_unique g1 f1
  obtain rfl := num16_unique g2 f2
  obtain rfl := num32_unique h.count f3
  obtain rfl := num32_unique h.ids f4
  obtain rfl := num32_unique h.strs f5
  rw [he, if_neg (by omega), if_neg (by omega)]

theorem readMoE_error (c : Str) (e : MoErr) :
    readMoE c = some (.error e) ↔ ∃ what pos, MoDefect c what pos ∧ e = ⟨what, causeAt c pos⟩ := by
  constructor
  · intro h
    by_cases h0 : Lacks c 0 4
    · unfold readMoE at h
      rw [readE_error c 0 4 h0] at h
      cases h
      exact ⟨_, _, .noMagic h0, rfl⟩
    · by_cases hm : ∃ be, At c 0 (magicOf be)
      · obtain ⟨be, hm⟩ := hm
        rw [readMoE_magic be c hm] at h
        by_cases h1 : Lacks c 4 24
        · unfold readMoBodyE at h
          rw [readE_error c 4 24 h1] at h
          cases h
          exact ⟨_, _, .header be hm h1, rfl⟩
        · have hlen : 28 ≤ c.length := by unfold Lacks at h1; omega
          obtain ⟨major, minor, n, O, T, f1, f2, f3, f4, f5, he⟩ := readMoBodyE_head be c hlen
          rw [he] at h
          split at h
          · cases h
            exact ⟨_, _, .major be major hm hlen f1 (by omega), rfl⟩
          · split at h
            · cases h
              exact ⟨_, _, .minor be major minor hm hlen f1 (by omega) f2 (by omega), rfl⟩
            · have hd : MoHead be c n O T := ⟨hm, hlen, ⟨major, minor, f1, f2, by omega, by omega⟩, f3, f4, f5⟩
              cases hi : readTableE be c b!"msg_id" O 0 n with
              | error e' =>
                rw [hi] at h
                cases h
                obtain ⟨j, hj, g1, g2, rfl⟩ := (readTableE_error be c _ n O 0 _).mp hi
                rw [Nat.zero_add]
                exact ⟨_, _, .idTable be n O T j hd hj g1 g2, rfl⟩
              | ok ids =>
                rw [hi] at h
                dsimp only at h
                have wi := table_whole be c _ O n ids hi
                obtain ⟨il, ii⟩ := (readTable_iff be c n O ids).mp ((readTableE_ok be c _ n O 0 ids).mp hi)
                cases hs : readTableE be c b!"msg_str" T 0 n with
                | error e' =>
                  rw [hs] at h
                  cases h
                  obtain ⟨j, hj, g1, g2, rfl⟩ := (readTableE_error be c _ n T 0 _).mp hs
                  rw [Nat.zero_add]
                  exact ⟨_, _, .strTable be n O T j hd wi hj g1 g2, rfl⟩
                | ok strs =>
                  rw [hs] at h
                  dsimp only at h
                  have ws := table_whole be c _ T n strs hs
                  obtain ⟨sl, ss⟩ := (readTable_iff be c n T strs).mp ((readTableE_ok be c _ n T 0 strs).mp hs)
                  obtain ⟨j, hj, g1, g2⟩ := (readMsgsE_error c ids strs n 0 {} e (by omega) (by omega)).mp h
                  simp only [Nat.zero_add] at g1 g2
                  have g1' : ∀ j' < j, Whole be c O j' ∧ Whole be c T j' := fun j' hj' =>
                    ⟨(there_iff be c O n ids il ii j' (by omega)).mp (g1 j' hj').1,
                     (there_iff be c T n strs sl ss j' (by omega)).mp (g1 j' hj').2⟩
                  rcases g2 with ⟨a, ha, hla, rfl⟩ | ⟨ht, a, ha, hla, rfl⟩
                  · exact ⟨_, _, .id be n O T j a.len a.off hd wi ws hj g1' (ii j a ha) hla, rfl⟩
                  · exact ⟨_, _, .str be n O T j a.len a.off hd wi ws hj g1'
                      ((there_iff be c O n ids il ii j hj).mp ht) (ss j a ha) hla, rfl⟩
      · obtain ⟨s, h1, h2⟩ := readE_ok c 0 4 h0
        obtain ⟨hl, ha⟩ := readFull_some_at h1 (by omega)
        have hb : uintOf false s ≠ moMagicBig := by
          intro hb
          exact hm ⟨true, by rw [← (magic_iff true s hl).mp hb]; exact ha⟩
        have hs : uintOf false s ≠ moMagic := by
          intro hb
          exact hm ⟨false, by rw [← (magic_iff false s hl).mp hb]; exact ha⟩
        unfold readMoE at h
        rw [h2] at h
        dsimp only at h
        rw [if_neg hb, if_neg hs] at h
        cases h
        exact ⟨_, _, .magic _ ((num32_iff ..).mpr ⟨s, hl, ha, rfl⟩) hs hb, rfl⟩
  · rintro ⟨what, pos, hd, rfl⟩
    cases hd with
    | noMagic h => unfold readMoE; rw [readE_error c 0 4 h]; rfl
    | magic v hv h1 h2 =>
      obtain ⟨s, hl, ha, rfl⟩ := (num32_iff ..).mp hv
      have hr := (readFull_iff c 0 4 s).mpr ⟨hl, .inr ha⟩
      unfold readMoE readE
      rw [hr]
      dsimp only
      rw [if_neg (show uintOf false s ≠ moMagicBig from h2), if_neg (show uintOf false s ≠ moMagic from h1)]; rfl
    | header be hm h =>
      rw [readMoE_magic be c hm]
      unfold readMoBodyE
      rw [readE_error c 4 24 h]; rfl
    | major be v hm hlen hv h1 =>
      rw [readMoE_magic be c hm]
      obtain ⟨major, minor, n, O, T, f1, f2, f3, f4, f5, he⟩ := readMoBodyE_head be c hlen
      obtain rfl := num16_unique hv f1
      rw [he, if_pos (by omega)]; rfl
    | minor be ma v hm hlen hma h0 hv h1 =>
      rw [readMoE_magic be c hm]
      obtain ⟨major, minor, n, O, T, f1, f2, f3, f4, f5, he⟩ := readMoBodyE_head be c hlen
      obtain rfl := num16_unique hma f1
      obtain rfl := num16_unique hv f2
      rw [he, if_neg (by omega), if_pos (by omega)]; rfl
    | idTable be n O T i hh hi h1 h2 =>
      rw [readMoE_head be c n O T hh, (readTableE_error be c _ n O 0 _).mpr ⟨i, hi, h1, h2, rfl⟩, Nat.zero_add]
      rfl
    | strTable be n O T i hh w hi h1 h2 =>
      obtain ⟨ids, e1, -, -⟩ := table_ok be c b!"msg_id" O n w
      rw [readMoE_head be c n O T hh, e1, (readTableE_error be c _ n T 0 _).mpr ⟨i, hi, h1, h2, rfl⟩, Nat.zero_add]
      rfl
    | id be n O T i len off hh w1 w2 hi hw hd hl =>
      obtain ⟨ids, e1, il, ii⟩ := table_ok be c b!"msg_id" O n w1
      obtain ⟨strs, e2, sl, ss⟩ := table_ok be c b!"msg_str" T n w2
      rw [readMoE_head be c n O T hh, e1, e2]
      dsimp only
      rw [readMsgsE_error c ids strs n 0 {} _ (by omega) (by omega)]
      refine ⟨i, hi, ?_, .inl ?_⟩
      · intro j hj
        rw [Nat.zero_add]
        exact ⟨(there_iff be c O n ids il ii j (by omega)).mpr (hw j hj).1,
          (there_iff be c T n strs sl ss j (by omega)).mpr (hw j hj).2⟩
      · rw [Nat.zero_add]
        have hg : ids[i]? = some ids[i] := List.getElem?_eq_getElem (by omega)
        obtain ⟨rfl, rfl⟩ := descr_unique hd (ii i _ hg)
        exact ⟨_, hg, hl, rfl⟩
    | str be n O T i len off hh w1 w2 hi hw hwi hd hl =>
      obtain ⟨ids, e1, il, ii⟩ := table_ok be c b!"msg_id" O n w1
      obtain ⟨strs, e2, sl, ss⟩ := table_ok be c b!"msg_str" T n w2
      rw [readMoE_head be c n O T hh, e1, e2]
      dsimp only
      rw [readMsgsE_error c ids strs n 0 {} _ (by omega) (by omega)]
      refine ⟨i, hi, ?_, .inr ?_⟩
      · intro j hj
        rw [Nat.zero_add]
        exact ⟨(there_iff be c O n ids il ii j (by omega)).mpr (hw j hj).1,
          (there_iff be c T n strs sl ss j (by omega)).mpr (hw j hj).2⟩
      · rw [Nat.zero_add]
        have hg : strs[i]? = some strs[i] := List.getElem?_eq_getElem (by omega)
        obtain ⟨rfl, rfl⟩ := descr_unique hd (ss i _ hg)
        exact ⟨(there_iff be c O n ids il ii i hi).mpr hwi, _, hg, hl, rfl⟩

/-- **C89** `ReadMo` never panics, reads the same files as the reader without messages (C32), and refuses a
content exactly if something is wrong with it. -/
theorem C89_refused (c : Str) : readMoE c ≠ none ∧ (∀ f, readMoE c = some (.ok f) ↔ readMo c = .ok f) ∧
    ((∃ e, readMoE c = some (.error e)) ↔ ∃ what pos, MoDefect c what pos) := by
  have h := readMoE_forget c
  refine ⟨?_, ?_, ?_⟩
  · intro hn
    rw [hn] at h
    exact readMo_ne_panic c h.symm
  · intro f
    constructor
    · intro hf; rw [hf] at h; exact h.symm
    · intro hf
      rw [hf] at h
      cases hr : readMoE c with
      | none => rw [hr] at h; cases h
      | some r =>
        rw [hr] at h
        cases r with
        | error e => cases h
        | ok g => cases h; rfl
  · constructor
    · rintro ⟨e, he⟩
      obtain ⟨what, pos, hd, -⟩ := (readMoE_error c e).mp he
      exact ⟨what, pos, hd⟩
    · rintro ⟨what, pos, hd⟩
      exact ⟨_, (readMoE_error c _).mpr ⟨what, pos, hd, rfl⟩⟩

/-- **C89** The error names the first thing that is wrong with the content; it is `errReadMo` for
`errors.Is`, and it is `io.EOF` exactly if data are missing and the content ends before or at their
first byte. -/
theorem C89_message (c what : Str) (pos : Option Nat) (h : MoDefect c what pos) :
    ∃ e, readMoE c = some (.error e) ∧ e.text = defectText c what pos ∧
      Errors.is Errors.readMo e.err = true ∧
      (Errors.is Errors.eof e.err = true ↔ ∃ p, pos = some p ∧ c.length ≤ p) ∧
      (Errors.is unexpectedEof e.err = true ↔ ∃ p, pos = some p ∧ p < c.length) := by
  refine ⟨⟨what, causeAt c pos⟩, (readMoE_error c _).mpr ⟨what, pos, h, rfl⟩, ?_, ?_, ?_, ?_⟩
  · cases pos with
    | none => simp [MoErr.text, defectText, causeAt]
    | some p =>
      by_cases hp : c.length ≤ p
      · simp [MoErr.text, defectText, causeAt, ioText, hp]
      · simp [MoErr.text, defectText, causeAt, ioText, hp, unexpectedEof, Errors.eof]
  · cases pos <;> rfl
  · cases pos with
    | none => simp [MoErr.err, causeAt, Errors.withSecondary, Errors.sentinel, Errors.errorf, Errors.is, Errors.isAny,
        Errors.eof, Errors.readMo, Errors.fresh]
    | some p =>
      by_cases hp : c.length ≤ p
      · simp [MoErr.err, causeAt, Errors.withSecondary, Errors.sentinel, Errors.wrapf, Errors.is, Errors.isAny,
          Errors.eof, Errors.readMo, Errors.fresh, hp]
      · simp [MoErr.err, causeAt, Errors.withSecondary, Errors.sentinel, Errors.wrapf, Errors.is, Errors.isAny,
          Errors.eof, Errors.readMo, Errors.fresh, hp, unexpectedEof]
  · cases pos with
    | none => simp [MoErr.err, causeAt, Errors.withSecondary, Errors.sentinel, Errors.errorf, Errors.is, Errors.isAny,
        Errors.readMo, Errors.fresh, unexpectedEof]
    | some p =>
      by_cases hp : c.length ≤ p
      · simp [MoErr.err, causeAt, Errors.withSecondary, Errors.sentinel, Errors.wrapf, Errors.is, Errors.isAny,
          Errors.eof, Errors.readMo, Errors.fresh, hp, unexpectedEof]
      · simp [MoErr.err, causeAt, Errors.withSecondary, Errors.sentinel, Errors.wrapf, Errors.is, Errors.isAny,
          Errors.readMo, Errors.fresh, hp, unexpectedEof]
        omega

/-- **C89** There is one message about a content. -/
theorem C89_unique (c w w' : Str) (p p' : Option Nat) (h : MoDefect c w p) (h' : MoDefect c w' p') :
    w = w' ∧ defectText c w p = defectText c w' p' := by
  obtain ⟨e, h1, h2, -⟩ := C89_message c w p h
  have a := (readMoE_error c _).mpr ⟨w, p, h, rfl⟩
  have b := (readMoE_error c _).mpr ⟨w', p', h', rfl⟩
  rw [a] at b
  simp only [Option.some.injEq, Except.error.injEq, MoErr.mk.injEq] at b
  obtain ⟨e', h1', h2', -⟩ := C89_message c w' p' h'
  rw [h1] at h1'
  cases h1'
  exact ⟨b.1, h2.symm.trans h2'⟩

/-! ## Truncated files -/

theorem defect_extend {c what : Str} (h : MoDefect c what none) (x : Str) : MoDefect (c ++ x) what none := by
  have hl : 28 ≤ c.length → 28 ≤ (c ++ x).length := by
    intro h; rw [List.length_append]; omega
  cases h with
  | magic v h1 h2 h3 => exact .magic v (num32_extend h1 x) h2 h3
  | major be v h1 h2 h3 h4 => exact .major be v (at_extend h1 x) (hl h2) (num16_extend h3 x) h4
  | minor be ma v h1 h2 h3 h4 h5 h6 =>
    exact .minor be ma v (at_extend h1 x) (hl h2) (num16_extend h3 x) h4 (num16_extend h5 x) h6

/-- **C89** Of a file that is read, a beginning that is not read is refused for missing data and for nothing
else: the error is `io.EOF` if they would begin where the content was cut or later, and
`io.ErrUnexpectedEOF` if they were cut themselves. -/
theorem C89_cut (c : Str) (f : File) (k : Nat) (h : readMo c = .ok f) (hk : readMo (c.take k) ≠ .ok f) :
    ∃ what p e, MoDefect (c.take k) what (some p) ∧ readMoE (c.take k) = some (.error e) ∧
      e.text = defectText (c.take k) what (some p) ∧
      (Errors.is Errors.eof e.err = true ↔ k ≤ p) ∧ (Errors.is unexpectedEof e.err = true ↔ p < k) := by
  have hlt : k < c.length := by
    refine Nat.lt_of_not_le fun hle => hk ?_
    rw [List.take_of_length_le hle, h]
  have hlen : (c.take k).length = k := by rw [List.length_take]; omega
  have herr : ∃ e, readMoE (c.take k) = some (.error e) := by
    cases hr : readMoE (c.take k) with
    | none => exact absurd hr (C89_refused _).1
    | some r =>
      cases r with
      | error e => exact ⟨e, rfl⟩
      | ok g =>
        have hg := ((C89_refused _).2.1 g).mp hr
        rcases C86_truncated c k with ht | ht
        · rw [hg] at ht; cases ht
        · exact absurd (ht.trans h) hk
  obtain ⟨what, pos, hd⟩ := (C89_refused _).2.2.mp herr
  cases pos with
  | none =>
    have hd' := defect_extend hd (c.drop k)
    rw [List.take_append_drop] at hd'
    obtain ⟨e, he⟩ := (C89_refused c).2.2.mpr ⟨what, none, hd'⟩
    rw [((C89_refused c).2.1 f).mpr h] at he
    cases he
  | some p =>
    obtain ⟨e, h1, h2, -, h3, h4⟩ := C89_message _ _ _ hd
    rw [hlen] at h3 h4
    refine ⟨what, p, e, hd, h1, h2, h3.trans ⟨?_, fun h => ⟨p, rfl, h⟩⟩, h4.trans ⟨?_, fun h => ⟨p, rfl, h⟩⟩⟩
    · rintro ⟨q, hq, hle⟩; cases hq; exact hle
    · rintro ⟨q, hq, hle⟩; cases hq; exact hle

/-! ## Concrete cases -/

def errText (c : Str) : Option Str :=
  match readMoE c with
  | some (.error e) => some e.text
  | _ => none

example : errText [] = some b!"read mo: failed to read magic number: EOF" := by decide +kernel
example : errText [0xde, 0x12] = some b!"read mo: failed to read magic number: unexpected EOF" := by decide +kernel
example : errText b!"abcd" = some b!"read mo: invalid magic number: 1684234849" := by decide +kernel
example : errText [0xde, 0x12, 0x04, 0x95] = some b!"read mo: failed to read mo header: EOF" := by decide +kernel

/-- A catalogue of one message, cut at several places. -/
def exOne : Str := saveMo [{ id := b!"a", str := b!"bc" }]

example : exOne.length = 96 := by decide +kernel
example : errText (exOne.take 75) = some b!"read mo: failed to read msg_id[0] length & offset: EOF" := by decide +kernel
example : errText (exOne.take 90) = some b!"read mo: failed to read msg_str[0] length & offset: unexpected EOF" := by
  decide +kernel
example : errText (exOne.take 91) = some b!"read mo: failed to read msg_id[0]: EOF" := by decide +kernel
example : errText (exOne.take 94) = some b!"read mo: failed to read msg_str[0]: unexpected EOF" := by decide +kernel
example : errText (exOne.take 95) = none := by decide +kernel

/-- The hypotheses of `C89_cut`. -/
example : (match readMo exOne with | .ok _ => true | _ => false) = true ∧
    (match readMo (exOne.take 94) with | .ok _ => true | _ => false) = false := by decide +kernel

example : errText (exOne.set 4 2) = some b!"read mo: unsopported major version: 2" := by decide +kernel
example : errText (exOne.set 7 1) = some b!"read mo: unsopported minor version: 256" := by decide +kernel

/-- The hypothesis of `C89_message`, for an announced string far outside. -/
example : MoDefect (exOne.set 80 1) b!"failed to read msg_id[0]" (some 347) := by
  have h32 : ∀ pos v, (readFull (exOne.set 80 1) pos 4).map (uintOf false) = some v → Num32 false (exOne.set 80 1) pos v := by
    intro pos v h
    cases hr : readFull (exOne.set 80 1) pos 4 with
    | none => rw [hr] at h; cases h
    | some s =>
      rw [hr] at h
      obtain ⟨hl, ha⟩ := readFull_some_at hr (by omega)
      cases h
      exact (num32_iff ..).mpr ⟨s, hl, ha, rfl⟩
  refine .id false 1 75 83 0 1 347 ⟨?_, by decide +kernel, ⟨0, 0, ?_, ?_, by decide, by decide⟩, h32 _ _ (by decide +kernel),
    h32 _ _ (by decide +kernel), h32 _ _ (by decide +kernel)⟩ ?_ ?_ (by decide) (by omega)
    ⟨h32 _ _ (by decide +kernel), h32 _ _ (by decide +kernel)⟩ ?_
  · exact (at_iff _ _ _).mpr (by decide +kernel)
  · exact ⟨0, 0, (at_iff _ _ _).mpr (by decide +kernel), rfl⟩
  · exact ⟨0, 0, (at_iff _ _ _).mpr (by decide +kernel), rfl⟩
  · intro j hj
    have : j = 0 := by omega
    subst this
    unfold Lacks
    rw [show (exOne.set 80 1).length = 96 by decide +kernel]
    omega
  · intro j hj
    have : j = 0 := by omega
    subst this
    unfold Lacks
    rw [show (exOne.set 80 1).length = 96 by decide +kernel]
    omega
  · unfold Lacks
    rw [show (exOne.set 80 1).length = 96 by decide +kernel]
    omega

end Verif.Tr
