import Verif.Spec.Http
import Verif.Lemmas.TrimSpec
import Verif.Props.C45_C49
/-!
# C100: what a request says about the language
-/
namespace Verif.Http
open Verif

/-! ## Pieces -/

/-- The pieces between the byte. -/
def pieces (c : UInt8) : Str → List Str
  | [] => [[]]
  | x :: s =>
    if x = c then [] :: pieces c s
    else match pieces c s with
      | [] => [[x]]
      | p :: ps => (x :: p) :: ps

theorem pieces_ne (c : UInt8) (s : Str) : pieces c s ≠ [] := by
  cases s with
  | nil => simp [pieces]
  | cons x s =>
    rw [pieces]
    split
    · simp
    · split <;> simp

theorem pieces_left (c : UInt8) (l s : Str) (hl : c ∉ l) : ∃ p ps, pieces c s = p :: ps ∧ pieces c (l ++ s) = (l ++ p) :: ps := by
  induction l with
  | nil =>
    obtain ⟨p, ps, h⟩ := List.exists_cons_of_ne_nil (pieces_ne c s)
    exact ⟨p, ps, h, h⟩
  | cons x l ih =>
    rw [List.mem_cons, not_or] at hl
    obtain ⟨p, ps, h1, h2⟩ := ih hl.2
    refine ⟨p, ps, h1, ?_⟩
    rw [List.cons_append, pieces, if_neg (Ne.symm hl.1), h2]
    rfl

theorem pieces_one (c : UInt8) (a : Str) (ha : c ∉ a) : pieces c a = [a] := by
  obtain ⟨p, ps, h1, h2⟩ := pieces_left c a [] ha
  cases h1
  rw [List.append_nil] at h2
  exact h2

theorem pieces_more (c : UInt8) (a b : Str) (ha : c ∉ a) : pieces c (a ++ c :: b) = a :: pieces c b := by
  obtain ⟨p, ps, h1, h2⟩ := pieces_left c a (c :: b) ha
  rw [pieces, if_pos rfl, List.cons.injEq] at h1
  rw [h2, ← h1.1, ← h1.2, List.append_nil]

theorem pieces_right (c : UInt8) (s r : Str) (hr : c ∉ r) :
    ∃ init last, pieces c s = init ++ [last] ∧ pieces c (s ++ r) = init ++ [last ++ r] := by
  by_cases hs : c ∈ s
  · induction hn : s.length using Nat.strongRecOn generalizing s with
    | _ n ih =>
      obtain ⟨a, b, rfl, ha⟩ := List.eq_append_cons_of_mem hs
      have : ∃ init last, pieces c b = init ++ [last] ∧ pieces c (b ++ r) = init ++ [last ++ r] := by
        by_cases hb : c ∈ b
        · exact ih b.length (by simp at hn; omega) b hb rfl
        · exact ⟨[], b, pieces_one c b hb, pieces_one c _ (by simp [hb, hr])⟩
      obtain ⟨init, last, h1, h2⟩ := this
      refine ⟨a :: init, last, ?_, ?_⟩
      · rw [pieces_more c a b ha, h1]; rfl
      · rw [List.append_assoc, List.cons_append, pieces_more c a _ ha, h2]; rfl
  · exact ⟨[], s, pieces_one c s hs, pieces_one c _ (by simp [hs, hr])⟩

theorem pieces_iff (c : UInt8) (s : Str) (ps : List Str) : Pieces c s ps ↔ ps = pieces c s := by
  constructor
  · rintro ⟨hne, hc, rfl⟩
    induction ps with
    | nil => exact absurd rfl hne
    | cons p ps ih =>
      cases ps with
      | nil => simp [pieces_one c p (hc p (by simp))]
      | cons q qs =>
        have := ih (by simp) fun p hp => hc p (List.mem_cons_of_mem _ hp)
        rw [List.intercalate_cons_cons]
        rw [List.append_assoc, List.singleton_append, pieces_more c p _ (hc p (by simp)), ← this]
  · rintro rfl
    induction hn : s.length using Nat.strongRecOn generalizing s with
    | _ n ih =>
      by_cases hs : c ∈ s
      · obtain ⟨a, b, rfl, ha⟩ := List.eq_append_cons_of_mem hs
        obtain ⟨h1, h2, h3⟩ := ih b.length (by simp at hn; omega) b rfl
        rw [pieces_more c a b ha]
        refine ⟨by simp, ?_, ?_⟩
        · intro p hp
          rcases List.mem_cons.mp hp with rfl | hp
          · exact ha
          · exact h2 p hp
        · obtain ⟨q, qs, hq⟩ := List.exists_cons_of_ne_nil h1
          rw [hq] at h3 ⊢
          rw [List.intercalate_cons_cons, ← h3]
          simp
      · rw [pieces_one c s hs]
        exact ⟨by simp, by simpa using hs, by simp⟩

theorem span_first (c : UInt8) (a b : Str) (ha : c ∉ a) : (a ++ c :: b).span (· ≠ c) = (a, c :: b) := by
  rw [List.span_eq_takeWhile_dropWhile]
  induction a with
  | nil => simp
  | cons y r ih =>
    rw [List.mem_cons, not_or] at ha
    have hy : decide (y ≠ c) = true := by simpa using Ne.symm ha.1
    have := ih ha.2
    rw [Prod.mk.injEq] at this
    rw [List.cons_append, List.takeWhile_cons, List.dropWhile_cons, if_pos hy, if_pos hy, this.1, this.2]

theorem span_all (c : UInt8) (a : Str) (ha : c ∉ a) : a.span (· ≠ c) = (a, []) := by
  rw [List.span_eq_takeWhile_dropWhile]
  induction a with
  | nil => simp
  | cons y r ih =>
    rw [List.mem_cons, not_or] at ha
    have hy : decide (y ≠ c) = true := by simpa using Ne.symm ha.1
    have := ih ha.2
    rw [Prod.mk.injEq] at this
    rw [List.takeWhile_cons, List.dropWhile_cons, if_pos hy, if_pos hy, this.1, this.2]

theorem cut_first (c : UInt8) (a b : Str) (ha : c ∉ a) : cut c (a ++ c :: b) = (a, b) := by
  rw [cut, span_first c a b ha]

theorem cut_all (c : UInt8) (a : Str) (ha : c ∉ a) : cut c a = (a, []) := by
  rw [cut, span_all c a ha]

/-! ## Blanks -/

theorem blank_iff (c : UInt8) : isASCIISpace c = true ↔ Blank c := by
  unfold isASCIISpace Blank
  simp [or_assoc]

theorem strips_iff (s t : Str) : Strips s t ↔ trimString s = t := by
  have drop : ∀ (l x : Str), (∀ c ∈ l, isASCIISpace c = true) → (l ++ x).dropWhile isASCIISpace = x.dropWhile isASCIISpace := by
    intro l x h
    rw [List.dropWhile_append_of_pos h]
  have stop : ∀ x : Str, (∀ c, x.head? = some c → ¬ isASCIISpace c = true) → x.dropWhile isASCIISpace = x := by
    intro x h
    cases x with
    | nil => rfl
    | cons c x => rw [List.dropWhile_cons, if_neg (h c rfl)]
  constructor
  · rintro ⟨l, r, rfl, hl, hr, ht⟩
    have hl' : ∀ c ∈ l, isASCIISpace c = true := fun c hc => (blank_iff c).mpr (hl c hc)
    have hr' : ∀ c ∈ r.reverse, isASCIISpace c = true := fun c hc => (blank_iff c).mpr (hr c (by simpa using hc))
    unfold trimString
    rw [List.append_assoc, drop l _ hl']
    by_cases hte : t = []
    · subst hte
      rw [List.nil_append]
      have : r.dropWhile isASCIISpace = [] := by
        have := drop r [] fun c hc => hr' c (by simpa using hc)
        simpa using this
      rw [this]
      rfl
    · rw [stop (t ++ r), List.reverse_append, drop _ _ hr', stop, List.reverse_reverse]
      · intro c hc
        rw [blank_iff]
        exact ht c (.inr (by rw [List.head?_reverse] at hc; exact hc))
      · intro c hc
        rw [blank_iff]
        refine ht c (.inl ?_)
        rw [List.head?_append_of_ne_nil _ hte] at hc
        exact hc
  · rintro rfl
    unfold trimString
    obtain ⟨l, hl1, hl2⟩ : ∃ l, s = l ++ s.dropWhile isASCIISpace ∧ ∀ c ∈ l, isASCIISpace c = true :=
      ⟨s.takeWhile isASCIISpace, (List.takeWhile_append_dropWhile).symm, fun c hc => by
        have := List.all_takeWhile (p := isASCIISpace) (l := s)
        rw [List.all_eq_true] at this
        exact this c hc⟩
    generalize hx : s.dropWhile isASCIISpace = x at hl1
    have hx1 : ∀ c, x.head? = some c → ¬ isASCIISpace c = true := by
      intro c hc h
      have := List.head?_dropWhile_not isASCIISpace s
      rw [hx, hc] at this
      dsimp only at this
      rw [h] at this
      cases this
    obtain ⟨r, hr1, hr2⟩ : ∃ r, x.reverse = r ++ x.reverse.dropWhile isASCIISpace ∧ ∀ c ∈ r, isASCIISpace c = true :=
      ⟨x.reverse.takeWhile isASCIISpace, (List.takeWhile_append_dropWhile).symm, fun c hc => by
        have := List.all_takeWhile (p := isASCIISpace) (l := x.reverse)
        rw [List.all_eq_true] at this
        exact this c hc⟩
    generalize hy : x.reverse.dropWhile isASCIISpace = y at hr1
    have hxy : x = y.reverse ++ r.reverse := by
      rw [← List.reverse_append, ← hr1, List.reverse_reverse]
    refine ⟨l, r.reverse, by rw [hl1, List.append_assoc, ← hxy], fun c hc => (blank_iff c).mp (hl2 c hc),
      fun c hc => (blank_iff c).mp (hr2 c (by simpa using hc)), ?_⟩
    rintro c (hc | hc)
    · rw [← blank_iff]
      refine hx1 c ?_
      rw [hxy, List.head?_append, hc]
      rfl
    · rw [← blank_iff]
      intro h
      have := List.head?_dropWhile_not isASCIISpace x.reverse
      rw [hy] at this
      rw [List.getLast?_reverse] at hc
      rw [hc] at this
      dsimp only at this
      rw [h] at this
      cases this

theorem strip_left (l s : Str) (h : ∀ c ∈ l, Blank c) : trimString (l ++ s) = trimString s := by
  obtain ⟨l', r', h1, h2, h3, h4⟩ := (strips_iff s _).mpr rfl
  refine (strips_iff _ _).mp ⟨l ++ l', r', by rw [List.append_assoc, List.append_assoc, ← List.append_assoc l', ← h1], ?_, h3, h4⟩
  intro c hc
  rcases List.mem_append.mp hc with hc | hc
  · exact h c hc
  · exact h2 c hc

theorem strip_right (s r : Str) (h : ∀ c ∈ r, Blank c) : trimString (s ++ r) = trimString s := by
  obtain ⟨l', r', h1, h2, h3, h4⟩ := (strips_iff s _).mpr rfl
  refine (strips_iff _ _).mp ⟨l', r' ++ r, by rw [← List.append_assoc, ← h1], h2, ?_, h4⟩
  intro c hc
  rcases List.mem_append.mp hc with hc | hc
  · exact h3 c hc
  · exact h c hc

theorem strip_twice (s : Str) : trimString (trimString s) = trimString s := by
  obtain ⟨l', r', h1, h2, h3, h4⟩ := (strips_iff s _).mpr rfl
  exact (strips_iff _ _).mp ⟨[], [], by simp, by simp, by simp, h4⟩

/-! ## Cookies -/

/-- What a part of a header gives. -/
def partCookie (filter part : Str) : Option Str :=
  let part := trimString part
  if part = [] then none
  else
    let (name, val) := cut 61 part
    let name := trimString name
    if name = [] ∨ name.all isTokenByte = false then none
    else if filter ≠ [] ∧ filter ≠ name then none
    else parseCookieValue val

theorem readLine_eq (filter : Str) (k : Nat) (line : Str) (h : line.length ≤ k) :
    readLine filter k line = (pieces 59 line).filterMap (partCookie filter) := by
  have hnil : partCookie filter [] = none := by simp [partCookie, trimString]
  induction k generalizing line with
  | zero =>
    rw [List.length_eq_zero_iff.mp (Nat.le_zero.mp h)]
    simp [readLine, pieces, hnil]
  | succ k ih =>
    rw [readLine]
    by_cases hl : line = []
    · subst hl
      simp [pieces, hnil]
    · rw [if_neg hl]
      have key : ∀ part rest, cut 59 line = (part, rest) → (pieces 59 line).filterMap (partCookie filter) =
          ((partCookie filter part).toList ++ readLine filter k rest) := by
        intro part rest hc
        by_cases hs : 59 ∈ line
        · obtain ⟨a, b, rfl, ha⟩ := List.eq_append_cons_of_mem hs
          rw [cut_first 59 a b ha] at hc
          cases hc
          rw [pieces_more 59 _ _ ha, ih _ (by simp at h; omega), List.filterMap_cons]
          cases partCookie filter part <;> rfl
        · rw [cut_all 59 line hs] at hc
          cases hc
          rw [pieces_one 59 _ hs, ih [] (by simp), List.filterMap_cons]
          simp only [pieces, List.filterMap_cons, List.filterMap_nil, hnil]
          cases partCookie filter line <;> rfl
      cases hc : cut 59 line with
      | mk part rest =>
        rw [key part rest hc]
        dsimp only
        unfold partCookie
        dsimp only
        cases cut 61 (trimString part) with
        | mk name val =>
          dsimp only
          split
          · rfl
          · split
            · rfl
            · split
              · rfl
              · split
                · rename_i he; rw [he]; rfl
                · rename_i he; rw [he]; rfl

theorem token_iff (n : Str) : Token n ↔ ¬ (n = [] ∨ n.all isTokenByte = false) := by
  have hb : ∀ c : UInt8, isTokenByte c = true ↔
      c ∈ b!"abcdefghijklmnopqrstuvwxyzABCDEFGHIJKLMNOPQRSTUVWXYZ0123456789!#$%&'*+-.^_`|~" := by
    apply u8
    decide +kernel
  unfold Token
  rw [not_or, Bool.not_eq_false, List.all_eq_true]
  simp only [hb]

theorem cookieByte_iff (c : UInt8) : validCookieValueByte c = true ↔ CookieByte c := by
  revert c
  unfold CookieByte
  apply u8
  decide +kernel

theorem value_iff (raw v : Str) :
    parseCookieValue raw = some v ↔ (∀ c ∈ v, CookieByte c) ∧ (raw = v ∨ raw = b!"\"" ++ v ++ b!"\"") := by
  have all_iff : ∀ x : Str, x.all validCookieValueByte = true ↔ ∀ c ∈ x, CookieByte c := by
    intro x
    rw [List.all_eq_true]
    simp only [cookieByte_iff]
  have noquote : ∀ x : Str, (∀ c ∈ x, CookieByte c) → 34 ∉ x := fun x h hm => (h 34 hm).2.2 (by decide)
  unfold parseCookieValue
  dsimp only
  by_cases hq : 1 < raw.length ∧ raw.head? = some 34 ∧ raw.getLast? = some 34
  · rw [if_pos hq]
    obtain ⟨h1, h2, h3⟩ := hq
    obtain ⟨w, rfl⟩ : ∃ w, raw = b!"\"" ++ w ++ b!"\"" := by
      cases raw with
      | nil => cases h2
      | cons x r =>
        cases h2
        cases r using List.reverseRecOn with
        | nil => simp at h1
        | append_singleton r y =>
          rw [← List.cons_append, List.getLast?_append] at h3
          cases h3
          exact ⟨r, by simp⟩
    have : ((b!"\"" ++ w ++ b!"\"").drop 1).dropLast = w := by simp
    rw [this]
    constructor
    · intro h
      split at h
      · rename_i ha
        cases h
        exact ⟨(all_iff _).mp ha, .inr rfl⟩
      · cases h
    · rintro ⟨hv, rfl | he⟩
      · exact absurd (by simp) (noquote _ hv)
      · have : w = v := by simpa using he
        subst this
        rw [if_pos ((all_iff _).mpr hv)]
  · rw [if_neg hq]
    constructor
    · intro h
      split at h
      · rename_i ha
        cases h
        exact ⟨(all_iff _).mp ha, .inl rfl⟩
      · cases h
    · rintro ⟨hv, rfl | rfl⟩
      · rw [if_pos ((all_iff _).mpr hv)]
      · exact absurd ⟨by simp, by simp, by rw [List.getLast?_append]; rfl⟩ hq

theorem gives_iff (name part v : Str) (hn : name ≠ []) : partCookie name part = some v ↔ Gives part name v := by
  unfold partCookie Gives
  dsimp only
  generalize ht : trimString part = t
  have hst : ∀ u, Strips part u ↔ u = t := fun u => by rw [strips_iff, ht, eq_comm]
  have htt : trimString t = t := by rw [← ht, strip_twice]
  simp only [hst, exists_eq_left]
  by_cases hte : t = []
  · subst hte
    rw [if_pos rfl]
    constructor
    · intro h; cases h
    · rintro ⟨h1, -, ⟨a, raw, he, -⟩ | ⟨-, rfl, -⟩⟩
      · simp at he
      · exact absurd rfl hn
  · rw [if_neg hte]
    by_cases h61 : 61 ∈ t
    · obtain ⟨a, raw, rfl, ha⟩ := List.eq_append_cons_of_mem h61
      rw [cut_first 61 a raw ha]
      dsimp only
      constructor
      · intro h
        split at h
        · cases h
        · rename_i h1
          split at h
          · cases h
          · rename_i h2
            have h2 : name = trimString a := by
              by_contra hne
              exact h2 ⟨hn, hne⟩
            obtain ⟨h3, h4⟩ := (value_iff _ _).mp h
            rw [← h2] at h1
            exact ⟨(token_iff _).mpr h1, h3, .inl ⟨a, raw, by simp, ha, (strips_iff _ _).mpr h2.symm, h4⟩⟩
      · rintro ⟨h1, h2, ⟨a', raw', he, ha', hs, hv⟩ | ⟨hno, -⟩⟩
        · have : a = a' ∧ raw = raw' := by
            have e1 := cut_first 61 a raw ha
            have e2 := cut_first 61 a' raw' ha'
            rw [he, List.append_assoc, List.singleton_append, e2] at e1
            cases e1
            exact ⟨rfl, rfl⟩
          obtain ⟨rfl, rfl⟩ := this
          rw [(strips_iff _ _).mp hs, if_neg ((token_iff _).mp h1), if_neg (by simp)]
          exact (value_iff _ _).mpr ⟨h2, hv⟩
        · exact absurd (by simp) hno
    · rw [cut_all 61 t h61]
      dsimp only
      rw [htt]
      constructor
      · intro h
        split at h
        · cases h
        · rename_i h1
          split at h
          · cases h
          · rename_i h2
            have h2 : name = t := by
              by_contra hne
              exact h2 ⟨hn, hne⟩
            subst h2
            obtain ⟨h3, h4⟩ := (value_iff _ _).mp h
            refine ⟨(token_iff _).mpr h1, h3, .inr ⟨h61, rfl, ?_⟩⟩
            rcases h4 with h4 | h4
            · exact h4.symm
            · simp at h4
      · rintro ⟨h1, h2, ⟨a', raw', he, -⟩ | ⟨-, rfl, rfl⟩⟩
        · exact absurd (by rw [he]; simp) h61
        · rw [if_neg ((token_iff _).mp h1), if_neg (by simp)]
          rfl

theorem blank59 (r : Str) (h : ∀ c ∈ r, Blank c) : 59 ∉ r := fun hm => by
  have := h 59 hm
  unfold Blank at this
  simp at this

/-- The blanks around a line do not matter. -/
theorem line_blanks (f : Str) (line : Str) :
    (pieces 59 (trimString line)).filterMap (partCookie f) = (pieces 59 line).filterMap (partCookie f) := by
  obtain ⟨l, r, h1, h2, h3, h4⟩ := (strips_iff line _).mpr rfl
  have e1 : ∀ l p, (∀ c ∈ l, Blank c) → partCookie f (l ++ p) = partCookie f p := by
    intro l p h
    unfold partCookie
    rw [strip_left l p h]
  have e2 : ∀ p r, (∀ c ∈ r, Blank c) → partCookie f (p ++ r) = partCookie f p := by
    intro p r h
    unfold partCookie
    rw [strip_right p r h]
  generalize trimString line = t at *
  subst h1
  obtain ⟨init, last, g1, g2⟩ := pieces_right 59 (l ++ t) r (blank59 r h3)
  obtain ⟨p, ps, g3, g4⟩ := pieces_left 59 l t (blank59 l h2)
  rw [g2, List.filterMap_append, List.filterMap_cons, e2 _ _ h3, ← List.filterMap_cons, ← List.filterMap_append, ← g1, g3, g4,
    List.filterMap_cons, List.filterMap_cons, e1 _ _ h2]

theorem cookies_eq (h : Header) (f : Str) :
    readCookies h f = ((h.values b!"Cookie").flatMap (pieces 59)).filterMap (partCookie f) := by
  unfold readCookies
  generalize h.values b!"Cookie" = ls
  induction ls with
  | nil => rfl
  | cons l ls ih =>
    rw [List.flatMap_cons, List.flatMap_cons, List.filterMap_append, ih, readLine_eq f _ _ (Nat.le_refl _), line_blanks]

theorem filterMap_first {α β : Type} (f : α → Option β) (l : List α) (v : β) :
    (l.filterMap f).head? = some v ↔ ∃ a x b, l = a ++ x :: b ∧ f x = some v ∧ ∀ y ∈ a, f y = none := by
  induction l with
  | nil => simp
  | cons y l ih =>
    rw [List.filterMap_cons]
    cases hy : f y with
    | none =>
      dsimp only
      rw [ih]
      constructor
      · rintro ⟨a, x, b, rfl, h1, h2⟩
        refine ⟨y :: a, x, b, rfl, h1, ?_⟩
        intro z hz
        rcases List.mem_cons.mp hz with rfl | hz
        · exact hy
        · exact h2 z hz
      · rintro ⟨a, x, b, he, h1, h2⟩
        cases a with
        | nil =>
          cases he
          rw [hy] at h1
          cases h1
        | cons z a =>
          cases he
          exact ⟨a, x, b, rfl, h1, fun w hw => h2 w (by simp [hw])⟩
    | some w =>
      constructor
      · intro h
        cases h
        exact ⟨[], y, l, rfl, hy, by simp⟩
      · rintro ⟨a, x, b, he, h1, h2⟩
        cases a with
        | nil =>
          cases he
          rw [hy] at h1
          cases h1
          rfl
        | cons z a =>
          cases he
          rw [h2 y (by simp)] at hy
          cases hy

theorem forall2_pieces (ls : List Str) (pss : List (List Str)) : List.Forall₂ (Pieces 59) ls pss ↔ pss = ls.map (pieces 59) := by
  induction ls generalizing pss with
  | nil => simp
  | cons l ls ih =>
    cases pss with
    | nil => simp
    | cons ps pss => rw [List.forall₂_cons, ih, pieces_iff]; simp

theorem sent_iff (h : Header) (key : Str) (vs : List Str) : Sent h key vs ↔ vs = h.values key := by
  unfold Sent Header.values
  cases GMap.get? h key with
  | none => simp
  | some x => simp [eq_comm]

theorem firstValue_iff (h : Header) (key s : Str) : FirstValue h key s ↔ s = h.get key := by
  unfold FirstValue Header.get
  simp only [sent_iff, exists_eq_left]
  cases h.values key with
  | nil => simp
  | cons x xs => simp [eq_comm]

/-- **C100**: the cookie that is read is the first one with the name in the Cookie headers. -/
theorem C100_cookie (h : Header) (name v : Str) : cookie h name = some v ↔ FirstCookie h name v := by
  by_cases hn : name = []
  · subst hn
    constructor
    · intro h
      cases h
    · rintro ⟨_, _, _, _, _, _, _, _, h, _⟩
      exact absurd rfl h.1.1
  have key : cookie h name = some v ↔ ∃ a x b, (h.values b!"Cookie").flatMap (pieces 59) = a ++ x :: b ∧ Gives x name v ∧
      ∀ y ∈ a, ∀ v', ¬ Gives y name v' := by
    unfold cookie
    rw [if_neg hn, cookies_eq, filterMap_first]
    have e : ∀ y, partCookie name y = none ↔ ∀ v', ¬ Gives y name v' := by
      intro y
      simp only [← gives_iff name y _ hn]
      cases partCookie name y <;> simp
    simp only [gives_iff name _ _ hn, e]
  rw [key]
  unfold FirstCookie
  simp only [forall2_pieces, sent_iff]
  constructor
  · rintro ⟨a, x, b, h1, h2, h3⟩
    exact ⟨_, _, a, x, b, rfl, rfl, h1, h2, h3⟩
  · rintro ⟨vs, pss, a, x, b, rfl, rfl, h1, h2, h3⟩
    exact ⟨a, x, b, h1, h2, h3⟩

/-! ## The Accept-Language header -/

theorem trim_left (w s : Str) (h : GoStr.White w) : GoStr.trimSpace (w ++ s) = GoStr.trimSpace s := by
  obtain ⟨w1, w2, h1, h2, h3, h4⟩ := GoStr.trims_trimSpace s
  obtain ⟨rs, hr, rfl⟩ := h
  obtain ⟨rs', hr', rfl⟩ := h1
  refine (GoStr.trims_iff _ _).mp ⟨(rs ++ rs').flatten, w2, ⟨rs ++ rs', ?_, rfl⟩, h2, ?_, h4⟩
  · intro r hm
    rcases List.mem_append.mp hm with hm | hm
    · exact hr r hm
    · exact hr' r hm
  · rw [List.flatten_append, List.append_assoc, List.append_assoc, ← List.append_assoc rs'.flatten, ← h3]

theorem trim_right (s w : Str) (h : GoStr.White w) : GoStr.trimSpace (s ++ w) = GoStr.trimSpace s := by
  obtain ⟨w1, w2, h1, h2, h3, h4⟩ := GoStr.trims_trimSpace s
  obtain ⟨rs, hr, rfl⟩ := h
  obtain ⟨rs', hr', rfl⟩ := h2
  refine (GoStr.trims_iff _ _).mp ⟨w1, (rs' ++ rs).flatten, h1, ⟨rs' ++ rs, ?_, rfl⟩, ?_, h4⟩
  · intro r hm
    rcases List.mem_append.mp hm with hm | hm
    · exact hr' r hm
    · exact hr r hm
  · rw [List.flatten_append, ← List.append_assoc, ← h3]

theorem trim_twice (s : Str) : GoStr.trimSpace (GoStr.trimSpace s) = GoStr.trimSpace s := by
  obtain ⟨w1, w2, h1, h2, h3, h4⟩ := GoStr.trims_trimSpace s
  exact (GoStr.trims_iff _ _).mp ⟨[], [], GoStr.white_nil, GoStr.white_nil, by simp, h4⟩

theorem trim_white (s : Str) : GoStr.trimSpace s = [] ↔ GoStr.White s := by
  constructor
  · intro h
    obtain ⟨w1, w2, h1, h2, h3, -⟩ := GoStr.trims_trimSpace s
    rw [h, List.append_nil] at h3
    obtain ⟨rs, hr, rfl⟩ := h1
    obtain ⟨rs', hr', rfl⟩ := h2
    refine ⟨rs ++ rs', ?_, by rw [List.flatten_append]; exact h3⟩
    intro r hm
    rcases List.mem_append.mp hm with hm | hm
    · exact hr r hm
    · exact hr' r hm
  · intro h
    have := trim_right [] s h
    rw [List.nil_append] at this
    rw [this]
    decide

theorem white_no (c : UInt8) (hc : ∀ r ∈ GoStr.whiteSpace, c ∉ r) (w : Str) (h : GoStr.White w) : c ∉ w := by
  obtain ⟨rs, hr, rfl⟩ := h
  intro hm
  obtain ⟨r, h1, h2⟩ := List.mem_flatten.mp hm
  exact hc r (hr r h1) h2

/-- What a part of the header asks for. -/
def item (G : Pkg) (part : Str) : Option (List (G.Tag × G.Weight)) :=
  let entry := GoStr.trimSpace part
  if entry = [] then some []
  else
    let (entry, weight) := split entry 59
    match (G.parse entry).or (G.fallback entry) with
    | none => none
    | some t =>
      if weight = [] then some [(t, G.one)]
      else match G.parseFloat (consume (consume weight 113) 61) with
        | none => none
        | some w => if w ≤ G.zero then some [] else some [(t, w)]

/-- What the parts ask for. -/
def items (G : Pkg) : List Str → Option (List (G.Tag × G.Weight))
  | [] => some []
  | p :: ps => (item G p).bind fun x => (items G ps).map (x ++ ·)

theorem item_nil (G : Pkg) : item G [] = some [] := by
  unfold item
  rw [show GoStr.trimSpace [] = [] by decide]
  rfl

theorem items_append (G : Pkg) (a b : List Str) : items G (a ++ b) = (items G a).bind fun x => (items G b).map (x ++ ·) := by
  induction a with
  | nil => simp [items]
  | cons p a ih =>
    rw [List.cons_append, items, items, ih]
    cases item G p with
    | none => rfl
    | some x =>
      cases items G a with
      | none => rfl
      | some y => cases items G b <;> simp

/-- The white space around a list of parts does not matter. -/
theorem items_trim (G : Pkg) (s : Str) : items G (pieces 44 (GoStr.trimSpace s)) = items G (pieces 44 s) := by
  obtain ⟨l, r, h1, h2, h3, -⟩ := GoStr.trims_trimSpace s
  have e1 : ∀ p, item G (l ++ p) = item G p := by
    intro p
    unfold item
    rw [trim_left l p h1]
  have e2 : ∀ p, item G (p ++ r) = item G p := by
    intro p
    unfold item
    rw [trim_right p r h2]
  have hc : ∀ r ∈ GoStr.whiteSpace, (44 : UInt8) ∉ r := by decide
  generalize GoStr.trimSpace s = t at *
  subst h3
  obtain ⟨init, last, g1, g2⟩ := pieces_right 44 (l ++ t) r (white_no 44 hc r h2)
  obtain ⟨p, ps, g3, g4⟩ := pieces_left 44 l t (white_no 44 hc l h1)
  have : items G [last ++ r] = items G [last] := by
    show (item G (last ++ r)).bind _ = (item G last).bind _
    rw [e2]
  rw [g2, items_append, this, ← items_append, ← g1, g3, g4, items, items, e1]

theorem split_first (c : UInt8) (a b : Str) (ha : c ∉ a) : split (a ++ c :: b) c = (GoStr.trimSpace a, GoStr.trimSpace b) := by
  rw [split, span_first c a b ha]

theorem split_all (c : UInt8) (a : Str) (ha : c ∉ a) : split a c = (GoStr.trimSpace a, []) := by
  rw [split, span_all c a ha]

theorem accept_eq (G : Pkg) (k : Nat) (s : Str) (acc : List (G.Tag × G.Weight)) (h : s.length ≤ k) :
    acceptLoop G k s acc = (items G (pieces 44 s)).map (acc ++ ·) := by
  induction k generalizing s acc with
  | zero =>
    rw [List.length_eq_zero_iff.mp (Nat.le_zero.mp h)]
    simp [acceptLoop, pieces, items, item_nil]
  | succ k ih =>
    rw [acceptLoop]
    by_cases hl : s = []
    · subst hl
      simp [pieces, items, item_nil]
    · rw [if_neg hl]
      have key : ∀ entry rest, split s 44 = (entry, rest) → ∃ part, entry = GoStr.trimSpace part ∧ rest.length ≤ k ∧
          items G (pieces 44 s) = (item G part).bind fun x => (items G (pieces 44 rest)).map (x ++ ·) := by
        intro entry rest hc
        by_cases hs : 44 ∈ s
        · obtain ⟨a, b, rfl, ha⟩ := List.eq_append_cons_of_mem hs
          rw [split_first 44 a b ha] at hc
          cases hc
          refine ⟨a, rfl, ?_, ?_⟩
          · obtain ⟨w1, w2, -, -, hb, -⟩ := GoStr.trims_trimSpace b
            have := congrArg List.length hb
            simp at this h
            omega
          · rw [pieces_more 44 _ _ ha, items, items_trim]
        · rw [split_all 44 s hs] at hc
          cases hc
          refine ⟨s, rfl, by simp, ?_⟩
          rw [pieces_one 44 _ hs]
          simp [pieces, items, item_nil]
      cases hc : split s 44 with
      | mk entry rest =>
        obtain ⟨part, rfl, hk, hi⟩ := key entry rest hc
        rw [hi]
        dsimp only
        unfold item
        dsimp only
        have ih' := fun acc => ih rest acc hk
        by_cases he : GoStr.trimSpace part = []
        · rw [if_pos he, if_pos he, ih']
          cases items G (pieces 44 rest) <;> rfl
        · rw [if_neg he, if_neg he]
          cases split (GoStr.trimSpace part) 59 with
          | mk e w =>
            dsimp only
            cases (G.parse e).or (G.fallback e) with
            | none => rfl
            | some t =>
              dsimp only
              by_cases hw : w = []
              · rw [if_pos hw, if_pos hw, ih']
                cases items G (pieces 44 rest) <;> simp
              · rw [if_neg hw, if_neg hw]
                cases G.parseFloat (consume (consume w 113) 61) with
                | none => rfl
                | some q =>
                  dsimp only
                  by_cases hq : q ≤ G.zero
                  · rw [if_pos hq, if_pos hq, ih']
                    cases items G (pieces 44 rest) <;> rfl
                  · rw [if_neg hq, if_neg hq, ih']
                    cases items G (pieces 44 rest) <;> simp

theorem means_iff (G : Pkg) (e : Str) (t : G.Tag) : Means G e t ↔ (G.parse e).or (G.fallback e) = some t := by
  unfold Means
  cases G.parse e <;> simp

theorem quality_iff (G : Pkg) (hf : G.parseFloat [] = none) (w : Str) (q : G.Weight) :
    Quality G w q ↔ (if w = [] then some G.one else G.parseFloat (consume (consume w 113) 61)) = some q := by
  unfold Quality
  cases w with
  | nil =>
    simp only [if_true, true_and, Option.some.injEq]
    constructor
    · rintro (h | ⟨a, b, c, h, -⟩)
      · exact h.symm
      · simp at h
    · exact fun h => .inl h.symm
  | cons x r =>
    simp only [reduceCtorEq, if_false, false_and, false_or]
    by_cases hx : x = 113
    · subst hx
      rw [show consume (113 :: r) 113 = GoStr.trimSpace r from by simp [consume]]
      cases hr : GoStr.trimSpace r with
      | nil =>
        rw [show consume [] 61 = [] from rfl, hf]
        simp only [reduceCtorEq, iff_false]
        rintro ⟨a, b, c, h1, h2, h3, h4⟩
        simp only [List.cons_append, List.nil_append, List.cons.injEq, true_and] at h1
        subst h1
        rw [GoStr.trims_iff, hr] at h2
        simp at h2
      | cons y u =>
        by_cases hy : y = 61
        · subst hy
          rw [show consume (61 :: u) 61 = GoStr.trimSpace u from by simp [consume]]
          constructor
          · rintro ⟨a, b, c, h1, h2, h3, h4⟩
            simp only [List.cons_append, List.nil_append, List.cons.injEq, true_and] at h1
            subst h1
            rw [GoStr.trims_iff, hr] at h2
            simp only [List.cons_append, List.nil_append, List.cons.injEq, true_and] at h2
            subst h2
            rw [GoStr.trims_iff] at h3
            rw [h3, h4]
          · intro h
            exact ⟨r, u, _, rfl, (GoStr.trims_iff _ _).mpr hr, (GoStr.trims_iff _ _).mpr rfl, h⟩
        · rw [show consume (y :: u) 61 = [] from by simp [consume, hy], hf]
          simp only [reduceCtorEq, iff_false]
          rintro ⟨a, b, c, h1, h2, h3, h4⟩
          simp only [List.cons_append, List.nil_append, List.cons.injEq, true_and] at h1
          subst h1
          rw [GoStr.trims_iff, hr] at h2
          simp only [List.cons_append, List.nil_append, List.cons.injEq] at h2
          exact hy h2.1
    · rw [show consume (x :: r) 113 = [] from by simp [consume, hx], show consume [] 61 = [] from rfl, hf]
      simp only [reduceCtorEq, iff_false]
      rintro ⟨a, b, c, h1, -⟩
      simp only [List.cons_append, List.nil_append, List.cons.injEq] at h1
      exact hx h1.1

theorem parts_iff (part e w : Str) : Parts part e w ↔ split (GoStr.trimSpace part) 59 = (e, w) := by
  obtain ⟨l, r, h1, h2, h3, -⟩ := GoStr.trims_trimSpace part
  have hc : ∀ r ∈ GoStr.whiteSpace, (59 : UInt8) ∉ r := by decide
  have hl := white_no 59 hc l h1
  have hr := white_no 59 hc r h2
  unfold Parts
  by_cases hm : 59 ∈ GoStr.trimSpace part
  · obtain ⟨a, b, he, ha⟩ := List.eq_append_cons_of_mem hm
    rw [he, split_first 59 a b ha]
    have hp : part = (l ++ a) ++ 59 :: (b ++ r) := by
      rw [h3, he]
      simp
    have hla : 59 ∉ l ++ a := by simp [hl, ha]
    constructor
    · rintro (⟨hno, -⟩ | ⟨a', b', he', ha', g1, g2⟩)
      · exact absurd (by rw [hp]; simp) hno
      · have e1 := cut_first 59 (l ++ a) (b ++ r) hla
        have e2 := cut_first 59 a' b' ha'
        rw [← hp, he', List.append_assoc, List.singleton_append, e2] at e1
        cases e1
        rw [GoStr.trims_iff, trim_left _ _ h1] at g1
        rw [GoStr.trims_iff, trim_right _ _ h2] at g2
        rw [g1, g2]
    · intro h
      cases h
      refine .inr ⟨l ++ a, b ++ r, by rw [List.append_assoc, List.singleton_append]; exact hp, hla, ?_, ?_⟩
      · rw [GoStr.trims_iff, trim_left _ _ h1]
      · rw [GoStr.trims_iff, trim_right _ _ h2]
  · have hp : 59 ∉ part := by
      rw [h3]
      simp [hl, hr, hm]
    rw [split_all 59 _ hm, trim_twice]
    constructor
    · rintro (⟨-, g1, rfl⟩ | ⟨a', b', rfl, -⟩)
      · rw [GoStr.trims_iff] at g1
        rw [g1]
      · exact absurd (by simp) hp
    · intro h
      cases h
      exact .inl ⟨hp, (GoStr.trims_iff _ _).mpr rfl, rfl⟩

theorem item_iff (G : Pkg) (hf : G.parseFloat [] = none) (h1' : G.zero < G.one) (part : Str) (x : List (G.Tag × G.Weight)) :
    Item G part x ↔ item G part = some x := by
  unfold item
  dsimp only
  by_cases hw : GoStr.White part
  · rw [if_pos ((trim_white _).mpr hw), Option.some.injEq]
    constructor
    · intro h
      cases h with
      | blank => rfl
      | asks h => exact absurd hw h
      | refuses h => exact absurd hw h
    · rintro rfl
      exact .blank hw
  · rw [if_neg (mt (trim_white _).mp hw)]
    cases hs : split (GoStr.trimSpace part) 59 with
    | mk e w =>
      dsimp only
      have hp : ∀ e' w', Parts part e' w' → e' = e ∧ w' = w := by
        intro e' w' h
        rw [parts_iff, hs] at h
        cases h
        exact ⟨rfl, rfl⟩
      have hpe : Parts part e w := (parts_iff _ _ _).mpr hs
      constructor
      · intro h
        cases h with
        | blank h => exact absurd h hw
        | asks h1 h2 h3 h4 h5 =>
          obtain ⟨rfl, rfl⟩ := hp _ _ h2
          rw [(means_iff _ _ _).mp h3]
          dsimp only
          rw [quality_iff G hf] at h4
          split at h4
          · rename_i hw
            cases h4
            rw [if_pos hw]
          · rename_i hw
            rw [if_neg hw, h4]
            dsimp only
            rw [if_neg (not_le.mpr h5)]
        | refuses h1 h2 h3 h4 h5 =>
          obtain ⟨rfl, rfl⟩ := hp _ _ h2
          rw [(means_iff _ _ _).mp h3]
          dsimp only
          rw [quality_iff G hf] at h4
          split at h4
          · cases h4
            exact absurd h5 (not_le.mpr h1')
          · rename_i hw
            rw [if_neg hw, h4]
            dsimp only
            rw [if_pos h5]
      · cases hm : (G.parse e).or (G.fallback e) with
        | none => intro h; cases h
        | some t =>
          have hm' := (means_iff G e t).mpr hm
          dsimp only
          have hq := fun q => (quality_iff G hf w q).mpr
          by_cases hwe : w = []
          · rw [if_pos hwe]
            intro h
            cases h
            exact .asks hw hpe hm' (hq _ (if_pos hwe)) h1'
          · rw [if_neg hwe]
            simp only [if_neg hwe] at hq
            cases hf : G.parseFloat (consume (consume w 113) 61) with
            | none => intro h; cases h
            | some q =>
              dsimp only
              by_cases hz : q ≤ G.zero
              · rw [if_pos hz]
                intro h
                cases h
                exact .refuses hw hpe hm' (hq q hf) hz
              · rw [if_neg hz]
                intro h
                cases h
                exact .asks hw hpe hm' (hq q hf) (not_le.mp hz)

theorem items_iff (G : Pkg) (hf : G.parseFloat [] = none) (h1' : G.zero < G.one) (ps : List Str) (l : List (G.Tag × G.Weight)) :
    (∃ xs, List.Forall₂ (Item G) ps xs ∧ l = xs.flatten) ↔ items G ps = some l := by
  induction ps generalizing l with
  | nil =>
    constructor
    · rintro ⟨xs, h, rfl⟩
      cases h
      rfl
    · intro h
      cases h
      exact ⟨[], .nil, rfl⟩
  | cons p ps ih =>
    rw [items]
    constructor
    · rintro ⟨xs, h, rfl⟩
      cases h with
      | @cons _ x _ xs h1 h2 =>
        rw [(item_iff G hf h1' p x).mp h1, (ih xs.flatten).mp ⟨xs, h2, rfl⟩]
        rfl
    · intro h
      rw [Option.bind_eq_some_iff] at h
      obtain ⟨x, hx, h⟩ := h
      rw [Option.map_eq_some_iff] at h
      obtain ⟨y, hy, rfl⟩ := h
      obtain ⟨xs, h1, rfl⟩ := (ih y).mpr hy
      exact ⟨x :: xs, .cons ((item_iff G hf h1' p x).mpr hx) h1, rfl⟩

theorem asks_iff (G : Pkg) (hf : G.parseFloat [] = none) (h1' : G.zero < G.one) (s : Str) (l : List (G.Tag × G.Weight)) :
    Asks G s l ↔ acceptLoop G s.length s [] = some l := by
  rw [accept_eq G _ s [] (Nat.le_refl _)]
  have : (items G (pieces 44 s)).map ([] ++ ·) = items G (pieces 44 s) := by cases items G (pieces 44 s) <;> rfl
  rw [this, ← items_iff G hf h1']
  unfold Asks
  constructor
  · rintro ⟨ps, xs, h1, h2, rfl⟩
    rw [pieces_iff] at h1
    subst h1
    exact ⟨xs, h2, rfl⟩
  · rintro ⟨xs, h2, rfl⟩
    exact ⟨_, xs, (pieces_iff _ _ _).mpr rfl, h2, rfl⟩

theorem insert_mem {G : Pkg} (x : G.Tag × G.Weight) (l : List (G.Tag × G.Weight)) (y : G.Tag × G.Weight) :
    y ∈ insert x l ↔ y = x ∨ y ∈ l := by
  induction l with
  | nil => simp [insert]
  | cons z l ih =>
    rw [insert]
    split
    · simp
    · rw [List.mem_cons, ih, List.mem_cons]
      constructor
      · rintro (h | h | h) <;> simp [h]
      · rintro (h | h | h) <;> simp [h]

theorem insert_sorted {G : Pkg} (x : G.Tag × G.Weight) (l : List (G.Tag × G.Weight)) (h : l.Pairwise fun a b => b.2 ≤ a.2) :
    (insert x l).Pairwise fun a b => b.2 ≤ a.2 := by
  induction l with
  | nil => simp [insert]
  | cons z l ih =>
    rw [List.pairwise_cons] at h
    rw [insert]
    split
    · rename_i hlt
      rw [List.pairwise_cons, List.pairwise_cons]
      refine ⟨?_, h⟩
      intro y hy
      rcases List.mem_cons.mp hy with rfl | hy
      · exact le_of_lt hlt
      · exact le_trans (h.1 y hy) (le_of_lt hlt)
    · rename_i hlt
      rw [List.pairwise_cons]
      refine ⟨?_, ih h.2⟩
      intro y hy
      rcases (insert_mem x l y).mp hy with rfl | hy
      · exact not_lt.mp hlt
      · exact h.1 y hy

theorem insert_filter {G : Pkg} (x : G.Tag × G.Weight) (l : List (G.Tag × G.Weight)) (h : l.Pairwise fun a b => b.2 ≤ a.2) (q : G.Weight) :
    (insert x l).filter (·.2 = q) = l.filter (·.2 = q) ++ [x].filter (·.2 = q) := by
  induction l with
  | nil => simp [insert]
  | cons z l ih =>
    rw [List.pairwise_cons] at h
    rw [insert]
    split
    · rename_i hlt
      by_cases hx : x.2 = q
      · have : (z :: l).filter (·.2 = q) = [] := by
          rw [List.filter_eq_nil_iff]
          intro y hy
          have hle : y.2 ≤ z.2 := by
            rcases List.mem_cons.mp hy with rfl | hy
            · exact le_refl _
            · exact h.1 y hy
          simpa using fun he => absurd (lt_of_le_of_lt hle hlt) (by rw [he, hx]; exact lt_irrefl _)
        rw [List.filter_cons, this]
        simp [hx]
      · rw [List.filter_cons, if_neg (by simpa using hx)]
        simp [hx]
    · rw [List.filter_cons, List.filter_cons, ih h.2]
      split <;> rfl

theorem stable_ok {G : Pkg} (l : List (G.Tag × G.Weight)) : ByQuality G l (stable l) := by
  unfold stable ByQuality
  induction l using List.reverseRecOn with
  | nil => exact ⟨List.Pairwise.nil, fun q => rfl⟩
  | append_singleton l x ih =>
    rw [List.foldl_append]
    show (insert x _).Pairwise _ ∧ _
    refine ⟨insert_sorted x _ ih.1, fun q => ?_⟩
    show (insert x _).filter _ = _
    rw [insert_filter x _ ih.1, ih.2, List.filter_append]

/-- **C100**: the order by quality is determined. -/
theorem C100_order (G : Pkg) (l out out' : List (G.Tag × G.Weight)) (h : ByQuality G l out) (h' : ByQuality G l out') : out = out' := by
  obtain ⟨hs, hq⟩ := h
  obtain ⟨hs', hq'⟩ := h'
  have hqq : ∀ q, out.filter (·.2 = q) = out'.filter (·.2 = q) := fun q => (hq q).trans (hq' q).symm
  clear hq hq'
  induction out generalizing out' with
  | nil =>
    cases out' with
    | nil => rfl
    | cons y ys =>
      have := hqq y.2
      simp at this
  | cons x xs ih =>
    cases out' with
    | nil =>
      have := hqq x.2
      simp at this
    | cons y ys =>
      rw [List.pairwise_cons] at hs hs'
      have hle : ∀ (a b : G.Tag × G.Weight) (as bs : List (G.Tag × G.Weight)), (∀ c ∈ bs, c.2 ≤ b.2) →
          (a :: as).filter (·.2 = a.2) = (b :: bs).filter (·.2 = a.2) → a.2 ≤ b.2 := by
        intro a b as bs hb he
        have : a ∈ (b :: bs).filter (·.2 = a.2) := by rw [← he]; simp
        have := (List.mem_filter.mp this).1
        rcases List.mem_cons.mp this with rfl | h
        · exact le_refl _
        · exact hb a h
      have hxy : x.2 = y.2 := le_antisymm (hle x y xs ys hs'.1 (hqq x.2)) (hle y x ys xs hs.1 (hqq y.2).symm)
      have e := hqq x.2
      rw [List.filter_cons, List.filter_cons, if_pos (by simp), if_pos (by simp [hxy])] at e
      have hx : x = y := (List.cons.inj e).1
      subst hx
      congr 1
      refine ih ys hs.2 hs'.2 fun q => ?_
      have := hqq q
      rw [List.filter_cons, List.filter_cons] at this
      split at this
      · exact (List.cons.inj this).2
      · exact this

/-- **C100**: the languages a request asks for: those in its Accept-Language header, best quality first, without those of quality 0; none
at all if a single part of the header is not understood or there are more than 1000 hyphens in it. -/
theorem C100_accept (G : Pkg) (hf : G.parseFloat [] = none) (h1' : G.zero < G.one) (s : Str) :
    (∀ l, Asks G s l → s.count 45 ≤ 1000 → ∃ out, ByQuality G l out ∧ parseAccept G s = out.map (·.1)) ∧
    ((1000 < s.count 45 ∨ ¬ ∃ l, Asks G s l) → parseAccept G s = []) ∧
    ∀ l l', Asks G s l → Asks G s l' → l = l' := by
  unfold parseAccept
  refine ⟨fun l hl hc => ?_, fun h => ?_, fun l l' h h' => ?_⟩
  · rw [if_neg (by omega), (asks_iff G hf h1' s l).mp hl]
    exact ⟨_, stable_ok l, rfl⟩
  · rcases h with h | h
    · rw [if_pos h]
    · split
      · rfl
      · cases hl : acceptLoop G s.length s [] with
        | none => rfl
        | some l => exact absurd ⟨l, (asks_iff G hf h1' s l).mpr hl⟩ h
  · rw [asks_iff G hf h1'] at h h'
    rw [h] at h'
    exact Option.some.inj h'

/-! ## The language of a request -/

/-- **C100**: the language of a request: the value of the first cookie with the name; without one the locale which the matcher finds for
the languages in the first Accept-Language header, best quality first, or for none if a part of the header is not understood or it has
more than 1000 hyphens. -/
theorem C100_request (G : Pkg) (hf : G.parseFloat [] = none) (h1' : G.zero < G.one) (make : Str → G.Tag)
    (index : List G.Tag → List G.Tag → Nat) (hg : (lang G make index).InRange) (c : W.Cfg α) (w : W.World α) (h : Header)
    (opts : List Str) (r : Res Str) (hr : w.GetUserLang (lang G make index) c (request h) opts r) :
    (∀ v, FirstCookie h (W.cookieName opts) v → r = .ok v) ∧
    ((∀ v, ¬ FirstCookie h (W.cookieName opts) v) → ∃ ls wanted accept, w.GLocales c ls ∧ FirstValue h b!"Accept-Language" accept ∧
      (∀ l out, Asks G accept l → accept.count 45 ≤ 1000 → ByQuality G l out → wanted = out.map (·.1)) ∧
      ((∀ l, ¬ Asks G accept l) ∨ 1000 < accept.count 45 → wanted = []) ∧
      ∃ s, ls[index (ls.map make) wanted]? = some s ∧ r = .ok s) := by
  have hu := W.C48_user_lang (lang G make index) c w hg (request h) opts r hr
  constructor
  · intro v hv
    exact hu.1 v ((C100_cookie h _ v).mpr hv)
  · intro hno
    have hc : (request h).cookie (W.cookieName opts) = none := by
      show cookie h _ = none
      cases hc : cookie h (W.cookieName opts) with
      | none => rfl
      | some v => exact absurd ((C100_cookie h _ v).mp hc) (hno v)
    obtain ⟨ls, h1, h2, _⟩ := hu.2 hc
    have ha := C100_accept G hf h1' (h.get b!"Accept-Language")
    refine ⟨ls, parseAccept G (h.get b!"Accept-Language"), h.get b!"Accept-Language", h1, (firstValue_iff _ _ _).mpr rfl, ?_, ?_, h2⟩
    · intro l out hl hcount hout
      obtain ⟨out', h3, h4⟩ := ha.1 l hl hcount
      rw [h4, C100_order G l out out' hout h3]
    · rintro (h | h)
      · exact ha.2.1 (.inr fun ⟨l, hl⟩ => h l hl)
      · exact ha.2.1 (.inl h)

/-! ## Concrete cases -/

/-- Names of two letters are languages; weights are tenths. -/
def exPkg : Pkg where
  Tag := Str
  parse s := if s.length = 2 then some s else none
  fallback s := if s = b!"english" then some b!"en" else none
  Weight := Nat
  order := inferInstance
  zero := 0
  one := 10
  parseFloat s := match s with
    | [48] => some 0
    | [49] => some 10
    | [48, 46, c] => if 48 ≤ c ∧ c ≤ 57 then some (c.toNat - 48) else none
    | _ => none

instance : DecidableEq exPkg.Tag := inferInstanceAs (DecidableEq Str)
instance : DecidableEq exPkg.Weight := inferInstanceAs (DecidableEq Nat)
instance (n : Nat) : OfNat exPkg.Weight n := inferInstanceAs (OfNat Nat n)

example : exPkg.parseFloat [] = none ∧ exPkg.zero < exPkg.one := ⟨rfl, by decide +kernel⟩

/-- Two headers; malformed cookies are passed over; the quotes are not part of the value. -/
example : FirstCookie [(b!"Cookie", [b!" lang=a\\b; a b=1; x=lang ", b!"y; lang =\"zh CN\"; lang=en"])] b!"lang" b!"zh CN" :=
  (C100_cookie _ _ _).mp (by decide +kernel)

example : ∀ v, ¬ FirstCookie [(b!"Cookie", [b!"Lang=zh; language=zh; lang=\"zh"])] b!"lang" v := by
  intro v h
  rw [← C100_cookie] at h
  exact absurd h (by
    have : cookie [(b!"Cookie", [b!"Lang=zh; language=zh; lang=\"zh"])] b!"lang" = none := by decide +kernel
    rw [this]
    exact fun h => by cases h)

/-- Best first, in the order of the header where equal, without what is refused. -/
def exWanted (s : Str) : List Str := parseAccept exPkg s

example : exWanted b!"zh;q=0.5, de ; q = 0.8,, fr;q=0,english;q=0.8,ja" = [b!"ja", b!"de", b!"en", b!"zh"] := by decide +kernel

example : Asks exPkg b!"zh;q=0.5, de ; q = 0.8,, fr;q=0,english;q=0.8,ja" [(b!"zh", 5), (b!"de", 8), (b!"en", 8), (b!"ja", 10)] :=
  (asks_iff exPkg rfl (by decide +kernel) _ _).mpr (by decide +kernel)

/-- There is a result for every request, and a matcher in range. -/
example (h : Header) (opts : List Str) (c : W.Cfg α) (w : W.World α) :
    (lang exPkg id fun sup wanted => sup.findIdx (fun t => wanted.head? = some t) % sup.length).InRange ∧
    ∃ r, w.GetUserLang (lang exPkg id fun sup wanted => sup.findIdx (fun t => wanted.head? = some t) % sup.length) c (request h) opts r :=
  ⟨fun _ _ hne => Nat.mod_lt _ (List.length_pos_of_ne_nil hne), W.C48_exists _ c w _ opts⟩

/-- One part that is not understood and nothing is wanted. -/
example : ¬ ∃ l, Asks exPkg b!"zh, de;q=high" l := by
  rintro ⟨l, h⟩
  rw [asks_iff exPkg rfl (by decide +kernel)] at h
  have : acceptLoop exPkg b!"zh, de;q=high".length b!"zh, de;q=high" [] = none := by decide +kernel
  rw [this] at h
  cases h

end Verif.Http
