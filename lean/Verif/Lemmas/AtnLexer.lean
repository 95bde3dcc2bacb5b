import Verif.Model.AtnLexer
import Verif.Spec.Lexeme
import Mathlib.Tactic.IntervalCases
/-! # The language of the lexer's automaton -/
namespace Verif.Antlr
open Verif

/-- The automaton of the lexer. -/
def lexAtn : Atn :=
  { states := [
      ⟨6, -1, [.eps 1 none, .eps 3 none, .eps 5 none, .eps 7 none, .eps 9 none, .eps 11 none, .eps 13 none,
        .eps 15 none, .eps 17 none, .eps 19 none, .eps 21 none, .eps 23 none, .eps 25 none, .eps 27 none,
        .eps 29 none, .eps 31 none, .eps 33 none, .eps 35 none, .eps 37 none, .eps 39 none, .eps 41 none,
        .eps 43 none, .eps 45 none, .eps 47 none, .eps 49 none, .eps 51 none, .eps 53 none, .eps 55 none,
        .eps 57 none]⟩,
      ⟨2, 0, [.eps 59 none]⟩,
      ⟨7, 0, []⟩,
      ⟨2, 1, [.eps 62 none]⟩,
      ⟨7, 1, []⟩,
      ⟨2, 2, [.eps 65 none]⟩,
      ⟨7, 2, []⟩,
      ⟨2, 3, [.eps 67 none]⟩,
      ⟨7, 3, []⟩,
      ⟨2, 4, [.eps 69 none]⟩,
      ⟨7, 4, []⟩,
      ⟨2, 5, [.eps 71 none]⟩,
      ⟨7, 5, []⟩,
      ⟨2, 6, [.eps 73 none]⟩,
      ⟨7, 6, []⟩,
      ⟨2, 7, [.eps 75 none]⟩,
      ⟨7, 7, []⟩,
      ⟨2, 8, [.eps 77 none]⟩,
      ⟨7, 8, []⟩,
      ⟨2, 9, [.eps 79 none]⟩,
      ⟨7, 9, []⟩,
      ⟨2, 10, [.eps 82 none]⟩,
      ⟨7, 10, []⟩,
      ⟨2, 11, [.eps 85 none]⟩,
      ⟨7, 11, []⟩,
      ⟨2, 12, [.eps 87 none]⟩,
      ⟨7, 12, []⟩,
      ⟨2, 13, [.eps 89 none]⟩,
      ⟨7, 13, []⟩,
      ⟨2, 14, [.eps 92 none]⟩,
      ⟨7, 14, []⟩,
      ⟨2, 15, [.eps 95 none]⟩,
      ⟨7, 15, []⟩,
      ⟨2, 16, [.eps 98 none]⟩,
      ⟨7, 16, []⟩,
      ⟨2, 17, [.eps 101 none]⟩,
      ⟨7, 17, []⟩,
      ⟨2, 18, [.eps 103 none]⟩,
      ⟨7, 18, []⟩,
      ⟨2, 19, [.eps 105 none]⟩,
      ⟨7, 19, []⟩,
      ⟨2, 20, [.eps 107 none]⟩,
      ⟨7, 20, []⟩,
      ⟨2, 21, [.eps 110 none]⟩,
      ⟨7, 21, []⟩,
      ⟨2, 22, [.eps 113 none]⟩,
      ⟨7, 22, []⟩,
      ⟨2, 23, [.eps 115 none]⟩,
      ⟨7, 23, []⟩,
      ⟨2, 24, [.eps 117 none]⟩,
      ⟨7, 24, []⟩,
      ⟨2, 25, [.eps 119 none]⟩,
      ⟨7, 25, []⟩,
      ⟨2, 26, [.eps 121 none]⟩,
      ⟨7, 26, []⟩,
      ⟨2, 27, [.eps 124 none]⟩,
      ⟨7, 27, []⟩,
      ⟨2, 28, [.eps 129 none]⟩,
      ⟨7, 28, []⟩,
      ⟨1, 0, [.atom 60 43]⟩,
      ⟨1, 0, [.atom 61 43]⟩,
      ⟨1, 0, [.eps 2 none]⟩,
      ⟨1, 1, [.atom 63 45]⟩,
      ⟨1, 1, [.atom 64 45]⟩,
      ⟨1, 1, [.eps 4 none]⟩,
      ⟨1, 2, [.atom 66 43]⟩,
      ⟨1, 2, [.eps 6 none]⟩,
      ⟨1, 3, [.atom 68 45]⟩,
      ⟨1, 3, [.eps 8 none]⟩,
      ⟨1, 4, [.atom 70 126]⟩,
      ⟨1, 4, [.eps 10 none]⟩,
      ⟨1, 5, [.atom 72 33]⟩,
      ⟨1, 5, [.eps 12 none]⟩,
      ⟨1, 6, [.atom 74 42]⟩,
      ⟨1, 6, [.eps 14 none]⟩,
      ⟨1, 7, [.atom 76 47]⟩,
      ⟨1, 7, [.eps 16 none]⟩,
      ⟨1, 8, [.atom 78 37]⟩,
      ⟨1, 8, [.eps 18 none]⟩,
      ⟨1, 9, [.atom 80 62]⟩,
      ⟨1, 9, [.atom 81 62]⟩,
      ⟨1, 9, [.eps 20 none]⟩,
      ⟨1, 10, [.atom 83 60]⟩,
      ⟨1, 10, [.atom 84 60]⟩,
      ⟨1, 10, [.eps 22 none]⟩,
      ⟨1, 11, [.atom 86 62]⟩,
      ⟨1, 11, [.eps 24 none]⟩,
      ⟨1, 12, [.atom 88 60]⟩,
      ⟨1, 12, [.eps 26 none]⟩,
      ⟨1, 13, [.atom 90 62]⟩,
      ⟨1, 13, [.atom 91 61]⟩,
      ⟨1, 13, [.eps 28 none]⟩,
      ⟨1, 14, [.atom 93 60]⟩,
      ⟨1, 14, [.atom 94 61]⟩,
      ⟨1, 14, [.eps 30 none]⟩,
      ⟨1, 15, [.atom 96 61]⟩,
      ⟨1, 15, [.atom 97 61]⟩,
      ⟨1, 15, [.eps 32 none]⟩,
      ⟨1, 16, [.atom 99 33]⟩,
      ⟨1, 16, [.atom 100 61]⟩,
      ⟨1, 16, [.eps 34 none]⟩,
      ⟨1, 17, [.atom 102 38]⟩,
      ⟨1, 17, [.eps 36 none]⟩,
      ⟨1, 18, [.atom 104 94]⟩,
      ⟨1, 18, [.eps 38 none]⟩,
      ⟨1, 19, [.atom 106 124]⟩,
      ⟨1, 19, [.eps 40 none]⟩,
      ⟨1, 20, [.atom 108 38]⟩,
      ⟨1, 20, [.atom 109 38]⟩,
      ⟨1, 20, [.eps 42 none]⟩,
      ⟨1, 21, [.atom 111 124]⟩,
      ⟨1, 21, [.atom 112 124]⟩,
      ⟨1, 21, [.eps 44 none]⟩,
      ⟨1, 22, [.atom 114 63]⟩,
      ⟨1, 22, [.eps 46 none]⟩,
      ⟨1, 23, [.atom 116 58]⟩,
      ⟨1, 23, [.eps 48 none]⟩,
      ⟨1, 24, [.atom 118 40]⟩,
      ⟨1, 24, [.eps 50 none]⟩,
      ⟨1, 25, [.atom 120 41]⟩,
      ⟨1, 25, [.eps 52 none]⟩,
      ⟨1, 26, [.atom 122 110]⟩,
      ⟨1, 26, [.eps 54 none]⟩,
      ⟨1, 27, [.set 125 [(48, 57)]]⟩,
      ⟨4, 27, [.eps 123 none]⟩,
      ⟨8, 27, [.eps 126 none]⟩,
      ⟨11, 27, [.eps 124 none, .eps 127 none]⟩,
      ⟨12, 27, [.eps 56 none]⟩,
      ⟨1, 28, [.set 130 [(9, 9), (32, 32)]]⟩,
      ⟨4, 28, [.eps 128 none]⟩,
      ⟨8, 28, [.eps 131 none]⟩,
      ⟨11, 28, [.eps 129 none, .eps 132 none]⟩,
      ⟨12, 28, [.eps 133 none]⟩,
      ⟨1, 28, [.action 134 0]⟩,
      ⟨1, 28, [.eps 58 none]⟩],
    precStates := [], rules := [(1, 1), (3, 2), (5, 3), (7, 4), (9, 5), (11, 6), (13, 7), (15, 8), (17, 9), (19,
        10), (21, 11), (23, 12), (25, 13), (27, 14), (29, 15), (31, 16), (33, 17), (35, 18), (37, 19), (39, 20),
        (41, 21), (43, 22), (45, 23), (47, 24), (49, 25), (51, 26), (53, 27), (55, 28), (57, 29)], modes := [0],
        decisions := [0, 126, 131], actions := [6] }

theorem lexer_deserialize : deserialize lexerData = some lexAtn := by decide +kernel

/-- The start configurations. -/
def lex0 : List LCfg := (lexStart lexAtn).getD []

theorem lexStart_eq : lexStart lexAtn = some lex0 := by decide +kernel

/-! ## Longest match in general -/

section
variable (A : Atn)

/-- What is reached by reading a text. -/
def reachW : List LCfg → List Nat → Option (List LCfg)
  | cs, [] => some cs
  | cs, t :: ts => (lexReach A cs t).bind fun cs => reachW cs ts

/-- What is accepted after reading a text. -/
def acceptW (cs : List LCfg) (w : List Nat) : Option (Nat × List Nat) := (reachW A cs w).bind (lexAccept A)

theorem lexReach_nil (t : Nat) : lexReach A [] t = some [] := rfl

theorem reachW_nil (w : List Nat) : reachW A [] w = some [] := by
  induction w with
  | nil => rfl
  | cons t ts ih => rw [reachW, lexReach_nil, Option.bind_some, ih]

theorem acceptW_nil (w : List Nat) : acceptW A [] w = none := by
  unfold acceptW; rw [reachW_nil]; rfl

theorem acceptW_empty (cs : List LCfg) : acceptW A cs [] = lexAccept A cs := rfl

/-- What `lexRun` finds: the longest accepted text, or what was accepted before. -/
theorem lexRun_spec {P : List LCfg → Prop} (hr : ∀ cs t, P cs → ∃ cs', lexReach A cs t = some cs' ∧ P cs')
    (inp : List Nat) : ∀ cs prev pos, P cs →
    ∃ r p, lexRun A cs prev pos inp = some (r, p) ∧ pos ≤ p ∧ p ≤ pos + inp.length ∧
    ((r = prev ∧ ∀ k, 0 < k → k ≤ inp.length → acceptW A cs (inp.take k) = none) ∨
     ∃ a k, r = some a ∧ a.len = pos + k ∧ 0 < k ∧ k ≤ inp.length ∧
      acceptW A cs (inp.take k) = some (a.type, a.acts) ∧
      ∀ k', k < k' → k' ≤ inp.length → acceptW A cs (inp.take k') = none) := by
  induction inp with
  | nil =>
    intro cs prev pos hP
    exact ⟨prev, pos, rfl, Nat.le_refl _, Nat.le_refl _, .inl ⟨rfl, fun k h1 h2 => by simp at h2; omega⟩⟩
  | cons t ts ih =>
    intro cs prev pos hP
    obtain ⟨cs', hc, hP'⟩ := hr cs t hP
    have step : ∀ k, acceptW A cs ((t :: ts).take (k + 1)) = acceptW A cs' (ts.take k) := by
      intro k
      unfold acceptW
      rw [List.take_succ_cons, reachW, hc, Option.bind_some]
    rw [lexRun, hc]
    cases cs' with
    | nil =>
      refine ⟨prev, pos, rfl, Nat.le_refl _, by simp, .inl ⟨rfl, fun k h1 h2 => ?_⟩⟩
      obtain ⟨k, rfl⟩ : ∃ j, k = j + 1 := ⟨k - 1, by omega⟩
      rw [step, acceptW_nil]
    | cons c cs' =>
      obtain ⟨r, p, h, hp, hp', hs⟩ := ih (c :: cs') (capture A (c :: cs') (pos + 1) prev) (pos + 1) hP'
      refine ⟨r, p, h, by omega, by simp only [List.length_cons]; omega, ?_⟩
      rcases hs with ⟨rfl, hn⟩ | ⟨a, k, rfl, h1, h2, h3, h4, h5⟩
      · have h0 : acceptW A (c :: cs') [] = lexAccept A (c :: cs') := rfl
        unfold capture
        cases hl : lexAccept A (c :: cs') with
        | none =>
          refine .inl ⟨rfl, fun k k1 k2 => ?_⟩
          obtain ⟨k, rfl⟩ : ∃ j, k = j + 1 := ⟨k - 1, by omega⟩
          rw [step]
          by_cases hk : k = 0
          · subst hk; rw [List.take_zero, h0, hl]
          · exact hn k (by omega) (by simp only [List.length_cons] at k2; omega)
        | some x =>
          refine .inr ⟨{ len := pos + 1, type := x.1, acts := x.2 }, 1, rfl, rfl, by omega, by simp, ?_, ?_⟩
          · rw [show 1 = 0 + 1 from rfl, step, List.take_zero, h0, hl]
          · intro k k1 k2
            obtain ⟨k, rfl⟩ : ∃ j, k = j + 1 := ⟨k - 1, by omega⟩
            rw [step]
            exact hn k (by omega) (by simp only [List.length_cons] at k2; omega)
      · refine .inr ⟨a, k + 1, rfl, by omega, by omega, by simp only [List.length_cons]; omega, by rw [step]; exact h4, ?_⟩
        intro k' k1 k2
        obtain ⟨k', rfl⟩ : ∃ j, k' = j + 1 := ⟨k' - 1, by omega⟩
        rw [step]
        exact h5 k' (by omega) (by simp only [List.length_cons] at k2; omega)

end

/-! ## The sets of configurations -/

/-- What is reached by a first character. -/
def one (c : Nat) : List LCfg := (lexReach lexAtn lex0 c).getD []

/-- What is reached by two characters. -/
def two (c d : Nat) : List LCfg := (lexReach lexAtn (one c) d).getD []

/-- The characters at the beginning of literal tokens. -/
def firsts : List Nat := [43, 45, 126, 33, 42, 47, 37, 62, 60, 61, 38, 94, 124, 63, 58, 40, 41, 110]

/-- The configurations within numbers. -/
def setInt : List LCfg := [⟨123, 28, []⟩, ⟨56, 28, []⟩]

/-- The configurations within spaces. -/
def setWs : List LCfg := [⟨128, 29, []⟩, ⟨58, 29, [6]⟩]

/-- No configuration reads a character. -/
def dead (cs : List LCfg) : Bool := cs.all fun c => (lexAtn.trans c.state).isEmpty

/-- No transition reads a character of 127 or more. -/
def low (cs : List LCfg) : Bool := cs.all fun c => (lexAtn.trans c.state).all fun t =>
  match t with
  | .atom _ l => l < 127
  | .set _ rs => rs.all fun r => r.2 < 127
  | _ => true

theorem dead_reach {cs : List LCfg} (h : dead cs = true) (t : Nat) : lexReach lexAtn cs t = some [] := by
  have : lexSteps lexAtn cs t = [] := by
    rw [lexSteps, List.flatMap_eq_nil_iff]
    intro c hc
    have := List.all_eq_true.1 h c hc
    rw [List.isEmpty_iff.1 this]; rfl
  rw [lexReach, this]; rfl

theorem low_reach {cs : List LCfg} (h : low cs = true) {t : Nat} (ht : 127 ≤ t) : lexReach lexAtn cs t = some [] := by
  have : lexSteps lexAtn cs t = [] := by
    rw [lexSteps, List.flatMap_eq_nil_iff]
    intro c hc
    have := List.all_eq_true.1 h c hc
    rw [List.map_eq_nil_iff, List.filter_eq_nil_iff]
    intro tr htr
    have := List.all_eq_true.1 this tr htr
    cases tr with
    | atom a l =>
      simp only [decide_eq_true_eq] at this
      simp only [Trans.reads, beq_iff_eq]; omega
    | set a rs =>
      simp only [Trans.reads, List.any_eq_true, not_exists, not_and, Bool.and_eq_true, decide_eq_true_eq]
      intro r hr hx
      have := List.all_eq_true.1 this r hr
      simp only [decide_eq_true_eq] at this
      omega
    | eps => simp [Trans.reads]
    | rule => simp [Trans.reads]
    | action => simp [Trans.reads]
    | prec => simp [Trans.reads]
  rw [lexReach, this]; rfl

theorem reach_one_lt : ∀ c < 127, lexReach lexAtn lex0 c = some (one c) := by decide +kernel

theorem low_lex0 : low lex0 = true := by decide +kernel

theorem reach_one (c : Nat) : lexReach lexAtn lex0 c = some (one c) := by
  by_cases h : c < 127
  · exact reach_one_lt c h
  · unfold one; rw [low_reach low_lex0 (by omega)]; rfl

theorem one_int : ∀ c < 58, 48 ≤ c → one c = setInt := by decide +kernel

theorem one_ws : ∀ c < 33, c = 32 ∨ c = 9 → one c = setWs := by decide +kernel

theorem one_other_lt : ∀ c < 127, c ∉ firsts → ¬(48 ≤ c ∧ c ≤ 57) → ¬(c = 32 ∨ c = 9) → one c = [] := by decide +kernel

theorem one_other (c : Nat) (h1 : c ∉ firsts) (h2 : ¬(48 ≤ c ∧ c ≤ 57)) (h3 : ¬(c = 32 ∨ c = 9)) : one c = [] := by
  by_cases h : c < 127
  · exact one_other_lt c h h1 h2 h3
  · unfold one; rw [low_reach low_lex0 (by omega)]; rfl

theorem low_one : ∀ c ∈ firsts, low (one c) = true := by decide +kernel

theorem reach_two_lt : ∀ c ∈ firsts, ∀ d < 127, lexReach lexAtn (one c) d = some (two c d) ∧ dead (two c d) = true := by
  decide +kernel

theorem reach_two (c : Nat) (hc : c ∈ firsts) (d : Nat) :
    lexReach lexAtn (one c) d = some (two c d) ∧ dead (two c d) = true := by
  by_cases h : d < 127
  · exact reach_two_lt c hc d h
  · unfold two; rw [low_reach (low_one c hc) (by omega)]; exact ⟨rfl, rfl⟩

theorem reach_int_lt : ∀ c < 127, lexReach lexAtn setInt c = some (if 48 ≤ c ∧ c ≤ 57 then setInt else []) := by
  decide +kernel

theorem reach_int (c : Nat) : lexReach lexAtn setInt c = some (if 48 ≤ c ∧ c ≤ 57 then setInt else []) := by
  by_cases h : c < 127
  · exact reach_int_lt c h
  · rw [low_reach (by decide +kernel) (by omega), if_neg (by omega)]

theorem reach_ws_lt : ∀ c < 127, lexReach lexAtn setWs c = some (if c = 32 ∨ c = 9 then setWs else []) := by
  decide +kernel

theorem reach_ws (c : Nat) : lexReach lexAtn setWs c = some (if c = 32 ∨ c = 9 then setWs else []) := by
  by_cases h : c < 127
  · exact reach_ws_lt c h
  · rw [low_reach (by decide +kernel) (by omega), if_neg (by omega)]

/-! ## The accepted texts -/

theorem accept_int (w : List Nat) :
    acceptW lexAtn setInt w = if ∀ c ∈ w, 48 ≤ c ∧ c ≤ 57 then some (28, []) else none := by
  induction w with
  | nil => rw [if_pos (by simp)]; decide +kernel
  | cons c w ih =>
    unfold acceptW at ih ⊢
    rw [reachW, reach_int, Option.bind_some]
    by_cases h : 48 ≤ c ∧ c ≤ 57
    · rw [if_pos h, ih]
      by_cases h' : ∀ c ∈ w, 48 ≤ c ∧ c ≤ 57
      · rw [if_pos h', if_pos (by simpa using ⟨h, h'⟩)]
      · rw [if_neg h', if_neg (fun hx => h' fun x hx' => hx x (List.mem_cons_of_mem _ hx'))]
    · rw [if_neg h, reachW_nil, if_neg (fun hx => h (hx c List.mem_cons_self))]; rfl

theorem accept_ws (w : List Nat) :
    acceptW lexAtn setWs w = if ∀ c ∈ w, c = 32 ∨ c = 9 then some (29, [6]) else none := by
  induction w with
  | nil => rw [if_pos (by simp)]; decide +kernel
  | cons c w ih =>
    unfold acceptW at ih ⊢
    rw [reachW, reach_ws, Option.bind_some]
    by_cases h : c = 32 ∨ c = 9
    · rw [if_pos h, ih]
      by_cases h' : ∀ c ∈ w, c = 32 ∨ c = 9
      · rw [if_pos h', if_pos (by simpa using ⟨h, h'⟩)]
      · rw [if_neg h', if_neg (fun hx => h' fun x hx' => hx x (List.mem_cons_of_mem _ hx'))]
    · rw [if_neg h, reachW_nil, if_neg (fun hx => h (hx c List.mem_cons_self))]; rfl

attribute [local irreducible] lex0 one two

/-- The type of a text. -/
def lexType (w : List Nat) : Option Nat :=
  if w = [] then none
  else if ∀ c ∈ w, 48 ≤ c ∧ c ≤ 57 then some 28
  else if ∀ c ∈ w, c = 32 ∨ c = 9 then some 29
  else (literals.findIdx? fun s => s.map UInt8.toNat == w).map (· + 1)

/-- The actions of a type. -/
def lexActs (ty : Nat) : List Nat := if ty = 29 then [6] else []

theorem accept_one_lt : ∀ c ∈ firsts, lexAccept lexAtn (one c) = (lexType [c]).map fun ty => (ty, lexActs ty) := by
  decide +kernel

theorem accept_two_lt : ∀ c ∈ firsts, ∀ d < 127,
    lexAccept lexAtn (two c d) = (lexType [c, d]).map fun ty => (ty, lexActs ty) := by
  decide +kernel

theorem firsts_not : ∀ c ∈ firsts, ¬(48 ≤ c ∧ c ≤ 57) ∧ ¬(c = 32 ∨ c = 9) := by decide

theorem literals_shape : ∀ s ∈ literals, s.length ≤ 2 ∧ s ≠ [] ∧ (∀ c ∈ s, c.toNat < 127) ∧
    ∀ c ∈ (s.map UInt8.toNat).head?, c ∈ firsts := by decide +kernel

theorem lexType_none {c : Nat} {w : List Nat} (h1 : ¬(48 ≤ c ∧ c ≤ 57)) (h2 : ¬(c = 32 ∨ c = 9))
    (h : ∀ s ∈ literals, s.map UInt8.toNat ≠ c :: w) : lexType (c :: w) = none := by
  unfold lexType
  rw [if_neg (by simp), if_neg (fun hx => h1 (hx c List.mem_cons_self)),
    if_neg (fun hx => h2 (hx c List.mem_cons_self)), Option.map_eq_none_iff, List.findIdx?_eq_none_iff]
  intro s hs
  have := h s hs
  simpa using this

/-- What the automaton accepts. -/
theorem accept_lex0 (w : List Nat) : acceptW lexAtn lex0 w = (lexType w).map fun ty => (ty, lexActs ty) := by
  cases w with
  | nil => decide +kernel
  | cons c w =>
    have hstep : acceptW lexAtn lex0 (c :: w) = acceptW lexAtn (one c) w := by
      unfold acceptW; rw [reachW, reach_one, Option.bind_some]
    rw [hstep]
    by_cases hd : 48 ≤ c ∧ c ≤ 57
    · rw [one_int c (by omega) hd.1, accept_int]
      unfold lexType
      rw [if_neg (List.cons_ne_nil c w)]
      by_cases h' : ∀ c ∈ w, 48 ≤ c ∧ c ≤ 57
      · rw [if_pos h', if_pos (by simpa using ⟨hd, h'⟩)]; rfl
      · rw [if_neg h', if_neg (fun hx => h' fun x hx' => hx x (List.mem_cons_of_mem _ hx')),
          if_neg (fun hx => by have := hx c List.mem_cons_self; omega)]
        symm
        rw [Option.map_eq_none_iff, Option.map_eq_none_iff, List.findIdx?_eq_none_iff]
        intro s hs
        have := (literals_shape s hs).2.2.2
        by_cases he : s.map UInt8.toNat = c :: w
        · have hm := this c (by rw [he]; simp)
          have := (firsts_not c hm).1; omega
        · simpa using he
    · by_cases hw : c = 32 ∨ c = 9
      · rw [one_ws c (by omega) hw, accept_ws]
        unfold lexType
        rw [if_neg (List.cons_ne_nil c w), if_neg (show ¬∀ x ∈ c :: w, 48 ≤ x ∧ x ≤ 57 from fun hx => hd (hx c List.mem_cons_self))]
        by_cases h' : ∀ c ∈ w, c = 32 ∨ c = 9
        · rw [if_pos h', if_pos (by simpa using ⟨hw, h'⟩)]; rfl
        · rw [if_neg h', if_neg (fun hx => h' fun x hx' => hx x (List.mem_cons_of_mem _ hx'))]
          symm
          rw [Option.map_eq_none_iff, Option.map_eq_none_iff, List.findIdx?_eq_none_iff]
          intro s hs
          have := (literals_shape s hs).2.2.2
          by_cases he : s.map UInt8.toNat = c :: w
          · have hm := this c (by rw [he]; simp)
            exact absurd hw (firsts_not c hm).2
          · simpa using he
      · by_cases hf : c ∈ firsts
        · cases w with
          | nil => rw [acceptW_empty]; exact accept_one_lt c hf
          | cons d w =>
            obtain ⟨hr, hdead⟩ := reach_two c hf d
            have hstep : acceptW lexAtn (one c) (d :: w) = acceptW lexAtn (two c d) w := by
              unfold acceptW; rw [reachW, hr, Option.bind_some]
            rw [hstep]
            cases w with
            | nil =>
              by_cases hd' : d < 127
              · rw [acceptW_empty]; exact accept_two_lt c hf d hd'
              · rw [lexType_none hd hw]
                · have : two c d = [] := by
                    unfold two; rw [low_reach (low_one c hf) (by omega)]; rfl
                  rw [this, acceptW_nil]; rfl
                · intro s hs he
                  have := (literals_shape s hs).2.2.1
                  have hm : d ∈ s.map UInt8.toNat := by rw [he]; simp
                  obtain ⟨x, hx, rfl⟩ := List.mem_map.1 hm
                  exact hd' (this x hx)
            | cons e w =>
              rw [lexType_none hd hw]
              · unfold acceptW
                rw [reachW, dead_reach hdead, Option.bind_some, reachW_nil]; rfl
              · intro s hs he
                have := (literals_shape s hs).1
                have := congrArg List.length he
                simp at this; omega
        · rw [one_other c hf hd hw, acceptW_nil, lexType_none hd hw]
          · rfl
          · intro s hs he
            exact hf ((literals_shape s hs).2.2.2 c (by rw [he]; simp))

theorem literals_unique : ∀ i < 27, literals.findIdx? (fun s => s.map UInt8.toNat == ((literals[i]?).getD []).map UInt8.toNat) = some i := by
  decide +kernel

theorem literals_plain : ∀ i < 27, ¬(∀ c ∈ ((literals[i]?).getD []).map UInt8.toNat, 48 ≤ c ∧ c ≤ 57) ∧
    ¬(∀ c ∈ ((literals[i]?).getD []).map UInt8.toNat, c = 32 ∨ c = 9) ∧ ((literals[i]?).getD []).map UInt8.toNat ≠ [] := by
  decide +kernel

theorem lexType_iff (ty : Nat) (w : List Nat) : lexType w = some ty ↔ Lexeme ty w := by
  unfold lexType Lexeme
  constructor
  · intro h
    by_cases h0 : w = []
    · rw [if_pos h0] at h; cases h
    · rw [if_neg h0] at h
      by_cases h1 : ∀ c ∈ w, 48 ≤ c ∧ c ≤ 57
      · rw [if_pos h1] at h; cases h
        exact .inr (.inl ⟨rfl, h0, h1⟩)
      · rw [if_neg h1] at h
        by_cases h2 : ∀ c ∈ w, c = 32 ∨ c = 9
        · rw [if_pos h2] at h; cases h
          exact .inr (.inr ⟨rfl, h0, h2⟩)
        · rw [if_neg h2, Option.map_eq_some_iff] at h
          obtain ⟨i, hi, rfl⟩ := h
          rw [List.findIdx?_eq_some_iff_getElem] at hi
          obtain ⟨hl, he, _⟩ := hi
          exact .inl ⟨literals[i], by simp [hl], by omega, (by simpa using he : _ = _).symm⟩
  · rintro (⟨s, hs, hty, rfl⟩ | ⟨rfl, h0, h1⟩ | ⟨rfl, h0, h2⟩)
    · have hlt : ty - 1 < 27 := (List.getElem?_eq_some_iff.1 hs).1
      have hg : (literals[ty - 1]?).getD [] = s := by rw [hs]; rfl
      have hu := literals_unique _ hlt
      have hp := literals_plain _ hlt
      rw [hg] at hu hp
      rw [if_neg hp.2.2, if_neg hp.1, if_neg hp.2.1, hu]
      exact congrArg some (show ty - 1 + 1 = ty by omega)
    · rw [if_neg h0, if_pos h1]
    · rw [if_neg h0, if_neg, if_pos h2]
      intro h1
      obtain ⟨c, hc⟩ := List.exists_mem_of_ne_nil w h0
      have := h1 c hc; have := h2 c hc; omega

/-- The sets that are reached. -/
def Reached (cs : List LCfg) : Prop :=
  cs = lex0 ∨ cs = [] ∨ cs = setInt ∨ cs = setWs ∨ (∃ c ∈ firsts, cs = one c) ∨ ∃ c ∈ firsts, ∃ d, cs = two c d

theorem reached_step (cs : List LCfg) (t : Nat) (h : Reached cs) : ∃ cs', lexReach lexAtn cs t = some cs' ∧ Reached cs' := by
  rcases h with rfl | rfl | rfl | rfl | ⟨c, hc, rfl⟩ | ⟨c, hc, d, rfl⟩
  · refine ⟨one t, reach_one t, ?_⟩
    by_cases h1 : 48 ≤ t ∧ t ≤ 57
    · rw [one_int t (by omega) h1.1]; exact .inr (.inr (.inl rfl))
    · by_cases h2 : t = 32 ∨ t = 9
      · rw [one_ws t (by omega) h2]; exact .inr (.inr (.inr (.inl rfl)))
      · by_cases h3 : t ∈ firsts
        · exact .inr (.inr (.inr (.inr (.inl ⟨t, h3, rfl⟩))))
        · rw [one_other t h3 h1 h2]; exact .inr (.inl rfl)
  · exact ⟨[], rfl, .inr (.inl rfl)⟩
  · refine ⟨_, reach_int t, ?_⟩
    by_cases h : 48 ≤ t ∧ t ≤ 57
    · rw [if_pos h]; exact .inr (.inr (.inl rfl))
    · rw [if_neg h]; exact .inr (.inl rfl)
  · refine ⟨_, reach_ws t, ?_⟩
    by_cases h : t = 32 ∨ t = 9
    · rw [if_pos h]; exact .inr (.inr (.inr (.inl rfl)))
    · rw [if_neg h]; exact .inr (.inl rfl)
  · exact ⟨two c t, (reach_two c hc t).1, .inr (.inr (.inr (.inr (.inr ⟨c, hc, t, rfl⟩))))⟩
  · exact ⟨[], dead_reach (reach_two c hc d).2 t, .inr (.inl rfl)⟩

end Verif.Antlr
