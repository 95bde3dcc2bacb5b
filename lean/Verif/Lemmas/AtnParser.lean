import Verif.Model.AtnParser
import Verif.Spec.Precedence
import Mathlib.Tactic.ByContra
/-! # The predictions of the parser's automaton -/
namespace Verif.Antlr
open Verif

/-- The automaton of the parser. -/
def parAtn : Atn :=
  { states := [
      ⟨2, 0, [.eps 6 none]⟩,
      ⟨7, 0, []⟩,
      ⟨2, 1, [.eps 14 none]⟩,
      ⟨7, 1, [.eps 7 (some 1), .eps 15 none, .eps 15 none, .eps 58 none, .eps 58 none, .eps 58 none, .eps 58 none,
        .eps 58 none, .eps 58 none, .eps 58 none, .eps 58 none, .eps 58 none, .eps 58 none, .eps 58 none,
        .eps 52 (some 1), .eps 54 none, .eps 64 (some 1)]⟩,
      ⟨2, 2, [.eps 68 none]⟩,
      ⟨7, 2, [.eps 15 none]⟩,
      ⟨1, 0, [.rule 2 0 7]⟩,
      ⟨1, 0, [.eps 1 none]⟩,
      ⟨1, 1, [.action 9 0]⟩,
      ⟨1, 1, [.rule 4 0 15]⟩,
      ⟨1, 1, [.set 11 [(1, 4)]]⟩,
      ⟨1, 1, [.rule 2 14 15]⟩,
      ⟨1, 1, [.set 13 [(5, 6)]]⟩,
      ⟨1, 1, [.rule 2 13 15]⟩,
      ⟨3, 1, [.eps 8 none, .eps 10 none, .eps 12 none]⟩,
      ⟨8, 1, [.eps 59 none]⟩,
      ⟨1, 1, [.prec 17 12]⟩,
      ⟨1, 1, [.set 18 [(7, 9)]]⟩,
      ⟨1, 1, [.rule 2 13 58]⟩,
      ⟨1, 1, [.prec 20 11]⟩,
      ⟨1, 1, [.set 21 [(3, 4)]]⟩,
      ⟨1, 1, [.rule 2 12 58]⟩,
      ⟨1, 1, [.prec 23 10]⟩,
      ⟨1, 1, [.set 24 [(10, 11)]]⟩,
      ⟨1, 1, [.rule 2 11 58]⟩,
      ⟨1, 1, [.prec 26 9]⟩,
      ⟨1, 1, [.set 27 [(12, 13)]]⟩,
      ⟨1, 1, [.rule 2 10 58]⟩,
      ⟨1, 1, [.prec 29 8]⟩,
      ⟨1, 1, [.set 30 [(14, 15)]]⟩,
      ⟨1, 1, [.rule 2 9 58]⟩,
      ⟨1, 1, [.prec 32 7]⟩,
      ⟨1, 1, [.set 33 [(16, 17)]]⟩,
      ⟨1, 1, [.rule 2 8 58]⟩,
      ⟨1, 1, [.prec 35 6]⟩,
      ⟨1, 1, [.atom 36 18]⟩,
      ⟨1, 1, [.rule 2 7 58]⟩,
      ⟨1, 1, [.prec 38 5]⟩,
      ⟨1, 1, [.atom 39 19]⟩,
      ⟨1, 1, [.rule 2 6 58]⟩,
      ⟨1, 1, [.prec 41 4]⟩,
      ⟨1, 1, [.atom 42 20]⟩,
      ⟨1, 1, [.rule 2 5 58]⟩,
      ⟨1, 1, [.prec 44 3]⟩,
      ⟨1, 1, [.atom 45 21]⟩,
      ⟨1, 1, [.rule 2 4 58]⟩,
      ⟨1, 1, [.prec 47 2]⟩,
      ⟨1, 1, [.atom 48 22]⟩,
      ⟨1, 1, [.rule 2 3 58]⟩,
      ⟨1, 1, [.prec 50 1]⟩,
      ⟨1, 1, [.atom 51 23]⟩,
      ⟨1, 1, [.rule 2 0 52]⟩,
      ⟨1, 1, [.atom 53 24]⟩,
      ⟨1, 1, [.rule 2 1 54]⟩,
      ⟨1, 1, [.eps 58 none]⟩,
      ⟨1, 1, [.prec 56 15]⟩,
      ⟨1, 1, [.set 58 [(1, 2)]]⟩,
      ⟨5, 1, [.eps 16 none, .eps 19 none, .eps 22 none, .eps 25 none, .eps 28 none, .eps 31 none, .eps 34 none,
        .eps 37 none, .eps 40 none, .eps 43 none, .eps 46 none, .eps 49 none, .eps 55 none]⟩,
      ⟨8, 1, [.eps 61 none]⟩,
      ⟨10, 1, [.eps 57 none, .eps 60 none]⟩,
      ⟨12, 1, [.eps 3 none]⟩,
      ⟨9, 1, [.eps 59 none]⟩,
      ⟨1, 2, [.atom 63 25]⟩,
      ⟨1, 2, [.rule 2 0 64]⟩,
      ⟨1, 2, [.atom 65 26]⟩,
      ⟨1, 2, [.eps 69 none]⟩,
      ⟨1, 2, [.atom 69 27]⟩,
      ⟨1, 2, [.atom 69 28]⟩,
      ⟨3, 2, [.eps 62 none, .eps 66 none, .eps 67 none]⟩,
      ⟨8, 2, [.eps 5 none]⟩,
      ⟨1, 2, []⟩],
    precStates := [2], rules := [(0, 0), (2, 0), (4, 0)], modes := [], decisions := [14, 57, 59, 68], actions := [] }

theorem parser_deserialize : deserialize parserData = some parAtn := by decide +kernel

/-- The configurations at the beginning of the decision whether to go on. -/
def start59 : List PCfg := (startP parAtn 59).getD []

/-- The configurations at the beginning of the decision how to go on. -/
def start57 : List PCfg := (startP parAtn 57).getD []

theorem startP_59 : startP parAtn 59 = some start59 := by decide +kernel

theorem startP_57 : startP parAtn 57 = some start57 := by decide +kernel

theorem precRule_59 : precRule parAtn 59 = some 1 := by decide +kernel

theorem precRule_57 : precRule parAtn 57 = none := by decide +kernel

/-- All precedences are below 16. -/
def levels (cs : List PCfg) : Bool := cs.all fun c => c.sem.all (· < 16)

theorem valid_min {c : PCfg} (h : c.sem.all (· < 16) = true) (p : Nat) : c.valid (min p 16) = c.valid p := by
  unfold PCfg.valid
  rw [Bool.eq_iff_iff, List.all_eq_true, List.all_eq_true]
  rw [List.all_eq_true] at h
  constructor
  · intro hx l hl
    have h1 := hx l hl; have h2 := h l hl
    simp only [decide_eq_true_eq] at h1 h2 ⊢; omega
  · intro hx l hl
    have h1 := hx l hl; have h2 := h l hl
    simp only [decide_eq_true_eq] at h1 h2 ⊢; omega

theorem filterP_min {cs : List PCfg} (h : levels cs = true) (p : Nat) : filterP (min p 16) cs = filterP p cs := by
  have : (cs.filter fun c => c.alt == 1 && c.valid (min p 16)) = cs.filter fun c => c.alt == 1 && c.valid p :=
    List.filter_congr fun c hc => by rw [valid_min (List.all_eq_true.1 h c hc)]
  unfold filterP
  rw [this]

theorem any_valid_min {cs : List PCfg} (h : levels cs = true) (p : Nat) : cs.any (·.valid (min p 16)) = cs.any (·.valid p) := by
  induction cs with
  | nil => rfl
  | cons c cs ih =>
    unfold levels at h ih
    rw [List.all_cons, Bool.and_eq_true] at h
    rw [List.any_cons, List.any_cons, ih h.2, valid_min h.1]

theorem fallback_min {cs : List PCfg} (h : levels cs = true) (A : Atn) (p : Nat) :
    fallback A (min p 16) cs = fallback A p cs := by
  have h1 : cs.filter (·.valid (min p 16)) = cs.filter (·.valid p) :=
    List.filter_congr fun c hc => by rw [valid_min (List.all_eq_true.1 h c hc)]
  have h2 : (cs.filter fun c => !c.valid (min p 16)) = cs.filter fun c => !c.valid p :=
    List.filter_congr fun c hc => by rw [valid_min (List.all_eq_true.1 h c hc)]
  unfold fallback
  rw [h1, h2]

/-- Transitions with labels below 29 do not tell apart what is not below. -/
def lowTrans (t : Trans) : Bool :=
  match t with
  | .atom _ l => l < 29
  | .set _ rs => rs.all fun r => r.2 < 29
  | _ => true

theorem reads_min {t : Trans} (h : lowTrans t = true) (c : Nat) : t.reads (min c 29) = t.reads c := by
  cases t with
  | atom a l =>
    simp only [lowTrans, decide_eq_true_eq] at h
    rw [Bool.eq_iff_iff]
    simp only [Trans.reads, beq_iff_eq]; omega
  | set a rs =>
    simp only [lowTrans, List.all_eq_true, decide_eq_true_eq] at h
    rw [Bool.eq_iff_iff]
    simp only [Trans.reads, List.any_eq_true, Bool.and_eq_true, decide_eq_true_eq]
    constructor
    · rintro ⟨r, hr, h1⟩; have := h r hr; exact ⟨r, hr, by omega⟩
    · rintro ⟨r, hr, h1⟩; have := h r hr; exact ⟨r, hr, by omega⟩
  | eps => rfl
  | rule => rfl
  | action => rfl
  | prec => rfl

theorem parAtn_low : (parAtn.states.all fun s => s.trans.all lowTrans) = true := by decide +kernel

theorem trans_low (s : Nat) : ∀ t ∈ parAtn.trans s, lowTrans t = true := by
  intro t ht
  unfold Atn.trans at ht
  cases hs : parAtn.states[s]? with
  | none => rw [hs] at ht; cases ht
  | some x =>
    rw [hs] at ht
    exact List.all_eq_true.1 (List.all_eq_true.1 parAtn_low x (List.mem_of_getElem? hs)) t ht

theorem reachP_min (cs : List PCfg) (t : Option Nat) : reachP parAtn cs (t.map (min · 29)) = reachP parAtn cs t := by
  cases t with
  | none => rfl
  | some t =>
    have : ∀ s, (parAtn.trans s).filter (·.reads (min t 29)) = (parAtn.trans s).filter (·.reads t) := fun s =>
      List.filter_congr fun x hx => reads_min (trans_low s x hx) t
    simp only [reachP, Option.map_some, this]

theorem decideP_min_t (p : Nat) (cs : List PCfg) (t : Option Nat) :
    decideP parAtn p cs (t.map (min · 29)) = decideP parAtn p cs t := by
  unfold decideP; rw [reachP_min]

theorem addP_levels {cs : List PCfg} {c : PCfg} (h : levels cs = true) (hc : c.sem.all (· < 16) = true) :
    levels (addP cs c) = true := by
  induction cs with
  | nil => simpa [addP, levels] using hc
  | cons x cs ih =>
    unfold levels at h ih ⊢
    rw [List.all_cons, Bool.and_eq_true] at h
    rw [addP]
    by_cases he : x.state = c.state ∧ x.alt = c.alt ∧ x.sem = c.sem
    · rw [if_pos he, List.all_cons, Bool.and_eq_true]; exact h
    · rw [if_neg he, List.all_cons, Bool.and_eq_true]; exact ⟨h.1, ih h.2⟩

theorem foldl_addP_levels : ∀ {l acc : List PCfg}, levels acc = true → levels l = true → levels (l.foldl addP acc) = true := by
  intro l
  induction l with
  | nil => intro acc h _; exact h
  | cons x l ih =>
    intro acc h hl
    unfold levels at hl
    rw [List.all_cons, Bool.and_eq_true] at hl
    exact ih (addP_levels h hl.1) hl.2

theorem reachP_levels {cs : List PCfg} (h : levels cs = true) (A : Atn) (t : Option Nat) : levels (reachP A cs t) = true := by
  unfold levels at h
  rw [List.all_eq_true] at h
  cases t with
  | none =>
    rw [reachP, levels, List.all_eq_true]
    intro c hc
    exact h c (List.mem_filter.1 hc).1
  | some t =>
    rw [reachP]
    apply foldl_addP_levels rfl
    rw [levels, List.all_eq_true]
    intro c hc
    obtain ⟨x, hx, hc⟩ := List.mem_flatMap.1 hc
    obtain ⟨tr, -, rfl⟩ := List.mem_map.1 hc
    exact h x (List.mem_filter.1 hx).1

theorem decideP_min_p {cs : List PCfg} (h : levels cs = true) (A : Atn) (p : Nat) (t : Option Nat) :
    decideP A (min p 16) cs t = decideP A p cs t := by
  have hr := reachP_levels h A t
  unfold decideP
  cases hc : reachP A cs t with
  | nil => exact fallback_min h A p
  | cons c r =>
    dsimp only
    rw [hc] at hr
    rw [any_valid_min hr]

theorem levels_59 : levels start59 = true := by decide +kernel

theorem levels_57 : levels start57 = true := by decide +kernel

theorem filterP_levels {cs : List PCfg} (h : levels cs = true) (p : Nat) : levels (filterP p cs) = true := by
  unfold filterP
  apply foldl_addP_levels rfl
  unfold levels at h ⊢
  rw [List.all_eq_true] at h
  rw [List.all_eq_true]
  intro c hc
  rcases List.mem_append.1 hc with hc | hc
  · obtain ⟨x, -, rfl⟩ := List.mem_map.1 hc; rfl
  · exact h c (List.mem_filter.1 hc).1

theorem continues_min (p : Nat) (t : Option Nat) : Continues (min p 16) (t.map (min · 29)) ↔ Continues p t := by
  have hg : ∀ type, 29 ≤ type → goesOn type = none := by
    intro type h
    unfold goesOn
    rw [if_neg (by omega), List.getElem?_eq_none (by change 27 ≤ _; omega)]; rfl
  have hl : ∀ type i, goesOn type = some i → levelAt i ≤ 16 := by intros; unfold levelAt; omega
  constructor
  · rintro ⟨type, i, ht, hi, h⟩
    cases t with
    | none => cases ht
    | some ty =>
      rw [Option.map_some] at ht
      by_cases h29 : 29 ≤ ty
      · rw [Nat.min_eq_right h29] at ht; cases ht; rw [hg _ (by omega)] at hi; cases hi
      · rw [Nat.min_eq_left (by omega)] at ht; cases ht
        refine ⟨_, i, rfl, hi, ?_⟩
        by_cases hp : p ≤ 16
        · rwa [Nat.min_eq_left hp] at h
        · rw [Nat.min_eq_right (by omega)] at h
          have h0 : i = 0 := by unfold levelAt at h; omega
          subst h0
          exfalso
          have : ∀ ty < 29, goesOn ty ≠ some 0 := by decide +kernel
          exact this _ (by omega) hi
  · rintro ⟨type, i, rfl, hi, h⟩
    have h29 : type < 29 := by
      by_contra hc
      rw [hg _ (by omega)] at hi; cases hi
    exact ⟨type, i, by rw [Option.map_some, Nat.min_eq_left (by omega)], hi, by omega⟩

/-- All tokens, and one that is none. -/
def allToks : List (Option Nat) := none :: (List.range 30).map some

theorem mem_allToks (t : Option Nat) : t.map (min · 29) ∈ allToks := by
  cases t with
  | none => exact List.mem_cons_self
  | some t =>
    refine List.mem_cons_of_mem _ (List.mem_map.2 ⟨min t 29, List.mem_range.2 ?_, rfl⟩)
    omega

theorem decide_59 : ∀ p < 17, ∀ t ∈ allToks,
    decideP parAtn p (filterP p start59) t = .alt (if Continues p t then 1 else 2) := by decide +kernel

/-- The number of an alternative in the loop of the generated parser: first the binary operators, then the
postfix operators. -/
def loopAlt (i : Nat) : Nat := if i = 1 then 13 else i - 3

theorem decide_57 : ∀ p < 17, ∀ t ∈ allToks, decideP parAtn p start57 t =
    if Continues p t then .alt (loopAlt ((t.bind goesOn).getD 0)) else .fail := by decide +kernel

theorem goesOn_min (t : Option Nat) : (t.map (min · 29)).bind goesOn = t.bind goesOn := by
  cases t with
  | none => rfl
  | some t =>
    by_cases h : t ≤ 29
    · rw [Option.map_some, Nat.min_eq_left h]
    · have : ∀ type, 29 ≤ type → goesOn type = none := by
        intro type h
        unfold goesOn
        rw [if_neg (by omega), List.getElem?_eq_none (by change 27 ≤ _; omega)]; rfl
      change goesOn (min t 29) = goesOn t
      rw [this _ (by omega), this _ (by omega)]

/-- Whether to go on. -/
theorem predict_59 (p : Nat) (t : Option Nat) : predict parAtn p 59 t = some (.alt (if Continues p t then 1 else 2)) := by
  unfold predict
  rw [startP_59, precRule_59]
  change some (decideP parAtn p (filterP p start59) t) = _
  have := decide_59 (min p 16) (by omega) _ (mem_allToks t)
  rw [filterP_min levels_59, decideP_min_p (filterP_levels levels_59 _), decideP_min_t] at this
  rw [this]
  by_cases h : Continues p t
  · rw [if_pos h, if_pos ((continues_min p t).2 h)]
  · rw [if_neg h, if_neg (fun hx => h ((continues_min p t).1 hx))]

/-- How to go on. -/
theorem predict_57 (p : Nat) (t : Option Nat) : predict parAtn p 57 t =
    some (if Continues p t then .alt (loopAlt ((t.bind goesOn).getD 0)) else .fail) := by
  unfold predict
  rw [startP_57, precRule_57]
  change some (decideP parAtn p start57 t) = _
  have := decide_57 (min p 16) (by omega) _ (mem_allToks t)
  rw [decideP_min_p levels_57, decideP_min_t, goesOn_min] at this
  rw [this]
  by_cases h : Continues p t
  · rw [if_pos h, if_pos ((continues_min p t).2 h)]
  · rw [if_neg h, if_neg (fun hx => h ((continues_min p t).1 hx))]

end Verif.Antlr
