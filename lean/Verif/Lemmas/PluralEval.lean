import Verif.Lemmas.PluralParse
/-! The operand stack computes the compositional value; literals of lexed trees are digit strings. -/
namespace Verif.Plural

theorem digitsVal_eq (ds : Str) (h : ds.all Num.isDigit = true) : ∀ a,
    Num.digitsVal a ds = some (ds.foldl (fun a c => a * 10 + (c.toNat - 48)) a) := by
  induction ds with
  | nil => simp [Num.digitsVal]
  | cons c cs ih =>
    intro a
    simp at h
    simp [Num.digitsVal, h.1, ih (by simpa using h.2)]

theorem parseInt_digits (ds : Str) (hne : ds ≠ []) (h : ds.all Num.isDigit = true) :
    Num.parseInt ds =
      (let v : Nat := ds.foldl (fun a c => a * 10 + (c.toNat - 48)) 0
       if v < 2 ^ 63 then some (v : Int) else none) := by
  have h43 : ∀ r, ds ≠ 43 :: r := by rintro r rfl; simp [Num.isDigit] at h
  have h45 : ∀ r, ds ≠ 45 :: r := by rintro r rfl; simp [Num.isDigit] at h
  unfold Num.parseInt
  split
  · exact absurd rfl (h43 _)
  · exact absurd rfl (h45 _)
  · simp only [digitsVal_eq ds h]
    rw [if_neg (by simpa using hne)]
    generalize List.foldl (fun a c => a * 10 + (c.toNat - 48)) 0 ds = v
    simp only [Num.minI64, Num.maxI64]
    split <;> split <;> simp_all <;> omega

theorem litVal_eq (ds : Str) (hne : ds ≠ []) (h : ds.all Num.isDigit = true) :
    (Num.parseInt ds).map Int64.ofInt = litVal ds := by
  rw [parseInt_digits ds hne h]
  simp only [litVal, hne, h, ne_eq, not_false_eq_true, and_self, if_true]
  split <;> simp [Int64.ofInt_eq_ofNat]

/-- Result of a walk as described by a value. -/
def push (v : Option Int64) (s : Stack) : Res Stack :=
  match v with
  | some x => .ok (x :: s)
  | none => .panic

theorem onBop_eq (o : Op) (x y : Int64) (s : Stack) :
    onBop o (y :: x :: s) = push (opVal o x y) s := by
  have : bop o x y = match opVal o x y with | some v => .ok v | none => .panic := by
    cases o <;> simp only [bop, opVal, b2i] <;> (repeat' split) <;> simp_all
  simp only [onBop, pop, this]
  cases opVal o x y <;> rfl

theorem walk_eq (n : Int64) (t : Exp) (h : GoodLits t) : ∀ s, walk n t s = push (den n t) s := by
  induction t with
  | n => intro s; rfl
  | int ds =>
    intro s
    have := litVal_eq ds h.1 h.2
    simp only [walk, den, ← this]
    cases Num.parseInt ds <;> rfl
  | paren e ih => intro s; exact ih h s
  | post o e ih =>
    intro s
    simp only [walk, den, ih h]
    cases den n e <;> cases o <;> rfl
  | pre o e ih =>
    intro s
    simp only [walk, den, ih h]
    cases den n e <;> cases o <;> rfl
  | bin o l r ihl ihr =>
    intro s
    simp only [walk, den, ihl h.1]
    cases den n l with
    | none => rfl
    | some x =>
      simp only [push, Res.bind, ihr h.2, Option.bind]
      cases den n r with
      | none => rfl
      | some y => exact onBop_eq o x y s
  | tern c a b ihc iha ihb =>
    intro s
    simp only [walk, den, ihc h.1]
    cases den n c with
    | none => rfl
    | some x =>
      simp only [push, Res.bind, iha h.2.1, Option.bind]
      cases den n a with
      | none => rfl
      | some y =>
        simp only [push, ihb h.2.2]
        cases den n b <;> rfl

/-! ### Literals -/

/-- A token whose literal, if any, is a non-empty digit string. -/
def GoodTok : Tok → Prop
  | .int ds => ds ≠ [] ∧ ds.all Num.isDigit = true
  | _ => True

theorem tok1_good (c : UInt8) : GoodTok (tok1 c) := by unfold tok1; split <;> trivial
theorem tok2_good {c d : UInt8} {t} (h : tok2 c d = some t) : GoodTok t := by
  unfold tok2 at h; split at h <;> simp at h <;> (subst h; trivial)

theorem flush_good {cur ts} (hc : cur.all Num.isDigit = true) (h : ∀ t ∈ ts, GoodTok t) :
    ∀ t ∈ flush cur ts, GoodTok t := by
  unfold flush
  split
  · exact h
  · rename_i hne
    intro t ht
    simp at ht
    rcases ht with rfl | ht
    · exact ⟨by simpa using hne, hc⟩
    · exact h t ht

theorem lexGo_good (m : Nat) : ∀ (s cur : Str), s.length ≤ m → cur.all Num.isDigit = true →
    ∀ t ∈ lexGo cur s, GoodTok t := by
  induction m with
  | zero =>
    intro s cur hs hc
    obtain rfl : s = [] := List.eq_nil_of_length_eq_zero (by omega)
    rw [lexGo]
    exact flush_good hc (by simp)
  | succ m ih =>
    intro s cur hs hc
    cases s with
    | nil => rw [lexGo]; exact flush_good hc (by simp)
    | cons c cs =>
      rw [lexGo.eq_def]
      dsimp only
      split
      · rename_i hd
        exact ih cs _ (by simpa using hs) (by simp_all)
      · apply flush_good hc
        split
        · exact ih cs _ (by simpa using hs) rfl
        · split
          · intro t ht
            simp at ht; subst ht; exact tok1_good c
          · rename_i d ds
            split
            · rename_i t' ht'
              intro t ht
              simp at ht
              rcases ht with rfl | ht
              · exact tok2_good ht'
              · exact ih ds _ (by simp at hs; omega) rfl t ht
            · intro t ht
              rw [List.mem_cons] at ht
              rcases ht with rfl | ht
              · exact tok1_good c
              · exact ih (d :: ds) _ (by simpa using hs) rfl t ht

theorem lex_good (s : Str) : ∀ t ∈ lex s, GoodTok t := lexGo_good s.length s [] (by omega) rfl

theorem goodLits_of_toks (t : Exp) (h : ∀ k ∈ toks t, GoodTok k) : GoodLits t := by
  induction t with
  | n => trivial
  | int ds => exact h (.int ds) (by simp [toks])
  | paren e ih => exact ih fun k hk => h k (by simp [toks, hk])
  | post o e ih => exact ih fun k hk => h k (by simp [toks, hk])
  | pre o e ih => exact ih fun k hk => h k (by simp [toks, hk])
  | bin o l r ihl ihr =>
    exact ⟨ihl fun k hk => h k (by simp [toks, hk]), ihr fun k hk => h k (by simp [toks, hk])⟩
  | tern c a b ihc iha ihb =>
    exact ⟨ihc fun k hk => h k (by simp [toks, hk]), iha fun k hk => h k (by simp [toks, hk]),
      ihb fun k hk => h k (by simp [toks, hk])⟩

theorem goodLits_of_lex {s : Str} {t : Exp} {r} (h : lex s = toks t ++ r) : GoodLits t :=
  goodLits_of_toks t fun k hk => lex_good s k (by rw [h]; simp [hk])

end Verif.Plural
