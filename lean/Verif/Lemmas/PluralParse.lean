import Verif.Spec.Plural
/-! Soundness and completeness of the precedence-climbing parser. -/
namespace Verif.Plural
variable {T : Table}

/-- The next token is not taken by an operand at the right edge of `t`. -/
def NoAbs (T : Table) (t : Exp) (r : List Tok) : Prop :=
  ∀ k ∈ r.head?, ∀ q ∈ contPrec T k, ¬ absorbs T t q

/-- The loop at level `p` stops in front of `r`. -/
def StopsAt (T : Table) (p : Nat) (r : List Tok) : Prop :=
  ∀ k ∈ r.head?, k ≠ .bad ∧ ∀ q ∈ contPrec T k, q < p

theorem pLoop_stop {f p l r} (h : StopsAt T p r) : pLoop T (f + 1) p l r = some (l, r) := by
  cases r with
  | nil => simp [pLoop]
  | cons k r =>
    obtain ⟨hb, hq⟩ := h k (by simp)
    cases k <;> simp [contPrec] at hq hb <;> simp [pLoop, postOf] <;> omega

theorem preOf_tok (o : Pre) : preOf o.tok = some o := by cases o <;> rfl
theorem preOf_eq {k : Tok} {o : Pre} (h : preOf k = some o) : k = o.tok := by
  unfold preOf at h
  split at h <;> simp at h <;> (subst h; rfl)
theorem postOf_tok (o : Post) : postOf o.tok = some o := by cases o <;> rfl

theorem pAtom_pre {f o r} :
    pAtom T (f + 1) (o.tok :: r) = (pExp T f (T.pre o) r).map fun x => (.pre o x.1, x.2) := by
  cases o <;> simp [pAtom, Pre.tok, preOf] <;> (split <;> simp_all)

theorem pLoop_post {f p l o r} (h : p ≤ T.post) :
    pLoop T (f + 1) p l (Post.tok o :: r) = pLoop T f p (.post o l) r := by
  cases o <;> simp [pLoop, Post.tok, postOf, h]

theorem NoAbs.stops {p t r} (h : NoAbs T t r) (hp : ∀ q, p ≤ q → absorbs T t q)
    (hb : ∀ k ∈ r.head?, k ≠ .bad) : StopsAt T p r := by
  intro k hk
  refine ⟨hb k hk, fun q hq => ?_⟩
  have := h k hk q hq
  have := mt (hp q) this
  omega

theorem complete (t : Exp) : ∀ (p : Nat) (r : List Tok) (f : Nat), Wf T p t → NoAbs T t r →
    (∀ k ∈ r.head?, k ≠ .bad) → 2 * (toks t).length + 1 ≤ f →
    ∃ g, f ≤ g + 2 * (toks t).length ∧ pExp T f p (toks t ++ r) = pLoop T g p t r := by
  induction t with
  | n =>
    intro p r f _ _ _ hf
    simp [toks] at hf
    obtain ⟨f, rfl⟩ : ∃ k, f = k + 2 := ⟨f - 2, by omega⟩
    exact ⟨f + 1, by simp [toks], by simp [pExp, pAtom, toks]⟩
  | int ds =>
    intro p r f _ _ _ hf
    simp [toks] at hf
    obtain ⟨f, rfl⟩ : ∃ k, f = k + 2 := ⟨f - 2, by omega⟩
    exact ⟨f + 1, by simp [toks], by simp [pExp, pAtom, toks]⟩
  | paren e ih =>
    intro p r f hw _ _ hf
    simp [toks] at hf
    obtain ⟨f, rfl⟩ : ∃ k, f = k + 2 := ⟨f - 2, by omega⟩
    obtain ⟨g, hg, he⟩ := ih 0 (.rp :: r) f (by simpa [Wf] using hw) (by simp [NoAbs, contPrec])
      (by simp) (by omega)
    obtain ⟨g, rfl⟩ : ∃ k, g = k + 1 := ⟨g - 1, by omega⟩
    rw [pLoop_stop (by simp [StopsAt, contPrec])] at he
    exact ⟨f + 1, by simp [toks]; omega, by simp [pExp, pAtom, toks, he]⟩
  | post o e ih =>
    intro p r f hw hn hb hf
    simp [toks] at hf
    obtain ⟨hp, hwe, hna⟩ := hw
    obtain ⟨g, hg, he⟩ := ih p (o.tok :: r) f hwe
      (by cases o <;> simpa [NoAbs, contPrec, Post.tok] using hna)
      (by cases o <;> simp [Post.tok]) (by omega)
    obtain ⟨g, rfl⟩ : ∃ k, g = k + 1 := ⟨g - 1, by omega⟩
    rw [pLoop_post hp] at he
    exact ⟨g, by simp [toks]; omega, by simpa [toks] using he⟩
  | pre o e ih =>
    intro p r f hw hn hb hf
    simp [toks] at hf
    obtain ⟨f, rfl⟩ : ∃ k, f = k + 2 := ⟨f - 2, by omega⟩
    obtain ⟨g, hg, he⟩ := ih (T.pre o) r f hw
      (fun k hk q hq ha => hn k hk q hq (Or.inr ha)) hb (by omega)
    obtain ⟨g, rfl⟩ : ∃ k, g = k + 1 := ⟨g - 1, by omega⟩
    rw [pLoop_stop (hn.stops (fun q hq => Or.inl hq) hb)] at he
    exact ⟨f + 1, by simp [toks]; omega, by simp [pExp, toks, pAtom_pre, he]⟩
  | bin o l r ihl ihr =>
    intro p rest f hw hn hb hf
    simp [toks] at hf
    obtain ⟨hp, hwl, hna, hwr⟩ := hw
    obtain ⟨g, hg, he⟩ := ihl p (.op o :: (toks r ++ rest)) f hwl
      (by simpa [NoAbs, contPrec] using hna) (by simp) (by omega)
    obtain ⟨g, rfl⟩ : ∃ k, g = k + 1 := ⟨g - 1, by omega⟩
    obtain ⟨g', hg', he'⟩ := ihr (T.op o + 1) rest g hwr
      (fun k hk q hq ha => hn k hk q hq (Or.inr ha)) hb (by omega)
    obtain ⟨g', rfl⟩ : ∃ k, g' = k + 1 := ⟨g' - 1, by omega⟩
    rw [pLoop_stop (hn.stops (fun q hq => Or.inl hq) hb)] at he'
    refine ⟨g, by simp [toks]; omega, ?_⟩
    simp [toks, he, pLoop, hp, he']
  | tern c a b ihc iha ihb =>
    intro p rest f hw hn hb hf
    simp [toks] at hf
    obtain ⟨hp, hwc, hna, hwa, hwb⟩ := hw
    obtain ⟨g, hg, he⟩ := ihc p (.quest :: (toks a ++ .colon :: (toks b ++ rest))) f hwc
      (by simpa [NoAbs, contPrec] using hna) (by simp) (by omega)
    obtain ⟨g, rfl⟩ : ∃ k, g = k + 1 := ⟨g - 1, by omega⟩
    obtain ⟨g', hg', he'⟩ := iha 0 (.colon :: (toks b ++ rest)) g hwa
      (by simp [NoAbs, contPrec]) (by simp) (by omega)
    obtain ⟨g', rfl⟩ : ∃ k, g' = k + 1 := ⟨g' - 1, by omega⟩
    rw [pLoop_stop (by simp [StopsAt, contPrec])] at he'
    obtain ⟨g'', hg'', he''⟩ := ihb 1 rest g hwb
      (fun k hk q hq ha => hn k hk q hq (Or.inr ha)) hb (by omega)
    obtain ⟨g'', rfl⟩ : ∃ k, g'' = k + 1 := ⟨g'' - 1, by omega⟩
    rw [pLoop_stop (hn.stops (fun q hq => Or.inl hq) hb)] at he''
    refine ⟨g, by simp [toks]; omega, ?_⟩
    simp [toks, he, pLoop, hp, he', he'']

/-- What a successful run of the parser returned. -/
def Good (T : Table) (p : Nat) (t : Exp) (r : List Tok) : Prop :=
  Wf T p t ∧ NoAbs T t r ∧ StopsAt T p r

theorem sound (f : Nat) :
    (∀ p ts t r, pExp T f p ts = some (t, r) → ts = toks t ++ r ∧ Good T p t r) ∧
    (∀ ts t r, pAtom T f ts = some (t, r) → ts = toks t ++ r ∧ (∀ p, Wf T p t) ∧ NoAbs T t r) ∧
    (∀ p l ts t r, pLoop T f p l ts = some (t, r) → Wf T p l → NoAbs T l ts →
      toks l ++ ts = toks t ++ r ∧ Good T p t r) := by
  induction f with
  | zero => simp [pExp, pAtom, pLoop]
  | succ f ih =>
    obtain ⟨ihE, ihA, ihL⟩ := ih
    refine ⟨?_, ?_, ?_⟩
    · intro p ts t r h
      simp only [pExp] at h
      split at h
      · simp at h
      · rename_i a r' ha
        obtain ⟨h1, h2, h3⟩ := ihA _ _ _ ha
        obtain ⟨h4, h5⟩ := ihL _ _ _ _ _ h (h2 p) h3
        exact ⟨h1.trans h4, h5⟩
    · intro ts t r h
      simp only [pAtom] at h
      split at h
      · simp at h; obtain ⟨rfl, rfl⟩ := h
        exact ⟨by simp [toks], fun _ => trivial, by intro _ _ _ _; simp [absorbs]⟩
      · simp at h; obtain ⟨rfl, rfl⟩ := h
        exact ⟨by simp [toks], fun _ => trivial, by intro _ _ _ _; simp [absorbs]⟩
      · split at h
        · rename_i r0 _ e r' he
          simp at h; obtain ⟨rfl, rfl⟩ := h
          obtain ⟨h1, h2, _⟩ := ihE _ _ _ _ he
          exact ⟨by simp [toks, h1], fun _ => h2, by intro _ _ _ _; simp [absorbs]⟩
        · simp at h
      · split at h
        · simp at h
        · rename_i k r0 _ _ _ _ o ho
          split at h
          · simp at h
          · rename_i e r' he
            simp at h; obtain ⟨rfl, rfl⟩ := h
            obtain ⟨h1, h2, h3, h4⟩ := ihE _ _ _ _ he
            refine ⟨?_, fun _ => h2, ?_⟩
            · have : k = o.tok := preOf_eq ho
              simp [toks, h1, this]
            · intro k hk q hq ha
              rcases ha with ha | ha
              · have := (h4 k hk).2 q hq; omega
              · exact h3 k hk q hq ha
      · simp at h
    · intro p l ts t r h hw hn
      simp only [pLoop] at h
      split at h
      · simp at h; obtain ⟨rfl, rfl⟩ := h
        exact ⟨rfl, hw, hn, by simp [StopsAt]⟩
      · simp at h
      · rename_i o r0
        split at h
        · rename_i hp
          split at h
          · simp at h
          · rename_i e r' he
            obtain ⟨h1, h2, h3, h4⟩ := ihE _ _ _ _ he
            have hab : ¬ absorbs T l (T.op o) := hn (.op o) (by simp) _ (by simp [contPrec])
            obtain ⟨h5, h6⟩ := ihL _ _ _ _ _ h ⟨hp, hw, hab, h2⟩ (by
              intro k hk q hq ha
              rcases ha with ha | ha
              · have := (h4 k hk).2 q hq; omega
              · exact h3 k hk q hq ha)
            exact ⟨by rw [← h5]; simp [toks, h1], h6⟩
        · rename_i hp
          simp at h; obtain ⟨rfl, rfl⟩ := h
          exact ⟨rfl, hw, hn, by simp [StopsAt, contPrec]; omega⟩
      · rename_i r0
        split at h
        · rename_i hp
          split at h
          · rename_i a r' ha'
            split at h
            · simp at h
            · rename_i b r'' hb'
              obtain ⟨h1, h2, _, _⟩ := ihE _ _ _ _ ha'
              obtain ⟨k1, k2, k3, k4⟩ := ihE _ _ _ _ hb'
              have hab : ¬ absorbs T l 1 := hn .quest (by simp) _ (by simp [contPrec])
              obtain ⟨h5, h6⟩ := ihL _ _ _ _ _ h ⟨hp, hw, hab, h2, k2⟩ (by
                intro k hk q hq ha
                rcases ha with ha | ha
                · have := (k4 k hk).2 q hq; omega
                · exact k3 k hk q hq ha)
              exact ⟨by rw [← h5]; simp [toks, h1, k1], h6⟩
          · simp at h
        · rename_i hp
          simp at h; obtain ⟨rfl, rfl⟩ := h
          exact ⟨rfl, hw, hn, by simp [StopsAt, contPrec]; omega⟩
      · rename_i k r0 hk1 hk2 hk3
        split at h
        · rename_i hpo
          simp at h; obtain ⟨rfl, rfl⟩ := h
          refine ⟨rfl, hw, hn, ?_⟩
          cases k <;> simp [postOf] at hpo <;> simp_all [StopsAt, contPrec]
        · rename_i o hpo
          have hk : k = o.tok := by cases k <;> simp [postOf] at hpo <;> (subst hpo; rfl)
          subst hk
          split at h
          · rename_i hp
            obtain ⟨h5, h6⟩ := ihL _ _ _ _ _ h
              ⟨hp, hw, hn (Post.tok o) (by simp) T.post (by cases o <;> simp [contPrec, Post.tok])⟩
              (by intro _ _ _ _; simp [absorbs])
            exact ⟨by rw [← h5]; simp [toks], h6⟩
          · rename_i hp
            simp at h; obtain ⟨rfl, rfl⟩ := h
            refine ⟨rfl, hw, hn, ?_⟩
            cases o <;> simp [StopsAt, contPrec, Post.tok] <;> omega

theorem stopsAt_zero {r} : StopsAt T 0 r ↔ Ends r := by
  cases r with
  | nil => simp [StopsAt, Ends]
  | cons k r => cases k <;> simp [StopsAt, Ends, isEnd, contPrec]

/-- The parser finds exactly the leading expression that the next token cannot continue. -/
theorem parse_iff (ts t r) :
    parse T ts = some (t, r) ↔ ts = toks t ++ r ∧ Wf T 0 t ∧ Ends r := by
  constructor
  · intro h
    obtain ⟨h1, h2, _, h3⟩ := (sound _).1 _ _ _ _ h
    exact ⟨h1, h2, stopsAt_zero.1 h3⟩
  · rintro ⟨rfl, hw, he⟩
    have hs : StopsAt T 0 r := stopsAt_zero.2 he
    have hn : NoAbs T t r := fun k hk q hq => absurd ((hs k hk).2 q hq) (by omega)
    obtain ⟨g, hg, h⟩ := complete t 0 r (2 * (toks t ++ r).length + 3) hw hn
      (fun k hk => (hs k hk).1) (by simp; omega)
    obtain ⟨g, rfl⟩ : ∃ k, g = k + 1 := ⟨g - 1, by simp at hg; omega⟩
    rw [parse, h, pLoop_stop hs]

end Verif.Plural
