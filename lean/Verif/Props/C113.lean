import Verif.Lemmas.AtnTold
import Verif.Props.C112
/-!
# C113 All that ANTLR reports about a malformed plural expression

Every item of the text is complained about at most once: the errors of the lexer by the lexer, in order, tokens by the parser, from left to
right, and the end of the text.  So the error of `Eval` is not much longer than the text.
-/
namespace Verif.Antlr
open Verif

/-- **C113** What is reported about a text. -/
theorem C113_told (exp : Str) : ∃ es t reports, Stream [] (runes exp.length exp) es ∧ parseText exp = some (t, reports) ∧
    Told (lineOf (runes exp.length exp), columnOf (runes exp.length exp)) es reports := by
  obtain ⟨es, he, ht, hg, hp⟩ := elems_of exp
  obtain ⟨t, σ, h, -⟩ := rParse_spec (position (rs exp)) es hg
  have hpt : parseText exp = some (t, σ.reports) := by
    rw [parseText_eq, he, Option.bind_some, h]
    rfl
  refine ⟨es, t, σ.reports, lexElems_stream _ _ _ _ he, hpt, ?_⟩
  have := inv_told (((keep_all (inv_keeps (position (rs exp)) es) _).1 _ _ _ _ _ h ⟨fetch_init_ok _ hg, inv_init _ _⟩).2)
  rwa [position_eq] at this

/-! ## How many there are, and how long -/

theorem Shuffle.sum {α : Type} (m : α → Nat) {a b c : List α} (h : Shuffle a b c) : (c.map m).sum = (a.map m).sum + (b.map m).sum := by
  induction h with
  | nil => rfl
  | left _ ih => simp [ih]; omega
  | right _ ih => simp [ih]; omega

theorem lexer_sum (m : Plural.Report → Nat) (v : Elem → Nat) (es : List Elem) (h : ∀ x ∈ es, ∀ r ∈ x.complaint, m r ≤ v x) (k : Nat) :
    (((es.take k).flatMap Elem.complaint).map m).sum ≤ (es.map fun x => if x.isBad then v x else 0).sum := by
  induction es generalizing k with
  | nil => simp
  | cons x es ih =>
    cases k with
    | zero => simp
    | succ k =>
      have := ih (fun y hy => h y (List.mem_cons_of_mem _ hy)) k
      have hx := h x List.mem_cons_self
      rw [List.take_succ_cons, List.flatMap_cons, List.map_append, List.sum_append, List.map_cons, List.sum_cons]
      cases x with
      | tok => simpa [Elem.complaint, Elem.isBad] using this
      | bad l c w =>
        obtain ⟨y, hy⟩ : ∃ y, (Elem.bad l c w).complaint = [y] := ⟨_, rfl⟩
        have h1 := hx y (by rw [hy]; exact List.mem_singleton_self _)
        rw [hy, show (Elem.bad l c w).isBad = true from rfl, if_pos rfl, List.map_cons, List.map_nil, List.sum_cons, List.sum_nil]
        omega

/-- The weight of the first of some items, or of the end. -/
def headWeight (v : Elem → Nat) (vend : Nat) : List Elem → Nat
  | [] => vend
  | x :: _ => v x

/-- The weight of the tokens and of the end. -/
def tokWeight (v : Elem → Nat) (vend : Nat) (es : List Elem) : Nat := (es.map fun x => if x.isBad then 0 else v x).sum + vend

theorem tokWeight_drop (v : Elem → Nat) (vend : Nat) (es : List Elem) (o : Nat) : tokWeight v vend (es.drop o) ≤ tokWeight v vend es := by
  induction es generalizing o with
  | nil => simp
  | cons x es ih =>
    cases o with
    | zero => simp
    | succ o =>
      have := ih o
      rw [List.drop_succ_cons]
      unfold tokWeight at this ⊢
      rw [List.map_cons, List.sum_cons]
      omega

theorem parser_sum (m : Plural.Report → Nat) (v : Elem → Nat) (vend : Nat) (eof : Nat × Nat) (es : List Elem)
    (h : ∀ i r, Complains eof es i r → m r ≤ headWeight v vend (es.drop i)) {is : List Nat} {rs : List Plural.Report}
    (hf : List.Forall₂ (Complains eof es) is rs) : is.Pairwise (· < ·) → ∀ o, (∀ i ∈ is, o ≤ i) →
    (rs.map m).sum ≤ tokWeight v vend (es.drop o) := by
  induction hf with
  | nil => intros; simp
  | @cons i r is rs hc hf ih =>
    intro hp o ho
    rw [List.pairwise_cons] at hp
    have h1 := h i r hc
    have h2 := ih hp.2 (i + 1) fun j hj => hp.1 j hj
    have h3 : tokWeight v vend (es.drop i) ≤ tokWeight v vend (es.drop o) := by
      have := tokWeight_drop v vend (es.drop o) (i - o)
      rwa [List.drop_drop, Nat.add_sub_cancel' (ho i List.mem_cons_self)] at this
    rw [List.map_cons, List.sum_cons]
    refine Nat.le_trans ?_ h3
    cases hd : es.drop i with
    | nil =>
      have hlen : es.length ≤ i := List.drop_eq_nil_iff.1 hd
      have hnil : rs = [] := by
        cases hf with
        | nil => rfl
        | cons hc' hf' =>
          have := hp.1 _ List.mem_cons_self
          have := hc'.1
          omega
      rw [hd] at h1
      subst hnil
      simpa [tokWeight, headWeight] using h1
    | cons x r' =>
      have hd' : es.drop (i + 1) = r' := by
        rw [← List.drop_drop, hd]
        rfl
      have hx : x.isBad = false := hc.2.1 x (by rw [hd]; rfl)
      rw [hd'] at h2
      rw [hd] at h1
      unfold tokWeight at h2 ⊢
      rw [List.map_cons, List.sum_cons, if_neg (by rw [hx]; decide)]
      have h1 : m r ≤ v x := h1
      omega

theorem weight_split (v : Elem → Nat) (es : List Elem) :
    (es.map fun x => if x.isBad then v x else 0).sum + (es.map fun x => if x.isBad then 0 else v x).sum = (es.map v).sum := by
  induction es with
  | nil => rfl
  | cons x es ih =>
    rw [List.map_cons, List.map_cons, List.map_cons, List.sum_cons, List.sum_cons, List.sum_cons]
    cases x.isBad
    · rw [if_neg (by decide), if_neg (by decide)]; omega
    · rw [if_pos rfl, if_pos rfl]; omega

/-- What is bounded for every item is bounded for the reports. -/
theorem told_sum (m : Plural.Report → Nat) (v : Elem → Nat) (vend : Nat) {eof : Nat × Nat} {es : List Elem} {reports : List Plural.Report}
    (hl : ∀ x ∈ es, ∀ r ∈ x.complaint, m r ≤ v x) (hp : ∀ i r, Complains eof es i r → m r ≤ headWeight v vend (es.drop i))
    (h : Told eof es reports) : (reports.map m).sum ≤ (es.map v).sum + vend := by
  obtain ⟨k, is, parser, h1, -, h3, h4⟩ := h
  rw [h4.sum m]
  have a := lexer_sum m v es hl k
  have b := parser_sum m v vend eof es hp h3 h1 0 (fun _ _ => Nat.zero_le _)
  rw [List.drop_zero] at b
  unfold tokWeight at b
  have c := weight_split v es
  omega

/-- The characters of an item. -/
def Elem.chars : Elem → List Nat
  | .tok _ w _ _ => w
  | .bad _ _ w => w

theorem stream_size {before inp : List Nat} {es : List Elem} (h : Stream before inp es) :
    es.length ≤ inp.length ∧ (es.map fun e => e.chars.length).sum ≤ inp.length := by
  induction h with
  | nil => simp
  | @tok before ty w r es hl ht hs ih =>
    have := List.length_pos_iff.2 (lexeme_ne hl.1)
    obtain ⟨h1, h2⟩ := ih
    rw [List.length_cons, List.length_append, List.map_cons, List.sum_cons]
    refine ⟨by omega, Nat.add_le_add (Nat.le_refl _) h2⟩
  | skip hl hs ih =>
    rw [List.length_append]
    omega
  | @bad before w r es hw hn h1 h2 hs ih =>
    have := List.length_pos_iff.2 hw
    obtain ⟨h1, h2⟩ := ih
    rw [List.length_cons, List.length_append, List.map_cons, List.sum_cons]
    refine ⟨by omega, Nat.add_le_add (Nat.le_refl _) h2⟩

theorem ones {α : Type} (l : List α) : (l.map fun _ => 1).sum = l.length := by simp

/-- **C113** There are no more reports than items, apart from one about the end, and no more items than bytes. -/
theorem C113_count (exp : Str) : ∃ es t reports, Stream [] (runes exp.length exp) es ∧ parseText exp = some (t, reports) ∧
    reports.length ≤ es.length + 1 ∧ es.length ≤ exp.length := by
  obtain ⟨es, t, reports, h1, h2, h3⟩ := C113_told exp
  refine ⟨es, t, reports, h1, h2, ?_, (stream_size h1).1.trans (rs_length exp)⟩
  have := told_sum (fun _ => 1) (fun _ => 1) 1 (fun _ _ _ _ => Nat.le_refl _) (fun i r _ => by
    unfold headWeight
    split <;> exact Nat.le_refl _) h3
  rwa [ones, ones] at this

theorem digits_length : ∀ (f n k : Nat), n < 10 ^ (k + 1) → (Num.digitsAux f n).length ≤ k + 1
  | 0, n, k, _ => by simp [Num.digitsAux]
  | f + 1, n, k, h => by
    unfold Num.digitsAux
    split
    · simp
    · cases k with
      | zero => omega
      | succ k =>
        have := digits_length f (n / 10) k (by rw [Nat.pow_succ] at h; omega)
        simp only [List.length_append, List.length_cons, List.length_nil]
        omega

theorem encode_length (r : Nat) : (Utf8.encode r).length ≤ 4 := by
  unfold Utf8.encode
  repeat' split
  all_goals simp

theorem text_length (w : List Nat) : (w.flatMap Utf8.encode).length ≤ 4 * w.length := by
  induction w with
  | nil => simp
  | cons c w ih =>
    have := encode_length c
    simp only [List.flatMap_cons, List.length_append, List.length_cons]
    omega

theorem says_length {l c : Nat} {msg : Str} (hl : l < 2 ^ 63) (hc : c < 2 ^ 63) :
    (Plural.Report.syntaxError l c msg).says.length ≤ 59 + msg.length := by
  have h1 := digits_length (l + 1) l 18 (by omega)
  have h2 := digits_length (c + 1) c 18 (by omega)
  unfold Plural.Report.says Xt.inDigits Num.natDigits
  simp only [List.length_append]
  have e1 : (b!"SyntaxError(line ").length = 17 := rfl
  have e2 : (b!":").length = 1 := rfl
  have e3 : (b!"): ").length = 3 := rfl
  rw [e1, e2, e3]
  omega

theorem names_length (w : Plural.Want) : w.names.length ≤ 48 := by cases w <;> decide

theorem phrase_length {d msg : Str} (h : Phrase d msg) : msg.length ≤ d.length + 80 := by
  obtain ⟨w, h⟩ := h
  have := names_length w
  have e1 : (b!"extraneous input ").length = 17 := rfl
  have e2 : (b!" expecting ").length = 11 := rfl
  have e3 : (b!"missing ").length = 8 := rfl
  have e4 : (b!" at ").length = 4 := rfl
  have e5 : (b!"mismatched input ").length = 17 := rfl
  rcases h with rfl | ⟨-, rfl⟩ | rfl
  · simp only [List.length_append, e1, e2]; omega
  · simp only [List.length_append, e3, e4]; omega
  · simp only [List.length_append, e5, e2]; omega

theorem quoted_length (es : List Elem) : (quoted es).length ≤ 7 + headWeight (fun x => 4 * x.chars.length) 0 es := by
  cases es with
  | nil => decide
  | cons x r =>
    cases x with
    | tok ty w l c =>
      have := text_length w
      unfold quoted headWeight Elem.chars
      simp only [List.length_append]
      have e : (b!"'").length = 1 := rfl
      rw [e]
      omega
    | bad l c w =>
      unfold quoted
      have e : (b!"'<EOF>'").length = 7 := rfl
      rw [e]
      omega

open Classical in
/-- **C113** The error of a malformed text is at most 160 times as long as the text with one more byte, if it is not the text of a panic. -/
theorem C113_size (L : Fmt.Lib) (exp : Str) (n : Int64) (hlen : exp.length + 1 < 2 ^ 63) (v : Int64) (e : Plural.Error)
    (h : evalR L exp n = some (v, some e)) (ha : Errors.is Plural.antlrId e.err = true) :
    e.text.length ≤ 160 * (exp.length + 1) := by
  obtain ⟨t0, reports0, k1, k2, -⟩ := C111_reported exp
  cases hc : Plural.commonsGet (GoStr.removeByte 32 exp) with
  | some f =>
    unfold evalR at h
    rw [hc] at h
    cases h
  | none =>
    by_cases hm : Plural.Malformed exp
    · obtain ⟨es, t1, reports1, h1, h2, h3⟩ := C113_told exp
      obtain ⟨t, reports, r1, -, r3⟩ := C111_error L exp n hc hm hlen
      rw [h2] at r1
      cases r1
      rcases r3 with ⟨s, e', -, g1, -, g2⟩ | ⟨p, e', -, g1, g2, -⟩
      · rw [h] at g1
        cases g1
        obtain ⟨s1, s2⟩ := stream_size h1
        have s3 := rs_length exp
        have hsmall := reports_small exp hlen h2
        have hsum := told_sum (fun r => if r.small then r.says.length + 2 else 0) (fun x => 150 + 4 * x.chars.length) 150 ?_ ?_ h3
        · have e1 : ((reports1.map fun r => b!": " ++ r.says).flatten).length = (reports1.map fun r => if r.small then r.says.length + 2 else 0).sum := by
            rw [List.length_flatten, List.map_map]
            refine congrArg List.sum (List.map_congr_left fun r hr => ?_)
            rw [if_pos (hsmall r hr)]
            change (b!": " ++ r.says).length = _
            rw [List.length_append, Nat.add_comm]
            rfl
          have e2 : (es.map fun x => 150 + 4 * x.chars.length).sum = 150 * es.length + 4 * (es.map fun x => x.chars.length).sum := by
            clear * -
            induction es with
            | nil => rfl
            | cons x es ih =>
              simp only [List.map_cons, List.sum_cons, List.length_cons, ih]
              omega
          have e3 : (b!"err antlr").length = 9 := rfl
          rw [g2, List.length_append, e1, e3]
          rw [e2] at hsum
          have s3 : (runes exp.length exp).length ≤ exp.length := s3
          omega
        · intro x hx r hr
          split
          · rename_i hsm
            cases x with
            | tok => cases hr
            | bad l c w =>
              rw [List.mem_singleton.1 hr] at hsm ⊢
              have := says_length (msg := b!"token recognition error at: '" ++ w.flatMap Utf8.encode ++ b!"'") hsm.1 hsm.2
              have e1 : (b!"token recognition error at: '" ++ w.flatMap Utf8.encode ++ b!"'").length ≤ 30 + 4 * w.length := by
                have := text_length w
                simp only [List.length_append]
                have e1 : (b!"token recognition error at: '").length = 29 := rfl
                have e2 : (b!"'").length = 1 := rfl
                rw [e1, e2]
                omega
              change _ ≤ 150 + 4 * w.length
              omega
          · omega
        · rintro i r ⟨-, -, msg, hph, rfl⟩
          split
          · rename_i hsm
            have a1 := says_length (msg := msg) hsm.1 hsm.2
            have a2 := phrase_length hph
            have a3 := quoted_length (es.drop i)
            cases hd : es.drop i with
            | nil =>
              rw [hd] at a1 a2 a3
              change _ ≤ 7 + 0 at a3
              change _ ≤ 150
              omega
            | cons x r =>
              rw [hd] at a1 a2 a3
              unfold headWeight at a3 ⊢
              dsimp only at a3 ⊢
              omega
          · omega
      · rw [h] at g1
        cases g1
        rw [ha] at g2
        cases g2
    · have hnil : reports0 = [] := by
        by_contra hne
        exact hm (k2.1 hne)
      unfold evalR at h
      rw [hc, k1, hnil] at h
      dsimp only [Option.map_some] at h
      cases hw : walkR n t0 [] with
      | ok s =>
        rw [hw] at h
        cases h
      | error p =>
        rw [hw] at h
        simp only [Option.some.injEq] at h
        rw [Plural.unexpected_text] at h
        cases h
        exact absurd ha (by rw [show Errors.is Plural.antlrId Errors.errorf = false from rfl]; decide)

/-! ## Examples -/

/-- Every item is complained about, and the end: the bound on the number of reports is met. -/
example : parseText b!"$$" = some (.hole, [.syntaxError 1 0 b!"token recognition error at: '$'",
    .syntaxError 1 1 b!"token recognition error at: '$'",
    .syntaxError 1 2 b!"mismatched input '<EOF>' expecting {'++', '--', '+', '-', '~', '!', '(', 'n', INT}"]) := by
  rw [parseText_eq]; decide +kernel

/-- Several reports of the parser, from left to right, and one of the lexer among them. -/
example : ∃ t, parseText b!"(n+*2+*3?1 $" = some (t, [
    .syntaxError 1 3 b!"extraneous input '*' expecting {'++', '--', '+', '-', '~', '!', '(', 'n', INT}",
    .syntaxError 1 6 b!"extraneous input '*' expecting {'++', '--', '+', '-', '~', '!', '(', 'n', INT}",
    .syntaxError 1 11 b!"token recognition error at: '$'",
    .syntaxError 1 12 b!"mismatched input '<EOF>' expecting ':'"]) := by
  refine ⟨.paren (.cut (.bin .add (.bin .add .n (.int b!"2")) (.int b!"3")) (.int b!"1")), ?_⟩
  rw [parseText_eq]; decide +kernel

/-- `Eval("(n", 7)` returns such an error. -/
example (L : Fmt.Lib) : ∃ v e, evalR L b!"(n" 7 = some (v, some e) ∧ Errors.is Plural.antlrId e.err = true ∧ e.text.length ≤ 480 := by
  obtain ⟨t, reports, h, -, hc⟩ := C111_error L b!"(n" 7 (by decide +kernel) malformed_open (by decide)
  have hp : parseText b!"(n" = some (.paren .n, [.syntaxError 1 2 b!"missing ')' at '<EOF>'"]) := by rw [parseText_eq]; decide +kernel
  rw [hp] at h
  cases h
  rcases hc with ⟨s, e, -, h2, h3, -⟩ | ⟨p, e, h1, -⟩
  · exact ⟨_, e, h2, h3, C113_size L b!"(n" 7 (by decide) _ e h2 h3⟩
  · cases h1

end Verif.Antlr
