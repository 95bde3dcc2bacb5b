import Verif.Lemmas.TmplRunOut
import Verif.Model.TmplParse
import Verif.Spec.TmplNumber
import Verif.Lemmas.Strings
/-!
# What the parser makes of written pipelines
-/
namespace Verif.Tmpl
open Verif Verif.Xt

variable {C : Cfg} {P : PCfg} {K : Str → Prop}

/-- It holds from some number on. -/
def Ev (Q : Nat → Prop) : Prop := ∃ n0, ∀ n, n0 ≤ n → Q n

theorem Ev.of {Q : Nat → Prop} (h : ∀ n, Q (n + 1)) : Ev Q :=
  ⟨1, fun n hn => by obtain ⟨m, rfl⟩ : ∃ m, n = m + 1 := ⟨n - 1, by omega⟩; exact h m⟩

theorem Ev.succ {Q R : Nat → Prop} (h : Ev Q) (hr : ∀ n, Q n → R (n + 1)) : Ev R := by
  obtain ⟨n0, h⟩ := h
  refine ⟨n0 + 1, fun n hn => ?_⟩
  obtain ⟨m, rfl⟩ : ∃ m, n = m + 1 := ⟨n - 1, by omega⟩
  exact hr m (h m (by omega))

theorem Ev.and {Q R : Nat → Prop} (h : Ev Q) (h' : Ev R) : Ev fun n => Q n ∧ R n := by
  obtain ⟨n0, h⟩ := h
  obtain ⟨n1, h'⟩ := h'
  exact ⟨n0 + n1, fun n hn => ⟨h n (by omega), h' n (by omega)⟩⟩

theorem Ev.mono {Q R : Nat → Prop} (h : Ev Q) (hr : ∀ n, Q n → R n) : Ev R := by
  obtain ⟨n0, h⟩ := h
  exact ⟨n0, fun n hn => hr n (h n hn)⟩

/-- Names in the items are ASCII identifiers and known. -/
def Good (i : Item) : Prop := ∀ w k, i.tok = .ident w k → Ident w ∧ k = true

theorem good_of {t : Tok} {l : Nat} (h : ∀ w k, t ≠ .ident w k) : Good ⟨t, l⟩ := fun w k hw => absurd hw (h w k)

/-- The scanner knows the functions. -/
structure Knows (C : Cfg) (K : Str → Prop) : Prop where
  has : ∀ w, FuncName K w → C.has w = true
  brk : C.has b!"break" = true ↔ K b!"break"
  cont : C.has b!"continue" = true ↔ K b!"continue"

/-- The item ends a command. -/
def Ender (t : Tok) : Prop := t = .right ∨ t = .rparen ∨ t = .pipe

/-- White space or nothing. -/
def Sp (sp : List Item) : Prop := sp = [] ∨ ∃ l, sp = [⟨.space, l⟩]

theorem spaceTok_sp (sp : Str) (l : Nat) : Sp (spaceTok sp l) := by
  unfold spaceTok
  split
  · exact .inl rfl
  · exact .inr ⟨l, rfl⟩

/-- What may follow the items of an argument. -/
def ArgEnd (is : List Item) : Prop :=
  ∃ i r, is = i :: r ∧ Ender i.tok ∨ ∃ l, is = ⟨.space, l⟩ :: i :: r ∧ (Ender i.tok ∨ starts i.tok = true)

theorem argEnd_of {sp : List Item} (hs : Sp sp) {e : Item} (he : Ender e.tok) (r : List Item) : ArgEnd (sp ++ e :: r) := by
  rcases hs with rfl | ⟨l, rfl⟩
  · exact ⟨e, r, .inl ⟨rfl, he⟩⟩
  · exact ⟨e, r, .inr ⟨l, rfl, .inl he⟩⟩

theorem starts_ne {t : Tok} (h : starts t = true) : t ≠ .space ∧ t ≠ .right ∧ t ≠ .rparen ∧ t ≠ .pipe ∧ t ≠ .assign ∧ t ≠ .declare ∧
    (∀ c, t ≠ .char c) ∧ (∀ k, t ≠ .kw k) ∧ t ≠ .eof := by
  cases t <;> simp_all [starts]

theorem skip_solid {i : Item} (h : i.tok ≠ .space) (r : List Item) : skip (i :: r) = i :: r := by
  obtain ⟨t, l⟩ := i
  unfold skip
  split
  · next heq => cases heq; exact absurd rfl h
  · rfl

theorem skip_space (l : Nat) (r : List Item) : skip (⟨.space, l⟩ :: r) = skip r := rfl

theorem skip_sp {sp : List Item} (h : Sp sp) (r : List Item) : skip (sp ++ r) = skip r := by
  rcases h with rfl | ⟨l, rfl⟩
  · rfl
  · rfl

theorem ender_ne {t : Tok} (h : Ender t) : t ≠ .space ∧ (∀ f, t ≠ .field f) ∧ t ≠ .assign ∧ t ≠ .declare ∧ t ≠ .char 44 ∧ starts t = false := by
  rcases h with rfl | rfl | rfl <;> simp [starts]

theorem fieldRun_end {is : List Item} (h : ArgEnd is) : fieldRun is = ([], is) := by
  obtain ⟨i, r, ⟨rfl, h⟩ | ⟨l, rfl, -⟩⟩ := h
  · obtain ⟨t, l⟩ := i
    unfold fieldRun
    split
    · next heq => cases heq; exact absurd rfl ((ender_ne h).2.1 _)
    · rfl
  · rfl

theorem fieldRun_fields {is : List Item} (h : ArgEnd is) (line : Nat) : ∀ ids : List Str,
    fieldRun ((ids.map fun id => ⟨.field (46 :: id), line⟩) ++ is) = (ids.map fun id => 46 :: id, is)
  | [] => fieldRun_end h
  | id :: ids => by
    rw [List.map_cons, List.cons_append, fieldRun, fieldRun_fields h line ids]; rfl

theorem dotted_fields {v : Str} (hv : 46 ∉ v) : ∀ {ids : List Str}, (∀ id ∈ ids, 46 ∉ id) → dotted (v ++ fieldsText ids) = v :: ids
  | [], _ => by
    rw [dotted, show fieldsText [] = [] from rfl, List.append_nil]
    exact GoStr.splitByte_no_sep 46 v hv
  | id :: ids, h => by
    have : v ++ fieldsText (id :: ids) = v ++ 46 :: (id ++ fieldsText ids) := by simp [fieldsText]
    rw [this, dotted, GoStr.splitByte_append_sep 46 v _ hv]
    exact congrArg (v :: ·) (dotted_fields (h id (by simp)) fun i hi => h i (by simp [hi]))

theorem ident_nodot {w : Str} (h : Ident w) : 46 ∉ w := by
  obtain ⟨c, t, rfl, -, hall⟩ := ident_word h
  exact fun hm => (word_plain _ (hall _ hm)).2 rfl

theorem flatten_fields (ids : List Str) : (ids.map fun id => (46 : UInt8) :: id).flatten = fieldsText ids := rfl

/-- No declaration begins with these items. -/
theorem decl_none {p : Place} {second : Bool} {i : Item} {r : List Item} {vars : List Str} (hi : i.tok ≠ .space)
    (h : ∀ v, i.tok = .var v → (∃ j r', r = j :: r' ∧ j.tok ≠ .space ∧ j.tok ≠ .assign ∧ j.tok ≠ .declare ∧ j.tok ≠ .char 44) ∨
      ∃ l j r', r = ⟨.space, l⟩ :: j :: r' ∧ j.tok ≠ .space ∧ j.tok ≠ .assign ∧ j.tok ≠ .declare ∧ j.tok ≠ .char 44) :
    decl p second (i :: r) vars = some (i :: r, vars, false) := by
  obtain ⟨t, l⟩ := i
  rw [decl, skip_solid hi]
  split
  · next v vl r0 heq =>
    cases heq
    rcases h v rfl with ⟨⟨j, jl⟩, r', rfl, h1, h2, h3, h4⟩ | ⟨sl, ⟨j, jl⟩, r', rfl, h1, h2, h3, h4⟩
    · rw [skip_solid h1]
      split
      · next heq => cases heq; exact absurd rfl h2
      · next heq => cases heq; exact absurd rfl h3
      · next heq => cases heq; exact absurd rfl h4
      · split
        · next heq => cases heq; exact absurd rfl h1
        · rfl
    · rw [skip_space, skip_solid h1]
      split
      · next heq => cases heq; exact absurd rfl h2
      · next heq => cases heq; exact absurd rfl h3
      · next heq => cases heq; exact absurd rfl h4
      · rfl
  · rfl

theorem decls_none {p : Place} {i : Item} {r : List Item} {vars : List Str} (hi : i.tok ≠ .space)
    (h : ∀ v, i.tok = .var v → (∃ j r', r = j :: r' ∧ j.tok ≠ .space ∧ j.tok ≠ .assign ∧ j.tok ≠ .declare ∧ j.tok ≠ .char 44) ∨
      ∃ l j r', r = ⟨.space, l⟩ :: j :: r' ∧ j.tok ≠ .space ∧ j.tok ≠ .assign ∧ j.tok ≠ .declare ∧ j.tok ≠ .char 44) :
    decls p (i :: r) vars = some (i :: r, vars) := by
  rw [decls, decl_none hi h]

theorem argEnd_decl {is : List Item} (h : ArgEnd is) :
    (∃ j r', is = j :: r' ∧ j.tok ≠ .space ∧ j.tok ≠ .assign ∧ j.tok ≠ .declare ∧ j.tok ≠ .char 44) ∨
      ∃ l j r', is = ⟨.space, l⟩ :: j :: r' ∧ j.tok ≠ .space ∧ j.tok ≠ .assign ∧ j.tok ≠ .declare ∧ j.tok ≠ .char 44 := by
  obtain ⟨i, r, ⟨rfl, h⟩ | ⟨l, rfl, h⟩⟩ := h
  · obtain ⟨h1, -, h2, h3, h4, -⟩ := ender_ne h
    exact .inl ⟨i, r, rfl, h1, h2, h3, h4⟩
  · refine .inr ⟨l, i, r, rfl, ?_⟩
    rcases h with h | h
    · obtain ⟨h1, -, h2, h3, h4, -⟩ := ender_ne h
      exact ⟨h1, h2, h3, h4⟩
    · obtain ⟨h1, -, -, -, h2, h3, h4, -⟩ := starts_ne h
      exact ⟨h1, h2, h3, h4 44⟩

/-! ## Arguments -/

/-- What the scanner and the parser make of the text of an argument. -/
structure ReadArg (C : Cfg) (P : PCfg) (vars : List Str) (s : Str) (a : Arg) (line d : Nat) (i : Item) (tl : List Item) : Prop where
  ln : i.line = line
  start : starts i.tok = true
  good : ∀ j ∈ i :: tl, Good j
  scan : ∀ r, Follow C r → C.run (.at (s ++ r) line d) = i :: tl ++ C.run (.at r (line + breaks s) d)
  operand : ∀ rest, ArgEnd rest → Ev fun n => P.operand n (i :: tl ++ rest) vars = some (some a, rest, vars)
  nodecl : ∀ p rest, ArgEnd rest → decls p (i :: tl ++ rest) vars = some (i :: tl ++ rest, vars)

/-- The same for a command. -/
structure ReadCmd (C : Cfg) (P : PCfg) (vars : List Str) (s : Str) (c : Cmd) (line d : Nat) (i : Item) (tl : List Item) : Prop where
  ln : i.line = line
  start : starts i.tok = true
  good : ∀ j ∈ i :: tl, Good j
  scan : ∀ r, Follow C r → C.run (.at (s ++ r) line d) = i :: tl ++ C.run (.at r (line + breaks s) d)
  command : ∀ sp e r, Sp sp → Ender e.tok →
    Ev fun n => P.command n (i :: tl ++ (sp ++ e :: r)) vars = some (c, if e.tok = .pipe then r else e :: r, vars)
  nodecl : ∀ p sp e r, Sp sp → Ender e.tok → decls p (i :: tl ++ (sp ++ e :: r)) vars = some (i :: tl ++ (sp ++ e :: r), vars)

/-- The same for a pipeline without the white space behind it. -/
structure ReadPipe (C : Cfg) (P : PCfg) (vars : List Str) (s : Str) (p : Pipe) (line d : Nat) (i : Item) (tl : List Item) : Prop where
  ln : i.line = line
  start : starts i.tok = true
  good : ∀ j ∈ i :: tl, Good j
  scan : ∀ r, Follow C r → C.run (.at (s ++ r) line d) = i :: tl ++ C.run (.at r (line + breaks s) d)
  cmds : ∀ (place : Place) sp e r, Sp sp → place.ends e.tok = true →
    Ev fun n => P.cmds n place (i :: tl ++ (sp ++ e :: r)) vars = some (p, r, vars)
  nodecl : ∀ place sp e r, Sp sp → Ender e.tok → decls place (i :: tl ++ (sp ++ e :: r)) vars = some (i :: tl ++ (sp ++ e :: r), vars)

theorem operand_of {is is' rest : List Item} {vars : List Str} {node a : Arg} {fields : List Str}
    (ht : Ev fun n => P.term n is vars = some (some node, is', vars)) (hf : fieldRun is' = (fields, rest)) (hc : chained node fields = some a) :
    Ev fun n => P.operand n is vars = some (some a, rest, vars) := by
  refine ht.succ fun n hn => ?_
  rw [PCfg.operand, hn]
  dsimp only
  rw [hf]
  dsimp only
  rw [hc]; rfl

/-- An argument of one item. -/
theorem read_one {vars : List Str} {s : Str} {a : Arg} {line d : Nat} {t : Tok}
    (hs : starts t = true) (hg : Good ⟨t, line⟩) (hv : ∀ v, t ≠ .var v)
    (scan : ∀ r, Follow C r → C.run (.at (s ++ r) line d) = ⟨t, line⟩ :: C.run (.at r (line + breaks s) d))
    (term : ∀ n rest, P.term (n + 1) (⟨t, line⟩ :: rest) vars = some (some a, rest, vars)) :
    ReadArg C P vars s a line d ⟨t, line⟩ [] where
  ln := rfl
  start := hs
  good := by intro j hj; rw [List.mem_singleton.mp hj]; exact hg
  scan := scan
  operand rest hr := operand_of (Ev.of fun n => term n rest) (fieldRun_end hr) rfl
  nodecl p rest _ := decls_none (starts_ne hs).1 fun v h => absurd h (hv v)

theorem term_solid {n : Nat} {i : Item} {r : List Item} {vars : List Str} {x : Option (Option Arg × List Item × List Str)}
    (hi : i.tok ≠ .space) (h : (match i.tok with
      | .ident name known => if known then some (some (Arg.ident name), r, vars) else none
      | .dot => some (some .other, r, vars)
      | .nil => some (some .other, r, vars)
      | .var v => if vars.contains v then some (some (.var (dotted v)), r, vars) else none
      | .field f => some (some (.field (dotted f.tail)), r, vars)
      | .bool => some (some .other, r, vars)
      | .rune s => if P.num (.rune s) then some (some .other, r, vars) else none
      | .complex s => if P.num (.complex s) then some (some .other, r, vars) else none
      | .num s => if P.num (.num s) then some (some .other, r, vars) else none
      | .lparen =>
        match P.pipeline n .paren r vars with
        | none => none
        | some (cs, r, vars) => some (some (.pipe cs), r, vars)
      | .str s => (Quote.unquote s).map fun t => (some (.str t), r, vars)
      | .raw s => (Quote.unquote s).map fun t => (some (.str t), r, vars)
      | _ => some (none, i :: r, vars)) = x) : P.term (n + 1) (i :: r) vars = x := by
  rw [PCfg.term, skip_solid hi]
  exact h

theorem word_func (hK : Knows C K) {w : Str} (h : FuncName K w) : C.word w = .ident w true := by
  obtain ⟨-, h2, h3, h4, h5⟩ := id h
  unfold Cfg.word
  cases hk : keyword w with
  | none =>
    dsimp only
    rw [if_neg h3, if_neg (by simp [h4, h5]), hK.has w h]
  | some k =>
    have htk : TemplateKeyword w := by
      by_contra hn
      rw [(keyword_iff w).mpr hn] at hk; cases hk
    obtain ⟨hw | hw, hkw⟩ := h2 htk
    · subst hw
      cases hk
      dsimp only
      rw [hK.brk.mpr hkw, if_pos rfl]
    · subst hw
      cases hk
      dsimp only
      rw [hK.cont.mpr hkw, if_pos rfl]

theorem read_name (hC : Std C) (hK : Knows C K) {vars : List Str} {w : Str} (h : FuncName K w) (line d : Nat) :
    ReadArg C P vars w (.ident w) line d ⟨.ident w true, line⟩ [] := by
  refine read_one rfl ?_ (by simp) (fun r hr => ?_) fun n rest => ?_
  · intro w' k hw; cases hw; exact ⟨h.1, rfl⟩
  · rw [lex_word hC h.1 hr.stop, word_func hK h, breaks_ident h.1]; rfl
  · exact term_solid (by simp) rfl

theorem read_const (hC : Std C) {vars : List Str} {s : Str} (h : s = b!"." ∨ s = b!"nil" ∨ s = b!"true" ∨ s = b!"false") (line d : Nat) :
    ∃ t, ReadArg C P vars s .other line d ⟨t, line⟩ [] := by
  have hid : ∀ c ∈ b!"niltruefalse", LetterByte c := fun c hc => (identStart_iff c).mp (by revert c; decide +kernel)
  have key : ∀ s t, Ident s → C.word s = t → breaks s = 0 → starts t = true → (∀ w k, t ≠ .ident w k) → (∀ v, t ≠ .var v) →
      t = .nil ∨ t = .bool → ReadArg C P vars s .other line d ⟨t, line⟩ [] := by
    intro s t hs hw hb h1 h2 h3 h4
    refine read_one h1 (good_of h2) h3 (fun r hr => ?_) fun n rest => ?_
    · rw [lex_word hC hs hr.stop, hw, hb]; rfl
    · rcases h4 with rfl | rfl
      · exact term_solid (by simp) rfl
      · exact term_solid (by simp) rfl
  rcases h with rfl | rfl | rfl | rfl
  · refine ⟨.dot, read_one rfl (good_of (by simp)) (by simp) (fun r hr => ?_) fun n rest => ?_⟩
    · exact lex_dot hC hr line d
    · exact term_solid (by simp) rfl
  · exact ⟨.nil, key _ _ ⟨110, b!"il", rfl, hid _ (by simp), fun x hx => .inl (hid x (by simp at hx ⊢; tauto))⟩ rfl rfl rfl (by simp) (by simp)
      (.inl rfl)⟩
  · exact ⟨.bool, key _ _ ⟨116, b!"rue", rfl, hid _ (by simp), fun x hx => .inl (hid x (by simp at hx ⊢; tauto))⟩ rfl rfl rfl (by simp) (by simp)
      (.inr rfl)⟩
  · exact ⟨.bool, key _ _ ⟨102, b!"alse", rfl, hid _ (by simp), fun x hx => .inl (hid x (by simp at hx ⊢; tauto))⟩ rfl rfl rfl (by simp) (by simp)
      (.inr rfl)⟩

theorem read_number (hC : Std C) (hN : Accepts P.num) {vars : List Str} {s : Str} (h : NumberText s) (line d : Nat) :
    ReadArg C P vars s .other line d ⟨.num s, line⟩ [] := by
  refine read_one rfl (good_of (by simp)) (by simp) (fun r hr => ?_) fun n rest => ?_
  · rw [lex_number hC h hr, breaks_number h]; rfl
  · refine term_solid (by simp) ?_
    dsimp only
    rw [hN.number s h, if_pos rfl]

theorem read_complex (hC : Std C) (hN : Accepts P.num) {vars : List Str} {s : Str} (h : ComplexText s) (line d : Nat) :
    ReadArg C P vars s .other line d ⟨.complex s, line⟩ [] := by
  refine read_one rfl (good_of (by simp)) (by simp) (fun r hr => ?_) fun n rest => ?_
  · rw [lex_complex hC h hr, breaks_complex h]; rfl
  · refine term_solid (by simp) ?_
    dsimp only
    rw [hN.complex s h, if_pos rfl]

theorem read_char (hC : Std C) (hN : Accepts P.num) {vars : List Str} {s : Str} (h : CharText s) (line d : Nat) :
    ReadArg C P vars s .other line d ⟨.rune s, line⟩ [] := by
  refine read_one rfl (good_of (by simp)) (by simp) (fun r _ => ?_) fun n rest => ?_
  · rw [lex_char hC h, breaks_char h]; rfl
  · refine term_solid (by simp) ?_
    dsimp only
    rw [hN.char s h, if_pos rfl]

theorem read_literal (hC : Std C) {vars : List Str} {q t : Str} (h : Literal q t) (line d : Nat) :
    ∃ tk, ReadArg C P vars q (.str t) line d ⟨tk, line⟩ [] := by
  obtain ⟨tk, ⟨ht, hu⟩, hl⟩ := lex_literal hC h
  refine ⟨tk, ?_⟩
  rcases ht with rfl | rfl
  · refine read_one rfl (good_of (by simp)) (by simp) (fun r _ => hl r line d) fun n rest => ?_
    exact term_solid (by simp) (by dsimp only; rw [hu]; rfl)
  · refine read_one rfl (good_of (by simp)) (by simp) (fun r _ => hl r line d) fun n rest => ?_
    exact term_solid (by simp) (by dsimp only; rw [hu]; rfl)

/-- The items of fields. -/
def fieldToks (ids : List Str) (line : Nat) : List Item := ids.map fun id => ⟨.field (46 :: id), line⟩

theorem good_fields (ids : List Str) (line : Nat) : ∀ j ∈ fieldToks ids line, Good j := by
  intro j hj
  obtain ⟨id, -, rfl⟩ := List.mem_map.mp hj
  exact good_of (by simp)

theorem read_field (hC : Std C) {vars : List Str} {id : Str} {ids : List Str} (h : ∀ i ∈ id :: ids, Ident i) (line d : Nat) :
    ReadArg C P vars (fieldsText (id :: ids)) (.field (id :: ids)) line d ⟨.field (46 :: id), line⟩ (fieldToks ids line) where
  ln := rfl
  start := rfl
  good := good_fields (id :: ids) line
  scan r hr := by rw [lex_fields hC hr.stop line d (id :: ids) h, breaks_fields h]; rfl
  operand rest hr := by
    refine operand_of (Ev.of fun n => term_solid (by simp) rfl) (fieldRun_fields hr line ids) ?_
    have hd : dotted id = [id] := GoStr.splitByte_no_sep 46 id (ident_nodot (h id (by simp)))
    change chained (.field (dotted id)) _ = _
    rw [hd]
    cases hids : ids with
    | nil => rfl
    | cons i is =>
      rw [List.map_cons]
      change some (Arg.field (dotted ((46 :: GoStr.join [46] [id]) ++ ((i :: is).map fun id => (46 : UInt8) :: id).flatten).tail)) = _
      rw [flatten_fields]
      change some (Arg.field (dotted (id ++ fieldsText (i :: is)))) = _
      rw [dotted_fields (ident_nodot (h id (by simp))) fun j hj => ident_nodot (h j (by rw [hids]; exact List.mem_cons_of_mem _ hj))]
  nodecl p rest _ := decls_none (by simp) (by simp)

theorem read_var (hC : Std C) {vars : List Str} {v : Str} {ids : List Str} (hv : v = [] ∨ Ident v) (hm : 36 :: v ∈ vars)
    (h : ∀ i ∈ ids, Ident i) (line d : Nat) :
    ReadArg C P vars (36 :: v ++ fieldsText ids) (.var ((36 :: v) :: ids)) line d ⟨.var (36 :: v), line⟩ (fieldToks ids line) where
  ln := rfl
  start := rfl
  good := by
    intro j hj
    rcases List.mem_cons.mp hj with rfl | hj
    · exact good_of (by simp)
    · exact good_fields ids line j hj
  scan r hr := by
    have hb : breaks (36 :: v ++ fieldsText ids) = 0 := by
      rw [breaks_append, breaks_fields h, Nat.add_zero]
      rcases hv with rfl | hv
      · rfl
      · rw [breaks, List.count_cons_of_ne (by decide)]; exact breaks_ident hv
    rw [List.append_assoc, lex_var hC hv (fields_stop hr.stop), lex_fields hC hr.stop line d ids h, hb]; rfl
  operand rest hr := by
    have hdot : 46 ∉ 36 :: v := by
      rcases hv with rfl | hv
      · decide
      · simp [ident_nodot hv]
    refine operand_of (node := .var [36 :: v]) (Ev.of fun n => term_solid (by simp) ?_) (fieldRun_fields hr line ids) ?_
    · dsimp only
      rw [if_pos (by simpa using hm), dotted, GoStr.splitByte_no_sep 46 _ hdot]
      rfl
    · cases hids : ids with
      | nil => rfl
      | cons i is =>
        rw [List.map_cons]
        change some (Arg.var (dotted (GoStr.join [46] [36 :: v] ++ ((i :: is).map fun id => (46 : UInt8) :: id).flatten))) = _
        rw [flatten_fields]
        change some (Arg.var (dotted ((36 :: v) ++ fieldsText (i :: is)))) = _
        rw [dotted_fields hdot fun j hj => ident_nodot (h j (by rw [hids]; exact hj))]
  nodecl p rest hr := by
    refine decls_none (by simp) fun w _ => ?_
    cases ids with
    | nil => exact argEnd_decl hr
    | cons i is => exact .inl ⟨_, _, rfl, by simp, by simp, by simp, by simp⟩

/-! ## Parentheses -/

theorem decls_sp {p : Place} {sp is : List Item} (h : Sp sp) (vars : List Str) : decls p (sp ++ is) vars = decls p is vars := by
  rcases h with rfl | ⟨l, rfl⟩
  · rfl
  · rw [decls, decls]
    have : ∀ second, decl p second ([⟨.space, l⟩] ++ is) vars = decl p second is vars := by
      intro second
      rw [decl, decl]; rfl
    rw [this]

theorem cmds_sp {p : Place} {sp is : List Item} (h : Sp sp) (vars : List Str) (n : Nat) : P.cmds n p (sp ++ is) vars = P.cmds n p is vars := by
  cases n with
  | zero => rfl
  | succ n => rw [PCfg.cmds, PCfg.cmds, skip_sp h]

theorem ends_ender {p : Place} {t : Tok} (h : p.ends t = true) : Ender t ∧ t ≠ .pipe := by
  cases p <;> simp [Place.ends] at h <;> subst h <;> simp [Ender]

theorem pipeline_of {place : Place} {is is' r : List Item} {vars vars' vars'' : List Str} {p : Pipe} (hd : decls place is vars = some (is', vars'))
    (hc : Ev fun n => P.cmds n place is' vars' = some (p, r, vars'')) (hp : checkPipe p = true) :
    Ev fun n => P.pipeline n place is vars = some (p, r, vars'') := by
  refine hc.succ fun n hn => ?_
  rw [PCfg.pipeline, hd]
  dsimp only
  rw [hn]
  dsimp only
  rw [if_pos hp]

theorem follow_sp {sp : Str} (h : Blank sp) {r : Str} (hr : Follow C r) : Follow C (sp ++ r) := by
  cases sp with
  | nil => exact hr
  | cons x sp => exact ⟨x, sp ++ r, rfl, .inl h.cons.1⟩

theorem good_space (sp : Str) (line : Nat) : ∀ j ∈ spaceTok sp line, Good j := by
  intro j hj
  rcases spaceTok_sp sp line with h | ⟨l, h⟩
  · rw [h] at hj; cases hj
  · rw [h] at hj; rw [List.mem_singleton.mp hj]; exact good_of (by simp)

theorem good_append {a b : List Item} (ha : ∀ j ∈ a, Good j) (hb : ∀ j ∈ b, Good j) : ∀ j ∈ a ++ b, Good j := by
  intro j hj
  rcases List.mem_append.mp hj with h | h
  · exact ha j h
  · exact hb j h

theorem good_cons {a : Item} {b : List Item} (ha : Good a) (hb : ∀ j ∈ b, Good j) : ∀ j ∈ a :: b, Good j := by
  intro j hj
  rcases List.mem_cons.mp hj with rfl | h
  · exact ha
  · exact hb j h

/-- The node for parentheses, with fields behind them or not. -/
def parenArg (p : Pipe) (ids : List Str) : Arg := if ids = [] then .pipe p else .chain (.pipe p) ids

theorem read_paren (hC : Std C) {vars : List Str} {a core sp : Str} {p : Pipe} {ids : List Str} (ha : Blank a) (hsp : Blank sp)
    (hids : ∀ i ∈ ids, Ident i) (hs : Solid core) (hc : checkPipe p = true) (line d : Nat) {i : Item} {tl : List Item}
    (h : ReadPipe C P vars core p (line + breaks a) (d + 1) i tl) :
    ∃ tl', ReadArg C P vars (40 :: a ++ (core ++ sp) ++ [41] ++ fieldsText ids) (parenArg p ids) line d ⟨.lparen, line⟩ tl' := by
  let k := line + breaks (a ++ core ++ sp)
  refine ⟨spaceTok a line ++ (i :: tl ++ (spaceTok sp (line + breaks (a ++ core)) ++ ⟨.rparen, k⟩ :: fieldToks ids k)), ⟨rfl, rfl, ?_, ?_, ?_, ?_⟩⟩
  · exact good_cons (good_of (by simp)) (good_append (good_space _ _) (good_append h.good (good_append (good_space _ _)
      (good_cons (good_of (by simp)) (good_fields _ _)))))
  · intro r hr
    have he : 40 :: a ++ (core ++ sp) ++ [41] ++ fieldsText ids ++ r = 40 :: (a ++ (core ++ (sp ++ 41 :: (fieldsText ids ++ r)))) := by simp
    have hb : breaks (40 :: a ++ (core ++ sp) ++ [41] ++ fieldsText ids) = breaks a + breaks core + breaks sp := by
      rw [breaks_append, breaks_fields hids]
      simp only [breaks, List.count_append, List.count_cons, List.count_nil]
      simp; omega
    have hf : Follow C (sp ++ 41 :: (fieldsText ids ++ r)) := follow_sp hsp ⟨41, _, rfl, by simp⟩
    have e1 : line + breaks (a ++ core) = line + breaks a + breaks core := by rw [breaks_append]; omega
    have e2 : k = line + breaks a + breaks core + breaks sp := by
      change line + breaks (a ++ core ++ sp) = _
      rw [breaks_append, breaks_append]; omega
    rw [he, hb, lex_lparen hC, lex_spaces hC ha (hs.append _), h.scan _ hf,
      lex_spaces hC hsp (r := 41 :: (fieldsText ids ++ r)) (.of (by decide)), lex_rparen hC,
      lex_fields hC hr.stop _ _ ids hids, e1, e2, ← Nat.add_assoc, ← Nat.add_assoc]
    simp [fieldToks]
  · intro rest hr
    refine operand_of (node := .pipe p) (is' := fieldToks ids k ++ rest) ?_ (fieldRun_fields hr k ids) ?_
    · have hp : Ev fun n => P.pipeline n .paren (spaceTok a line ++ (i :: tl ++ (spaceTok sp (line + breaks (a ++ core)) ++
          ⟨.rparen, k⟩ :: (fieldToks ids k ++ rest)))) vars = some (p, fieldToks ids k ++ rest, vars) := by
        refine pipeline_of ?_ (h.cmds .paren _ ⟨.rparen, k⟩ (fieldToks ids k ++ rest)
          (spaceTok_sp sp (line + breaks (a ++ core))) rfl) hc
        rw [decls_sp (spaceTok_sp _ _), h.nodecl _ _ _ _ (spaceTok_sp _ _) (.inr (.inl rfl))]
      refine hp.succ fun n hn => term_solid (by simp) ?_
      simp only [List.append_assoc, List.cons_append, List.append_eq] at hn ⊢
      rw [hn]
    · unfold parenArg
      cases ids with
      | nil => rfl
      | cons j js =>
        rw [if_neg (by simp), List.map_cons]
        change some (Arg.chain (.pipe p) (((j :: js).map fun id => (46 : UInt8) :: id).map List.tail)) = _
        rw [List.map_map]
        exact congrArg (fun l => some (Arg.chain (.pipe p) l)) (List.map_id _)
  · intro q rest hr
    exact decls_none (by simp) (by simp)

/-! ## Commands and pipelines -/

theorem command_empty {e : Item} (he : Ender e.tok) (r : List Item) (vars : List Str) :
    Ev fun n => P.command n (e :: r) vars = some ([], if e.tok = .pipe then r else e :: r, vars) := by
  obtain ⟨t, l⟩ := e
  refine ⟨3, fun n hn => ?_⟩
  obtain ⟨n, rfl⟩ : ∃ m, n = m + 3 := ⟨n - 3, by omega⟩
  have hne := (ender_ne he).1
  rw [PCfg.command, skip_solid hne, PCfg.operand, PCfg.term, skip_solid hne]
  rcases he with h | h | h
  all_goals
    have h : t = _ := h
    subst h
    rfl

theorem command_last {i : Item} {tl rest : List Item} {vars : List Str} {a : Arg} (hi : i.tok ≠ .space)
    (ho : Ev fun n => P.operand n (i :: tl ++ rest) vars = some (some a, rest, vars)) {sp : List Item} {e : Item} {r : List Item}
    (hr : rest = sp ++ e :: r) (hs : Sp sp) (he : Ender e.tok) :
    Ev fun n => P.command n (i :: tl ++ rest) vars = some ([a], if e.tok = .pipe then r else e :: r, vars) := by
  subst hr
  refine (ho.and (command_empty (P := P) he r vars)).succ fun n hn => ?_
  obtain ⟨h1, h2⟩ := hn
  rw [PCfg.command, List.cons_append, skip_solid hi, ← List.cons_append, h1]
  dsimp only
  rcases hs with rfl | ⟨l, rfl⟩
  · obtain ⟨t, l⟩ := e
    rcases he with h | h | h
    all_goals
      have h : t = _ := h
      subst h
      rfl
  · rw [List.cons_append]
    dsimp only
    rw [List.nil_append, h2]
    rfl

theorem read_cmd_one {vars : List Str} {s : Str} {a : Arg} {line d : Nat} {i : Item} {tl : List Item} (h : ReadArg C P vars s a line d i tl) :
    ReadCmd C P vars s [a] line d i tl where
  ln := h.ln
  start := h.start
  good := h.good
  scan := h.scan
  command _ _ r hs he := command_last (starts_ne h.start).1 (h.operand _ (argEnd_of hs he r)) rfl hs he
  nodecl p _ _ r hs he := h.nodecl p _ (argEnd_of hs he r)

theorem follow_spaces {sp : Str} (h : Spaces sp) (r : Str) : Follow C (sp ++ r) := by
  obtain ⟨h1, h2⟩ := h
  cases sp with
  | nil => exact absurd rfl h2
  | cons x sp => exact ⟨x, sp ++ r, rfl, .inl h1.cons.1⟩

theorem read_cmd_cons (hC : Std C) {vars : List Str} {s sp t : Str} {a : Arg} {c : Cmd} {line d : Nat} {i j : Item} {tl tl' : List Item}
    (hsp : Spaces sp) (ht : Solid t) (h : ReadArg C P vars s a line d i tl) (h' : ReadCmd C P vars t c (line + breaks (s ++ sp)) d j tl') :
    ReadCmd C P vars (s ++ sp ++ t) (a :: c) line d i (tl ++ ⟨.space, line + breaks s⟩ :: j :: tl') where
  ln := h.ln
  start := h.start
  good := by
    rw [← List.cons_append]
    exact good_append h.good (good_cons (good_of (by simp)) h'.good)
  scan r hr := by
    have e : s ++ sp ++ t ++ r = s ++ (sp ++ (t ++ r)) := by simp
    have e2 : spaceTok sp (line + breaks s) = [⟨.space, line + breaks s⟩] := by rw [spaceTok, if_neg hsp.2]
    have e3 : line + breaks (s ++ sp) + breaks t = line + breaks (s ++ sp ++ t) := by rw [breaks_append (s ++ sp)]; omega
    rw [e, h.scan _ (follow_spaces hsp _), lex_spaces hC hsp.1 (ht.append r), e2, Nat.add_assoc, ← breaks_append, h'.scan r hr, e3]
    simp
  command sp' e r hs he := by
    have hrest : ArgEnd (⟨.space, line + breaks s⟩ :: j :: tl' ++ (sp' ++ e :: r)) :=
      ⟨j, tl' ++ (sp' ++ e :: r), .inr ⟨_, rfl, .inr h'.start⟩⟩
    refine ((h.operand _ hrest).and (h'.command sp' e r hs he)).succ fun n hn => ?_
    obtain ⟨h1, h2⟩ := hn
    have e1 : i :: (tl ++ ⟨.space, line + breaks s⟩ :: j :: tl') ++ (sp' ++ e :: r) =
        i :: tl ++ (⟨.space, line + breaks s⟩ :: j :: tl' ++ (sp' ++ e :: r)) := by simp
    rw [PCfg.command, e1, List.cons_append, skip_solid (starts_ne h.start).1, ← List.cons_append, h1]
    dsimp only
    rw [List.cons_append]
    dsimp only
    rw [h2]
    rfl
  nodecl p sp' e r hs he := by
    have hrest : ArgEnd (⟨.space, line + breaks s⟩ :: j :: tl' ++ (sp' ++ e :: r)) :=
      ⟨j, tl' ++ (sp' ++ e :: r), .inr ⟨_, rfl, .inr h'.start⟩⟩
    have e1 : i :: (tl ++ ⟨.space, line + breaks s⟩ :: j :: tl') ++ (sp' ++ e :: r) =
        i :: tl ++ (⟨.space, line + breaks s⟩ :: j :: tl' ++ (sp' ++ e :: r)) := by simp
    rw [e1, h.nodecl p _ hrest]

theorem starts_not_ends {p : Place} {t : Tok} (h : starts t = true) : p.ends t = false := by
  have := starts_ne h
  rw [Bool.eq_false_iff]
  intro he
  have := ends_ender he
  rcases this.1 with h | h | h <;> simp_all

theorem cmds_step {place : Place} {i : Item} {r is is' : List Item} {vars : List Str} {c : Cmd} {p : Pipe} (hi : starts i.tok = true) (hc : c ≠ [])
    (h1 : Ev fun n => P.command n (i :: r) vars = some (c, is, vars)) (h2 : Ev fun n => P.cmds n place is vars = some (p, is', vars)) :
    Ev fun n => P.cmds n place (i :: r) vars = some (c :: p, is', vars) := by
  refine (h1.and h2).succ fun n hn => ?_
  obtain ⟨h1, h2⟩ := hn
  rw [PCfg.cmds, skip_solid (starts_ne hi).1]
  dsimp only
  rw [starts_not_ends hi, hi, if_neg (by decide), if_pos rfl, h1]
  cases c with
  | nil => exact absurd rfl hc
  | cons a c =>
    dsimp only
    rw [h2]

theorem cmds_end {place : Place} {e : Item} (he : place.ends e.tok = true) (r : List Item) (vars : List Str) :
    Ev fun n => P.cmds n place (e :: r) vars = some ([], r, vars) := by
  refine Ev.of fun n => ?_
  rw [PCfg.cmds, skip_solid (ender_ne (ends_ender he).1).1]
  dsimp only
  rw [if_pos he]

theorem read_pipe_one {vars : List Str} {s : Str} {c : Cmd} {line d : Nat} {i : Item} {tl : List Item} (hc : c ≠ [])
    (h : ReadCmd C P vars s c line d i tl) : ReadPipe C P vars s [c] line d i tl where
  ln := h.ln
  start := h.start
  good := h.good
  scan := h.scan
  cmds place sp e r hs he := by
    obtain ⟨h1, h2⟩ := ends_ender he
    have := h.command sp e r hs h1
    simp only [if_neg h2] at this
    exact cmds_step h.start hc this (cmds_end he r vars)
  nodecl := h.nodecl

theorem follow_bar {sp : Str} (h : Blank sp) (r : Str) : Follow C (sp ++ 124 :: r) := follow_sp h ⟨124, r, rfl, by simp⟩

theorem read_pipe_cons (hC : Std C) {vars : List Str} {s sp sp' t : Str} {c : Cmd} {p : Pipe} {line d : Nat} {i j : Item} {tl tl' : List Item}
    (hc : c ≠ []) (hsp : Blank sp) (hsp' : Blank sp') (ht : Solid t) (h : ReadCmd C P vars s c line d i tl)
    (h' : ReadPipe C P vars t p (line + breaks (s ++ sp ++ sp')) d j tl') :
    ReadPipe C P vars (s ++ sp ++ 124 :: sp' ++ t) (c :: p) line d i
      (tl ++ (spaceTok sp (line + breaks s) ++ ⟨.pipe, line + breaks (s ++ sp)⟩ :: (spaceTok sp' (line + breaks (s ++ sp)) ++ j :: tl'))) where
  ln := h.ln
  start := h.start
  good := by
    rw [← List.cons_append]
    exact good_append h.good (good_append (good_space _ _) (good_cons (good_of (by simp)) (good_append (good_space _ _) h'.good)))
  scan r hr := by
    have e : s ++ sp ++ 124 :: sp' ++ t ++ r = s ++ (sp ++ 124 :: (sp' ++ (t ++ r))) := by simp
    have e3 : breaks (s ++ sp ++ 124 :: sp' ++ t) = breaks (s ++ sp ++ sp') + breaks t := by
      simp only [breaks_append]
      rw [show breaks (124 :: sp') = breaks sp' from List.count_cons_of_ne (by decide)]
    rw [e, h.scan _ (follow_bar hsp _), lex_spaces hC hsp (.of (by decide)), lex_pipe hC,
      lex_spaces hC hsp' (ht.append r), e3]
    have e4 : line + breaks s + breaks sp = line + breaks (s ++ sp) := by rw [breaks_append]; omega
    have e5 : line + breaks (s ++ sp) + breaks sp' = line + breaks (s ++ sp ++ sp') := by rw [breaks_append (s ++ sp)]; omega
    rw [e4, e5, h'.scan r hr, Nat.add_assoc]
    simp
  cmds place sq e r hs he := by
    have h1 := h.command (spaceTok sp (line + breaks s)) ⟨.pipe, line + breaks (s ++ sp)⟩
      (spaceTok sp' (line + breaks (s ++ sp)) ++ (j :: tl' ++ (sq ++ e :: r))) (spaceTok_sp _ _) (.inr (.inr rfl))
    simp only [if_true] at h1
    have h2 := cmds_step h.start hc h1 ((h'.cmds place sq e r hs he).mono fun n hn => by rw [cmds_sp (spaceTok_sp _ _), hn])
    simpa using h2
  nodecl place sq e r hs he := by
    have := h.nodecl place (spaceTok sp (line + breaks s)) ⟨.pipe, line + breaks (s ++ sp)⟩
      (spaceTok sp' (line + breaks (s ++ sp)) ++ (j :: tl' ++ (sq ++ e :: r))) (spaceTok_sp _ _) (.inr (.inr rfl))
    simpa using this

/-! ## Everything together -/

theorem digit_solid : ∀ c : UInt8, (48 ≤ c ∧ c ≤ 57) → isSpace c = false ∧ c ≠ 45 ∧ c ≠ 47 := by
  apply u8; decide +kernel

theorem start_solid : ∀ c : UInt8, isIdentStart c = true → isSpace c = false ∧ c ≠ 45 ∧ c ≠ 47 := by
  apply u8; decide +kernel

theorem ident_solid {w : Str} (h : Ident w) : Solid w := by
  obtain ⟨c, t, rfl, hc, -⟩ := ident_word h
  exact .of (start_solid c hc)

theorem literal_solid {q t : Str} (h : Literal q t) : Solid q := by
  cases h with
  | quoted => exact .of (by decide)
  | raw => exact .of (by decide)

theorem head_solid {s : Str} (h : NumHead s) : Solid s := by
  obtain ⟨c, t, rfl, hc, hn⟩ := h
  refine ⟨c, t, rfl, (first_facts c hc).1, ?_, fun e => ?_⟩
  · rintro rfl; exact absurd hc (by decide)
  · obtain ⟨x, u, rfl, hx⟩ := hn e
    exact ⟨x, u, rfl, (digit_facts x hx).2.2.2.1, (digit_facts x hx).2.2.2.2.1⟩

theorem arg_solid {vars : List Str} {s : Str} {a : Arg} (h : SpellArg K vars s a) : Solid s := by
  cases h with
  | name h => exact ident_solid h.1
  | const h =>
    rcases h with rfl | rfl | rfl | rfl
    all_goals exact .of (by decide)
  | number h => exact head_solid (number_head h)
  | complex h => exact head_solid (complex_head h)
  | char h => cases h <;> exact .of (by decide)
  | @field ids h1 h2 =>
    cases ids with
    | nil => exact absurd rfl h1
    | cons id ids => exact .of (by decide)
  | var => exact .of (by decide)
  | literal h => exact literal_solid h
  | paren => exact .of (by decide)
  | chain => exact .of (by decide)

theorem cmd_solid {vars : List Str} {s : Str} {c : Cmd} (h : SpellCmd K vars s c) : Solid s ∧ c ≠ [] := by
  cases h with
  | one h => exact ⟨arg_solid h, by simp⟩
  | cons h => exact ⟨((arg_solid h).append _).append _, by simp⟩

/-- The commands behind a bar do not begin with constants. -/
theorem pipe_check {vars : List Str} : ∀ {p : Pipe} {s : Str}, SpellPipe K vars s p → checkPipe p = true
  | _, _, .one _ _ => rfl
  | c :: d :: p, _, .cons _ _ _ h hd => by
    have ih := pipe_check h
    rw [checkPipe, List.all_cons, Bool.and_eq_true]
    refine ⟨?_, ih⟩
    split
    · exact absurd hd id
    · exact absurd hd id
    · rfl

mutual
theorem read_arg (hC : Std C) (hK : Knows C K) (hN : Accepts P.num) {vars : List Str} :
    ∀ {s : Str} {a : Arg}, SpellArg K vars s a → ∀ line d, ∃ i tl, ReadArg C P vars s a line d i tl
  | _, _, .name h, line, d => ⟨_, _, read_name hC hK h line d⟩
  | _, _, .const h, line, d => by
    obtain ⟨t, ht⟩ := read_const (P := P) (vars := vars) hC h line d
    exact ⟨_, _, ht⟩
  | _, _, .number h, line, d => ⟨_, _, read_number hC hN h line d⟩
  | _, _, .complex h, line, d => ⟨_, _, read_complex hC hN h line d⟩
  | _, _, .char h, line, d => ⟨_, _, read_char hC hN h line d⟩
  | _, _, @SpellArg.field _ _ ids h1 h2, line, d => by
    cases ids with
    | nil => exact absurd rfl h1
    | cons id ids => exact ⟨_, _, read_field hC h2 line d⟩
  | _, _, .var hv hm h, line, d => ⟨_, _, read_var hC hv hm h line d⟩
  | _, _, .literal h, line, d => by
    obtain ⟨t, ht⟩ := read_literal (P := P) (vars := vars) hC h line d
    exact ⟨_, _, ht⟩
  | _, _, .paren (a := a) ha h, line, d => by
    obtain ⟨core, sp, rfl, hsp, hs, hr⟩ := read_pipe hC hK hN h
    obtain ⟨i, tl, hp⟩ := hr (line + breaks a) (d + 1)
    obtain ⟨tl', h'⟩ := read_paren hC (ids := []) ha hsp (by simp) hs (pipe_check h) line d hp
    rw [show fieldsText [] = [] from rfl, List.append_nil] at h'
    exact ⟨_, _, h'⟩
  | _, _, .chain (a := a) ha h hne hids, line, d => by
    obtain ⟨core, sp, rfl, hsp, hs, hr⟩ := read_pipe hC hK hN h
    obtain ⟨i, tl, hp⟩ := hr (line + breaks a) (d + 1)
    obtain ⟨tl', h'⟩ := read_paren hC ha hsp hids hs (pipe_check h) line d hp
    rw [parenArg, if_neg hne] at h'
    exact ⟨_, _, h'⟩
theorem read_cmd (hC : Std C) (hK : Knows C K) (hN : Accepts P.num) {vars : List Str} :
    ∀ {s : Str} {c : Cmd}, SpellCmd K vars s c → ∀ line d, ∃ i tl, ReadCmd C P vars s c line d i tl
  | _, _, .one h, line, d => by
    obtain ⟨i, tl, h⟩ := read_arg hC hK hN h line d
    exact ⟨i, tl, read_cmd_one h⟩
  | _, _, .cons (s := s) (sp := sp) h hsp h', line, d => by
    obtain ⟨i, tl, h1⟩ := read_arg hC hK hN h line d
    obtain ⟨j, tl', h2⟩ := read_cmd hC hK hN h' (line + breaks (s ++ sp)) d
    exact ⟨_, _, read_cmd_cons hC hsp (cmd_solid h').1 h1 h2⟩
theorem read_pipe (hC : Std C) (hK : Knows C K) (hN : Accepts P.num) {vars : List Str} :
    ∀ {s : Str} {p : Pipe}, SpellPipe K vars s p →
      ∃ core sp, s = core ++ sp ∧ Blank sp ∧ Solid core ∧ ∀ line d, ∃ i tl, ReadPipe C P vars core p line d i tl
  | _, _, .one (s := s) (sp := sp) h hsp => by
    refine ⟨s, sp, rfl, hsp, (cmd_solid h).1, fun line d => ?_⟩
    obtain ⟨i, tl, h1⟩ := read_cmd hC hK hN h line d
    exact ⟨i, tl, read_pipe_one (cmd_solid h).2 h1⟩
  | _, _, .cons (s := s) (sp := sp) (sp' := sp') h hsp hsp' h' hd => by
    obtain ⟨core, sp1, rfl, h1, h2, h3⟩ := read_pipe hC hK hN h'
    refine ⟨s ++ sp ++ 124 :: sp' ++ core, sp1, by simp, h1, ?_, fun line d => ?_⟩
    · exact (((cmd_solid h).1.append _).append _).append _
    · obtain ⟨i, tl, h4⟩ := read_cmd hC hK hN h line d
      obtain ⟨j, tl', h5⟩ := h3 (line + breaks (s ++ sp ++ sp')) d
      exact ⟨_, _, read_pipe_cons hC (cmd_solid h).2 hsp hsp' h2 h4 h5⟩
end

end Verif.Tmpl
