import Verif.Props.C34_C35
/-! # C86: truncated files -/
namespace Verif.Tr
open Verif

theorem at_extend {c : Str} {pos : Nat} {s : Str} (h : At c pos s) (x : Str) : At (c ++ x) pos s := by
  obtain ⟨pre, post, rfl, hl⟩ := h
  exact ⟨pre, post ++ x, by simp, hl⟩

theorem num16_extend {be : Bool} {c : Str} {pos v : Nat} (h : Num16 be c pos v) (x : Str) :
    Num16 be (c ++ x) pos v := by
  obtain ⟨a, b, h, hv⟩ := h
  exact ⟨a, b, at_extend h x, hv⟩

theorem num32_extend {be : Bool} {c : Str} {pos v : Nat} (h : Num32 be c pos v) (x : Str) :
    Num32 be (c ++ x) pos v := by
  obtain ⟨a, b, d, e, h, hv⟩ := h
  exact ⟨a, b, d, e, at_extend h x, hv⟩

theorem described_extend {be : Bool} {c : Str} {pos i : Nat} {s : Str} (h : Described be c pos i s) (x : Str) :
    Described be (c ++ x) pos i s := by
  obtain ⟨off, ⟨h1, h2⟩, h⟩ := h
  exact ⟨off, ⟨num32_extend h1 x, num32_extend h2 x⟩, h.imp id (at_extend · x)⟩

theorem moFile_extend {be : Bool} {c : Str} {ps : List (Str × Str)} (h : MoFile be c ps) (x : Str) :
    MoFile be (c ++ x) ps := by
  obtain ⟨h1, h2, ⟨ma, mi, h3, h4, h5⟩, O, T, h6, h7, h8, h9⟩ := h
  refine ⟨at_extend h1 x, by rw [List.length_append]; omega,
    ⟨ma, mi, num16_extend h3 x, num16_extend h4 x, h5⟩, O, T, num32_extend h6 x, num32_extend h7 x,
    num32_extend h8 x, fun i p hp => ?_⟩
  exact ⟨described_extend (h9 i p hp).1 x, described_extend (h9 i p hp).2 x⟩

/-- **C86** Bytes after the content of an MO file change nothing. -/
theorem C86_extend (c : Str) (f : File) (h : readMo c = .ok f) (x : Str) : readMo (c ++ x) = .ok f := by
  obtain ⟨be, ps, hm, rfl⟩ := (readMo_iff c f).mp h
  exact readMo_of_file (moFile_extend hm x)

/-- **C86** Whatever the content and wherever it is cut, a truncated MO file is an error or is read like
the whole: no message is lost, shortened or changed without an error. -/
theorem C86_truncated (c : Str) (k : Nat) : readMo (c.take k) = .err ∨ readMo (c.take k) = readMo c := by
  cases h : readMo (c.take k) with
  | err => exact .inl rfl
  | panic => exact absurd h (readMo_ne_panic _)
  | ok f =>
    right
    have := C86_extend _ f h (c.drop k)
    rw [List.take_append_drop] at this
    rw [this]

/-- **C86** So a content which is refused as a whole is refused however much of it is missing. -/
theorem C86_refused (c : Str) (h : readMo c = .err) (k : Nat) : readMo (c.take k) = .err := by
  rcases C86_truncated c k with h' | h'
  · exact h'
  · rw [h', h]

theorem at_take {c : Str} {pos : Nat} {s : Str} (h : At c pos s) (k : Nat) (hk : pos + s.length ≤ k) :
    At (c.take k) pos s := by
  obtain ⟨pre, post, rfl, hl⟩ := h
  refine ⟨pre, post.take (k - pos - s.length), ?_, hl⟩
  rw [List.take_append, List.take_of_length_le (by rw [List.length_append]; omega), List.length_append, hl,
    Nat.sub_sub]

theorem at_take_end {c : Str} {pos : Nat} {s : Str} {k : Nat} (h : At (c.take k) pos s) : pos + s.length ≤ k := by
  have := ((at_iff _ _ _).mp h).1
  rw [List.length_take] at this
  omega

theorem num32_take {be : Bool} {c : Str} {pos v : Nat} (h : Num32 be c pos v) (k : Nat) (hk : pos + 4 ≤ k) :
    Num32 be (c.take k) pos v := by
  obtain ⟨a, b, d, e, h, hv⟩ := h
  exact ⟨a, b, d, e, at_take h k (by simpa using hk), hv⟩

theorem num16_take {be : Bool} {c : Str} {pos v : Nat} (h : Num16 be c pos v) (k : Nat) (hk : pos + 2 ≤ k) :
    Num16 be (c.take k) pos v := by
  obtain ⟨a, b, h, hv⟩ := h
  exact ⟨a, b, at_take h k (by simpa using hk), hv⟩

theorem magic_be {c : Str} {be be' : Bool}
    (h : At c 0 (if be then [0x95, 0x04, 0x12, 0xde] else [0xde, 0x12, 0x04, 0x95]))
    (h' : At c 0 (if be' then [0x95, 0x04, 0x12, 0xde] else [0xde, 0x12, 0x04, 0x95])) : be = be' := by
  have := at_unique h h' (by cases be <;> cases be' <;> rfl)
  cases be <;> cases be' <;> first | rfl | (simp at this)

/-- An image in either byte order whose last translated string is not empty can be read cut after `k`
bytes exactly if at most the final NUL is missing. -/
theorem moImage_take (be : Bool) (extra : Str) (ps : List (Str × Str)) (p : Str × Str)
    (hlt : (moImage be extra (ps ++ [p])).length < 4294967296) (hp : p.2 ≠ []) (k : Nat) :
    (∃ f, readMo ((moImage be extra (ps ++ [p])).take k) = .ok f) ↔
      (moImage be extra (ps ++ [p])).length - 1 ≤ k := by
  generalize hqs : ps ++ [p] = qs at hlt ⊢
  have hlast : qs[ps.length]? = some p := by rw [← hqs]; simp
  have hqn : qs.length = ps.length + 1 := by rw [← hqs]; simp
  have P := moImage_parts be extra qs
  have hl := moImage_length be extra qs
  have hfile := moImage_file be extra qs hlt
  generalize moImage be extra qs = c at P hl hlt hfile ⊢
  -- the end of the strings
  have hS := fun {i : Nat} {q : Str × Str} (h : qs[i]? = some q) =>
    strings_at P.strs (getElem?_map_fst h).2
  have hend : ∀ off, offsetOf off (qs.map Prod.snd) (ps.length + 1) =
      off + (writeStrings (qs.map Prod.snd)).length := by
    intro off
    unfold offsetOf
    rw [List.take_of_length_le (by rw [List.length_map, hqn])]
  have hstep := offsetOf_step (28 + extra.length + qs.length * 8 * 2 + (writeStrings (qs.map Prod.fst)).length)
    (getElem?_map_fst hlast).2
  rw [hend] at hstep
  have hplen : 0 < p.2.length := List.length_pos_iff.mpr hp
  constructor
  · rintro ⟨f, hf⟩
    obtain ⟨be', ps', hm, -⟩ := (readMo_iff _ _).mp hf
    have hx := moFile_extend hm (c.drop k)
    rw [List.take_append_drop] at hx
    obtain rfl : be' = be := magic_be hx.1 hfile.1
    obtain ⟨-, -, -, O, T, hn, -, hT, hd⟩ := hm
    have ex : ∀ {pos v}, Num32 be' (c.take k) pos v → Num32 be' c pos v := fun h => by
      have := num32_extend h (c.drop k)
      rwa [List.take_append_drop] at this
    have hn' := num32_unique (ex hn) (num32_putBe P.count (by omega))
    have hT' := num32_unique (ex hT) (num32_putBe P.posT (by omega))
    have hi : ps.length < ps'.length := by omega
    obtain ⟨off, ⟨hlen, hoff⟩, hs⟩ := (hd _ _ (List.getElem?_eq_getElem hi)).2
    have hdd := table_descr P.tableT (by omega) (getElem?_map_fst hlast).2
    rw [hT'] at hlen hoff
    have e1 := num32_unique (ex hlen) hdd.1
    have e2 := num32_unique (ex hoff) hdd.2
    rcases hs with hs | hs
    · rw [hs, List.length_nil] at e1; omega
    · have := at_take_end hs
      omega
  · intro hk
    have hcount : qs.length ≤ c.length := by omega
    have hmore : 2 ≤ (writeStrings (qs.map Prod.snd)).length := by
      have : offsetOf (28 + extra.length + qs.length * 8 * 2 + (writeStrings (qs.map Prod.fst)).length)
        (qs.map Prod.snd) ps.length ≥ _ := offsetOf_le _ _ _
      omega
    refine ⟨_, readMo_of_file (be := be) (ps := qs) ?_⟩
    obtain ⟨h1, h2, ⟨ma, mi, h3, h4, h5⟩, -⟩ := hfile
    refine ⟨at_take h1 k (by cases be <;> simp <;> omega), by rw [List.length_take]; omega,
      ⟨ma, mi, num16_take h3 k (by omega), num16_take h4 k (by omega), h5⟩, 28 + extra.length,
      28 + extra.length + qs.length * 8, num32_take (num32_putBe P.count (by omega)) k (by omega),
      num32_take (num32_putBe P.posO (by omega)) k (by omega),
      num32_take (num32_putBe P.posT (by omega)) k (by omega), ?_⟩
    intro i q hi
    have hil : i < qs.length := (List.getElem?_eq_some_iff.mp hi).1
    obtain ⟨g1, g2⟩ := getElem?_map_fst hi
    have d1 := table_descr P.tableO (by omega) g1
    have d2 := table_descr P.tableT (by omega) g2
    have a1 := strings_at P.ids g1
    have a2 := strings_at P.strs g2
    have s1 := offsetOf_step (28 + extra.length + qs.length * 8 * 2) g1
    have s2 := offsetOf_step (28 + extra.length + qs.length * 8 * 2 + (writeStrings (qs.map Prod.fst)).length) g2
    have m1 := offsetOf_end (28 + extra.length + qs.length * 8 * 2) (qs.map Prod.fst) (i + 1)
    have m2 := offsetOf_end (28 + extra.length + qs.length * 8 * 2 + (writeStrings (qs.map Prod.fst)).length)
      (qs.map Prod.snd) (i + 1)
    refine ⟨⟨_, ⟨num32_take d1.1 k (by omega), num32_take d1.2 k (by omega)⟩, .inr (at_take (at_left a1) k (by omega))⟩,
      ⟨_, ⟨num32_take d2.1 k (by omega), num32_take d2.2 k (by omega)⟩, .inr (at_take (at_left a2) k (by omega))⟩⟩

/-- **C86** What `SaveAsMo` wrote can be read again exactly if at most the final NUL is missing, when the
translation of the last message is not empty. -/
theorem C86_saved (es : List Entry) (e : Entry) (hlt : (saveMo (es ++ [e])).length < 4294967296)
    (he : transOf e ≠ []) (k : Nat) :
    (∃ f, readMo ((saveMo (es ++ [e])).take k) = .ok f) ↔ (saveMo (es ++ [e])).length - 1 ≤ k := by
  have ht : moMsgStr e ≠ [] := by
    have : moMsgStr e = transOf e := by
      unfold moMsgStr transOf
      rw [join_eq_intercalate]
      by_cases h : e.strN = [] <;> simp [h, List.length_pos_iff]
    rwa [this]
  rw [saveMo_eq] at hlt ⊢
  rw [List.map_append, List.map_cons, List.map_nil] at hlt ⊢
  exact moImage_take false moExtra _ _ hlt ht k

/-- **C86** A PO file has no such protection: what `SaveAsPo` wrote for some entries is the beginning of
what it writes for them and any others, and is read as a file with these entries only. -/
theorem C86_po (P : Nat → Bool) (h10 : P 10 = false) (h13 : P 13 = false) (es more : List Entry) (hne : es ≠ [])
    (hge : ∀ e ∈ es, GoodEntry e) :
    readPo ((savePo P (es ++ more)).take (savePo P es).length) = .ok (es.foldl File.addEntry {}) := by
  have : savePo P (es ++ more) = savePo P es ++ savePo P more := by
    unfold savePo
    rw [List.flatMap_append]
  rw [this, List.take_left]
  exact savePo_reads P h10 h13 es hne hge

/-- Two messages, the second with forms: without the final NUL the file is read as before, without one
more byte it is refused. -/
def exCut : List Entry :=
  [{ str := b!"Language: fr\n" }, { id := b!"one", isPlural := true, id2 := b!"many", strN := [b!"un", b!"des"] }]

example : (saveMo exCut).length = 138 ∧ transOf exCut[1] ≠ [] ∧
    readMo ((saveMo exCut).take 137) = readMo (saveMo exCut) ∧
    readMo (saveMo exCut) = .ok (exCut.foldl File.addEntry {}) ∧
    readMo ((saveMo exCut).take 136) = .err := by
  refine ⟨?_, ?_, ?_, ?_, ?_⟩ <;> decide +kernel

example : exCut ≠ [] ∧ ∀ e ∈ exCut, GoodEntry e := by
  refine ⟨by decide, fun e he => ?_⟩
  simp only [exCut, List.mem_cons, List.not_mem_nil, or_false] at he
  rcases he with rfl | rfl <;> exact ⟨by simp, by decide, by decide, by decide⟩

/-- The same messages as a PO file, cut before the last form: the message is read with one form. -/
example : readPo ((savePo asciiPrint exCut).take 81) =
    .ok ((({} : File).addEntry exCut[0]).addEntry { exCut[1] with strN := [b!"un"] }) := by
  decide +kernel

end Verif.Tr
