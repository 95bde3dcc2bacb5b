import Verif.Spec.Write
import Verif.Props.C86
import Verif.Props.C96
/-!
# C104 A save that succeeds has written everything
-/
namespace Verif.Write
open Verif

/-- **C104** Whatever the writer does: the text is handed over in one call of `Write`, or in none if it is empty, and the save succeeds
only if the writer said without an error that it took everything.  An error of the writer is returned. -/
theorem C104_once {S E : Type} (w : Writer S E) (text : Str) (s s' : S) (r : Saved E) (h : WriteTo w text s r s') :
    (text = [] → r = .returned none ∧ s' = s) ∧
    (text ≠ [] → ∃ o, w s text o s' ∧ (r = .returned none → o = .done text.length none) ∧
      (∀ e, r = .returned (some (.writer e)) → ∃ n, o = .done n (some e)) ∧
      (∀ n e, o = .done n (some e) → n ≤ text.length → r = .returned (some (.writer e)))) := by
  cases h with
  | empty h => exact ⟨fun _ => ⟨rfl, rfl⟩, fun hn => absurd h hn⟩
  | panicked hn h => exact ⟨fun h => absurd h hn, fun _ => ⟨_, h, (fun h => by cases h), (fun _ h => by cases h), (fun _ _ h => by cases h)⟩⟩
  | count hn h hc =>
    refine ⟨fun h => absurd h hn, fun _ => ⟨_, h, (fun h => by cases h), (fun _ h => by cases h), fun n e h hl => ?_⟩⟩
    cases h
    omega
  | error hn h hc =>
    refine ⟨fun h => absurd h hn, fun _ => ⟨_, h, (fun h => by cases h), ?_, ?_⟩⟩
    · intro e h; cases h; exact ⟨_, rfl⟩
    · intro n e h _; cases h; rfl
  | short hn h hc =>
    exact ⟨fun h => absurd h hn, fun _ => ⟨_, h, (fun h => by cases h), (fun _ h => by cases h), (fun _ _ h => by cases h)⟩⟩
  | all hn h hc =>
    subst hc
    exact ⟨fun h => absurd h hn, fun _ => ⟨_, h, fun _ => rfl, (fun _ h => by cases h), (fun _ _ h => by cases h)⟩⟩

/-- **C104** With a writer that does what the documentation of `io.Writer` demands, a save does not panic, its error is the writer's, and
if it returns no error the destination got the whole text, otherwise a beginning of it. -/
theorem C104_saved {S E : Type} (w : Writer S E) (content : S → Str) (hw : Contract w content) (text : Str) (s s' : S) (r : Saved E)
    (h : WriteTo w text s r s') :
    GotPart content text s s' ∧ ((r = .returned none ∧ GotAll content text s s') ∨ ∃ e, r = .returned (some (.writer e))) := by
  cases h with
  | empty h =>
    subst h
    exact ⟨⟨[], List.prefix_rfl, (List.append_nil _).symm⟩, .inl ⟨rfl, (List.append_nil _).symm⟩⟩
  | panicked hn h => obtain ⟨_, _, _, -, ho, -⟩ := hw _ _ _ _ h; cases ho
  | count hn h hc =>
    obtain ⟨a, b, e, hp, ho, -⟩ := hw _ _ _ _ h
    cases ho
    rw [hp, List.length_append] at hc
    omega
  | error hn h hc =>
    obtain ⟨a, b, e, hp, ho, hs, -⟩ := hw _ _ _ _ h
    cases ho
    exact ⟨⟨a, ⟨b, hp.symm⟩, hs⟩, .inr ⟨_, rfl⟩⟩
  | short hn h hc =>
    obtain ⟨a, b, e, hp, ho, hs, hb⟩ := hw _ _ _ _ h
    cases ho
    have : b ≠ [] := by
      rintro rfl
      rw [List.append_nil] at hp
      rw [hp] at hc
      omega
    exact absurd rfl (hb this)
  | all hn h hc =>
    obtain ⟨a, b, e, hp, ho, hs, hb⟩ := hw _ _ _ _ h
    cases ho
    have : b = [] := by
      by_contra hne
      exact hb hne rfl
    subst this
    rw [List.append_nil] at hp
    subst hp
    exact ⟨⟨_, List.prefix_rfl, hs⟩, .inl ⟨rfl, hs⟩⟩

/-- **C104** So a PO file that was saved without an error to an empty destination is read as the same entries. -/
theorem C104_po {S E : Type} (w : Writer S E) (content : S → Str) (hw : Contract w content) (P : Nat → Bool) (h10 : P 10 = false)
    (h13 : P 13 = false) (f : Tr.File) (hf : Tr.Consistent f) (hne : f.entries ≠ []) (hgood : ∀ p ∈ f.entries, Tr.GoodEntry p.2)
    (s s' : S) (h0 : content s = []) (h : SaveAsPo P f w s (.returned none) s') :
    ∃ g, Tr.readPo (content s') = .ok g ∧ ∀ k, g.entries.get? k = f.entries.get? k := by
  obtain ⟨es, hs, h⟩ := h
  obtain ⟨-, ⟨-, hg⟩ | ⟨e, he⟩⟩ := C104_saved w content hw _ _ _ _ h
  · rw [show content s' = _ from hg, h0, List.nil_append]
    exact Tr.C21_round_trip P h10 h13 f hf hne hgood es hs
  · cases he

/-- **C104** The same for a POT. -/
theorem C104_pot {S E : Type} (w : Writer S E) (content : S → Str) (hw : Contract w content) (P : Nat → Bool) (h10 : P 10 = false)
    (h13 : P 13 = false) (f : Tr.File) (hf : Tr.Consistent f) (hne : f.entries ≠ [])
    (hgood : ∀ p ∈ f.entries, ∀ c ∈ p.2.cmts, Tr.GoodComment c) (s s' : S) (h0 : content s = [])
    (h : SaveAsPot P f w s (.returned none) s') :
    ∃ g, Tr.readPot (content s') = .ok g ∧ ∀ k, g.entries.get? k = (f.entries.get? k).map Tr.template := by
  obtain ⟨es, hs, h⟩ := h
  obtain ⟨-, ⟨-, hg⟩ | ⟨e, he⟩⟩ := C104_saved w content hw _ _ _ _ h
  · rw [show content s' = _ from hg, h0, List.nil_append]
    exact Tr.C27_round_trip P h10 h13 f hf hne hgood es hs
  · cases he

/-- **C104** The same for an MO file; and if saving it failed, what is left is refused or, all the same, read as the whole file. -/
theorem C104_mo {S E : Type} (w : Writer S E) (content : S → Str) (hw : Contract w content) (f : Tr.File) (hf : Tr.Consistent f)
    (hgood : ∀ p ∈ f.entries, Tr.MoGood p.2) (hlt : ∀ es, Tr.SortedEntry f es → (Tr.saveMo es).length < 4294967296)
    (s s' : S) (h0 : content s = []) (r : Saved E) (h : SaveAsMo f w s r s') :
    (r = .returned none → ∃ g, Tr.readMo (content s') = .ok g) ∧
    (Tr.readMo (content s') = .err ∨ ∃ g, Tr.readMo (content s') = .ok g ∧
      ∀ k, g.entries.get? k = (f.entries.get? k).map fun e => { e with cmts := [] }) := by
  obtain ⟨es, hs, h⟩ := h
  obtain ⟨g, hg, hk⟩ := Tr.C30_round_trip f hf hgood es hs (hlt es hs)
  obtain ⟨⟨a, ⟨b, hb⟩, ha⟩, hc⟩ := C104_saved w content hw _ _ _ _ h
  rw [h0, List.nil_append] at ha
  constructor
  · rintro rfl
    rcases hc with ⟨-, hc⟩ | ⟨e, he⟩
    · rw [show content s' = _ from hc, h0, List.nil_append]
      exact ⟨g, hg⟩
    · cases he
  · have h1 : a = (Tr.saveMo es).take a.length := by rw [← hb, List.take_left]
    rw [ha, h1]
    rcases Tr.C86_truncated (Tr.saveMo es) a.length with h' | h'
    · exact .inl h'
    · exact .inr ⟨g, h'.trans hg, hk⟩

/-! ## Files -/

theorem call_sys {p : Str} {n : Int} {e : Option Errno} {a : Str} (h : Call p n e a) : ∃ e', Sys p n e' a ∧ e = e' := by
  induction h with
  | interrupted h1 _ ih =>
    cases h1 with
    | failed => exact ih
  | returned h _ => exact ⟨_, h, rfl⟩

theorem call_cases {p : Str} {n : Int} {e : Option Errno} {a : Str} (h : Call p n e a) :
    (n = -1 ∧ e ≠ none ∧ a = []) ∨ ∃ k : Nat, n = k ∧ k ≤ p.length ∧ e = none ∧ a = p.take k := by
  obtain ⟨e', h, rfl⟩ := call_sys h
  cases h with
  | failed e => exact .inl ⟨rfl, by simp, rfl⟩
  | took k hk => exact .inr ⟨k, rfl, hk, rfl, rfl⟩

/-- One call of the system: how far it gets. -/
theorem call_advance {p : Str} {nn : Nat} (hnn : nn ≤ p.length) {n : Int} {e : Option Errno} {a : Str} (h : Call (chunk p nn) n e a) :
    nn ≤ advance nn n ∧ advance nn n ≤ p.length ∧ p.take nn ++ a = p.take (advance nn n) ∧ (n ≤ 0 ∨ e = none) := by
  rcases call_cases h with ⟨rfl, -, rfl⟩ | ⟨k, rfl, hk, rfl, rfl⟩
  · simp [advance, hnn]
  · have hk' : k ≤ maxRW ∧ k ≤ p.length - nn := by
      unfold chunk at hk
      rw [List.length_take, List.length_drop] at hk
      omega
    refine ⟨by simp [advance], by simp [advance]; omega, ?_, .inr rfl⟩
    unfold chunk advance
    rw [List.take_take, Nat.min_eq_left hk'.1, Int.toNat_natCast, List.take_add]

theorem loop_spec {p : Str} {nn nn' : Nat} {e : Option FileErr} {a : Str} (h : Loop p nn nn' e a) (hnn : nn ≤ p.length) :
    nn' ≤ p.length ∧ p.take nn ++ a = p.take nn' ∧ (nn' < p.length → e ≠ none) := by
  induction h with
  | complete hc heq =>
    obtain ⟨-, h1, h2, -⟩ := call_advance hnn hc
    exact ⟨h1, h2, fun h => by omega⟩
  | wait hc hne _ ih =>
    obtain ⟨-, h1, h2, -⟩ := call_advance hnn hc
    obtain ⟨i1, i2, i3⟩ := ih h1
    exact ⟨i1, by rw [← List.append_assoc, h2, i2], i3⟩
  | noWait no hc hne =>
    obtain ⟨-, h1, h2, -⟩ := call_advance hnn hc
    exact ⟨h1, h2, fun _ => by simp⟩
  | error hc hne =>
    obtain ⟨-, h1, h2, -⟩ := call_advance hnn hc
    exact ⟨h1, h2, fun _ => by simp⟩
  | zero hc hne h0 =>
    obtain ⟨-, h1, h2, -⟩ := call_advance hnn hc
    exact ⟨h1, h2, fun _ => by simp⟩
  | more hc hne h0 _ ih =>
    obtain ⟨-, h1, h2, -⟩ := call_advance hnn hc
    obtain ⟨i1, i2, i3⟩ := ih h1
    exact ⟨i1, by rw [← List.append_assoc, h2, i2], i3⟩

/-- **C104** A file is such a writer, whatever the system does: however few bytes it takes at a time, however often it interrupts a call
or says that it is not ready, and wherever it fails. -/
theorem C104_file : Contract FileWrite id := by
  intro s p o s' h
  cases h with
  | closed no => exact ⟨[], p, some (.notReady no), rfl, rfl, (List.append_nil _).symm, fun _ => by simp⟩
  | @wrote _ _ nn e a hl =>
    obtain ⟨h1, h2, h3⟩ := loop_spec hl (Nat.zero_le _)
    rw [List.take_zero, List.nil_append] at h2
    subst h2
    refine ⟨_, p.drop nn, _, (List.take_append_drop nn p).symm, by rw [List.length_take, Nat.min_eq_left h1], rfl, ?_⟩
    intro hr
    have : nn < p.length := by
      by_contra hc
      exact hr (List.drop_eq_nil_of_le (by omega))
    have := h3 this
    cases e with
    | none => exact absurd rfl this
    | some e => simp

/-- **C104** If the system takes the text in pieces of any positive lengths, the save succeeds. -/
theorem C104_pieces (text : Str) (ks : List Nat) (hk : ∀ k ∈ ks, 0 < k ∧ k ≤ 1073741824) (hs : ks.sum = text.length) (s : Str) :
    WriteTo FileWrite text s (.returned none) (s ++ text) := by
  have key : ∀ (ks : List Nat) (nn : Nat), (∀ k ∈ ks, 0 < k ∧ k ≤ 1073741824) → ks ≠ [] → nn + ks.sum = text.length →
      Loop text nn text.length none (text.drop nn) := by
    intro ks
    induction ks with
    | nil => intro nn _ h; exact absurd rfl h
    | cons k ks ih =>
      intro nn hk _ hsum
      obtain ⟨hk0, hkm⟩ := hk k (List.mem_cons_self ..)
      rw [List.sum_cons] at hsum
      have hlen : k ≤ (chunk text nn).length := by
        unfold chunk maxRW
        rw [List.length_take, List.length_drop]
        omega
      have hcall : Call (chunk text nn) k none ((chunk text nn).take k) := .returned (.took k hlen) (by simp)
      have hadv : advance nn k = nn + k := by simp [advance]
      have htake : (chunk text nn).take k = (text.drop nn).take k := by
        unfold chunk
        rw [List.take_take, Nat.min_eq_left (show k ≤ maxRW from hkm)]
      by_cases hks : ks = []
      · subst hks
        have := Loop.complete hcall (by rw [hadv]; simpa using hsum)
        rw [htake, List.take_of_length_le (by rw [List.length_drop]; simp at hsum; omega), hadv] at this
        simp only [List.sum_nil, Nat.add_zero] at hsum
        rw [hsum] at this
        exact this
      · have hpos : 0 < ks.sum := by
          cases ks with
          | nil => exact absurd rfl hks
          | cons x xs =>
            have := (hk x (by simp)).1
            rw [List.sum_cons]
            omega
        have hrec := ih (nn + k) (fun x hx => hk x (List.mem_cons_of_mem _ hx)) hks (by omega)
        have := Loop.more hcall (by rw [hadv]; omega) (by omega) (by rw [hadv]; exact hrec)
        rw [htake, ← List.drop_drop, List.take_append_drop] at this
        exact this
  by_cases ht : text = []
  · subst ht
    rw [List.append_nil]
    exact .empty rfl
  · have hks : ks ≠ [] := by
      rintro rfl
      exact ht (List.length_eq_zero_iff.mp hs.symm)
    have := FileWrite.wrote (s := s) (key ks 0 hk hks (by omega))
    rw [List.drop_zero] at this
    simp only [ne_eq, not_true_eq_false, if_false, Option.or_none] at this
    exact .all ht this rfl

/-- **C104** So the destination of a run of the command is such as C63, C65, C81 and C96 suppose. -/
theorem C104_sink (sink : Str → Str × Bool) (h : IsFile sink) (text : Str) :
    (sink text).1 <+: text ∧ ((sink text).2 = true → (sink text).1 = text) := by
  obtain ⟨e, h1, h2⟩ := h text
  obtain ⟨⟨a, ha, hs⟩, hc⟩ := C104_saved FileWrite id C104_file _ _ _ _ h1
  rw [id_eq, id_eq, List.nil_append] at hs
  rw [hs]
  refine ⟨ha, fun ht => ?_⟩
  have he := h2.mp ht
  subst he
  rcases hc with ⟨-, hc⟩ | ⟨e, he⟩
  · exact hs.symm.trans hc
  · cases he

/-! ## Examples -/

/-- A disk that always takes everything, one byte at a time. -/
example : IsFile fun text => (text, true) := fun text =>
  ⟨none, by simpa using C104_pieces text (List.replicate text.length 1) (by simp) (by simp) [], by simp⟩

/-- A disk that takes two bytes, interrupts the next call, takes one more and is full then. -/
theorem full_disk (a b c d : UInt8) (t : Str) :
    WriteTo FileWrite (a :: b :: c :: d :: t) [] (.returned (some (.writer (.errno (.other 28))))) [a, b, c] := by
  have h1 : Call (chunk (a :: b :: c :: d :: t) 0) 2 none [a, b] := .returned (Sys.took 2 (by simp [chunk, maxRW])) (by simp)
  have h2 : Call (chunk (a :: b :: c :: d :: t) 2) 1 none ([] ++ [c]) :=
    .interrupted (.failed .intr) (.returned (Sys.took 1 (by simp [chunk, maxRW])) (by simp))
  have h3 : Call (chunk (a :: b :: c :: d :: t) 3) (-1) (some (.other 28)) [] := .returned (.failed _) (by simp)
  have l3 := Loop.error h3 (by simp [advance])
  have l2 := Loop.more h2 (by simp [advance]) (by decide) l3
  have l1 := Loop.more h1 (by simp [advance]) (by decide) l2
  have := FileWrite.wrote (s := []) l1
  exact .error (by simp) this (by simp [advance]; omega)

/-- A writer that breaks the contract and takes less without an error: the save fails all the same. -/
example : WriteTo (fun (s : Str) (p : Str) (o : Wrote Unit) s' => o = .done (p.length - 1) none ∧ s' = s ++ p.dropLast) b!"abc" []
    (.returned (some .short)) b!"ab" := .short (by decide) ⟨rfl, rfl⟩ (by decide)

/-- A PO file on that full disk. -/
example : SaveAsPo Tr.asciiPrint { entries := [(b!"a", { id := b!"a", str := b!"b" })] } FileWrite []
    (.returned (some (.writer (.errno (.other 28))))) b!"msg" := by
  refine ⟨[{ id := b!"a", str := b!"b" }], ⟨List.Perm.refl _, List.pairwise_singleton ..⟩, ?_⟩
  exact full_disk 109 115 103 105 _

/-- And a PO file that was saved in pieces of three bytes. -/
example : SaveAsPo Tr.asciiPrint { entries := [(b!"a", { id := b!"a", str := b!"b" })] } FileWrite [] (.returned none)
    b!"msgid \"a\"\nmsgstr \"b\"\n\n" := by
  refine ⟨[{ id := b!"a", str := b!"b" }], ⟨List.Perm.refl _, List.pairwise_singleton ..⟩, ?_⟩
  have h := C104_pieces b!"msgid \"a\"\nmsgstr \"b\"\n\n" [3, 3, 3, 3, 3, 3, 3, 1] (by decide) (by decide) []
  have e : Tr.savePo Tr.asciiPrint [{ id := b!"a", str := b!"b" }] = b!"msgid \"a\"\nmsgstr \"b\"\n\n" := by decide +kernel
  rw [e]
  exact h

end Verif.Write
