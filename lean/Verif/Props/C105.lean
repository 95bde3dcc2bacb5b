import Verif.Spec.Read
import Verif.Props.C104
/-!
# C105 A file is loaded from all of its bytes or not at all
-/
namespace Verif.Read
open Verif W

theorem extend_piece (b piece rest : Str) : extend b (piece ++ rest) piece.length = b ++ piece := by
  unfold extend
  rw [show ((b.length : Int) + piece.length).toNat = (b ++ piece).length by rw [List.length_append]; omega, ← List.append_assoc,
    List.take_left']
  rfl

theorem Loop.whole {S E : Type} {r : Reader S E} {content : S → Str} (hr : Contract r content) {b cap s o s'} (h : Loop r b cap s o s')
    (hb : b.length ≤ cap) :
    ∃ a e, o = .returned (b ++ a) e ∧ content s = a ++ content s' ∧ (e = none → content s' = []) := by
  induction h with
  | panicked h => obtain ⟨_, _, _, ho, -⟩ := hr _ _ _ _ h; cases ho
  | range h hn =>
    obtain ⟨p, q, e, ho, hk, -⟩ := hr _ _ _ _ h
    cases ho
    rw [List.length_append] at hk
    unfold InRange at hn
    omega
  | eof h _ =>
    obtain ⟨p, q, e, ho, hk, hc, he⟩ := hr _ _ _ _ h
    cases ho
    exact ⟨p, none, by rw [extend_piece], hc, fun _ => he rfl⟩
  | error h _ =>
    obtain ⟨p, q, e, ho, hk, hc, he⟩ := hr _ _ _ _ h
    cases ho
    exact ⟨p, some _, by rw [extend_piece], hc, (fun h => by cases h)⟩
  | full h _ hl hlt _ ih =>
    obtain ⟨p, q, e, ho, hk, hc, he⟩ := hr _ _ _ _ h
    cases ho
    obtain ⟨a, e, ho, hc', he'⟩ := ih (by omega)
    refine ⟨p ++ a, e, ?_, ?_, he'⟩
    · rw [ho, extend_piece, List.append_assoc]
    · rw [hc, hc', List.append_assoc]
  | more h hi _ _ ih =>
    obtain ⟨p, q, e, ho, hk, hc, he⟩ := hr _ _ _ _ h
    cases ho
    obtain ⟨a, e, ho, hc', he'⟩ := ih (by
      rw [extend_piece, List.length_append]
      have := hi.2
      omega)
    refine ⟨p ++ a, e, ?_, ?_, he'⟩
    · rw [ho, extend_piece, List.append_assoc]
    · rw [hc, hc', List.append_assoc]

/-- **C105** With a reader that does what the documentation of `io.Reader` demands, however it cuts its content into pieces, `io.ReadAll`
does not panic, and it returns the whole content if it returns no error and a beginning of it otherwise. -/
theorem C105_all {S E : Type} (r : Reader S E) (content : S → Str) (hr : Contract r content) (s s' : S) (o : All E)
    (h : ReadAll r s o s') :
    o = .returned (content s) none ∨ ∃ b e, o = .returned b (some e) ∧ b <+: content s := by
  obtain ⟨a, e, ho, hc, he⟩ := h.whole hr (Nat.zero_le _)
  cases e with
  | none =>
    refine .inl ?_
    rw [ho, hc, he rfl, List.append_nil]
    rfl
  | some e => exact .inr ⟨_, e, ho, ⟨_, hc.symm⟩⟩

/-- **C105** Loading such a file does what loading its whole content does, or, after an error of the reader, fails and changes nothing. -/
theorem C105_load {α S E : Type} (c : Cfg α) (tr : Translation α) (stat : Option Str) (r : Reader S E) (content : S → Str)
    (hr : Contract r content) (s : S) (o : Option (Bool × Translation α)) (h : LoadFile c tr stat r s o) :
    o = some (tr.loadFile c { stat := stat, content := some (content s) }) ∨
      (o = some (false, tr) ∧ ∃ b e s', ReadAll r s (.returned b (some e)) s') := by
  have all : ∀ {b s'}, ReadAll r s (.returned b none) s' → b = content s := by
    intro b s' h
    rcases C105_all r content hr s s' _ h with h | ⟨_, _, h, -⟩
    · cases h; rfl
    · cases h
  cases h with
  | stat h => subst h; exact .inl rfl
  | panicked _ h =>
    rcases C105_all r content hr s _ _ h with h | ⟨_, _, h, -⟩ <;> cases h
  | error _ h => exact .inr ⟨rfl, _, _, _, h⟩
  | po hs h hp => rw [hs, all h]; simp [Translation.loadFile, hp]
  | mo hs h hp hm => rw [hs, all h]; simp [Translation.loadFile, hp, hm]
  | neither hs h hp hm => rw [hs]; simp [Translation.loadFile, hp, hm]

/-- **C105** What opening a file gives in the model of a file tree is an outcome of such a load. -/
theorem C105_opened {α S E : Type} (c : Cfg α) (tr : Translation α) (stat : Option Str) (r : Reader S E) (s : S) (o : Opened)
    (h : IsOpened stat r s o) : LoadFile c tr stat r s (some (tr.loadFile c o)) := by
  obtain ⟨h1, b, e, s', h, hc⟩ := h
  obtain ⟨st, ct⟩ := o
  simp only at h1 hc
  subst h1
  cases st with
  | none => exact .stat rfl
  | some name =>
    cases e with
    | some e =>
      rw [Option.isSome_some, if_pos rfl] at hc
      subst hc
      exact .error rfl h
    | none =>
      rw [Option.isSome_none, if_neg Bool.false_ne_true] at hc
      subst hc
      by_cases hp : GoStr.hasSuffix name extPo = true
      · rw [show tr.loadFile c { stat := some name, content := some b } = tr.loadPo c b by simp [Translation.loadFile, hp]]
        exact .po rfl h hp
      · by_cases hm : GoStr.hasSuffix name extMo = true
        · have hp := Bool.eq_false_iff.2 hp
          rw [show tr.loadFile c { stat := some name, content := some b } = tr.loadMo c b by simp [Translation.loadFile, hp, hm]]
          exact .mo rfl h hp hm
        · have hp := Bool.eq_false_iff.2 hp
          have hm := Bool.eq_false_iff.2 hm
          rw [show tr.loadFile c { stat := some name, content := some b } = (true, tr) by simp [Translation.loadFile, hp, hm]]
          exact .neither rfl h hp hm

/-! ## Files -/

theorem Call.inv {k : Nat} {left n e buf left'} (h : Call k left n e buf left') : Sys left k n e buf left' := by
  induction h with
  | interrupted h _ ih => cases h; exact ih
  | returned h _ => exact h

theorem FdLoop.inv {k : Nat} {left n buf e left'} (h : FdLoop k left n buf e left') (hk : k ≠ 0) :
    ∃ piece rest, n = piece.length ∧ buf = piece ++ rest ∧ buf.length = k ∧ left = piece ++ left' ∧ (e = some .eof → left' = []) := by
  induction h with
  | wait h _ ih => have := h.inv; cases this; exact ih
  | noWait _ h => have := h.inv; cases this with | failed _ _ hl => exact ⟨[], _, rfl, rfl, hl, rfl, (fun h => by cases h)⟩
  | error h => have := h.inv; cases this with | failed _ _ hl => exact ⟨[], _, rfl, rfl, hl, rfl, (fun h => by cases h)⟩
  | @ok left n buf left' h =>
    have := h.inv
    cases this with
    | took j rest hj hl h0 hlen =>
      refine ⟨left.take j, rest, by rw [List.length_take, Nat.min_eq_left hl], rfl, hlen, (List.take_append_drop _ _).symm, ?_⟩
      unfold eofError
      split
      · next hz =>
        have : j = 0 := by omega
        subst this
        rcases h0 rfl with h | h
        · exact absurd h hk
        · simp [h]
      · intro h; cases h

theorem portion_ne {stream : Bool} {k : Nat} (hk : k ≠ 0) : portion stream k ≠ 0 := by
  unfold portion Write.maxRW
  split
  · decide
  · exact hk

/-- **C105** A file of the operating system is such a reader, whatever the system calls answer. -/
theorem C105_file : Contract FileRead id := by
  intro s k o s' h
  cases h with
  | closed no buf h => exact ⟨[], buf, _, rfl, h, rfl, (fun h => by cases h)⟩
  | nothing => exact ⟨[], [], _, rfl, rfl, rfl, (fun h => by cases h)⟩
  | read stream rest hk h hl =>
    obtain ⟨p, q, hn, hb, hlen, hc, he⟩ := h.inv (portion_ne hk)
    subst hn hb
    exact ⟨p, q ++ rest, _, by rw [List.append_assoc], by rw [← List.append_assoc]; exact hl, hc, he⟩

/-- **C105** So is an embedded file, and it has no errors. -/
theorem C105_embed : Contract EmbedRead id ∧ NoErrors EmbedRead := by
  refine ⟨?_, ?_⟩
  · intro s k o s' h
    cases h with
    | eof buf h => exact ⟨[], buf, _, rfl, h, rfl, fun _ => rfl⟩
    | copied rest hn h => exact ⟨_, rest, _, rfl, h, (List.take_append_drop _ _).symm, (fun h => by cases h)⟩
  · intro s k n buf e s' h
    cases h

theorem Loop.noErrors {S E : Type} {r : Reader S E} (hr : NoErrors r) {b cap s o s'} (h : Loop r b cap s o s') {a : Str} {e : E} :
    o ≠ .returned a (some e) := by
  induction h with
  | panicked => intro h; cases h
  | range => intro h; cases h
  | eof => intro h; cases h
  | error h => exact fun _ => hr _ _ _ _ _ _ h
  | full _ _ _ _ _ ih => exact ih
  | more _ _ _ _ ih => exact ih

theorem Loop.embedded {b : Str} {cap : Nat} {left : Str} (hb : b.length < cap) :
    Loop EmbedRead b cap left (.returned (b ++ left) none) [] := by
  induction hn : left.length using Nat.strongRecOn generalizing b cap left with
  | ind n ih =>
    by_cases hl : left = []
    · subst hl
      have := Loop.eof (b := b) (cap := cap) (EmbedRead.eof (List.replicate (cap - b.length) 0) List.length_replicate)
        ⟨by omega, by omega⟩
      rwa [show extend b (List.replicate (cap - b.length) 0) 0 = b ++ [] from extend_piece b [] _] at this
    · have hpos : 0 < left.length := List.length_pos_iff.2 hl
      have hstep := EmbedRead.copied (left := left) (k := cap - b.length)
        (List.replicate (cap - b.length - (left.take (cap - b.length)).length) 0) hl (by
          rw [List.length_append, List.length_replicate, List.length_take]; omega)
      have hi : InRange b cap (left.take (cap - b.length)).length := by
        unfold InRange
        rw [List.length_take]
        omega
      have hlen : (b ++ left.take (cap - b.length)).length = b.length + min (cap - b.length) left.length := by
        rw [List.length_append, List.length_take]
      by_cases hf : (b ++ left.take (cap - b.length)).length = cap
      · refine .full hstep hi (by rw [extend_piece]; exact hf) (Nat.lt_succ_self cap) ?_
        rw [extend_piece]
        have := ih (left.drop (cap - b.length)).length (by rw [List.length_drop]; omega)
          (b := b ++ left.take (cap - b.length)) (cap := cap + 1) (left := left.drop (cap - b.length)) (by omega) rfl
        rwa [List.append_assoc, List.take_append_drop] at this
      · refine .more hstep hi (by rw [extend_piece]; exact hf) ?_
        rw [extend_piece]
        have := ih (left.drop (cap - b.length)).length (by rw [List.length_drop]; omega)
          (b := b ++ left.take (cap - b.length)) (cap := cap) (left := left.drop (cap - b.length)) (by omega) rfl
        rwa [List.append_assoc, List.take_append_drop] at this

/-- **C105** So an embedded file is always loaded, from its whole content. -/
theorem C105_embedded {α : Type} (c : Cfg α) (tr : Translation α) (stat : Option Str) (file : Str) (o : Option (Bool × Translation α)) :
    LoadFile c tr stat EmbedRead file o ↔ o = some (tr.loadFile c { stat := stat, content := some file }) := by
  constructor
  · intro h
    rcases C105_load c tr stat EmbedRead id C105_embed.1 file o h with h | ⟨-, b, e, s', h⟩
    · exact h
    · exact absurd rfl (Loop.noErrors C105_embed.2 h)
  · rintro rfl
    exact C105_opened c tr stat EmbedRead file _ ⟨rfl, file, none, [], Loop.embedded (by decide), rfl⟩

theorem Loop.bytes {o : All FileErr} {s' : Str} (j : Nat) {b : Str} {cap : Nat} {left : Str} (hb : b.length < cap)
    (h : ∀ cap', (b ++ left.take j).length < cap' → Loop FileRead (b ++ left.take j) cap' (left.drop j) o s') :
    Loop FileRead b cap left o s' := by
  induction j generalizing b cap left with
  | zero => simpa using h cap (by simpa using hb)
  | succ j ih =>
    cases left with
    | nil => simpa using h cap (by simpa using hb)
    | cons x left =>
      have hs : Sys (x :: left) (cap - b.length) (1 : Nat) none ([x] ++ List.replicate (cap - b.length - 1) 0) left :=
        Sys.took 1 (List.replicate (cap - b.length - 1) 0) (by omega) (by simp) (by omega) (by simp; omega)
      have hr : FileRead (x :: left) (cap - b.length) (.done (1 : Nat) ([x] ++ List.replicate (cap - b.length - 1) 0 ++ []) none) left :=
        FileRead.read (stream := false) [] (by omega) (FdLoop.ok (.returned hs (by decide))) (by simp; omega)
      rw [List.append_nil] at hr
      have he : extend b ([x] ++ List.replicate (cap - b.length - 1) 0) (1 : Nat) = b ++ [x] := extend_piece b [x] _
      have hi : InRange b cap (1 : Nat) := ⟨by omega, by omega⟩
      have next : ∀ cap', (b ++ [x]).length < cap' → Loop FileRead (b ++ [x]) cap' left o s' := fun cap' hc =>
        ih hc (by simpa using h)
      by_cases hf : (b ++ [x]).length = cap
      · refine .full hr hi (by rw [he]; exact hf) (Nat.lt_succ_self cap) ?_
        rw [he]
        exact next _ (by omega)
      · refine .more hr hi (by rw [he]; exact hf) ?_
        rw [he]
        exact next _ (by rw [List.length_append, List.length_singleton] at hf ⊢; omega)

/-- **C105** Every file can be read, and reading it can break off with an error after every beginning of it. -/
theorem C105_possible (file : Str) : (∃ s', ReadAll FileRead file (.returned file none) s') ∧
    ∀ b, b <+: file → ∀ no, ∃ s', ReadAll FileRead file (.returned b (some (.errno (.other no)))) s' := by
  refine ⟨⟨[], ?_⟩, ?_⟩
  · refine Loop.bytes file.length (by decide) ?_
    intro cap' hc
    rw [List.take_length, List.nil_append] at hc ⊢
    rw [List.drop_length]
    have hs : Sys [] (cap' - file.length) (0 : Nat) none ([] ++ List.replicate (cap' - file.length) 0) [] :=
      Sys.took 0 (List.replicate (cap' - file.length) 0) (by omega) (by simp) (by simp) (by simp)
    have hr := FileRead.read (stream := false) [] (by omega) (FdLoop.ok (.returned hs (by decide))) (by simp)
    have := Loop.eof (b := file) (cap := cap') hr ⟨by omega, by omega⟩
    rwa [List.append_nil, show extend file ([] ++ List.replicate (cap' - file.length) 0) (0 : Nat) = file ++ [] from extend_piece file [] _,
      List.append_nil] at this
  · rintro b ⟨t, rfl⟩ no
    refine ⟨t, Loop.bytes b.length (by decide) ?_⟩
    intro cap' hc
    rw [List.take_left' rfl, List.nil_append] at hc ⊢
    rw [List.drop_left' rfl]
    have hs : Sys t (cap' - b.length) (-1) (some (.other no)) (List.replicate (cap' - b.length) 0) t :=
      Sys.failed (.other no) _ (by simp)
    have hr := FileRead.read (stream := false) [] (by omega) (FdLoop.error (.returned hs (by simp))) (by simp)
    have := Loop.error (b := b) (cap := cap') hr ⟨by omega, by omega⟩
    rwa [List.append_nil, show extend b (List.replicate (cap' - b.length) 0) 0 = b ++ [] from extend_piece b [] _,
      List.append_nil] at this

/-- **C105** The extraction parses the whole template file, or reports that it cannot be read. -/
theorem C105_template (file : Str) (o : All FileErr) (h : ReadFile file o) :
    o = .returned file none ∨ ∃ b e, o = .returned b (some e) ∧ b <+: file := by
  obtain ⟨cap, left', hc, h⟩ := h
  obtain ⟨a, e, ho, hc, he⟩ := h.whole C105_file (Nat.zero_le _)
  cases e with
  | none =>
    refine .inl ?_
    rw [ho, show file = a ++ left' from hc, show left' = [] from he rfl, List.append_nil]
    rfl
  | some e => exact .inr ⟨_, e, ho, ⟨_, hc.symm⟩⟩

/-- **C105** A PO file that was saved on a disk without an error and is loaded from there without an error gives the translations that were
saved, whatever the system did in between to the calls. -/
theorem C105_saved {α : Type} (c : Cfg α) (tr tr' : Translation α) (P : Nat → Bool) (h10 : P 10 = false) (h13 : P 13 = false)
    (f : Tr.File) (hf : Tr.Consistent f) (hne : f.entries ≠ []) (hgood : ∀ p ∈ f.entries, Tr.GoodEntry p.2) (disk name : Str)
    (hname : GoStr.hasSuffix name b!".po" = true) (hs : Write.SaveAsPo P f Write.FileWrite [] (.returned none) disk)
    (hl : LoadFile c tr (some name) FileRead disk (some (true, tr'))) :
    ∃ g, (∀ k, g.entries.get? k = f.entries.get? k) ∧ tr' = (tr.addOrReplace c (fileTor c g)).2 := by
  obtain ⟨g, hg, hk⟩ := Write.C104_po Write.FileWrite id Write.C104_file P h10 h13 f hf hne hgood [] disk rfl hs
  refine ⟨g, hk, ?_⟩
  rcases C105_load c tr (some name) FileRead id C105_file disk _ hl with h | ⟨h, -⟩
  · have : tr.loadFile c { stat := some name, content := some disk } = tr.loadPo c disk := by
      simp [Translation.loadFile, show GoStr.hasSuffix name extPo = true from hname]
    rw [id, this, Translation.loadPo, show Tr.readPo disk = .ok g from hg] at h
    simpa using h
  · cases h

/-- A directory entry that was read in pieces, and one that broke off in the middle. -/
example : IsOpened (some b!"a.po") FileRead b!"msgid \"a\"\nmsgstr \"b\"\n"
    { stat := some b!"a.po", content := some b!"msgid \"a\"\nmsgstr \"b\"\n" } :=
  let ⟨s', h⟩ := (C105_possible b!"msgid \"a\"\nmsgstr \"b\"\n").1
  ⟨rfl, _, none, s', h, rfl⟩

example : IsOpened (some b!"a.po") FileRead b!"msgid \"a\"\nmsgstr \"b\"\n" { stat := some b!"a.po", content := none } :=
  let ⟨s', h⟩ := (C105_possible b!"msgid \"a\"\nmsgstr \"b\"\n").2 b!"msgid \"a\"\n" (by decide) 5
  ⟨rfl, b!"msgid \"a\"\n", some _, s', h, rfl⟩

/-- A reader that announces more bytes than the buffer has room for makes `io.ReadAll` panic: the demands are needed. -/
example : ReadAll (fun (_ : Unit) k (o : Got Unit) _ => o = .done (k + 1) (List.replicate k 0) none) () .panicked () :=
  .range rfl (by unfold InRange; decide)

end Verif.Read
