import Verif.Model.Po
/-! # The reader works on the list of unread lines -/
namespace Verif.Tr
open Verif

/-- Result of reading an entry from the unread lines: the last entry and `io.EOF`, an entry and the lines after it, an error
(with a nil entry), or a panic. -/
inductive EntryRes where
  | eof (e : Entry)
  | entry (e : Entry) (rest : List Str)
  | bad (err : Errors.Err)
  | panic

/-- `Reader.readEntry` on the unread lines, from the point where `e` and `st` have been reached. -/
def readEntry : List Str → Entry → PState → EntryRes
  | [], e, _ => .eof e
  | line :: rest, e, st =>
    match step e st line with
    | .cont e st => readEntry rest e st
    | .done => .entry e (line :: rest)
    | .bad err => .bad err
    | .panic => .panic

/-- Once a line was read the state is never the initial one again without progress. -/
theorem readEntry_le (lines : List Str) (e : Entry) (st : PState) (e' : Entry) (rest : List Str)
    (h : readEntry lines e st = .entry e' rest) :
    rest.length ≤ lines.length ∧ (st = .start → rest.length < lines.length) := by
  induction lines generalizing e st with
  | nil => simp [readEntry] at h
  | cons line lines ih =>
    rw [readEntry] at h
    split at h
    · have := ih _ _ h
      simp; omega
    · rename_i hs
      cases h
      refine ⟨Nat.le_refl _, ?_⟩
      rintro rfl
      exact absurd hs (step_start_not_done _ line)
    · cases h
    · cases h

/-- `Reader.readLoop` on the unread lines.  With an error the entry is nil: `AddEntry(nil)`
panics, `isValid` of nil is false. -/
def readLoop (pot : Bool) (lines : List Str) (f : File) : Res File :=
  match _h : readEntry lines {} .start with
  | .eof e => .ok (addRead pot f e)
  | .entry e rest => readLoop pot rest (addRead pot f e)
  | .bad err => if pot then .panic else if Errors.is Errors.eof err then .ok f else .err
  | .panic => .panic
  termination_by lines.length
  decreasing_by exact (readEntry_le _ _ _ _ _ _h).2 rfl

/-- `nextLine` takes the first unread line. -/
theorem nextLine_rest (r : Reader) (h : -1 ≤ r.lineNo) :
    (r.rest = [] ∧ ∃ r', r.nextLine = (.eof, r')) ∨
    (∃ s r', r.rest = s :: r'.rest ∧ r.nextLine = (.line s, r') ∧ 0 ≤ r'.lineNo ∧
      r'.unGetLine.rest = r.rest ∧ -1 ≤ r'.unGetLine.lineNo) := by
  obtain ⟨lines, no⟩ := r
  simp only at h
  have h0 : ¬ no + 1 < 0 := by omega
  by_cases hl : no + 1 ≥ lines.length
  · left
    simp only [Reader.rest, Reader.nextLine, Reader.currentLine, if_neg h0, if_pos hl]
    exact ⟨List.drop_eq_nil_of_le (by omega), _, rfl⟩
  · right
    have hlt : (no + 1).toNat < lines.length := by omega
    refine ⟨lines[(no + 1).toNat], ⟨lines, no + 1⟩, ?_, ?_, by simp only; omega, ?_, ?_⟩
    · simp only [Reader.rest]
      rw [List.drop_eq_getElem_cons hlt]
      congr 2
      omega
    · simp only [Reader.nextLine, Reader.currentLine, if_neg h0, if_neg hl, List.getElem?_eq_getElem hlt]
    · simp only [Reader.rest, Reader.unGetLine, if_neg h0]
      congr 2
      omega
    · simp only [Reader.unGetLine, if_neg h0]
      omega

theorem entry_unfold (r : Reader) (e : Entry) (st : PState) :
    r.readEntry e st = match r.nextLine with
      | (.line line, r) =>
        match step e st line with
        | .cont e st => r.readEntry e st
        | .done => .entry e r.unGetLine
        | .bad err => .bad err
        | .panic => .panic
      | (.eof, _) => .eof e
      | (.err, _) => .bad badRead
      | (.panic, _) => .panic := by
  rw [Reader.readEntry]
  split <;> rename_i h <;> rw [h] <;> rfl

/-- Reading an entry. -/
theorem reader_readEntry (r : Reader) (h : -1 ≤ r.lineNo) (e : Entry) (st : PState) :
    match r.readEntry e st with
    | .eof e' => readEntry r.rest e st = .eof e'
    | .entry e' r' => readEntry r.rest e st = .entry e' r'.rest ∧ -1 ≤ r'.lineNo
    | .bad err => readEntry r.rest e st = .bad err
    | .panic => readEntry r.rest e st = .panic := by
  induction hn : (r.lines.length - r.lineNo).toNat using Nat.strongRecOn generalizing r e st with
  | _ n ih =>
    rcases nextLine_rest r h with ⟨h1, r1, h2⟩ | ⟨s, r1, h1, h2, h3, h4, h5⟩
    · rw [entry_unfold, h1, readEntry, h2]
    · obtain ⟨e1, e2, e3, e4⟩ := Reader.nextLine_line _ _ _ h2
      rw [entry_unfold, h1, readEntry, h2]
      dsimp only
      cases hs : step e st s with
      | cont e' st' =>
        dsimp only
        exact ih _ (by rw [e1]; omega) r1 (by omega) e' st' rfl
      | done => dsimp only; exact ⟨by rw [h4, h1], h5⟩
      | bad err => rfl
      | panic => rfl

theorem readLoop_unfold (pot : Bool) (lines : List Str) (f : File) :
    readLoop pot lines f = match readEntry lines {} .start with
      | .eof e => .ok (addRead pot f e)
      | .entry e rest => readLoop pot rest (addRead pot f e)
      | .bad err => if pot then .panic else if Errors.is Errors.eof err then .ok f else .err
      | .panic => .panic := by
  rw [readLoop]
  split <;> rename_i h <;> rw [h]

theorem reader_unfold (pot : Bool) (r : Reader) (f : File) :
    r.readLoop pot f = match r.readEntry {} .start with
      | .eof e => .ok (addRead pot f e)
      | .entry e r => r.readLoop pot (addRead pot f e)
      | .bad err => if pot then .panic else if Errors.is Errors.eof err then .ok f else .err
      | .panic => .panic := by
  rw [Reader.readLoop]
  split <;> rename_i h <;> rw [h]

/-- The whole loop. -/
theorem reader_readLoop (pot : Bool) (r : Reader) (h : -1 ≤ r.lineNo) (f : File) :
    r.readLoop pot f = readLoop pot r.rest f := by
  induction hn : (r.lines.length - r.lineNo).toNat using Nat.strongRecOn generalizing r f with
  | _ n ih =>
    have key := reader_readEntry r h {} .start
    rw [reader_unfold, readLoop_unfold]
    cases hx : r.readEntry {} .start with
    | eof e => rw [hx] at key; dsimp only at key; rw [key]
    | bad e => rw [hx] at key; dsimp only at key; rw [key]
    | panic => rw [hx] at key; dsimp only at key; rw [key]
    | entry e r' =>
      rw [hx] at key; dsimp only at key; rw [key.1]
      have hd := Reader.readEntry_le _ _ _ _ _ hx
      have hd2 := hd.2.2.2 rfl
      exact ih _ (by rw [hd.1]; omega) _ key.2 _ rfl

theorem newReader_rest (lines : List Str) : (newReader lines).rest = lines := rfl

end Verif.Tr
