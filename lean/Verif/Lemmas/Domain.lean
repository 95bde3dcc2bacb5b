import Verif.Spec.World
import Verif.Lemmas.GMap
/-! # One text domain: adding translators and loading files -/
namespace Verif.W
open Verif
variable {α : Type}

theorem addOrReplace_snd (c : Cfg α) (tr : Translation α) (tor : Tor α) :
    (tr.addOrReplace c tor).2 = if tor.lang = [] then tr else { tr with langs := tr.langs.set (c.norm tor.lang) tor } := by
  unfold Translation.addOrReplace
  split
  · rfl
  · dsimp only
    split <;> rfl

theorem addOrReplace_get (c : Cfg α) (tr : Translation α) (tor : Tor α) (lang : Str) :
    (tr.addOrReplace c tor).2.langs.get? lang =
      if tor.lang ≠ [] ∧ c.norm tor.lang = lang then some tor else tr.langs.get? lang := by
  rw [addOrReplace_snd]
  by_cases h : tor.lang = []
  · simp [h]
  · simp only [if_neg h, GMap.get?_set]
    by_cases h2 : lang = c.norm tor.lang
    · subst h2; simp [h]
    · simp [h2, Ne.symm h2]

/-- Add a list of translators. -/
def addAll (c : Cfg α) (tr : Translation α) (tors : List (Tor α)) : Translation α :=
  tors.foldl (fun tr tor => (tr.addOrReplace c tor).2) tr

theorem addAll_append (c : Cfg α) (tr : Translation α) (a b : List (Tor α)) :
    addAll c tr (a ++ b) = addAll c (addAll c tr a) b := List.foldl_append

theorem addAll_get (c : Cfg α) (tr : Translation α) (tors : List (Tor α)) (lang : Str) :
    (addAll c tr tors).langs.get? lang = (lastFor c lang tors).or (tr.langs.get? lang) := by
  induction tors generalizing tr with
  | nil => simp [addAll, lastFor]
  | cons t tors ih =>
    have : addAll c tr (t :: tors) = addAll c (tr.addOrReplace c t).2 tors := rfl
    rw [this, ih, addOrReplace_get]
    unfold lastFor
    rw [List.filter_cons]
    by_cases h : t.lang ≠ [] ∧ c.norm t.lang = lang
    · rw [if_pos h, if_pos (decide_eq_true h), List.getLast?_cons]
      cases (List.filter (fun t => decide (t.lang ≠ [] ∧ c.norm t.lang = lang)) tors).getLast? <;> simp
    · rw [if_neg h, if_neg (by simpa using h)]

theorem addAll_nodup (c : Cfg α) (tr : Translation α) (tors : List (Tor α)) (h : tr.langs.keys.Nodup) :
    (addAll c tr tors).langs.keys.Nodup := by
  induction tors generalizing tr with
  | nil => exact h
  | cons t tors ih =>
    refine ih (tr.addOrReplace c t).2 ?_
    rw [addOrReplace_snd]
    split
    · exact h
    · exact GMap.nodup_set _ _ _ h

theorem addAll_domain (c : Cfg α) (tr : Translation α) (tors : List (Tor α)) :
    (addAll c tr tors).domain = tr.domain := by
  induction tors generalizing tr with
  | nil => rfl
  | cons t tors ih =>
    have : addAll c tr (t :: tors) = addAll c (tr.addOrReplace c t).2 tors := rfl
    rw [this, ih, addOrReplace_snd]
    split <;> rfl

theorem lastFor_append (c : Cfg α) (lang : Str) (a b : List (Tor α)) :
    lastFor c lang (a ++ b) = (lastFor c lang b).or (lastFor c lang a) := by
  unfold lastFor
  rw [List.filter_append, List.getLast?_append]

/-! ## Loading -/

theorem hasSuffix_eq (s p : Str) : GoStr.hasSuffix s p = decide (p <:+ s) := by
  unfold GoStr.hasSuffix
  by_cases h : p <:+ s
  · rw [decide_eq_true h]; exact List.isSuffixOf_iff_suffix.mpr h
  · rw [decide_eq_false h, Bool.eq_false_iff]; exact fun hc => h (List.isSuffixOf_iff_suffix.mp hc)

theorem addOrReplace_nolang (c : Cfg α) (tr : Translation α) (tor : Tor α) (h : tor.lang = []) :
    (tr.addOrReplace c tor).2 = tr := by rw [addOrReplace_snd, if_pos h]

theorem loadFile_eq (c : Cfg α) (tr : Translation α) (o : Opened) :
    tr.loadFile c o = match contentTor c o with
      | none => (false, tr)
      | some none => (true, tr)
      | some (some t) => (true, (tr.addOrReplace c t).2) := by
  unfold Translation.loadFile contentTor
  obtain ⟨stat, content⟩ := o
  cases stat with
  | none => rfl
  | some name =>
    cases content with
    | none => rfl
    | some content =>
      simp only [hasSuffix_eq, decide_eq_true_eq, extPo, extMo]
      have key : ∀ r : Res Tr.File, (match r with
          | .ok f => (true, (tr.addOrReplace c (fileTor c f)).2)
          | _ => (false, tr)) =
          (match (match some r with
            | none => some none
            | some (.ok f) => some (if f.lang.1 = [] then none else some (fileTor c f))
            | some _ => none : Option (Option (Tor α))) with
          | none => (false, tr)
          | some none => (true, tr)
          | some (some t) => (true, (tr.addOrReplace c t).2)) := by
        intro r
        cases r with
        | ok f =>
          dsimp only
          by_cases h : f.lang.1 = []
          · rw [if_pos h, addOrReplace_nolang c tr (fileTor c f) h]
          · rw [if_neg h]
        | err => rfl
        | panic => rfl
      split
      · exact key _
      · split
        · exact key _
        · rfl

theorem visitFile_eq (c : Cfg α) (ext : Str) (p : Str × Option Opened) (st : Bool × Translation α) :
    visitFile c ext p.1 p.2 st =
      (st.1 || !(loadable c ext [p]).isEmpty, addAll c st.2 ((loadable c ext [p]).filterMap id)) := by
  obtain ⟨name, o⟩ := p
  obtain ⟨b, tr⟩ := st
  unfold visitFile loadable
  simp only [hasSuffix_eq, decide_eq_true_eq, List.filterMap_cons, List.filterMap_nil]
  by_cases h : ext <:+ name
  · rw [if_pos h, if_pos h]
    cases o with
    | none => simp [addAll]
    | some o =>
      simp only [Option.bind_some, loadFile_eq]
      cases contentTor c o with
      | none => simp [addAll]
      | some t =>
        cases t with
        | none => simp [addAll]
        | some t => simp [addAll]
  · rw [if_neg h, if_neg h]
    simp [addAll]

theorem loadable_append (c : Cfg α) (ext : Str) (a b : List (Str × Option Opened)) :
    loadable c ext (a ++ b) = loadable c ext a ++ loadable c ext b := List.filterMap_append

/-- The state after these files. -/
def afterFiles (c : Cfg α) (ext : Str) (files : List (Str × Option Opened)) (st : Bool × Translation α) :
    Bool × Translation α :=
  (st.1 || !(loadable c ext files).isEmpty, addAll c st.2 ((loadable c ext files).filterMap id))

theorem afterFiles_append (c : Cfg α) (ext : Str) (a b : List (Str × Option Opened)) (st : Bool × Translation α) :
    afterFiles c ext (a ++ b) st = afterFiles c ext b (afterFiles c ext a st) := by
  unfold afterFiles
  rw [loadable_append, List.filterMap_append, addAll_append]
  congr 1
  cases loadable c ext a <;> cases loadable c ext b <;> simp

theorem afterFiles_nil (c : Cfg α) (ext : Str) (st : Bool × Translation α) : afterFiles c ext [] st = st := by
  simp [afterFiles, loadable, addAll]

mutual
theorem walkNode_eq (c : Cfg α) (ext : Str) : ∀ (n : Node) (st : Bool × Translation α),
    walkNode c ext n st = (!complete n, afterFiles c ext (filesOf n) st)
  | .file name o, st => by
    rw [walkNode, filesOf, complete]
    exact congrArg _ (visitFile_eq c ext (name, o) st)
  | .dir name readable entries, st => by
    rw [walkNode, filesOf, complete]
    cases readable with
    | false => simp [afterFiles_nil]
    | true => simp [walkList_eq c ext entries st]
theorem walkList_eq (c : Cfg α) (ext : Str) : ∀ (ns : List Node) (st : Bool × Translation α),
    walkList c ext ns st = (!completeList ns, afterFiles c ext (filesOfList ns) st)
  | [], st => by simp [walkList, filesOfList, completeList, afterFiles_nil]
  | n :: ns, st => by
    rw [walkList, filesOfList, completeList, walkNode_eq c ext n st]
    cases h : complete n with
    | false => simp
    | true => simp [walkList_eq c ext ns, afterFiles_append]
end

theorem walkRoot_eq (c : Cfg α) (ext : Str) (root : Option Node) (st : Bool × Translation α) :
    walkRoot c ext root st = afterFiles c ext (filesFrom root) st := by
  cases root with
  | none => rw [walkRoot, filesFrom, afterFiles_nil]
  | some n => simp only [walkRoot, walkNode_eq, filesFrom]

theorem loadFS_eq (c : Cfg α) (tr : Translation α) (root : Option Node) :
    tr.loadFS c root =
      (!(loadable c extMo (filesFrom root)).isEmpty || !(loadable c extPo (filesFrom root)).isEmpty,
       addAll c tr ((loadable c extMo (filesFrom root)).filterMap id ++ (loadable c extPo (filesFrom root)).filterMap id)) := by
  unfold Translation.loadFS
  rw [walkRoot_eq, walkRoot_eq]
  simp only [afterFiles, addAll_append, Bool.false_or]

end Verif.W
