import Verif.Spec.Serve
import Verif.Lemmas.WorldOps
/-! # Goroutines that use Translations values: what each of them owns -/
namespace Verif.Serve
open Verif Verif.W
variable {α : Type}

/-- The objects that were there at the start. -/
structure Base where
  tss : Nat
  maps : Nat

/-- The objects a goroutine has made. -/
structure Owns where
  tss : List Nat
  maps : List Nat

def Readable (b : Base) (o : Owns) (w : World α) : Loc → Prop
  | .locale i | .domain i | .domains i | .src i => i < b.tss ∨ i ∈ o.tss
  | .map r => r < b.maps ∨ r ∈ o.maps
  | .tr p => p < w.trs.length
  | .glob => True

def Writable (o : Owns) : Loc → Prop
  | .locale i | .domain i | .domains i | .src i => i ∈ o.tss
  | .map r => r ∈ o.maps
  | _ => False

/-- The two heaps are the same to the goroutine. -/
structure Agree (b : Base) (o : Owns) (w w2 : World α) : Prop where
  tss : ∀ i, (i < b.tss ∨ i ∈ o.tss) → w2.ts i = w.ts i
  maps : ∀ r, (r < b.maps ∨ r ∈ o.maps) → w2.mapAt r = w.mapAt r
  trs : ∀ p, p < w.trs.length → w2.tr p = w.tr p
  tssLen : w.tss.length ≤ w2.tss.length
  mapsLen : w.maps.length ≤ w2.maps.length
  trsLen : w.trs.length ≤ w2.trs.length
  glob : w2.glob = w.glob

theorem Agree.refl (b : Base) (o : Owns) (w : World α) : Agree b o w w :=
  ⟨fun _ _ => rfl, fun _ _ => rfl, fun _ _ => rfl, Nat.le_refl _, Nat.le_refl _, Nat.le_refl _, rfl⟩

theorem Agree.trans {b : Base} {o : Owns} {w w2 w3 : World α} (h : Agree b o w w2) (h' : Agree b o w2 w3) :
    Agree b o w w3 :=
  ⟨fun i hi => (h'.tss i hi).trans (h.tss i hi), fun r hr => (h'.maps r hr).trans (h.maps r hr),
    fun p hp => (h'.trs p (Nat.lt_of_lt_of_le hp h.trsLen)).trans (h.trs p hp), Nat.le_trans h.tssLen h'.tssLen,
    Nat.le_trans h.mapsLen h'.mapsLen, Nat.le_trans h.trsLen h'.trsLen, h'.glob.trans h.glob⟩

/-- The goroutine's objects exist and are not of the start. -/
structure InW (b : Base) (o : Owns) (w : World α) : Prop where
  baseTss : b.tss ≤ w.tss.length
  baseMaps : b.maps ≤ w.maps.length
  tss : ∀ i ∈ o.tss, b.tss ≤ i ∧ i < w.tss.length
  maps : ∀ r ∈ o.maps, b.maps ≤ r ∧ r < w.maps.length

theorem InW.agree {b : Base} {o o' : Owns} {w w2 : World α} (h : InW b o w) (ha : Agree b o' w w2) : InW b o w2 :=
  ⟨Nat.le_trans h.baseTss ha.tssLen, Nat.le_trans h.baseMaps ha.mapsLen,
    fun i hi => ⟨(h.tss i hi).1, Nat.lt_of_lt_of_le (h.tss i hi).2 ha.tssLen⟩,
    fun i hi => ⟨(h.maps i hi).1, Nat.lt_of_lt_of_le (h.maps i hi).2 ha.mapsLen⟩⟩

def Owns.addTs (o : Owns) (i : Nat) : Owns := ⟨i :: o.tss, o.maps⟩
def Owns.addMap (o : Owns) (r : Nat) : Owns := ⟨o.tss, r :: o.maps⟩

abbrev Post (α : Type) := Owns → World α → Option Nat → Answer → Prop

/-- Whatever the others do, what is left of the call accesses only what it may, and ends as said. -/
def Safe (b : Base) (Q : Post α) : Prog α → Owns → World α → Prop
  | .ret made a, o, w => Q o w made a
  | .load l k, o, w => Readable b o w l ∧ Safe b Q (k (load w l)) o w
  | .store l v k, o, w => Writable o l ∧ Safe b Q k o (store w l v)
  | .newMap m k, o, w => ∀ w2, Agree b o w w2 →
      Safe b Q (k w2.maps.length) (o.addMap w2.maps.length) { w2 with maps := w2.maps ++ [m] }
  | .newTs t k, o, w => ∀ w2, Agree b o w w2 →
      Safe b Q (k w2.tss.length) (o.addTs w2.tss.length) { w2 with tss := w2.tss ++ [t] }
  | .newTr t k, o, w => ∀ w2, Agree b o w w2 →
      Safe b Q (k w2.trs.length) o { w2 with trs := w2.trs ++ [t] }

/-- It does not matter what others do to their own objects. -/
def Stable (b : Base) (Q : Post α) : Prop :=
  ∀ o w w2 made a, Agree b o w w2 → Q o w made a → Q o w2 made a

theorem load_agree {b : Base} {o : Owns} {w w2 : World α} (h : Agree b o w w2) (l : Loc) (hl : Readable b o w l) :
    load w2 l = load w l := by
  cases l <;> simp only [load, Readable] at *
  case locale i => rw [h.tss i hl]
  case domain i => rw [h.tss i hl]
  case domains i => rw [h.tss i hl]
  case src i => rw [h.tss i hl]
  case map r => rw [h.maps r hl]
  case tr p => rw [h.trs p hl]
  case glob => rw [h.glob]

theorem readable_agree {b : Base} {o : Owns} {w w2 : World α} (h : Agree b o w w2) (l : Loc) (hl : Readable b o w l) :
    Readable b o w2 l := by
  cases l <;> simp only [Readable] at * <;> first | exact hl | exact Nat.lt_of_lt_of_le hl h.trsLen

@[simp] theorem ts_maps (w : World α) (ms : List (GMap Nat)) (i : Nat) : ({ w with maps := ms } : World α).ts i = w.ts i := rfl
@[simp] theorem ts_trs (w : World α) (ms : List (Translation α)) (i : Nat) : ({ w with trs := ms } : World α).ts i = w.ts i := rfl
@[simp] theorem mapAt_tss (w : World α) (ms : List Translations) (r : Nat) : ({ w with tss := ms } : World α).mapAt r = w.mapAt r := rfl
@[simp] theorem mapAt_trs (w : World α) (ms : List (Translation α)) (r : Nat) : ({ w with trs := ms } : World α).mapAt r = w.mapAt r := rfl
@[simp] theorem tr_tss (w : World α) (ms : List Translations) (r : Nat) : ({ w with tss := ms } : World α).tr r = w.tr r := rfl
@[simp] theorem tr_maps (w : World α) (ms : List (GMap Nat)) (r : Nat) : ({ w with maps := ms } : World α).tr r = w.tr r := rfl
@[simp] theorem mapAt_setTs (w : World α) (i : Nat) (t : Translations) (r : Nat) : (w.setTs i t).mapAt r = w.mapAt r := rfl
@[simp] theorem tr_setTs (w : World α) (i : Nat) (t : Translations) (r : Nat) : (w.setTs i t).tr r = w.tr r := rfl
@[simp] theorem glob_setTs (w : World α) (i : Nat) (t : Translations) : (w.setTs i t).glob = w.glob := rfl
@[simp] theorem trs_setTs (w : World α) (i : Nat) (t : Translations) : (w.setTs i t).trs = w.trs := rfl
@[simp] theorem maps_setTs (w : World α) (i : Nat) (t : Translations) : (w.setTs i t).maps = w.maps := rfl
@[simp] theorem tssLen_setTs (w : World α) (i : Nat) (t : Translations) : (w.setTs i t).tss.length = w.tss.length := by
  simp [World.setTs]

theorem mapAt_set (w : World α) (r : Nat) (m : GMap Nat) (q : Nat) : ({ w with maps := w.maps.set r m } : World α).mapAt q =
    if q = r ∧ r < w.maps.length then m else w.mapAt q := getD_set _ _ _ _ _

theorem mapAt_snoc (w : World α) (m : GMap Nat) (q : Nat) : ({ w with maps := w.maps ++ [m] } : World α).mapAt q =
    if q = w.maps.length then m else w.mapAt q := getD_snoc_or _ _ _ _

theorem ts_snoc (w : World α) (t : Translations) (q : Nat) : ({ w with tss := w.tss ++ [t] } : World α).ts q =
    if q = w.tss.length then t else w.ts q := getD_snoc_or _ _ _ _

/-! ## What a step does to the others -/

theorem store_inW {b : Base} {o : Owns} {w : World α} (h : InW b o w) (l : Loc) (v : Val α) : InW b o (store w l v) := by
  obtain ⟨h1, h2, h3, h4⟩ := h
  cases l <;> cases v <;> simp only [store] <;> first
    | exact ⟨h1, h2, h3, h4⟩
    | exact ⟨by simpa using h1, h2, by simpa using h3, h4⟩
    | exact ⟨h1, by simpa using h2, h3, by simpa using h4⟩

theorem agree_setTs {b : Base} {o : Owns} {w w2 : World α} (hin : InW b o w) (h : Agree b o w w2) (i : Nat)
    (hi : i ∈ o.tss) (f : Translations → Translations) : Agree b o (w.setTs i (f (w.ts i))) (w2.setTs i (f (w2.ts i))) := by
  refine ⟨fun j hj => ?_, fun r hr => by simpa using h.maps r hr, fun p hp => by simpa using h.trs p hp,
    by simpa using h.tssLen, by simpa using h.mapsLen, by simpa using h.trsLen, by simpa using h.glob⟩
  have h1 := (hin.tss i hi).2
  have h2 := Nat.lt_of_lt_of_le h1 h.tssLen
  rw [ts_setTs, ts_setTs, h.tss i (Or.inr hi), h.tss j hj]
  simp only [h1, h2]

theorem store_agree {b : Base} {o : Owns} {w w2 : World α} (hin : InW b o w) (h : Agree b o w w2) (l : Loc)
    (hl : Writable o l) (v : Val α) : Agree b o (store w l v) (store w2 l v) := by
  cases l <;> simp only [Writable] at hl <;> cases v <;> simp only [store] <;> first
    | exact h
    | skip
  case locale.str i s => exact agree_setTs hin h i hl fun t => { t with locale := s }
  case domain.str i s => exact agree_setTs hin h i hl fun t => { t with domain := s }
  case domains.addr i s => exact agree_setTs hin h i hl fun t => { t with domains := s }
  case src.str i s => exact agree_setTs hin h i hl fun t => { t with src := s }
  case map.map r m =>
    refine ⟨fun i hi => h.tss i hi, fun q hq => ?_, fun p hp => h.trs p hp, h.tssLen, by simpa using h.mapsLen,
      h.trsLen, h.glob⟩
    have h1 := (hin.maps r hl).2
    have h2 := Nat.lt_of_lt_of_le h1 h.mapsLen
    rw [mapAt_set, mapAt_set, h.maps q hq]
    simp only [h1, h2]

/-- The goroutines have no object in common. -/
structure Apart (o o' : Owns) : Prop where
  tss : ∀ i ∈ o.tss, i ∉ o'.tss
  maps : ∀ r ∈ o.maps, r ∉ o'.maps

theorem Apart.symm {o o' : Owns} (h : Apart o o') : Apart o' o :=
  ⟨fun i hi hi' => h.tss i hi' hi, fun i hi hi' => h.maps i hi' hi⟩

theorem agree_setTs_other {b : Base} {o o' : Owns} {w : World α} (hin : InW b o w) (ha : Apart o o') (i : Nat)
    (hi : i ∈ o.tss) (t : Translations) : Agree b o' w (w.setTs i t) := by
  refine ⟨fun j hj => ?_, fun r hr => rfl, fun p hp => rfl, by simp, by simp, by simp, rfl⟩
  rw [ts_setTs, if_neg]
  rintro ⟨rfl, _⟩
  rcases hj with hj | hj
  · exact absurd (hin.tss j hi).1 (by omega)
  · exact ha.tss j hi hj

theorem store_other {b : Base} {o o' : Owns} {w : World α} (hin : InW b o w) (ha : Apart o o') (l : Loc)
    (hl : Writable o l) (v : Val α) : Agree b o' w (store w l v) := by
  cases l <;> simp only [Writable] at hl <;> cases v <;> simp only [store] <;> first
    | exact Agree.refl _ _ _
    | exact agree_setTs_other hin ha _ hl _
    | skip
  case map.map r m =>
    refine ⟨fun i hi => rfl, fun q hq => ?_, fun p hp => rfl, Nat.le_refl _, by simp, Nat.le_refl _, rfl⟩
    rw [mapAt_set, if_neg]
    rintro ⟨rfl, _⟩
    rcases hq with hq | hq
    · exact absurd (hin.maps q hl).1 (by omega)
    · exact ha.maps q hl hq

theorem newMap_agree {b : Base} {o : Owns} {w : World α} (hin : InW b o w) (m : GMap Nat) :
    Agree b o w { w with maps := w.maps ++ [m] } := by
  refine ⟨fun i hi => rfl, fun q hq => ?_, fun p hp => rfl, Nat.le_refl _, by simp, Nat.le_refl _, rfl⟩
  rw [mapAt_snoc, if_neg]
  rintro rfl
  rcases hq with hq | hq
  · exact absurd hin.baseMaps (by omega)
  · exact absurd (hin.maps _ hq).2 (by omega)

theorem newTs_agree {b : Base} {o : Owns} {w : World α} (hin : InW b o w) (t : Translations) :
    Agree b o w { w with tss := w.tss ++ [t] } := by
  refine ⟨fun q hq => ?_, fun i hi => rfl, fun p hp => rfl, by simp, Nat.le_refl _, Nat.le_refl _, rfl⟩
  rw [ts_snoc, if_neg]
  rintro rfl
  rcases hq with hq | hq
  · exact absurd hin.baseTss (by omega)
  · exact absurd (hin.tss _ hq).2 (by omega)

theorem newTr_agree {b : Base} {o : Owns} {w : World α} (t : Translation α) :
    Agree b o w { w with trs := w.trs ++ [t] } :=
  ⟨fun i hi => rfl, fun i hi => rfl, fun p hp => tr_snoc w t p hp, Nat.le_refl _, Nat.le_refl _, by simp, rfl⟩

theorem newMap_inW {b : Base} {o : Owns} {w : World α} (hin : InW b o w) (m : GMap Nat) :
    InW b (o.addMap w.maps.length) { w with maps := w.maps ++ [m] } := by
  obtain ⟨h1, h2, h3, h4⟩ := hin
  refine ⟨h1, ?_, h3, ?_⟩
  · simp only [List.length_append]; omega
  · intro r hr
    simp only [Owns.addMap, List.mem_cons] at hr
    simp only [List.length_append, List.length_singleton]
    rcases hr with rfl | hr
    · omega
    · have := h4 r hr; omega

theorem newTs_inW {b : Base} {o : Owns} {w : World α} (hin : InW b o w) (t : Translations) :
    InW b (o.addTs w.tss.length) { w with tss := w.tss ++ [t] } := by
  obtain ⟨h1, h2, h3, h4⟩ := hin
  refine ⟨?_, h2, ?_, h4⟩
  · simp only [List.length_append]; omega
  · intro r hr
    simp only [Owns.addTs, List.mem_cons] at hr
    simp only [List.length_append, List.length_singleton]
    rcases hr with rfl | hr
    · omega
    · have := h3 r hr; omega

/-- What the others do does not matter for what is left of the call. -/
theorem safe_agree {b : Base} {Q : Post α} (hQ : Stable b Q) : ∀ (p : Prog α) (o : Owns) (w w2 : World α), InW b o w →
    Agree b o w w2 → Safe b Q p o w → Safe b Q p o w2
  | .ret _ _, o, w, w2, _, ha, h => hQ o w w2 _ _ ha h
  | .load l k, o, w, w2, hin, ha, h => by
    refine ⟨readable_agree ha l h.1, ?_⟩
    rw [load_agree ha l h.1]
    exact safe_agree hQ _ o w w2 hin ha h.2
  | .store l v k, o, w, w2, hin, ha, h =>
    ⟨h.1, safe_agree hQ k o _ _ (store_inW hin l v) (store_agree hin ha l h.1 v) h.2⟩
  | .newMap _ _, _, _, _, _, ha, h => fun w3 h3 => h w3 (ha.trans h3)
  | .newTs _ _, _, _, _, _, ha, h => fun w3 h3 => h w3 (ha.trans h3)
  | .newTr _ _, _, _, _, _, ha, h => fun w3 h3 => h w3 (ha.trans h3)

/-! ## Objects and values -/

/-- The object has the value. -/
structure Obj (b : Base) (o : Owns) (w : World α) (i : Nat) (v : Value α) : Prop where
  read : i < b.tss ∨ i ∈ o.tss
  map : (w.ts i).domains < b.maps ∨ (w.ts i).domains ∈ o.maps
  keys : (w.mapAt (w.ts i).domains).keys.Nodup
  ptr : ∀ d p, (w.mapAt (w.ts i).domains).get? d = some p → p < w.trs.length
  locale : (w.ts i).locale = v.locale
  domain : (w.ts i).domain = v.domain
  src : (w.ts i).src = v.src
  doms : ∀ d, ((w.mapAt (w.ts i).domains).get? d).map w.tr = v.doms d

theorem Obj.agree {b : Base} {o : Owns} {w w2 : World α} {i : Nat} {v : Value α} (h : Obj b o w i v)
    (ha : Agree b o w w2) : Obj b o w2 i v := by
  have e := ha.tss i h.read
  have em := ha.maps _ h.map
  refine ⟨h.read, by rw [e]; exact h.map, by rw [e, em]; exact h.keys, ?_, by rw [e]; exact h.locale,
    by rw [e]; exact h.domain, by rw [e]; exact h.src, ?_⟩
  · rw [e, em]
    exact fun d p hp => Nat.lt_of_lt_of_le (h.ptr d p hp) ha.trsLen
  · intro d
    rw [e, em, ← h.doms d]
    cases hp : (w.mapAt (w.ts i).domains).get? d with
    | none => rfl
    | some p => simp [ha.trs p (h.ptr d p hp)]

/-- The goroutine has more objects than before. -/
structure Sub (o o2 : Owns) : Prop where
  tss : ∀ i ∈ o.tss, i ∈ o2.tss
  maps : ∀ i ∈ o.maps, i ∈ o2.maps

theorem Obj.sub {b : Base} {o o2 : Owns} {w : World α} {i : Nat} {v : Value α} (h : Obj b o w i v)
    (hs : Sub o o2) : Obj b o2 w i v :=
  { h with read := h.read.imp_right (hs.tss _), map := h.map.imp_right (hs.maps _) }

/-- Between the two moments the goroutine has only made new objects. -/
structure Ext (b : Base) (o : Owns) (w : World α) (o2 : Owns) (w2 : World α) : Prop where
  agree : Agree b o w w2
  sub : Sub o o2
  inW : InW b o2 w2

/-- It has made the object `i`, which has the value. -/
structure New (b : Base) (o : Owns) (w : World α) (o2 : Owns) (w2 : World α) (i : Nat) (v : Value α) : Prop where
  ext : Ext b o w o2 w2
  fresh : i ∉ o.tss
  freshMap : (w2.ts i).domains ∉ o.maps
  own : i ∈ o2.tss
  ownMap : (w2.ts i).domains ∈ o2.maps
  obj : Obj b o2 w2 i v

theorem Ext.trans {b : Base} {o o2 o3 : Owns} {w w2 w3 : World α} (h : Ext b o w o2 w2) (h' : Ext b o2 w2 o3 w3) :
    Ext b o w o3 w3 := by
  refine ⟨h.agree.trans ?_, ⟨fun i hi => h'.sub.tss i (h.sub.tss i hi), fun i hi => h'.sub.maps i (h.sub.maps i hi)⟩, h'.inW⟩
  exact ⟨fun i hi => h'.agree.tss i (hi.imp_right (h.sub.tss i)), fun i hi => h'.agree.maps i (hi.imp_right (h.sub.maps i)),
    h'.agree.trs, h'.agree.tssLen, h'.agree.mapsLen, h'.agree.trsLen, h'.agree.glob⟩

theorem New.trans {b : Base} {o o2 o3 : Owns} {w w2 w3 : World α} {i : Nat} {v : Value α} (h : Ext b o w o2 w2)
    (h' : New b o2 w2 o3 w3 i v) : New b o w o3 w3 i v :=
  ⟨h.trans h'.ext, fun hi => h'.fresh (h.sub.tss i hi), fun hi => h'.freshMap (h.sub.maps _ hi), h'.own, h'.ownMap, h'.obj⟩

/-- Changing fields of the new object. -/
theorem New.setTs {b : Base} {o o2 : Owns} {w w2 : World α} {i : Nat} {v : Value α} (h : New b o w o2 w2 i v)
    (lo dom src : Str) : New b o w o2 (w2.setTs i { locale := lo, domain := dom, domains := (w2.ts i).domains, src := src }) i
      { locale := lo, domain := dom, src := src, doms := v.doms } := by
  have hlt := (h.ext.inW.tss i h.own).2
  have hb := (h.ext.inW.tss i h.own).1
  have e : (w2.setTs i { locale := lo, domain := dom, domains := (w2.ts i).domains, src := src }).ts i =
      { locale := lo, domain := dom, domains := (w2.ts i).domains, src := src } := by
    rw [ts_setTs, if_pos ⟨rfl, hlt⟩]
  have ho := h.obj
  refine ⟨⟨h.ext.agree.trans ?_, h.ext.sub, ?_⟩, h.fresh, ?_, h.own, ?_, ?_⟩
  · refine ⟨fun j hj => ?_, fun r hr => rfl, fun p hp => rfl, by simp, by simp, by simp, rfl⟩
    rw [ts_setTs, if_neg]
    rintro ⟨rfl, _⟩
    rcases hj with hj | hj
    · omega
    · exact h.fresh hj
  · exact ⟨by simpa using h.ext.inW.baseTss, h.ext.inW.baseMaps, by simpa using h.ext.inW.tss, h.ext.inW.maps⟩
  · rw [e]; exact h.freshMap
  · rw [e]; exact h.ownMap
  · exact ⟨Or.inr h.own, by rw [e]; exact ho.map, by rw [e]; exact ho.keys, by rw [e]; exact ho.ptr, by rw [e], by rw [e],
      by rw [e], by rw [e]; exact ho.doms⟩

/-- Making a map and an object with it. -/
theorem new_alloc {b : Base} {o : Owns} {w w2 w3 : World α} (hin : InW b o w) (m : GMap Nat) (lo dom src : Str)
    (ds : Str → Option (Translation α)) (h2 : Agree b o w w2)
    (h3 : Agree b (o.addMap w2.maps.length) { w2 with maps := w2.maps ++ [m] } w3)
    (hk : m.keys.Nodup) (hp : ∀ d p, m.get? d = some p → p < w.trs.length)
    (hd : ∀ d, (m.get? d).map w.tr = ds d) :
    New b o w ((o.addMap w2.maps.length).addTs w3.tss.length)
      { w3 with tss := w3.tss ++ [{ locale := lo, domain := dom, domains := w2.maps.length, src := src }] } w3.tss.length
      { locale := lo, domain := dom, src := src, doms := ds } := by
  have hin2 := hin.agree h2
  have hin2' := newMap_inW hin2 m
  have hin3 := hin2'.agree h3
  have hin4 := newTs_inW hin3 { locale := lo, domain := dom, domains := w2.maps.length, src := src }
  have e : ({ w3 with tss := w3.tss ++ [{ locale := lo, domain := dom, domains := w2.maps.length, src := src }] } : World α).ts
      w3.tss.length = { locale := lo, domain := dom, domains := w2.maps.length, src := src } := by
    rw [ts_snoc, if_pos rfl]
  have em : w3.mapAt w2.maps.length = m := by
    rw [h3.maps _ (Or.inr (by simp [Owns.addMap])), mapAt_snoc, if_pos rfl]
  have sub1 : Sub o (o.addMap w2.maps.length) := ⟨fun i hi => hi, fun i hi => by simp [Owns.addMap, hi]⟩
  have sub2 : Sub (o.addMap w2.maps.length) ((o.addMap w2.maps.length).addTs w3.tss.length) :=
    ⟨fun i hi => List.mem_cons_of_mem _ hi, fun i hi => hi⟩
  have x1 : Ext b o w (o.addMap w2.maps.length) { w2 with maps := w2.maps ++ [m] } :=
    ⟨h2.trans (newMap_agree hin2 m), sub1, hin2'⟩
  have x2 : Ext b (o.addMap w2.maps.length) { w2 with maps := w2.maps ++ [m] } ((o.addMap w2.maps.length).addTs w3.tss.length)
      { w3 with tss := w3.tss ++ [{ locale := lo, domain := dom, domains := w2.maps.length, src := src }] } :=
    ⟨h3.trans (newTs_agree hin3 _), sub2, hin4⟩
  have x := x1.trans x2
  refine ⟨x, ?_, ?_, by simp [Owns.addTs], ?_, ?_⟩
  · intro hi
    have := (hin.tss _ hi).2
    have := h2.tssLen
    have := h3.tssLen
    simp only at this
    omega
  · rw [e]
    intro hi
    have := (hin.maps _ hi).2
    have := h2.mapsLen
    simp only at *
    omega
  · rw [e]; simp [Owns.addTs, Owns.addMap]
  · refine ⟨Or.inr (by simp [Owns.addTs]), ?_, ?_, ?_, by rw [e], by rw [e], by rw [e], ?_⟩
    · rw [e]; exact Or.inr (by simp [Owns.addTs, Owns.addMap])
    · rw [e]; simp only [mapAt_tss, em]; exact hk
    · rw [e]; simp only [mapAt_tss, em]
      exact fun d p h => Nat.lt_of_lt_of_le (hp d p h) x.agree.trsLen
    · intro d
      rw [e]; simp only [mapAt_tss, em]
      rw [← hd d]
      cases h : m.get? d with
      | none => rfl
      | some p => exact congrArg some (x.agree.trs p (hp d p h))

/-! ## The parts of the calls -/

theorem safe_clone {b : Base} {Q : Post α} {o : Owns} {w : World α} {i : Nat} {v : Value α} {k : Nat → Prog α}
    (hin : InW b o w) (h : Obj b o w i v)
    (hk : ∀ o2 w2 t, New b o w o2 w2 t v → Safe b Q (k t) o2 w2) : Safe b Q (cloneP i k) o w := by
  refine ⟨h.read, h.read, h.read, ?_, h.read, fun w2 h2 w3 h3 => hk _ _ _ ?_⟩
  · exact h.map
  · have := new_alloc hin (copyMap [] (w.mapAt (w.ts i).domains)) (w.ts i).locale (w.ts i).domain (w.ts i).src v.doms h2 h3
      (copy_nodup _) (fun d p hp => h.ptr d p (by rwa [copy_get _ h.keys] at hp)) (fun d => by rw [copy_get _ h.keys]; exact h.doms d)
    rw [h.locale, h.domain, h.src] at this
    simp only [load, Val.toStr]
    rw [h.locale, h.domain, h.src]
    exact this

theorem safe_current {b : Base} {Q : Post α} {o : Owns} {w : World α} {i : Nat} {v : Value α} {noop : Translation α}
    {k : Nat → Prog α} (h : Obj b o w i v) (h0 : 0 < w.trs.length) (hn : w.tr 0 = noop)
    (hk : ∀ p, p < w.trs.length → w.tr p = v.current noop → Safe b Q (k p) o w) : Safe b Q (currentP i k) o w := by
  refine ⟨h.read, h.read, h.map, ?_⟩
  simp only [load, Val.toStr, Val.toAddr, Val.toMap]
  have hd := h.doms v.domain
  rw [h.domain]
  cases hp : (w.mapAt (w.ts i).domains).get? v.domain with
  | none =>
    rw [hp] at hd
    exact hk 0 h0 (by simp only [Value.current, ← hd, hn]; rfl)
  | some p =>
    rw [hp] at hd
    exact hk p (h.ptr _ _ hp) (by simp only [Value.current, ← hd]; rfl)

theorem safe_tor {b : Base} {Q : Post α} {c : Cfg α} {o : Owns} {w : World α} {i : Nat} {v : Value α} {noop : Translation α}
    {k : Tor α → Prog α} (h : Obj b o w i v) (h0 : 0 < w.trs.length) (hn : w.tr 0 = noop)
    (hk : Safe b Q (k ((v.current noop).getOrNoop c v.locale)) o w) : Safe b Q (torP c i k) o w := by
  refine safe_current h h0 hn fun p hp e => ⟨h.read, hp, ?_⟩
  simp only [load, Val.toStr, Val.toTr]
  rw [e, h.locale]
  exact hk

theorem safe_locales {b : Base} {Q : Post α} {c : Cfg α} {o : Owns} {w : World α} {i : Nat} {v : Value α} {noop : Translation α}
    {order sort : List Str → List Str} {k : List Str → Prog α} (h : Obj b o w i v) (h0 : 0 < w.trs.length) (hn : w.tr 0 = noop)
    (hk : Safe b Q (k (sort (v.locales c noop order))) o w) : Safe b Q (localesP c i order sort k) o w := by
  refine safe_current h h0 hn fun p hp e => ⟨hp, h.read, h.read, hp, ?_⟩
  simp only [load, Val.toStr, Val.toTr]
  rw [e, h.src]
  exact hk

/-! ## The values of a goroutine -/

/-- The values the goroutine has made are those it should have made. -/
structure Rel (b : Base) (o : Owns) (w : World α) (regs : List Nat) (s : Known α) : Prop where
  inW : InW b o w
  len : regs.length = s.made.length
  pos : 0 < w.trs.length
  noop : w.tr 0 = s.noop
  globBase : w.glob < b.tss
  globMap : (w.ts w.glob).domains < b.maps
  glob : Obj b o w w.glob s.glob
  own : ∀ k < regs.length, regs.getD k 0 ∈ o.tss ∧ (w.ts (regs.getD k 0)).domains ∈ o.maps
  obj : ∀ k < regs.length, Obj b o w (regs.getD k 0) (s.made.getD k s.glob)
  inj : ∀ j k, j < regs.length → k < regs.length → j ≠ k →
    regs.getD j 0 ≠ regs.getD k 0 ∧ (w.ts (regs.getD j 0)).domains ≠ (w.ts (regs.getD k 0)).domains

theorem Rel.ext {b : Base} {o o2 : Owns} {w w2 : World α} {regs : List Nat} {s : Known α} (h : Rel b o w regs s)
    (x : Ext b o w o2 w2) : Rel b o2 w2 regs s := by
  have hr : ∀ k < regs.length, w2.ts (regs.getD k 0) = w.ts (regs.getD k 0) := fun k hk => x.agree.tss _ (Or.inr (h.own k hk).1)
  refine ⟨x.inW, h.len, Nat.lt_of_lt_of_le h.pos x.agree.trsLen, (x.agree.trs 0 h.pos).trans h.noop,
    by rw [x.agree.glob]; exact h.globBase, ?_, ?_, ?_, ?_, ?_⟩
  · rw [x.agree.glob, x.agree.tss _ (Or.inl h.globBase)]; exact h.globMap
  · rw [x.agree.glob]; exact (h.glob.agree x.agree).sub x.sub
  · intro k hk
    rw [hr k hk]
    exact ⟨x.sub.tss _ (h.own k hk).1, x.sub.maps _ (h.own k hk).2⟩
  · exact fun k hk => ((h.obj k hk).agree x.agree).sub x.sub
  · intro j k hj hk hne
    rw [hr j hj, hr k hk]
    exact h.inj j k hj hk hne

theorem Rel.new {b : Base} {o o2 : Owns} {w w2 : World α} {regs : List Nat} {s : Known α} {t : Nat} {v : Value α}
    (h : Rel b o w regs s) (n : New b o w o2 w2 t v) : Rel b o2 w2 (regs ++ [t]) (s.make v) := by
  have h2 := h.ext n.ext
  have ho : ∀ k < regs.length, w2.ts (regs.getD k 0) = w.ts (regs.getD k 0) := fun k hk =>
    n.ext.agree.tss _ (Or.inr (h.own k hk).1)
  have old : ∀ k < regs.length, (regs ++ [t]).getD k 0 = regs.getD k 0 := fun k hk => getD_append _ _ _ _ hk
  have new : (regs ++ [t]).getD regs.length 0 = t := getD_snoc _ _ _
  have lt : ∀ k < (regs ++ [t]).length, k < regs.length ∨ k = regs.length := fun k hk => by
    simp only [List.length_append, List.length_singleton] at hk; omega
  refine ⟨h2.inW, by simp [Known.make, h.len], h2.pos, h2.noop, h2.globBase, h2.globMap, h2.glob, ?_, ?_, ?_⟩
  · intro k hk
    rcases lt k hk with hk | rfl
    · rw [old k hk]; exact h2.own k hk
    · rw [new]; exact ⟨n.own, n.ownMap⟩
  · intro k hk
    rcases lt k hk with hk | rfl
    · rw [old k hk]
      have e : (s.make v).made.getD k (s.make v).glob = s.made.getD k s.glob := getD_append _ _ _ _ (by rw [← h.len]; exact hk)
      rw [e]
      exact h2.obj k hk
    · have e : (s.make v).made.getD regs.length (s.make v).glob = v := by rw [h.len]; exact getD_snoc _ _ _
      rw [new, e]
      exact n.obj
  · have key : ∀ k < regs.length, regs.getD k 0 ≠ t ∧ (w2.ts (regs.getD k 0)).domains ≠ (w2.ts t).domains := by
      intro k hk
      refine ⟨fun e => n.fresh (e ▸ (h.own k hk).1), fun e => n.freshMap ?_⟩
      rw [← e, ho k hk]
      exact (h.own k hk).2
    intro j k hj hk hne
    rcases lt j hj with hj | rfl <;> rcases lt k hk with hk | rfl
    · rw [old j hj, old k hk]; exact h2.inj j k hj hk hne
    · rw [old j hj, new]; exact key j hj
    · rw [old k hk, new]; exact ⟨Ne.symm (key k hk).1, Ne.symm (key k hk).2⟩
    · exact absurd rfl hne

/-- The objects but one, and but one map. -/
def Owns.without (o : Owns) (i r : Nat) : Owns := ⟨o.tss.filter (· ≠ i), o.maps.filter (· ≠ r)⟩

theorem Rel.change {b : Base} {o o2 : Owns} {w w2 : World α} {regs : List Nat} {s : Known α} (h : Rel b o w regs s)
    {k : Nat} (hk : k < regs.length) (f : Value α → Value α)
    (ha : Agree b (o.without (regs.getD k 0) (w.ts (regs.getD k 0)).domains) w w2) (hs : Sub o o2) (hin : InW b o2 w2)
    (hm : (w2.ts (regs.getD k 0)).domains ∈ o2.maps)
    (hd : ∀ j < regs.length, j ≠ k → (w.ts (regs.getD j 0)).domains ≠ (w2.ts (regs.getD k 0)).domains)
    (ho : Obj b o2 w2 (regs.getD k 0) (f (s.made.getD k s.glob))) : Rel b o2 w2 regs (s.change (.own k) f) := by
  have hr : ∀ j < regs.length, j ≠ k → w2.ts (regs.getD j 0) = w.ts (regs.getD j 0) := fun j hj hne =>
    ha.tss _ (Or.inr (by simp only [Owns.without, List.mem_filter]; exact ⟨(h.own j hj).1, by simpa using (h.inj j k hj hk hne).1⟩))
  have hsub : Sub (o.without (regs.getD k 0) (w.ts (regs.getD k 0)).domains) o2 :=
    ⟨fun i hi => hs.tss i (List.mem_filter.mp hi).1, fun i hi => hs.maps i (List.mem_filter.mp hi).1⟩
  refine ⟨hin, by simp [Known.change, h.len], Nat.lt_of_lt_of_le h.pos ha.trsLen, (ha.trs 0 h.pos).trans h.noop,
    by rw [ha.glob]; exact h.globBase, ?_, ?_, ?_, ?_, ?_⟩
  · rw [ha.glob, ha.tss _ (Or.inl h.globBase)]; exact h.globMap
  · rw [ha.glob]
    have g : Obj b (o.without (regs.getD k 0) (w.ts (regs.getD k 0)).domains) w w.glob s.glob :=
      { h.glob with read := Or.inl h.globBase, map := Or.inl h.globMap }
    exact (g.agree ha).sub hsub
  · intro j hj
    by_cases hjk : j = k
    · subst hjk; exact ⟨hs.tss _ (h.own j hj).1, hm⟩
    · rw [hr j hj hjk]; exact ⟨hs.tss _ (h.own j hj).1, hs.maps _ (h.own j hj).2⟩
  · intro j hj
    have hjm : j < s.made.length := by rw [← h.len]; exact hj
    by_cases hjk : j = k
    · subst hjk
      have e : (s.change (.own j) f).made.getD j (s.change (.own j) f).glob = f (s.made.getD j s.glob) := by
        simp [Known.change, List.getD_eq_getElem?_getD, hjm]
      rw [e]; exact ho
    · have e : (s.change (.own k) f).made.getD j (s.change (.own k) f).glob = s.made.getD j s.glob := by
        simp [Known.change, List.getD_eq_getElem?_getD, Ne.symm hjk]
      rw [e]
      have g : Obj b (o.without (regs.getD k 0) (w.ts (regs.getD k 0)).domains) w (regs.getD j 0) (s.made.getD j s.glob) :=
        { h.obj j hj with
          read := Or.inr (by simp only [Owns.without, List.mem_filter]; exact ⟨(h.own j hj).1, by simpa using (h.inj j k hj hk hjk).1⟩)
          map := Or.inr (by simp only [Owns.without, List.mem_filter]; exact ⟨(h.own j hj).2, by simpa using (h.inj j k hj hk hjk).2⟩) }
      exact (g.agree ha).sub hsub
  · intro i j hi hj hne
    refine ⟨(h.inj i j hi hj hne).1, ?_⟩
    by_cases hik : i = k
    · subst hik
      rw [hr j hj (Ne.symm hne)]
      exact Ne.symm (hd j hj (Ne.symm hne))
    · rw [hr i hi hik]
      by_cases hjk : j = k
      · subst hjk; exact hd i hi hik
      · rw [hr j hj hjk]; exact (h.inj i j hi hj hne).2

/-- Changing fields of an own object. -/
theorem Rel.setTs {b : Base} {o : Owns} {w : World α} {regs : List Nat} {s : Known α} (h : Rel b o w regs s)
    {k : Nat} (hk : k < regs.length) (f : Value α → Value α) (t : Translations)
    (hf : t.locale = (f (s.made.getD k s.glob)).locale ∧ t.domain = (f (s.made.getD k s.glob)).domain ∧
      t.src = (f (s.made.getD k s.glob)).src ∧ (f (s.made.getD k s.glob)).doms = (s.made.getD k s.glob).doms)
    (ht : t.domains = (w.ts (regs.getD k 0)).domains) : Rel b o (w.setTs (regs.getD k 0) t) regs (s.change (.own k) f) := by
  have hown := (h.own k hk).1
  have hlt := (h.inW.tss _ hown).2
  have e : (w.setTs (regs.getD k 0) t).ts (regs.getD k 0) = t := by rw [ts_setTs, if_pos ⟨rfl, hlt⟩]
  have ho := h.obj k hk
  refine h.change hk f ?_ ⟨fun _ hi => hi, fun _ hi => hi⟩ ?_ ?_ ?_ ?_
  · refine ⟨fun j hj => ?_, fun r hr => rfl, fun p hp => rfl, by simp, by simp, by simp, rfl⟩
    rw [ts_setTs, if_neg]
    rintro ⟨rfl, _⟩
    rcases hj with hj | hj
    · have := (h.inW.tss _ hown).1; omega
    · simp [Owns.without] at hj
  · exact ⟨by simpa using h.inW.baseTss, h.inW.baseMaps, by simpa using h.inW.tss, h.inW.maps⟩
  · rw [e, ht]; exact (h.own k hk).2
  · intro j hj hne
    rw [e, ht]; exact (h.inj j k hj hk hne).2
  · refine ⟨Or.inr hown, ?_, ?_, ?_, by rw [e]; exact hf.1, by rw [e]; exact hf.2.1, by rw [e]; exact hf.2.2.1, ?_⟩
    · rw [e, ht]; exact ho.map
    · rw [e, ht]; exact ho.keys
    · rw [e, ht]; exact ho.ptr
    · rw [e, ht, hf.2.2.2]; exact ho.doms

/-- Changing the map of an own object. -/
theorem Rel.setMap {b : Base} {o : Owns} {w : World α} {regs : List Nat} {s : Known α} (h : Rel b o w regs s)
    {k : Nat} (hk : k < regs.length) (f : Value α → Value α) (m : GMap Nat)
    (hf : (f (s.made.getD k s.glob)).locale = (s.made.getD k s.glob).locale ∧
      (f (s.made.getD k s.glob)).domain = (s.made.getD k s.glob).domain ∧
      (f (s.made.getD k s.glob)).src = (s.made.getD k s.glob).src) (hkeys : m.keys.Nodup)
    (hp : ∀ d p, m.get? d = some p → p < w.trs.length)
    (hd : ∀ d, (m.get? d).map w.tr = (f (s.made.getD k s.glob)).doms d) :
    Rel b o { w with maps := w.maps.set (w.ts (regs.getD k 0)).domains m } regs (s.change (.own k) f) := by
  have hown := (h.own k hk).2
  have hlt := (h.inW.maps _ hown).2
  have e : ({ w with maps := w.maps.set (w.ts (regs.getD k 0)).domains m } : World α).mapAt (w.ts (regs.getD k 0)).domains = m := by
    rw [mapAt_set, if_pos ⟨rfl, hlt⟩]
  have ho := h.obj k hk
  refine h.change hk f ?_ ⟨fun _ hi => hi, fun _ hi => hi⟩ ?_ hown ?_ ?_
  · refine ⟨fun j hj => rfl, fun q hq => ?_, fun p hp => rfl, Nat.le_refl _, by simp, Nat.le_refl _, rfl⟩
    rw [mapAt_set, if_neg]
    rintro ⟨rfl, _⟩
    rcases hq with hq | hq
    · have := (h.inW.maps _ hown).1; omega
    · simp [Owns.without] at hq
  · exact ⟨h.inW.baseTss, by simpa using h.inW.baseMaps, h.inW.tss, by simpa using h.inW.maps⟩
  · exact fun j hj hne => (h.inj j k hj hk hne).2
  · refine ⟨ho.read, ho.map, ?_, ?_, ho.locale.trans hf.1.symm, ho.domain.trans hf.2.1.symm, ho.src.trans hf.2.2.symm, ?_⟩
    · simp only [ts_maps, e]; exact hkeys
    · simp only [ts_maps, e]; exact hp
    · simp only [ts_maps, e]; exact hd

end Verif.Serve
