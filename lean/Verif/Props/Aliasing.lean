import Verif.Model.Aliasing
import Verif.Props.TimeSeries

/-! # In-place operations and shared arrays: properties C98, C99 -/

namespace Verif.Props

open Verif.Model Verif.Spec

/-- References in the heap are valid. -/
def HeapOK (h : Heap) : Prop :=
  (∀ o ∈ h.world.objs, o.data < h.world.arrays.length ∧ o.metadata < h.world.metas.length) ∧
  (∀ a ∈ h.notFloat32, a < h.world.arrays.length) ∧ ∀ a ∈ h.readOnly, a < h.world.arrays.length

/-! ## C98 -/

theorem tsNew_exists {w : World} {x : List ℝ} {tsamp : ℝ} {items : PyDict String MVal} (h : ∃ md, metadataCopy items = .ok md) :
    ∃ r, tsNew w x tsamp items = .ok r := by
  obtain ⟨md, h⟩ := h
  simp [tsNew, World.newArray, tsInit, h, Except.bind]

/-- The values computed by an operation: data and sampling time. -/
noncomputable def opValues (x : List ℝ) (tsamp : ℝ) : SeriesOp → Except PyErr (List ℝ × ℝ)
  | .normalise => .ok (normalised x, tsamp)
  | .deredden width minpts => (runningMedianOf x tsamp width minpts).map fun rmed => (subtractArrays x rmed, tsamp)
  | .downsample factor => (liftCall (downsampleBinding x factor)).map fun y => (y, factor * tsamp)

theorem call_new (h : Heap) (id : ℕ) (op : SeriesOp) (o : TsObj) (ho : h.world.objs[id]? = some o) :
    heapCall h id op false = (opValues (h.world.dataOf o) o.tsamp op).bind fun v =>
      (tsNew h.world v.1 v.2 (h.world.metaOf o)).map fun r => ({ h with world := r.1 }, some r.2) := by
  have ho' := obj_ok_iff.mpr ho
  cases op with
  | normalise =>
    simp only [heapCall, tsNormalise, ho', Except.bind, opValues, Bool.false_eq_true, if_false]
    cases tsNew h.world (normalised (h.world.dataOf o)) o.tsamp (h.world.metaOf o) <;> rfl
  | deredden width minpts =>
    simp only [heapCall, tsDeredden, ho', Except.bind, opValues, Bool.false_eq_true, if_false, false_and]
    cases runningMedianOf (h.world.dataOf o) o.tsamp width minpts with
    | error e => rfl
    | ok rmed =>
      simp only [Except.map]
      cases tsNew h.world (subtractArrays (h.world.dataOf o) rmed) o.tsamp (h.world.metaOf o) <;> rfl
  | downsample factor =>
    simp only [heapCall, tsDownsample, ho', Except.bind, opValues, Bool.false_eq_true, if_false]
    cases liftCall (downsampleBinding (h.world.dataOf o) factor) with
    | error e => rfl
    | ok y =>
      simp only [Except.map]
      cases tsNew h.world y (factor * o.tsamp) (h.world.metaOf o) <;> rfl

/-- The array of a series after an in-place operation, and the other arrays. -/
noncomputable def inPlaceWorld (w : World) (id : ℕ) (o : TsObj) (op : SeriesOp) (v : List ℝ × ℝ) : World :=
  match op with
  | .deredden _ _ => { w with arrays := w.arrays.set o.data v.1 }
  | _ => w.rebindData id o v.1 v.2

theorem call_inplace (h : Heap) (id : ℕ) (op : SeriesOp) (o : TsObj) (ho : h.world.objs[id]? = some o)
    (hw : o.data ∉ h.readOnly) :
    heapCall h id op true = (opValues (h.world.dataOf o) o.tsamp op).map fun v =>
      ({ h with world := inPlaceWorld h.world id o op v }, none) := by
  have ho' := obj_ok_iff.mpr ho
  cases op with
  | normalise => simp [heapCall, tsNormalise, ho', Except.bind, opValues, Except.map, inPlaceWorld]
  | deredden width minpts =>
    simp only [heapCall, tsDeredden, ho', Except.bind, opValues, hw]
    cases runningMedianOf (h.world.dataOf o) o.tsamp width minpts with
    | error e => rfl
    | ok rmed => simp [Except.map, inPlaceWorld]
  | downsample factor =>
    simp only [heapCall, tsDownsample, ho', Except.bind, opValues]
    cases liftCall (downsampleBinding (h.world.dataOf o) factor) with
    | error e => rfl
    | ok y => simp [Except.map, inPlaceWorld, mul_comm]

theorem inPlaceWorld_obj {w : World} {id : ℕ} {o : TsObj} (ho : w.objs[id]? = some o) (hd : o.data < w.arrays.length)
    (op : SeriesOp) (v : List ℝ × ℝ) (hv : opValues (w.dataOf o) o.tsamp op = .ok v) :
    ∃ o', (inPlaceWorld w id o op v).objs[id]? = some o' ∧ (inPlaceWorld w id o op v).dataOf o' = v.1 ∧ o'.tsamp = v.2 ∧
      o'.metadata = o.metadata ∧ (inPlaceWorld w id o op v).metas = w.metas := by
  have hid : id < w.objs.length := by
    by_contra hc
    rw [List.getElem?_eq_none (by omega)] at ho
    cases ho
  cases op with
  | normalise =>
    refine ⟨{ o with data := w.arrays.length, tsamp := v.2 }, ?_, ?_, rfl, rfl, rfl⟩
    · simp [inPlaceWorld, World.rebindData, World.newArray, hid]
    · simp [inPlaceWorld, World.rebindData, World.newArray, World.dataOf, List.getD]
  | deredden width minpts =>
    obtain ⟨rmed, h1, h2⟩ := map_ok_inv hv
    refine ⟨o, ho, ?_, ?_, rfl, rfl⟩
    · simp [inPlaceWorld, World.dataOf, List.getD, hd]
    · rw [← h2]
  | downsample factor =>
    refine ⟨{ o with data := w.arrays.length, tsamp := v.2 }, ?_, ?_, rfl, rfl, rfl⟩
    · simp [inPlaceWorld, World.rebindData, World.newArray, hid]
    · simp [inPlaceWorld, World.rebindData, World.newArray, World.dataOf, List.getD]

/-- C98, for a series whose array may be written to, and whose metadata are valid: an operation in place raises the exceptions of the
one that returns a new series, and otherwise returns `None` and leaves the series with the data and the sampling time of the new
series, and with its own metadata. What is missing is the case of an array that must not be written to (`C98_false`). -/
theorem C98_partial (h : Heap) (id : ℕ) (op : SeriesOp) (o : TsObj) (ho : h.world.objs[id]? = some o) (hok : HeapOK h)
    (hw : o.data ∉ h.readOnly) (hmd : ∃ md, metadataCopy (h.world.metaOf o) = .ok md) :
    (∀ e, heapCall h id op true = .error e ↔ heapCall h id op false = .error e) ∧
    ∀ h' r, heapCall h id op true = .ok (h', r) → r = none ∧ ∃ o', h'.world.objs[id]? = some o' ∧
      h'.world.metaOf o' = h.world.metaOf o ∧
      ∃ h'' j o'', heapCall h id op false = .ok (h'', some j) ∧ h''.world.objs[j]? = some o'' ∧
        h'.world.dataOf o' = h''.world.dataOf o'' ∧ o'.tsamp = o''.tsamp := by
  rw [call_inplace h id op o ho hw, call_new h id op o ho]
  cases hv : opValues (h.world.dataOf o) o.tsamp op with
  | error e => simp [Except.map, Except.bind]
  | ok v =>
    obtain ⟨⟨w2, j⟩, hr⟩ := tsNew_exists (w := h.world) (x := v.1) (tsamp := v.2) hmd
    simp only [Except.map, Except.bind, hr]
    refine ⟨by simp, ?_⟩
    intro h' r hh
    cases hh
    obtain ⟨o', h1, h2, h3, h4, h5⟩ := inPlaceWorld_obj ho (hok.1 o (List.mem_of_getElem? ho)).1 op v hv
    obtain ⟨e1, e2, e3, md, e4, _⟩ := tsNew_inv hr
    refine ⟨rfl, o', h1, ?_, { h with world := w2 }, j, ⟨h.world.arrays.length, v.2, h.world.metas.length⟩, rfl, ?_, ?_, h3⟩
    · simp only [World.metaOf, h4, h5]
    · simp [e3, e1]
    · simp only [h2]
      simp [World.dataOf, e2, List.getD]

/-- The hypotheses are met by a series whose array is shared with another one; `deredden` in place succeeds there. -/
example : HeapOK ⟨sharedWorld [5, 5, 5], [], []⟩ ∧ (∃ md, metadataCopy ((sharedWorld [5, 5, 5]).metaOf ⟨0, 1, 0⟩) = .ok md) ∧
    ∃ h', heapCall ⟨sharedWorld [5, 5, 5], [], []⟩ 0 (.deredden 1 1) true = .ok (h', none) := by
  refine ⟨⟨by simp [sharedWorld], by simp, by simp⟩, sharedWorld_meta, ?_⟩
  obtain ⟨w', hw', _⟩ := C39_inplace_deredden_is_shared
  have hobj : (sharedWorld [5, 5, 5]).obj 0 = .ok ⟨0, 1, 0⟩ := rfl
  simp [heapCall, hobj, Except.bind, hw']

/-- C98. Only `deredden` in place depends on the flag: all other calls give the same result for an array that must not be written to. -/
theorem C98_flag_irrelevant (h : Heap) (ro : List ℕ) (id : ℕ) (op : SeriesOp) (inplace : Bool)
    (hop : inplace = false ∨ ∀ width minpts, op ≠ .deredden width minpts) :
    heapCall { h with readOnly := ro } id op inplace =
      (heapCall h id op inplace).map fun r => ({ r.1 with readOnly := ro }, r.2) := by
  cases op with
  | normalise => simp only [heapCall]; cases tsNormalise h.world id inplace <;> rfl
  | downsample factor => simp only [heapCall]; cases tsDownsample h.world id factor inplace <;> rfl
  | deredden width minpts =>
    rcases hop with rfl | hop
    · simp only [heapCall]
      cases h.world.obj id with
      | error e => rfl
      | ok o =>
        simp only [Except.bind]
        cases tsDeredden h.world id width minpts false <;> simp [Except.map]
    · exact absurd rfl (hop width minpts)

/-- C98. An operation in place changes no other series object and no metadata. It changes at most the array of the series, and this only
in the case of `deredden`. -/
theorem C98_others (h : Heap) (id : ℕ) (op : SeriesOp) (h' : Heap) (r : Option ℕ) (hc : heapCall h id op true = .ok (h', r)) :
    (∀ j, j ≠ id → h'.world.objs[j]? = h.world.objs[j]?) ∧ h'.world.metas = h.world.metas ∧
    h'.notFloat32 = h.notFloat32 ∧ h'.readOnly = h.readOnly ∧
    ∀ a < h.world.arrays.length,
      ((∃ o width minpts, h.world.objs[id]? = some o ∧ o.data = a ∧ op = .deredden width minpts) ∨
        h'.world.arrays[a]? = h.world.arrays[a]?) := by
  have hex : ∃ o, h.world.objs[id]? = some o := by
    cases ho : h.world.objs[id]? with
    | some o => exact ⟨o, rfl⟩
    | none =>
      have : h.world.obj id = .error .unspecified := by simp [World.obj, ho]
      cases op <;> simp [heapCall, tsNormalise, tsDownsample, this, Except.bind, Except.map] at hc
  obtain ⟨o, ho⟩ := hex
  have hw : (∀ width minpts, op ≠ .deredden width minpts) ∨ o.data ∉ h.readOnly := by
    by_contra hcon
    push Not at hcon
    obtain ⟨⟨width, minpts, rfl⟩, h2⟩ := hcon
    simp only [heapCall] at hc
    obtain ⟨o', h3, h4⟩ := bind_ok_inv hc
    obtain ⟨q, h5, h6⟩ := bind_ok_inv h4
    rw [obj_ok_iff, ho] at h3
    cases h3
    simp [h2] at h6
  cases op with
  | normalise =>
    have hfl := C98_flag_irrelevant { h with readOnly := [] } h.readOnly id .normalise true (Or.inr (by simp))
    simp only at hfl
    rw [hfl, call_inplace { h with readOnly := [] } id _ o ho (by simp)] at hc
    obtain ⟨q, h1, h2⟩ := map_ok_inv hc
    obtain ⟨v, h3, h4⟩ := map_ok_inv h1
    cases h4
    cases h2
    refine ⟨fun j hj => ?_, rfl, rfl, rfl, fun a ha => Or.inr ?_⟩
    · simp [inPlaceWorld, World.rebindData, World.newArray, List.getElem?_set_ne (Ne.symm hj)]
    · simp [inPlaceWorld, World.rebindData, World.newArray, List.getElem?_append_left ha]
  | downsample factor =>
    have hfl := C98_flag_irrelevant { h with readOnly := [] } h.readOnly id (.downsample factor) true (Or.inr (by simp))
    simp only at hfl
    rw [hfl, call_inplace { h with readOnly := [] } id _ o ho (by simp)] at hc
    obtain ⟨q, h1, h2⟩ := map_ok_inv hc
    obtain ⟨v, h3, h4⟩ := map_ok_inv h1
    cases h4
    cases h2
    refine ⟨fun j hj => ?_, rfl, rfl, rfl, fun a ha => Or.inr ?_⟩
    · simp [inPlaceWorld, World.rebindData, World.newArray, List.getElem?_set_ne (Ne.symm hj)]
    · simp [inPlaceWorld, World.rebindData, World.newArray, List.getElem?_append_left ha]
  | deredden width minpts =>
    have hw' : o.data ∉ h.readOnly := by
      rcases hw with hw | hw
      · exact absurd rfl (hw width minpts)
      · exact hw
    rw [call_inplace _ id _ o ho hw'] at hc
    obtain ⟨v, h3, h4⟩ := map_ok_inv hc
    cases h4
    refine ⟨fun j hj => rfl, rfl, rfl, rfl, fun a ha => ?_⟩
    by_cases hd : o.data = a
    · exact Or.inl ⟨o, width, minpts, ho, hd, rfl⟩
    · right
      simp [inPlaceWorld, List.getElem?_set_ne hd]

/-- C98. `deredden(inplace=True)` of a series whose array must not be written to never succeeds; where the copying call raises an
exception, the same exception is raised, otherwise `ValueError`. -/
theorem C98_read_only (h : Heap) (id : ℕ) (width : ℝ) (minpts : ℕ) (o : TsObj) (ho : h.world.objs[id]? = some o)
    (hw : o.data ∈ h.readOnly) (hmd : ∃ md, metadataCopy (h.world.metaOf o) = .ok md) :
    heapCall h id (.deredden width minpts) true =
      match heapCall h id (.deredden width minpts) false with
      | .ok _ => .error .valueError
      | .error e => .error e := by
  have ho' := obj_ok_iff.mpr ho
  simp only [heapCall, tsDeredden, ho', Except.bind]
  cases runningMedianOf (h.world.dataOf o) o.tsamp width minpts with
  | error e => rfl
  | ok rmed =>
    obtain ⟨⟨w2, j⟩, hr⟩ := tsNew_exists (w := h.world) (x := subtractArrays (h.world.dataOf o) rmed) (tsamp := o.tsamp) hmd
    simp [hr, hw]

/-- C98. A series loaded from JSON has an array that must not be written to. -/
theorem C98_loaded (h h' : Heap) (x : List ℝ) (tsamp : ℝ) (items : PyDict String MVal) (i : ℕ)
    (hok : HeapOK h) (hl : loadSeries h x tsamp items = .ok (h', i)) :
    HeapOK h' ∧ ∃ o, h'.world.objs[i]? = some o ∧ h'.world.dataOf o = x ∧ o.tsamp = tsamp ∧ o.data ∈ h'.readOnly := by
  have hnot : h.world.arrays.length ∉ h.notFloat32 := fun hc => absurd (hok.2.1 _ hc) (by omega)
  simp only [loadSeries, heapInit, Heap.newArray, asArray, hnot, if_false, World.newArray, tsInit, Bool.false_eq_true] at hl
  obtain ⟨⟨w1, j⟩, h1, h2⟩ := map_ok_inv hl
  obtain ⟨md, h3, h4⟩ := bind_ok_inv h1
  cases h4
  cases h2
  refine ⟨⟨?_, ?_, ?_⟩, ⟨h.world.arrays.length, tsamp, h.world.metas.length⟩, ?_, ?_, rfl, ?_⟩
  · intro o ho
    simp only [List.mem_append, List.mem_singleton] at ho
    rcases ho with ho | rfl
    · have := hok.1 o ho
      simp only [List.length_append, List.length_singleton]
      omega
    · simp
  · intro a ha
    have := hok.2.1 a ha
    simp only [List.length_append, List.length_singleton]
    omega
  · intro a ha
    simp only [List.mem_cons] at ha
    simp only [List.length_append, List.length_singleton]
    rcases ha with rfl | ha
    · omega
    · have := hok.2.2 a ha
      omega
  · simp
  · simp [World.dataOf, List.getD]
  · simp

/-- C98. After a successful `normalise` or `downsample` in place, and for the result of `copy()`, the array may be written to,
whatever it was before. -/
theorem C98_writable_again (h h' : Heap) (hok : HeapOK h) (id : ℕ) :
    (∀ op r, (∀ width minpts, op ≠ .deredden width minpts) → heapCall h id op true = .ok (h', r) →
      ∃ o', h'.world.objs[id]? = some o' ∧ o'.data ∉ h'.readOnly) ∧
    ∀ j, heapCopy h id = .ok (h', j) → ∃ o o', h.world.objs[id]? = some o ∧ h'.world.objs[j]? = some o' ∧ o'.data ∉ h'.readOnly ∧
      h'.world.dataOf o' = h.world.dataOf o ∧ o'.tsamp = o.tsamp ∧ h'.world.metaOf o' = h.world.metaOf o := by
  have hn : h.world.arrays.length ∉ h.readOnly := fun hc => absurd (hok.2.2 _ hc) (by omega)
  constructor
  · intro op r hop hc
    have hfl := C98_flag_irrelevant { h with readOnly := [] } h.readOnly id op true (Or.inr hop)
    simp only at hfl
    rw [hfl] at hc
    obtain ⟨⟨h1, r1⟩, h2, h3⟩ := map_ok_inv hc
    cases h3
    have hex : ∃ o, h.world.objs[id]? = some o := by
      cases ho : h.world.objs[id]? with
      | some o => exact ⟨o, rfl⟩
      | none =>
        have : h.world.obj id = .error .unspecified := by simp [World.obj, ho]
        cases op <;> simp [heapCall, tsNormalise, tsDownsample, this, Except.bind, Except.map] at h2
    obtain ⟨o, ho⟩ := hex
    have hid : id < h.world.objs.length := by
      by_contra hc
      rw [List.getElem?_eq_none (by omega)] at ho
      cases ho
    rw [call_inplace { h with readOnly := [] } id op o ho (by simp)] at h2
    obtain ⟨v, h4, h5⟩ := map_ok_inv h2
    cases h5
    refine ⟨{ o with data := h.world.arrays.length, tsamp := v.2 }, ?_, hn⟩
    cases op with
    | deredden width minpts => exact absurd rfl (hop width minpts)
    | normalise => simp [inPlaceWorld, World.rebindData, World.newArray, hid]
    | downsample f => simp [inPlaceWorld, World.rebindData, World.newArray, hid]
  · intro j hc
    obtain ⟨o, h1, h2⟩ := map_ok_inv hc
    cases h2
    refine ⟨o, ⟨h.world.arrays.length, o.tsamp, h.world.metas.length⟩, obj_ok_iff.mp h1, ?_, hn, ?_, rfl, ?_⟩
    · simp
    · simp [World.dataOf, List.getD]
    · simp [World.metaOf, List.getD]

/-- Three equal samples, loaded from JSON into an empty heap. -/
theorem loaded_example : ∃ h' i, loadSeries ⟨⟨[], [], []⟩, [], []⟩ [5, 5, 5] 1 [] = .ok (h', i) := by
  simp [loadSeries, heapInit, Heap.newArray, asArray, World.newArray, tsInit, metadataCopy, dictGet, Except.bind, Except.map]

/-- C98 is false: a series loaded from JSON, for which `deredden` returns a new series, but raises `ValueError` in place. -/
theorem C98_false : ∃ h : Heap, HeapOK h ∧ ∃ id width minpts, (∃ h' j, heapCall h id (.deredden width minpts) false = .ok (h', some j)) ∧
    heapCall h id (.deredden width minpts) true = .error .valueError := by
  obtain ⟨h, i, hl⟩ := loaded_example
  have hok0 : HeapOK ⟨⟨[], [], []⟩, [], []⟩ := ⟨by simp, by simp, by simp⟩
  obtain ⟨hok, o, ho, hd, hts, hro⟩ := C98_loaded _ _ _ _ _ _ hok0 hl
  have hmd : ∃ md, metadataCopy (h.world.metaOf o) = .ok md := by
    simp [loadSeries, heapInit, Heap.newArray, asArray, World.newArray, tsInit, metadataCopy, dictGet, Except.bind, Except.map] at hl
    obtain ⟨rfl, rfl⟩ := hl
    simp at ho
    subst ho
    have h1 : dictGet (dictSet (List.foldl setDefaultNone [] reservedKeys) "tobs" (MVal.num 3)) "tobs" = some (.num 3) := by
      rw [dictGet_set]; simp
    simp [World.metaOf, metadataCopy, h1]
  have hr : pyRound 1 = 1 := by norm_num [pyRound]
  obtain ⟨out', hout'⟩ := C27_partial ([5, 5, 5] : List ℝ) 1 1 (by norm_num) (by norm_num) (by norm_num)
  have hcall : ∃ h' j, heapCall h i (.deredden 1 1) false = .ok (h', some j) := by
    rw [call_new h i _ o ho]
    obtain ⟨r, hr2⟩ := tsNew_exists (w := h.world) (x := subtractArrays [5, 5, 5] out') (tsamp := 1) hmd
    simp [opValues, hd, hts, runningMedianOf, hr, hout', liftCall, Except.map, Except.bind, hr2]
  refine ⟨h, hok, i, 1, 1, hcall, ?_⟩
  rw [C98_read_only h i 1 1 o ho hro hmd]
  obtain ⟨h', j, hcall⟩ := hcall
  rw [hcall]

/-! ## C99 -/

/-- No series but `q` holds the array `a` or the metadata dictionary `m`. -/
def HeldBy (w : World) (a : ℕ) (m q : Option ℕ) : Prop :=
  ∀ (i : ℕ) (o : TsObj), w.objs[i]? = some o → o.data = a ∨ some o.metadata = m → some i = q

/-- What is kept: the contents of the array `a` and of the dictionary `m`, that no series but `q` holds them, and the series `q`. -/
structure Kept (w w' : World) (a : ℕ) (m q : Option ℕ) : Prop where
  array : w'.arrays[a]? = w.arrays[a]?
  held : HeldBy w a m q → HeldBy w' a m q
  series : ∀ (i : ℕ) (o : TsObj), q = some i → w.objs[i]? = some o → w'.objs[i]? = some o
  dict : ∀ d, m = some d → d < w.metas.length → w'.metas[d]? = w.metas[d]?
  growth : w.metas.length ≤ w'.metas.length

theorem Kept.trans {w1 w2 w3 : World} {a : ℕ} {m q : Option ℕ} (h1 : Kept w1 w2 a m q) (h2 : Kept w2 w3 a m q) : Kept w1 w3 a m q :=
  ⟨h2.array.trans h1.array, fun h => h2.held (h1.held h), fun i o hq ho => h2.series i o hq (h1.series i o hq ho),
    fun d hm hd => (h2.dict d hm (hd.trans_le h1.growth)).trans (h1.dict d hm hd), h1.growth.trans h2.growth⟩

theorem Kept.refl (w : World) (a : ℕ) (m q : Option ℕ) : Kept w w a m q :=
  ⟨rfl, id, fun _ _ _ h => h, fun _ _ _ => rfl, le_refl _⟩

theorem getElem?_prefix {α : Type*} {l l' : List α} (h : l <+: l') {i : ℕ} (hi : i < l.length) : l'[i]? = l[i]? := by
  obtain ⟨t, rfl⟩ := h
  exact List.getElem?_append_left hi

theorem lt_of_getElem? {α : Type*} {l : List α} {i : ℕ} {x : α} (h : l[i]? = some x) : i < l.length := by
  by_contra hc
  rw [List.getElem?_eq_none (by omega)] at h
  cases h

/-- The dictionary `m` exists. -/
def InMetas (w : World) (m : Option ℕ) : Prop := ∀ d, m = some d → d < w.metas.length

/-- Growth of the heap in which the new series do not hold the array `a`, and have new dictionaries. -/
theorem kept_of_extends {w w' : World} {a : ℕ} {m q : Option ℕ} (ha : a < w.arrays.length) (hm : InMetas w m) (he : Extends w w')
    (hnew : ∀ (i : ℕ) (o : TsObj), w.objs.length ≤ i → w'.objs[i]? = some o → o.data ≠ a ∧ w.metas.length ≤ o.metadata) :
    Kept w w' a m q := by
  refine ⟨getElem?_prefix he.1 ha, ?_, ?_, fun d _ hd => getElem?_prefix he.2.1 hd, he.2.1.length_le⟩
  · intro hh i o ho hd
    by_cases hi : i < w.objs.length
    · exact hh i o (by rw [← getElem?_prefix he.2.2 hi]; exact ho) hd
    · obtain ⟨h1, h2⟩ := hnew i o (by omega) ho
      rcases hd with hd | hd
      · exact absurd hd h1
      · have := hm o.metadata hd.symm
        omega
  · intro i o _ ho
    rw [getElem?_prefix he.2.2 (lt_of_getElem? ho)]
    exact ho

/-- The last element of a list with one more element. -/
theorem append_single_inv {α : Type*} {l : List α} {x y : α} {i : ℕ} (hi : l.length ≤ i) (h : (l ++ [x])[i]? = some y) : x = y := by
  have h1 := lt_of_getElem? h
  simp only [List.length_append, List.length_singleton] at h1
  have : i = l.length := by omega
  subst this
  simpa using h

theorem kept_tsNew {w w' : World} {x : List ℝ} {tsamp : ℝ} {items : PyDict String MVal} {j a : ℕ} {m q : Option ℕ}
    (ha : a < w.arrays.length) (hm : InMetas w m) (h : tsNew w x tsamp items = .ok (w', j)) : Kept w w' a m q := by
  refine kept_of_extends ha hm (tsNew_extends h) ?_
  obtain ⟨_, _, h2, _⟩ := tsNew_inv h
  intro i o hi ho
  rw [h2] at ho
  rw [← append_single_inv hi ho]
  exact ⟨by simp only; omega, le_refl _⟩

/-- Creation of a series from the array `b`. -/
theorem tsInit_inv {w w' : World} {b : ℕ} {tsamp : ℝ} {items : PyDict String MVal} {copy : Bool} {i : ℕ}
    (h : tsInit w b tsamp items copy = .ok (w', i)) :
    i = w.objs.length ∧ Extends w w' ∧ w'.arrays = (if copy then w.arrays ++ [w.arrays.getD b []] else w.arrays) ∧
      w'.objs = w.objs ++ [⟨if copy then w.arrays.length else b, tsamp, w.metas.length⟩] ∧
      w'.metas.length = w.metas.length + 1 := by
  cases copy with
  | true =>
    have h' : tsNew w (w.arrays.getD b []) tsamp items = .ok (w', i) := h
    obtain ⟨h1, h2, h3, md, h4, _⟩ := tsNew_inv h'
    exact ⟨h1, tsNew_extends h', by simpa using h2, by simpa using h3, by simp [h4]⟩
  | false =>
    simp only [tsInit, Bool.false_eq_true, if_false] at h
    obtain ⟨md, h1, h2⟩ := bind_ok_inv h
    cases h2
    exact ⟨rfl, ⟨List.prefix_refl _, List.prefix_append _ _, List.prefix_append _ _⟩, rfl, rfl, by simp⟩

theorem kept_tsInit {w w' : World} {b : ℕ} {tsamp : ℝ} {items : PyDict String MVal} {copy : Bool} {j a : ℕ} {m q : Option ℕ}
    (ha : a < w.arrays.length) (hm : InMetas w m) (hb : copy = true ∨ b ≠ a) (h : tsInit w b tsamp items copy = .ok (w', j)) :
    Kept w w' a m q := by
  obtain ⟨_, h1, _, h3, _⟩ := tsInit_inv h
  refine kept_of_extends ha hm h1 ?_
  intro i o hi ho
  rw [h3] at ho
  rw [← append_single_inv hi ho]
  refine ⟨?_, le_refl _⟩
  rcases hb with rfl | hb
  · simp only [if_true]; omega
  · simp only
    split_ifs
    · omega
    · exact hb

theorem kept_newArray (w : World) (x : List ℝ) {a : ℕ} {m q : Option ℕ} (ha : a < w.arrays.length) (hm : InMetas w m) :
    Kept w (w.newArray x).1 a m q := by
  refine kept_of_extends ha hm ⟨List.prefix_append _ _, List.prefix_refl _, List.prefix_refl _⟩ ?_
  intro i o hi ho
  exact absurd (lt_of_getElem? ho) (by simp only [World.newArray]; omega)

/-- The array of `asArray`: the one given, or a new one. -/
theorem asArray_cases (h : Heap) (d : ArrayLike) :
    (∃ b, d = .array b ∧ b ∉ h.notFloat32 ∧ asArray h d = (h, b)) ∨ ∃ x, asArray h d = h.newArray x := by
  cases d with
  | sequence x => exact Or.inr ⟨x, rfl⟩
  | array b =>
    by_cases hb : b ∈ h.notFloat32
    · exact Or.inr ⟨h.world.arrays.getD b [], by simp [asArray, hb]⟩
    · exact Or.inl ⟨b, rfl, hb, by simp [asArray, hb]⟩

theorem kept_heapInit {h h' : Heap} {d : ArrayLike} {tsamp : ℝ} {items : PyDict String MVal} {copy : Bool} {j a : ℕ} {m q : Option ℕ}
    (ha : a < h.world.arrays.length) (hm : InMetas h.world m) (hd : copy = true ∨ d ≠ .array a ∨ a ∈ h.notFloat32)
    (hc : heapInit h d tsamp items copy = .ok (h', j)) : Kept h.world h'.world a m q := by
  obtain ⟨⟨w1, i⟩, h1, h2⟩ := map_ok_inv hc
  cases h2
  rcases asArray_cases h d with ⟨b, rfl, hb, e⟩ | ⟨x, e⟩
  · rw [e] at h1
    refine kept_tsInit ha hm ?_ h1
    rcases hd with hd | hd | hd
    · exact Or.inl hd
    · exact Or.inr (fun hc => hd (congrArg ArrayLike.array hc))
    · exact Or.inr (fun hc => hb ((show b = a from hc) ▸ hd))
  · rw [e] at h1
    refine (kept_newArray h.world x ha hm).trans (kept_tsInit ?_ hm (Or.inr ?_) h1)
    · simp only [World.newArray, List.length_append, List.length_singleton]; omega
    · simp only [Heap.newArray]; omega

theorem fold_inv {w w' : World} {id : ℕ} {period : ℝ} {bins : ℕ} {subints : Option ℤ} {out : NdArray}
    (h : tsFold w id period bins subints = .ok (w', out)) :
    ∃ tsamp, w'.objs = w.objs ++ [⟨w.arrays.length, tsamp, w.metas.length⟩] := by
  obtain ⟨o, h1, h2⟩ := bind_ok_inv h
  obtain ⟨_, h3, h4⟩ := bind_ok_inv h2
  split_ifs at h4 with hts
  simp only at h4
  obtain ⟨⟨w1, r⟩, h5, h6⟩ := bind_ok_inv h4
  obtain ⟨tsdown, h7, h8⟩ := bind_ok_inv h6
  split_ifs at h8 with hm
  simp only at h8
  obtain ⟨out', h9, h10⟩ := bind_ok_inv h8
  cases h10
  obtain ⟨o', i, x, ho', rfl, _, h11⟩ := downsample_new_inv h5
  obtain ⟨rfl, e1, e2, md, e3, _⟩ := tsNew_inv h11
  exact ⟨_, e2⟩

/-- Steps that may neither write to the array `a` nor make a new reference to it, where `q` is the only series that holds it, nor change
the metadata of `q`. -/
def Harmless (a : ℕ) (q : Option ℕ) : Step → Prop
  | .create data _ _ cp => cp = true ∨ data ≠ .array a
  | .fromFile _ _ _ => True
  | .load _ _ _ => True
  | .copy _ => True
  | .call id _ inplace => inplace = false ∨ some id ≠ q
  | .fold _ _ _ _ => True
  | .write b _ => b ≠ a
  | .setItem id _ _ => some id ≠ q

theorem call_exists {h : Heap} {id : ℕ} {op : SeriesOp} {inplace : Bool} {r : Heap × Option ℕ}
    (hc : heapCall h id op inplace = .ok r) : ∃ o, h.world.objs[id]? = some o := by
  cases ho : h.world.objs[id]? with
  | some o => exact ⟨o, rfl⟩
  | none =>
    have : h.world.obj id = .error .unspecified := by simp [World.obj, ho]
    cases op <;> simp [heapCall, tsNormalise, tsDownsample, this, Except.bind, Except.map] at hc

theorem kept_call {h h' : Heap} {id : ℕ} {op : SeriesOp} {inplace : Bool} {r : Option ℕ} {a : ℕ} {m q : Option ℕ}
    (ha : a < h.world.arrays.length) (hm : InMetas h.world m) (hq : HeldBy h.world a m q) (hs : inplace = false ∨ some id ≠ q)
    (hc : heapCall h id op inplace = .ok (h', r)) : Kept h.world h'.world a m q := by
  obtain ⟨o, ho⟩ := call_exists hc
  cases inplace with
  | false =>
    rw [call_new h id op o ho] at hc
    obtain ⟨v, h1, h2⟩ := bind_ok_inv hc
    obtain ⟨⟨w2, j⟩, h3, h4⟩ := map_ok_inv h2
    cases h4
    exact kept_tsNew ha hm h3
  | true =>
    have hid : some id ≠ q := by
      rcases hs with hs | hs
      · cases hs
      · exact hs
    have hda : o.data ≠ a := fun e => hid (hq id o ho (Or.inl e))
    have hma : some o.metadata ≠ m := fun e => hid (hq id o ho (Or.inr e))
    obtain ⟨h1, h2, h3, h4, h5⟩ := C98_others h id op h' r hc
    have harr : h'.world.arrays[a]? = h.world.arrays[a]? := by
      rcases h5 a ha with ⟨o', _, _, ho', hd', _⟩ | h6
      · rw [ho] at ho'
        cases ho'
        exact absurd hd' hda
      · exact h6
    refine ⟨harr, ?_, ?_, fun d _ _ => by rw [h2], by rw [h2]⟩
    · intro _ i o' hi hd
      by_cases hii : i = id
      · subst hii
        exfalso
        have hdata : (o'.data = o.data ∨ o'.data = h.world.arrays.length) ∧ o'.metadata = o.metadata := by
          have key : ∀ (ro : List ℕ), o.data ∉ ro → ∀ hh rr, heapCall { h with readOnly := ro } i op true = .ok (hh, rr) →
              hh.world.objs[i]? = some o' →
              (o'.data = o.data ∨ o'.data = h.world.arrays.length) ∧ o'.metadata = o.metadata := by
            intro ro hro hh rr hcc hoo
            rw [call_inplace { h with readOnly := ro } i op o ho hro] at hcc
            obtain ⟨v, h6, h7⟩ := map_ok_inv hcc
            cases h7
            have hlt := lt_of_getElem? ho
            cases op with
            | deredden width minpts =>
              simp only [inPlaceWorld] at hoo
              rw [ho] at hoo
              cases hoo
              exact ⟨Or.inl rfl, rfl⟩
            | normalise =>
              simp [inPlaceWorld, World.rebindData, World.newArray, hlt] at hoo
              rw [← hoo]
              exact ⟨Or.inr rfl, rfl⟩
            | downsample f =>
              simp [inPlaceWorld, World.rebindData, World.newArray, hlt] at hoo
              rw [← hoo]
              exact ⟨Or.inr rfl, rfl⟩
          by_cases hro : o.data ∈ h.readOnly
          · have hop : ∀ width minpts, op ≠ .deredden width minpts := by
              rintro width minpts rfl
              simp only [heapCall] at hc
              obtain ⟨o2, h6, h7⟩ := bind_ok_inv hc
              obtain ⟨p, h8, h9⟩ := bind_ok_inv h7
              rw [obj_ok_iff, ho] at h6
              cases h6
              simp [hro] at h9
            have hfl := C98_flag_irrelevant h [] i op true (Or.inr hop)
            rw [hc] at hfl
            exact key [] (by simp) _ _ hfl hi
          · exact key h.readOnly hro h' r hc hi
        obtain ⟨hdata, hmeta⟩ := hdata
        rcases hd with hd | hd
        · rcases hdata with e | e
          · exact hda (e.symm.trans hd)
          · omega
        · rw [hmeta] at hd
          exact hma hd
      · rw [h1 i hii] at hi
        exact hq i o' hi hd
    · intro i o' hqi ho'
      rw [h1 i (by rintro rfl; exact hid hqi.symm)]
      exact ho'

theorem kept_step {h : Heap} {s : Step} {a : ℕ} {m q : Option ℕ} (ha : a < h.world.arrays.length) (hm : InMetas h.world m)
    (hq : HeldBy h.world a m q) (hs : Harmless a q s) : Kept h.world (s.run h).world a m q := by
  cases s with
  | create data tsamp items cp =>
    simp only [Step.run]
    cases hc : heapInit h data tsamp items cp with
    | error e => exact .refl _ _ _ _
    | ok r => exact kept_heapInit ha hm (hs.imp_right Or.inl) hc
  | fromFile x f tsamp =>
    simp only [Step.run]
    cases hc : Verif.Model.fromFile h x f tsamp with
    | error e => exact .refl _ _ _ _
    | ok r =>
      refine (kept_newArray h.world x ha hm).trans (kept_heapInit (h := { (h.newArray x).1 with notFloat32 := _ }) ?_ hm (Or.inr (Or.inl ?_)) hc)
      · simp only [Heap.newArray, World.newArray, List.length_append, List.length_singleton]; omega
      · simp only [Heap.newArray, ne_eq, ArrayLike.array.injEq]; omega
  | load x tsamp items =>
    simp only [Step.run]
    cases hc : loadSeries h x tsamp items with
    | error e => exact .refl _ _ _ _
    | ok r =>
      refine (kept_newArray h.world x ha hm).trans (kept_heapInit (h := { (h.newArray x).1 with readOnly := _ }) ?_ hm (Or.inr (Or.inl ?_)) hc)
      · simp only [Heap.newArray, World.newArray, List.length_append, List.length_singleton]; omega
      · simp only [Heap.newArray, ne_eq, ArrayLike.array.injEq]; omega
  | copy id =>
    simp only [Step.run]
    cases hc : heapCopy h id with
    | error e => exact .refl _ _ _ _
    | ok r =>
      obtain ⟨o, h1, h2⟩ := map_ok_inv hc
      subst h2
      refine kept_of_extends ha hm ⟨List.prefix_append _ _, List.prefix_append _ _, List.prefix_append _ _⟩ ?_
      intro i o' hi ho'
      rw [← append_single_inv hi ho']
      exact ⟨by simp only; omega, le_refl _⟩
  | call id op inplace =>
    simp only [Step.run]
    cases hc : heapCall h id op inplace with
    | error e => exact .refl _ _ _ _
    | ok r => exact kept_call ha hm hq hs hc
  | fold id period bins subints =>
    simp only [Step.run]
    cases hc : heapFold h id period bins subints with
    | error e => exact .refl _ _ _ _
    | ok r =>
      obtain ⟨⟨w2, out⟩, h1, h2⟩ := map_ok_inv hc
      subst h2
      refine kept_of_extends ha hm (C39_fold_pure _ _ _ _ _ _ _ h1) ?_
      obtain ⟨t, h3⟩ := fold_inv h1
      intro i o' hi ho'
      rw [h3] at ho'
      rw [← append_single_inv hi ho']
      exact ⟨by simp only; omega, le_refl _⟩
  | write b x =>
    simp only [Step.run]
    cases hc : heapWrite h b x with
    | error e => exact .refl _ _ _ _
    | ok r =>
      unfold heapWrite at hc
      split_ifs at hc
      cases hc
      have hb : b ≠ a := hs
      exact ⟨by simp [List.getElem?_set_ne hb], fun h => h, fun _ _ _ h => h, fun _ _ _ => rfl, le_refl _⟩
  | setItem id key value =>
    simp only [Step.run]
    cases hc : heapSetMeta h id key value with
    | error e => exact .refl _ _ _ _
    | ok r =>
      obtain ⟨o, h1, h2⟩ := map_ok_inv hc
      subst h2
      have hid : some id ≠ q := hs
      have hma : some o.metadata ≠ m := fun e => hid (hq id o (obj_ok_iff.mp h1) (Or.inr e))
      refine ⟨rfl, fun h => h, fun _ _ _ h => h, fun d hd _ => ?_, by simp⟩
      have : o.metadata ≠ d := by
        rintro rfl
        exact hma hd.symm
      simp [List.getElem?_set_ne this]

theorem kept_steps {a : ℕ} {m q : Option ℕ} : ∀ (l : List Step) (h : Heap), a < h.world.arrays.length → InMetas h.world m →
    HeldBy h.world a m q → (∀ s ∈ l, Harmless a q s) → Kept h.world (l.foldl Step.run h).world a m q := by
  intro l
  induction l with
  | nil => intro h _ _ _ _; exact .refl _ _ _ _
  | cons s l ih =>
    intro h ha hm hq hs
    have h1 := kept_step ha hm hq (hs s (by simp))
    have ha' : a < (s.run h).world.arrays.length := by
      have h2 : h.world.arrays[a]? = some h.world.arrays[a] := List.getElem?_eq_getElem ha
      exact lt_of_getElem? (h1.array.trans h2)
    exact h1.trans (ih _ ha' (fun d hd => (hm d hd).trans_le h1.growth) (h1.held hq) (fun s' hs' => hs s' (by simp [hs'])))

/-- C99. An array that no series holds is not changed by any sequence of operations, unless the program writes to it itself or makes a
series from it without a copy. -/
theorem C99_array (h : Heap) (a : ℕ) (ha : a < h.world.arrays.length) (hq : ∀ o ∈ h.world.objs, o.data ≠ a) (l : List Step)
    (hl : ∀ s ∈ l, (∀ x, s ≠ .write a x) ∧ ∀ tsamp items, s ≠ .create (.array a) tsamp items false) :
    (l.foldl Step.run h).world.arrays[a]? = h.world.arrays[a]? := by
  refine (kept_steps (m := none) (q := none) l h ha (by simp [InMetas]) ?_ ?_).array
  · intro i o ho hd
    exact absurd (hd.resolve_right (by simp)) (hq o (List.mem_of_getElem? ho))
  intro s hs
  obtain ⟨h1, h2⟩ := hl s hs
  cases s with
  | create data tsamp items cp =>
    by_cases hd : data = .array a
    · subst hd
      cases cp with
      | true => exact Or.inl rfl
      | false => exact absurd rfl (h2 tsamp items)
    · exact Or.inr hd
  | write b x =>
    intro hb
    subst hb
    exact h1 x rfl
  | call id op inplace => exact Or.inr (by simp)
  | setItem id key value => simp [Harmless]
  | _ => trivial

/-- C99. A series that shares its array and metadata with no other series keeps its data, sampling time and metadata in any sequence of operations
that does not operate on it in place, does not write to its array or its metadata and does not make another series from that array
without a copy. -/
theorem C99_series (h : Heap) (hok : HeapOK h) (i : ℕ) (o : TsObj) (ho : h.world.objs[i]? = some o)
    (hq : ∀ (j : ℕ) (p : TsObj), h.world.objs[j]? = some p → p.data = o.data ∨ p.metadata = o.metadata → j = i) (l : List Step)
    (hl : ∀ s ∈ l, (∀ op, s ≠ .call i op true) ∧ (∀ x, s ≠ .write o.data x) ∧ (∀ key v, s ≠ .setItem i key v) ∧
      ∀ tsamp items, s ≠ .create (.array o.data) tsamp items false) :
    (l.foldl Step.run h).world.objs[i]? = some o ∧ (l.foldl Step.run h).world.dataOf o = h.world.dataOf o ∧
      (l.foldl Step.run h).world.metaOf o = h.world.metaOf o := by
  obtain ⟨hd, hm⟩ := hok.1 o (List.mem_of_getElem? ho)
  have hk := kept_steps (a := o.data) (m := some o.metadata) (q := some i) l h hd (fun d he => by cases he; exact hm)
    (fun j p hp he => by rw [hq j p hp (he.imp_right Option.some.inj)]) (by
    intro s hs
    obtain ⟨h0, h1, h3, h2⟩ := hl s hs
    cases s with
    | create data tsamp items cp =>
      by_cases hd : data = .array o.data
      · subst hd
        cases cp with
        | true => exact Or.inl rfl
        | false => exact absurd rfl (h2 tsamp items)
      · exact Or.inr hd
    | write b x =>
      intro hb
      subst hb
      exact h1 x rfl
    | call id op inplace =>
      by_cases hid : id = i
      · subst hid
        cases inplace with
        | false => exact Or.inl rfl
        | true => exact absurd rfl (h0 op)
      · exact Or.inr (by simpa using hid)
    | setItem id key v =>
      intro hid
      cases hid
      exact h3 key v rfl
    | _ => trivial)
  refine ⟨hk.series i o rfl ho, ?_, ?_⟩
  · simp only [World.dataOf, List.getD, hk.array]
  · simp only [World.metaOf, List.getD, hk.dict _ rfl hm]

/-- A new series with an array that did not exist before. -/
theorem own_array {h h' : Heap} (hok : HeapOK h) {i d m : ℕ} {t : ℝ} {x : List ℝ} (he : Extends h.world h'.world)
    (hobjs : h'.world.objs = h.world.objs ++ [⟨d, t, m⟩]) (hi : i = h.world.objs.length) (hd : h.world.arrays.length ≤ d)
    (hd' : d < h'.world.arrays.length) (hm : m < h'.world.metas.length) (hm' : h.world.metas.length ≤ m) (hx : h'.world.arrays.getD d [] = x)
    (hf : ∀ a ∈ h'.notFloat32, a < h'.world.arrays.length) (hr : ∀ a ∈ h'.readOnly, a < h'.world.arrays.length) :
    HeapOK h' ∧ Extends h.world h'.world ∧ ∃ o, h'.world.objs[i]? = some o ∧ h'.world.dataOf o = x ∧
      h.world.arrays.length ≤ o.data ∧ ∀ (j : ℕ) (p : TsObj), h'.world.objs[j]? = some p → p.data = o.data ∨ p.metadata = o.metadata → j = i := by
  refine ⟨⟨?_, hf, hr⟩, he, ⟨d, t, m⟩, by simp [hobjs, hi], hx, hd, ?_⟩
  · intro o ho
    rw [hobjs] at ho
    simp only [List.mem_append, List.mem_singleton] at ho
    rcases ho with ho | rfl
    · have := hok.1 o ho
      exact ⟨this.1.trans_le he.1.length_le, this.2.trans_le he.2.1.length_le⟩
    · exact ⟨hd', hm⟩
  · intro j p hp hdp
    rw [hobjs] at hp
    by_cases hj : j < h.world.objs.length
    · rw [List.getElem?_append_left hj] at hp
      have := hok.1 p (List.mem_of_getElem? hp)
      simp only at hdp
      omega
    · have := lt_of_getElem? hp
      simp only [List.length_append, List.length_singleton] at this
      omega

theorem newArray_ok {h : Heap} (hok : HeapOK h) (x : List ℝ) : HeapOK (h.newArray x).1 := by
  have hl : (h.newArray x).1.world.arrays.length = h.world.arrays.length + 1 := by simp [Heap.newArray, World.newArray]
  refine ⟨fun o ho => ?_, fun a ha => ?_, fun a ha => ?_⟩
  · have h1 := hok.1 o ho
    exact ⟨by omega, h1.2⟩
  · have h1 := hok.2.1 a ha
    omega
  · have h1 := hok.2.2 a ha
    omega

/-- `heapInit` with an array that is copied or converted. -/
theorem init_own {h h' : Heap} (hok : HeapOK h) {i : ℕ} {x : List ℝ} {d : ArrayLike} {tsamp : ℝ} {items : PyDict String MVal}
    {cp : Bool} (hc : heapInit h d tsamp items cp = .ok (h', i))
    (hd : d = .sequence x ∨ ∃ a < h.world.arrays.length, d = .array a ∧ h.world.arrays.getD a [] = x ∧ (cp = true ∨ a ∈ h.notFloat32)) :
    HeapOK h' ∧ Extends h.world h'.world ∧ ∃ o, h'.world.objs[i]? = some o ∧ h'.world.dataOf o = x ∧
      h.world.arrays.length ≤ o.data ∧ ∀ (j : ℕ) (p : TsObj), h'.world.objs[j]? = some p → p.data = o.data ∨ p.metadata = o.metadata → j = i := by
  obtain ⟨⟨w1, j⟩, h1, h2⟩ := map_ok_inv hc
  cases h2
  have hnew : asArray h d = h.newArray x ∨ ∃ a, asArray h d = (h, a) ∧ cp = true ∧ h.world.arrays.getD a [] = x := by
    rcases hd with rfl | ⟨a, _, rfl, hx, hcp⟩
    · exact Or.inl rfl
    · by_cases ha : a ∈ h.notFloat32
      · left
        simp only [asArray, ha, if_true, hx]
      · right
        refine ⟨a, by simp [asArray, ha], ?_, hx⟩
        rcases hcp with hcp | hcp
        · exact hcp
        · exact absurd hcp ha
  rcases hnew with e | ⟨a, e, rfl, hx⟩
  · rw [e] at h1 ⊢
    obtain ⟨g1, g2, g3, g4, g5⟩ := tsInit_inv h1
    have hext : Extends h.world (h.newArray x).1.world :=
      ⟨List.prefix_append _ _, List.prefix_refl _, List.prefix_refl _⟩
    have hok1 := newArray_ok hok x
    have hl : (h.newArray x).1.world.arrays = h.world.arrays ++ [x] := rfl
    have hlen : (h.newArray x).1.world.arrays.length = h.world.arrays.length + 1 := by simp [hl]
    have hle : (h.newArray x).1.world.arrays.length ≤ w1.arrays.length := g2.1.length_le
    have hcont : w1.arrays.getD (if cp then (h.newArray x).1.world.arrays.length else (h.newArray x).2) [] = x := by
      rw [g3]
      cases cp <;> simp [Heap.newArray, World.newArray, List.getD]
    have hdl : (if cp then (h.newArray x).1.world.arrays.length else (h.newArray x).2) < w1.arrays.length := by
      rw [g3]
      cases cp <;> simp [Heap.newArray, World.newArray]
    refine own_array (h' := { (h.newArray x).1 with world := w1 }) hok (hext.trans g2) g4 g1 ?_ hdl (by rw [g5]; exact Nat.lt_succ_self _)
      (le_refl _) hcont ?_ ?_
    · cases cp
      · exact le_refl _
      · simp only [if_true]; omega
    · intro b hb
      exact (hok1.2.1 b hb).trans_le hle
    · intro b hb
      exact (hok1.2.2 b hb).trans_le hle
  · rw [e] at h1 ⊢
    obtain ⟨g1, g2, g3, g4, g5⟩ := tsInit_inv h1
    have hle := g2.1.length_le
    simp only [if_true] at g3 g4
    refine own_array (h' := { h with world := w1 }) hok g2 g4 g1 (le_refl _) (by simp [g3]) (by rw [g5]; exact Nat.lt_succ_self _)
      (le_refl _) ?_ ?_ ?_
    · rw [g3]
      simp only [List.getD, List.getElem?_append_right (le_refl _)]
      simpa using hx
    · intro b hb
      exact (hok.2.1 b hb).trans_le hle
    · intro b hb
      exact (hok.2.2 b hb).trans_le hle

/-- C99. What the constructors return: with `copy=True`, from a list, from an array of another type than `float32`, from a file, and by
`copy()`, the series has the values it is made from in an array of its own: no other series has it, or its metadata, and it is none of the
arrays there were before. All the arrays and series that existed keep their contents. -/
theorem C99_own_array (h h' : Heap) (hok : HeapOK h) (i : ℕ) (x : List ℝ)
    (hc : (∃ d tsamp items cp, heapInit h d tsamp items cp = .ok (h', i) ∧
        (d = .sequence x ∨ ∃ a < h.world.arrays.length, d = .array a ∧ h.world.arrays.getD a [] = x ∧ (cp = true ∨ a ∈ h.notFloat32))) ∨
      (∃ float32 tsamp, fromFile h x float32 tsamp = .ok (h', i)) ∨
      ∃ id o, heapCopy h id = .ok (h', i) ∧ h.world.objs[id]? = some o ∧ h.world.dataOf o = x) :
    HeapOK h' ∧ Extends h.world h'.world ∧ ∃ o, h'.world.objs[i]? = some o ∧ h'.world.dataOf o = x ∧
      h.world.arrays.length ≤ o.data ∧ ∀ (j : ℕ) (p : TsObj), h'.world.objs[j]? = some p → p.data = o.data ∨ p.metadata = o.metadata → j = i := by
  rcases hc with ⟨d, tsamp, items, cp, hc, hd⟩ | ⟨float32, tsamp, hc⟩ | ⟨id, o, hc, ho, hx⟩
  · exact init_own hok hc hd
  · have hok1 := newArray_ok hok x
    have hext : Extends h.world (h.newArray x).1.world :=
      ⟨List.prefix_append _ _, List.prefix_refl _, List.prefix_refl _⟩
    have hlen : (h.newArray x).1.world.arrays.length = h.world.arrays.length + 1 := by simp [Heap.newArray, World.newArray]
    cases float32 with
    | false =>
      simp only [fromFile, Bool.false_eq_true, if_false] at hc
      obtain ⟨k1, k2, o, k3, k4, k5, k6⟩ := init_own (h := { (h.newArray x).1 with notFloat32 := (h.newArray x).2 :: h.notFloat32 })
        (x := x) ⟨hok1.1, by
          intro a ha
          simp only [List.mem_cons] at ha
          rcases ha with rfl | ha
          · simp only [hlen]; exact Nat.lt_succ_self _
          · exact hok1.2.1 a ha, hok1.2.2⟩ hc
        (Or.inr ⟨(h.newArray x).2, by simp only [hlen]; exact Nat.lt_succ_self _, rfl,
          by simp [Heap.newArray, World.newArray, List.getD], Or.inr (by simp)⟩)
      simp only [hlen] at k5
      exact ⟨k1, hext.trans k2, o, k3, k4, by omega, k6⟩
    | true =>
      simp only [fromFile, if_true] at hc
      have hnot : (h.newArray x).2 ∉ h.notFloat32 := fun hc => absurd (hok.2.1 _ hc) (by simp [Heap.newArray])
      obtain ⟨⟨w1, j⟩, h1, h2⟩ := map_ok_inv hc
      cases h2
      have e : asArray { (h.newArray x).1 with notFloat32 := h.notFloat32 } (.array (h.newArray x).2) =
          ({ (h.newArray x).1 with notFloat32 := h.notFloat32 }, (h.newArray x).2) := by simp [asArray, hnot]
      rw [e] at h1 ⊢
      obtain ⟨g1, g2, g3, g4, g5⟩ := tsInit_inv h1
      simp only [Bool.false_eq_true, if_false] at g3 g4
      have hl2 : w1.arrays.length = h.world.arrays.length + 1 := by rw [g3]; exact hlen
      refine own_array (h' := { (h.newArray x).1 with world := w1, notFloat32 := h.notFloat32 }) hok (hext.trans g2) g4 g1 (le_refl _)
        (by rw [hl2]; exact Nat.lt_succ_self _) (by rw [g5]; exact Nat.lt_succ_self _) (le_refl _) ?_ ?_ ?_
      · rw [g3]
        simp [Heap.newArray, World.newArray, List.getD]
      · intro b hb
        have := hok.2.1 b hb
        simp only [hl2]
        omega
      · intro b hb
        have := hok.2.2 b hb
        simp only [hl2]
        omega
  · obtain ⟨o', h1, h2⟩ := map_ok_inv hc
    rw [obj_ok_iff, ho] at h1
    cases h1
    cases h2
    refine own_array hok ⟨List.prefix_append _ _, List.prefix_append _ _, List.prefix_append _ _⟩ rfl rfl (le_refl _) (by simp) (by simp) (le_refl _) ?_
      ?_ ?_
    · simpa [List.getD] using hx
    · intro b hb
      have := hok.2.1 b hb
      simp only [List.length_append, List.length_singleton]
      omega
    · intro b hb
      have := hok.2.2 b hb
      simp only [List.length_append, List.length_singleton]
      omega

/-- C99. With `from_numpy_array(a, tsamp, copy=True)` the array and the series go separate ways: whatever is done with the series
afterwards, the array keeps its contents (as long as the program does not write to it or make a series from it without a
copy); and whatever is written to the array, the series keeps its data, sampling time and metadata (as long as there is no
operation in place on it, and nothing is written to its own array and metadata). -/
theorem C99_copy_independent (h h' : Heap) (hok : HeapOK h) (a i : ℕ) (tsamp : ℝ) (ha : a < h.world.arrays.length)
    (hnone : ∀ o ∈ h.world.objs, o.data ≠ a) (hc : fromNumpyArray h (.array a) tsamp true = .ok (h', i)) :
    (∀ l : List Step, (∀ s ∈ l, (∀ x, s ≠ .write a x) ∧ ∀ t items, s ≠ .create (.array a) t items false) →
      (l.foldl Step.run h').world.arrays[a]? = h.world.arrays[a]?) ∧
    ∃ o, h'.world.objs[i]? = some o ∧ o.data ≠ a ∧ h'.world.dataOf o = h.world.arrays.getD a [] ∧
      ∀ l : List Step, (∀ s ∈ l, (∀ op, s ≠ .call i op true) ∧ (∀ x, s ≠ .write o.data x) ∧ (∀ key v, s ≠ .setItem i key v) ∧
          ∀ t items, s ≠ .create (.array o.data) t items false) →
        (l.foldl Step.run h').world.objs[i]? = some o ∧
        (l.foldl Step.run h').world.dataOf o = h.world.arrays.getD a [] ∧
        (l.foldl Step.run h').world.metaOf o = h'.world.metaOf o := by
  obtain ⟨k1, k2, o, k3, k4, k5, k6⟩ := C99_own_array h h' hok i (h.world.arrays.getD a [])
    (Or.inl ⟨.array a, tsamp, [], true, hc, Or.inr ⟨a, ha, rfl, rfl, Or.inl rfl⟩⟩)
  have hkept := kept_heapInit (m := none) (q := none) ha (by simp [InMetas]) (Or.inl rfl) hc
  have hheld : HeldBy h.world a none none := fun j p hp hd =>
    absurd (hd.resolve_right (by simp)) (hnone p (List.mem_of_getElem? hp))
  refine ⟨fun l hl => ?_, o, k3, by omega, k4, fun l hl => ?_⟩
  · rw [C99_array h' a (ha.trans_le k2.1.length_le) (fun p hp hd => ?_) l hl]
    · exact hkept.array
    · obtain ⟨j, hj⟩ := List.getElem?_of_mem hp
      have := hkept.held hheld j p hj (Or.inl hd)
      cases this
  · have := C99_series h' k1 i o k3 k6 l hl
    rw [k4] at this
    exact this

/-- C99. With `copy=False`, the series made from a `float32` array refers to that array: what the program writes to the array is seen in
the series, and `deredden` in place changes the array of the program. `normalise` and `downsample` in place do not change it;
the series has another array afterwards. -/
theorem C99_reference (h h' : Heap) (hok : HeapOK h) (a i : ℕ) (tsamp : ℝ) (ha : a < h.world.arrays.length)
    (hf : a ∉ h.notFloat32) (hc : fromNumpyArray h (.array a) tsamp false = .ok (h', i)) :
    HeapOK h' ∧ Extends h.world h'.world ∧ ∃ o, h'.world.objs[i]? = some o ∧ o.data = a ∧
      h'.world.dataOf o = h.world.arrays.getD a [] ∧
      (∀ x h'', heapWrite h' a x = .ok h'' → h''.world.objs[i]? = some o ∧ h''.world.dataOf o = x) ∧
      (∀ width minpts h'' r, heapCall h' i (.deredden width minpts) true = .ok (h'', r) →
        ∃ rmed, runningMedianOf (h.world.arrays.getD a []) tsamp width minpts = .ok rmed ∧
          h''.world.arrays[a]? = some (subtractArrays (h.world.arrays.getD a []) rmed)) ∧
      ∀ op h'' r, (∀ width minpts, op ≠ .deredden width minpts) → heapCall h' i op true = .ok (h'', r) →
        h''.world.arrays[a]? = h.world.arrays[a]? ∧ ∃ o'', h''.world.objs[i]? = some o'' ∧ o''.data ≠ a := by
  unfold fromNumpyArray heapInit at hc
  obtain ⟨⟨w1, j⟩, h1, h2⟩ := map_ok_inv hc
  cases h2
  have e : asArray h (.array a) = (h, a) := by simp [asArray, hf]
  rw [e] at h1 ⊢
  obtain ⟨g1, g2, g3, g4, g5⟩ := tsInit_inv h1
  simp only [Bool.false_eq_true, if_false] at g3 g4
  have ha' : a < w1.arrays.length := by rw [g3]; exact ha
  have hobj : w1.objs[j]? = some ⟨a, tsamp, h.world.metas.length⟩ := by simp [g4, g1]
  have hdata : w1.dataOf ⟨a, tsamp, h.world.metas.length⟩ = h.world.arrays.getD a [] := by
    simp only [World.dataOf, g3]
  have hok' : HeapOK ({ h with world := w1 } : Heap) := by
    refine ⟨fun o ho => ?_, fun b hb => ?_, fun b hb => ?_⟩
    · simp only at ho
      rw [g4] at ho
      simp only [List.mem_append, List.mem_singleton] at ho
      rcases ho with ho | rfl
      · exact ⟨(hok.1 o ho).1.trans_le g2.1.length_le, (hok.1 o ho).2.trans_le g2.2.1.length_le⟩
      · exact ⟨ha', by rw [g5]; exact Nat.lt_succ_self _⟩
    · exact (hok.2.1 b hb).trans_le g2.1.length_le
    · exact (hok.2.2 b hb).trans_le g2.1.length_le
  refine ⟨hok', g2, ⟨a, tsamp, h.world.metas.length⟩, hobj, rfl, hdata, ?_, ?_, ?_⟩
  · intro x h'' hw
    unfold heapWrite at hw
    split_ifs at hw
    cases hw
    exact ⟨hobj, by simp [World.dataOf, List.getD, ha']⟩
  · intro width minpts h'' r hcall
    have hro : a ∉ h.readOnly := by
      intro hro
      simp only [heapCall] at hcall
      obtain ⟨o2, h6, h7⟩ := bind_ok_inv hcall
      obtain ⟨p, h8, h9⟩ := bind_ok_inv h7
      rw [obj_ok_iff, hobj] at h6
      cases h6
      simp [hro] at h9
    rw [call_inplace _ j _ _ hobj hro] at hcall
    obtain ⟨v, h3, h4⟩ := map_ok_inv hcall
    cases h4
    obtain ⟨rmed, h5, h6⟩ := map_ok_inv h3
    rw [hdata] at h5 h6
    refine ⟨rmed, h5, ?_⟩
    subst h6
    simp [inPlaceWorld, ha']
  · intro op h'' r hop hcall
    obtain ⟨_, _, _, _, c5⟩ := C98_others _ _ _ _ _ hcall
    constructor
    · rcases c5 a ha' with ⟨o', width, minpts, _, _, hd⟩ | h6
      · exact absurd hd (hop width minpts)
      · rw [h6]
        simp only [g3]
    · have hfl := C98_flag_irrelevant ({ h with world := w1 } : Heap) [] j op true (Or.inr hop)
      rw [hcall, call_inplace _ j op _ hobj (by simp)] at hfl
      obtain ⟨v, h3, h4⟩ := map_ok_inv hfl
      have hlt := lt_of_getElem? hobj
      simp only [Prod.mk.injEq, Heap.mk.injEq] at h4
      rw [← h4.1.1]
      cases op with
      | deredden width minpts => exact absurd rfl (hop width minpts)
      | normalise =>
        refine ⟨⟨w1.arrays.length, v.2, h.world.metas.length⟩, ?_, by simp only; omega⟩
        simp [inPlaceWorld, World.rebindData, World.newArray, hlt]
      | downsample f =>
        refine ⟨⟨w1.arrays.length, v.2, h.world.metas.length⟩, ?_, by simp only; omega⟩
        simp [inPlaceWorld, World.rebindData, World.newArray, hlt]

/-- The hypotheses are met by an array of three samples. -/
example : HeapOK ⟨⟨[[5, 5, 5]], [], []⟩, [], []⟩ ∧ (∃ h' i, fromNumpyArray ⟨⟨[[5, 5, 5]], [], []⟩, [], []⟩ (.array 0) 1 true = .ok (h', i)) ∧
    ∃ h' i, fromNumpyArray ⟨⟨[[5, 5, 5]], [], []⟩, [], []⟩ (.array 0) 1 false = .ok (h', i) := by
  refine ⟨⟨by simp, by simp, by simp⟩, ?_, ?_⟩ <;>
  simp [fromNumpyArray, heapInit, asArray, World.newArray, tsInit, metadataCopy, dictGet, Except.bind, Except.map]

end Verif.Props
