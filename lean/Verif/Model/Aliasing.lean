import Verif.Model.TimeSeries

/-!
# Model of the constructors of `TimeSeries` and of arrays that are shared or read-only

Extends the heap of `Verif.Model.TimeSeries` with two flags of numpy arrays. Simplifications: as there (exact arithmetic, one
dimension); the conversion to `float32` makes a new array and keeps the values. The contents of a file are the list of its samples.
-/

namespace Verif.Model

/-- A heap with the arrays that are not of type `float32`, and those that must not be written to. -/
structure Heap where
  world : World
  notFloat32 : List ℕ
  readOnly : List ℕ

/-- An argument that `np.asarray` accepts: an existing array, or a sequence of numbers. -/
inductive ArrayLike
  | array (a : ℕ)
  | sequence (x : List ℝ)

/-- A new array that can be written to. -/
def Heap.newArray (h : Heap) (x : List ℝ) : Heap × ℕ := ({ h with world := (h.world.newArray x).1 }, h.world.arrays.length)

/-- `np.asarray(data, dtype=np.float32)`, time_series.py 41-44: an array of that type is returned as it is, otherwise a new one is
made. -/
def asArray (h : Heap) : ArrayLike → Heap × ℕ
  | .array a => if a ∈ h.notFloat32 then h.newArray (h.world.arrays.getD a []) else (h, a)
  | .sequence x => h.newArray x

/-- `TimeSeries(data, tsamp, metadata, copy)`, time_series.py 39-50. -/
noncomputable def heapInit (h : Heap) (data : ArrayLike) (tsamp : ℝ) (items : PyDict String MVal) (copy : Bool) :
    Except PyErr (Heap × ℕ) :=
  (tsInit (asArray h data).1.world (asArray h data).2 tsamp items copy).map fun r =>
    ({ (asArray h data).1 with world := r.1 }, r.2)

/-- `TimeSeries.from_numpy_array(array, tsamp, copy)`, time_series.py 220-239. -/
noncomputable def fromNumpyArray (h : Heap) (data : ArrayLike) (tsamp : ℝ) (copy : Bool) : Except PyErr (Heap × ℕ) :=
  heapInit h data tsamp [] copy

/-- `TimeSeries.from_binary(fname, tsamp, dtype)`, time_series.py 241-262, and `from_npy_file(fname, tsamp)`, 264-280. `x` are the
samples in the file, `float32` tells if that is their type. `np.fromfile` and `np.load` return a new array. -/
noncomputable def fromFile (h : Heap) (x : List ℝ) (float32 : Bool) (tsamp : ℝ) : Except PyErr (Heap × ℕ) :=
  let r := h.newArray x
  heapInit { r.1 with notFloat32 := if float32 then h.notFloat32 else r.2 :: h.notFloat32 } (.array r.2) tsamp [] false

/-- `load_json` of a file with a `TimeSeries`, serialization.py 88-91 and 104-116, time_series.py 387-389: the array is a view of the decoded
bytes, which must not be written to (see `fromBuffer` in `Verif.Model.Json`). -/
noncomputable def loadSeries (h : Heap) (x : List ℝ) (tsamp : ℝ) (items : PyDict String MVal) : Except PyErr (Heap × ℕ) :=
  let r := h.newArray x
  heapInit { r.1 with readOnly := r.2 :: h.readOnly } (.array r.2) tsamp items false

/-- `TimeSeries.copy()`, time_series.py 62-64: `copy.deepcopy` of the array (which can be written to, whatever the original) and of the
metadata. -/
def heapCopy (h : Heap) (id : ℕ) : Except PyErr (Heap × ℕ) :=
  (h.world.obj id).map fun o =>
    ({ h with world :=
        ⟨h.world.arrays ++ [h.world.dataOf o], h.world.metas ++ [h.world.metaOf o],
          h.world.objs ++ [⟨h.world.arrays.length, o.tsamp, h.world.metas.length⟩]⟩ }, h.world.objs.length)

/-- A call of one of the methods of a series. -/
inductive SeriesOp
  | normalise
  | deredden (width : ℝ) (minpts : ℕ)
  | downsample (factor : ℝ)

/-- `ts.normalise(inplace)`, `ts.deredden(width, minpts, inplace)` and `ts.downsample(factor, inplace)`, time_series.py 66-145.
`self._data -= rmed`, line 120, raises `ValueError` for an array that must not be written to, after the running median has been
computed. -/
noncomputable def heapCall (h : Heap) (id : ℕ) (op : SeriesOp) (inplace : Bool) : Except PyErr (Heap × Option ℕ) :=
  match op with
  | .normalise => (tsNormalise h.world id inplace).map fun r => ({ h with world := r.1 }, r.2)
  | .downsample factor => (tsDownsample h.world id factor inplace).map fun r => ({ h with world := r.1 }, r.2)
  | .deredden width minpts =>
    (h.world.obj id).bind fun o =>
    (tsDeredden h.world id width minpts inplace).bind fun r =>
    if inplace ∧ o.data ∈ h.readOnly then .error .valueError else .ok ({ h with world := r.1 }, r.2)

/-- `ts.fold(period, bins, subints)`, time_series.py 147-167. -/
noncomputable def heapFold (h : Heap) (id : ℕ) (period : ℝ) (bins : ℕ) (subints : Option ℤ) : Except PyErr (Heap × NdArray) :=
  (tsFold h.world id period bins subints).map fun r => ({ h with world := r.1 }, r.2)

/-- `a[:] = x` by the caller. -/
def heapWrite (h : Heap) (a : ℕ) (x : List ℝ) : Except PyErr Heap :=
  if a ∈ h.readOnly then .error .valueError
  else if x.length ≠ (h.world.arrays.getD a []).length then .error .valueError
  else .ok { h with world := { h.world with arrays := h.world.arrays.set a x } }

/-- `ts.metadata[key] = value` by the caller. -/
def heapSetMeta (h : Heap) (id : ℕ) (key : String) (value : MVal) : Except PyErr Heap :=
  (h.world.obj id).map fun o =>
    { h with world := { h.world with metas := h.world.metas.set o.metadata (dictSet (h.world.metaOf o) key value) } }

/-- A step of a program that uses `TimeSeries` objects. -/
inductive Step
  | create (data : ArrayLike) (tsamp : ℝ) (items : PyDict String MVal) (copy : Bool)
  | fromFile (x : List ℝ) (float32 : Bool) (tsamp : ℝ)
  | load (x : List ℝ) (tsamp : ℝ) (items : PyDict String MVal)
  | copy (id : ℕ)
  | call (id : ℕ) (op : SeriesOp) (inplace : Bool)
  | fold (id : ℕ) (period : ℝ) (bins : ℕ) (subints : Option ℤ)
  | write (a : ℕ) (x : List ℝ)
  | setItem (id : ℕ) (key : String) (value : MVal)

/-- The heap after the step; one that raises an exception has no effect. -/
noncomputable def Step.run (h : Heap) : Step → Heap
  | .create data tsamp items cp => match heapInit h data tsamp items cp with | .ok r => r.1 | .error _ => h
  | .fromFile x float32 tsamp => match Verif.Model.fromFile h x float32 tsamp with | .ok r => r.1 | .error _ => h
  | .load x tsamp items => match loadSeries h x tsamp items with | .ok r => r.1 | .error _ => h
  | .copy id => match heapCopy h id with | .ok r => r.1 | .error _ => h
  | .call id op inplace => match heapCall h id op inplace with | .ok r => r.1 | .error _ => h
  | .fold id period bins subints => match heapFold h id period bins subints with | .ok r => r.1 | .error _ => h
  | .write a x => match heapWrite h a x with | .ok r => r | .error _ => h
  | .setItem id key value => match heapSetMeta h id key value with | .ok r => r | .error _ => h

end Verif.Model
