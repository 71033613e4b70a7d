import Mathlib.Analysis.Real.Sqrt
import Mathlib.Algebra.Order.Archimedean.Real.Basic
import Verif.Model.Py
import Verif.Model.Downsample
import Verif.Model.RunningMedian
import Verif.Model.Periodogram
import Verif.Model.Trials

/-!
# Model of `riptide/time_series.py`, `riptide/folding.py` and `riptide/search.py`

Python objects live in a heap (`World`): numpy arrays, metadata dictionaries and `TimeSeries` objects are referred to by their
index, so that two `TimeSeries` may share an array and an in-place operation is a change of an existing entry.

Simplifications: real arithmetic instead of floating point, in particular no conversion to `float32`, and no NaN: the
normalisation of a constant series is given the value of a real division by zero. Data have one dimension.
-/

namespace Verif.Model

/-- A value in a metadata dictionary. `other` stands for any value that is neither `None` nor a number. -/
inductive MVal
  | none
  | num (x : ℝ)
  | other (tag : ℕ)

/-- A `TimeSeries` object: references to its data array and its metadata dictionary, and the sampling time. -/
structure TsObj where
  data : ℕ
  tsamp : ℝ
  metadata : ℕ

/-- The heap. -/
structure World where
  arrays : List (List ℝ)
  metas : List (PyDict String MVal)
  objs : List TsObj

/-- An exception in one of the C++ functions. -/
def liftCall {β : Type*} : Except CallErr β → Except PyErr β
  | .ok b => .ok b
  | .error .valueError => .error .valueError
  | .error .undefinedBehaviour => .error .unspecified

/-- The object with reference `id` (a dangling reference cannot occur in python). -/
def World.obj (w : World) (id : ℕ) : Except PyErr TsObj :=
  match w.objs[id]? with
  | some o => .ok o
  | none => .error .unspecified

/-- `ts.data`, time_series.py 52-55. -/
def World.dataOf (w : World) (o : TsObj) : List ℝ := w.arrays.getD o.data []

/-- `ts.metadata`. -/
def World.metaOf (w : World) (o : TsObj) : PyDict String MVal := w.metas.getD o.metadata []

/-- `ts.length`, time_series.py 369-372. -/
noncomputable def World.lengthOf (w : World) (o : TsObj) : ℝ := ((w.dataOf o).length : ℝ) * o.tsamp

/-- A new array. -/
def World.newArray (w : World) (x : List ℝ) : World × ℕ :=
  ({ w with arrays := w.arrays ++ [x] }, w.arrays.length)

/-- `d.setdefault(k, None)`. -/
def setDefaultNone (d : PyDict String MVal) (k : String) : PyDict String MVal :=
  match dictGet d k with
  | some _ => d
  | none => dictSet d k .none

/-- The reserved keys of the metadata, metadata.py 11-17. -/
def reservedKeys : List String := ["source_name", "skycoord", "dm", "mjd", "tobs", "fname"]

open Classical in
/-- `Metadata(items)`, metadata.py 45-51: a shallow copy with the missing reserved keys set to `None`. Of the validation only the
condition on `tobs` (a number must be positive) is modelled here, as it is the only entry that the
modelled functions change. -/
noncomputable def metadataCopy (items : PyDict String MVal) : Except PyErr (PyDict String MVal) :=
  match dictGet items "tobs" with
  | some (.num t) => if ¬ t > 0 then .error .schemaError else .ok (reservedKeys.foldl setDefaultNone items)
  | some (.other _) => .error .schemaError
  | _ => .ok (reservedKeys.foldl setDefaultNone items)

/-- `TimeSeries(data, tsamp, metadata=items, copy=copy)`, time_series.py 40-50, where `data` is the reference of a `float32` array
(`np.asarray` returns it as it is). Returns the reference of the new object. -/
noncomputable def tsInit (w : World) (data : ℕ) (tsamp : ℝ) (items : PyDict String MVal) (copy : Bool) :
    Except PyErr (World × ℕ) :=
  let (w, arr) := if copy then w.newArray (w.arrays.getD data []) else (w, data)
  (metadataCopy items).bind fun md =>
  let length := ((w.arrays.getD arr []).length : ℝ) * tsamp
  let md := dictSet md "tobs" (.num length)
  .ok ({ w with metas := w.metas ++ [md], objs := w.objs ++ [⟨arr, tsamp, w.metas.length⟩] }, w.objs.length)

/-- `TimeSeries(x, ...)` for the array `x` that has just been computed. -/
noncomputable def tsNew (w : World) (x : List ℝ) (tsamp : ℝ) (items : PyDict String MVal) : Except PyErr (World × ℕ) :=
  let (w, arr) := w.newArray x
  tsInit w arr tsamp items false

/-- `self._data = x` with the array `x` that has just been computed. -/
def World.rebindData (w : World) (id : ℕ) (o : TsObj) (x : List ℝ) (tsamp : ℝ) : World :=
  let (w, arr) := w.newArray x
  { w with objs := w.objs.set id { o with data := arr, tsamp := tsamp } }

/-- `x.mean()`. -/
noncomputable def meanOf (x : List ℝ) : ℝ := x.sum / x.length

/-- `x.var()`. -/
noncomputable def varOf (x : List ℝ) : ℝ := (x.map (fun v => (v - meanOf x) ^ 2)).sum / x.length

/-- `(data - m) / norm`, time_series.py 83-90. -/
noncomputable def normalised (x : List ℝ) : List ℝ := x.map (fun v => (v - meanOf x) / Real.sqrt (varOf x))

/-- `TimeSeries.normalise(inplace)`, time_series.py 66-90. -/
noncomputable def tsNormalise (w : World) (id : ℕ) (inplace : Bool) : Except PyErr (World × Option ℕ) :=
  (w.obj id).bind fun o =>
  if inplace then .ok (w.rebindData id o (normalised (w.dataOf o)) o.tsamp, none)
  else (tsNew w (normalised (w.dataOf o)) o.tsamp (w.metaOf o)).bind fun (w, i) => .ok (w, some i)

/-- `int(round(x))`: nearest integer, ties to even. -/
noncomputable def pyRound (x : ℝ) : ℤ :=
  if x - ⌊x⌋ < 1 / 2 then ⌊x⌋
  else if 1 / 2 < x - ⌊x⌋ then ⌊x⌋ + 1
  else if ⌊x⌋ % 2 = 0 then ⌊x⌋ else ⌊x⌋ + 1

/-- The running median of time_series.py 117-118. `minpts` is not negative; a negative `width_samples` is rejected by the
type conversion of the C++ function (running_medians.py 73-78). -/
noncomputable def runningMedianOf (x : List ℝ) (tsamp width : ℝ) (minpts : ℕ) : Except PyErr (List ℝ) :=
  if tsamp = 0 then .error .zeroDivisionError
  else
    let widthSamples := pyRound (width / tsamp)
    if 0 ≤ widthSamples then liftCall (fastRunningMedian x widthSamples.toNat minpts)
    else if minpts % 2 = 0 then .error .valueError
    else .error .typeError

/-- `data - rmed`. -/
noncomputable def subtractArrays (x y : List ℝ) : List ℝ := List.zipWith (· - ·) x y

/-- `TimeSeries.deredden(width, minpts, inplace)`, time_series.py 93-122. `self._data -= rmed` changes the array itself. -/
noncomputable def tsDeredden (w : World) (id : ℕ) (width : ℝ) (minpts : ℕ) (inplace : Bool) :
    Except PyErr (World × Option ℕ) :=
  (w.obj id).bind fun o =>
  (runningMedianOf (w.dataOf o) o.tsamp width minpts).bind fun rmed =>
  if inplace then .ok ({ w with arrays := w.arrays.set o.data (subtractArrays (w.dataOf o) rmed) }, none)
  else (tsNew w (subtractArrays (w.dataOf o) rmed) o.tsamp (w.metaOf o)).bind fun (w, i) => .ok (w, some i)

/-- `TimeSeries.downsample(factor, inplace)`, time_series.py 124-145. -/
noncomputable def tsDownsample (w : World) (id : ℕ) (factor : ℝ) (inplace : Bool) : Except PyErr (World × Option ℕ) :=
  (w.obj id).bind fun o =>
  (liftCall (downsampleBinding (w.dataOf o) factor)).bind fun x =>
  if inplace then .ok (w.rebindData id o x (o.tsamp * factor), none)
  else (tsNew w x (factor * o.tsamp) (w.metaOf o)).bind fun (w, i) => .ok (w, some i)

/-- An array with one or two dimensions (rows). -/
inductive NdArray
  | d1 (x : List ℝ)
  | d2 (rows : List (List ℝ))

/-- Column `j` of an array with two dimensions. -/
noncomputable def column (rows : List (List ℝ)) (j : ℕ) : List ℝ := rows.map (fun r => r.getD j 0)

/-- `x.reshape(m, bins)`. -/
def reshape (x : List ℝ) (m bins : ℕ) : List (List ℝ) := (List.range m).map (fun i => (x.drop (i * bins)).take bins)

/-- `downsample_vertical(X, factor)`, folding.py 6-16, for an array with `bins` columns: every column is downsampled, and the
results (of equal length) are the columns of the output. -/
noncomputable def downsampleVertical (X : List (List ℝ)) (bins : ℕ) (factor : ℝ) : Except PyErr (List (List ℝ)) :=
  let m := X.length
  if ¬ factor > 1 then .error .valueError
  else if ¬ factor < m then .error .valueError
  else
    ((List.range bins).mapM (fun j => liftCall (downsampleBinding (column X j) factor))).bind fun out =>
    .ok ((List.range ((out.getD 0 []).length)).map (fun i => out.map (fun c => c.getD i 0)))

/-- The checks of folding.py 48-62; `bins` is not negative and `subints` is an integer or `None`. -/
noncomputable def foldChecks (length tsamp period : ℝ) (bins : ℕ) (subints : Option ℤ) : Except PyErr Unit :=
  if period > length then .error .valueError
  else if bins = 0 then .error .zeroDivisionError
  else if ¬ period / bins > tsamp then .error .valueError
  else match subints with
    | none => .ok ()
    | some s =>
      if ¬ s ≥ 1 then .error .valueError
      else if (s : ℝ) > length / period then .error .valueError
      else .ok ()

/-- What `fold` makes of the scaled array `folded` of shape `(m, bins)`, folding.py 72-81. -/
noncomputable def foldOutput (folded : List (List ℝ)) (m bins : ℕ) (subints : Option ℤ) : Except PyErr NdArray :=
  if subints = some 1 ∨ m = 1 then .ok (.d1 ((List.range bins).map (fun j => (column folded j).sum)))
  else match subints with
    | none => .ok (.d2 folded)
    | some s =>
      if s = m then .ok (.d2 folded)
      else
        let vf : ℝ := (m : ℝ) / s
        (downsampleVertical folded bins vf).bind fun out => .ok (.d2 out)

/-- `fold(ts, period, bins, subints)`, folding.py 19-81. The array `folded` is a view of the first `m * bins` samples
of the array of `tsdown`, so `folded *= ...` changes that array. A sampling time of zero would raise `ZeroDivisionError`
in line 64. -/
noncomputable def tsFold (w : World) (id : ℕ) (period : ℝ) (bins : ℕ) (subints : Option ℤ) : Except PyErr (World × NdArray) :=
  (w.obj id).bind fun o =>
  (foldChecks (w.lengthOf o) o.tsamp period bins subints).bind fun _ =>
  if o.tsamp = 0 then .error .zeroDivisionError
  else
    let factor := period / bins / o.tsamp
    (tsDownsample w id factor false).bind fun (w, new) =>
    (w.obj (new.getD 0)).bind fun tsdown =>
    let nsamp := (w.dataOf tsdown).length
    let m := nsamp / bins
    if m = 0 then .error .zeroDivisionError
    else
      let scale := (Real.sqrt (m * factor))⁻¹
      let scaled := ((w.dataOf tsdown).take (m * bins)).map (· * scale) ++ (w.dataOf tsdown).drop (m * bins)
      let w : World := { w with arrays := w.arrays.set tsdown.data scaled }
      let folded := reshape (w.dataOf tsdown) m bins
      (foldOutput folded m bins subints).bind fun out => .ok (w, out)

/-- The arguments of `ffa_search` other than the time series, search.py 11-12. -/
structure SearchArgs where
  periodMin : ℝ
  periodMax : ℝ
  fpmin : ℤ
  binsMin : ℕ
  binsMax : ℕ
  ducyMax : ℝ
  wtsp : ℝ
  deredden : Bool
  rmedWidth : ℝ
  rmedMinpts : ℕ
  alreadyNormalised : Bool

/-- The `Periodogram` returned by `ffa_search`, periodogram.py 29-34, with the reference of its metadata. -/
structure SearchResult where
  widths : List ℕ
  periods : List ℝ
  foldbins : List ℕ
  snrs : List (List ℝ)
  metadata : ℕ

/-- search.py 71-72. -/
noncomputable def searchDeredden (w : World) (id : ℕ) (a : SearchArgs) : Except PyErr (World × ℕ) :=
  if a.deredden then (tsDeredden w id a.rmedWidth a.rmedMinpts false).bind fun (w, i) => .ok (w, i.getD 0) else .ok (w, id)

/-- search.py 73-74. -/
noncomputable def searchNormalise (w : World) (id : ℕ) (a : SearchArgs) : Except PyErr (World × ℕ) :=
  if a.alreadyNormalised then .ok (w, id) else (tsNormalise w id false).bind fun (w, i) => .ok (w, i.getD 0)

/-- `ffa_search(tseries, ...)`, search.py 10-82; returns the searched time series and the periodogram. `fpmin` is not used. -/
noncomputable def ffaSearch (idx : IdxRule) (w : World) (id : ℕ) (a : SearchArgs) :
    Except PyErr (World × ℕ × SearchResult) :=
  (searchDeredden w id a).bind fun (w, id) =>
  (searchNormalise w id a).bind fun (w, id) =>
  let widths := generateWidthTrials a.binsMin a.ducyMax a.wtsp
  (w.obj id).bind fun o =>
  (liftCall (periodogramBinding idx (w.dataOf o) o.tsamp widths a.periodMin a.periodMax a.binsMin a.binsMax)).bind
    fun (periods, foldbins, snrs) => .ok (w, id, { widths, periods, foldbins, snrs, metadata := o.metadata })

end Verif.Model
