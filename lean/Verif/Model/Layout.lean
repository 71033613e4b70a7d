import Verif.Model.TimeSeries
import Verif.Model.FFA

/-!
# Model of numpy arrays with a layout in memory, and of the functions that pass them to C++

The C++ functions read the memory from the first element on, one cell after the other. Whether these are the elements of the array, and
in their order, depends on the strides of the array. Numbers are real, as in `Verif.Model.TimeSeries`; the type of an array matters only
because an array of another type than the one asked for is converted (into a new array) and an array of that type is not.

Simplifications: arrays with one or two dimensions. The memory is unbounded: cells outside of an array have a value.
-/

namespace Verif.Model

/-- An array with one dimension: element `i` is in the cell `i * stride`, counted from the first element in units of the size of
an element. `native` tells if it has the type that the C++ functions take (`float32`, for widths `uint64`). -/
structure View1 (β : Type*) where
  size : ℕ
  stride : ℤ
  cell : ℤ → β
  native : Bool

/-- An array with two dimensions. -/
structure View2 where
  rows : ℕ
  cols : ℕ
  rowStride : ℤ
  colStride : ℤ
  cell : ℤ → ℝ
  native : Bool

variable {β : Type*}

/-- `x[i]`. -/
def View1.elem (v : View1 β) (i : ℕ) : β := v.cell (i * v.stride)

/-- The elements of an array. -/
def View1.elems (v : View1 β) : List β := (List.range v.size).map v.elem

/-- What a C++ function finds when it reads `size` cells from `data(0)` on. -/
def View1.raw (v : View1 β) : List β := (List.range v.size).map (fun (i : ℕ) => v.cell i)

/-- The flag `C_CONTIGUOUS`: the strides of dimensions with one element do not count, and an array without elements has the flag. -/
def View1.contiguous (v : View1 β) : Bool := v.size ≤ 1 || v.stride = 1

/-- A new array with the given elements. -/
def View1.ofList [Inhabited β] (x : List β) : View1 β := { size := x.length, stride := 1, cell := fun k => x.getD k.toNat default, native := true }

/-- `x[start : start + step * count : step]` for a slice of `count` elements inside the array. The step may be negative. -/
def View1.slice (v : View1 β) (start : ℕ) (count : ℕ) (step : ℤ) : View1 β :=
  { v with size := count, stride := step * v.stride, cell := fun k => v.cell (start * v.stride + k) }

/-- `x[:] = y`, or the result of an operation in place. -/
def View1.assign [Inhabited β] (v : View1 β) (y : List β) : View1 β :=
  { v with cell := fun k =>
      match (List.range v.size).find? (fun (i : ℕ) => (i : ℤ) * v.stride = k) with
      | some i => y.getD i default
      | none => v.cell k }

/-- `x[i, j]`. -/
def View2.elem (v : View2) (i j : ℕ) : ℝ := v.cell (i * v.rowStride + j * v.colStride)

/-- The rows of an array. -/
def View2.elems (v : View2) : List (List ℝ) := (List.range v.rows).map (fun i => (List.range v.cols).map (v.elem i))

/-- What a C++ function finds when it reads `rows` times `cols` cells from `data(0, 0)` on. -/
def View2.raw (v : View2) : List (List ℝ) :=
  (List.range v.rows).map (fun (i : ℕ) => (List.range v.cols).map (fun (j : ℕ) => v.cell (i * v.cols + j)))

/-- The flag `C_CONTIGUOUS`. -/
def View2.contiguous (v : View2) : Bool :=
  v.rows = 0 || v.cols = 0 || ((v.cols = 1 || v.colStride = 1) && (v.rows = 1 || v.rowStride = v.cols))

/-- The flag `F_CONTIGUOUS`. -/
def View2.fortran (v : View2) : Bool :=
  v.rows = 0 || v.cols = 0 || ((v.rows = 1 || v.rowStride = 1) && (v.cols = 1 || v.colStride = v.rows))

/-- `x.T`. -/
def View2.transpose (v : View2) : View2 :=
  { v with rows := v.cols, cols := v.rows, rowStride := v.colStride, colStride := v.rowStride }

/-- A new array with the elements of `v`, one row after the other. -/
def View2.copyC (v : View2) : View2 :=
  { rows := v.rows, cols := v.cols, rowStride := v.cols, colStride := 1, native := true,
    cell := fun k => v.elem (k.toNat / v.cols) (k.toNat % v.cols) }

/-- A new array with the elements of `v`, one column after the other. -/
def View2.copyF (v : View2) : View2 :=
  { rows := v.rows, cols := v.cols, rowStride := 1, colStride := v.rows, native := true,
    cell := fun k => v.elem (k.toNat % v.rows) (k.toNat / v.rows) }

/-- Conversion to another type, or `x.astype(np.float32)`: a new array whose layout is that of `x` as far as possible
(`order='K'`): by rows or by columns if `x` is, otherwise in the order of the strides. -/
def View2.castK (v : View2) : View2 :=
  if v.contiguous then v.copyC
  else if v.fortran then v.copyF
  else if |v.colStride| ≤ |v.rowStride| then v.copyC else v.copyF

/-- The argument as a `py::array_t<T>`, python_bindings.cpp 44, 72, 84, 119, 141, 163, 180, 212: an array of the type `T` is passed as
it is, otherwise a converted copy. -/
def View1.passed [Inhabited β] (v : View1 β) : View1 β := if v.native then v else View1.ofList v.elems

/-- The same for an array with two dimensions. -/
def View2.passed (v : View2) : View2 := if v.native then v else v.castK

/-- `assert_c_contiguous(arr)`, python_bindings.cpp 33-41; `std::invalid_argument` is a `ValueError` in python. -/
def assertContiguous (flag : Bool) : Except PyErr Unit := if flag then .ok () else .error .valueError

/-- `downsample(data, factor)`, libffa.py 228-243 and python_bindings.cpp 163-177, of an array with one dimension. -/
noncomputable def viewDownsample (v : View1 ℝ) (factor : ℝ) : Except PyErr (List ℝ) :=
  (assertContiguous v.passed.contiguous).bind fun _ => liftCall (downsampleBinding v.passed.raw factor)

/-- `libcpp.running_median(x, width)`, python_bindings.cpp 212-222. -/
noncomputable def bindingRunningMedian (v : View1 ℝ) (width : ℕ) : Except PyErr (List ℝ) :=
  (assertContiguous v.passed.contiguous).bind fun _ => liftCall (runningMedian v.passed.raw width)

/-- `np.ascontiguousarray(x)`. -/
def View1.ascontiguous [Inhabited β] (v : View1 β) : View1 β :=
  if v.contiguous then v else { View1.ofList v.elems with native := v.native }

/-- `running_median(x, width_samples)`, running_medians.py 5-37. -/
noncomputable def viewRunningMedian (v : View1 ℝ) (width : ℕ) : Except PyErr (List ℝ) := bindingRunningMedian v.ascontiguous width

/-- `fast_running_median(data, width_samples, min_points)`, running_medians.py 49-83. `scrunch`, lines 40-46, uses operations
of numpy on the elements and returns a new array. -/
noncomputable def viewFastRunningMedian (v : View1 ℝ) (width minPoints : ℕ) : Except PyErr (List ℝ) :=
  if minPoints % 2 = 0 then .error .valueError
  else
    let scrunchFactor := ⌊max 1 ((width : ℝ) / minPoints)⌋₊
    if scrunchFactor = 1 then viewRunningMedian v width
    else
      let scrunched := View1.ofList (scrunch v.elems scrunchFactor)
      (viewRunningMedian scrunched minPoints).bind fun rmed =>
      let xLores := fun j : ℕ => (j : ℝ) * scrunchFactor + 1 / 2 * ((scrunchFactor : ℝ) - 1)
      .ok ((List.range v.size).map (fun i : ℕ => interp scrunched.size xLores (fun j => rmed.getD j default) (i : ℝ)))

/-- `ffa2(data)`, libffa.py 71-91 and python_bindings.cpp 84-96; rows of the output. -/
noncomputable def viewFfa2 (idx : IdxRule) (v : View2) : Except PyErr (List (List ℝ)) :=
  (assertContiguous v.passed.contiguous).bind fun _ =>
    let x := v.passed.raw
    match ffa2 (· + ·) idx v.rows v.cols (fun i j => (x.getD i []).getD j 0) with
    | none => .error .unspecified
    | some y => .ok ((List.range v.rows).map (fun i => (List.range v.cols).map (y i)))

/-- `data[:m*p].reshape(m, p)` for `m * p ≤ data.size`, libffa.py 126: a view of the same memory. -/
def View1.reshape2 (v : View1 ℝ) (m p : ℕ) : View2 :=
  { rows := m, cols := p, rowStride := p * v.stride, colStride := v.stride, cell := v.cell, native := v.native }

/-- `ffa1(data, p)`, libffa.py 94-126, for data with one dimension and an integer `p`. -/
noncomputable def viewFfa1 (idx : IdxRule) (v : View1 ℝ) (p : ℤ) : Except PyErr (List (List ℝ)) :=
  if ¬ 0 < p then .error .valueError
  else if (v.size : ℤ) < p then .error .valueError
  else viewFfa2 idx (v.reshape2 (v.size / p.toNat) p.toNat)

/-- `libcpp.snr2(x, widths, stdnoise)`, python_bindings.cpp 141-160. -/
noncomputable def bindingSnr2 (v : View2) (widths : View1 ℕ) (std : ℝ) : Except PyErr (List (List ℝ)) :=
  (assertContiguous v.passed.contiguous).bind fun _ =>
  (assertContiguous widths.passed.contiguous).bind fun _ =>
    let x := v.passed.raw
    liftCall (boxcarSnr v.rows v.cols (fun i j => (x.getD i []).getD j 0) widths.passed.raw std)

/-- `boxcar_snr(data, widths, stdnoise)`, libffa.py 194-225, for data with two dimensions: `data.reshape(-1, b)` is `data` itself;
it raises `ValueError` if `b = 0`. `np.asarray(widths, dtype=np.uint64)` is what `passed` does. -/
noncomputable def viewBoxcarSnr (v : View2) (widths : View1 ℕ) (std : ℝ) : Except PyErr (List (List ℝ)) :=
  if v.cols = 0 then .error .valueError
  else bindingSnr2 v.castK widths.passed std

/-- `boxcar_snr(data, widths, stdnoise)` for data with one dimension, which are reshaped to one row. -/
noncomputable def viewBoxcarSnr1 (v : View1 ℝ) (widths : View1 ℕ) (std : ℝ) : Except PyErr (List ℝ) :=
  if v.size = 0 then .error .valueError
  else (bindingSnr2 (v.reshape2 1 v.size).castK widths.passed std).map (fun out => out.getD 0 [])

/-- A `TimeSeries` object. Its array is of type `float32`. -/
structure ViewSeries where
  data : View1 ℝ
  tsamp : ℝ
  items : PyDict String MVal

/-- `TimeSeries(data, tsamp, metadata=items, copy=copy)`, time_series.py 39-50. `np.asarray(data, dtype=np.float32)` returns an array of
that type as it is, with its strides; `.copy()` is a new array. -/
noncomputable def viewSeries (data : View1 ℝ) (tsamp : ℝ) (items : PyDict String MVal) (copy : Bool) : Except PyErr ViewSeries :=
  let arr := if copy then View1.ofList data.passed.elems else data.passed
  (metadataCopy items).map fun md => ⟨arr, tsamp, dictSet md "tobs" (.num ((arr.size : ℝ) * tsamp))⟩

/-- `ts.normalise()`, time_series.py 66-90: operations of numpy on the elements. -/
noncomputable def viewNormalise (ts : ViewSeries) : Except PyErr ViewSeries :=
  viewSeries (View1.ofList (normalised ts.data.elems)) ts.tsamp ts.items false

/-- The running median in `deredden`, time_series.py 117-118 (see `runningMedianOf`). -/
noncomputable def viewMedianOf (v : View1 ℝ) (tsamp width : ℝ) (minpts : ℕ) : Except PyErr (List ℝ) :=
  if tsamp = 0 then .error .zeroDivisionError
  else
    let widthSamples := pyRound (width / tsamp)
    if 0 ≤ widthSamples then viewFastRunningMedian v widthSamples.toNat minpts
    else if minpts % 2 = 0 then .error .valueError
    else .error .typeError

/-- `ts.deredden(width, minpts)`, time_series.py 93-122. -/
noncomputable def viewDeredden (ts : ViewSeries) (width : ℝ) (minpts : ℕ) : Except PyErr ViewSeries :=
  (viewMedianOf ts.data ts.tsamp width minpts).bind fun rmed =>
    viewSeries (View1.ofList (subtractArrays ts.data.elems rmed)) ts.tsamp ts.items false

/-- `ts.deredden(width, minpts, inplace=True)`, time_series.py 119-120: `self._data -= rmed` writes to the elements of the view. -/
noncomputable def viewDereddenInPlace (ts : ViewSeries) (width : ℝ) (minpts : ℕ) : Except PyErr ViewSeries :=
  (viewMedianOf ts.data ts.tsamp width minpts).map fun rmed =>
    { ts with data := ts.data.assign (subtractArrays ts.data.elems rmed) }

/-- `ts.downsample(factor)`, time_series.py 124-145. -/
noncomputable def viewTsDownsample (ts : ViewSeries) (factor : ℝ) : Except PyErr ViewSeries :=
  (viewDownsample ts.data factor).bind fun x => viewSeries (View1.ofList x) (factor * ts.tsamp) ts.items false

/-- `ts.fold(period, bins, subints)`, folding.py 19-81 (see `tsFold`). The array of `tsdown` is a new one, and `downsample_vertical`,
lines 6-16, makes its columns contiguous. -/
noncomputable def viewFold (ts : ViewSeries) (period : ℝ) (bins : ℕ) (subints : Option ℤ) : Except PyErr NdArray :=
  (foldChecks ((ts.data.size : ℝ) * ts.tsamp) ts.tsamp period bins subints).bind fun _ =>
  if ts.tsamp = 0 then .error .zeroDivisionError
  else
    let factor := period / bins / ts.tsamp
    (viewTsDownsample ts factor).bind fun tsdown =>
    let m := tsdown.data.size / bins
    if m = 0 then .error .zeroDivisionError
    else
      let scale := (Real.sqrt (m * factor))⁻¹
      foldOutput (reshape (tsdown.data.elems.map (· * scale)) m bins) m bins subints

/-- `libcpp.periodogram(...)`, python_bindings.cpp 180-209; `widths` is a new array, search.py 76. -/
noncomputable def viewPeriodogram (idx : IdxRule) (v : View1 ℝ) (tsamp : ℝ) (widths : List ℕ) (a : SearchArgs) :
    Except PyErr (List ℝ × List ℕ × List (List ℝ)) :=
  (assertContiguous v.passed.contiguous).bind fun _ =>
    liftCall (periodogramBinding idx v.passed.raw tsamp widths a.periodMin a.periodMax a.binsMin a.binsMax)

/-- `ffa_search(tseries, ...)`, search.py 10-82: the searched series, and widths, periods, numbers of bins and S/N of the periodogram. -/
noncomputable def viewSearch (idx : IdxRule) (ts : ViewSeries) (a : SearchArgs) :
    Except PyErr (ViewSeries × List ℕ × List ℝ × List ℕ × List (List ℝ)) :=
  (if a.deredden then viewDeredden ts a.rmedWidth a.rmedMinpts else .ok ts).bind fun ts =>
  (if a.alreadyNormalised then .ok ts else viewNormalise ts).bind fun ts =>
  let widths := generateWidthTrials a.binsMin a.ducyMax a.wtsp
  (viewPeriodogram idx ts.data ts.tsamp widths a).map fun r => (ts, widths, r)

end Verif.Model
