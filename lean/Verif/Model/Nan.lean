import Verif.Model.PeriodogramF
import Verif.Model.RunningMedian
import Verif.Model.Trials
import Verif.Model.Peaks

/-!
# The search on data that contain NaN or infinite samples

`riptide/time_series.py` (`normalise`, `deredden`), `riptide/search.py`, `riptide/cpp/snr.hpp`, `riptide/cpp/kernels.hpp` and
`riptide/peak_detection.py`, with samples and S/N values that need not be finite numbers.

The extension module is compiled with `-ffinite-math-only` (setup.py 13-20): the compiler may assume that no NaN occurs, so the
outcome of a comparison in C++ code is left open (`NArith.lt` is any function). Additions, products and quotients are assumed to be
done by the instructions of the processor, which give NaN if an operand is NaN. The numpy code follows IEEE 754.
Simplifications: the zeros of different sign are not told apart; rounding is any function from the exact result to a value (which may be
infinite); expressions are evaluated in source order; `width_samples` is an argument, see `runningMedianOf`; `numpy.interp`, the standard
deviation of the noise and the dynamic threshold are any functions.
-/

namespace Verif.Model

/-- A value of type `float` or `double`. -/
inductive FVal
  | fin (q : ℚ)
  | inf (neg : Bool)
  | nan
  deriving DecidableEq

instance : Inhabited FVal := ⟨.fin 0⟩

namespace FVal

/-- `a < b` of IEEE 754, false if an operand is NaN. -/
def lt : FVal → FVal → Bool
  | .fin a, .fin b => a < b
  | .fin _, .inf neg => !neg
  | .inf neg, .fin _ => neg
  | .inf a, .inf b => a && !b
  | _, _ => false

/-- `-a`. -/
def neg : FVal → FVal
  | .fin a => .fin (-a)
  | .inf s => .inf (!s)
  | .nan => .nan

/-- `a + b`, a finite result is rounded with `r`. -/
def add (r : ℚ → FVal) : FVal → FVal → FVal
  | .fin a, .fin b => r (a + b)
  | .fin _, .inf s => .inf s
  | .inf s, .fin _ => .inf s
  | .inf s, .inf t => if s = t then .inf s else .nan
  | _, _ => .nan

/-- `a - b`. -/
def sub (r : ℚ → FVal) (a b : FVal) : FVal := add r a b.neg

/-- `a * b`. -/
def mul (r : ℚ → FVal) : FVal → FVal → FVal
  | .fin a, .fin b => r (a * b)
  | .fin a, .inf s => if a = 0 then .nan else .inf (decide (a < 0) != s)
  | .inf s, .fin b => if b = 0 then .nan else .inf (decide (b < 0) != s)
  | .inf s, .inf t => .inf (s != t)
  | _, _ => .nan

/-- `a / b`. -/
def div (r : ℚ → FVal) : FVal → FVal → FVal
  | .fin a, .fin b => if b = 0 then (if a = 0 then .nan else .inf (decide (a < 0))) else r (a / b)
  | .fin _, .inf _ => .fin 0
  | .inf s, .fin b => .inf (s != decide (b < 0))
  | _, _ => .nan

/-- Conversion to another type. -/
def cast (r : ℚ → FVal) : FVal → FVal
  | .fin a => r a
  | v => v

/-- Square root, `r` is the square root of a number that is not negative. -/
def sqrt (r : ℚ → FVal) : FVal → FVal
  | .fin a => if a < 0 then .nan else r a
  | .inf true => .nan
  | v => v

end FVal

/-- An order in which the elements of an array are added up. -/
inductive SumTree
  | leaf (i : ℕ)
  | node (a b : SumTree)

/-- The elements that are added. -/
def SumTree.leaves : SumTree → List ℕ
  | .leaf i => [i]
  | .node a b => a.leaves ++ b.leaves

/-- The sum in this order. -/
def SumTree.sum (r : ℚ → FVal) (x : ℕ → FVal) : SumTree → FVal
  | .leaf i => x i
  | .node a b => FVal.add r (a.sum r x) (b.sum r x)

/-- Rounding to `float` and `double`, rounding of the operations on whole arrays in numpy (`float` or `double`, depending on the version),
of a product that may be fused, square roots, the noise level as a function of rows, size and downsampling factor (periodogram.hpp
181), the comparison in C++ code, the order in which numpy adds `n` numbers, and `numpy.interp` (values, scrunch factor, abscissa). -/
structure NArith where
  single : ℚ → FVal
  double : ℚ → FVal
  work : ℚ → FVal
  prod : ℚ → FVal
  sqrt : ℚ → FVal
  std : ℕ → ℕ → ℚ → FVal
  lt : FVal → FVal → Bool
  tree : ℕ → SumTree
  interp : List FVal → ℕ → ℕ → FVal

namespace NArith

variable (N : NArith)

/-- `x.mean(dtype=float64)`, numpy: the sum divided by the number of elements. -/
def mean (x : List FVal) : FVal :=
  FVal.div N.double ((N.tree x.length).sum N.double (fun i => x.getD i default)) (.fin x.length)

/-- `x.var(dtype=float64)`, numpy: the mean of the squares of the differences to the mean. -/
def var (x : List FVal) : FVal :=
  N.mean (x.map (fun v => FVal.mul N.double (FVal.sub N.double v (N.mean x)) (FVal.sub N.double v (N.mean x))))

/-- The data of `TimeSeries.normalise()`, time_series.py 83-90; the constructor converts to `float`, time_series.py 40-44. Mean and norm
are numbers of type `double` that numpy first converts to the type of the operation. -/
def normalise (x : List FVal) : List FVal :=
  let m := FVal.cast N.work (N.mean x)
  let norm := FVal.cast N.work (FVal.sqrt N.sqrt (N.var x))
  x.map (fun v => FVal.cast N.single (FVal.div N.work (FVal.sub N.work v m) norm))

/-- `running_median`, running_medians.py 5-37, with the comparison of the C++ code. -/
def runningMedian (x : List FVal) (width : ℕ) : Except CallErr (List FVal) :=
  @Model.runningMedian FVal ⟨fun a b => N.lt a b = true⟩ (fun a b => inferInstanceAs (Decidable (N.lt a b = true))) _ x width

/-- `scrunch(data, factor)`, running_medians.py 40-46. -/
def scrunch (x : List FVal) (factor : ℕ) : List FVal :=
  (List.range (x.length / factor)).map (fun i =>
    FVal.div N.single ((N.tree factor).sum N.single (fun k => x.getD (i * factor + k) default)) (.fin factor))

/-- `fast_running_median(data, width_samples, min_points)`, running_medians.py 49-83. -/
def fastRunningMedian (x : List FVal) (width minPoints : ℕ) : Except CallErr (List FVal) :=
  if minPoints % 2 = 0 then .error .valueError
  else
    let scrunchFactor := max 1 (width / minPoints)
    if scrunchFactor = 1 then N.runningMedian x width
    else
      (N.runningMedian (N.scrunch x scrunchFactor) minPoints).bind fun rmed =>
      .ok ((List.range x.length).map (N.interp rmed scrunchFactor))

/-- The data of `TimeSeries.deredden(width, minpts)`, time_series.py 117-122. -/
def deredden (x : List FVal) (width minpts : ℕ) : Except CallErr (List FVal) :=
  (N.fastRunningMedian x width minpts).bind fun rmed =>
  .ok (List.zipWith (fun a b => FVal.cast N.single (FVal.sub N.work a b)) x rmed)

/-- The double precision accumulator of `circular_prefix_sum` after `j` iterations, kernels.hpp 76-83. -/
def prefixAcc (x : ℕ → FVal) : ℕ → FVal
  | 0 => .fin 0
  | j + 1 => FVal.add N.double (prefixAcc x j) (x j)

/-- `out[j]` of `circular_prefix_sum(x, size, nsum, out)`, kernels.hpp 73-101, for `j < nsum`. -/
def circularPrefixSum (x : ℕ → FVal) (size j : ℕ) : FVal :=
  if j < size then FVal.cast N.single (N.prefixAcc x (j + 1))
  else FVal.add N.single (FVal.cast N.single (N.prefixAcc x (j % size + 1)))
    (FVal.mul N.prod (FVal.cast N.single (.fin (j / size : ℕ))) (FVal.cast N.single (N.prefixAcc x size)))

/-- Loop of `diff_max(x, y, size)`, kernels.hpp 53-58, after `n` iterations. -/
def diffMaxLoop (x y : ℕ → FVal) : ℕ → FVal
  | 0 => FVal.sub N.single (x 0) (y 0)
  | n + 1 =>
    let dmax := diffMaxLoop x y n
    let d := FVal.sub N.single (x (n + 1)) (y (n + 1))
    if N.lt dmax d then d else dmax

/-- Body of the width loop of `snr1`, snr.hpp 46-52, for `w < n`. -/
def snrWidth (n : ℕ) (cpf : ℕ → FVal) (std : FVal) (w : ℕ) : FVal :=
  let sum := cpf (n - 1)
  let h := FVal.cast N.single (FVal.sqrt N.sqrt (FVal.div N.single (.fin (n - w : ℕ)) (FVal.cast N.single (.fin (n * w : ℕ)))))
  let b := FVal.mul N.single (FVal.div N.single (.fin w) (FVal.cast N.single (.fin (n - w : ℕ)))) h
  let dmax := N.diffMaxLoop (fun i => cpf (w + i)) cpf (n - 1)
  FVal.div N.single
    (FVal.sub N.single (FVal.mul N.prod (FVal.add N.single h b) dmax) (FVal.mul N.prod b sum)) std

/-- The S/N values of a profile, `snr1`, snr.hpp 37-55. -/
def snr1 (n : ℕ) (x : ℕ → FVal) (std : FVal) (widths : List ℕ) : List FVal :=
  widths.map (N.snrWidth n (N.circularPrefixSum x n) std)

/-- `boxcar_snr` of one profile, libffa.py 11-68 and python_bindings.cpp 140-177, after its check of the noise level. -/
def boxcarSnr (x : List FVal) (widths : List ℕ) (std : ℚ) : Except CallErr (List FVal) :=
  if widths.all (fun w => 0 < w ∧ w < x.length) then
    .ok (N.snr1 x.length (fun i => x.getD i default) (FVal.cast N.single (.fin std)) widths)
  else .error .valueError

/-- The operations of the search on the samples: `float` addition, weights (downsample.hpp 72-78), S/N of a row. -/
def ops : VOps FVal where
  add := FVal.add N.single
  wmul := fun q v => FVal.mul N.prod (FVal.cast N.single (.fin q)) v
  wadd := fun acc q v => FVal.add N.single acc (FVal.mul N.prod (FVal.cast N.single (.fin q)) v)
  snr := fun bins row widths rows size f k => (N.snr1 bins row (N.std rows size f) widths).getD k default

end NArith

/-- Arguments of the search; `rmedSamples` is `width_samples` of time_series.py 117. -/
structure NSearchArgs where
  tsamp : ℚ
  periodMin : ℚ
  periodMax : ℚ
  binsMin : ℕ
  binsMax : ℕ
  ducyMax : ℚ
  wtsp : ℚ
  deredden : Bool
  rmedSamples : ℕ
  rmedMinpts : ℕ
  alreadyNormalised : Bool

/-- The data that are searched, search.py 71-74. -/
def NArith.prepare (N : NArith) (s : NSearchArgs) (x : List FVal) : Except CallErr (List FVal) :=
  (if s.deredden then N.deredden x s.rmedSamples s.rmedMinpts else .ok x).bind fun x =>
  .ok (if s.alreadyNormalised then x else N.normalise x)

/-- The width trials, search.py 76. -/
def NSearchArgs.widths (s : NSearchArgs) : List ℕ := generateWidthTrials s.binsMin s.ducyMax s.wtsp

/-- `ffa_search`, search.py 70-82: trial periods, numbers of bins and S/N values. -/
def NArith.ffaSearch (N : NArith) (A : DArith) (idx : IdxRule) (s : NSearchArgs) (x : List FVal) :
    Except CallErr (List ℚ × List ℕ × List (List FVal)) :=
  (N.prepare s x).bind fun y =>
  A.binding N.ops idx y s.tsamp s.widths s.periodMin s.periodMax s.binsMin s.binsMax

/-- A peak: trial width number, trial period number and S/N; the other fields of `Peak` are functions of these. -/
structure NPeak where
  iw : ℕ
  ip : ℕ
  snr : FVal

/-- First maximum in the order of numpy's `argmax` (a NaN would count as maximum, but no NaN is selected). -/
def nArgmax (s : List FVal) (ix : List ℕ) : ℕ :=
  match ix with
  | [] => 0
  | i :: l => l.foldl (fun best j => if (s.getD best default).lt (s.getD j default) then j else best) i

/-- The peaks of one trial width, peak_detection.py 111-142 and 200-218. `thr` stands for lines 117-130: an exception or the dynamic
threshold as a function of the trial number. -/
def nPeaksOfWidth (thr : List ℚ → List FVal → Except PyErr (ℕ → FVal)) (argsort : List ℚ → List ℕ) (smin radius : ℚ)
    (freqs : List ℚ) (snrs : List (List FVal)) (iw : ℕ) : Except PyErr (List NPeak) :=
  let s := snrs.map (fun row => row.getD iw default)
  (thr freqs s).map fun t =>
    let indices := (List.range freqs.length).filter (fun i => (t i).lt (s.getD i default) && (FVal.fin smin).lt (s.getD i default))
    (cluster1d argsort (indices.map (fun i => freqs.getD i 0)) radius false).map fun cl =>
      let ip := nArgmax s (cl.map (fun k => indices.getD k 0))
      { iw, ip, snr := s.getD ip default }

/-- `find_peaks`, peak_detection.py 145-222. -/
def nFindPeaks (thr : List ℚ → List FVal → Except PyErr (ℕ → FVal)) (argsort : List ℚ → List ℕ) (smin radius : ℚ)
    (numWidths : ℕ) (periods : List ℚ) (snrs : List (List FVal)) : Except PyErr (List NPeak) :=
  ((List.range numWidths).mapM (nPeaksOfWidth thr argsort smin radius (periods.map (fun p => 1 / p)) snrs)).map
    fun ls => ls.flatten.mergeSort (fun a b => !a.snr.lt b.snr)

end Verif.Model
