import Verif.Model.Worker

/-!
# Model of the `rseek` program, `riptide/apps/rseek.py`

The table of the program is `rseekTable` in `Model/Peaks.lean`. Simplifications as in `Model/TimeSeries.lean` and `Model/Peaks.lean`;
reading the input file and printing the table are not modelled: the loaded time series is an object of the heap, the result is the
list of peaks from which the data frame is made. Options are complete words (`argparse` also takes unambiguous abbreviations);
how `float(text)` and `int(text)` read a text is left open, the integers are not negative, and NaN is left out.
-/

namespace Verif.Model

/-- A python number where the code expects a count: `int` (not negative) or `float`. -/
inductive PyNum
  | int (n : ℕ)
  | float (v : ℝ)

open Classical in
/-- `fast_running_median(data, width_samples, min_points)`, running_medians.py 49-83, for a `min_points` of either type. The compiled
`running_median` (python_bindings.cpp 212-222) takes an unsigned integer, so that a `float` is a `TypeError`, whatever its
value; that concerns `min_points` only if the data are scrunched. -/
noncomputable def fastRunningMedianNum (x : List ℝ) (width : ℕ) : PyNum → Except PyErr (List ℝ)
  | .int n => liftCall (fastRunningMedian x width n)
  | .float v =>
    if v = 2 * ⌊v / 2⌋ then .error .valueError
    else if ⌊max 1 ((width : ℝ) / v)⌋₊ = 1 then liftCall (runningMedian x width)
    else .error .typeError

/-- `min_points % 2` is zero, running_medians.py 71. -/
def PyNum.Even : PyNum → Prop
  | .int n => n % 2 = 0
  | .float v => v = 2 * ⌊v / 2⌋

open Classical in
/-- The running median of time_series.py 117-118 for a `minpts` of either type, see `runningMedianOf`. -/
noncomputable def runningMedianNum (x : List ℝ) (tsamp width : ℝ) (minpts : PyNum) : Except PyErr (List ℝ) :=
  if tsamp = 0 then .error .zeroDivisionError
  else
    let widthSamples := pyRound (width / tsamp)
    if 0 ≤ widthSamples then fastRunningMedianNum x widthSamples.toNat minpts
    else if minpts.Even then .error .valueError
    else .error .typeError

/-- `TimeSeries.deredden(width, minpts)`, time_series.py 93-122, for a `minpts` of either type. -/
noncomputable def tsDereddenNum (w : World) (id : ℕ) (width : ℝ) (minpts : PyNum) : Except PyErr (World × ℕ) :=
  (w.obj id).bind fun o =>
  (runningMedianNum (w.dataOf o) o.tsamp width minpts).bind fun rmed =>
  tsNew w (subtractArrays (w.dataOf o) rmed) o.tsamp (w.metaOf o)

/-- The options of the program, rseek.py 28-73. -/
structure RseekArgs where
  pmin : ℝ
  pmax : ℝ
  bmin : ℕ
  bmax : ℕ
  smin : ℝ
  wtsp : ℝ
  rmedWidth : ℝ
  rmedMinpts : PyNum
  clrad : ℝ

/-- The defaults: `argparse` converts texts only, a default that is a number is used as it is, so that `rmed_minpts` is the integer 101
although the option has `type=float`. -/
noncomputable def rseekDefaults : RseekArgs :=
  { pmin := 1, pmax := 10, bmin := 240, bmax := 260, smin := 7, wtsp := 3 / 2, rmedWidth := 4, rmedMinpts := .int 101, clrad := 1 / 5 }

/-- The option names. -/
inductive RseekOpt
  | Pmin | Pmax | bmin | bmax | smin | wtsp | rmed_width | rmed_minpts | clrad
  deriving DecidableEq

/-- One option on the command line, rseek.py 28-73: `type=float` or `type=int` applied to the text. `none`: the text cannot be converted,
the program prints its usage and stops. -/
noncomputable def setOption (toFloat : String → Option ℝ) (toInt : String → Option ℕ) (a : RseekArgs) (opt : RseekOpt × String) :
    Option RseekArgs :=
  match opt.1 with
  | .Pmin => (toFloat opt.2).map fun v => { a with pmin := v }
  | .Pmax => (toFloat opt.2).map fun v => { a with pmax := v }
  | .bmin => (toInt opt.2).map fun n => { a with bmin := n }
  | .bmax => (toInt opt.2).map fun n => { a with bmax := n }
  | .smin => (toFloat opt.2).map fun v => { a with smin := v }
  | .wtsp => (toFloat opt.2).map fun v => { a with wtsp := v }
  | .rmed_width => (toFloat opt.2).map fun v => { a with rmedWidth := v }
  | .rmed_minpts => (toFloat opt.2).map fun v => { a with rmedMinpts := .float v }
  | .clrad => (toFloat opt.2).map fun v => { a with clrad := v }

/-- `get_parser().parse_args()` for a list of options: the last one of a name counts. -/
noncomputable def rseekParse (toFloat : String → Option ℝ) (toInt : String → Option ℕ) (opts : List (RseekOpt × String)) :
    Option RseekArgs :=
  opts.foldlM (setOption toFloat toInt) rseekDefaults

/-- The arguments of `ffa_search` in rseek.py 115-126, apart from the dereddening. -/
noncomputable def RseekArgs.search (a : RseekArgs) : SearchArgs :=
  { periodMin := a.pmin, periodMax := a.pmax, fpmin := 1, binsMin := a.bmin, binsMax := a.bmax, ducyMax := 3 / 10, wtsp := a.wtsp,
    deredden := false, rmedWidth := a.rmedWidth, rmedMinpts := 0, alreadyNormalised := false }

/-- The arguments of `find_peaks` in rseek.py 127, with the defaults of peak_detection.py 146. -/
noncomputable def RseekArgs.peaks (a : RseekArgs) : PeakParams ℝ :=
  { smin := a.smin, segwidth := 5, nstd := 6, minseg := 10, clrad := a.clrad }

/-- `ffa_search` and `find_peaks` as called by the program, rseek.py 115-127. Dereddening comes first in `ffa_search` (search.py 71-72), the
rest of that function is `ffaSearch` without it. -/
noncomputable def rseekPeaks (idx : IdxRule) (argsort : List ℝ → List ℕ) (fit : List ℝ → List ℝ → ℝ → ℝ) (a : RseekArgs)
    (w : World) (id : ℕ) : Except PyErr (World × List (Peak ℝ)) :=
  (tsDereddenNum w id a.rmedWidth a.rmedMinpts).bind fun r =>
  searchAndFind idx argsort fit r.1 r.2 a.search a.peaks

/-- `run_program(args)`, rseek.py 84-164, after loading the series `id`: the rows of the data frame, or `None`. -/
noncomputable def rseekRun (idx : IdxRule) (argsort : List ℝ → List ℕ) (fit : List ℝ → List ℝ → ℝ → ℝ) (a : RseekArgs)
    (w : World) (id : ℕ) : Except PyErr (Option (List (Peak ℝ))) :=
  (rseekPeaks idx argsort fit a w id).bind fun r =>
  if r.2.isEmpty then .ok none
  else
    (w.obj id).bind fun o =>
    if w.lengthOf o = 0 then .error .zeroDivisionError
    else .ok (some (rseekTable argsort r.2 (a.clrad / w.lengthOf o)))

end Verif.Model
