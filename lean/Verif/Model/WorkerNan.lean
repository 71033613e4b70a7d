import Verif.Model.Nan
import Verif.Model.TimeSeries

/-!
# A worker of the pipeline on samples that may be NaN or infinite

`WorkerPool.process_fname`, worker_pool.py 47-71, with the search and the peak detection of `Model/Nan.lean`. Simplifications: those of `Model/Nan.lean`; of a peak there are only
the numbers of its trials and its S/N; the DM, the log messages and the columns of the periodogram that no decision depends on are left out.
-/

namespace Verif.Model

/-- An element of the section `ranges` of the configuration: arguments of `ffa_search` and of `find_peaks`. `thr` stands for the dynamic threshold (an exception or a function of the trial number), as in
`nFindPeaks`. -/
structure NRange where
  periodMin : ℚ
  periodMax : ℚ
  binsMin : ℕ
  binsMax : ℕ
  ducyMax : ℚ
  wtsp : ℚ
  thr : List ℚ → List FVal → Except PyErr (ℕ → FVal)
  smin : ℚ
  radius : ℚ

/-- `kw_search` after its update, worker_pool.py 61-65. -/
def NRange.args (r : NRange) (tsamp : ℚ) : NSearchArgs :=
  { tsamp, periodMin := r.periodMin, periodMax := r.periodMax, binsMin := r.binsMin, binsMax := r.binsMax, ducyMax := r.ducyMax, wtsp := r.wtsp,
    deredden := false, rmedSamples := 0, rmedMinpts := 0, alreadyNormalised := true }

/-- Lines 54-58 of worker_pool.py: `ts.deredden(...)` and `ts.normalise()`. -/
def NArith.workerPrepare (N : NArith) (rmedSamples rmedMinpts : ℕ) (x : List FVal) : Except CallErr (List FVal) :=
  (N.deredden x rmedSamples rmedMinpts).bind fun y => .ok (N.normalise y)

/-- One iteration of the loop over the ranges, worker_pool.py 60-68. -/
def NArith.rangePeaks (N : NArith) (A : DArith) (idx : IdxRule) (argsort : List ℚ → List ℕ) (tsamp : ℚ) (y : List FVal) (r : NRange) : Except PyErr (List NPeak) :=
  (liftCall (N.ffaSearch A idx (r.args tsamp) y)).bind fun out =>
  nFindPeaks r.thr argsort r.smin r.radius (r.args tsamp).widths.length out.1 out.2.2

/-- `process_fname`, worker_pool.py 47-71, for a file with the samples `x`. -/
def NArith.processFile (N : NArith) (A : DArith) (idx : IdxRule) (argsort : List ℚ → List ℕ) (rmedSamples rmedMinpts : ℕ) (ranges : List NRange) (tsamp : ℚ) (x : List FVal) :
    Except PyErr (List NPeak) :=
  (liftCall (N.workerPrepare rmedSamples rmedMinpts x)).bind fun y =>
  (ranges.mapM (N.rangePeaks A idx argsort tsamp y)).map List.flatten

end Verif.Model
