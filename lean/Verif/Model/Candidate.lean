import Verif.Model.TimeSeries
import Verif.Model.Process
import Verif.Model.Ranges

/-!
# Model of `riptide/candidate.py`

Simplifications: the members of the peaks that make up the table `peaks` of a candidate are kept together. Of the plots only the
first statement of `plot_subints`, which depends on the number of dimensions, is modelled.
-/

namespace Verif.Model

/-- `Candidate`, candidate.py 45-49. `tsmeta` is the reference of the metadata of the time series; `peaks` is
`summary_dataframe()` of the cluster. -/
structure CandObj (K : Type*) where
  params : HPeak K
  tsmeta : ℕ
  peaks : List (HPeak K)
  subints : NdArray

open Classical in
/-- Lines 90-96: the number of sub-integrations passed to `fold`. -/
noncomputable def subintsToFold (subints : Option ℤ) (period length : ℝ) : Option ℤ :=
  match subints with
  | none => none
  | some s => if (s : ℝ) * period ≥ length then none else some s

/-- `Candidate.from_pipeline_output(ts, peak_cluster, bins, subints)`, candidate.py 75-98. -/
noncomputable def fromPipelineOutput (w : World) (id : ℕ) (cl : PCluster ℝ) (bins : ℕ) (subints : Option ℤ) :
    Except PyErr (World × CandObj ℝ) :=
  cl.centre.bind fun centre =>
  (w.obj id).bind fun o =>
  (tsFold w id centre.period bins (subintsToFold subints centre.period (w.lengthOf o))).map fun r =>
    (r.1, { params := centre, tsmeta := o.metadata, peaks := cl.peaks, subints := r.2 })

/-- `Candidate.profile`, candidate.py 60-64. -/
noncomputable def CandObj.profile {K : Type*} (c : CandObj K) : List ℝ :=
  match c.subints with
  | .d1 x => x
  | .d2 rows => (List.range (rows.headD []).length).map (fun j => (column rows j).sum)

/-- `plot_subints`, candidate.py 213-220: `__, nbins = X.shape` needs a shape of length two. -/
def plotSubints : NdArray → Except PyErr Unit
  | .d1 _ => .error .valueError
  | .d2 _ => .ok ()

/-- `Candidate.savefig` as far as it depends on the folded data, candidate.py 132-139, 255-266. -/
def CandObj.plot {K : Type*} (c : CandObj K) : Except PyErr Unit := plotSubints c.subints

/-- The index of `df.groupby('dm')`: the values of the column, each once, in increasing order. -/
def groupKeys {K : Type*} [LinearOrder K] (peaks : List (HPeak K)) : List K :=
  ((peaks.map (·.dm)).dedup).mergeSort (fun a b => decide (a ≤ b))

/-- `max()` of the column `snr` in the group `dm`. -/
def groupMax {K : Type*} [LinearOrder K] [Zero K] (peaks : List (HPeak K)) (dm : K) : K :=
  match (peaks.filter (fun p => decide (p.dm = dm))).map (·.snr) with
  | [] => 0
  | s :: l => l.foldl max s

/-- `Candidate.dm_curve`, candidate.py 66-72. -/
def CandObj.dmCurve {K : Type*} [LinearOrder K] [Zero K] (c : CandObj K) : List (K × K) :=
  (groupKeys c.peaks).map (fun d => (d, groupMax c.peaks d))

/-- Lines 318-321 of pipeline.py: the search range of the period, then the candidate. `subintsOf` reads `candidates.subints`.
`None` cannot be subscripted. -/
noncomputable def makeCandidate (ranges : List (SearchRange ℝ)) (subintsOf : SearchRange ℝ → Option ℤ) (w : World) (id : ℕ)
    (cl : PCluster ℝ) : Except PyErr (World × CandObj ℝ) :=
  cl.centre.bind fun centre =>
  (getSearchRange ranges centre.period).bind fun r =>
  match r with
  | none => .error .typeError
  | some r => fromPipelineOutput w id cl r.candBins (subintsOf r)

end Verif.Model
