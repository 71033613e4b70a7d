import Verif.Model.Pipeline

/-!
# Model of the cluster table of the pipeline (`clusters.csv`), `riptide/pipeline/peak_cluster.py`

The text of the CSV file (pandas) is left out; a table is a list of rows.
-/

namespace Verif.Model

/-- A row of the table: the columns of peak_cluster.py 82. `rank` and `fundamental_rank` may be `None` before the flagging. -/
structure ClusterRow (K : Type*) where
  rank : Option ℕ
  period : K
  dm : K
  snr : K
  ducy : K
  freq : K
  npeaks : ℕ
  hfracNum : ℤ
  hfracDenom : ℤ
  fundamentalRank : Option ℕ
deriving DecidableEq

variable {K : Type*} [LinearOrder K]

/-- `hfrac_num` and `hfrac_denom` of `PeakCluster.summary_dict`, peak_cluster.py 62-63. `None` has no `numerator`. -/
def PCluster.hfracParts (c : PCluster K) : Except PyErr (ℤ × ℤ) :=
  if c.isHarmonic then
    match c.hfrac with
    | none => .error .attributeError
    | some q => .ok (q.num, q.den)
  else .ok (0, 0)

/-- `fundamental_rank` of `PeakCluster.summary_dict`, peak_cluster.py 64. -/
def fundamentalRankOf (heap : ℕ → PCluster K) (i : ℕ) : Option ℕ :=
  match (heap i).parent with
  | none => (heap i).rank
  | some f => (heap f).rank

/-- `PeakCluster.summary_dict`, peak_cluster.py 50-65, restricted to the columns of the table; `c` is the cluster and its centre. -/
def clusterRow (heap : ℕ → PCluster K) (c : ℕ × HPeak K) : Except PyErr (ClusterRow K) :=
  (heap c.1).hfracParts.map fun h =>
    { rank := (heap c.1).rank, period := c.2.period, dm := c.2.dm, snr := c.2.snr, ducy := c.2.ducy, freq := c.2.freq,
      npeaks := (heap c.1).peaks.length, hfracNum := h.1, hfracDenom := h.2, fundamentalRank := fundamentalRankOf heap c.1 }

/-- Line 83, `df[columns]`: a frame made of an empty list has no columns at all. -/
def selectColumns (rows : List (ClusterRow K)) : Except PyErr (List (ClusterRow K)) := if rows.length = 0 then .error .keyError else .ok rows

/-- `clusters_to_dataframe`, peak_cluster.py 73-84. -/
def clustersToDataframe (heap : ℕ → PCluster K) (clusters : List ℕ) : Except PyErr (List (ClusterRow K)) :=
  (withCentres heap clusters).bind fun cs => ((sortBySnr cs).mapM (clusterRow heap)).bind selectColumns

end Verif.Model
