import Verif.Model.TimeSeries
import Verif.Model.Peaks

/-!
# Model of `WorkerPool.process_fname`, `riptide/pipeline/worker_pool.py` 47-71

Simplifications as in `Model/TimeSeries.lean` and `Model/Peaks.lean`. Log messages are modelled as far as formatting them can fail.
-/

namespace Verif.Model

/-- The sections `ffa_search` and `find_peaks` of a search range. -/
structure RangeConf where
  search : SearchArgs
  peaks : PeakParams ℝ

/-- The `Periodogram` with its `tobs` looked up in the metadata (periodogram.py 41-44). A `tobs` that is not a number cannot come
from a `TimeSeries`. -/
def pgramOf (w : World) (r : SearchResult) : Except PyErr (Pgram ℝ) :=
  match dictGet (w.metas.getD r.metadata []) "tobs" with
  | some (.num t) => .ok { widths := r.widths, periods := r.periods, foldbins := r.foldbins, snrs := r.snrs, tobs := t }
  | some .none => .error .typeError
  | some (.other _) => .error .unspecified
  | none => .error .keyError

/-- `pgram.metadata['dm']` where it is a number, worker_pool.py 50-51: `"{:.3f}".format(dm)` raises `TypeError` for `None`. -/
def dmOf (md : PyDict String MVal) : Except PyErr ℝ :=
  match dictGet md "dm" with
  | some (.num d) => .ok d
  | some .none => .error .typeError
  | some (.other _) => .error .unspecified
  | none => .error .keyError

/-- `ffa_search` followed by `find_peaks`. -/
noncomputable def searchAndFind (idx : IdxRule) (argsort : List ℝ → List ℕ) (fit : List ℝ → List ℝ → ℝ → ℝ) (w : World) (id : ℕ)
    (a : SearchArgs) (p : PeakParams ℝ) : Except PyErr (World × List (Peak ℝ)) :=
  (ffaSearch idx w id a).bind fun r =>
  (pgramOf r.1 r.2.2).bind fun g =>
  (findPeaks argsort fit p g).map fun peaks => (r.1, peaks)

/-- The loop of lines 60-69. -/
noncomputable def rangeLoop (idx : IdxRule) (argsort : List ℝ → List ℕ) (fit : List ℝ → List ℝ → ℝ → ℝ) (id : ℕ) :
    World → List RangeConf → List (Peak ℝ) → Except PyErr (List (Peak ℝ))
  | _, [], acc => .ok acc
  | w, c :: l, acc =>
    (searchAndFind idx argsort fit w id { c.search with deredden := false, alreadyNormalised := true } c.peaks).bind fun r =>
      rangeLoop idx argsort fit id r.1 l (acc ++ r.2)

/-- `process_fname` after the file has been loaded: lines 50-71. `id` is the loaded time series. The peaks come with the DM that
`find_peaks` copies into each of them (peak_detection.py 195, 216; the metadata are handed on unchanged by `deredden` and
`normalise`). -/
noncomputable def processLoaded (idx : IdxRule) (argsort : List ℝ → List ℕ) (fit : List ℝ → List ℝ → ℝ → ℝ) (rmedWidth : ℝ)
    (rmedMinpts : ℕ) (confs : List RangeConf) (w : World) (id : ℕ) : Except PyErr (List (Peak ℝ × ℝ)) :=
  (w.obj id).bind fun o =>
  (dmOf (w.metaOf o)).bind fun dm =>
  (tsDeredden w id rmedWidth rmedMinpts false).bind fun r1 =>
  (tsNormalise r1.1 (r1.2.getD 0) false).bind fun r2 =>
  (rangeLoop idx argsort fit (r2.2.getD 0) r2.1 confs []).map fun peaks => peaks.map fun p => (p, dm)

end Verif.Model
