import Verif.Model.Config
import Verif.Model.Rseek

/-!
# `WorkerPool.process_fname` with the sections of a validated configuration

`riptide/pipeline/worker_pool.py` 47-71 and `riptide/pipeline/pipeline.py` 165-172: the sections `dereddening` and `ranges` of the
configuration become keyword arguments of `deredden`, `ffa_search` and `find_peaks`. Simplifications: the keyword arguments
of all ranges are converted before the loop over the ranges, an infinite number is not modelled.
-/

namespace Verif.Model

/-- The number that a python object is in arithmetic. -/
noncomputable def pyReal : PyVal → Except PyErr ℝ
  | .float (.fin q) => .ok q
  | .float _ => .error .unspecified
  | .int i => .ok i
  | .bool b => .ok (if b then 1 else 0)
  | _ => .error .typeError

/-- An object used as a count. A negative one is left out. -/
def pyCount : PyVal → Except PyErr ℕ
  | .int i => if 0 ≤ i then .ok i.toNat else .error .unspecified
  | .bool b => .ok (if b then 1 else 0)
  | _ => .error .typeError

/-- The argument `minpts`, see `PyNum`. -/
noncomputable def pyNum : PyVal → Except PyErr PyNum
  | .int i => if 0 ≤ i then .ok (.int i.toNat) else .error .unspecified
  | .bool b => .ok (.int (if b then 1 else 0))
  | .float (.fin q) => .ok (.float q)
  | .float _ => .error .unspecified
  | _ => .error .typeError

/-- A keyword argument with its default value. -/
def keyword {β : Type*} (conv : PyVal → Except PyErr β) (dflt : β) (d : List (String × PyVal)) (k : String) : Except PyErr β :=
  match dictGet d k with
  | some v => conv v
  | none => .ok dflt

/-- `conf[k]` where it must exist. -/
def required {β : Type*} (conv : PyVal → Except PyErr β) (d : List (String × PyVal)) (k : String) : Except PyErr β :=
  match dictGet d k with
  | some v => conv v
  | none => .error .keyError

/-- An object used as a dictionary. -/
def pyDict : PyVal → Except PyErr (List (String × PyVal))
  | .dict d => .ok d
  | _ => .error .typeError

/-- An object used as a list. -/
def pyList : PyVal → Except PyErr (List PyVal)
  | .list l => .ok l
  | _ => .error .typeError

/-- `ffa_search(ts, **kw_search)`, worker_pool.py 61-66 with the default values of search.py 11-12. -/
noncomputable def searchArgsOf (d : List (String × PyVal)) : Except PyErr SearchArgs :=
  (keyword pyReal 1 d "period_min").bind fun periodMin =>
  (keyword pyReal 30 d "period_max").bind fun periodMax =>
  (keyword pyCount 8 d "fpmin").bind fun fpmin =>
  (keyword pyCount 240 d "bins_min").bind fun binsMin =>
  (keyword pyCount 260 d "bins_max").bind fun binsMax =>
  (keyword pyReal (1 / 5) d "ducy_max").bind fun ducyMax =>
  (keyword pyReal (3 / 2) d "wtsp").bind fun wtsp =>
  .ok { periodMin, periodMax, fpmin, binsMin, binsMax, ducyMax, wtsp, deredden := false, rmedWidth := 4, rmedMinpts := 101,
        alreadyNormalised := true }

/-- `find_peaks(pgram, **conf['find_peaks'])`, worker_pool.py 67 with the default values of peak_detection.py 146. The degree of the
polynomial is part of the fit. A `clrad` of `None` is an error when it is used (line 136), which is later than here. -/
noncomputable def peakParamsOf (d : List (String × PyVal)) : Except PyErr (PeakParams ℝ) :=
  (keyword pyReal 6 d "smin").bind fun smin =>
  (keyword pyReal 5 d "segwidth").bind fun segwidth =>
  (keyword pyReal 6 d "nstd").bind fun nstd =>
  (keyword pyCount 10 d "minseg").bind fun minseg =>
  (keyword pyReal (1 / 10) d "clrad").bind fun clrad =>
  .ok { smin, segwidth, nstd, minseg, clrad }

/-- The arguments that a search range stands for. -/
noncomputable def rangeConfOf (v : PyVal) : Except PyErr RangeConf :=
  (pyDict v).bind fun conf =>
  (required pyDict conf "ffa_search").bind fun s =>
  (required pyDict conf "find_peaks").bind fun p =>
  (searchArgsOf s).bind fun search =>
  (peakParamsOf p).bind fun peaks =>
  .ok { search, peaks }

/-- `process_fname` after the file has been loaded, worker_pool.py 50-71, for a number `rmed_minpts` of either type; compare
`processLoaded`. -/
noncomputable def processNum (idx : IdxRule) (argsort : List ℝ → List ℕ) (fit : List ℝ → List ℝ → ℝ → ℝ) (rmedWidth : ℝ)
    (rmedMinpts : PyNum) (confs : List RangeConf) (w : World) (id : ℕ) : Except PyErr (List (Peak ℝ × ℝ)) :=
  (w.obj id).bind fun o =>
  (dmOf (w.metaOf o)).bind fun dm =>
  (tsDereddenNum w id rmedWidth rmedMinpts).bind fun r1 =>
  (tsNormalise r1.1 r1.2 false).bind fun r2 =>
  (rangeLoop idx argsort fit (r2.2.getD 0) r2.1 confs []).map fun peaks => peaks.map fun p => (p, dm)

/-- `process_fname` with the sections `dereddening` and `ranges` of the configuration `conf`. -/
noncomputable def processConf (idx : IdxRule) (argsort : List ℝ → List ℕ) (fit : List ℝ → List ℝ → ℝ → ℝ) (conf : PyVal)
    (w : World) (id : ℕ) : Except PyErr (List (Peak ℝ × ℝ)) :=
  (pyDict conf).bind fun conf =>
  (required pyDict conf "dereddening").bind fun der =>
  (required pyReal der "rmed_width").bind fun width =>
  (required pyNum der "rmed_minpts").bind fun minpts =>
  (required pyList conf "ranges").bind fun ranges =>
  (ranges.mapM rangeConfOf).bind fun confs =>
  processNum idx argsort fit width minpts confs w id

end Verif.Model
