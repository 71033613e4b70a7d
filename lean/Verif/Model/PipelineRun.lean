import Verif.Model.Candidate
import Verif.Model.Worker
import Verif.Model.Prepare

/-!
# Model of `Pipeline.process` on files

`riptide/pipeline/pipeline.py` 382-395 up to `save_products`, with the stages as they are called there: `prepare` (`Model/Prepare.lean`),
`search` with `WorkerPool.process_fname` (`Model/Worker.lean`), the stages of `Model/Process.lean`, and candidates that are folded from
the file of their DM (`Model/Candidate.lean`). Simplifications: the harmonic test is any function (`htest` itself is on rationals, see
`Model/Harmonics.lean`); the candidates of one DM are folded from the same objects (folding leaves the time series as it is); each file is
loaded into objects of its own (in python, into the memory of a worker process).
-/

namespace Verif.Model

/-- An element of the section `ranges` of the configuration: `ffa_search`, `find_peaks`, `candidates.bins`, `candidates.subints`. -/
structure PipeRange where
  search : SearchArgs
  peaks : PeakParams ℝ
  candBins : ℕ
  candSubints : Option ℤ

/-- The configuration of a pipeline, after `validate_pipeline_config`. `prep` has the sections `data` and `dmselect`; its entry `ranges` is
not used, see `RunConf.prepConf`. -/
structure RunConf where
  prep : PrepConf
  ranges : List PipeRange
  rmedWidth : ℝ
  rmedMinpts : ℕ
  processes : ℕ
  radius : ℝ
  filters : FilterParams ℝ

/-- What the pipeline depends on besides its configuration: the functions of the compiled code and of numpy that are parameters of the model of
the search, the harmonic test, and `WorkerPool.loader` (worker_pool.py 24-33), which yields a time series in a state of its own. -/
structure PipeEnv where
  idx : IdxRule
  argsort : List ℝ → List ℕ
  fit : List ℝ → List ℝ → ℝ → ℝ
  test : HPeak ℝ → HPeak ℝ → Except PyErr (Bool × ℚ)
  loader : String → Except PyErr (World × ℕ)

/-- The entries of a range that are read by `prepare` and `get_search_range`; the tag is the position in the configuration. -/
def PipeRange.entry (r : PipeRange) (i : ℕ) : SearchRange ℝ :=
  { pmin := r.search.periodMin, pmax := r.search.periodMax, binsMin := r.search.binsMin, candBins := r.candBins, tag := i }

/-- The entries of the configuration that `prepare` reads. -/
def RunConf.prepConf (c : RunConf) : PrepConf := { c.prep with ranges := c.ranges.mapIdx fun i r => r.entry i }

/-- `rng['candidates']['subints']`, pipeline.py 321. -/
def RunConf.subintsOf (c : RunConf) (r : SearchRange ℝ) : Option ℤ := (c.ranges[r.tag]?).bind (·.candSubints)

/-- The entries of the configuration of a range that `process_fname` uses. -/
def PipeRange.conf (r : PipeRange) : RangeConf := { search := r.search, peaks := r.peaks }

/-- `Peak`, peak_detection.py 14-25, as far as later stages use it. The second argument is its DM. -/
def pipelinePeak (p : Peak ℝ × ℝ) : HPeak ℝ :=
  { freq := p.1.freq, snr := p.1.snr, ducy := p.1.ducy, dm := p.2, period := p.1.period, tag := p.1.width }

/-- `WorkerPool.process_fname`, worker_pool.py 47-71. -/
noncomputable def processFile (e : PipeEnv) (c : RunConf) (fname : String) : Except PyErr (List (HPeak ℝ)) :=
  (e.loader fname).bind fun r =>
  (processLoaded e.idx e.argsort e.fit c.rmedWidth c.rmedMinpts (c.ranges.map (·.conf)) r.1 r.2).map fun l => l.map pipelinePeak

/-- Lines 310-315: the time series of a DM is loaded again, dereddened and normalised. -/
noncomputable def loadForDm (e : PipeEnv) (c : RunConf) (it : DmIter ℝ) (dm : ℝ) : Except PyErr (World × ℕ) :=
  (getFilename it dm).bind fun fname =>
  (e.loader fname).bind fun r =>
  (tsDeredden r.1 r.2 c.rmedWidth c.rmedMinpts false).bind fun r1 =>
  (tsNormalise r1.1 (r1.2.getD 0) false).map fun r2 => (r2.1, r2.2.getD 0)

/-- `np.median` of a list that is not empty. -/
noncomputable def npMedian (l : List ℝ) : ℝ :=
  let s := l.mergeSort (fun a b => decide (a ≤ b))
  if s.length % 2 = 1 then s.getD (s.length / 2) 0 else (s.getD (s.length / 2 - 1) 0 + s.getD (s.length / 2) 0) / 2

/-- `DMIterator.tobs_median()`, dmiter.py 248-249. -/
noncomputable def tobsMedian (ms : List FileMeta) : ℝ := npMedian (ms.map (·.tobs))

/-- The stages after `prepare`, for the names that the iterator yields. -/
noncomputable def pipelineJob (e : PipeEnv) (c : RunConf) (ms : List FileMeta) (it : DmIter ℝ) (fnames : List String) :
    PipeJob ℝ String (World × ℕ) (CandObj ℝ) where
  searchFile := processFile e c
  fnames := fnames
  processes := c.processes
  argsort := e.argsort
  radius := c.radius
  tmed := tobsMedian ms
  test := e.test
  filters := c.filters
  load := loadForDm e c it
  make ts peaks _ := (makeCandidate c.prepConf.ranges c.subintsOf ts.1 ts.2 { peaks := peaks }).map fun r => r.2

/-- `Pipeline.process`, lines 382-395, up to `save_products`, of a new pipeline object. `ms` are the metadata of the files. -/
noncomputable def pipelineProcess (e : PipeEnv) (c : RunConf) (ms : List FileMeta) (s : PoolSchedule) :
    Except PyErr (PipeState ℝ (CandObj ℝ)) :=
  (prepare c.prepConf ms).bind fun it =>
  (it.selectedDms.mapM (getFilename it)).bind fun fnames =>
  PipeState.fresh.process (pipelineJob e c ms it fnames) s

end Verif.Model
