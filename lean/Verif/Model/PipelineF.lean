import Verif.Model.PeaksF
import Verif.Model.HarmonicsF
import Verif.Model.NormaliseF
import Verif.Model.DereddenF
import Verif.Model.FoldF
import Verif.Model.TrialsF
import Verif.Model.Process
import Verif.Model.Ranges
import Verif.Model.SearchFloat

/-!
# The pipeline in floating point

`WorkerPool.process_fname`, worker_pool.py 47-71, and `Pipeline.process`, pipeline.py 382-395, between `prepare` and `save_products`. Samples and S/N values are single precision
numbers, everything else is in double precision. The stages that only compare and sort (`search`, `flag_harmonics` apart from the test, `apply_candidate_filters`,
`build_candidates` apart from the folding) are those of `Model/Process.lean` on rational numbers; the ones that compute are replaced.

Simplifications: those of `Model/NormaliseF.lean`, `Model/DereddenF.lean`, `Model/SearchFloat.lean`, `Model/PeaksF.lean`, `Model/HarmonicsF.lean` and `Model/FoldF.lean`. Where the
outcome of an operation of numpy depends on the order of a sum, a run may have any of the possible ones (`RunF`).
-/

namespace Verif.Model

/-- A file: the samples (`float32`), the sampling time and the DM in its header. -/
structure ObsF where
  data : List ℝ
  tsamp : ℚ
  dm : ℚ

/-- An element of the section `ranges` of the configuration. -/
structure RangeF where
  pmin : ℚ
  pmax : ℚ
  bmin : ℕ
  bmax : ℕ
  ducyMax : ℚ
  wtsp : ℚ
  peaks : PeakParamsF
  candBins : ℕ
  candSubints : Option ℤ

/-- The parts of the configuration that are used after `prepare`. -/
structure ConfF where
  rmedWidth : ℚ
  rmedMinpts : ℕ
  ranges : List RangeF
  processes : ℕ
  radius : ℚ
  filters : FilterParams ℚ
  harmonics : HTestArgs

/-- What the numbers depend on besides the code: arithmetic in double precision (`h`) and on samples (`B`), the roots `** 0.5` and `** -0.5` of numpy floats, whether
numpy converts the scalars of an operation to `float32` (`narrow`), the index rule of the transform, `numpy.argsort`, and the values of the polynomial fitted to the S/N of a file in a range, for
each width and period trial. -/
structure EnvF where
  h : HArith
  B : FArith
  root : ℝ → ℝ
  inv : ℝ → ℝ
  narrow : Bool
  idx : IdxRule
  argsort : List ℚ → List ℕ
  poly : ObsF → RangeF → ℕ → ℕ → ℝ

namespace EnvF

variable (e : EnvF)

/-- `width_samples`, time_series.py 117, for a width that is not negative. -/
noncomputable def window (width tsamp : ℚ) : ℕ := (pyRound ((e.h.A.fl (width / tsamp) : ℚ) : ℝ)).toNat

/-- `ts.deredden(...)` and `ts.normalise()`, worker_pool.py 54-58 and pipeline.py 312-315: `y` is a possible result. -/
def PreparesTo (c : ConfF) (o : ObsF) (y : List ℝ) : Prop :=
  ∃ d, DereddensTo e.h.A e.B o.data (e.window c.rmedWidth o.tsamp) c.rmedMinpts d ∧ NormalisesTo e.B e.root e.narrow d y

/-- `ffa_search` of prepared data, search.py 76-81: the periodogram. -/
noncomputable def pgram (r : RangeF) (y : List ℝ) (tsamp : ℚ) : Except PyErr PgramF :=
  let widths := e.h.A.widthTrials r.bmin r.ducyMax r.wtsp
  (liftCall (e.h.A.binding (e.B.searchOps e.h.A) e.idx y tsamp widths r.pmin r.pmax r.bmin r.bmax)).map fun out =>
    ⟨widths, out.1, out.2.1, out.2.2, e.h.A.seriesLength y.length tsamp⟩

/-- One iteration of the loop over the ranges, worker_pool.py 60-67. -/
noncomputable def rangePeaks (o : ObsF) (y : List ℝ) (r : RangeF) : Except PyErr (List PeakF) :=
  (e.pgram r y o.tsamp).bind fun g => e.h.A.findPeaks e.argsort (e.poly o r) r.peaks g

/-- `q` is the peak `p` with the DM `dm`; its S/N is a float, so a rational number. -/
def SamePeak (dm : ℚ) (p : PeakF) (q : HPeak ℚ) : Prop :=
  q.freq = p.freq ∧ q.period = p.period ∧ q.ducy = p.ducy ∧ (q.snr : ℝ) = p.snr ∧ q.dm = dm ∧ q.tag = p.width

/-- `WorkerPool.process_fname`, worker_pool.py 47-71: `l` is a possible result for the file `o`. -/
def SearchesTo (c : ConfF) (o : ObsF) (l : List (HPeak ℚ)) : Prop :=
  ∃ y ls, e.PreparesTo c o y ∧ List.Forall₂ (fun r p => e.rangePeaks o y r = .ok p) c.ranges ls ∧ List.Forall₂ (SamePeak o.dm) ls.flatten l

/-- The entries of a range that `get_search_range` reads; the tag is its position. -/
def _root_.Verif.Model.RangeF.entry (r : RangeF) (i : ℕ) : SearchRange ℚ :=
  { pmin := r.pmin, pmax := r.pmax, binsMin := r.bmin, candBins := r.candBins, tag := i }

/-- `self.config['ranges']`. -/
def _root_.Verif.Model.ConfF.entries (c : ConfF) : List (SearchRange ℚ) := c.ranges.mapIdx fun i r => r.entry i

/-- Lines 318-321 of pipeline.py for a cluster with the centre `p` and the time series `t`: `r` is a possible outcome. -/
def MakesTo (c : ConfF) (t : List ℝ × ℚ) (p : HPeak ℚ) (r : Except PyErr NdArray) : Prop :=
  match getSearchRange c.entries p.period with
  | .error x => r = .error x
  | .ok none => r = .error .typeError
  | .ok (some s) => CandidateTo e.h.A e.B e.inv e.narrow t.1 t.2 p.period s.candBins ((c.ranges[s.tag]?).bind (·.candSubints)) r

/-- `j` is a possible run of the stages after `prepare` for the files `obs`, with the band and the median observing time of the DM iterator: what `j` returns for a file or a cluster is a
possible outcome. -/
structure RunF (c : ConfF) (obs : String → ObsF) (fmin fmax T : ℚ) (j : PipeJob ℚ String (List ℝ × ℚ) NdArray) : Prop where
  searched : ∀ f ∈ j.fnames, ∀ l, j.searchFile f = .ok l → e.SearchesTo c (obs f) l
  processes : j.processes = c.processes
  argsort : j.argsort = e.argsort
  radius : j.radius = c.radius
  tmed : j.tmed = T
  test : j.test = fun F H => e.h.htest F H T fmin fmax c.harmonics
  filters : j.filters = c.filters
  loaded : ∀ f ∈ j.fnames, ∀ t, j.load (obs f).dm = .ok t → e.PreparesTo c (obs f) t.1 ∧ t.2 = (obs f).tsamp
  made : ∀ t peaks p, (∃ r, e.MakesTo c t p r) → e.MakesTo c t p (j.make t peaks p)

end EnvF

/-- `Pipeline.cluster_peaks`, pipeline.py 192-215, in double precision. -/
def DArith.clusterStage {β τ γ : Type*} (A : DArith) (j : PipeJob ℚ β τ γ) (st : PipeState ℚ γ) : Except PyErr (PipeState ℚ γ) :=
  if st.peaks.length = 0 then .ok st
  else if j.tmed = 0 then .error .zeroDivisionError
  else .ok (st.addClusters ((A.cluster1d j.argsort (st.peaks.map (fun p => p.freq)) (A.fl (j.radius / j.tmed)) true).map
    fun ids => { peaks := ids.filterMap (fun i => st.peaks[i]?) }))

/-- `Pipeline.process`, pipeline.py 382-395, between `prepare` and `save_products`, of a new object. -/
def DArith.process {β τ γ : Type*} (A : DArith) (j : PipeJob ℚ β τ γ) (s : PoolSchedule) : Except PyErr (PipeState ℚ γ) :=
  (PipeState.fresh.search j s).bind fun st => (A.clusterStage j st).bind fun st => (st.flag j).bind fun st => (st.filter j).bind fun st => st.build j

end Verif.Model
