import Verif.Model.ClusterTable

/-!
# Model of `Pipeline.process`: the stages of the pipeline one after the other

`riptide/pipeline/pipeline.py` 65-75 and 382-395. Simplifications: `Pipeline.prepare` (files, DM selection, validation of the
ranges) is the subject of `Model/Dm.lean` and `Model/Ranges.lean`, what it leaves behind is in `PipeJob`; saving the products is the
subject of `Model/Pipeline.lean` and is not repeated here.
-/

namespace Verif.Model

/-- What the stages after `prepare` depend on: `searchFile` is `WorkerPool.process_fname`; `fnames` the selected files in the order of
the DM iterator; `tmed` is `dmiter.tobs_median()`; `test` is `htest` with the band of the iterator and the section
`harmonic_flagging`; `load dm` is lines 310-315 (the time series of that DM, dereddened and normalised); `make` is lines 319-321
(search range of the period, then `Candidate.from_pipeline_output`), given the peaks of the cluster and its centre. -/
structure PipeJob (K β τ γ : Type*) where
  searchFile : β → Except PyErr (List (HPeak K))
  fnames : List β
  processes : ℕ
  argsort : List K → List ℕ
  radius : K
  tmed : K
  test : HPeak K → HPeak K → Except PyErr (Bool × ℚ)
  filters : FilterParams K
  load : K → Except PyErr τ
  make : τ → List (HPeak K) → HPeak K → Except PyErr γ

/-- The attributes of a `Pipeline` object. `next` is the first reference that no cluster has yet. -/
structure PipeState (K γ : Type*) where
  peaks : List (HPeak K)
  heap : ℕ → PCluster K
  next : ℕ
  clusters : List ℕ
  filtered : List ℕ
  candidates : List (PCandidate K γ)

variable {K : Type*} [LinearOrder K]

/-- `Pipeline.__init__`, lines 65-75. -/
def PipeState.fresh {γ : Type*} : PipeState K γ :=
  { peaks := [], heap := fun _ => { peaks := [] }, next := 0, clusters := [], filtered := [], candidates := [] }

/-- `Pipeline.search`, lines 177-189. -/
def PipeState.search {β τ γ : Type*} (j : PipeJob K β τ γ) (s : PoolSchedule) (st : PipeState K γ) : Except PyErr (PipeState K γ) :=
  (pipelineSearch j.searchFile s j.processes j.fnames).map fun peaks => { st with peaks := peaks }

/-- The new clusters get the references `next`, `next + 1`, … -/
def PipeState.addClusters {γ : Type*} (st : PipeState K γ) (new : List (PCluster K)) : PipeState K γ :=
  { st with
    heap := fun i => if i < st.next then st.heap i else heapOf new (i - st.next)
    next := st.next + new.length
    clusters := (List.range new.length).map (fun k => st.next + k) }

/-- `Pipeline.cluster_peaks`, lines 192-215. Without peaks, `self.clusters` stays as it was. -/
def PipeState.cluster [Field K] {β τ γ : Type*} (j : PipeJob K β τ γ) (st : PipeState K γ) : Except PyErr (PipeState K γ) :=
  if st.peaks.length = 0 then .ok st else (clusterPeaks j.argsort st.peaks j.radius j.tmed).map st.addClusters

/-- `Pipeline.flag_harmonics`, lines 218-249. -/
def PipeState.flag {β τ γ : Type*} (j : PipeJob K β τ γ) (st : PipeState K γ) : Except PyErr (PipeState K γ) :=
  (flagHarmonics j.test st.heap st.clusters).map fun heap => { st with heap := heap }

/-- `Pipeline.apply_candidate_filters`, lines 252-289. -/
def PipeState.filter {β τ γ : Type*} (j : PipeJob K β τ γ) (st : PipeState K γ) : Except PyErr (PipeState K γ) :=
  (applyFilters j.filters st.heap st.clusters).map fun l => { st with filtered := l }

/-- `Pipeline.build_candidates`, lines 293-333. -/
def PipeState.build {β τ γ : Type*} (j : PipeJob K β τ γ) (st : PipeState K γ) : Except PyErr (PipeState K γ) :=
  (buildCandidates j.load (fun ts i p => j.make ts (st.heap i).peaks p) st.heap st.filtered st.candidates).map
    fun c => { st with candidates := c }

/-- `Pipeline.process`, lines 382-395, between `prepare` and `save_products`. -/
def PipeState.process [Field K] {β τ γ : Type*} (j : PipeJob K β τ γ) (s : PoolSchedule) (st : PipeState K γ) :
    Except PyErr (PipeState K γ) :=
  (st.search j s).bind fun st => (st.cluster j).bind fun st => (st.flag j).bind fun st => (st.filter j).bind fun st => st.build j

end Verif.Model
