import Verif.Model.Harmonics
import Verif.Model.Peaks
import Verif.Model.Dm
import Mathlib.Data.Nat.Digits.Defs

/-!
# Model of `riptide/pipeline/pipeline.py`, `peak_cluster.py` and `worker_pool.py`

`PeakCluster` objects are mutable and are referred to from several lists, so they live in a heap indexed by natural numbers; the
lists `self.clusters`, `self.clusters_filtered` are lists of references. Logging is left out.
-/

namespace Verif.Model

/-- `PeakCluster`, peak_cluster.py 4-33. `parent` is `parent_fundamental`, a reference to another cluster. -/
structure PCluster (K : Type*) where
  peaks : List (HPeak K)
  rank : Option ℕ := none
  parent : Option ℕ := none
  hfrac : Option ℚ := none

section

variable {K : Type*}

/-- `PeakCluster.is_harmonic`, peak_cluster.py 31-33. -/
def PCluster.isHarmonic (c : PCluster K) : Bool := c.parent.isSome

variable [LinearOrder K]

/-- `max(self, key=lambda peak: peak.snr)` on a non-empty list: the first of the largest elements. -/
def maxSnr : HPeak K → List (HPeak K) → HPeak K
  | p, [] => p
  | p, q :: l => if p.snr < q.snr then maxSnr q l else maxSnr p l

/-- `PeakCluster.centre`, peak_cluster.py 35-37. -/
def PCluster.centre (c : PCluster K) : Except PyErr (HPeak K) :=
  match c.peaks with
  | [] => .error .valueError
  | p :: l => .ok (maxSnr p l)

/-- `[c.centre.snr for c in clusters]` paired with the clusters, as evaluated by `sorted(clusters, key=lambda c: c.centre.snr)`.
The `centre` property is evaluated again wherever it is used; between two evaluations the peaks of a cluster do not change. -/
def withCentres (heap : ℕ → PCluster K) (clusters : List ℕ) : Except PyErr (List (ℕ × HPeak K)) :=
  clusters.mapM (fun i => (heap i).centre.map (fun p => (i, p)))

/-- `sorted(clusters, key=lambda c: c.centre.snr, reverse=True)`, pipeline.py 229, 285, 295. Python's sort is stable, also with
`reverse=True`. -/
def sortBySnr (l : List (ℕ × HPeak K)) : List (ℕ × HPeak K) := l.mergeSort (fun a b => decide (b.2.snr ≤ a.2.snr))

/-- `Pipeline.search` line 187: `sorted(peaks, key=lambda p: p.period)`. -/
def sortByPeriod (l : List (HPeak K)) : List (HPeak K) := l.mergeSort (fun a b => decide (a.period ≤ b.period))

/-- `Pipeline.cluster_peaks`, pipeline.py 192-215: the peaks of each cluster. `tmed` is `dmiter.tobs_median()`. The new
`PeakCluster` objects have no rank, parent or fraction. -/
def clusterPeaks [Field K] (argsort : List K → List ℕ) (peaks : List (HPeak K)) (radius tmed : K) : Except PyErr (List (PCluster K)) :=
  if peaks.length = 0 then .ok []
  else
    (pyDiv radius tmed).bind fun clrad =>
      .ok ((cluster1d argsort (peaks.map (fun p => p.freq)) clrad true).map
        (fun ids => { peaks := ids.filterMap (fun i => peaks[i]?) }))

/-- The heap in which new cluster number `i` has the reference `i`. -/
def heapOf (l : List (PCluster K)) : ℕ → PCluster K := fun i => (l[i]?).getD { peaks := [] }

/-! ## Harmonic flagging -/

/-- Lines 231-233: `for rank, cl in enumerate(clusters_decreasing_snr): cl.rank = rank`. -/
def assignRanks (heap : ℕ → PCluster K) : ℕ → List (ℕ × HPeak K) → (ℕ → PCluster K)
  | _, [] => heap
  | r, (i, _) :: l => assignRanks (Function.update heap i { heap i with rank := some r }) (r + 1) l

/-- `itertools.combinations(l, 2)`. -/
def combinations2 {β : Type*} : List β → List (β × β)
  | [] => []
  | x :: l => l.map (fun y => (x, y)) ++ combinations2 l

/-- Body of the loop of lines 236-244. `test` is `htest` with the arguments of line 240. -/
def flagStep (test : HPeak K → HPeak K → Except PyErr (Bool × ℚ)) (heap : ℕ → PCluster K) (pair : (ℕ × HPeak K) × (ℕ × HPeak K)) :
    Except PyErr (ℕ → PCluster K) :=
  if (heap pair.1.1).isHarmonic || (heap pair.2.1).isHarmonic then .ok heap
  else
    (test pair.1.2 pair.2.2).bind fun r =>
      if r.1 then
        .ok (Function.update heap pair.2.1 { heap pair.2.1 with parent := some pair.1.1, hfrac := some r.2 })
      else .ok heap

/-- `for F, H in itertools.combinations(…)`, lines 236-244. -/
def flagLoop (test : HPeak K → HPeak K → Except PyErr (Bool × ℚ)) :
    (ℕ → PCluster K) → List ((ℕ × HPeak K) × (ℕ × HPeak K)) → Except PyErr (ℕ → PCluster K)
  | heap, [] => .ok heap
  | heap, pair :: l => (flagStep test heap pair).bind fun heap' => flagLoop test heap' l

/-- `Pipeline.flag_harmonics`, pipeline.py 218-249. -/
def flagHarmonics (test : HPeak K → HPeak K → Except PyErr (Bool × ℚ)) (heap : ℕ → PCluster K) (clusters : List ℕ) :
    Except PyErr (ℕ → PCluster K) :=
  if clusters.length = 0 then .ok heap
  else
    (withCentres heap clusters).bind fun cs =>
      let order := sortBySnr cs
      flagLoop test (assignRanks heap 0 order) (combinations2 order)

/-! ## Candidate filters -/

/-- The section `candidate_filters` of the configuration. `max_number` is `None` or a positive `int` (config_validation.py
108-110); `none` and `0` are treated alike by line 277. -/
structure FilterParams (K : Type*) where
  dmMin : Option K
  snrMin : Option K
  removeHarmonics : Bool
  maxNumber : Option ℕ

/-- Lines 258-262. -/
def filterDm (dmMin : Option K) (l : List (ℕ × HPeak K)) : List (ℕ × HPeak K) :=
  match dmMin with
  | none => l
  | some d => l.filter (fun c => decide (d ≤ c.2.dm))

/-- Lines 264-268. -/
def filterSnr (snrMin : Option K) (l : List (ℕ × HPeak K)) : List (ℕ × HPeak K) :=
  match snrMin with
  | none => l
  | some s => l.filter (fun c => decide (s ≤ c.2.snr))

/-- Lines 270-273. -/
def filterHarmonics (heap : ℕ → PCluster K) (remove : Bool) (l : List (ℕ × HPeak K)) : List (ℕ × HPeak K) :=
  if remove then l.filter (fun c => !(heap c.1).isHarmonic) else l

/-- Lines 275-286. -/
def filterCap (maxNumber : Option ℕ) (l : List (ℕ × HPeak K)) : List (ℕ × HPeak K) :=
  match maxNumber with
  | none => l
  | some 0 => l
  | some n => (sortBySnr l).take n

/-- `Pipeline.apply_candidate_filters`, pipeline.py 252-289. Simplification: the centres of all clusters are evaluated, also
where no filter needs them. -/
def applyFilters (p : FilterParams K) (heap : ℕ → PCluster K) (clusters : List ℕ) : Except PyErr (List ℕ) :=
  (withCentres heap clusters).map fun cs =>
    (filterCap p.maxNumber (filterHarmonics heap p.removeHarmonics (filterSnr p.snrMin (filterDm p.dmMin cs)))).map Prod.fst

/-! ## Candidates -/

/-- `Candidate`, candidate.py 45-49: `params` is `centre.summary_dict()`; `source` the cluster it was made from; `data` stands
for the remaining attributes (`tsmeta`, `peaks`, `subints`). -/
structure PCandidate (K γ : Type*) where
  params : HPeak K
  source : ℕ
  data : γ

/-- `grouped_clusters[cl.centre.dm].append(cl)`, pipeline.py 303-305. -/
def groupAppend (g : PyDict K (List (ℕ × HPeak K))) (c : ℕ × HPeak K) : PyDict K (List (ℕ × HPeak K)) :=
  dictSet g c.2.dm ((dictGet g c.2.dm).getD [] ++ [c])

/-- Lines 317-329: the loop over the clusters of one DM trial. `make` stands for `get_search_range` followed by
`Candidate.from_pipeline_output`; whatever exception it raises is logged and the cluster skipped. -/
def buildGroup {τ γ : Type*} (make : τ → ℕ → HPeak K → Except PyErr γ) (ts : τ) : List (ℕ × HPeak K) → List (PCandidate K γ)
  | [] => []
  | (i, p) :: l =>
    match make ts i p with
    | .ok d => { params := p, source := i, data := d } :: buildGroup make ts l
    | .error _ => buildGroup make ts l

/-- Lines 309-329: the loop over the DM trials. `load` stands for `get_filename`, the loader, `deredden` and `normalise`; its
exceptions are not caught. -/
def buildGroups {τ γ : Type*} (load : K → Except PyErr τ) (make : τ → ℕ → HPeak K → Except PyErr γ) :
    PyDict K (List (ℕ × HPeak K)) → Except PyErr (List (PCandidate K γ))
  | [] => .ok []
  | (dm, cl) :: l => (load dm).bind fun ts => (buildGroups load make l).map fun rest => buildGroup make ts cl ++ rest

/-- `Pipeline.build_candidates`, pipeline.py 293-333. `before` is `self.candidates` at the start. -/
def buildCandidates {τ γ : Type*} (load : K → Except PyErr τ) (make : τ → ℕ → HPeak K → Except PyErr γ)
    (heap : ℕ → PCluster K) (clusters : List ℕ) (before : List (PCandidate K γ)) : Except PyErr (List (PCandidate K γ)) :=
  (withCentres heap clusters).bind fun cs =>
    let order := sortBySnr cs
    if order.length = 0 then .ok before
    else
      (buildGroups load make (order.foldl groupAppend [])).map fun new =>
        (before ++ new).mergeSort (fun a b => decide (b.params.snr ≤ a.params.snr))

/-- `f'{rank:04d}'`: the decimal digits, with zeros in front if there are fewer than four. -/
def fmt04 (n : ℕ) : List Char :=
  let digits := Nat.digits 10 n
  ((digits ++ List.replicate (4 - digits.length) 0).reverse).map Nat.digitChar

/-- `f'candidate_{rank:04d}.json'` and `.png`, `CandidateWriter.__call__`, pipeline.py 47, 51. -/
def candidateFileName (rank : ℕ) (ext : List Char) : List Char :=
  "candidate_".toList ++ fmt04 rank ++ ext

/-! ## Worker pool -/

/-- `Pool._get_tasks` (python standard library): the tasks in batches of `size`. -/
def batches {β : Type*} (size : ℕ) (l : List β) : List (List β) := chunkLoop size l []

/-- `MapResult` of `multiprocessing.Pool` (python 3.11): what the batches have returned so far (`value`), and the first exception
received, if any. -/
structure MapResult (γ : Type*) where
  value : List (Option (List γ))
  failure : Option PyErr

/-- `MapResult._set(i, …)` on the arrival of the result of batch `i`; a batch is evaluated by `list(map(f, batch))`. -/
def MapResult.set {β γ : Type*} (f : β → Except PyErr γ) (bs : List (List β)) (r : MapResult γ) (i : ℕ) : MapResult γ :=
  match (bs.getD i []).mapM f, r.failure with
  | .ok v, none => { r with value := r.value.set i (some v) }
  | .ok _, some _ => r
  | .error e, none => { r with failure := some e }
  | .error _, some _ => r

/-- `pool.map(f, l)` if the batches complete in the order `order`. Worker processes share no memory with each other, so a batch
yields the same result whenever and wherever it is run; the order of completion is all that depends on the schedule. -/
def poolMap {β γ : Type*} (f : β → Except PyErr γ) (size : ℕ) (order : List ℕ) (l : List β) : Except PyErr (List γ) :=
  let bs := batches size l
  let r := order.foldl (MapResult.set f bs) { value := List.replicate bs.length none, failure := none }
  match r.failure with
  | some e => .error e
  | none => .ok (r.value.filterMap id).flatten

/-- A schedule: for every chunk of files given to `process_fname_list`, the size of the batches of the pool and the order in
which they complete. -/
structure PoolSchedule where
  size : ℕ → ℕ
  order : ℕ → List ℕ

/-- `WorkerPool.process_fname_list(fnames)`, worker_pool.py 35-45. -/
def processFnameList {β γ : Type*} (f : β → Except PyErr (List γ)) (size : ℕ) (order : List ℕ) (fnames : List β) :
    Except PyErr (List γ) := (poolMap f size order fnames).map List.flatten

/-- Loop of `Pipeline.search`, pipeline.py 183-186; `k` counts the chunks. -/
def searchLoop {β γ : Type*} (f : β → Except PyErr (List γ)) (s : PoolSchedule) : ℕ → List (List β) → Except PyErr (List γ)
  | _, [] => .ok []
  | k, c :: l =>
    (processFnameList f (s.size k) (s.order k) c).bind fun p => (searchLoop f s (k + 1) l).map fun rest => p ++ rest

/-- `Pipeline.search`, pipeline.py 177-189: `f` is `WorkerPool.process_fname`, `processes` the size of the chunks. -/
def pipelineSearch {β : Type*} (f : β → Except PyErr (List (HPeak K))) (s : PoolSchedule) (processes : ℕ) (fnames : List β) :
    Except PyErr (List (HPeak K)) :=
  (searchLoop f s 0 (chunkLoop processes fnames [])).map sortByPeriod

end

/-! ## Saving the products -/

/-- The files written by `Pipeline.save_products`. -/
inductive Product
  | peaksCsv
  | clustersCsv
  | candidatesCsv
  | candidateJson (rank : ℕ)
  | candidatePng (rank : ℕ)
deriving DecidableEq

/-- A step in the life of a file: it comes into existence, empty or incomplete; it is complete and closed. -/
inductive FileEvent
  | create (f : Product)
  | complete (f : Product)
deriving DecidableEq

/-- Writing one file. -/
def writeFile (f : Product) : List FileEvent := [.create f, .complete f]

/-- `CandidateWriter.__call__`, pipeline.py 41-53. -/
def writeCandidate (plot : Bool) (rank : ℕ) : List FileEvent :=
  writeFile (.candidateJson rank) ++ if plot then writeFile (.candidatePng rank) else []

/-- The interleavings of some sequences. -/
inductive Interleaving {β : Type*} : List (List β) → List β → Prop
  | nil {ls : List (List β)} (h : ∀ l ∈ ls, l = []) : Interleaving ls []
  | cons {pre : List (List β)} {x : β} {l : List β} {post : List (List β)} {t : List β}
      (h : Interleaving (pre ++ l :: post) t) : Interleaving (pre ++ (x :: l) :: post) (x :: t)

/-- Lines 345-366: what the main process writes before it starts the pool. -/
def saveMain (nclusters ncands : ℕ) : List FileEvent :=
  writeFile .peaksCsv ++ (if nclusters = 0 then [] else writeFile .clustersCsv)
    ++ (if ncands = 0 then [] else writeFile .candidatesCsv)

/-- The possible executions of `Pipeline.save_products` that reach the end, pipeline.py 336-380, given the numbers of peaks,
clusters and candidates: the writers of the pool run concurrently, in any interleaving. -/
def SaveTrace (npeaks nclusters ncands : ℕ) (plot : Bool) (t : List FileEvent) : Prop :=
  if npeaks = 0 then t = []
  else ∃ u, Interleaving ((List.range ncands).map (writeCandidate plot)) u ∧ t = saveMain nclusters ncands ++ u

end Verif.Model
