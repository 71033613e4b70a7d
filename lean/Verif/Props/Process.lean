import Verif.Model.Process
import Verif.Props.ClusterTable
import Verif.Props.Candidates
import Verif.Props.Pool

/-!
# C68, C69: the pipeline from the search to the candidates
-/

namespace Verif.Props

open Verif.Model Verif.Lemmas Verif.Spec

set_option linter.unusedSectionVars false

variable {K : Type*} [LinearOrder K] [Field K] [IsStrictOrderedRing K]

/-- The job can be done: the files can be searched (`g` gives their peaks), peaks have positive periods and duty cycles, the time
series can be loaded again (`ts`), and the harmonic test does not fail on such peaks. -/
structure JobOK {β τ γ : Type*} (j : PipeJob K β τ γ) (g : β → List (HPeak K)) (ts : K → τ) : Prop where
  processes : 1 ≤ j.processes
  search : ∀ x ∈ j.fnames, j.searchFile x = .ok (g x)
  pos : ∀ x ∈ j.fnames, ∀ p ∈ g x, 0 < p.period ∧ p.freq = 1 / p.period ∧ 0 < p.ducy
  argsort : IsArgsort j.argsort
  tmed : 0 < j.tmed
  test : ∀ p q : HPeak K, 0 < p.freq → 0 < q.freq → 0 < p.ducy → 0 < q.ducy → ∃ r, j.test p q = .ok r
  load : ∀ x ∈ j.fnames, ∀ p ∈ g x, j.load p.dm = .ok (ts p.dm)

/-- A valid schedule of the pool for the files of the job. -/
def JobSchedule {β τ γ : Type*} (j : PipeJob K β τ γ) (s : PoolSchedule) : Prop :=
  ValidSchedule s 0 (chunkLoop j.processes j.fnames [])

theorem job_search {β τ γ : Type*} {j : PipeJob K β τ γ} {g : β → List (HPeak K)} (hp : 1 ≤ j.processes)
    (hse : ∀ x ∈ j.fnames, j.searchFile x = .ok (g x)) {s : PoolSchedule} (hs : JobSchedule j s) : pipelineSearch j.searchFile s j.processes j.fnames = .ok (sortByPeriod (j.fnames.flatMap g)) := by
  have hflat : (chunkLoop j.processes j.fnames []).flatten = j.fnames := by
    have := (chunkLoop_spec j.processes hp j.fnames [] hp).1
    simpa using this
  unfold pipelineSearch
  rw [searchLoop_ok j.searchFile g s _ 0 hs (by rw [hflat]; exact hse), hflat]
  rfl

theorem process_eq {β τ γ : Type*} (j : PipeJob K β τ γ) (s : PoolSchedule) (st : PipeState K γ) : st.process j s =
    ((st.search j s).bind fun st => st.cluster j).bind fun st => (st.flag j).bind fun st => (st.filter j).bind fun st => st.build j := by
  unfold PipeState.process
  cases st.search j s with
  | error e => rfl
  | ok st => rfl

/-- Filters in general: what is kept passes the cuts; without a cap all that passes is kept; with a cap at most that many. -/
theorem applyFilters_ok (f : FilterParams K) (heap : ℕ → PCluster K) (clusters : List ℕ) (c : ℕ → HPeak K) (hnd : clusters.Nodup)
    (hc : ∀ i ∈ clusters, (heap i).centre = .ok (c i)) :
    ∃ l, applyFilters f heap clusters = .ok l ∧ l.Nodup ∧ (∀ i ∈ l, i ∈ clusters ∧ PassesCuts f heap i (c i)) ∧
      ((f.maxNumber = none ∨ f.maxNumber = some 0) → ∀ i ∈ clusters, PassesCuts f heap i (c i) → i ∈ l) ∧
      (∀ n, 0 < n → f.maxNumber = some n → l.length ≤ n ∧
        ∀ i ∈ clusters, PassesCuts f heap i (c i) → i ∉ l → l.length = n ∧ ∀ k ∈ l, (c i).snr ≤ (c k).snr) := by
  by_cases hcap : f.maxNumber = none ∨ f.maxNumber = some 0
  · obtain ⟨l, h1, h2, h3⟩ := C45_no_cap f heap clusters c hc hcap
    refine ⟨l, h1, hnd.sublist h2, fun i hi => (h3 i).1 hi, fun _ i hi hp => (h3 i).2 ⟨hi, hp⟩, ?_⟩
    intro n hn he
    rcases hcap with h | h
    · rw [h] at he; cases he
    · rw [h] at he; cases he; omega
  · push Not at hcap
    obtain ⟨n, hn⟩ : ∃ n, f.maxNumber = some n := Option.ne_none_iff_exists'.1 hcap.1
    have hn0 : 0 < n := by
      rcases Nat.eq_zero_or_pos n with h | h
      · rw [h] at hn; exact absurd hn hcap.2
      · exact h
    obtain ⟨l, passing, h1, hpn, hp, h2, h3, h4, -, h6⟩ := C45_cap f heap clusters c hnd hc n hn0 hn
    refine ⟨l, h1, h2, fun i hi => (hp i).1 (h3 i hi), fun h => ?_, ?_⟩
    · rcases h with h | h
      · exact absurd h hcap.1
      · exact absurd h hcap.2
    · intro n' hn' he
      rw [hn] at he
      cases he
      refine ⟨by rw [h4]; exact min_le_left _ _, fun i hi hpc hni => ⟨?_, ?_⟩⟩
      · rw [h4]
        by_contra hlt
        have hlen : l.length = passing.length := by rw [h4]; omega
        have hsub : l.Subperm passing := List.subperm_of_subset h2 h3
        have hpm := hsub.perm_of_length_le hlen.ge
        exact hni (hpm.mem_iff.2 ((hp i).2 ⟨hi, hpc⟩))
      · exact fun k hk => h6 i ((hp i).2 ⟨hi, hpc⟩) hni k hk

/-- The stages up to the clustering: the peaks of all files are in clusters, which have a brightest peak each. -/
theorem job_clusters {β τ γ : Type*} {j : PipeJob K β τ γ} {g : β → List (HPeak K)} (hp1 : 1 ≤ j.processes)
    (hse : ∀ x ∈ j.fnames, j.searchFile x = .ok (g x))
    (hpo : ∀ x ∈ j.fnames, ∀ p ∈ g x, 0 < p.period ∧ p.freq = 1 / p.period ∧ 0 < p.ducy) (har : IsArgsort j.argsort) (htm : 0 < j.tmed)
    {s : PoolSchedule} (hs : JobSchedule j s) :
    ∃ (peaks : List (HPeak K)) (heap : ℕ → PCluster K) (next : ℕ) (L : List ℕ) (c : ℕ → HPeak K),
      (((PipeState.fresh (γ := γ)).search j s).bind fun st => st.cluster j)
        = .ok { peaks := peaks, heap := heap, next := next, clusters := L, filtered := [], candidates := [] } ∧
      peaks.Perm (j.fnames.flatMap g) ∧ peaks.Pairwise (fun a b => a.period ≤ b.period) ∧
      L.Nodup ∧ (L.map fun i => (heap i).peaks).flatten.Perm peaks ∧
      (∀ i ∈ L, (heap i).peaks ≠ [] ∧ (heap i).parent = none ∧ ∀ p ∈ (heap i).peaks, ∀ q ∈ (heap i).peaks,
        Linked (· ∈ peaks) (fun p : HPeak K => p.freq) (j.radius / j.tmed) p q) ∧
      (∀ i ∈ L, ∀ k ∈ L, i ≠ k → ∀ p ∈ (heap i).peaks, ∀ q ∈ (heap k).peaks, j.radius / j.tmed < |p.freq - q.freq|) ∧
      (∀ i ∈ L, (heap i).centre = .ok (c i)) ∧ (∀ i ∈ L, c i ∈ (heap i).peaks) ∧ (∀ i ∈ L, ∀ q ∈ (heap i).peaks, q.snr ≤ (c i).snr) ∧
      (∀ i ∈ L, 0 < (c i).freq ∧ 0 < (c i).ducy) ∧ (∀ i ∈ L, ∀ p ∈ (heap i).peaks, p ∈ peaks) := by
  obtain ⟨peaks, hpeaks⟩ : ∃ peaks, peaks = sortByPeriod (j.fnames.flatMap g) := ⟨_, rfl⟩
  have hperm : peaks.Perm (j.fnames.flatMap g) := hpeaks ▸ sortByPeriod_perm _
  have hsorted : peaks.Pairwise (fun a b => a.period ≤ b.period) := hpeaks ▸ sortByPeriod_sorted _
  have hfrom : ∀ p ∈ peaks, ∃ x ∈ j.fnames, p ∈ g x := by
    intro p hp
    obtain ⟨x, hx, hpx⟩ := List.mem_flatMap.1 (hperm.mem_iff.1 hp)
    exact ⟨x, hx, hpx⟩
  have hpos : ∀ p ∈ peaks, 0 < p.period ∧ p.freq = 1 / p.period := by
    intro p hp
    obtain ⟨x, hx, hpx⟩ := hfrom p hp
    exact ⟨(hpo x hx p hpx).1, (hpo x hx p hpx).2.1⟩
  -- the clusters, in both cases
  have hclus : ∃ (heap : ℕ → PCluster K) (next : ℕ) (L : List ℕ),
      PipeState.cluster j { PipeState.fresh (γ := γ) with peaks := peaks }
        = .ok { peaks := peaks, heap := heap, next := next, clusters := L, filtered := [], candidates := [] } ∧
      L.Nodup ∧ (L.map fun i => (heap i).peaks).flatten.Perm peaks ∧
      (∀ i ∈ L, (heap i).peaks ≠ [] ∧ (heap i).parent = none ∧ ∀ p ∈ (heap i).peaks, ∀ q ∈ (heap i).peaks,
        Linked (· ∈ peaks) (fun p : HPeak K => p.freq) (j.radius / j.tmed) p q) ∧
      (∀ i ∈ L, ∀ k ∈ L, i ≠ k → ∀ p ∈ (heap i).peaks, ∀ q ∈ (heap k).peaks, j.radius / j.tmed < |p.freq - q.freq|) := by
    by_cases hz : peaks.length = 0
    · have he : peaks = [] := List.eq_nil_of_length_eq_zero hz
      refine ⟨fun _ => { peaks := [] }, 0, [], ?_, List.nodup_nil, by rw [he]; exact .refl _, by simp, by simp⟩
      unfold PipeState.cluster
      rw [if_pos hz]
      rfl
    · obtain ⟨cls, h1, h2, h3, h4, h5⟩ := C64_clusters j.argsort har peaks j.radius j.tmed htm.ne' hsorted hpos
      have hget : ∀ i (hi : i < cls.length), heapOf cls i = cls[i] := by
        intro i hi
        unfold heapOf
        rw [List.getElem?_eq_getElem hi]; rfl
      have hmap : ((List.range cls.length).map fun k => 0 + k).map (fun i => (heapOf cls (i - 0)).peaks) = cls.map (·.peaks) := by
        apply List.ext_getElem
        · simp
        · intro i hi1 hi2
          simp at hi2
          simp [hget i hi2]
      refine ⟨fun i => if i < 0 then { peaks := [] } else heapOf cls (i - 0), 0 + cls.length,
        (List.range cls.length).map fun k => 0 + k, ?_, ?_, ?_, ?_, ?_⟩
      · unfold PipeState.cluster
        rw [if_neg hz]
        simp only
        rw [h1]
        rfl
      · simpa using List.nodup_range
      · simp only [Nat.not_lt_zero, if_false]
        rw [hmap]
        exact h2
      · intro i hi
        simp only [List.mem_map, List.mem_range, Nat.zero_add, exists_eq_right] at hi
        simp only [Nat.not_lt_zero, if_false, Nat.sub_zero]
        rw [hget i hi]
        have hm := List.getElem_mem hi
        exact ⟨(h3 _ hm).1, (h3 _ hm).2.2.1, h4 _ hm⟩
      · intro i hi k hk hik p hp q hq
        simp only [List.mem_map, List.mem_range, Nat.zero_add, exists_eq_right] at hi hk
        simp only [Nat.not_lt_zero, if_false, Nat.sub_zero] at hp hq
        rw [hget i hi] at hp
        rw [hget k hk] at hq
        rcases Nat.lt_or_gt_of_ne hik with hlt | hlt
        · exact (List.pairwise_iff_getElem.1 h5 i k hi hk hlt) p hp q hq
        · rw [abs_sub_comm]
          exact (List.pairwise_iff_getElem.1 h5 k i hk hi hlt) q hq p hp
  obtain ⟨heap, next, L, hrun, hnd, hpart, hcl, hsep⟩ := hclus
  have hcen : ∀ i ∈ L, ∃ p, (heap i).centre = .ok p ∧ p ∈ (heap i).peaks ∧ ∀ q ∈ (heap i).peaks, q.snr ≤ p.snr := by
    intro i hi
    cases hc : (heap i).centre with
    | error e => exact absurd (((C67_centre _).2 e).1 hc).1 (hcl i hi).1
    | ok p =>
      obtain ⟨pre, post, e, h1, h2⟩ := ((C67_centre _).1 p).1 hc
      refine ⟨p, rfl, by rw [e]; simp, ?_⟩
      intro q hq
      rw [e] at hq
      simp only [List.mem_append, List.mem_cons] at hq
      rcases hq with hq | rfl | hq
      · exact (h1 q hq).le
      · exact le_rfl
      · exact h2 q hq
  have : Nonempty (HPeak K) := ⟨{ freq := 0, snr := 0, ducy := 0, dm := 0, period := 0 }⟩
  choose! c hc1 hc2 hc3 using hcen
  have hin : ∀ i ∈ L, ∀ p ∈ (heap i).peaks, p ∈ peaks := by
    intro i hi p hp
    exact hpart.mem_iff.1 (List.mem_flatten.2 ⟨_, List.mem_map_of_mem hi, hp⟩)
  have hgood : ∀ i ∈ L, 0 < (c i).freq ∧ 0 < (c i).ducy := by
    intro i hi
    obtain ⟨x, hx, hpx⟩ := hfrom _ (hin i hi _ (hc2 i hi))
    obtain ⟨h1, h2, h3⟩ := hpo x hx _ hpx
    exact ⟨by rw [h2]; exact one_div_pos.2 h1, h3⟩
  refine ⟨peaks, heap, next, L, c, ?_, hperm, hsorted, hnd, hpart, hcl, hsep, hc1, hc2, hc3, hgood, hin⟩
  unfold PipeState.search
  rw [job_search hp1 hse hs, ← hpeaks]
  exact hrun

/-- C68. A new pipeline object accounts for every peak that the search of the files finds, whatever the number of processes and the
schedule. The peaks are kept, in order of period. Each is in exactly one cluster, whose centre is at least as bright and is linked
to it in frequency. Each cluster that passes the cuts and the cap, and whose candidate can be made, has exactly one candidate.
There are no other candidates, and they are in order of decreasing S/N. -/
theorem C68_every_peak_accounted_for {β τ γ : Type*} (j : PipeJob K β τ γ) (g : β → List (HPeak K)) (ts : K → τ) (h : JobOK j g ts)
    (s : PoolSchedule) (hs : JobSchedule j s) :
    ∃ (st : PipeState K γ) (c : ℕ → HPeak K), PipeState.fresh.process j s = .ok st ∧
      st.peaks.Perm (j.fnames.flatMap g) ∧ st.peaks.Pairwise (fun a b => a.period ≤ b.period) ∧
      -- clusters
      (st.clusters.map fun i => (st.heap i).peaks).flatten.Perm st.peaks ∧ st.clusters.Nodup ∧
      (∀ i ∈ st.clusters, (st.heap i).centre = .ok (c i) ∧ c i ∈ (st.heap i).peaks ∧ ∀ q ∈ (st.heap i).peaks,
        q.snr ≤ (c i).snr ∧ Linked (· ∈ st.peaks) (fun p : HPeak K => p.freq) (j.radius / j.tmed) q (c i)) ∧
      (∀ i ∈ st.clusters, ∀ k ∈ st.clusters, i ≠ k → ∀ p ∈ (st.heap i).peaks, ∀ q ∈ (st.heap k).peaks,
        j.radius / j.tmed < |p.freq - q.freq|) ∧
      -- filters
      st.filtered.Nodup ∧ (∀ i ∈ st.filtered, i ∈ st.clusters ∧ PassesCuts j.filters st.heap i (c i)) ∧
      ((j.filters.maxNumber = none ∨ j.filters.maxNumber = some 0) →
        ∀ i ∈ st.clusters, PassesCuts j.filters st.heap i (c i) → i ∈ st.filtered) ∧
      (∀ n, 0 < n → j.filters.maxNumber = some n → st.filtered.length ≤ n ∧
        ∀ i ∈ st.clusters, PassesCuts j.filters st.heap i (c i) → i ∉ st.filtered →
          st.filtered.length = n ∧ ∀ k ∈ st.filtered, (c i).snr ≤ (c k).snr) ∧
      -- candidates
      st.candidates.Pairwise (fun a b => b.params.snr ≤ a.params.snr) ∧ (st.candidates.map (·.source)).Nodup ∧
      (∀ x : PCandidate K γ, x ∈ st.candidates ↔ x.source ∈ st.filtered ∧ x.params = c x.source ∧
        j.make (ts (c x.source).dm) (st.heap x.source).peaks (c x.source) = .ok x.data) := by
  obtain ⟨peaks, heap, next, L, c, hrun, hperm, hsorted, hnd, hpart, hcl, hsep, hc1, hc2, hc3, hgood, hin⟩ :=
    job_clusters h.processes h.search h.pos h.argsort h.tmed hs
  have hfrom : ∀ p ∈ peaks, ∃ x ∈ j.fnames, p ∈ g x := by
    intro p hp
    obtain ⟨x, hx, hpx⟩ := List.mem_flatMap.1 (hperm.mem_iff.1 hp)
    exact ⟨x, hx, hpx⟩
  obtain ⟨heap', rank, hflag, hpk, -, -, -, -, -, -⟩ := C44_flag_harmonics j.test heap L c hnd hc1 (fun i hi => (hcl i hi).2.1)
    (fun i hi k hk => h.test _ _ (hgood i hi).1 (hgood k hk).1 (hgood i hi).2 (hgood k hk).2)
  have hc1' : ∀ i ∈ L, (heap' i).centre = .ok (c i) := by
    intro i hi
    have h1 := hc1 i hi
    unfold PCluster.centre at h1 ⊢
    rw [hpk i]
    exact h1
  obtain ⟨F, hF1, hF2, hF3, hF4, hF5⟩ := applyFilters_ok j.filters heap' L c hnd hc1'
  have hload : ∀ i ∈ F, j.load (c i).dm = .ok (ts (c i).dm) := by
    intro i hi
    have hiL := (hF3 i hi).1
    obtain ⟨x, hx, hpx⟩ := hfrom _ (hin i hiL _ (hc2 i hiL))
    exact h.load x hx _ hpx
  obtain ⟨cands, hb1, hb2, hb3⟩ := C46_build_candidates j.load (fun t i p => j.make t (heap' i).peaks p) heap' F c ts
    (fun i hi => hc1' i (hF3 i hi).1) hload
  obtain ⟨cands', hb1', hb4⟩ := C46_iff j.load (fun t i p => j.make t (heap' i).peaks p) heap' F c ts
    (fun i hi => hc1' i (hF3 i hi).1) hload
  rw [hb1] at hb1'
  cases hb1'
  refine ⟨{ peaks := peaks, heap := heap', next := next, clusters := L, filtered := F, candidates := cands }, c, ?_, hperm, hsorted,
    ?_, hnd, ?_, ?_, hF2, hF3, hF4, hF5, hb2, ?_, hb4⟩
  · rw [process_eq, hrun]
    simp only [Except.bind, PipeState.flag]
    rw [hflag]
    simp only [Except.map, PipeState.filter]
    rw [hF1]
    simp only [Except.map, PipeState.build]
    rw [hb1]
  · simp only [hpk]
    exact hpart
  · intro i hi
    simp only [hpk]
    have hi' : i ∈ L := hi
    exact ⟨hc1' i hi', hc2 i hi', fun q hq => ⟨hc3 i hi' q hq, (hcl i hi').2.2 q hq _ (hc2 i hi')⟩⟩
  · intro i hi k hk hik p hp q hq
    simp only [hpk] at hp hq
    exact hsep i hi k hk hik p hp q hq
  · refine (hb3.map _).nodup_iff.2 ?_
    have : ∀ l : List ℕ, l.Nodup →
        ((l.filterMap fun i => candidateOf ts (fun t i p => j.make t (heap' i).peaks p) i (c i)).map (·.source)).Nodup := by
      intro l
      induction l with
      | nil => intro _; exact List.nodup_nil
      | cons a l ih =>
        intro hl
        rw [List.nodup_cons] at hl
        rw [List.filterMap_cons]
        split
        · exact ih hl.2
        · rename_i x hx
          rw [List.map_cons, List.nodup_cons]
          refine ⟨?_, ih hl.2⟩
          have hxa : x.source = a := by
            unfold candidateOf at hx
            split at hx
            · cases hx; rfl
            · cases hx
          rw [hxa]
          intro hmem
          obtain ⟨y, hy, hya⟩ := List.mem_map.1 hmem
          obtain ⟨b, hb, hby⟩ := List.mem_filterMap.1 hy
          have hyb : y.source = b := by
            unfold candidateOf at hby
            split at hby
            · cases hby; rfl
            · cases hby
          rw [← hya, hyb] at hl
          exact hl.1 hb
    exact this F hF2

/-- C68: harmonic relations after a run. `rank` is a ranking of the clusters by S/N. A cluster that is flagged has a parent that is brighter and not
flagged itself, is related to it by the test, with the fraction that is kept, and is not related to any cluster ranked higher than its parent
that is not flagged. Of two clusters that are not flagged, the test denies that they are related. -/
theorem C68_harmonics {β τ γ : Type*} (j : PipeJob K β τ γ) (g : β → List (HPeak K)) (ts : K → τ) (h : JobOK j g ts)
    (s : PoolSchedule) (hs : JobSchedule j s) (st : PipeState K γ) (hst : PipeState.fresh.process j s = .ok st) :
    ∃ (c : ℕ → HPeak K) (rank : ℕ → ℕ), (∀ i ∈ st.clusters, (st.heap i).centre = .ok (c i) ∧ 0 < (c i).freq ∧ 0 < (c i).ducy) ∧
      (∀ i ∈ st.clusters, (st.heap i).rank = some (rank i)) ∧ (st.clusters.map rank).Perm (List.range st.clusters.length) ∧
      (∀ i ∈ st.clusters, ∀ k ∈ st.clusters, rank i < rank k → (c k).snr ≤ (c i).snr) ∧
      (∀ i ∈ st.clusters, ∀ f, (st.heap i).parent = some f →
        f ∈ st.clusters ∧ (st.heap f).parent = none ∧ rank f < rank i ∧ (c i).snr ≤ (c f).snr ∧
        (∃ fr, j.test (c f) (c i) = .ok (true, fr) ∧ (st.heap i).hfrac = some fr) ∧
        ∀ k ∈ st.clusters, rank k < rank f → (st.heap k).parent = none → ∃ fr, j.test (c k) (c i) = .ok (false, fr)) ∧
      (∀ i ∈ st.clusters, ∀ k ∈ st.clusters, rank i < rank k → (st.heap i).parent = none → (st.heap k).parent = none →
        ∃ fr, j.test (c i) (c k) = .ok (false, fr)) := by
  obtain ⟨peaks, heap, next, L, c, hrun, hperm, hsorted, hnd, hpart, hcl, hsep, hc1, hc2, hc3, hgood, hin⟩ :=
    job_clusters h.processes h.search h.pos h.argsort h.tmed hs
  obtain ⟨heap', rank, hflag, hpk, _, k1, k2, k3, k4, k5⟩ := C44_flag_harmonics j.test heap L c hnd hc1 (fun i hi => (hcl i hi).2.1)
    (fun i hi k hk => h.test _ _ (hgood i hi).1 (hgood k hk).1 (hgood i hi).2 (hgood k hk).2)
  rw [process_eq, hrun] at hst
  simp only [Except.bind, PipeState.flag] at hst
  rw [hflag] at hst
  simp only [Except.map] at hst
  obtain ⟨st1, h1, h2⟩ : ∃ st1, PipeState.filter j { peaks := peaks, heap := heap', next := next, clusters := L, filtered := [], candidates := [] }
      = .ok st1 ∧ PipeState.build j st1 = .ok st := bind_ok_inv hst
  obtain ⟨F, _, rfl⟩ := map_ok_inv h1
  obtain ⟨C, _, rfl⟩ := map_ok_inv h2
  refine ⟨c, rank, ?_, k1, k2, k3, k4, k5⟩
  intro i hi
  refine ⟨?_, hgood i hi⟩
  have h1 := hc1 i hi
  unfold PCluster.centre at h1 ⊢
  simp only
  rw [hpk i]
  exact h1

/-- The ranks leave the parents as they are. -/
theorem assignRanks_parent : ∀ (l : List (ℕ × HPeak K)) (heap : ℕ → PCluster K) (r i : ℕ), (assignRanks heap r l i).parent = (heap i).parent
  | [], _, _, _ => rfl
  | (k, p) :: l, heap, r, i => by
    unfold assignRanks
    rw [assignRanks_parent l]
    by_cases h : i = k
    · subst h; simp
    · simp [Function.update_of_ne h]

/-- C68: if the test fails on every pair, a run with two peaks that are not linked ends with the error of the test: after the search, and before
anything is built or saved. -/
theorem C68_failing_test {β τ γ : Type*} (j : PipeJob K β τ γ) (g : β → List (HPeak K)) (hp1 : 1 ≤ j.processes)
    (hse : ∀ x ∈ j.fnames, j.searchFile x = .ok (g x))
    (hpo : ∀ x ∈ j.fnames, ∀ p ∈ g x, 0 < p.period ∧ p.freq = 1 / p.period ∧ 0 < p.ducy) (har : IsArgsort j.argsort) (htm : 0 < j.tmed)
    (s : PoolSchedule) (hs : JobSchedule j s) (err : PyErr) (hte : ∀ p q, j.test p q = .error err)
    (x y : β) (hx : x ∈ j.fnames) (hy : y ∈ j.fnames) (p q : HPeak K) (hp : p ∈ g x) (hq : q ∈ g y)
    (hpq : ¬ Linked (· ∈ j.fnames.flatMap g) (fun p : HPeak K => p.freq) (j.radius / j.tmed) p q) :
    (PipeState.fresh (γ := γ)).process j s = .error err := by
  obtain ⟨peaks, heap, next, L, c, hrun, hperm, hsorted, hnd, hpart, hcl, hsep, hc1, hc2, hc3, hgood, hin⟩ := job_clusters hp1 hse hpo har htm hs
  have hfind : ∀ z ∈ j.fnames, ∀ p ∈ g z, ∃ i ∈ L, p ∈ (heap i).peaks := by
    intro z hz p hp
    have : p ∈ (L.map fun i => (heap i).peaks).flatten := hpart.mem_iff.mpr (hperm.mem_iff.mpr (List.mem_flatMap.mpr ⟨z, hz, hp⟩))
    obtain ⟨l, hl, hpl⟩ := List.mem_flatten.mp this
    obtain ⟨i, hi, rfl⟩ := List.mem_map.mp hl
    exact ⟨i, hi, hpl⟩
  obtain ⟨i, hi, hpi⟩ := hfind x hx p hp
  obtain ⟨k, hk, hqk⟩ := hfind y hy q hq
  have hne : i ≠ k := by
    rintro rfl
    refine hpq ?_
    have h1 := (hcl i hi).2.2 p hpi q hqk
    have h2 : (fun p : HPeak K => p ∈ peaks) = (fun p => p ∈ j.fnames.flatMap g) := by
      funext p
      exact propext hperm.mem_iff
    rwa [h2] at h1
  have hlen : 2 ≤ L.length := by
    match L, hi, hk with
    | [a], hi, hk =>
      rw [List.mem_singleton] at hi hk
      exact absurd (hi.trans hk.symm) hne
    | a :: b :: l, _, _ => simp
  have hflag : flagHarmonics j.test heap L = .error err := by
    unfold flagHarmonics
    rw [if_neg (by omega), withCentres_ok heap c L hc1]
    simp only [Except.bind]
    obtain ⟨order, horder⟩ : ∃ order, order = sortBySnr (L.map fun i => (i, c i)) := ⟨_, rfl⟩
    have ho : order.Perm (L.map fun i => (i, c i)) := horder ▸ sortBySnr_perm _
    rw [← horder]
    have hol : 2 ≤ order.length := by rw [ho.length_eq]; simpa using hlen
    have hpar : ∀ a ∈ order, (assignRanks heap 0 order a.1).isHarmonic = false := by
      intro a ha
      obtain ⟨i, hi, rfl⟩ := List.mem_map.mp (ho.mem_iff.mp ha)
      unfold PCluster.isHarmonic
      rw [assignRanks_parent, (hcl i hi).2.1]
      rfl
    generalize assignRanks heap 0 order = heap' at hpar
    match order, hol, hpar with
    | a :: b :: l, _, hpar =>
      show Except.bind (flagStep j.test heap' (a, b)) _ = _
      unfold flagStep
      rw [hpar a (by simp), hpar b (by simp), hte]
      rfl
  rw [process_eq, hrun]
  simp only [Except.bind, PipeState.flag]
  rw [hflag]
  rfl

/-- C68. The outcome does not depend on the number of processes and the schedule. -/
theorem C68_deterministic {β τ γ : Type*} (j : PipeJob K β τ γ) (g : β → List (HPeak K)) (ts : K → τ) (h : JobOK j g ts)
    (s s' : PoolSchedule) (hs : JobSchedule j s) (n : ℕ) (hn : 1 ≤ n) (hs' : JobSchedule { j with processes := n } s')
    (st : PipeState K γ) : st.process j s = st.process { j with processes := n } s' := by
  have h' : JobOK { j with processes := n } g ts := ⟨hn, h.search, h.pos, h.argsort, h.tmed, h.test, h.load⟩
  have e1 := job_search h.processes h.search hs
  have e2 := job_search h'.processes h'.search hs'
  unfold PipeState.process PipeState.search
  simp only at e2 ⊢
  rw [e1, e2]
  rfl

/-- A job on two files, with the harmonic test of the pipeline, that builds candidates from pairs of numbers. -/
noncomputable def exJob : PipeJob ℚ ℕ ℚ (ℚ × ℕ) where
  searchFile := fun i => .ok (if i = 0 then exPeaks.take 2 else exPeaks.drop 2)
  fnames := [0, 1]
  processes := 2
  argsort := insArgsort
  radius := 1 / 5
  tmed := 600
  test := fun F H => htest F H 600 1200 1500 { denomMax := 100, phaseDistanceMax := 1, dmDistanceMax := 3, snrDistanceMax := 3 }
  filters := ⟨none, some 8, true, none⟩
  load := .ok
  make := fun t l _ => .ok (t, l.length)

theorem exJob_ok : JobOK exJob (fun i => if i = 0 then exPeaks.take 2 else exPeaks.drop 2) id := by
  refine ⟨by decide, fun _ _ => rfl, ?_, insArgsort_ok, by norm_num [exJob], ?_, fun _ _ _ _ => rfl⟩
  · show ∀ x ∈ [0, 1], _
    decide +kernel
  · intro p q h1 h2 h3 h4
    obtain ⟨related, r, -, -, hrun, -⟩ := C42_htest p q 600 1200 1500
      { denomMax := 100, phaseDistanceMax := 1, dmDistanceMax := 3, snrDistanceMax := 3 } h1 h2 h3 h4 (by norm_num) (by norm_num)
      (by norm_num) (by norm_num)
    exact ⟨_, hrun⟩

theorem exJob_schedule : JobSchedule exJob { size := fun _ => 1, order := fun _ => [1, 0] } := by
  have hch : chunkLoop 2 [0, 1] [] = [[0, 1]] := by decide
  show ValidSchedule _ 0 (chunkLoop 2 [0, 1] [])
  rw [hch]
  intro i c hc
  match i, hc with
  | 0, hc =>
    simp only [List.getElem?_cons_zero, Option.some.injEq] at hc
    subst hc
    exact ⟨le_rfl, by decide⟩
  | n + 1, hc => simp at hc

example : ∃ st : PipeState ℚ (ℚ × ℕ), PipeState.fresh.process exJob { size := fun _ => 1, order := fun _ => [1, 0] } = .ok st ∧
    st.peaks.length = 3 := by
  obtain ⟨st, c, h1, h2, -⟩ := C68_every_peak_accounted_for exJob _ _ exJob_ok _ exJob_schedule
  exact ⟨st, h1, h2.length_eq⟩

/-- With a band in the wrong order, the harmonic test always fails, and so does the job: the first peak is not linked to another one. -/
example : (PipeState.fresh (γ := ℚ × ℕ)).process { exJob with test := fun F H => htest F H 600 1500 1200 ⟨100, 1, 3, 3⟩ } { size := fun _ => 1, order := fun _ => [1, 0] } =
    .error .valueError := by
  have ok := exJob_ok
  refine C68_failing_test { exJob with test := fun F H => htest F H 600 1500 1200 ⟨100, 1, 3, 3⟩ } _ ok.processes ok.search ok.pos ok.argsort ok.tmed _
    exJob_schedule .valueError (fun p q => ?_) 0 1 (by simp [exJob]) (by simp [exJob]) exPeaks[0] exPeaks[2] (by simp [exPeaks]) (by simp [exPeaks]) ?_
  · show htest p q 600 1500 1200 ⟨100, 1, 3, 3⟩ = _
    unfold htest hdiag
    rw [if_pos (by norm_num)]
    rfl
  · intro h
    have key : ∀ q, Linked (· ∈ exPeaks) (fun p : HPeak ℚ => p.freq) (1 / 5 / 600) exPeaks[0] q → 3 / 2 < q.freq := by
      intro q hq
      induction hq with
      | refl => decide +kernel
      | @tail b c _ h ih =>
        have hall : ∀ b ∈ exPeaks, ∀ c ∈ exPeaks, |b.freq - c.freq| ≤ 1 / 5 / 600 → 3 / 2 < b.freq → 3 / 2 < c.freq := by decide +kernel
        exact hall b h.1 c h.2.1 h.2.2 ih
    exact absurd (key _ h) (by decide +kernel)

/-! ## C69 -/

/-- Building candidates appends to what is there. -/
theorem buildCandidates_length {τ γ : Type*} {load : K → Except PyErr τ} {make : τ → ℕ → HPeak K → Except PyErr γ}
    {heap : ℕ → PCluster K} {clusters : List ℕ} {before after : List (PCandidate K γ)}
    (h : buildCandidates load make heap clusters before = .ok after) : ∃ new, after.Perm (before ++ new) ∧
      buildCandidates load make heap clusters [] = .ok (new.mergeSort fun a b => decide (b.params.snr ≤ a.params.snr)) := by
  unfold buildCandidates at h ⊢
  obtain ⟨cs, h1, h2⟩ := bind_ok_inv h
  rw [h1]
  simp only [Except.bind] at h2 ⊢
  split_ifs at h2 ⊢ with hz
  · cases h2
    exact ⟨[], by simp, by simp⟩
  · obtain ⟨new, h3, rfl⟩ := map_ok_inv h2
    refine ⟨new, List.mergeSort_perm _ _, ?_⟩
    rw [h3]
    rfl

theorem PipeState.cluster_candidates {β τ γ : Type*} {j : PipeJob K β τ γ} {st st' : PipeState K γ} (h : st.cluster j = .ok st') :
    st'.candidates = st.candidates := by
  unfold PipeState.cluster at h
  split_ifs at h
  · cases h; rfl
  · obtain ⟨cls, -, rfl⟩ := map_ok_inv h
    rfl

/-- C69, what does hold: a run of a pipeline object that has been used before keeps all candidates of the earlier runs and adds its
own, in order of decreasing S/N. The candidates it adds come from clusters that passed its filters. -/
theorem C69_appends_partial {β τ γ : Type*} (j : PipeJob K β τ γ) (s : PoolSchedule) (st st' : PipeState K γ)
    (h : st.process j s = .ok st') : ∃ new, st'.candidates.Perm (st.candidates ++ new) ∧
      buildCandidates j.load (fun ts i p => j.make ts (st'.heap i).peaks p) st'.heap st'.filtered [] =
        .ok (new.mergeSort fun a b => decide (b.params.snr ≤ a.params.snr)) := by
  unfold PipeState.process at h
  obtain ⟨st1, h1, h⟩ := bind_ok_inv h
  obtain ⟨st2, h2, h⟩ := bind_ok_inv h
  obtain ⟨st3, h3, h⟩ := bind_ok_inv h
  obtain ⟨st4, h4, h⟩ := bind_ok_inv h
  obtain ⟨p, -, rfl⟩ := map_ok_inv h1
  have e2 := PipeState.cluster_candidates h2
  obtain ⟨q, -, rfl⟩ := map_ok_inv h3
  obtain ⟨l, -, rfl⟩ := map_ok_inv h4
  obtain ⟨c, h5, rfl⟩ := map_ok_inv h
  simp only at e2 h5 ⊢
  rw [← e2]
  exact buildCandidates_length h5

/-- A peak. -/
def onePeak : HPeak ℚ := { peakF with period := 1 / 2 }

/-- A job on one file with one peak. -/
def oneJob : PipeJob ℚ ℕ ℚ (ℚ × ℕ) where
  searchFile := fun _ => .ok [onePeak]
  fnames := [0]
  processes := 1
  argsort := insArgsort
  radius := 1 / 5
  tmed := 600
  test := fun _ _ => .ok (false, 1)
  filters := ⟨none, none, false, none⟩
  load := .ok
  make := fun t l _ => .ok (t, l.length)

theorem oneJob_ok : JobOK oneJob (fun _ => [onePeak]) id :=
  ⟨by decide, fun _ _ => rfl, by decide +kernel, insArgsort_ok, by decide +kernel, fun _ _ _ _ _ _ => ⟨_, rfl⟩, fun _ _ _ _ => rfl⟩

theorem oneJob_schedule : JobSchedule oneJob { size := fun _ => 1, order := fun _ => [0] } := by
  have hch : chunkLoop 1 [0] [] = [[0]] := by decide
  show ValidSchedule _ 0 (chunkLoop 1 [0] [])
  rw [hch]
  intro i c hc
  match i, hc with
  | 0, hc =>
    simp only [List.getElem?_cons_zero, Option.some.injEq] at hc
    subst hc
    exact ⟨le_rfl, by decide⟩
  | n + 1, hc => simp at hc

theorem oneJob_process (st : PipeState ℚ (ℚ × ℕ)) : ∃ st', st.process oneJob { size := fun _ => 1, order := fun _ => [0] } = .ok st' ∧
    st'.candidates.length = st.candidates.length + 1 := by
  have e1 := job_search oneJob_ok.processes oneJob_ok.search oneJob_schedule
  have e2 : sortByPeriod (oneJob.fnames.flatMap fun _ => [onePeak]) = [onePeak] := by
    show List.mergeSort [_] _ = _
    rw [List.mergeSort_singleton]
  rw [e2] at e1
  have e3 : clusterPeaks oneJob.argsort [onePeak] oneJob.radius oneJob.tmed =
      .ok [{ peaks := [onePeak] }] := by
    with_unfolding_all rfl
  have e4 : ∀ heap : ℕ → PCluster ℚ, (heap st.next).peaks = [onePeak] →
      withCentres heap [st.next] = .ok [(st.next, onePeak)] := by
    intro heap hh
    unfold withCentres
    rw [List.mapM_cons]
    unfold PCluster.centre
    rw [hh]
    rfl
  obtain ⟨heap, hheap⟩ : ∃ heap, heap = (fun i => if i < st.next then st.heap i else
    heapOf [{ peaks := [onePeak] }] (i - st.next)) := ⟨_, rfl⟩
  have hp : (heap st.next).peaks = [onePeak] := by
    rw [hheap]; simp [heapOf]
  obtain ⟨heap', h1, h2⟩ : ∃ heap', flagHarmonics oneJob.test heap [st.next] = .ok heap' ∧
      (heap' st.next).peaks = [onePeak] := by
    unfold flagHarmonics
    rw [e4 heap hp]
    simp only [Except.bind, sortBySnr, List.mergeSort_singleton]
    exact ⟨_, rfl, by simp [assignRanks, hp]⟩
  have h3 : applyFilters oneJob.filters heap' [st.next] = .ok [st.next] := by
    unfold applyFilters
    rw [e4 heap' h2]
    rfl
  obtain ⟨x, hx⟩ : ∃ x, buildCandidates oneJob.load (fun ts i p => oneJob.make ts (heap' i).peaks p) heap' [st.next] st.candidates
      = .ok ((st.candidates ++ [x]).mergeSort fun a b => decide (b.params.snr ≤ a.params.snr)) := by
    unfold buildCandidates
    rw [e4 heap' h2]
    simp only [Except.bind, sortBySnr, List.mergeSort_singleton]
    exact ⟨_, rfl⟩
  refine ⟨⟨[onePeak], heap', st.next + 1, [st.next], [st.next],
    (st.candidates ++ [x]).mergeSort fun a b => decide (b.params.snr ≤ a.params.snr)⟩, ?_, ?_⟩
  · unfold PipeState.process PipeState.search
    rw [e1]
    simp only [Except.map, Except.bind, PipeState.cluster]
    rw [if_neg (by simp), e3]
    simp only [Except.map, PipeState.flag, PipeState.addClusters]
    have : (List.range [({ peaks := [onePeak] } : PCluster ℚ)].length).map (fun k => st.next + k) = [st.next] := rfl
    rw [this, ← hheap, h1]
    simp only [Except.map, PipeState.filter]
    rw [h3]
    simp only [Except.map, PipeState.build]
    rw [hx]
    rfl
  · simp [List.length_mergeSort]

/-- C69 is false: the same job run twice on one pipeline object gives every candidate twice. -/
theorem C69_false : ¬ ∀ (j : PipeJob ℚ ℕ ℚ (ℚ × ℕ)) (g : ℕ → List (HPeak ℚ)) (ts : ℚ → ℚ) (s : PoolSchedule) (st₁ st₂ : PipeState ℚ (ℚ × ℕ)),
    JobOK j g ts → JobSchedule j s → PipeState.fresh.process j s = .ok st₁ → st₁.process j s = .ok st₂ →
    st₂.candidates.map (fun x => (x.params, x.data)) = st₁.candidates.map (fun x => (x.params, x.data)) := by
  intro hall
  obtain ⟨st₁, h1, l1⟩ := oneJob_process PipeState.fresh
  obtain ⟨st₂, h2, l2⟩ := oneJob_process st₁
  have := congrArg List.length (hall oneJob _ id _ st₁ st₂ oneJob_ok oneJob_schedule h1 h2)
  rw [List.length_map, List.length_map, l2] at this
  omega

end Verif.Props
