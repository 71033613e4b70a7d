import Verif.Props.ConfDefaults

/-!
# C142: the candidate filters only select candidates
-/

namespace Verif.Spec

open Verif.Model

/-- The filters `f'` are at least as strict as `f`, and `f` has no `max_number`. -/
structure Tightens {K : Type*} [LE K] (f f' : FilterParams K) : Prop where
  dm : ∀ d, f.dmMin = some d → ∃ d', f'.dmMin = some d' ∧ d ≤ d'
  snr : ∀ s, f.snrMin = some s → ∃ s', f'.snrMin = some s' ∧ s ≤ s'
  harm : f.removeHarmonics = true → f'.removeHarmonics = true
  cap : f.maxNumber = none ∨ f.maxNumber = some 0

/-- `None` or a number. -/
def optFloat : Option ℚ → PyVal
  | none => .none
  | some q => .float (.fin q)

/-- `None` or a whole number. -/
def optCount : Option ℕ → PyVal
  | none => .none
  | some k => .int k

/-- A section `candidate_filters` of a configuration. -/
def filterSection (dm snr : Option ℚ) (remove : Bool) (n : Option ℕ) : PyVal :=
  .dict [("dm_min", optFloat dm), ("snr_min", optFloat snr), ("remove_harmonics", .bool remove), ("max_number", optCount n)]

/-- The filters that it stands for. -/
noncomputable def sectionFilters (dm snr : Option ℚ) (remove : Bool) (n : Option ℕ) : FilterParams ℝ := ⟨dm.map fun q : ℚ => (q : ℝ), snr.map fun q : ℚ => (q : ℝ), remove, n⟩

/-- The first threshold is not above the second, where `None` is below all numbers. -/
def optLe : Option ℚ → Option ℚ → Prop
  | none, _ => True
  | some _, none => False
  | some a, some b => a ≤ b

end Verif.Spec

namespace Verif.Props

open Verif.Model Verif.Spec Verif.Lemmas

section

set_option linter.unusedSectionVars false

variable {K : Type*} [LinearOrder K] [Field K] [IsStrictOrderedRing K]

theorem _root_.Verif.Spec.Tightens.passes {f f' : FilterParams K} (h : Tightens f f') {heap : ℕ → PCluster K} {i : ℕ} {p : HPeak K} (hp : PassesCuts f' heap i p) : PassesCuts f heap i p := by
  refine ⟨fun d hd => ?_, fun s hs => ?_, fun hr => hp.2.2 (h.harm hr)⟩
  · obtain ⟨d', h1, h2⟩ := h.dm d hd
    exact h2.trans (hp.1 d' h1)
  · obtain ⟨s', h1, h2⟩ := h.snr s hs
    exact h2.trans (hp.2.1 s' h1)

theorem build_nil {τ γ : Type*} (load : K → Except PyErr τ) (make : τ → ℕ → HPeak K → Except PyErr γ) (heap : ℕ → PCluster K) : buildCandidates load make heap [] [] = .ok [] := by
  simp [buildCandidates, withCentres, sortBySnr, Except.bind, pure, Except.pure]

/-- The candidates that are built from a list of clusters. -/
theorem built_iff {τ γ : Type*} {load : K → Except PyErr τ} {make : τ → ℕ → HPeak K → Except PyErr γ} {heap : ℕ → PCluster K} {clusters : List ℕ} {c : ℕ → HPeak K}
    (hc : ∀ i ∈ clusters, (heap i).centre = .ok (c i)) (hnd : clusters.Nodup) {cands : List (PCandidate K γ)} (h : buildCandidates load make heap clusters [] = .ok cands) :
    (cands.map PCandidate.source).Nodup ∧ cands.Pairwise (fun a b => b.params.snr ≤ a.params.snr) ∧ (∀ i ∈ clusters, ∃ t, load (c i).dm = .ok t) ∧
      ∀ x, x ∈ cands ↔ x.source ∈ clusters ∧ x.params = c x.source ∧ ∃ t, load (c x.source).dm = .ok t ∧ make t x.source (c x.source) = .ok x.data := by
  have hload : ∀ i ∈ clusters, ∃ t, load (c i).dm = .ok t := by
    intro i hi
    rcases e : load (c i).dm with er | t
    · obtain ⟨e', he⟩ := C46_load_failure make load heap clusters c [] hc i hi er e
      rw [h] at he
      cases he
    · exact ⟨t, rfl⟩
  rcases clusters with _ | ⟨i0, l⟩
  · rw [build_nil] at h
    cases h
    simp
  obtain ⟨t0, -⟩ := hload i0 List.mem_cons_self
  obtain ⟨ts, hts⟩ : ∃ ts : K → τ, ∀ i ∈ i0 :: l, load (c i).dm = .ok (ts (c i).dm) :=
    ⟨fun dm => match load dm with | .ok t => t | .error _ => t0, fun i hi => by
      obtain ⟨t, ht⟩ := hload i hi
      simp only [ht]⟩
  obtain ⟨cs, h1, h2, h3⟩ := C46_build_candidates load make heap _ c _ hc hts
  obtain ⟨cs', h4, h5⟩ := C46_iff load make heap _ c _ hc hts
  rw [h] at h1 h4
  cases h1
  cases h4
  refine ⟨?_, h2, hload, fun x => ?_⟩
  · rw [(h3.map _).nodup_iff]
    clear h h2 h3 h5
    generalize i0 :: l = L at *
    induction L with
    | nil => simp
    | cons a L ih =>
      rw [List.nodup_cons] at hnd
      have ih := ih (fun i hi => hc i (List.mem_cons_of_mem _ hi)) hnd.2 (fun i hi => hload i (List.mem_cons_of_mem _ hi)) (fun i hi => hts i (List.mem_cons_of_mem _ hi))
      rw [List.filterMap_cons]
      split
      · exact ih
      · rename_i b hb
        rw [List.map_cons, List.nodup_cons]
        refine ⟨fun hm => hnd.1 ?_, ih⟩
        have src : ∀ {i p} {y : PCandidate K γ}, candidateOf ts make i p = some y → y.source = i := by
          intro i p y hy
          unfold candidateOf at hy
          split at hy
          · cases hy
            rfl
          · cases hy
        obtain ⟨y, hy, hyb⟩ := List.mem_map.mp hm
        obtain ⟨i, hi, hiy⟩ := List.mem_filterMap.mp hy
        rw [src hiy, src hb] at hyb
        exact hyb ▸ hi
  · rw [h5 x]
    refine and_congr_right fun hx => and_congr_right fun _ => ?_
    rw [hts _ hx]
    constructor
    · exact fun h => ⟨_, rfl, h⟩
    · rintro ⟨t', h1, h2⟩
      cases h1
      exact h2

/-- The stages of a run before the filters. -/
theorem process_stages {β τ γ : Type*} {j : PipeJob K β τ γ} {s : PoolSchedule} {st : PipeState K γ} (h : PipeState.fresh.process j s = .ok st) :
    ∃ st3 : PipeState K γ, (((PipeState.fresh.search j s).bind fun st => st.cluster j).bind fun st => st.flag j) = .ok st3 ∧ st3.candidates = [] ∧ st3.clusters.Nodup ∧
      applyFilters j.filters st3.heap st3.clusters = .ok st.filtered ∧
      buildCandidates j.load (fun ts i p => j.make ts (st3.heap i).peaks p) st3.heap st.filtered [] = .ok st.candidates ∧
      st.peaks = st3.peaks ∧ st.heap = st3.heap ∧ st.clusters = st3.clusters ∧ st.next = st3.next := by
  unfold PipeState.process at h
  obtain ⟨st1, h1, h⟩ := bind_ok_inv h
  obtain ⟨st2, h2, h⟩ := bind_ok_inv h
  obtain ⟨st3, h3, h⟩ := bind_ok_inv h
  obtain ⟨st4, h4, h⟩ := bind_ok_inv h
  refine ⟨st3, by rw [h1]; simp only [Except.bind]; rw [h2]; exact h3, ?_⟩
  obtain ⟨p, -, rfl⟩ := map_ok_inv h1
  have hcand : st2.candidates = [] ∧ st2.clusters.Nodup := by
    unfold PipeState.cluster at h2
    split_ifs at h2
    · cases h2
      exact ⟨rfl, List.nodup_nil⟩
    · obtain ⟨cls, -, rfl⟩ := map_ok_inv h2
      refine ⟨rfl, ?_⟩
      show ((List.range _).map _).Nodup
      exact List.Nodup.map (fun a b h => by simpa using h) List.nodup_range
  obtain ⟨q, -, rfl⟩ := map_ok_inv h3
  obtain ⟨l, h7, rfl⟩ := map_ok_inv h4
  obtain ⟨c, h8, rfl⟩ := map_ok_inv h
  refine ⟨hcand.1, hcand.2, h7, ?_, rfl, rfl, rfl, rfl⟩
  simp only at h8
  rw [hcand.1] at h8
  exact h8

theorem centres_of {heap : ℕ → PCluster K} {f : FilterParams K} {L l : List ℕ} (h : applyFilters f heap L = .ok l) : ∃ c : ℕ → HPeak K, ∀ i ∈ L, (heap i).centre = .ok (c i) := by
  unfold applyFilters withCentres at h
  obtain ⟨cs, h1, -⟩ := map_ok_inv h
  refine ⟨fun i => match (heap i).centre with | .ok p => p | .error _ => ⟨0, 0, 0, 0, 0, 0⟩, fun i hi => ?_⟩
  obtain ⟨b, -, hb⟩ := forall₂_mem_left (mapM_ok_inv _ _ _ h1) hi
  obtain ⟨p, hp, -⟩ := map_ok_inv hb
  simp only [hp]

/-- **C142.** Two runs that differ in the candidate filters only: the peaks, the clusters and their harmonic flags are the same, and a cluster that passes both filters gives the same candidate. -/
theorem C142_common {β τ γ : Type*} {j : PipeJob K β τ γ} {s : PoolSchedule} {f' : FilterParams K} {st st' : PipeState K γ} (h : PipeState.fresh.process j s = .ok st)
    (h' : PipeState.fresh.process { j with filters := f' } s = .ok st') : st'.peaks = st.peaks ∧ st'.heap = st.heap ∧ st'.clusters = st.clusters ∧
      ∀ x, (x ∈ st.candidates ∧ x.source ∈ st'.filtered) ↔ (x ∈ st'.candidates ∧ x.source ∈ st.filtered) := by
  obtain ⟨st3, h1, -, hnd, h2, h3, h4, h5, h6, -⟩ := process_stages h
  obtain ⟨st3', k1, -, -, k2, k3, k4, k5, k6, -⟩ := process_stages h'
  have : (.ok st3 : Except PyErr (PipeState K γ)) = .ok st3' := h1.symm.trans k1
  cases this
  obtain ⟨c, hc⟩ := centres_of h2
  obtain ⟨l, e1, n1, p1, -⟩ := applyFilters_ok j.filters st3.heap st3.clusters c hnd hc
  obtain ⟨l', e2, n2, p2, -⟩ := applyFilters_ok f' st3.heap st3.clusters c hnd hc
  rw [h2] at e1
  cases e1
  have := k2.symm.trans e2
  cases this
  obtain ⟨-, -, -, b1⟩ := built_iff (fun i hi => hc i (p1 i hi).1) n1 h3
  obtain ⟨-, -, -, b2⟩ := built_iff (fun i hi => hc i (p2 i hi).1) n2 k3
  refine ⟨k4.trans h4.symm, k5.trans h5.symm, k6.trans h6.symm, fun x => ?_⟩
  rw [b1 x, b2 x]
  tauto

open Classical in
/-- **C142.** Stricter filters: if a run ends normally then so does the run with the stricter filters. Its candidates are those of the first run that pass the filters, unchanged; if there is a `max_number`, then
at most that many; if one that passes is left out then that many clusters were selected, and it is not brighter than any of the candidates. -/
theorem C142_stricter {β τ γ : Type*} {j : PipeJob K β τ γ} {s : PoolSchedule} {f' : FilterParams K} (ht : Tightens j.filters f') {st : PipeState K γ}
    (h : PipeState.fresh.process j s = .ok st) :
    ∃ st', PipeState.fresh.process { j with filters := f' } s = .ok st' ∧ st'.peaks = st.peaks ∧ st'.heap = st.heap ∧ st'.clusters = st.clusters ∧
      (∀ x ∈ st'.candidates, x ∈ st.candidates ∧ PassesCuts f' st.heap x.source x.params) ∧ st'.candidates.Pairwise (fun a b => b.params.snr ≤ a.params.snr) ∧
      ((f'.maxNumber = none ∨ f'.maxNumber = some 0) → st'.candidates.Perm (st.candidates.filter fun x => PassesCuts f' st.heap x.source x.params)) ∧
      ∀ n, 0 < n → f'.maxNumber = some n → st'.candidates.length ≤ n ∧
        ∀ x ∈ st.candidates, PassesCuts f' st.heap x.source x.params → x ∉ st'.candidates → st'.filtered.length = n ∧ ∀ y ∈ st'.candidates, x.params.snr ≤ y.params.snr := by
  obtain ⟨st3, h1, hcd, hnd, h2, h3, h4, h5, h6, h7⟩ := process_stages h
  obtain ⟨c, hc⟩ := centres_of h2
  obtain ⟨l, e1, n1, p1, q1, -⟩ := applyFilters_ok j.filters st3.heap st3.clusters c hnd hc
  obtain ⟨l', e2, n2, p2, q2, r2⟩ := applyFilters_ok f' st3.heap st3.clusters c hnd hc
  rw [h2] at e1
  cases e1
  obtain ⟨m1, -, hload, b1⟩ := built_iff (fun i hi => hc i (p1 i hi).1) n1 h3
  have hsub : ∀ i ∈ l', i ∈ st.filtered := fun i hi => q1 ht.cap i (p2 i hi).1 (ht.passes (p2 i hi).2)
  obtain ⟨cands, k3⟩ : ∃ cands, buildCandidates j.load (fun ts i p => j.make ts (st3.heap i).peaks p) st3.heap l' [] = .ok cands := by
    rcases l' with _ | ⟨i0, L⟩
    · exact ⟨[], build_nil _ _ _⟩
    · obtain ⟨t0, -⟩ := hload i0 (hsub i0 List.mem_cons_self)
      obtain ⟨cs, k, -⟩ := C46_build_candidates j.load (fun ts i p => j.make ts (st3.heap i).peaks p) st3.heap (i0 :: L) c (fun dm => match j.load dm with | .ok t => t | .error _ => t0)
        (fun i hi => hc i (p2 i hi).1) (fun i hi => by
          obtain ⟨t, ht⟩ := hload i (hsub i hi)
          simp only [ht])
      exact ⟨cs, k⟩
  obtain ⟨m2, w2, -, b2⟩ := built_iff (fun i hi => hc i (p2 i hi).1) n2 k3
  have hrun : PipeState.fresh.process { j with filters := f' } s = .ok { st3 with filtered := l', candidates := cands } := by
    obtain ⟨st2, g2, g3⟩ := bind_ok_inv h1
    obtain ⟨st1, g1, g2⟩ := bind_ok_inv g2
    have g1' : PipeState.fresh.search { j with filters := f' } s = .ok st1 := g1
    have g2' : st1.cluster { j with filters := f' } = .ok st2 := g2
    have g3' : st2.flag { j with filters := f' } = .ok st3 := g3
    unfold PipeState.process
    rw [g1']
    simp only [Except.bind]
    rw [g2']
    simp only
    rw [g3']
    simp only
    unfold PipeState.filter
    simp only
    rw [e2]
    simp only [Except.map]
    unfold PipeState.build
    simp only
    rw [hcd, k3]
    rfl
  have hx : ∀ x ∈ cands, x ∈ st.candidates ∧ PassesCuts f' st.heap x.source x.params := by
    intro x hx
    obtain ⟨y1, y2, y3⟩ := (b2 x).mp hx
    refine ⟨(b1 x).mpr ⟨hsub _ y1, y2, y3⟩, ?_⟩
    rw [h5, y2]
    exact (p2 _ y1).2
  have hlen : cands.length ≤ l'.length := by
    have : (cands.map PCandidate.source).length ≤ l'.length :=
      (m2.subperm fun i hi => by
        obtain ⟨x, hx, rfl⟩ := List.mem_map.mp hi
        exact ((b2 x).mp hx).1).length_le
    rwa [List.length_map] at this
  refine ⟨_, hrun, h4.symm, h5.symm, h6.symm, hx, w2, fun hcap => ?_, fun n hn hcap => ⟨hlen.trans (r2 n hn hcap).1, fun x hx1 hx2 hx3 => ?_⟩⟩
  · refine (List.perm_ext_iff_of_nodup (List.Nodup.of_map _ m2) ((List.Nodup.of_map _ m1).filter _)).mpr fun x => ?_
    rw [List.mem_filter, decide_eq_true_eq]
    refine ⟨hx x, fun ⟨y1, y2⟩ => ?_⟩
    obtain ⟨z1, z2, z3⟩ := (b1 x).mp y1
    rw [h5, z2] at y2
    exact (b2 x).mpr ⟨q2 hcap _ (p1 _ z1).1 y2, z2, z3⟩
  · obtain ⟨z1, z2, z3⟩ := (b1 x).mp hx1
    have hno : x.source ∉ l' := fun hm => hx3 ((b2 x).mpr ⟨hm, z2, z3⟩)
    rw [h5, z2] at hx2
    obtain ⟨v1, v2⟩ := (r2 n hn hcap).2 _ (p1 _ z1).1 hx2 hno
    refine ⟨v1, fun y hy => ?_⟩
    obtain ⟨u1, u2, -⟩ := (b2 y).mp hy
    rw [z2, u2]
    exact v2 _ u1

end

/-! ## Configurations -/

theorem dictSet_twice {d : List (String × PyVal)} {k : String} {u v : PyVal} : dictSet (dictSet d k u) k v = dictSet d k v := by
  induction d with
  | nil => simp [dictSet]
  | cons p d ih =>
    obtain ⟨k', v'⟩ := p
    by_cases hk : k' = k
    · simp [dictSet, hk]
    · simp [dictSet, hk, ih]

theorem useFloat_opt (q : Option ℚ) : schemaOr schemaUseFloat schemaNone (optFloat q) = .ok (optFloat q) := by
  rcases q with _ | q <;> rfl

theorem optionalArg_opt {d : List (String × PyVal)} {k : String} {q : Option ℚ} (h : dictGet d k = some (optFloat q)) : optionalArg pyReal d k = .ok (q.map fun q : ℚ => (q : ℝ)) := by
  unfold optionalArg
  rw [h]
  rcases q with _ | q <;> rfl

/-- The section is valid. -/
theorem filterSection_valid (dm snr : Option ℚ) (remove : Bool) {n : Option ℕ} (hn : ∀ k, n = some k → 1 ≤ k) :
    schemaDict [("dm_min", false, schemaOr schemaUseFloat schemaNone), ("snr_min", false, schemaOr schemaUseFloat schemaNone), ("remove_harmonics", false, schemaOr schemaBool schemaNone),
      ("max_number", false, schemaOr posIntSchema schemaNone)] (filterSection dm snr remove n) = .ok (filterSection dm snr remove n) := by
  have h4 : schemaOr posIntSchema schemaNone (optCount n) = .ok (optCount n) := by
    rcases n with _ | k
    · rfl
    · unfold schemaOr
      simp only [optCount]
      rw [posInt_int (by exact_mod_cast hn k rfl)]
  have h3 : schemaOr schemaBool schemaNone (.bool remove) = .ok (.bool remove) := rfl
  unfold filterSection schemaDict
  simp [schemaItems, schemaLookup, useFloat_opt, h3, h4, Except.bind, Except.map, dictGet]

theorem validate_filters {d : List (String × PyVal)} {v : PyVal} (h : validatePipelineConfig (.dict d) = .ok v) :
    ∃ r, v = .dict r ∧ ∀ dm snr remove n, (∀ k, n = some k → 1 ≤ k) → validatePipelineConfig (.dict (dictSet d "candidate_filters" (filterSection dm snr remove n))) =
      .ok (.dict (dictSet r "candidate_filters" (filterSection dm snr remove n))) := by
  unfold validatePipelineConfig at h ⊢
  rcases e : pipelineConfigSchema (.dict d) with er | w
  · rw [e] at h
    cases h
  rw [e] at h
  cases h
  obtain ⟨r, rfl, h1, h2⟩ := schemaDict_set e
  refine ⟨r, rfl, fun dm snr remove n hn => ?_⟩
  have h3 : pipelineConfigSchema (.dict (dictSet d "candidate_filters" (filterSection dm snr remove n))) = .ok (.dict (dictSet r "candidate_filters" (filterSection dm snr remove n))) :=
    h2 "candidate_filters" _ _ _ (by simp [schemaLookup]) (filterSection_valid dm snr remove hn)
  rw [h3]

theorem filtersOf_section {dm snr : Option ℚ} {remove : Bool} {n : Option ℕ} {d : List (String × PyVal)} (h : filterSection dm snr remove n = .dict d) :
    filtersOf d = .ok (sectionFilters dm snr remove n) := by
  unfold filterSection at h
  cases h
  unfold filtersOf
  rw [optionalArg_opt (q := dm) (by simp [dictGet]), optionalArg_opt (q := snr) (by simp [dictGet])]
  have h3 : required Model.pyTruth [("dm_min", optFloat dm), ("snr_min", optFloat snr), ("remove_harmonics", .bool remove),
      ("max_number", optCount n)] "remove_harmonics" = .ok remove := by
    simp [required, dictGet, Model.pyTruth]
  have h4 : optionalArg pyCount [("dm_min", optFloat dm), ("snr_min", optFloat snr), ("remove_harmonics", .bool remove),
      ("max_number", optCount n)] "max_number" = .ok n := by
    unfold optionalArg
    rcases n with _ | k <;> simp [dictGet, optCount, pyCount, Except.map]
  simp only [Except.bind]
  rw [h3, h4]
  rfl

theorem runConf_filters {r : List (String × PyVal)} {c : RunConf × HarmConf} (h : runConfOf (.dict r) = .ok c) (dm snr : Option ℚ) (remove : Bool) (n : Option ℕ) :
    runConfOf (.dict (dictSet r "candidate_filters" (filterSection dm snr remove n))) = .ok ({ c.1 with filters := sectionFilters dm snr remove n }, c.2) := by
  have hp : prepConfOf (.dict (dictSet r "candidate_filters" (filterSection dm snr remove n))) = prepConfOf (.dict r) := by
    unfold prepConfOf
    simp only [pyDict, Except.bind]
    rw [required_set _ (by decide), required_set _ (by decide), required_set _ (by decide)]
  have hq : required pyDict (dictSet r "candidate_filters" (filterSection dm snr remove n)) "candidate_filters" = pyDict (filterSection dm snr remove n) := by
    unfold required
    rw [dictGet_set, if_pos rfl]
  unfold runConfOf at h ⊢
  rw [hp]
  obtain ⟨prep, h1, h⟩ := bind_ok_inv h
  obtain ⟨conf, h2, h⟩ := bind_ok_inv h
  cases h2
  obtain ⟨p, h3, h⟩ := bind_ok_inv h
  obtain ⟨der, h4, h⟩ := bind_ok_inv h
  obtain ⟨width, h5, h⟩ := bind_ok_inv h
  obtain ⟨minpts, h6, h⟩ := bind_ok_inv h
  obtain ⟨rs, h7, h⟩ := bind_ok_inv h
  obtain ⟨ranges, h8, h⟩ := bind_ok_inv h
  obtain ⟨clust, h9, h⟩ := bind_ok_inv h
  obtain ⟨radius, h10, h⟩ := bind_ok_inv h
  obtain ⟨hd, h11, h⟩ := bind_ok_inv h
  obtain ⟨harm, h12, h⟩ := bind_ok_inv h
  obtain ⟨fd, h13, h⟩ := bind_ok_inv h
  obtain ⟨filters, h14, h⟩ := bind_ok_inv h
  cases h
  simp only [pyDict]
  rw [h1]
  simp only [Except.bind]
  rw [required_set _ (by decide), h3]
  simp only
  rw [required_set _ (by decide), h4]
  simp only
  rw [h5, h6]
  simp only
  rw [required_set _ (by decide), h7]
  simp only
  rw [h8]
  simp only
  rw [required_set _ (by decide), h9]
  simp only
  rw [h10]
  simp only
  rw [required_set _ (by decide), h11]
  simp only
  rw [h12]
  simp only
  rw [hq]
  unfold filterSection
  simp only [pyDict]
  rw [filtersOf_section rfl]

theorem tightens_section {dm dm' snr snr' : Option ℚ} {remove remove' : Bool} {n' : Option ℕ} (h1 : optLe dm dm') (h2 : optLe snr snr') (h3 : remove = true → remove' = true) :
    Tightens (sectionFilters dm snr remove none) (sectionFilters dm' snr' remove' n') := by
  have key : ∀ {a b : Option ℚ}, optLe a b → ∀ x : ℝ, (a.map fun q : ℚ => (q : ℝ)) = some x → ∃ y, (b.map fun q : ℚ => (q : ℝ)) = some y ∧ x ≤ y := by
    intro a b h x hx
    rcases a with _ | a
    · cases hx
    rcases b with _ | b
    · exact absurd h id
    · cases hx
      exact ⟨b, rfl, Rat.cast_le.mpr (show a ≤ b from h)⟩
  exact ⟨key h1, key h2, h3, .inl rfl⟩

/-- What stricter filters `f` do to the final state `st` of a run. -/
def OnlySelects (f : FilterParams ℝ) (st st' : PipeState ℝ (CandObj ℝ)) : Prop :=
  st'.peaks = st.peaks ∧ st'.heap = st.heap ∧ st'.clusters = st.clusters ∧
  (∀ x ∈ st'.candidates, x ∈ st.candidates ∧ PassesCuts f st.heap x.source x.params) ∧ st'.candidates.Pairwise (fun a b => b.params.snr ≤ a.params.snr) ∧
  (f.maxNumber = none → (∀ x ∈ st.candidates, PassesCuts f st.heap x.source x.params → x ∈ st'.candidates) ∧ st'.candidates.Subperm st.candidates) ∧
  ∀ n, 0 < n → f.maxNumber = some n → st'.candidates.length ≤ n ∧
    ∀ x ∈ st.candidates, PassesCuts f st.heap x.source x.params → x ∉ st'.candidates → st'.filtered.length = n ∧ ∀ y ∈ st'.candidates, x.params.snr ≤ y.params.snr

/-- **C142.** The same for whole runs, in terms of the section `candidate_filters` of the configuration. -/
theorem C142_run {t : PipeTools} {d : List (String × PyVal)} {ms : List FileMeta} {s : PoolSchedule} {dm dm' snr snr' : Option ℚ} {remove remove' : Bool} {n' : Option ℕ}
    (h1 : optLe dm dm') (h2 : optLe snr snr') (h3 : remove = true → remove' = true) (hn : ∀ k, n' = some k → 1 ≤ k) {st : PipeState ℝ (CandObj ℝ)}
    (hr : pipelineRun t (.dict (dictSet d "candidate_filters" (filterSection dm snr remove none))) ms s = .ok st) :
    ∃ st', pipelineRun t (.dict (dictSet d "candidate_filters" (filterSection dm' snr' remove' n'))) ms s = .ok st' ∧ OnlySelects (sectionFilters dm' snr' remove' n') st st' := by
  unfold pipelineRun at hr ⊢
  obtain ⟨v, hv, hr1⟩ := bind_ok_inv hr
  obtain ⟨c, hc, hr2⟩ := bind_ok_inv hr1
  obtain ⟨it, hit, hr3⟩ := bind_ok_inv hr2
  obtain ⟨b, hb, hr4⟩ := bind_ok_inv hr3
  obtain ⟨fnames, hfn, hr5⟩ := bind_ok_inv hr4
  obtain ⟨r, rfl, hval⟩ := validate_filters hv
  have e0 := hval dm snr remove none (by simp)
  rw [dictSet_twice, hv] at e0
  have e1 := runConf_filters hc dm snr remove none
  rw [← Except.ok.inj e0, hc] at e1
  have ec := Except.ok.inj e1
  have e2 := hval dm' snr' remove' n' hn
  rw [dictSet_twice] at e2
  rw [e2]
  simp only [Except.bind]
  rw [runConf_filters hc]
  simp only
  have hf : c.1.filters = sectionFilters dm snr remove none := by rw [ec]
  have hit' : prepare (RunConf.prepConf { c.1 with filters := sectionFilters dm' snr' remove' n' }) ms = .ok it := hit
  have hb' : iterBand (RunConf.prepConf { c.1 with filters := sectionFilters dm' snr' remove' n' }) ms = .ok b := hb
  rw [hit', hb']
  simp only
  rw [hfn]
  simp only
  have ht : Tightens (pipelineJob (t.env c.2 (tobsMedian ms) b.1 b.2.1) c.1 ms it fnames).filters (sectionFilters dm' snr' remove' n') := by
    show Tightens c.1.filters _
    rw [hf]
    exact tightens_section h1 h2 h3
  obtain ⟨st', k1, k2, k3, k4, k5, k6, k7, k8⟩ := C142_stricter ht hr5
  refine ⟨st', k1, k2, k3, k4, k5, k6, fun hcap => ⟨fun x hx hp => ?_, ?_⟩, k8⟩
  · classical
    exact (k7 (.inl hcap)).mem_iff.mpr (List.mem_filter.mpr ⟨hx, by simpa using hp⟩)
  · classical
    exact (k7 (.inl hcap)).subperm.trans (List.filter_sublist.subperm)

/-- C142, with the files that are read. -/
theorem C142_files {D : Disk} {t : PipeTools} {d : List (String × PyVal)} {files : List (List Char)} {s : PoolSchedule} {dm dm' snr snr' : Option ℚ} {remove remove' : Bool} {n' : Option ℕ}
    (h1 : optLe dm dm') (h2 : optLe snr snr') (h3 : remove = true → remove' = true) (hn : ∀ k, n' = some k → 1 ≤ k) {st : PipeState ℝ (CandObj ℝ)}
    (hr : pipelineFiles D t (.dict (dictSet d "candidate_filters" (filterSection dm snr remove none))) files s = .ok st) :
    ∃ st', pipelineFiles D t (.dict (dictSet d "candidate_filters" (filterSection dm' snr' remove' n'))) files s = .ok st' ∧ OnlySelects (sectionFilters dm' snr' remove' n') st st' := by
  unfold pipelineFiles at hr ⊢
  obtain ⟨v, hv, hr⟩ := bind_ok_inv hr
  obtain ⟨c, hc, hr⟩ := bind_ok_inv hr
  obtain ⟨ms, hm, hr⟩ := bind_ok_inv hr
  obtain ⟨st', k1, k2⟩ := C142_run h1 h2 h3 hn hr
  refine ⟨st', ?_, k2⟩
  obtain ⟨r, rfl, hval⟩ := validate_filters hv
  have e2 := hval dm' snr' remove' n' hn
  rw [dictSet_twice] at e2
  rw [e2]
  simp only [Except.bind]
  rw [runConf_filters hc]
  simp only
  rw [hm]
  exact k1

/-! ## Runs of the program -/

theorem saveConf_filters {d : List (String × PyVal)} {dm dm' snr snr' : Option ℚ} {remove remove' : Bool} {n₀ n' : Option ℕ} (hn : ∀ k, n' = some k → 1 ≤ k) {n : ℕ}
    {plot : Bool} (h : saveConfOf (.dict (dictSet d "candidate_filters" (filterSection dm snr remove n₀))) = .ok (n, plot)) :
    saveConfOf (.dict (dictSet d "candidate_filters" (filterSection dm' snr' remove' n'))) = .ok (n, plot) := by
  unfold saveConfOf at h ⊢
  obtain ⟨v, h1, h2⟩ := bind_ok_inv h
  obtain ⟨r, rfl, hval⟩ := validate_filters h1
  obtain ⟨r', h3, h4⟩ := bind_ok_inv h2
  cases h3
  have e1 := hval dm' snr' remove' n' hn
  rw [dictSet_twice] at e1
  rw [e1]
  simp only [Except.bind, pyDict]
  rw [required_set _ (by decide), required_set _ (by decide)]
  exact h4

/-- The tables of peaks and clusters. -/
noncomputable def basicTables (st : PipeState ℝ (CandObj ℝ)) : Except PyErr (List (List Char × List Char)) :=
  if st.peaks.length = 0 then .ok [] else
  (if st.clusters.length = 0 then .ok [] else
    (clustersToDataframe st.heap st.clusters).map fun rows => [("clusters.csv".toList, csvText clusterColumns (rows.map clusterCells))]).map fun cl =>
  ("peaks.csv".toList, csvText peakColumns (st.peaks.map peakCells)) :: cl

theorem savesTo_basic {H : Host} {outdir : List Char} (hinj : JoinsApart H outdir) {o : CandOutput} {n : ℕ} {plot : Bool} {st : PipeState ℝ (CandObj ℝ)} {F F' : Files} {res : Except PyErr Unit}
    (h : SavesTo H outdir o n plot st F F' res) : ∃ B, basicTables st = .ok B ∧ (∀ w ∈ B, w.1 = "peaks.csv".toList ∨ w.1 = "clusters.csv".toList) ∧ (B.map Prod.fst).Nodup ∧
      ∀ name, name = "peaks.csv".toList ∨ name = "clusters.csv".toList → F' (H.realpath (H.join outdir name)) = F.putAll H outdir B (H.realpath (H.join outdir name)) := by
  unfold SavesTo at h
  unfold basicTables
  by_cases hk : st.peaks.length = 0
  · simp only [if_pos hk] at h ⊢
    exact ⟨[], rfl, by simp, by simp, fun name _ => by rw [h.1]; rfl⟩
  simp only [if_neg hk] at h ⊢
  obtain ⟨tables, order, ht, ho, rfl, -⟩ := h
  have hord : ∀ f ∈ order, ∃ r, f.1 = candidateFileName r ".json".toList ∨ f.1 = candidateFileName r ".png".toList := by
    intro f hf
    have h1 := (written_sublist _ _ _ st).subset (ho.mem_iff.mp hf)
    unfold allCandidateFiles at h1
    have hc := candidateFiles_names (fullCoding o.json (if plot then some o.png else none)) 0 st.candidates
    simp only [Nat.zero_add] at hc
    obtain ⟨r, _, hr⟩ := hc.2 f h1
    exact ⟨r, hr⟩
  have hpn := fun name (hn : name = "peaks.csv".toList ∨ name = "clusters.csv".toList) => show IsProduct name from hn.elim .inl fun h => .inr (.inl h)
  have hnc : ∀ name, name = "peaks.csv".toList ∨ name = "clusters.csv".toList → ∀ r ext, name ≠ candidateFileName r ext := by
    intro name hn r ext e
    have hne : name.take 10 ≠ "candidate_".toList := by rcases hn with rfl | rfl <;> decide +kernel
    exact name_ne hne e.symm
  unfold tableFiles at ht
  obtain ⟨cl, hcl, rfl⟩ := map_ok_inv ht
  rw [hcl]
  have hclm : cl = [] ∨ ∃ text, cl = [("clusters.csv".toList, text)] := by
    split_ifs at hcl
    · cases hcl
      exact .inl rfl
    · obtain ⟨rows, -, rfl⟩ := map_ok_inv hcl
      exact .inr ⟨_, rfl⟩
  refine ⟨_, rfl, ?_, ?_, fun name hname => ?_⟩
  · intro w hw
    rcases List.mem_cons.mp hw with rfl | hw
    · exact .inl rfl
    · rcases hclm with rfl | ⟨text, rfl⟩
      · cases hw
      · rw [List.mem_singleton.mp hw]
        exact .inr rfl
  · rcases hclm with rfl | ⟨text, rfl⟩
    · simp
    · simp
  · rw [putAll_other fun f hf e => ?_]
    · rw [← List.cons_append]
      unfold Files.putAll
      rw [List.foldl_append]
      refine putAll_other (fs := _) fun f hf e => ?_
      split_ifs at hf
      · cases hf
      · rw [List.mem_singleton.mp hf] at e
        have := hinj _ _ (hpn name hname) (.inr (.inr (.inl rfl))) e
        rcases hname with rfl | rfl
        · exact absurd this (by decide)
        · exact absurd this (by decide)
    · obtain ⟨r, hr⟩ := hord f hf
      have := hinj _ _ (hpn name hname) (.inr (.inr (.inr ⟨r, hr⟩))) e
      rcases hr with hr | hr
      · exact hnc name hname r _ (this.trans hr)
      · exact hnc name hname r _ (this.trans hr)

theorem writerCall_plain {json : PCandidate ℝ (CandObj ℝ) → List Char} {plot : Option (PCandidate ℝ (CandObj ℝ) → Except PyErr (List Char))} {c : PCandidate ℝ (CandObj ℝ)} (i k : ℕ) :
    (writerCall json plot (c, i)).2 = (writerCall json plot (c, k)).2 := by
  unfold writerCall
  rcases plot with _ | f
  · rfl
  · simp only
    rcases f c with e | im <;> rfl

/-- If the candidates of a state can be saved, then so can some of them. -/
theorem savesTo_fewer {H : Host} {outdir : List Char} {o : CandOutput} {n : ℕ} {plot : Bool} {st st' : PipeState ℝ (CandObj ℝ)} {F F' G G' : Files} {res' : Except PyErr Unit}
    (h : SavesTo H outdir o n plot st F F' (.ok ())) (h' : SavesTo H outdir o n plot st' G G' res') (hp : st'.peaks = st.peaks) (hsub : ∀ x ∈ st'.candidates, x ∈ st.candidates) : res' = .ok () := by
  unfold SavesTo at h h'
  rw [hp] at h'
  by_cases hk : st.peaks.length = 0
  · simp only [if_pos hk] at h'
    exact h'.2
  simp only [if_neg hk] at h h'
  obtain ⟨-, -, -, -, -, ⟨-, hr⟩ | ⟨e, he, -⟩⟩ := h
  swap
  · cases he
  obtain ⟨-, -, -, -, -, ⟨h1, -⟩ | ⟨e, -, r, hr1, hr2⟩⟩ := h'
  · exact h1
  have hok := (writerRuns_ok _ _ _ _).mp hr
  have : ∀ r ∈ writerRuns o.json (if plot then some o.png else none) n st'.candidates, r.2 = none := by
    refine (writerRuns_ok _ _ _ _).mpr ?_
    rintro ⟨c, i⟩ hx
    obtain ⟨k, hk, e⟩ := List.getElem_of_mem (hsub c (List.fst_mem_of_mem_zipIdx hx))
    have := hok (c, k) (by rw [List.mk_mem_zipIdx_iff_getElem?, ← e]; exact List.getElem?_eq_getElem hk)
    rw [← this]
    exact writerCall_plain i k
  rw [this r hr1] at hr2
  cases hr2

/-- **C142.** `rffa` with stricter filters: if a run ends normally, then so does a run with stricter filters, and it leaves the same tables of peaks and clusters. -/
theorem C142_rffa {H : Host} (hi : ∀ p, H.realpath (H.realpath p) = H.realpath p) {t : PipeTools} {o : CandOutput} {s : PoolSchedule} {a : RffaArgs} {config : List Char}
    (hc : a.config = some config) (hl : ∀ l, a.log = some l → LogNotRead H config a.files l ∧ LogNotProduct H (a.outdir.getD H.cwd) l) (hinj : JoinsApart H (a.outdir.getD H.cwd))
    {F F' G G' : Files} {out' : RffaEnd} {d : List (String × PyVal)} {dm dm' snr snr' : Option ℚ} {remove remove' : Bool} {n' : Option ℕ}
    (h1 : optLe dm dm') (h2 : optLe snr snr') (h3 : remove = true → remove' = true) (hn : ∀ k, n' = some k → 1 ≤ k)
    (hF : readConfig H F config = .ok (.dict (dictSet d "candidate_filters" (filterSection dm snr remove none))))
    (hG : readConfig H G config = .ok (.dict (dictSet d "candidate_filters" (filterSection dm' snr' remove' n')))) (hfile : ∀ f ∈ a.files, F (H.realpath f) = G (H.realpath f))
    (hdata : ∀ f ∈ a.files, F (H.realpath (dataFname (H.realpath f))) = G (H.realpath (dataFname (H.realpath f))))
    (h : RffaRuns H t o s a F F' .done) (h' : RffaRuns H t o s a G G' out') :
    out' = .done ∧ ∃ B : List (List Char × List Char), (∀ w ∈ B, w.1 = "peaks.csv".toList ∨ w.1 = "clusters.csv".toList) ∧
      ∀ name, name = "peaks.csv".toList ∨ name = "clusters.csv".toList →
        F' (H.realpath (H.join (a.outdir.getD H.cwd) name)) = F.putAll H (a.outdir.getD H.cwd) B (H.realpath (H.join (a.outdir.getD H.cwd) name)) ∧
        G' (H.realpath (H.join (a.outdir.getD H.cwd) name)) = G.putAll H (a.outdir.getD H.cwd) B (H.realpath (H.join (a.outdir.getD H.cwd) name)) := by
  obtain ⟨st, st', n, plot, m, plot', F1, G1, res', x, x', -, hR, k1, l1, k2, l2, rfl, rfl, l4⟩ := rffa_done_parts (R := OnlySelects (sectionFilters dm' snr' remove' n')) hi hc
    (fun l e => (hl l e).1) hF hG hfile hdata (fun st h => C142_files h1 h2 h3 hn h) h h'
  rw [saveConf_filters hn k1] at l1
  obtain ⟨rfl, rfl⟩ := Prod.mk.inj (Except.ok.inj l1)
  obtain ⟨e1, e2, e3, e4, -⟩ := hR
  have hres := savesTo_fewer k2 l2 e1 fun x hx => (e4 x hx).1
  obtain ⟨B, b1, b2, b3, b4⟩ := savesTo_basic hinj k2
  obtain ⟨B', b1', -, -, b4'⟩ := savesTo_basic hinj l2
  have hB : B' = B := by
    unfold basicTables at b1 b1'
    rw [e1, e2, e3, b1] at b1'
    exact (Except.ok.inj b1').symm
  subst hB
  have hW : Written B' := ⟨fun w hw => (b2 w hw).elim .inl fun h => .inr (.inl h), b3⟩
  refine ⟨by rw [l4, hres]; rfl, B', b2, fun name hname => ?_⟩
  have hlog : ∀ l, a.log = some l → H.realpath (H.join (a.outdir.getD H.cwd) name) ≠ H.realpath l := fun l e h =>
    (hl l e).2 name (hname.elim .inl fun h => .inr (.inl h)) h.symm
  have key := fun F x => putAll_log hinj hW hlog F x
  simp only [withLog_other hlog] at key
  rw [withLog_other hlog, withLog_other hlog, b4 name hname, b4' name hname]
  exact ⟨key F [], key G []⟩

/-- The hypotheses of `C142_files` are met by the run of C103, which has `snr_min: 8.0` and no other filter: with `snr_min: 9.0` it has the same candidates of S/N 9 and more, among them one of S/N 10 or more;
with `max_number: 1` as well it has at most one. -/
theorem C142_example : ∃ st st' st'', pipelineFiles pulsarDisk pulsarTools pulsarDict ["a.inf".toList] ⟨fun _ => 1, fun _ => [0]⟩ = .ok st ∧
    pipelineFiles pulsarDisk pulsarTools (.dict (dictSet pulsarItems "candidate_filters" (filterSection none (some 9) false none))) ["a.inf".toList] ⟨fun _ => 1, fun _ => [0]⟩ = .ok st' ∧
    pipelineFiles pulsarDisk pulsarTools (.dict (dictSet pulsarItems "candidate_filters" (filterSection none (some 9) false (some 1)))) ["a.inf".toList] ⟨fun _ => 1, fun _ => [0]⟩ = .ok st'' ∧
    (∃ x ∈ st'.candidates, x ∈ st.candidates ∧ 10 ≤ x.params.snr) ∧ st''.candidates.length ≤ 1 ∧ ∀ x ∈ st''.candidates, x ∈ st.candidates := by
  obtain ⟨st, hst, x, hx, hs, -⟩ := C103_example
  have hd : pulsarDict = .dict (dictSet pulsarItems "candidate_filters" (filterSection none (some 8) false none)) := by with_unfolding_all rfl
  have hst0 := hst
  rw [hd] at hst
  have h89 : optLe (some 8) (some 9) := by
    show (8 : ℚ) ≤ 9
    norm_num
  obtain ⟨st', h1, -, -, -, -, -, h2, -⟩ := C142_files (n' := none) (dm := none) (dm' := none) trivial h89 id (by simp) hst
  obtain ⟨st'', k1, -, -, -, k2, -, -, k3⟩ := C142_files (n' := some 1) (dm := none) (dm' := none) trivial h89 id (by simp) hst
  refine ⟨st, st', st'', hst0, h1, k1, ⟨x, (h2 rfl).1 x hx ⟨by simp [sectionFilters], fun s hs' => ?_, by simp [sectionFilters]⟩, hx, hs⟩, (k3 1 one_pos rfl).1, fun y hy => (k2 y hy).1⟩
  simp only [sectionFilters, Option.map_some, Option.some.injEq] at hs'
  rw [← hs']
  push_cast
  linarith

end Verif.Props
