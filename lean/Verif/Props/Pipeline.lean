import Verif.Lemmas.Pipeline
import Verif.Props.Harmonics

/-!
# Claims about the pipeline: harmonic flagging (C44)
-/

namespace Verif.Props

open Verif.Model Verif.Spec Verif.Lemmas

set_option linter.unusedSectionVars false

variable {K : Type*} [LinearOrder K]

/-! ## C44 -/

theorem idxOf_split {β : Type*} [DecidableEq β] {pre post : List β} {b : β} (h : (pre ++ b :: post).Nodup) :
    (pre ++ b :: post).idxOf b = pre.length := by
  rw [List.idxOf_append_of_notMem, List.idxOf_cons_self, Nat.add_zero]
  intro hb
  rw [List.nodup_append] at h
  exact h.2.2 b hb b List.mem_cons_self rfl

theorem idxOf_lt_iff {β : Type*} [DecidableEq β] {pre post : List β} {b g : β} (h : (pre ++ b :: post).Nodup)
    (_hg : g ∈ pre ++ b :: post) : (pre ++ b :: post).idxOf g < (pre ++ b :: post).idxOf b ↔ g ∈ pre := by
  rw [idxOf_split h]
  constructor
  · intro hlt
    by_contra hn
    rw [List.idxOf_append_of_notMem hn] at hlt
    omega
  · intro hm
    rw [List.idxOf_append_of_mem hm]
    exact List.idxOf_lt_length_of_mem hm

/-- C44: `flag_harmonics`, for freshly made clusters with centres `c`, on whose pairs the test does not fail. -/
theorem C44_flag_harmonics (test : HPeak K → HPeak K → Except PyErr (Bool × ℚ)) (heap : ℕ → PCluster K) (clusters : List ℕ)
    (c : ℕ → HPeak K) (hnd : clusters.Nodup) (hc : ∀ i ∈ clusters, (heap i).centre = .ok (c i))
    (hfresh : ∀ i ∈ clusters, (heap i).parent = none)
    (htot : ∀ i ∈ clusters, ∀ j ∈ clusters, ∃ r, test (c i) (c j) = .ok r) :
    ∃ (heap' : ℕ → PCluster K) (rank : ℕ → ℕ), flagHarmonics test heap clusters = .ok heap' ∧
      -- nothing else changes
      (∀ i, (heap' i).peaks = (heap i).peaks) ∧ (∀ i, i ∉ clusters → heap' i = heap i) ∧
      -- ranks
      (∀ i ∈ clusters, (heap' i).rank = some (rank i)) ∧ (clusters.map rank).Perm (List.range clusters.length) ∧
      (∀ i ∈ clusters, ∀ j ∈ clusters, rank i < rank j → (c j).snr ≤ (c i).snr) ∧
      -- flagged clusters
      (∀ i ∈ clusters, ∀ f, (heap' i).parent = some f →
        f ∈ clusters ∧ (heap' f).parent = none ∧ rank f < rank i ∧ (c i).snr ≤ (c f).snr ∧
        (∃ fr, test (c f) (c i) = .ok (true, fr) ∧ (heap' i).hfrac = some fr) ∧
        ∀ g ∈ clusters, rank g < rank f → (heap' g).parent = none → ∃ fr, test (c g) (c i) = .ok (false, fr)) ∧
      -- unflagged clusters
      (∀ i ∈ clusters, ∀ j ∈ clusters, rank i < rank j → (heap' i).parent = none → (heap' j).parent = none →
        ∃ fr, test (c i) (c j) = .ok (false, fr)) := by
  obtain ⟨T, hT⟩ : ∃ T : HPeak K → HPeak K → Bool × ℚ, T = fun a b => match test a b with | .ok r => r | .error _ => (false, 0) :=
    ⟨_, rfl⟩
  obtain ⟨order, horder⟩ : ∃ order, order = sortBySnr (clusters.map (fun i => (i, c i))) := ⟨_, rfl⟩
  have hperm : order.Perm (clusters.map (fun i => (i, c i))) := horder ▸ sortBySnr_perm _
  have hids : (order.map Prod.fst).Perm clusters := by
    have := hperm.map Prod.fst
    rw [List.map_map] at this
    simpa [Function.comp_def] using this
  have hidnd : (order.map Prod.fst).Nodup := hids.nodup_iff.2 hnd
  have hmem : ∀ a ∈ order, a.1 ∈ clusters ∧ a.2 = c a.1 := by
    intro a ha
    obtain ⟨i, hi, rfl⟩ := List.mem_map.1 (hperm.mem_iff.1 ha)
    exact ⟨hi, rfl⟩
  have hsorted : order.Pairwise (fun a b => b.2.snr ≤ a.2.snr) := horder ▸ sortBySnr_sorted _
  have hTtest : ∀ i ∈ clusters, ∀ j ∈ clusters, test (c i) (c j) = .ok (T (c i) (c j)) := by
    intro i hi j hj
    obtain ⟨r, hr⟩ := htot i hi j hj
    rw [hT]; simp only [hr]
  obtain ⟨hr1, hr2⟩ := assignRanks_spec order heap 0 hidnd
  obtain ⟨h', hrun, hout, -, hspec⟩ := loop_spec test T order (assignRanks heap 0 order) hidnd
    (fun a ha b hb => by rw [(hmem a ha).2, (hmem b hb).2]; exact hTtest _ (hmem a ha).1 _ (hmem b hb).1)
  -- every cluster sits somewhere in the order
  have hsplit : ∀ i ∈ clusters, ∃ pre post, order = pre ++ (i, c i) :: post := by
    intro i hi
    have : (i, c i) ∈ order := hperm.mem_iff.2 (List.mem_map_of_mem hi)
    exact List.append_of_mem this
  obtain ⟨rank, hrank⟩ : ∃ rank : ℕ → ℕ, rank = fun i => (order.map Prod.fst).idxOf i := ⟨_, rfl⟩
  have hrank_eq : ∀ {pre post i}, order = pre ++ (i, c i) :: post → rank i = pre.length := by
    intro pre post i h
    have hnd2 := hidnd
    rw [h, List.map_append, List.map_cons] at hnd2
    rw [hrank, h]
    simp only [List.map_append, List.map_cons]
    rw [idxOf_split hnd2, List.length_map]
  have hrank_lt : ∀ {pre post i g}, order = pre ++ (i, c i) :: post → g ∈ clusters → (rank g < rank i ↔ (g, c g) ∈ pre) := by
    intro pre post i g h hg
    have hnd2 := hidnd
    have hg' : g ∈ order.map Prod.fst := hids.mem_iff.2 hg
    rw [h, List.map_append, List.map_cons] at hnd2 hg'
    rw [hrank, h]
    simp only [List.map_append, List.map_cons]
    rw [idxOf_lt_iff hnd2 hg']
    constructor
    · intro hm
      obtain ⟨a, ha, rfl⟩ := List.mem_map.1 hm
      have := (hmem a (by rw [h]; exact List.mem_append_left _ ha)).2
      rw [← this]; exact ha
    · intro hm; exact List.mem_map_of_mem (f := Prod.fst) hm
  have hA : ∀ {pre post i}, order = pre ++ (i, c i) :: post →
      assignRanks heap 0 order i = { heap i with rank := some (rank i) } := by
    intro pre post i h
    have := hr2 pre (i, c i) post h
    rw [hrank_eq h, this, Nat.zero_add]
  have hB : ∀ {pre post i}, i ∈ clusters → order = pre ++ (i, c i) :: post →
      h' i = match pre.find? (fun a => !(h' a.1).isHarmonic && (T a.2 (c i)).1) with
        | none => { heap i with rank := some (rank i) }
        | some a => { heap i with rank := some (rank i), parent := some a.1, hfrac := some (T a.2 (c i)).2 } := by
    intro pre post i hi h
    have h1 := hspec pre (i, c i) post h (by
      show (assignRanks heap 0 order i).isHarmonic = false
      rw [hA h]; simp [PCluster.isHarmonic, hfresh i hi])
    rw [h1]
    simp only
    rw [hA h]
    cases pre.find? (fun a => !(h' a.1).isHarmonic && (T a.2 (c i)).1) <;> rfl
  refine ⟨h', rank, ?_, ?_, ?_, ?_, ?_, ?_, ?_, ?_⟩
  · unfold flagHarmonics
    by_cases hz : clusters.length = 0
    · rw [if_pos hz]
      have hz' : clusters = [] := List.eq_nil_of_length_eq_zero hz
      have ho : order = [] := by
        have := hperm.length_eq
        rw [List.length_map, hz] at this
        exact List.eq_nil_of_length_eq_zero this
      rw [ho] at hrun
      exact hrun
    · rw [if_neg hz, withCentres_ok heap c clusters hc]
      simp only [Except.bind]
      rw [← horder]; exact hrun
  · intro i
    by_cases hi : i ∈ clusters
    · obtain ⟨pre, post, h⟩ := hsplit i hi
      rw [hB hi h]
      split <;> rfl
    · have hn : i ∉ order.map Prod.fst := fun hm => hi (hids.mem_iff.1 hm)
      rw [hout i hn, hr1 i hn]
  · intro i hi
    have hn : i ∉ order.map Prod.fst := fun hm => hi (hids.mem_iff.1 hm)
    rw [hout i hn, hr1 i hn]
  · intro i hi
    obtain ⟨pre, post, h⟩ := hsplit i hi
    rw [hB hi h]
    split <;> rfl
  · have h1 : (order.map Prod.fst).map rank = List.range order.length := by
      apply List.ext_getElem
      · simp
      · intro n h1 h2
        rw [List.getElem_map, List.getElem_range]
        have hrk : ∀ i, rank i = (order.map Prod.fst).idxOf i := fun i => by rw [hrank]
        rw [hrk]
        exact List.Nodup.idxOf_getElem hidnd n (by simpa using h1)
    have h2 := hids.map rank
    rw [h1] at h2
    have h3 : order.length = clusters.length := by have := hids.length_eq; simpa using this
    rw [← h3]
    exact h2.symm
  · intro i hi j hj hlt
    obtain ⟨pre, post, h⟩ := hsplit j hj
    have hm := (hrank_lt h hi).1 hlt
    rw [h] at hsorted
    exact (List.pairwise_append.1 hsorted).2.2 _ hm _ List.mem_cons_self
  · intro i hi f hf
    obtain ⟨pre, post, h⟩ := hsplit i hi
    have hBi := hB hi h
    cases hfind : pre.find? (fun a => !(h' a.1).isHarmonic && (T a.2 (c i)).1) with
    | none =>
      rw [hfind] at hBi
      rw [hBi] at hf
      simp only at hf
      rw [hfresh i hi] at hf
      exact absurd hf (by simp)
    | some a =>
      rw [hfind] at hBi
      simp only at hBi
      have hfa : a.1 = f := by rw [hBi] at hf; simpa using hf
      obtain ⟨hpred, as, bs, hpre, has⟩ := List.find?_eq_some_iff_append.1 hfind
      have hapre : a ∈ pre := List.mem_of_find?_eq_some hfind
      have haord : a ∈ order := by rw [h]; exact List.mem_append_left _ hapre
      obtain ⟨hacl, hac⟩ := hmem a haord
      have hafc : a = (f, c f) := by rw [← hfa, ← hac]
      rw [hfa] at hacl
      simp only [Bool.and_eq_true, Bool.not_eq_true'] at hpred
      rw [hafc] at hpred hapre hBi hpre
      simp only at hpred hBi
      have hlt : rank f < rank i := (hrank_lt h hacl).2 hapre
      refine ⟨hacl, ?_, hlt, ?_, ?_, ?_⟩
      · have := hpred.1
        simpa [PCluster.isHarmonic] using this
      · rw [h] at hsorted
        exact (List.pairwise_append.1 hsorted).2.2 _ hapre _ List.mem_cons_self
      · refine ⟨(T (c f) (c i)).2, ?_, by rw [hBi]⟩
        rw [hTtest f hacl i hi, ← hpred.2]
      · intro g hg hgf hgp
        have hsp : order = as ++ (f, c f) :: (bs ++ (i, c i) :: post) := by
          rw [h, hpre]; simp
        have hgas := (hrank_lt hsp hg).1 hgf
        have := has _ hgas
        have hgh : (h' g).isHarmonic = false := by simp [PCluster.isHarmonic, hgp]
        simp only [hgh, Bool.not_false, Bool.true_and, Bool.not_eq_true'] at this
        refine ⟨(T (c g) (c i)).2, ?_⟩
        rw [hTtest g hg i hi, ← this]
  · intro i hi j hj hlt hip hjp
    obtain ⟨pre, post, h⟩ := hsplit j hj
    have hm := (hrank_lt h hi).1 hlt
    have hBj := hB hj h
    cases hfind : pre.find? (fun a => !(h' a.1).isHarmonic && (T a.2 (c j)).1) with
    | some a =>
      rw [hfind] at hBj
      rw [hBj] at hjp
      simp at hjp
    | none =>
      have := List.find?_eq_none.1 hfind _ hm
      have hgh : (h' i).isHarmonic = false := by simp [PCluster.isHarmonic, hip]
      simp only [hgh, Bool.not_false, Bool.true_and, Bool.not_eq_true] at this
      refine ⟨(T (c i) (c j)).2, ?_⟩
      rw [hTtest i hi j hj, ← this]

/-- C44 for the test that the pipeline uses: `htest` does not fail on clusters of positive frequency and duty cycle. -/
theorem C44_htest_total (tobs fmin fmax : ℚ) (a : HTestArgs) (ht : 0 < tobs) (h0 : 0 < fmin) (hf : fmin < fmax)
    (hM : 1 ≤ a.denomMax) (clusters : List ℕ) (c : ℕ → HPeak ℚ) (hc : ∀ i ∈ clusters, 0 < (c i).freq ∧ 0 < (c i).ducy) :
    ∀ i ∈ clusters, ∀ j ∈ clusters, ∃ r, htest (c i) (c j) tobs fmin fmax a = .ok r := by
  intro i hi j hj
  obtain ⟨related, r, -, -, hrun, -⟩ := C42_htest (c i) (c j) tobs fmin fmax a (hc i hi).1 (hc j hj).1 (hc i hi).2 (hc j hj).2
    ht h0 hf hM
  exact ⟨_, hrun⟩

/-- Three clusters: a bright one, a faint unrelated one and a harmonic. -/
def exHeap : ℕ → PCluster ℚ := heapOf [
  { peaks := [peakF, peakH] }, { peaks := [{ peakF with snr := 7, freq := 3 }] }, { peaks := [peakH, { peakH with snr := 19 }] }]

/-- A simple test in place of `htest`, for an example that can be computed. -/
def exTest (F H : HPeak ℚ) : Except PyErr (Bool × ℚ) := .ok (decide (H.freq = 2 * F.freq), 2)

/-- The centres of the clusters of the example. -/
def exCentre (i : ℕ) : HPeak ℚ := [peakF, { peakF with snr := 7, freq := 3 }, peakH].getD i peakF

example : [0, 1, 2].Nodup ∧ (∀ i ∈ [0, 1, 2], (exHeap i).centre = .ok (exCentre i)) ∧
    (∀ i ∈ [0, 1, 2], (exHeap i).parent = none) ∧
    (∀ i ∈ [0, 1, 2], ∀ j ∈ [0, 1, 2], ∃ r, exTest (exCentre i) (exCentre j) = .ok r) ∧
    (∀ i ∈ [0, 1, 2], 0 < (exCentre i).freq ∧ 0 < (exCentre i).ducy) := by
  refine ⟨by decide, by decide +kernel, by decide, fun i _ j _ => ⟨_, rfl⟩, by decide +kernel⟩

end Verif.Props
