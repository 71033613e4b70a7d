import Verif.Props.PeaksF
import Verif.Props.Pool

/-!
# C122: the clusters of the pipeline in double precision

`Pipeline.search` sorts the peaks by period and `Pipeline.cluster_peaks` assumes that the frequencies are sorted then. In double precision two frequencies can have the same
rounded period, so they need not be.
-/

namespace Verif.Props

open Verif.Model Verif.Spec Verif.Lemmas

theorem sortByPeriodF_perm (l : List PeakF) : (sortByPeriodF l).Perm l := List.mergeSort_perm _ _

theorem sortByPeriodF_sorted (l : List PeakF) : (sortByPeriodF l).Pairwise (fun a b => a.period ≤ b.period) := by
  classical
  have := List.pairwise_mergeSort (le := fun a b : PeakF => decide (a.period ≤ b.period))
    (fun a b c h1 h2 => by simp only [decide_eq_true_eq] at *; exact le_trans h1 h2)
    (fun a b => by simp only [Bool.or_eq_true, decide_eq_true_eq]; exact le_total _ _) l
  have e : sortByPeriodF l = l.mergeSort (fun a b => decide (a.period ≤ b.period)) := by
    unfold sortByPeriodF
    congr!
  rw [e]
  exact this.imp (fun h => by simpa using h)

/-- Rounded periods in order: the frequencies are in the opposite order up to two roundings. -/
theorem freq_order {A : DArith} (hA : Sane A) {f g : ℚ} (hf : 0 < f) (hg : 0 < g) (h : A.fl (1 / f) ≤ A.fl (1 / g)) : g ≤ (1 + 1 / 2 ^ 51) * f := by
  have h1 := (abs_le.mp (hA.rel (1 / f) (by positivity))).1
  have h2 := (abs_le.mp (hA.rel (1 / g) (by positivity))).2
  unfold u53 at h1 h2
  have h3 : (1 - 1 / 2 ^ 53) * (1 / f) ≤ (1 + 1 / 2 ^ 53) * (1 / g) := by linarith
  have h4 := mul_le_mul_of_nonneg_right h3 (mul_pos hf hg).le
  have e1 : (1 - 1 / 2 ^ 53) * (1 / f) * (f * g) = (1 - 1 / 2 ^ 53) * g := by field_simp
  have e2 : (1 + 1 / 2 ^ 53) * (1 / g) * (f * g) = (1 + 1 / 2 ^ 53) * f := by field_simp
  rw [e1, e2] at h4
  nlinarith

/-- C122. The clusters of the pipeline in double precision, where the order of the frequencies that `cluster_peaks` assumes can be violated by roundings. If the clustering radius
`r = radius / tmed` is at least `2^-51` of the largest frequency, every peak is in exactly one place, peaks of a cluster are linked by steps of at most `(1 + 2^-51) r`, and the
frequencies of peaks of different clusters differ by more than `r`, less `2^-50` of the largest frequency. -/
theorem C122_clusters {A : DArith} (hA : Sane A) (argsort : List ℚ → List ℕ) (ha : IsArgsort argsort) (found : List PeakF) {radius tmed F : ℚ} (ht : 0 < tmed)
    (hfreq : ∀ q ∈ found, 0 < q.freq ∧ q.freq ≤ F ∧ q.period = A.fl (1 / q.freq)) (hr : F / 2 ^ 51 ≤ radius / tmed) (hr0 : 0 ≤ radius) :
    ∃ clusters, A.clusterPeaks argsort (sortByPeriodF found) radius tmed = .ok clusters ∧ clusters.flatten.Perm found ∧ (∀ c ∈ clusters, c ≠ []) ∧
      (∀ c ∈ clusters, ∀ p ∈ c, ∀ q ∈ c, Linked (· ∈ found) PeakF.freq ((1 + 1 / 2 ^ 51) * (radius / tmed)) p q) ∧
      clusters.Pairwise (fun c c' => ∀ p ∈ c, ∀ q ∈ c', radius / tmed - F / 2 ^ 50 < |p.freq - q.freq|) := by
  have hpm := sortByPeriodF_perm found
  have hso := sortByPeriodF_sorted found
  set peaks := sortByPeriodF found with hpeaks
  unfold DArith.clusterPeaks
  by_cases hz : peaks.length = 0
  · rw [if_pos hz]
    have e : peaks = [] := List.eq_nil_of_length_eq_zero hz
    rw [e] at hpm
    exact ⟨[], rfl, hpm, by simp, by simp, List.Pairwise.nil⟩
  rw [if_neg hz, if_neg ht.ne']
  obtain ⟨p0, hp0⟩ : ∃ p0, p0 ∈ peaks := List.exists_mem_of_ne_nil _ (fun h => hz (by rw [h]; rfl))
  have hF : 0 < F := by
    have := hfreq p0 (hpm.mem_iff.mp hp0)
    linarith [this.1, this.2.1]
  have hrn : 0 ≤ radius / tmed := div_nonneg hr0 ht.le
  obtain ⟨r', r1, r2, r3⟩ := cluster1d_rounded hA argsort (peaks.map (fun p => p.freq)) hrn true
  rw [r3]
  have hdec : (peaks.map (fun p => p.freq)).Pairwise (fun a b => b ≤ a + F / 2 ^ 51) := by
    rw [List.pairwise_map]
    refine hso.imp_of_mem ?_
    intro a b ha hb hab
    obtain ⟨a1, a2, a3⟩ := hfreq a (hpm.mem_iff.mp ha)
    obtain ⟨b1, b2, b3⟩ := hfreq b (hpm.mem_iff.mp hb)
    rw [a3, b3] at hab
    have := freq_order hA a1 b1 hab
    linarith
  obtain ⟨hfl, hne, hch, hfar⟩ := cluster1d_near (by positivity) (hr.trans r1) argsort ha _ hdec
  generalize Model.cluster1d argsort (peaks.map (fun p => p.freq)) r' true = C at hfl hne hch hfar
  rw [List.length_map] at hfl
  have hin : ∀ c ∈ C, ∀ i ∈ c, i < peaks.length := fun c hc i hi =>
    List.mem_range.1 (by rw [← hfl]; exact List.mem_flatten.2 ⟨c, hc, hi⟩)
  obtain ⟨x, hx⟩ : ∃ x : ℕ → PeakF, x = fun i => peaks.getD i p0 := ⟨_, rfl⟩
  have hxget : ∀ i < peaks.length, peaks[i]? = some (x i) := by
    intro i hi
    rw [hx]; simp [List.getD, List.getElem?_eq_getElem hi]
  have hxfreq : ∀ i < peaks.length, (peaks.map (fun p => p.freq)).getD i 0 = (x i).freq := by
    intro i hi
    rw [hx]; simp [List.getD, List.getElem?_eq_getElem hi]
  have hxmem : ∀ i < peaks.length, x i ∈ found := by
    intro i hi
    exact hpm.mem_iff.mp (List.mem_of_getElem? (hxget i hi))
  have hfm : ∀ c : List ℕ, (∀ i ∈ c, i < peaks.length) → c.filterMap (fun i => peaks[i]?) = c.map x := by
    intro c
    induction c with
    | nil => intro _; rfl
    | cons a c ih =>
      intro h
      rw [List.filterMap_cons, hxget a (h a List.mem_cons_self), List.map_cons,
        ih (fun i hi => h i (List.mem_cons_of_mem _ hi))]
  have hlist : C.map (fun ids => ids.filterMap (fun i => peaks[i]?)) = C.map (fun ids => ids.map x) := by
    apply List.map_congr_left
    intro c hc
    rw [hfm c (hin c hc)]
  have hch' : ∀ c ∈ C, c.IsChain (fun i j => |(x i).freq - (x j).freq| ≤ r') := by
    intro c hc
    refine List.IsChain.imp_of_mem_imp ?_ (hch c hc)
    intro i j hi hj hij
    rwa [hxfreq i (hin c hc i hi), hxfreq j (hin c hc j hj)] at hij
  clear_value peaks
  refine ⟨_, rfl, ?_, ?_, ?_, ?_⟩
  · rw [hlist]
    have h1 : (C.map (fun ids => ids.map x)).flatten = C.flatten.map x := by
      rw [List.map_flatten]
    have h2 : (List.range peaks.length).map x = peaks := by
      apply List.ext_getElem?
      intro i
      by_cases hi : i < peaks.length
      · rw [List.getElem?_map, List.getElem?_range hi, hxget i hi]; rfl
      · rw [List.getElem?_eq_none (by simp; omega), List.getElem?_eq_none (by omega)]
    rw [h1, hfl, h2]
    exact hpm
  · intro c hc
    rw [hlist] at hc
    obtain ⟨ids, hids, rfl⟩ := List.mem_map.1 hc
    simp only [ne_eq, List.map_eq_nil_iff]
    exact hne ids hids
  · intro c hc p hp q hq
    rw [hlist] at hc
    obtain ⟨ids, hids, rfl⟩ := List.mem_map.1 hc
    obtain ⟨i, hi, rfl⟩ := List.mem_map.1 hp
    obtain ⟨j, hj, rfl⟩ := List.mem_map.1 hq
    obtain ⟨a, l, rfl⟩ := List.exists_cons_of_ne_nil (hne ids hids)
    have hlk := chain_linked (S := (· < peaks.length)) (x := fun k => (x k).freq) (r := r') l a (hin _ hids) (hch' _ hids)
    have hl := Relation.ReflTransGen.trans (linked_symm (hlk i hi)) (hlk j hj)
    refine Relation.ReflTransGen.lift x ?_ _ _ hl
    rintro a b ⟨h1, h2, h3⟩
    exact ⟨hxmem a h1, hxmem b h2, h3.trans r2⟩
  · rw [hlist, List.pairwise_map]
    refine hfar.imp_of_mem ?_
    intro c c' hc hc' h p hp q hq
    obtain ⟨i, hi, rfl⟩ := List.mem_map.1 hp
    obtain ⟨j, hj, rfl⟩ := List.mem_map.1 hq
    have := h i hi j hj
    rw [hxfreq i (hin c hc i hi), hxfreq j (hin c' hc' j hj)] at this
    refine lt_of_lt_of_le ?_ (le_abs_self _)
    linarith

/-- The assumption of `cluster_peaks` on the order can fail: sorted by period, with peaks as `find_peaks` makes them in IEEE arithmetic, the frequencies are neither increasing nor
decreasing. The frequencies `2 - 2^-51` and `2 - 2^-52` have the same rounded period. -/
theorem C122_unsorted : ∃ found : List PeakF, (∀ q ∈ found, 0 < q.freq ∧ q.freq ≤ 2 ∧ q.period = (ieeeDouble someLog (fun x k => rn 53 (x ^ k)) true).fl (1 / q.freq)) ∧
    ¬ ((sortByPeriodF found).map PeakF.freq).Pairwise (· ≥ ·) ∧ ¬ ((sortByPeriodF found).map PeakF.freq).Pairwise (· ≤ ·) := by
  classical
  set a : PeakF := ⟨rn 53 (1 / (2 - 1 / 2 ^ 51)), 2 - 1 / 2 ^ 51, 1, 1 / 10, 0, 2, 8⟩ with ha
  set b : PeakF := ⟨rn 53 (1 / (2 - 1 / 2 ^ 52)), 2 - 1 / 2 ^ 52, 1, 1 / 10, 0, 1, 9⟩ with hb
  set c : PeakF := ⟨1, 1, 1, 1 / 10, 0, 3, 7⟩ with hc
  have e : rn 53 (1 / (2 - 1 / 2 ^ 51)) = rn 53 (1 / (2 - 1 / 2 ^ 52)) := by decide +kernel
  have e2 : rn 53 (1 / (2 - 1 / 2 ^ 52)) ≤ 1 := by decide +kernel
  have hs : sortByPeriodF [a, b, c] = [a, b, c] := by
    unfold sortByPeriodF
    refine List.mergeSort_of_pairwise ?_
    simp only [ha, hb, hc, List.pairwise_cons, decide_eq_true_eq, List.mem_cons, List.not_mem_nil, or_false, forall_eq_or_imp, forall_eq]
    exact ⟨⟨e.le, e.le.trans e2⟩, e2, by simp⟩
  refine ⟨[a, b, c], ?_, ?_, ?_⟩
  · intro q hq
    have e3 : (1 : ℚ) = rn 53 (1 / 1) := by decide +kernel
    rcases List.mem_cons.mp hq with rfl | hq
    · exact ⟨by norm_num, by norm_num, rfl⟩
    rcases List.mem_cons.mp hq with rfl | hq
    · exact ⟨by norm_num, by norm_num, rfl⟩
    · rw [List.mem_singleton] at hq
      subst hq
      exact ⟨by norm_num, by norm_num, e3⟩
  · rw [hs]
    simp only [ha, hb, hc, List.map_cons, List.map_nil, List.pairwise_cons]
    intro h
    have := h.1 (2 - 1 / 2 ^ 52) (by simp)
    norm_num at this
  · rw [hs]
    simp only [ha, hb, hc, List.map_cons, List.map_nil, List.pairwise_cons]
    intro h
    have := h.1 1 (by simp)
    norm_num at this

/-- Non-vacuity of C122_clusters: the peaks of C122_unsorted with a radius of 0.1 over 600 s. -/
example : ∃ found : List PeakF, (∀ q ∈ found, 0 < q.freq ∧ q.freq ≤ 2 ∧ q.period = (ieeeDouble someLog (fun x k => rn 53 (x ^ k)) true).fl (1 / q.freq)) ∧ found ≠ [] ∧
    (2 : ℚ) / 2 ^ 51 ≤ 1 / 10 / 600 := by
  obtain ⟨found, h1, h2, _⟩ := C122_unsorted
  refine ⟨found, h1, ?_, by norm_num⟩
  rintro rfl
  exact h2 (by simp [sortByPeriodF])

end Verif.Props
