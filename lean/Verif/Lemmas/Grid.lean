import Verif.Lemmas.Periodogram
import Mathlib.Data.List.Pairwise

/-! # The grid of trial periods -/

namespace Verif.Lemmas

open Verif.Model Verif.Spec

section grid
variable {a : PgArgs} (hv : a.Valid)
include hv

theorem bins_le_samples {ids b : ℕ} (hb : b ≤ a.bstop ids) : (b : ℝ) ≤ a.pmaxSamples ids := by
  have h : b ≤ ⌊a.pmaxSamples ids⌋₊ := hb.trans (min_le_right _ _)
  have h0 : 0 ≤ a.pmaxSamples ids := by
    have := tau_pos hv ids
    have := hv.2.1
    have := hv.2.2.1
    unfold PgArgs.pmaxSamples
    apply div_nonneg <;> linarith
  exact (Nat.le_floor_iff h0).mp h

theorem ceil_ge {ids b : ℕ} (hb : b ≤ a.bstop ids) : (b : ℝ) ≤ a.periodCeil ids b :=
  le_min (bins_le_samples hv hb) (by linarith)

/-- Facts about a trial. -/
theorem trial_facts {ids b s : ℕ} (ht : (ids, b, s) ∈ trials a) :
    2 ≤ a.n ids / b ∧ s < a.n ids / b ∧ 2 ≤ b ∧
    (s : ℝ) < (b : ℝ) * (((a.n ids / b : ℕ) : ℝ) - 1) * (1 - b / a.periodCeil ids b) := by
  obtain ⟨h1, h2, h3, h4⟩ := mem_trials.mp ht
  have hb2 : 2 ≤ b := by have := hv.2.2.2.1; omega
  unfold PgArgs.rowsEval at h4
  simp only at h4
  have h5 := lt_of_lt_of_le h4 (min_le_left _ _)
  have h6 := lt_of_lt_of_le h4 (min_le_right _ _)
  unfold ceilshift at h6
  rw [Nat.lt_ceil] at h6
  refine ⟨?_, h5, hb2, h6⟩
  by_contra hc
  have : a.n ids / b = 1 := by omega
  rw [this] at h6
  simp at h6
  have := Nat.cast_nonneg (α := ℝ) s
  linarith

/-- The denominator of the period is at least `b - 1`. -/
theorem denom_pos {ids b s : ℕ} (ht : (ids, b, s) ∈ trials a) :
    0 < (b : ℝ) - s / (((a.n ids / b : ℕ) : ℝ) - 1) := by
  obtain ⟨h1, h2, h3, _⟩ := trial_facts hv ht
  generalize a.n ids / b = m at *
  have hm : (1 : ℝ) < m := by exact_mod_cast (by omega : 1 < m)
  have hs : (s : ℝ) ≤ (m : ℝ) - 1 := by
    have : ((s + 1 : ℕ) : ℝ) ≤ m := by exact_mod_cast h2
    push_cast at this; linarith
  have hb : (2 : ℝ) ≤ b := by exact_mod_cast h3
  have : (s : ℝ) / ((m : ℝ) - 1) ≤ 1 := by
    rw [div_le_one (by linarith)]; exact hs
  linarith

theorem per_ge {ids b s : ℕ} (ht : (ids, b, s) ∈ trials a) : a.tau ids * b ≤ perOf a (ids, b, s) := by
  obtain ⟨h1, h2, h3, _⟩ := trial_facts hv ht
  have hd := denom_pos hv ht
  have htau := tau_pos hv ids
  unfold perOf
  simp only
  rw [le_div_iff₀ hd]
  generalize a.n ids / b = m at *
  have hm : (1 : ℝ) < m := by exact_mod_cast (by omega : 1 < m)
  have hq : 0 ≤ (s : ℝ) / ((m : ℝ) - 1) := div_nonneg (Nat.cast_nonneg _) (by linarith)
  have : 0 ≤ a.tau ids * b := mul_nonneg htau.le (Nat.cast_nonneg _)
  nlinarith

theorem per_lt {ids b s : ℕ} (ht : (ids, b, s) ∈ trials a) :
    perOf a (ids, b, s) < a.tau ids * a.periodCeil ids b := by
  obtain ⟨h1, h2, h3, h4⟩ := trial_facts hv ht
  have hd := denom_pos hv ht
  have htau := tau_pos hv ids
  have hpc := ceil_ge hv (mem_trials.mp ht).2.2.1
  unfold perOf
  simp only
  rw [div_lt_iff₀ hd]
  generalize a.n ids / b = m at *
  generalize a.periodCeil ids b = pc at *
  have hm : (1 : ℝ) < m := by exact_mod_cast (by omega : 1 < m)
  have hb : (2 : ℝ) ≤ b := by exact_mod_cast h3
  have hpc0 : 0 < pc := by linarith
  have h5 : (s : ℝ) / ((m : ℝ) - 1) < b * (1 - b / pc) := by
    rw [div_lt_iff₀ (by linarith)]
    linarith
  have h6 : (b : ℝ) * b / pc < b - s / ((m : ℝ) - 1) := by
    have : (b : ℝ) * (1 - b / pc) = b - b * b / pc := by ring
    linarith
  rw [div_lt_iff₀ hpc0] at h6
  have := mul_lt_mul_of_pos_left h6 htau
  linarith

theorem per_lt_pmax {ids b s : ℕ} (ht : (ids, b, s) ∈ trials a) : perOf a (ids, b, s) < a.pmax := by
  have htau := tau_pos hv ids
  apply (per_lt hv ht).trans_le
  have h : a.periodCeil ids b ≤ a.pmaxSamples ids := min_le_left _ _
  have := mul_le_mul_of_nonneg_left h htau.le
  unfold PgArgs.pmaxSamples at this
  rwa [mul_div_cancel₀ _ htau.ne'] at this

theorem per_lt_next {ids b s : ℕ} (ht : (ids, b, s) ∈ trials a) : perOf a (ids, b, s) < a.tau ids * (b + 1) := by
  have htau := tau_pos hv ids
  apply (per_lt hv ht).trans_le
  exact mul_le_mul_of_nonneg_left (min_le_right _ _) htau.le

theorem tau_stage_mono {i j : ℕ} (h : i < j) : a.tau i * (a.bmax + 1) ≤ a.tau j * a.bmin := by
  have hb : (0 : ℝ) ≤ a.bmin := Nat.cast_nonneg _
  rw [← tau_succ hv i]
  apply mul_le_mul_of_nonneg_right _ hb
  unfold PgArgs.tau
  exact mul_le_mul_of_nonneg_right (f_mono hv h) hv.1.le

theorem per_ge_pmin {ids b s : ℕ} (ht : (ids, b, s) ∈ trials a) : a.pmin ≤ perOf a (ids, b, s) := by
  refine le_trans ?_ (per_ge hv ht)
  have hb : (a.bmin : ℝ) ≤ b := by exact_mod_cast (mem_trials.mp ht).2.1
  rw [← tau_zero hv]
  have h1 : a.tau 0 ≤ a.tau ids := by
    unfold PgArgs.tau
    exact mul_le_mul_of_nonneg_right (f_mono hv (Nat.zero_le _)) hv.1.le
  exact mul_le_mul h1 hb (Nat.cast_nonneg _) (tau_pos hv ids).le

theorem per_shift_mono {ids b s s' : ℕ} (ht : (ids, b, s) ∈ trials a) (ht' : (ids, b, s') ∈ trials a)
    (h : s < s') : perOf a (ids, b, s) < perOf a (ids, b, s') := by
  obtain ⟨h1, h2, h3, h4⟩ := trial_facts hv ht
  have hd := denom_pos hv ht
  have hd' := denom_pos hv ht'
  have htau := tau_pos hv ids
  unfold perOf
  simp only
  have hb : (2 : ℝ) ≤ b := by exact_mod_cast h3
  apply div_lt_div_of_pos_left _ hd'
  · generalize a.n ids / b = m at *
    have hm : (1 : ℝ) < m := by exact_mod_cast (by omega : 1 < m)
    have hs : (s : ℝ) < s' := by exact_mod_cast h
    have := div_lt_div_of_pos_right hs (by linarith : (0 : ℝ) < (m : ℝ) - 1)
    linarith
  · positivity

/-- Trials are listed in order of strictly increasing period. -/
theorem trials_sorted : (trials a).Pairwise (fun t t' => perOf a t < perOf a t') := by
  have key : (trials a).Pairwise (fun t t' => t ∈ trials a → t' ∈ trials a → perOf a t < perOf a t') := by
    unfold trials trialsPrefix
    rw [List.pairwise_flatMap]
    constructor
    · intro i hi
      unfold stageTrials stagePrefix
      rw [List.pairwise_flatMap]
      constructor
      · intro j _
        unfold foldTrials
        rw [List.pairwise_map]
        apply List.pairwise_lt_range.imp
        intro s s' hs h1 h2
        exact per_shift_mono hv h1 h2 hs
      · apply List.pairwise_lt_range.imp
        intro j j' hj t ht t' ht' h1 h2
        unfold foldTrials at ht ht'
        simp only [List.mem_map, List.mem_range] at ht ht'
        obtain ⟨s, _, rfl⟩ := ht
        obtain ⟨s', _, rfl⟩ := ht'
        have e1 := per_lt_next hv h1
        have e2 := per_ge hv h2
        have htau := tau_pos hv i
        have hb : (((a.bmin + j : ℕ) : ℝ) + 1) ≤ ((a.bmin + j' : ℕ) : ℝ) := by
          exact_mod_cast (by omega : a.bmin + j + 1 ≤ a.bmin + j')
        have := mul_le_mul_of_nonneg_left hb htau.le
        linarith
    · apply List.pairwise_lt_range.imp
      intro i i' hi t ht t' ht' h1 h2
      obtain ⟨i1, b, s⟩ := t
      obtain ⟨i2, b', s'⟩ := t'
      have hi1 : i1 = i := by
        simp only [stageTrials, stagePrefix, foldTrials, List.mem_flatMap, List.mem_map, Prod.mk.injEq] at ht
        obtain ⟨_, _, _, _, h, _⟩ := ht
        exact h.symm
      have hi2 : i2 = i' := by
        simp only [stageTrials, stagePrefix, foldTrials, List.mem_flatMap, List.mem_map, Prod.mk.injEq] at ht'
        obtain ⟨_, _, _, _, h, _⟩ := ht'
        exact h.symm
      subst hi1 hi2
      have e1 := per_lt_next hv h1
      have e2 := per_ge hv h2
      have e3 := tau_stage_mono hv hi
      have htau := tau_pos hv i1
      have htau' := tau_pos hv i2
      have hb : (b : ℝ) + 1 ≤ a.bmax + 1 := by
        have : b ≤ a.bmax := (mem_trials.mp h1).2.2.1.trans ((min_le_left _ _).trans (min_le_left _ _))
        have : (b : ℝ) ≤ a.bmax := by exact_mod_cast this
        linarith
      have hb' : (a.bmin : ℝ) ≤ b' := by exact_mod_cast (mem_trials.mp h2).2.1
      have e4 := mul_le_mul_of_nonneg_left hb htau.le
      have e5 := mul_le_mul_of_nonneg_left hb' htau'.le
      linarith
  exact key.imp_of_mem (fun h1 h2 h => h h1 h2)

/-- The number of stages: stage `i` is run iff its first period is below `pmax`. -/
theorem lt_numDs {i : ℕ} : i < a.numDs ↔ a.tau i * a.bmin < a.pmax := by
  have hg := dsGeo_gt hv
  have hl : 0 < Real.log a.dsGeo := Real.log_pos hg
  have hp := hv.2.1
  have hpp := hv.2.2.1
  unfold PgArgs.numDs
  rw [Nat.lt_ceil, lt_div_iff₀ hl, ← Real.log_pow, Real.log_lt_log_iff (by positivity) (by apply div_pos <;> linarith),
    lt_div_iff₀ hp]
  have : a.tau i * a.bmin = a.dsGeo ^ i * a.pmin := by
    rw [← tau_zero hv]
    unfold PgArgs.tau PgArgs.f
    ring
  rw [this]

end grid

end Verif.Lemmas
