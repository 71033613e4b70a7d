import Verif.Lemmas.Grid
import Verif.Spec.Periodogram

/-! # The trial periods leave no holes -/

namespace Verif.Lemmas

open Verif.Model Verif.Spec

/-- The label of a trial. -/
noncomputable def labelOf (a : PgArgs) (t : ℕ × ℕ × ℕ) : Trial :=
  { f := a.f t.1, b := t.2.1, m := a.n t.1 / t.2.1, s := t.2.2 }

theorem label_ok {a : PgArgs} (hv : a.Valid) {t : ℕ × ℕ × ℕ} (ht : t ∈ trials a) :
    (labelOf a t).OK a.size a.tsamp a.pmin a.bmin a.bmax := by
  obtain ⟨i, b, s⟩ := t
  obtain ⟨h1, h2, h3, _⟩ := trial_facts hv ht
  obtain ⟨_, g2, g3, _⟩ := mem_trials.mp ht
  exact ⟨⟨i, rfl⟩, ⟨g2, g3.trans ((min_le_left _ _).trans (min_le_left _ _))⟩, rfl, h1, h2⟩

theorem label_freq {a : PgArgs} (hv : a.Valid) {t : ℕ × ℕ × ℕ} (ht : t ∈ trials a) :
    1 / perOf a t = (labelOf a t).freq a.tsamp := by
  obtain ⟨i, b, s⟩ := t
  obtain ⟨h1, h2, h3, _⟩ := trial_facts hv ht
  have hd := denom_pos hv ht
  have htau := tau_pos hv i
  unfold perOf labelOf Trial.freq Trial.step
  simp only
  unfold PgArgs.tau at htau ⊢
  generalize a.n i / b = m at *
  have hm : (0 : ℝ) < (m : ℝ) - 1 := by
    have : (2 : ℝ) ≤ m := by exact_mod_cast h1
    linarith
  have hb : (0 : ℝ) < b := by exact_mod_cast (by omega : 0 < b)
  have hf : a.f i ≠ 0 := by
    intro h; rw [h] at htau; simp at htau
  have hts := hv.1.ne'
  rw [one_div_div]
  field_simp

theorem stages_ok {a : PgArgs} (hv : a.Valid) (h2 : a.pmax ≤ a.size * a.tsamp * a.bmin) :
    ∀ i < a.numDs, a.f i = 1 ∨ a.f i ≤ a.size := by
  intro i hi
  right
  have hts := hv.1
  have hb : (0 : ℝ) < a.bmin := by exact_mod_cast (by have := hv.2.2.2.1; omega : 0 < a.bmin)
  have hlt := (lt_numDs hv).mp hi
  unfold PgArgs.tau at hlt
  have h4 : a.f i * (a.tsamp * a.bmin) ≤ a.size * (a.tsamp * a.bmin) := by linarith
  exact le_of_mul_le_mul_right h4 (by positivity)

theorem two_rows {a : PgArgs} (hv : a.Valid) (h2 : 2 * a.pmax ≤ a.size * a.tsamp) :
    ∀ i b, 0 < b → b ≤ ⌊a.pmaxSamples i⌋₊ → 2 ≤ a.n i / b := by
  have hts := hv.1
  have hp0 := hv.2.1
  intro i b hb hb'
  rw [Nat.le_div_iff_mul_le hb]
  have htau := tau_pos hv i
  have hf := f_ge_one hv i
  have h0 : 0 ≤ a.pmaxSamples i := div_nonneg (hp0.trans hv.2.2.1).le htau.le
  have h4 : (b : ℝ) ≤ a.pmaxSamples i := (Nat.le_floor_iff h0).mp hb'
  unfold PgArgs.n downsampledSize
  rw [Nat.le_floor_iff (by positivity), le_div_iff₀ (by linarith)]
  unfold PgArgs.pmaxSamples PgArgs.tau at h4
  rw [le_div_iff₀ (by positivity)] at h4
  push_cast
  have h5 : (2 * (b : ℝ) * a.f i) * a.tsamp ≤ a.size * a.tsamp := by nlinarith
  exact le_of_mul_le_mul_right h5 hts

theorem cover {a : PgArgs} (hv : a.Valid) (h2 : 2 * a.pmax ≤ a.size * a.tsamp) :
    ∀ P, a.pmin ≤ P → P < a.pmax → ∃ t ∈ trials a,
      perOf a t ≤ P ∧ 1 / perOf a t - 1 / P < (labelOf a t).step a.tsamp ∧
        P < (((labelOf a t).b : ℝ) + 1) * ((labelOf a t).f * a.tsamp) := by
  have hp0 := hv.2.1
  have hts := hv.1
  have hb2 : 2 ≤ a.bmin := hv.2.2.2.1
  have hrows := two_rows hv h2
  intro P hP1 hP2
  have hP0 : 0 < P := hp0.trans_le hP1
  -- stage
  have hex : ∃ i, P < a.tau (i + 1) * a.bmin := by
    have hg := dsGeo_gt hv
    obtain ⟨k, hk⟩ := pow_unbounded_of_one_lt (P / a.pmin) hg
    refine ⟨k, ?_⟩
    have e : a.tau (k + 1) * a.bmin = a.dsGeo ^ (k + 1) * a.pmin := by
      rw [← tau_zero hv]; unfold PgArgs.tau PgArgs.f; ring
    rw [e, ← div_lt_iff₀ hp0]
    exact hk.trans_le (pow_le_pow_right₀ hg.le (Nat.le_succ k))
  classical
  obtain ⟨i, hi1, hi2⟩ : ∃ i, a.tau i * a.bmin ≤ P ∧ P < a.tau (i + 1) * a.bmin := by
    have hs := Nat.find_spec hex
    have hm := fun j => Nat.find_min hex (m := j)
    generalize Nat.find hex = i at hs hm
    refine ⟨i, ?_, hs⟩
    rcases Nat.eq_zero_or_pos i with h0 | h0
    · subst h0; rw [tau_zero hv]; exact hP1
    · have := hm (i - 1) (by omega)
      rw [Nat.sub_add_cancel h0] at this
      exact not_lt.mp this
  have hids : i < a.numDs := (lt_numDs hv).mpr (hi1.trans_lt hP2)
  have htau := tau_pos hv i
  -- bins
  obtain ⟨b, hbdef⟩ : ∃ b, b = ⌊P / a.tau i⌋₊ := ⟨_, rfl⟩
  have hPt : 0 ≤ P / a.tau i := div_nonneg hP0.le htau.le
  have hb1 : (b : ℝ) * a.tau i ≤ P := by
    rw [← le_div_iff₀ htau, hbdef]; exact Nat.floor_le hPt
  have hb2 : P < ((b : ℝ) + 1) * a.tau i := by
    rw [← div_lt_iff₀ htau, hbdef]; exact Nat.lt_floor_add_one _
  have hbmin : a.bmin ≤ b := by
    rw [hbdef, Nat.le_floor_iff hPt, le_div_iff₀ htau]; linarith
  have hbmax : b ≤ a.bmax := by
    rw [tau_succ hv] at hi2
    have : (b : ℝ) < a.bmax + 1 := by
      have : (b : ℝ) * a.tau i < (a.bmax + 1) * a.tau i := by linarith
      exact lt_of_mul_lt_mul_right this htau.le
    have : b < a.bmax + 1 := by exact_mod_cast this
    omega
  have hbs : b ≤ ⌊a.pmaxSamples i⌋₊ := by
    rw [hbdef]
    apply Nat.floor_le_floor
    unfold PgArgs.pmaxSamples
    exact div_le_div_of_nonneg_right hP2.le htau.le
  have hm2 := hrows i b (by omega) hbs
  have hbn : b ≤ a.n i := by
    have := (Nat.le_div_iff_mul_le (by omega)).mp hm2
    omega
  have hbstop : b ≤ a.bstop i := le_min (le_min hbmax hbn) hbs
  generalize hM : a.n i / b = m at hm2
  have hm0 : (2 : ℝ) ≤ m := by exact_mod_cast hm2
  have hbR : (2 : ℝ) ≤ b := by exact_mod_cast (by omega : 2 ≤ b)
  -- shift
  obtain ⟨y, hy⟩ : ∃ y : ℝ, y = ((m : ℝ) - 1) * (b - b * b * a.tau i / P) := ⟨_, rfl⟩
  have hbbP : (b : ℝ) * b * a.tau i / P ≤ b := by
    rw [div_le_iff₀ hP0]; nlinarith
  have hy0 : 0 ≤ y := by rw [hy]; apply mul_nonneg <;> linarith
  obtain ⟨s, hs⟩ : ∃ s, s = ⌊y⌋₊ := ⟨_, rfl⟩
  have hs1 : (s : ℝ) ≤ y := by rw [hs]; exact Nat.floor_le hy0
  have hs2 : y < s + 1 := by rw [hs]; exact Nat.lt_floor_add_one y
  -- y is below the number of evaluated rows
  have hpcP : P < a.periodCeil i b * a.tau i := by
    unfold PgArgs.periodCeil
    rcases le_total (a.pmaxSamples i) ((b : ℝ) + 1) with h | h
    · rw [min_eq_left h]
      unfold PgArgs.pmaxSamples
      rwa [div_mul_cancel₀ _ htau.ne']
    · rw [min_eq_right h]; exact hb2
  have hpc0 : 0 < a.periodCeil i b := by
    have := ceil_ge hv hbstop
    linarith
  have hylt : y < (b : ℝ) * ((m : ℝ) - 1) * (1 - b / a.periodCeil i b) := by
    rw [hy]
    have h5 : (b : ℝ) / a.periodCeil i b < b * a.tau i / P := by
      rw [div_lt_div_iff₀ hpc0 hP0]
      nlinarith
    have h6 : (b : ℝ) - b * b * a.tau i / P < b * (1 - b / a.periodCeil i b) := by
      have : (b : ℝ) * b * a.tau i / P = b * (b * a.tau i / P) := by ring
      rw [this]
      nlinarith
    have := mul_lt_mul_of_pos_left h6 (by linarith : (0 : ℝ) < (m : ℝ) - 1)
    linarith
  have hsm : s < m := by
    have : y < m := by
      rw [hy]
      have h7 : (b : ℝ) - b * b * a.tau i / P ≤ 1 := by
        have : (b : ℝ) - 1 ≤ b * b * a.tau i / P := by
          rw [le_div_iff₀ hP0]
          nlinarith [mul_pos htau (by linarith : (0 : ℝ) < b)]
        linarith
      nlinarith
    have : (s : ℝ) < m := by linarith
    exact_mod_cast this
  have hmem : (i, b, s) ∈ trials a := by
    rw [mem_trials]
    refine ⟨hids, hbmin, hbstop, ?_⟩
    unfold PgArgs.rowsEval
    simp only
    rw [hM]
    refine lt_min hsm ?_
    unfold ceilshift
    rw [Nat.lt_ceil]
    exact hs1.trans_lt hylt
  refine ⟨(i, b, s), hmem, ?_, ?_, hb2⟩
  · have hd := denom_pos hv hmem
    unfold perOf
    simp only
    rw [div_le_iff₀ hd, hM]
    have h8 : (s : ℝ) / ((m : ℝ) - 1) ≤ b - b * b * a.tau i / P := by
      rw [div_le_iff₀ (by linarith)]
      rw [hy] at hs1
      linarith
    have h9 : P * (b * b * a.tau i / P) = b * b * a.tau i := by field_simp
    have := mul_le_mul_of_nonneg_left h8 hP0.le
    nlinarith
  · rw [label_freq hv hmem]
    unfold labelOf Trial.freq Trial.step
    simp only
    rw [hM]
    have hf0 : 0 < a.f i := lt_of_lt_of_le one_pos (f_ge_one hv i)
    have hm1 : (0 : ℝ) < (m : ℝ) - 1 := by linarith
    have hb0 : (0 : ℝ) < b := by linarith
    have htd : a.tau i = a.f i * a.tsamp := rfl
    have key : 1 / (a.f i * a.tsamp * b) - 1 / P =
        y * (1 / (a.f i * a.tsamp * (b : ℝ) ^ 2 * ((m : ℝ) - 1))) := by
      rw [hy, htd]
      field_simp
    have hpos : 0 < 1 / (a.f i * a.tsamp * (b : ℝ) ^ 2 * ((m : ℝ) - 1)) := by positivity
    nlinarith

end Verif.Lemmas
