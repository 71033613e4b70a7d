import Verif.Lemmas.SnrF
import Verif.Lemmas.Energy
import Mathlib.Probability.Moments.SubGaussian
import Mathlib.Tactic.LinearCombination

/-! # Helper lemmas: the S/N of a trial as a maximum of linear functions of the data -/

namespace Verif.Lemmas

open Verif.Model Verif.Spec Finset MeasureTheory ProbabilityTheory

/-- The folded profile of a trial. -/
noncomputable def trialProf (N m b : ℕ) (σ : ℕ → ℕ → ℕ) (f : ℝ) (s : ℕ) (x : ℕ → ℝ) (c : ℕ) : ℝ :=
  stack m b σ (fun r c => downsampled N x f (r * b + c)) s c

theorem trialProf_sub (N m b : ℕ) (σ : ℕ → ℕ → ℕ) (f : ℝ) (s : ℕ) (x y : ℕ → ℝ) (c : ℕ) :
    trialProf N m b σ f s (fun i => x i - y i) c = trialProf N m b σ f s x c - trialProf N m b σ f s y c := by
  unfold trialProf stack downsampled stepIntegral
  rw [← sum_sub_distrib]
  apply sum_congr rfl
  intro r _
  rw [← sum_sub_distrib]
  exact sum_congr rfl (fun i _ => by ring)

theorem trialProf_energy {N m b : ℕ} (σ : ℕ → ℕ → ℕ) {f : ℝ} (hf : 0 ≤ f) (s : ℕ) (x : ℕ → ℝ) :
    ∑ c ∈ range b, trialProf N m b σ f s x c ^ 2 ≤ m * (f * ∑ i ∈ range N, x i ^ 2) := by
  have e := stack_energy m b σ (fun r c => downsampled N x f (r * b + c)) s
  rw [sum_blocks (fun k => downsampled N x f k ^ 2)] at e
  exact e.trans (mul_le_mul_of_nonneg_left (downsampled_energy N x hf (m * b)) (Nat.cast_nonneg _))

/-- Output of the filter `t` for the profile of a trial, in units of the noise. -/
noncomputable def trialOut (N m b : ℕ) (σ : ℕ → ℕ → ℕ) (f var : ℝ) (s : ℕ) (t x : ℕ → ℝ) : ℝ :=
  (∑ c ∈ range b, trialProf N m b σ f s x c * t c) / Real.sqrt (m * var)

theorem trialOut_sub (N m b : ℕ) (σ : ℕ → ℕ → ℕ) (f var : ℝ) (s : ℕ) (t x y : ℕ → ℝ) :
    trialOut N m b σ f var s t (fun i => x i - y i) = trialOut N m b σ f var s t x - trialOut N m b σ f var s t y := by
  unfold trialOut
  rw [← sub_div, ← sum_sub_distrib]
  congr 1
  exact sum_congr rfl (fun c _ => by rw [trialProf_sub]; ring)

/-- A filter of unit norm. -/
theorem trialOut_sq {N m b : ℕ} (σ : ℕ → ℕ → ℕ) {f var : ℝ} (hf : 0 ≤ f) (hvar : 0 < var) (hm : 0 < m) (s : ℕ) {t : ℕ → ℝ}
    (ht : ∑ c ∈ range b, t c ^ 2 = 1) (x : ℕ → ℝ) : trialOut N m b σ f var s t x ^ 2 ≤ f / var * ∑ i ∈ range N, x i ^ 2 := by
  have hm' : (0 : ℝ) < m := by exact_mod_cast hm
  unfold trialOut
  rw [div_pow, Real.sq_sqrt (by positivity), div_le_iff₀ (by positivity)]
  have h1 := Finset.sum_mul_sq_le_sq_mul_sq (range b) (trialProf N m b σ f s x) t
  rw [ht, mul_one] at h1
  refine h1.trans ((trialProf_energy σ hf s x).trans (le_of_eq ?_))
  field_simp

/-- The output is a linear function of the data. -/
theorem trialOut_linear (N m b : ℕ) (σ : ℕ → ℕ → ℕ) (f var : ℝ) (s : ℕ) (t : ℕ → ℝ) :
    ∃ a : ℕ → ℝ, ∀ x, trialOut N m b σ f var s t x = ∑ i ∈ range N, a i * x i := by
  refine ⟨fun i => (∑ c ∈ range b, (∑ r ∈ range m,
    overlap i (((r * b + (c + σ s r) % b : ℕ) : ℝ) * f) ((((r * b + (c + σ s r) % b : ℕ) : ℝ) + 1) * f)) * t c) / Real.sqrt (m * var), ?_⟩
  intro x
  unfold trialOut trialProf stack downsampled stepIntegral
  simp only [div_mul_eq_mul_div, ← sum_div, sum_mul]
  congr 1
  have e : ∀ c, ∑ r ∈ range m, ∑ i ∈ range N, x i * overlap i (((r * b + (c + σ s r) % b : ℕ) : ℝ) * f)
      ((((r * b + (c + σ s r) % b : ℕ) : ℝ) + 1) * f) * t c = ∑ i ∈ range N, ∑ r ∈ range m,
      overlap i (((r * b + (c + σ s r) % b : ℕ) : ℝ) * f) ((((r * b + (c + σ s r) % b : ℕ) : ℝ) + 1) * f) * t c * x i := by
    intro c
    rw [sum_comm]
    exact sum_congr rfl (fun i _ => sum_congr rfl (fun r _ => by ring))
  rw [sum_congr rfl (fun c _ => e c), sum_comm]

theorem trialOut_coeff {N m b : ℕ} (σ : ℕ → ℕ → ℕ) {f var : ℝ} (hf : 0 ≤ f) (hvar : 0 < var) (hm : 0 < m) (s : ℕ) {t : ℕ → ℝ}
    (ht : ∑ c ∈ range b, t c ^ 2 = 1) :
    ∃ a : ℕ → ℝ, (∀ x, trialOut N m b σ f var s t x = ∑ i ∈ range N, a i * x i) ∧ ∑ i ∈ range N, a i ^ 2 ≤ f / var := by
  obtain ⟨a, ha⟩ := trialOut_linear N m b σ f var s t
  refine ⟨a, ha, ?_⟩
  have h1 := trialOut_sq (N := N) σ hf hvar hm s ht a
  rw [ha a] at h1
  have e : ∑ i ∈ range N, a i * a i = ∑ i ∈ range N, a i ^ 2 := sum_congr rfl (fun i _ => by ring)
  rw [e] at h1
  have h0 : 0 ≤ ∑ i ∈ range N, a i ^ 2 := sum_nonneg (fun _ _ => sq_nonneg _)
  by_contra hc
  push Not at hc
  have : 0 ≤ f / var := by positivity
  nlinarith

/-! ### The S/N as a maximum -/

/-- The S/N of a trial is at least every filter output, and is one of them. -/
theorem matched_out {N m b w : ℕ} {σ : ℕ → ℕ → ℕ} {f var v : ℝ} {s : ℕ} {x : ℕ → ℝ}
    (h : IsMatchedSnr b w (stack m b σ (fun r c => downsampled N x f (r * b + c)) s) (Real.sqrt (m * var)) v) :
    (∃ φ < b, ∃ t, IsBoxcar b w φ t ∧ v = trialOut N m b σ f var s t x) ∧
    ∀ φ < b, ∀ t, IsBoxcar b w φ t → trialOut N m b σ f var s t x ≤ v := h

theorem matched_stable {N m b w : ℕ} {σ : ℕ → ℕ → ℕ} {f var v v' : ℝ} {s : ℕ} {x y : ℕ → ℝ} (hf : 0 ≤ f) (hvar : 0 < var) (hm : 0 < m)
    (h : IsMatchedSnr b w (stack m b σ (fun r c => downsampled N x f (r * b + c)) s) (Real.sqrt (m * var)) v)
    (h' : IsMatchedSnr b w (stack m b σ (fun r c => downsampled N y f (r * b + c)) s) (Real.sqrt (m * var)) v') :
    v - v' ≤ Real.sqrt (f / var * ∑ i ∈ range N, (x i - y i) ^ 2) := by
  obtain ⟨⟨φ, hφ, t, ht, rfl⟩, _⟩ := matched_out h
  have h2 := (matched_out h').2 φ hφ t ht
  have h3 := trialOut_sub N m b σ f var s t x y
  obtain ⟨_, _, _, _, _, hs⟩ := ht
  have h4 := trialOut_sq (N := N) σ hf hvar hm s hs (fun i => x i - y i)
  have := Real.le_sqrt_of_sq_le h4
  linarith

/-! ### Noise -/

variable {Ω : Type*} [MeasurableSpace Ω] {μ : Measure Ω}

theorem subG_mono {X : Ω → ℝ} {c d : NNReal} (h : HasSubgaussianMGF X c μ) (hcd : c ≤ d) : HasSubgaussianMGF X d μ where
  integrable_exp_mul := h.integrable_exp_mul
  mgf_le t := (h.mgf_le t).trans (Real.exp_le_exp.mpr (by
    have : (c : ℝ) ≤ d := by exact_mod_cast hcd
    have := mul_le_mul_of_nonneg_right this (sq_nonneg t)
    linarith))

theorem subG_const_mul {X : Ω → ℝ} (h : HasSubgaussianMGF X 1 μ) (a : ℝ) :
    HasSubgaussianMGF (fun ω => a * X ω) (a ^ 2).toNNReal μ where
  integrable_exp_mul t := by
    have := h.integrable_exp_mul (t * a)
    refine this.congr (Filter.Eventually.of_forall (fun ω => ?_))
    simp only
    congr 1
    ring
  mgf_le t := by
    have h1 := h.mgf_le (t * a)
    have e : mgf (fun ω => a * X ω) μ t = mgf X μ (t * a) := by
      unfold mgf
      exact congrArg _ (funext fun ω => congrArg _ (by ring))
    rw [e]
    refine h1.trans (le_of_eq ?_)
    congr 1
    rw [NNReal.coe_one, Real.coe_toNNReal _ (sq_nonneg a)]
    ring

/-- A linear combination of independent noise samples. -/
theorem noise_tail {ξ : ℕ → Ω → ℝ} (hind : iIndepFun ξ μ) (hsub : ∀ i, HasSubgaussianMGF (ξ i) 1 μ) (a : ℕ → ℝ) (N : ℕ) {c : ℝ}
    (hc : ∑ i ∈ range N, a i ^ 2 ≤ c) {t : ℝ} (ht : 0 ≤ t) :
    μ.real {ω | t ≤ ∑ i ∈ range N, a i * ξ i ω} ≤ Real.exp (-t ^ 2 / (2 * c)) := by
  have h0 : 0 ≤ c := (sum_nonneg (fun _ _ => sq_nonneg _)).trans hc
  have hi : iIndepFun (fun i ω => a i * ξ i ω) μ :=
    hind.comp (fun i x => a i * x) (fun i => measurable_const_mul (a i))
  have h1 := HasSubgaussianMGF.sum_of_iIndepFun hi (c := fun i => (a i ^ 2).toNNReal) (s := range N)
    (fun i _ => subG_const_mul (hsub i) (a i))
  have h2 := subG_mono h1 (d := c.toNNReal) (by
    rw [← NNReal.coe_le_coe, NNReal.coe_sum, Real.coe_toNNReal _ h0]
    simp only [Real.coe_toNNReal _ (sq_nonneg _)]
    exact hc)
  have h3 := h2.measure_ge_le ht
  rwa [Real.coe_toNNReal _ h0] at h3

/-! ### The S/N of a rectangular pulse -/

open Classical in
theorem matched_pulse {n w φ : ℕ} (h0 : 0 < w) (h1 : w < n) (hφ : φ < n) {base amp std v : ℝ} (ha : 0 ≤ amp) (hstd : 0 < std)
    (h : IsMatchedSnr n w (fun i => if InWindow n w φ i then base + amp else base) std v) :
    v = amp * Real.sqrt ((w : ℝ) * (n - w) / n) / std := by
  obtain ⟨t, ht⟩ := boxcar_exists h0 h1 hφ
  have ht0 := ht
  obtain ⟨hi, lo, hlt, hv, hz, hs⟩ := ht
  have hv' : ∀ i < n, t i = if InWindow n w φ i then hi else lo := fun i h => by rw [hv i h]
  obtain ⟨e1, e2⟩ := template_sq n w φ h1.le hφ hi lo t hv'
  have hz' := hz
  have hs' := hs
  rw [e1] at hz'
  rw [e2] at hs'
  obtain ⟨hhi, hlo⟩ := boxcar_values h0 h1 hlt hz' hs'
  have hd : hi - lo = Real.sqrt ((n : ℝ) / (w * (n - w))) := by rw [hhi, hlo, sub_neg_eq_add, boxHB h0 h1]
  have hd0 : 0 < hi - lo := by linarith
  obtain ⟨A, hA⟩ : ∃ A, A = amp / (hi - lo) := ⟨_, rfl⟩
  have hA0 : 0 ≤ A := by rw [hA]; positivity
  have hA' : A = amp * Real.sqrt ((w : ℝ) * (n - w) / n) := by
    rw [hA, hd, div_eq_mul_inv, ← Real.sqrt_inv, inv_div]
  have hdot : ∀ τ : ℕ → ℝ, ∑ i ∈ range n, τ i = 0 →
      ∑ i ∈ range n, (if InWindow n w φ i then base + amp else base) * τ i = A * ∑ i ∈ range n, t i * τ i := by
    intro τ hτ
    have e : ∀ i ∈ range n, (if InWindow n w φ i then base + amp else base) * τ i = (base - A * lo) * τ i + A * (t i * τ i) := by
      intro i hi'
      rw [hv' i (mem_range.mp hi')]
      have : A * (hi - lo) = amp := by rw [hA]; field_simp
      split_ifs
      · rw [← this]; ring
      · ring
    rw [sum_congr rfl e, sum_add_distrib, ← Finset.mul_sum, hτ, ← Finset.mul_sum]
    ring
  obtain ⟨⟨ψ, hψ, τ, hτ, e⟩, hub⟩ := h
  rw [← hA']
  apply le_antisymm
  · rw [e]
    obtain ⟨_, _, _, _, hτz, hτs⟩ := hτ
    rw [hdot τ hτz]
    refine div_le_div_of_nonneg_right ?_ hstd.le
    have hsq : 0 ≤ ∑ i ∈ range n, (t i - τ i) ^ 2 := sum_nonneg (fun _ _ => sq_nonneg _)
    have : ∑ i ∈ range n, (t i - τ i) ^ 2 = ∑ i ∈ range n, t i ^ 2 + ∑ i ∈ range n, τ i ^ 2 - 2 * ∑ i ∈ range n, t i * τ i := by
      rw [Finset.mul_sum, ← sum_add_distrib, ← sum_sub_distrib]
      exact sum_congr rfl (fun i _ => by ring)
    rw [this, hs, hτs] at hsq
    nlinarith
  · have := hub φ hφ t ht0
    rw [hdot t hz] at this
    have e3 : ∑ i ∈ range n, t i * t i = 1 := by
      rw [← hs]
      exact sum_congr rfl (fun i _ => by ring)
    rwa [e3, mul_one] at this

end Verif.Lemmas
