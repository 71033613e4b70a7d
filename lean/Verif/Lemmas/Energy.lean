import Verif.Lemmas.Snr
import Verif.Lemmas.Downsample
import Verif.Lemmas.Periodogram
import Verif.Spec.Periodogram
import Mathlib.Algebra.Order.BigOperators.Ring.Finset
import Mathlib.Algebra.Order.Chebyshev

/-! # Range of the matched filter output: sums of squares through downsampling and stacking -/

namespace Verif.Lemmas

open Verif.Model Verif.Spec Finset

theorem winSum_total (n w : ℕ) (x : ℕ → ℝ) :
    ∑ φ ∈ range n, winSum n w x φ = w * ∑ i ∈ range n, x i := by
  unfold winSum
  rw [Finset.sum_comm]
  rw [Finset.sum_congr rfl (fun j _ => sum_rotate n j x)]
  simp

/-- The best phase of a zero mean template has a non-negative output. -/
theorem matched_nonneg {n w : ℕ} (h0 : 0 < w) (h1 : w < n) {x : ℕ → ℝ} {std v : ℝ} (hstd : 0 < std)
    (h : IsMatchedSnr n w x std v) : 0 ≤ v := by
  obtain ⟨D, hD, hub⟩ := winMax_exists n w (by omega) x
  rw [matched_unique h (matched_of_max h0 h1 x hstd hD hub)]
  apply div_nonneg _ hstd.le
  have a : (0 : ℝ) < w := by exact_mod_cast h0
  have b : (w : ℝ) < n := by exact_mod_cast h1
  have key : (w : ℝ) * ∑ i ∈ range n, x i ≤ n * D := by
    rw [← winSum_total]
    calc ∑ φ ∈ range n, winSum n w x φ ≤ ∑ _φ ∈ range n, D :=
          Finset.sum_le_sum (fun φ hφ => hub φ (mem_range.mp hφ))
      _ = n * D := by simp
  have hB := boxB_mul h1
  have hH := boxH_pos h0 h1
  have e : boxH n w + boxB n w = boxB n w * n / w := by
    rw [eq_div_iff a.ne']
    linarith
  rw [e]
  have : boxB n w * n / w * D - boxB n w * ∑ i ∈ range n, x i =
      boxB n w / w * (n * D - w * ∑ i ∈ range n, x i) := by field_simp
  rw [this]
  exact mul_nonneg (div_nonneg (boxB_pos h0 h1).le a.le) (by linarith)

/-- The output of a template of unit norm is at most the norm of the data. -/
theorem matched_le {n w : ℕ} {x : ℕ → ℝ} {std v : ℝ} (hstd : 0 < std)
    (h : IsMatchedSnr n w x std v) : v ≤ Real.sqrt (∑ i ∈ range n, x i ^ 2) / std := by
  obtain ⟨⟨φ, hφ, t, ⟨hi, lo, _, _, _, hs⟩, rfl⟩, _⟩ := h
  apply div_le_div_of_nonneg_right _ hstd.le
  apply Real.le_sqrt_of_sq_le
  have := Finset.sum_mul_sq_le_sq_mul_sq (range n) x t
  rwa [hs, mul_one] at this

theorem stack_energy (m p : ℕ) (σ : ℕ → ℕ → ℕ) (x : ℕ → ℕ → ℝ) (s : ℕ) :
    ∑ c ∈ range p, stack m p σ x s c ^ 2 ≤ m * ∑ i ∈ range m, ∑ c ∈ range p, x i c ^ 2 := by
  calc ∑ c ∈ range p, stack m p σ x s c ^ 2
      ≤ ∑ c ∈ range p, (m : ℝ) * ∑ i ∈ range m, x i ((c + σ s i) % p) ^ 2 := by
        apply Finset.sum_le_sum
        intro c _
        have := sq_sum_le_card_mul_sum_sq (s := range m) (f := fun i => x i ((c + σ s i) % p))
        rwa [card_range] at this
    _ = m * ∑ i ∈ range m, ∑ c ∈ range p, x i c ^ 2 := by
        rw [← Finset.mul_sum, Finset.sum_comm]
        congr 1
        exact Finset.sum_congr rfl (fun i _ => sum_rotate p (σ s i) (fun c => x i c ^ 2))

theorem sum_blocks (g : ℕ → ℝ) (b m : ℕ) :
    ∑ r ∈ range m, ∑ c ∈ range b, g (r * b + c) = ∑ k ∈ range (m * b), g k := by
  induction m with
  | zero => simp
  | succ m ih => rw [sum_range_succ, ih, Nat.succ_mul, Finset.sum_range_add]

theorem overlap_total_le (N : ℕ) {a b : ℝ} (h0 : 0 ≤ a) (h : a ≤ b) : ∑ i ∈ range N, overlap i a b ≤ b - a := by
  -- telescoping: sum over i < N is min N b - min N a
  have key : ∀ N : ℕ, ∑ i ∈ range N, overlap i a b = min (N : ℝ) b - min (N : ℝ) a := by
    intro N
    induction N with
    | zero =>
      simp only [range_zero, sum_empty, Nat.cast_zero]
      rw [min_eq_left (h0.trans h), min_eq_left h0, sub_self]
    | succ N ih =>
      rw [sum_range_succ, ih, overlap_eq N h]
      have e : ∀ c : ℝ, min (N : ℝ) c + min ((N : ℝ) + 1) (max (N : ℝ) c) - N = min ((N : ℝ) + 1) c := by
        intro c
        rcases le_total (N : ℝ) c with hc | hc
        · rw [min_eq_left hc, max_eq_right hc]; ring
        · rw [min_eq_right hc, max_eq_left hc, min_eq_right (by linarith : (N : ℝ) ≤ N + 1),
            min_eq_right (by linarith : c ≤ (N : ℝ) + 1)]; ring
      have e1 := e a
      have e2 := e b
      push_cast
      linarith
  rw [key]
  rcases le_total (N : ℝ) a with hc | hc
  · rw [min_eq_left hc, min_eq_left (hc.trans h)]; linarith
  · rw [min_eq_right hc]
    linarith [min_le_right (N : ℝ) b]

theorem overlap_outputs_le (i n : ℕ) {f : ℝ} (hf : 0 ≤ f) :
    ∑ k ∈ range n, overlap i ((k : ℝ) * f) (((k : ℝ) + 1) * f) ≤ 1 := by
  have key : ∑ k ∈ range n, overlap i ((k : ℝ) * f) (((k : ℝ) + 1) * f) = overlap i 0 (n * f) := by
    induction n with
    | zero =>
      simp only [range_zero, sum_empty, Nat.cast_zero, zero_mul]
      exact (overlap_right (Nat.cast_nonneg i)).symm
    | succ n ih =>
      have hn : (0 : ℝ) ≤ n := Nat.cast_nonneg n
      rw [sum_range_succ, ih, overlap_add i (by positivity) (by nlinarith)]
      push_cast
      rfl
  rw [key]
  unfold overlap
  apply max_le zero_le_one
  have := min_le_left ((i : ℝ) + 1) (n * f)
  have := le_max_left (i : ℝ) 0
  linarith

/-- Downsampling multiplies the sum of squares by at most the factor. -/
theorem downsampled_energy (N : ℕ) (x : ℕ → ℝ) {f : ℝ} (hf : 0 ≤ f) (n : ℕ) :
    ∑ k ∈ range n, downsampled N x f k ^ 2 ≤ f * ∑ i ∈ range N, x i ^ 2 := by
  have h1 : ∀ k ∈ range n, downsampled N x f k ^ 2 ≤
      f * ∑ i ∈ range N, x i ^ 2 * overlap i ((k : ℝ) * f) (((k : ℝ) + 1) * f) := by
    intro k _
    have hk : (0 : ℝ) ≤ k := Nat.cast_nonneg k
    have hle : (k : ℝ) * f ≤ ((k : ℝ) + 1) * f := by nlinarith
    unfold downsampled stepIntegral
    generalize ha : (k : ℝ) * f = a at *
    generalize hb : ((k : ℝ) + 1) * f = b at *
    have hba : b - a = f := by rw [← ha, ← hb]; ring
    have ha0 : 0 ≤ a := by rw [← ha]; positivity
    have e1 : ∀ i ∈ range N, x i * overlap i a b = (x i * Real.sqrt (overlap i a b)) * Real.sqrt (overlap i a b) := by
      intro i _
      rw [mul_assoc, Real.mul_self_sqrt (overlap_nonneg i a b)]
    rw [Finset.sum_congr rfl e1]
    refine (Finset.sum_mul_sq_le_sq_mul_sq (range N) _ _).trans ?_
    have e2 : ∀ i ∈ range N, (x i * Real.sqrt (overlap i a b)) ^ 2 = x i ^ 2 * overlap i a b := by
      intro i _
      rw [mul_pow, Real.sq_sqrt (overlap_nonneg i a b)]
    have e3 : ∀ i ∈ range N, Real.sqrt (overlap i a b) ^ 2 = overlap i a b :=
      fun i _ => Real.sq_sqrt (overlap_nonneg i a b)
    rw [Finset.sum_congr rfl e2, Finset.sum_congr rfl e3, mul_comm]
    have h2 := overlap_total_le N ha0 hle
    rw [hba] at h2
    apply mul_le_mul_of_nonneg_right h2
    exact Finset.sum_nonneg (fun i _ => mul_nonneg (sq_nonneg _) (overlap_nonneg i a b))
  refine (Finset.sum_le_sum h1).trans ?_
  rw [← Finset.mul_sum, Finset.sum_comm]
  apply mul_le_mul_of_nonneg_left _ hf
  apply Finset.sum_le_sum
  intro i _
  rw [← Finset.mul_sum]
  have := overlap_outputs_le i n hf
  nlinarith [sq_nonneg (x i)]

/-- The noise variance per output sample is at least half the factor. -/
theorem variance_ge_half {N : ℕ} {f : ℝ} (h1 : 1 ≤ f) (hn : 4 ≤ ⌊(N : ℝ) / f⌋₊) : f ≤ 2 * downsampledVariance N f := by
  unfold downsampledVariance
  simp only
  have hfl := Int.floor_le f
  have hfu := Int.lt_floor_add_one f
  split_ifs with hx
  · linarith
  · have hn4 : (4 : ℝ) ≤ downsampledSize N f := by unfold downsampledSize; exact_mod_cast hn
    have hx4 : 4 * (f - ⌊f⌋) ≤ (downsampledSize N f : ℝ) * (f - ⌊f⌋) := by nlinarith
    generalize (downsampledSize N f : ℝ) * (f - ⌊f⌋) = x at *
    have hk : 1 ≤ ⌊f⌋ := by rw [Int.le_floor]; exact_mod_cast h1
    rcases hk.eq_or_lt with hk | hk
    · have hk1 : (⌊f⌋ : ℝ) = 1 := by exact_mod_cast hk.symm
      rw [hk1] at hx4 ⊢
      nlinarith [sq_nonneg (x - 27 / 32)]
    · have hk2 : (2 : ℝ) ≤ ⌊f⌋ := by exact_mod_cast hk
      generalize (⌊f⌋ : ℝ) = k at *
      nlinarith [sq_nonneg (x - 3 / 4), sq_nonneg (k - 2)]

/-- No downsampling: the variance of a sample is kept. -/
theorem variance_one (N : ℕ) : downsampledVariance N 1 = 1 := by
  unfold downsampledVariance
  simp

/-- Range of the matched filter output of a trial. -/
theorem trial_snr_range {N b m w : ℕ} (σ : ℕ → ℕ → ℕ) (x : ℕ → ℝ) {f var v : ℝ} (s : ℕ) (h0 : 0 < w) (h1 : w < b) (hm : 0 < m)
    (hf : 0 ≤ f) (hvar : 0 < var)
    (h : IsMatchedSnr b w (stack m b σ (fun r c => downsampled N x f (r * b + c)) s) (Real.sqrt (m * var)) v) :
    0 ≤ v ∧ v ≤ Real.sqrt (f / var * ∑ i ∈ range N, x i ^ 2) := by
  have hm' : (0 : ℝ) < m := by exact_mod_cast hm
  have hstd : 0 < Real.sqrt (m * var) := Real.sqrt_pos.mpr (by positivity)
  refine ⟨matched_nonneg h0 h1 hstd h, (matched_le hstd h).trans ?_⟩
  rw [← Real.sqrt_div' _ (by positivity)]
  apply Real.sqrt_le_sqrt
  have e := stack_energy m b σ (fun r c => downsampled N x f (r * b + c)) s
  rw [sum_blocks (fun k => downsampled N x f k ^ 2)] at e
  have e2 := downsampled_energy N x hf (m * b)
  rw [div_le_iff₀ (by positivity)]
  have e3 : f / var * (∑ i ∈ range N, x i ^ 2) * (m * var) = m * (f * ∑ i ∈ range N, x i ^ 2) := by
    field_simp
  rw [e3]
  exact e.trans (mul_le_mul_of_nonneg_left e2 hm'.le)

end Verif.Lemmas
