import Verif.Lemmas.Downsample
import Mathlib.Tactic.NormNum

/-! # Property theorems for downsampling: C14, C15, C16 -/

namespace Verif.Props

open Verif.Model Verif.Spec Verif.Lemmas Finset

/-- C14. `ValueError` exactly for factors outside `1 < f ≤ N`; otherwise the call succeeds (no read or write outside
the arrays, no unwritten output) with `⌊N/f⌋` samples, each the integral of the data over its window. -/
theorem C14_downsample_integrates (x : List ℝ) (f : ℝ) :
    (downsampleBinding x f = .error .valueError ↔ ¬ (1 < f ∧ f ≤ x.length)) ∧
    (1 < f → f ≤ x.length → ∃ out, downsampleBinding x f = .ok out ∧ out.length = ⌊(x.length : ℝ) / f⌋₊ ∧
      ∀ (k : ℕ) (hk : k < out.length),
        out[k] = stepIntegral x.length (fun i => x.getD i 0) ((k : ℝ) * f) (((k : ℝ) + 1) * f)) := by
  constructor
  · constructor
    · intro h hc
      rw [downsampleBinding_ok x f hc] at h
      cases h
    · intro h
      unfold downsampleBinding
      simp only
      rw [if_pos (show ¬ DownsamplingFactorValid x.length f from h)]
  · intro h1 h2
    refine ⟨_, downsampleBinding_ok x f ⟨h1, h2⟩, by simp [downsampledSize], ?_⟩
    intro k hk
    simp only [List.getElem_map, List.getElem_range]
    congr 1
    ring

example : (1 : ℝ) < 2.5 ∧ (2.5 : ℝ) ≤ ([1, 2, 3, 4, 5, 6] : List ℝ).length := by norm_num

theorem list_map_range_sum (n : ℕ) (g : ℕ → ℝ) : ((List.range n).map g).sum = ∑ k ∈ range n, g k := by
  induction n with
  | zero => simp
  | succ n ih => rw [List.range_succ, Finset.sum_range_succ]; simp [ih]

theorem downsample_ok_inv {x : List ℝ} {f : ℝ} {out : List ℝ} (h : downsampleBinding x f = .ok out) :
    (1 < f ∧ f ≤ x.length) ∧ out = (List.range (downsampledSize x.length f)).map
      (fun k : ℕ => stepIntegral x.length (fun i => x.getD i 0) ((k : ℝ) * f) ((k : ℝ) * f + f)) := by
  have hv : 1 < f ∧ f ≤ x.length := by
    by_contra hc
    rw [(C14_downsample_integrates x f).1.mpr hc] at h
    cases h
  rw [downsampleBinding_ok x f hv] at h
  cases h
  exact ⟨hv, rfl⟩

/-- C15. The output sums to the integral of the data over the covered range. -/
theorem C15_flux_conserved (x : List ℝ) (f : ℝ) (out : List ℝ) (h : downsampleBinding x f = .ok out) :
    out.sum = stepIntegral x.length (fun i => x.getD i 0) 0 (out.length * f) := by
  obtain ⟨hv, rfl⟩ := downsample_ok_inv h
  rw [list_map_range_sum, stepIntegral_sum _ _ (by linarith [hv.1])]
  simp

/-- C15. A constant signal stays constant. -/
theorem C15_constant (N : ℕ) (c f : ℝ) (h1 : 1 < f) (h2 : f ≤ N) :
    downsampleBinding (List.replicate N c) f = .ok (List.replicate ⌊(N : ℝ) / f⌋₊ (c * f)) := by
  rw [downsampleBinding_ok _ f (by simpa using ⟨h1, h2⟩)]
  congr 1
  rw [List.eq_replicate_iff]
  refine ⟨by simp [downsampledSize], ?_⟩
  intro b hb
  simp only [List.length_replicate, List.mem_map, List.mem_range] at hb
  obtain ⟨k, hk, rfl⟩ := hb
  have hle := ds_le h1 hk
  unfold stepIntegral
  have : ∀ i ∈ range N, (List.replicate N c).getD i 0 * overlap i (k * f) (k * f + f) =
      c * overlap i (k * f) (k * f + f) := by
    intro i hi
    have hi' := mem_range.mp hi
    simp [List.getD, hi']
  rw [Finset.sum_congr rfl this, ← Finset.mul_sum, overlap_total N (by positivity) (by linarith) (by linarith)]
  ring

/-- The value of a window with integer end points. -/
theorem sum_overlap_int (N j k : ℕ) (h : j * k + k ≤ N) (g : ℕ → ℝ → ℝ) (hg : ∀ i, g i 0 = 0) :
    ∑ i ∈ range N, g i (overlap i ((j : ℝ) * (k : ℝ)) ((j : ℝ) * (k : ℝ) + k)) =
      ∑ t ∈ range k, g (j * k + t) 1 := by
  have e0 : ∑ i ∈ range N, g i (overlap i ((j : ℝ) * (k : ℝ)) ((j : ℝ) * (k : ℝ) + k)) =
      ∑ i ∈ Ico (j * k) (j * k + k), g i (overlap i ((j : ℝ) * (k : ℝ)) ((j : ℝ) * (k : ℝ) + k)) := by
    symm
    apply Finset.sum_subset
    · intro i hi
      rw [mem_Ico] at hi
      rw [mem_range]; omega
    · intro i _ hi
      rw [mem_Ico] at hi
      have : i < j * k ∨ j * k + k ≤ i := by omega
      rcases this with h | h
      · rw [overlap_left, hg]
        exact_mod_cast h
      · rw [overlap_right, hg]
        exact_mod_cast h
  rw [e0, Finset.sum_Ico_eq_sum_range, Nat.add_sub_cancel_left]
  apply Finset.sum_congr rfl
  intro t ht
  have ht' := mem_range.mp ht
  rw [overlap_inner]
  · push_cast
    have : (0 : ℝ) ≤ t := Nat.cast_nonneg t
    linarith
  · have : ((j * k + t + 1 : ℕ) : ℝ) ≤ ((j * k + k : ℕ) : ℝ) := by exact_mod_cast (by omega)
    push_cast at this ⊢
    linarith

theorem ds_int_le {N j k : ℕ} (hk : 2 ≤ k) (hj : j < downsampledSize N k) : j * k + k ≤ N := by
  have h1 : (1 : ℝ) < k := by exact_mod_cast (by omega : 1 < k)
  have := ds_le h1 hj
  have h2 : (((j + 1) * k : ℕ) : ℝ) ≤ N := by push_cast; exact this
  have h3 : (j + 1) * k ≤ N := by exact_mod_cast h2
  rw [Nat.succ_mul] at h3
  exact h3

/-- C15. For an integer factor `k` each output is the plain sum of `k` consecutive samples. -/
theorem C15_integer_factor (x : List ℝ) (k : ℕ) (hk : 2 ≤ k) (hk2 : k ≤ x.length) :
    ∃ out, downsampleBinding x k = .ok out ∧ out.length = x.length / k ∧
      ∀ (j : ℕ) (hj : j < out.length), out[j] = ∑ t ∈ range k, x.getD (j * k + t) 0 := by
  have h1 : (1 : ℝ) < k := by exact_mod_cast (by omega : 1 < k)
  refine ⟨_, downsampleBinding_ok x k ⟨h1, by exact_mod_cast hk2⟩, ?_, ?_⟩
  · simp only [List.length_map, List.length_range, downsampledSize]
    exact Nat.floor_div_eq_div x.length k
  · intro j hj
    simp only [List.length_map, List.length_range] at hj
    simp only [List.getElem_map, List.getElem_range]
    unfold stepIntegral
    rw [sum_overlap_int x.length j k (ds_int_le hk hj) (fun i o => x.getD i 0 * o) (by simp)]
    simp

/-- C15. Downsampling is linear in the data. -/
theorem C15_linear (x y : List ℝ) (hxy : x.length = y.length) (a b f : ℝ) (ox oy : List ℝ)
    (hx : downsampleBinding x f = .ok ox) (hy : downsampleBinding y f = .ok oy) :
    downsampleBinding (List.zipWith (fun u v => a * u + b * v) x y) f =
      .ok (List.zipWith (fun u v => a * u + b * v) ox oy) := by
  obtain ⟨hv, rfl⟩ := downsample_ok_inv hx
  obtain ⟨_, rfl⟩ := downsample_ok_inv hy
  have hlen : (List.zipWith (fun u v => a * u + b * v) x y).length = x.length := by simp [hxy]
  rw [downsampleBinding_ok _ f (by rw [hlen]; exact hv), hlen]
  congr 1
  rw [← hxy, List.zipWith_map, List.zipWith_self]
  apply List.map_congr_left
  intro k _
  unfold stepIntegral
  rw [Finset.mul_sum, Finset.mul_sum, ← Finset.sum_add_distrib]
  apply Finset.sum_congr rfl
  intro i hi
  have hi1 := mem_range.mp hi
  have hi2 : i < y.length := by omega
  simp [List.getD, hi1, hi2]
  ring

example : ∃ out, downsampleBinding [1, 2, 3, 4, 5] 2 = .ok out ∧ out.length = 2 := by
  obtain ⟨out, h, l, _⟩ := C15_integer_factor [1, 2, 3, 4, 5] 2 (by norm_num) (by simp)
  exact ⟨out, by exact_mod_cast h, by simpa using l⟩

/-! ## C16: the variance used for normalisation -/

theorem variance_int (N k : ℕ) : downsampledVariance N k = ((k : ℝ) - 1) ^ 2 + 1 := by
  unfold downsampledVariance
  simp

theorem noise_int (N j k : ℕ) (h : j * k + k ≤ N) :
    noiseVariance N ((j : ℝ) * (k : ℝ)) ((j : ℝ) * (k : ℝ) + k) = k := by
  unfold noiseVariance
  rw [sum_overlap_int N j k h (fun _ o => o ^ 2) (by simp)]
  simp

/-- C16 is false: for every integer factor `k ≥ 3` and every output sample, the variance used by the search,
`(k-1)² + 1`, is larger than the variance of the sample, `k`. -/
theorem C16_false (N k : ℕ) (hk : 3 ≤ k) (j : ℕ) (hj : j < downsampledSize N k) :
    noiseVariance N ((j : ℝ) * (k : ℝ)) ((j : ℝ) * (k : ℝ) + k) = k ∧
      downsampledVariance N k = ((k : ℝ) - 1) ^ 2 + 1 ∧ (k : ℝ) < ((k : ℝ) - 1) ^ 2 + 1 := by
  refine ⟨noise_int N j k (ds_int_le (by omega) hj), variance_int N k, ?_⟩
  have : (3 : ℝ) ≤ k := by exact_mod_cast hk
  nlinarith

/-- The witness `N = 9`, `f = 3`: the search divides by 5 instead of 3. -/
example : 0 < downsampledSize 9 ((3 : ℕ) : ℝ) ∧ noiseVariance 9 ((0 : ℕ) * ((3 : ℕ) : ℝ)) ((0 : ℕ) * ((3 : ℕ) : ℝ) + (3 : ℕ)) = 3 ∧
    downsampledVariance 9 ((3 : ℕ) : ℝ) = 5 := by
  have h : 0 < downsampledSize 9 ((3 : ℕ) : ℝ) := by
    unfold downsampledSize
    rw [Nat.floor_div_eq_div (K := ℝ) 9 3]
    norm_num
  obtain ⟨h1, h2, _⟩ := C16_false 9 3 (by norm_num) 0 h
  refine ⟨h, by rw [h1]; norm_num, by rw [h2]; norm_num⟩

/-- C16 holds for the factor 2 (of the integer factors, the only one). What is missing: `k ≥ 3`, where it is false. -/
theorem C16_partial (N : ℕ) (j : ℕ) (hj : j < downsampledSize N (2 : ℕ)) :
    noiseVariance N ((j : ℝ) * (2 : ℕ)) ((j : ℝ) * (2 : ℕ) + (2 : ℕ)) = downsampledVariance N (2 : ℕ) := by
  rw [noise_int N j 2 (ds_int_le (by omega) hj), variance_int]
  norm_num

/-- C16 for fractional factors: if the fractional part of `f`, multiplied by the number of output samples, exceeds 1, the
variance used by the search is within 1/3 of that of every output sample. -/
theorem C16_fractional_partial (N : ℕ) (f : ℝ) (h1 : 1 < f) (k : ℕ) (hk : k < downsampledSize N f)
    (hr : 1 < (downsampledSize N f : ℝ) * Int.fract f) :
    |noiseVariance N ((k : ℝ) * f) ((k : ℝ) * f + f) - downsampledVariance N f| ≤ 1 / 3 := by
  have hv : downsampledVariance N f = f - 1 / 3 := by
    unfold downsampledVariance
    simp only
    rw [if_pos (by unfold Int.fract at hr; exact hr)]
  obtain ⟨hpq, hq, b1, b2, a1, a2⟩ := ds_idx h1 (ds_le h1 hk)
  generalize ⌊min (⌊(k : ℝ) * f + f⌋ : ℝ) ((N : ℝ) - 1)⌋₊ = q at *
  generalize ⌊(k : ℝ) * f⌋₊ = p at *
  unfold noiseVariance
  rw [hv, sum_overlap N p q _ _ (fun _ o => o ^ 2) (by simp) hpq hq a1 a2 b1 b2]
  simp only [one_pow, sum_const, card_range, nsmul_eq_mul, mul_one]
  rw [Nat.cast_sub (by omega)]
  push_cast
  rw [abs_le]
  constructor
  · nlinarith [sq_nonneg ((p : ℝ) + 1 - k * f - 1 / 2), sq_nonneg ((k : ℝ) * f + f - q - 1 / 2)]
  · nlinarith [mul_nonneg (sub_nonneg.mpr a1) (sub_nonneg.mpr a2), mul_nonneg (sub_nonneg.mpr b1) (sub_nonneg.mpr b2)]

example : (1 : ℝ) < 2.5 ∧ 3 < downsampledSize 10 2.5 ∧ (1 : ℝ) < (downsampledSize 10 2.5 : ℝ) * Int.fract (2.5 : ℝ) := by
  have h : downsampledSize 10 2.5 = 4 := by
    unfold downsampledSize
    rw [Nat.floor_eq_iff (by norm_num)]
    norm_num
  have h2 : ⌊(2.5 : ℝ)⌋ = 2 := by rw [Int.floor_eq_iff]; norm_num
  rw [h]
  unfold Int.fract
  rw [h2]
  norm_num

end Verif.Props
