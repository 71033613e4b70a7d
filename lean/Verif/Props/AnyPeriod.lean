import Verif.Props.Noise
import Verif.Props.Profile

/-! # Sensitivity of the search to pulses of any period: property C95 -/

namespace Verif.Spec

open Finset

/-- A pulsed signal in samples of `tsamp` seconds: no sample is negative, and samples differ from zero only if they begin within `D`
seconds after one of the times `φ + k P`, `k` any integer. Pulses can have any shapes and strengths, and can be missing. -/
structure Pulsed (pulse : ℕ → ℝ) (tsamp P φ D : ℝ) : Prop where
  nonneg : ∀ n, 0 ≤ pulse n
  on : ∀ n, pulse n ≠ 0 → ∃ k : ℤ, φ + k * P ≤ n * tsamp ∧ n * tsamp ≤ φ + k * P + D

/-- Number of bins by which the fold of a trial can widen a pulse of a period in reach of the trial: 2 bins, 2 more with downsampling, and
`⌈log2 m⌉ - 1` (and a term of rounding that is below one for fewer than about 180000 rows) for the stepwise shifts. -/
noncomputable def smearing (t : Trial) : ℝ :=
  (if t.f = 1 then 2 else 4) + (1 + (t.m : ℝ) / 2 ^ 22) * ((Nat.clog 2 t.m : ℝ) - 1)

end Verif.Spec

namespace Verif.Props

open Verif.Model Verif.Spec Verif.Lemmas Finset MeasureTheory ProbabilityTheory

/-- The columns into which the fold puts samples with phases in an interval of `B` bins lie in a window. -/
theorem fold_window {b m w s : ℕ} {σ : ℕ → ℕ} {δ A B E : ℝ} (hb : 0 < b) (hm : 2 ≤ m) (h1 : (s : ℝ) ≤ (m - 1) * δ)
    (h2 : ((m : ℝ) - 1) * δ < s + 1) (h3 : δ ≤ 1) (hσ : ∀ r < m, |(σ r : ℝ) - s * r / ((m : ℝ) - 1)| ≤ E)
    (hL : B + 2 * E + 2 ≤ w) (hw : w < b) :
    ∃ φ < b, ∀ c < b, ∀ r < m, ∀ k : ℤ, A ≤ ((r * b + (c + σ r) % b : ℕ) : ℝ) * (1 - δ / b) - k * b →
      ((r * b + (c + σ r) % b : ℕ) : ℝ) * (1 - δ / b) - k * b ≤ A + B → InWindow b w φ c := by
  have hb0 : (0 : ℝ) < b := by exact_mod_cast hb
  have hbz : (0 : ℤ) < b := by exact_mod_cast hb
  have hm1 : (0 : ℝ) < (m : ℝ) - 1 := by
    have : (2 : ℝ) ≤ m := by exact_mod_cast hm
    linarith
  have hδ : 0 ≤ δ := by
    have : (0 : ℝ) ≤ s := Nat.cast_nonneg _
    by_contra hc
    push Not at hc
    nlinarith
  obtain ⟨x, hx⟩ : ∃ x : ℤ, x = ⌈A - E⌉ := ⟨_, rfl⟩
  have hx1 : A - E ≤ x := by rw [hx]; exact Int.le_ceil _
  refine ⟨(x % b).toNat, ?_, ?_⟩
  · have h := Int.emod_lt_of_pos x hbz
    have h' := Int.emod_nonneg x hbz.ne'
    omega
  intro c hc r hr k g1 g2
  have hr' : (r : ℝ) ≤ (m : ℝ) - 1 := by
    have : r + 1 ≤ m := hr
    have : ((r + 1 : ℕ) : ℝ) ≤ m := by exact_mod_cast this
    push_cast at this
    linarith
  have hr0 : (0 : ℝ) ≤ r := Nat.cast_nonneg _
  have hdev := abs_le.mp (hσ r hr)
  have hj : (((c + σ r) % b : ℕ) : ℝ) < b := by exact_mod_cast Nat.mod_lt _ hb
  have hj0 : (0 : ℝ) ≤ (((c + σ r) % b : ℕ) : ℝ) := Nat.cast_nonneg _
  have hdm : (((c + σ r) % b : ℕ) : ℝ) = c + σ r - b * ((c + σ r) / b : ℕ) := by
    have := Nat.div_add_mod (c + σ r) b
    have h2 : ((b * ((c + σ r) / b) + (c + σ r) % b : ℕ) : ℝ) = ((c + σ r : ℕ) : ℝ) := by rw [this]
    push_cast at h2
    linarith
  push_cast at g1 g2
  generalize hjj : (((c + σ r) % b : ℕ) : ℝ) = j at *
  generalize (c + σ r) / b = q at *
  -- the drift over the rows and within a row
  have hdr : 0 ≤ r * (δ - s / ((m : ℝ) - 1)) ∧ r * (δ - s / ((m : ℝ) - 1)) < 1 := by
    have e1 : 0 ≤ δ - s / ((m : ℝ) - 1) := by
      rw [sub_nonneg, div_le_iff₀ hm1]
      linarith
    have e2 : δ - s / ((m : ℝ) - 1) < 1 / ((m : ℝ) - 1) := by
      rw [sub_lt_iff_lt_add, ← add_div, lt_div_iff₀ hm1]
      linarith
    refine ⟨mul_nonneg hr0 e1, ?_⟩
    calc r * (δ - s / ((m : ℝ) - 1)) ≤ ((m : ℝ) - 1) * (δ - s / ((m : ℝ) - 1)) := mul_le_mul_of_nonneg_right hr' e1
      _ < ((m : ℝ) - 1) * (1 / ((m : ℝ) - 1)) := mul_lt_mul_of_pos_left e2 hm1
      _ = 1 := by field_simp
  have hin : 0 ≤ j * δ / b ∧ j * δ / b ≤ 1 := by
    refine ⟨by positivity, ?_⟩
    rw [div_le_one hb0]
    nlinarith
  have hph : ((r : ℝ) * b + j) * (1 - δ / b) - k * b =
      (c + ((r : ℤ) - q - k : ℤ) * b : ℝ) + ((σ r : ℝ) - s * r / ((m : ℝ) - 1)) - r * (δ - s / ((m : ℝ) - 1)) - j * δ / b := by
    have hσe : (σ r : ℝ) = j - c + b * q := by linarith
    rw [hσe]
    push_cast
    field_simp
    ring
  rw [hph] at g1 g2
  -- the integer `u = c + (r - q - k) b` lies in the window that begins at `x`
  obtain ⟨u, hu⟩ : ∃ u : ℤ, u = c + ((r : ℤ) - q - k) * b := ⟨_, rfl⟩
  have hur : (c + ((r : ℤ) - q - k : ℤ) * b : ℝ) = (u : ℝ) := by rw [hu]; push_cast; ring
  rw [hur] at g1 g2
  have l1 : x ≤ u := by
    rw [hx, Int.ceil_le]
    linarith [hdev.2, hdr.1, hin.1]
  have l2 : u < x + w := by
    have : (u : ℝ) < x + w := by linarith [hdev.1, hdr.2, hin.2]
    exact_mod_cast this
  unfold InWindow
  have hxm := Int.emod_lt_of_pos x hbz
  have hxm' := Int.emod_nonneg x hbz.ne'
  have hxd := Int.emod_add_mul_ediv x b
  have e : ((c + (b - (x % b).toNat) : ℕ) : ℤ) = (u - x) + b * (1 + x / b - ((r : ℤ) - q - k)) := by
    have : (((b - (x % b).toNat : ℕ)) : ℤ) = b - x % b := by omega
    push_cast [this]
    rw [hu]
    linear_combination -hxd
  have e2 : ((c + (b - (x % b).toNat) : ℕ) : ℤ) % b = u - x := by
    rw [e, Int.add_mul_emod_self_left]
    exact Int.emod_eq_of_lt (by omega) (by omega)
  have e3 : (((c + (b - (x % b).toNat)) % b : ℕ) : ℤ) = u - x := by rw [← e2]; push_cast; rfl
  omega

/-- S/N of a profile whose signal lies in a window of the width of the boxcar. -/
theorem matched_confined {n w φ : ℕ} {x y : ℕ → ℝ} {c0 std v : ℝ} (h0 : 0 < w) (h1 : w < n) (hφ : φ < n)
    (hx : ∀ c < n, x c ≠ 0 → InWindow n w φ c) (hy : ∀ c < n, y c = c0 + x c) (h : IsMatchedSnr n w y std v) :
    Real.sqrt (((n : ℝ) - w) / (n * w)) * (∑ c ∈ range n, x c) / std ≤ v := by
  classical
  obtain ⟨t, ht⟩ := boxcar_exists h0 h1 hφ
  have e := h.2 φ hφ t ht
  refine le_trans (le_of_eq ?_) e
  have hz : ∑ i ∈ range n, t i = 0 := by obtain ⟨_, _, _, _, hz, _⟩ := ht; exact hz
  have e1 : ∑ i ∈ range n, y i * t i = ∑ i ∈ range n, x i * t i := by
    rw [sum_congr rfl (fun i hi => by rw [hy i (mem_range.mp hi), add_mul]), sum_add_distrib, ← mul_sum, hz, mul_zero, zero_add]
  have e2 : winSum n w x φ = ∑ i ∈ range n, x i := by
    rw [← inWindow_sum n w φ h1.le hφ]
    refine sum_congr rfl (fun i hi => ?_)
    split_ifs with hc
    · rfl
    · by_contra hne
      exact hc (hx i (mem_range.mp hi) (fun h => hne h.symm))
  rw [e1, boxcar_dot h0 h1 hφ ht, e2]
  unfold boxH
  ring

theorem downsampled_shift {N q : ℕ} {f base : ℝ} {x y : ℕ → ℝ} (hf : 0 ≤ f) (hq : ((q : ℝ) + 1) * f ≤ N)
    (hy : ∀ n < N, y n = base + x n) : downsampled N y f q = base * f + downsampled N x f q := by
  unfold downsampled stepIntegral
  have : ∑ i ∈ range N, overlap i ((q : ℝ) * f) (((q : ℝ) + 1) * f) = f := by
    rw [overlap_total N (by positivity) (by nlinarith) hq]
    ring
  rw [sum_congr rfl (fun i hi => by rw [hy i (mem_range.mp hi), add_mul]), sum_add_distrib, ← mul_sum, this]

/-- A downsampled sample contains part of a pulse only if it begins near the pulse. -/
theorem downsampled_on {N q : ℕ} {f tsamp P φ D : ℝ} {x : ℕ → ℝ} (ht : 0 < tsamp) (hp : Pulsed x tsamp P φ D)
    (h : downsampled N x f q ≠ 0) :
    ∃ k : ℤ, φ - f * tsamp ≤ q * (f * tsamp) - k * P ∧ q * (f * tsamp) - k * P ≤ φ + D + tsamp := by
  unfold downsampled stepIntegral at h
  obtain ⟨i, hi, hne⟩ := exists_ne_zero_of_sum_ne_zero h
  have hx : x i ≠ 0 := left_ne_zero_of_mul hne
  have ho : overlap i ((q : ℝ) * f) (((q : ℝ) + 1) * f) ≠ 0 := right_ne_zero_of_mul hne
  have a1 : (q : ℝ) * f < i + 1 := by
    by_contra hc
    push Not at hc
    exact ho (overlap_left hc)
  have a2 : (i : ℝ) < ((q : ℝ) + 1) * f := by
    by_contra hc
    push Not at hc
    exact ho (overlap_right hc)
  obtain ⟨k, g1, g2⟩ := hp.on i hx
  refine ⟨k, ?_, ?_⟩
  · have := mul_lt_mul_of_pos_right a2 ht
    nlinarith
  · have := mul_lt_mul_of_pos_right a1 ht
    nlinarith

/-- The total of the folded pulses. -/
theorem pulse_total {N m b K : ℕ} {f : ℝ} {x : ℕ → ℝ} (hf : 0 < f) (hx : ∀ n, 0 ≤ x n) (hK : (K : ℝ) ≤ ((m * b : ℕ) : ℝ) * f) (hKN : K ≤ N) :
    ∑ n ∈ range K, x n ≤ ∑ r ∈ range m, ∑ c ∈ range b, downsampled N x f (r * b + c) := by
  rw [sum_blocks (fun q => downsampled N x f q) b m]
  have e : ∀ k : ℕ, downsampled N x f k = stepIntegral N x ((k : ℝ) * f) ((k : ℝ) * f + f) := fun k => by unfold downsampled; congr 1; ring
  rw [sum_congr rfl (fun k _ => e k), stepIntegral_sum N _ hf.le]
  unfold stepIntegral
  refine le_trans ?_ (sum_le_sum_of_subset_of_nonneg (range_mono hKN) (fun i _ _ => mul_nonneg (hx i) (overlap_nonneg _ _ _)))
  apply le_of_eq
  refine sum_congr rfl (fun i hi => ?_)
  have hi' : ((i + 1 : ℕ) : ℝ) ≤ K := by exact_mod_cast mem_range.mp hi
  push_cast at hi'
  rw [overlap_inner (Nat.cast_nonneg _) (by linarith), mul_one]

theorem rows_fit {N m b : ℕ} {f : ℝ} (hf : 0 < f) (h : m = ⌊(N : ℝ) / f⌋₊ / b) : ((m * b : ℕ) : ℝ) * f ≤ N := by
  have h1 : m * b ≤ ⌊(N : ℝ) / f⌋₊ := by rw [h]; exact Nat.div_mul_le_self _ _
  have h2 : ((m * b : ℕ) : ℝ) ≤ (N : ℝ) / f := by
    refine le_trans ?_ (Nat.floor_le (by positivity : (0 : ℝ) ≤ (N : ℝ) / f))
    exact_mod_cast h1
  rwa [le_div_iff₀ hf] at h2

/-- The fold leaves out less than one period and one downsampled sample. -/
theorem rows_reach {N m b K : ℕ} {f tsamp P : ℝ} (hf : 0 < f) (ht : 0 < tsamp) (hb : 0 < b) (h : m = ⌊(N : ℝ) / f⌋₊ / b)
    (hP : b * (f * tsamp) ≤ P) (hK : K * tsamp + P + f * tsamp ≤ N * tsamp) : (K : ℝ) ≤ ((m * b : ℕ) : ℝ) * f := by
  have h1 : (N : ℝ) / f < ⌊(N : ℝ) / f⌋₊ + 1 := Nat.lt_floor_add_one _
  have h2 : ⌊(N : ℝ) / f⌋₊ < m * b + b := by
    rw [h]
    have := Nat.div_add_mod ⌊(N : ℝ) / f⌋₊ b
    have := Nat.mod_lt ⌊(N : ℝ) / f⌋₊ hb
    have : ⌊(N : ℝ) / f⌋₊ / b * b = b * (⌊(N : ℝ) / f⌋₊ / b) := Nat.mul_comm _ _
    omega
  have h3 : ((⌊(N : ℝ) / f⌋₊ + 1 : ℕ) : ℝ) ≤ ((m * b + b : ℕ) : ℝ) := by exact_mod_cast h2
  push_cast at h3
  rw [div_lt_iff₀ hf] at h1
  have h4 : (N : ℝ) * tsamp < (⌊(N : ℝ) / f⌋₊ + 1) * f * tsamp := mul_lt_mul_of_pos_right h1 ht
  have h5 : ((⌊(N : ℝ) / f⌋₊ : ℝ) + 1) * (f * tsamp) ≤ (m * b + b) * (f * tsamp) := mul_le_mul_of_nonneg_right h3 (by positivity)
  have h7 : (K : ℝ) * tsamp ≤ ((m * b : ℕ) : ℝ) * f * tsamp := by
    push_cast
    have : 0 < f * tsamp := by positivity
    linarith
  exact le_of_mul_le_mul_right h7 ht

theorem radiometer {N m b w : ℕ} {f var : ℝ} (hvar : 0 < var) (hvf : var ≤ f) (hm : 0 < m) (h0 : 0 < w) (h1 : w < b)
    (hN : ((m * b : ℕ) : ℝ) * f ≤ N) :
    Real.sqrt (((b : ℝ) - w) / w) / Real.sqrt N ≤ Real.sqrt (((b : ℝ) - w) / (b * w)) / Real.sqrt (m * var) := by
  have hm0 : (0 : ℝ) < m := by exact_mod_cast hm
  have hw0 : (0 : ℝ) < w := by exact_mod_cast h0
  have hb0 : (0 : ℝ) < b := by exact_mod_cast (by omega : 0 < b)
  have hwb : (0 : ℝ) < (b : ℝ) - w := by
    have : (w : ℝ) < b := by exact_mod_cast h1
    linarith
  rw [← Real.sqrt_div (by positivity), ← Real.sqrt_div (by positivity)]
  apply Real.sqrt_le_sqrt
  rw [div_div, div_div]
  apply div_le_div_of_nonneg_left hwb.le (by positivity)
  have : m * var * b ≤ N := by
    refine le_trans ?_ hN
    push_cast
    have : m * var * b = m * b * var := by ring
    rw [this]
    exact mul_le_mul_of_nonneg_left hvf (by positivity)
  calc b * w * (m * var) = w * (m * var * b) := by ring
    _ ≤ w * N := mul_le_mul_of_nonneg_left this hw0.le

/-- The drift `δ` of the signal in bins per row, for a period within one step of the trial. -/
theorem drift_facts {m b s : ℕ} {τ P p δ : ℝ} (hτ : 0 < τ) (hP : 0 < P) (hb : 0 < b) (hm : 2 ≤ m) (hp0 : 0 < p)
    (hδ : δ = b - b * b * τ / P) (hfr : 1 / p = 1 / (τ * b) - s * (1 / (τ * b ^ 2 * ((m : ℝ) - 1)))) (hle : p ≤ P)
    (hst : 1 / p - 1 / P < 1 / (τ * b ^ 2 * ((m : ℝ) - 1))) (hlt : P < ((b : ℝ) + 1) * τ) :
    (s : ℝ) ≤ ((m : ℝ) - 1) * δ ∧ ((m : ℝ) - 1) * δ < s + 1 ∧ δ ≤ 1 ∧ b * τ / P = 1 - δ / b ∧ b * τ / P ≤ 1 := by
  have hb0 : (0 : ℝ) < b := by exact_mod_cast hb
  have hmR : (2 : ℝ) ≤ m := by exact_mod_cast hm
  have hm1 : (0 : ℝ) < (m : ℝ) - 1 := by linarith
  have hPinv : 1 / P = 1 / (τ * b) - (((m : ℝ) - 1) * δ) * (1 / (τ * b ^ 2 * ((m : ℝ) - 1))) := by
    rw [hδ]
    field_simp
    ring
  have hCi : 0 < 1 / (τ * b ^ 2 * ((m : ℝ) - 1)) := by positivity
  have d1 : (s : ℝ) ≤ ((m : ℝ) - 1) * δ := by
    have := one_div_le_one_div_of_le hp0 hle
    rw [hPinv, hfr] at this
    exact le_of_mul_le_mul_right (by linarith) hCi
  have d2 : ((m : ℝ) - 1) * δ < s + 1 := by
    rw [hPinv, hfr] at hst
    exact lt_of_mul_lt_mul_right (by linarith) hCi.le
  have d3 : δ ≤ 1 := by
    have : (b : ℝ) - 1 ≤ b * b * τ / P := by
      rw [le_div_iff₀ hP]
      have hb1 : (1 : ℝ) ≤ b := by exact_mod_cast hb
      have := mul_le_mul_of_nonneg_left hlt.le (by linarith : (0 : ℝ) ≤ (b : ℝ) - 1)
      nlinarith
    linarith
  have d4 : b * τ / P = 1 - δ / b := by
    rw [hδ]
    field_simp
    ring
  refine ⟨d1, d2, d3, d4, ?_⟩
  rw [d4]
  have hδ0 : 0 ≤ δ := by
    have : (0 : ℝ) ≤ s := Nat.cast_nonneg _
    by_contra hc
    push Not at hc
    nlinarith
  have : 0 ≤ δ / b := by positivity
  linarith

/-- One trial: pulses of a period within one step of the trial. -/
theorem trial_pulses {idx : IdxRule} {N : ℕ} {t : Trial} {tsamp pmin P p φ D base : ℝ} {bmin bmax w : ℕ} {x pulse : ℕ → ℝ} {v : ℝ}
    (hok : t.OK N tsamp pmin bmin bmax) (hf : 1 ≤ t.f) (ht : 0 < tsamp) (hP : 0 < P) (hb2 : 2 ≤ bmin)
    (hp0 : 0 < p) (hfr : 1 / p = t.freq tsamp) (hle : p ≤ P) (hst : 1 / p - 1 / P < t.step tsamp)
    (hlt : P < ((t.b : ℝ) + 1) * (t.f * tsamp))
    (hσ : ∀ s < t.m, ∀ i < t.m, |(sigma idx t.m s i : ℚ) - (s : ℚ) * i / ((t.m : ℚ) - 1)| ≤
          (1 / 2 + (t.m : ℚ) / 2 ^ 23) * ((Nat.clog 2 t.m : ℚ) - 1))
    (hvar : 0 < downsampledVariance N t.f) (h0 : 0 < w) (h1 : w < t.b)
    (hpul : Pulsed pulse tsamp P φ D) (hx : ∀ n < N, x n = base + pulse n) (hw : D / P * t.b + smearing t ≤ w)
    (hmat : IsMatchedSnr t.b w (stack t.m t.b (sigma idx t.m) (fun r c => downsampled N x t.f (r * t.b + c)) t.s)
      (Real.sqrt (t.m * downsampledVariance N t.f)) v) {K : ℕ} (hK : K * tsamp + P + t.f * tsamp ≤ N * tsamp) :
    (∑ n ∈ range K, pulse n) * Real.sqrt (((t.b : ℝ) - w) / (t.b * w)) / Real.sqrt (t.m * downsampledVariance N t.f) ≤ v ∧
    (downsampledVariance N t.f ≤ t.f → (∑ n ∈ range K, pulse n) * Real.sqrt (((t.b : ℝ) - w) / w) / Real.sqrt N ≤ v) := by
  obtain ⟨f, b, m, s⟩ := t
  simp only at *
  have hbm := hok.bins.1
  have hrows := hok.rows
  have hm2 := hok.two
  have hsm := hok.shift
  simp only at hbm hrows hm2 hsm
  have hb : 2 ≤ b := by omega
  have hb0 : (0 : ℝ) < b := by exact_mod_cast (by omega : 0 < b)
  have hf0 : 0 < f := by linarith
  have hmR : (2 : ℝ) ≤ m := by exact_mod_cast hm2
  have hm1 : (0 : ℝ) < (m : ℝ) - 1 := by linarith
  have hτ : 0 < f * tsamp := by positivity
  -- the drift
  obtain ⟨δ, hδ⟩ : ∃ δ : ℝ, δ = b - b * b * (f * tsamp) / P := ⟨_, rfl⟩
  obtain ⟨d1, d2, d3, d4, d5⟩ := drift_facts hτ hP (by omega) hm2 hp0 hδ hfr hle hst hlt
  have hmbN := rows_fit hf0 hrows
  -- the window
  have hσ' : ∀ r < m, |(sigma idx m s r : ℝ) - s * r / ((m : ℝ) - 1)| ≤
      (1 / 2 + (m : ℝ) / 2 ^ 23) * ((Nat.clog 2 m : ℝ) - 1) := by
    intro r hr
    have h2 : (((|(sigma idx m s r : ℚ) - (s : ℚ) * r / ((m : ℚ) - 1)| : ℚ)) : ℝ) ≤
        (((1 / 2 + (m : ℚ) / 2 ^ 23) * ((Nat.clog 2 m : ℚ) - 1) : ℚ) : ℝ) := by exact_mod_cast hσ s hsm r hr
    push_cast at h2
    exact h2
  obtain ⟨g, hg, hgB⟩ : ∃ g h : ℝ, (∀ q : ℕ, downsampled N pulse f q ≠ 0 → q < m * b → ∃ k : ℤ,
      φ - g ≤ q * (f * tsamp) - k * P ∧ q * (f * tsamp) - k * P ≤ φ + D + h) ∧
      b / P * (g + h) ≤ (if f = 1 then 2 else 4) - 2 := by
    by_cases h : f = 1
    · refine ⟨0, 0, ?_, by simp [h]⟩
      intro q hq hqm
      subst h
      have hqN : q < N := by
        rw [mul_one] at hmbN
        have : m * b ≤ N := by exact_mod_cast hmbN
        omega
      rw [window_int N pulse q hqN] at hq
      obtain ⟨k, e1, e2⟩ := hpul.on q hq
      exact ⟨k, by linarith, by linarith⟩
    · refine ⟨f * tsamp, tsamp, fun q hq _ => downsampled_on ht hpul hq, ?_⟩
      rw [if_neg h]
      have e : b / P * (f * tsamp + tsamp) ≤ 2 * (b * (f * tsamp) / P) := by
        have : b / P * tsamp ≤ b / P * (f * tsamp) := by
          apply mul_le_mul_of_nonneg_left _ (by positivity)
          nlinarith
        have e2 : b * (f * tsamp) / P = b / P * (f * tsamp) := by ring
        rw [e2]
        linarith
      linarith
  obtain ⟨hgg, hgB⟩ := hgB
  have hsmear : b / P * (D + g + hg) + 2 * ((1 / 2 + (m : ℝ) / 2 ^ 23) * ((Nat.clog 2 m : ℝ) - 1)) + 2 ≤ w := by
    refine le_trans ?_ hw
    unfold smearing
    simp only
    have e : b / P * (D + g + hg) = D / P * b + b / P * (g + hg) := by ring
    have e2 : (1 + (m : ℝ) / 2 ^ 22) = 2 * (1 / 2 + (m : ℝ) / 2 ^ 23) := by ring
    rw [e, e2]
    linarith
  obtain ⟨φ0, hφ0, hwin⟩ := fold_window (A := b / P * (φ - g)) (by omega : 0 < b) hm2 d1 d2 d3 hσ' hsmear h1
  have hidx : ∀ r < m, ∀ c, r * b + (c + sigma idx m s r) % b < m * b := by
    intro r hr c
    have a1 : (c + sigma idx m s r) % b < b := Nat.mod_lt _ (by omega)
    have a2 : (r + 1) * b ≤ m * b := Nat.mul_le_mul_right _ hr
    rw [Nat.succ_mul] at a2
    omega
  -- the S/N
  have key := matched_confined (x := stack m b (sigma idx m) (fun r c => downsampled N pulse f (r * b + c)) s)
    (c0 := m * (base * f)) h0 h1 hφ0 ?_ ?_ hmat
  · rw [stack_sum] at key
    have hKm := rows_reach hf0 ht (by omega : 0 < b) hrows ((div_le_one hP).mp d5) hK
    have hKN : K ≤ N := by
      have : (K : ℝ) ≤ N := hKm.trans hmbN
      exact_mod_cast this
    have htot := pulse_total (N := N) (m := m) (b := b) hf0 hpul.nonneg hKm hKN
    have hstd : 0 < Real.sqrt (m * downsampledVariance N f) := Real.sqrt_pos.mpr (mul_pos (by linarith) hvar)
    have hmain : (∑ n ∈ range K, pulse n) * Real.sqrt (((b : ℝ) - w) / (b * w)) / Real.sqrt (m * downsampledVariance N f) ≤ v := by
      refine le_trans (div_le_div_of_nonneg_right ?_ hstd.le) key
      rw [mul_comm]
      exact mul_le_mul_of_nonneg_left htot (Real.sqrt_nonneg _)
    refine ⟨hmain, fun hvf => le_trans ?_ hmain⟩
    have hG : 0 ≤ ∑ n ∈ range K, pulse n := sum_nonneg (fun n _ => hpul.nonneg n)
    rw [mul_div_assoc, mul_div_assoc]
    exact mul_le_mul_of_nonneg_left (radiometer hvar hvf (by omega) h0 h1 hmbN) hG
  · intro c hc hne
    unfold stack at hne
    obtain ⟨r, hr, hd⟩ := exists_ne_zero_of_sum_ne_zero hne
    have hr' := mem_range.mp hr
    obtain ⟨k, e1, e2⟩ := hgg _ hd (hidx r hr' c)
    have hconv : ((r * b + (c + sigma idx m s r) % b : ℕ) : ℝ) * (1 - δ / b) - k * b =
        b / P * (((r * b + (c + sigma idx m s r) % b : ℕ) : ℝ) * (f * tsamp) - k * P) := by
      rw [← d4]
      field_simp
    have hbP : 0 ≤ b / P := by positivity
    refine hwin c hc r hr' k ?_ ?_
    · rw [hconv]
      exact mul_le_mul_of_nonneg_left e1 hbP
    · rw [hconv]
      refine (mul_le_mul_of_nonneg_left e2 hbP).trans (le_of_eq ?_)
      ring
  · intro c hc
    unfold stack
    have hd : ∀ r ∈ range m, downsampled N x f (r * b + (c + sigma idx m s r) % b) =
        base * f + downsampled N pulse f (r * b + (c + sigma idx m s r) % b) := by
      intro r hr
      apply downsampled_shift hf0.le _ hx
      refine le_trans (mul_le_mul_of_nonneg_right ?_ hf0.le) hmbN
      exact_mod_cast hidx r (mem_range.mp hr) c
    rw [sum_congr rfl hd, sum_add_distrib, sum_const, card_range, nsmul_eq_mul]

/-- C95. Pulses of any period. Let the samples be a constant plus pulses that come with any period `P` of the searched range and last at most `D`.
Then the search has a trial with a period at most `P`, less than one frequency step from `P`, such that for each boxcar width `w` of at least
`(D/P) b + smearing` bins of the `b` of this trial, the S/N is at least `G √((b - w)/(b w)) / √(m var)`. Here `G` is the total of the pulses (in all
samples but those of the last period and the last downsampled sample), and `√(m var)` the noise level that the code assigns to the profile. Unless
the assigned noise variance is too large (C16), the S/N is at least `(G/√N) √((1 - d)/d)` with `d = w/b`. -/
theorem C95_any_period (idx : IdxRule) (data : List ℝ) (tsamp : ℝ) (widths : List ℕ) (hne : widths ≠ [])
    (pmin pmax : ℝ) (bmin bmax : ℕ) (hidx : IdxFor idx (data.length / bmin)) (hN : data.length ≤ 2 ^ 64)
    (hw : ∀ w ∈ widths, 0 < w ∧ w < bmin)
    (hv : PgArgs.Valid ⟨data.length, tsamp, pmin, pmax, bmin, bmax⟩) (h2 : 2 * pmax ≤ data.length * tsamp)
    (P φ D base : ℝ) (hP1 : pmin ≤ P) (hP2 : P < pmax) (pulse : ℕ → ℝ) (hp : Pulsed pulse tsamp P φ D)
    (hdata : ∀ n < data.length, data.getD n 0 = base + pulse n) :
    ∃ (per : List ℝ) (fb : List ℕ) (snr : List (List ℝ)) (j : ℕ) (p : ℝ) (row : List ℝ) (t : Trial),
      periodogramBinding idx data tsamp widths pmin pmax bmin bmax = .ok (per, fb, snr) ∧
      per[j]? = some p ∧ fb[j]? = some t.b ∧ snr[j]? = some row ∧ t.OK data.length tsamp pmin bmin bmax ∧ 1 ≤ t.f ∧
      1 / p = t.freq tsamp ∧ 0 < p ∧ p ≤ P ∧ 1 / p - 1 / P < t.step tsamp ∧
      ∀ (k w : ℕ), widths[k]? = some w → D / P * t.b + smearing t ≤ w → ∃ v, row[k]? = some v ∧
        ∀ K : ℕ, K * tsamp + P + t.f * tsamp ≤ data.length * tsamp →
          (∑ n ∈ range K, pulse n) * Real.sqrt (((t.b : ℝ) - w) / (t.b * w)) /
            Real.sqrt (t.m * downsampledVariance data.length t.f) ≤ v ∧
          (downsampledVariance data.length t.f ≤ t.f →
            (∑ n ∈ range K, pulse n) * Real.sqrt (((t.b : ℝ) - w) / w) / Real.sqrt data.length ≤ v) := by
  obtain ⟨per, fb, snr, _, e, _⟩ := C19_no_holes idx data tsamp widths hne pmin pmax bmin bmax hidx hv h2
  obtain ⟨lab, hlab, l1, l2, l3, key⟩ := search_entries idx data tsamp widths hne pmin pmax bmin bmax hidx hN hw per fb snr e
  obtain ⟨t0, ht0, g1, g2, g3⟩ := cover hv h2 P hP1 hP2
  obtain ⟨j, hj, rfl⟩ := List.getElem_of_mem ht0
  have hj4 : j < lab.length := by rw [hlab, List.length_map]; exact hj
  have hj1 : j < per.length := by omega
  have hj2 : j < fb.length := by omega
  have hj3 : j < snr.length := by omega
  obtain ⟨hok, hfb, hfr, _, hdev, hvar, hf, hsn⟩ := key j hj1 hj2 hj3 hj4
  have hle : lab[j] = labelOf ⟨data.length, tsamp, pmin, pmax, bmin, bmax⟩ (trials ⟨data.length, tsamp, pmin, pmax, bmin, bmax⟩)[j] := by
    simp only [hlab, List.getElem_map]
  have hfr2 := label_freq hv ht0
  rw [← hle] at hfr2 g2 g3
  have hpe : per[j] = perOf ⟨data.length, tsamp, pmin, pmax, bmin, bmax⟩ (trials ⟨data.length, tsamp, pmin, pmax, bmin, bmax⟩)[j] := by
    have h3 := hfr.trans hfr2.symm
    simpa using h3
  have hp0 : 0 < per[j] := by rw [hpe]; exact perOf_pos hv ht0
  rw [← hpe] at g1 g2
  have hts : 0 < tsamp := hv.1
  have hP0 : 0 < P := hp0.trans_le g1
  have hb2 : 2 ≤ bmin := hv.2.2.2.1
  refine ⟨per, fb, snr, j, per[j], snr[j], lab[j], e, List.getElem?_eq_getElem _, ?_, List.getElem?_eq_getElem _, hok, hf, hfr, hp0, g1, g2, ?_⟩
  · rw [List.getElem?_eq_getElem hj2, hfb]
  intro k w hkw hwide
  obtain ⟨hk, hkw'⟩ := List.getElem?_eq_some_iff.mp hkw
  obtain ⟨v, ev, hmat⟩ := hsn k hk
  rw [hkw'] at hmat
  obtain ⟨w0, w1⟩ := hw w (by rw [← hkw']; exact List.getElem_mem hk)
  exact ⟨v, ev, fun K hK => trial_pulses hok hf hts hP0 hb2 hp0 hfr g1 g2 g3 hdev hvar w0 (w1.trans_le hok.bins.1) hp hdata hwide hmat hK⟩

/-- C95, in noise: if independent noise of at most unit standard deviation is added (C88), the S/N at the same place in the output falls short of the
bound by `t` or more with probability at most `exp(-t²/4)`; without downsampling, where the bound is `(G/√N) √((1 - d)/d)`, at most `exp(-t²/2)`. -/
theorem C95_in_noise (idx : IdxRule) (data : List ℝ) (tsamp : ℝ) (widths : List ℕ) (hne : widths ≠ [])
    (pmin pmax : ℝ) (bmin bmax : ℕ) (hidx : IdxFor idx (data.length / bmin)) (hN : data.length ≤ 2 ^ 64)
    (hw : ∀ w ∈ widths, 0 < w ∧ w < bmin)
    (hv : PgArgs.Valid ⟨data.length, tsamp, pmin, pmax, bmin, bmax⟩) (h2 : 2 * pmax ≤ data.length * tsamp)
    (P φ D base : ℝ) (hP1 : pmin ≤ P) (hP2 : P < pmax) (pulse : ℕ → ℝ) (hp : Pulsed pulse tsamp P φ D)
    (hdata : ∀ n < data.length, data.getD n 0 = base + pulse n)
    {Ω : Type*} [MeasurableSpace Ω] (μ : Measure Ω) [IsProbabilityMeasure μ] (ξ : ℕ → Ω → ℝ) (hind : iIndepFun ξ μ)
    (hsub : ∀ i, HasSubgaussianMGF (ξ i) 1 μ) (X : Ω → List ℝ) (hlen : ∀ ω, (X ω).length = data.length)
    (hX : ∀ ω, ∀ i < data.length, (X ω).getD i 0 = data.getD i 0 + ξ i ω) :
    ∃ (per : List ℝ) (fb : List ℕ) (S : Ω → List (List ℝ)) (j : ℕ) (p : ℝ) (t : Trial),
      (∀ ω, periodogramBinding idx (X ω) tsamp widths pmin pmax bmin bmax = .ok (per, fb, S ω)) ∧
      per[j]? = some p ∧ fb[j]? = some t.b ∧ t.OK data.length tsamp pmin bmin bmax ∧
      1 / p = t.freq tsamp ∧ p ≤ P ∧ 1 / p - 1 / P < t.step tsamp ∧
      (pmin = tsamp * bmin → P < tsamp * (bmax + 1) → t.f = 1) ∧
      ∀ (k w : ℕ), widths[k]? = some w → D / P * t.b + smearing t ≤ w →
        ∃ V : Ω → ℝ, (∀ ω, (S ω)[j]?.bind (·[k]?) = some (V ω)) ∧
        ∀ K : ℕ, K * tsamp + P + t.f * tsamp ≤ data.length * tsamp → ∀ x, 0 ≤ x →
          μ.real {ω | V ω ≤ (∑ n ∈ range K, pulse n) * Real.sqrt (((t.b : ℝ) - w) / (t.b * w)) /
            Real.sqrt (t.m * downsampledVariance data.length t.f) - x} ≤ Real.exp (-x ^ 2 / 4) ∧
          (pmin = tsamp * bmin → P < tsamp * (bmax + 1) →
            μ.real {ω | V ω ≤ (∑ n ∈ range K, pulse n) * Real.sqrt (((t.b : ℝ) - w) / w) / Real.sqrt data.length - x} ≤
              Real.exp (-x ^ 2 / 2)) := by
  obtain ⟨per, fb, snr, j, p, row, t, e, e1, e2, e3, hok, hf, hfr, hp0, hle, hst, key⟩ :=
    C95_any_period idx data tsamp widths hne pmin pmax bmin bmax hidx hN hw hv h2 P φ D base hP1 hP2 pulse hp hdata
  obtain ⟨S, hS, hn⟩ := C88_noise idx data tsamp widths hne pmin pmax bmin bmax hidx hN hw per fb snr e μ ξ hind hsub X hlen hX
  obtain ⟨hj, _⟩ := List.getElem?_eq_some_iff.mp e1
  have hb2 : 2 ≤ bmin := hv.2.2.2.1
  refine ⟨per, fb, S, j, p, t, hS, e1, e2, hok, hfr, hle, hst, ?_, ?_⟩
  · intro hpm hPl
    exact first_stage hok hf hv.1 (by omega) hp0 hfr hpm (by linarith)
  intro k w hkw hwide
  obtain ⟨hk, _⟩ := List.getElem?_eq_some_iff.mp hkw
  obtain ⟨v, ev, hlow⟩ := key k w hkw hwide
  obtain ⟨p', v', b', V, c1, c2, c3, c4, c5⟩ := hn j k hj hk
  rw [e1] at c1
  cases c1
  rw [e3, Option.bind_some, ev] at c3
  cases c3
  refine ⟨V, c4, ?_⟩
  intro K hK x hx
  obtain ⟨q1, q2⟩ := hlow K hK
  obtain ⟨n1, _, n3⟩ := c5 x hx
  constructor
  · refine (measureReal_mono ?_ (measure_ne_top _ _)).trans n1
    intro ω hω
    simp only [Set.mem_ofPred_eq] at hω ⊢
    linarith
  · intro hpm hPl
    have hf1 := first_stage hok hf hv.1 (by omega) hp0 hfr hpm (by linarith)
    refine (measureReal_mono ?_ (measure_ne_top _ _)).trans (n3 hpm (by linarith)).1
    intro ω hω
    simp only [Set.mem_ofPred_eq] at hω ⊢
    have := q2 (by rw [hf1, variance_one])
    linarith

/-- A pulse of height 10 every 100/3 samples, 3 or 4 samples long. -/
theorem pulsed_example : Pulsed (fun n => if 3 * n % 100 ≤ 9 then 10 else 0) 1 (100 / 3) 0 3 := by
  refine ⟨fun n => by split_ifs <;> norm_num, fun n hn => ?_⟩
  have h : 3 * n % 100 ≤ 9 := by
    by_contra hc
    simp [hc] at hn
  refine ⟨(3 * n / 100 : ℕ), ?_⟩
  have e := Nat.div_add_mod (3 * n) 100
  have e' : (100 : ℝ) * (3 * n / 100 : ℕ) + (3 * n % 100 : ℕ) = 3 * n := by exact_mod_cast e
  have h' : ((3 * n % 100 : ℕ) : ℝ) ≤ 9 := by exact_mod_cast h
  have h0 : (0 : ℝ) ≤ ((3 * n % 100 : ℕ) : ℝ) := Nat.cast_nonneg _
  rw [Int.cast_natCast]
  constructor <;> linarith

/-- Non-vacuity: these pulses in 1000 samples of normal noise, for which the search from 32 to 40 samples has an S/N above 30 except with
probability `exp(-50)`. -/
example : ∃ (Ω : Type) (_ : MeasurableSpace Ω) (μ : Measure Ω) (ξ : ℕ → Ω → ℝ) (X : Ω → List ℝ) (per : List ℝ) (fb : List ℕ)
    (S : Ω → List (List ℝ)) (j : ℕ) (V : Ω → ℝ), IsProbabilityMeasure μ ∧ iIndepFun ξ μ ∧ (∀ i, HasSubgaussianMGF (ξ i) 1 μ) ∧
    (∀ ω, ∀ i < 1000, (X ω)[i]? = some ((if 3 * i % 100 ≤ 9 then 10 else 0) + ξ i ω)) ∧
    (∀ ω, periodogramBinding float32Idx (X ω) 1 [1, 10] 32 40 32 40 = .ok (per, fb, S ω)) ∧
    (∀ ω, (S ω)[j]?.bind (·[1]?) = some (V ω)) ∧ μ.real {ω | V ω ≤ 30} ≤ Real.exp (-50) := by
  obtain ⟨Ω, mΩ, μ, ξ, hp, hind, hsub, _⟩ := exists_noise
  generalize hn : 1000 = n
  obtain ⟨data, hdef⟩ : ∃ data : List ℝ, data = (List.range n).map (fun i => if 3 * i % 100 ≤ 9 then 10 else 0) := ⟨_, rfl⟩
  subst hn
  have hlen : data.length = 1000 := by rw [hdef]; simp
  have hi : IdxFor float32Idx (data.length / 32) := Or.inr ⟨Or.inl rfl, by rw [hlen]; norm_num⟩
  have hN : data.length ≤ 2 ^ 64 := by rw [hlen]; norm_num
  have hw : ∀ w ∈ ([1, 10] : List ℕ), 0 < w ∧ w < 32 := by intro w hw; fin_cases hw <;> decide
  have hd : ∀ i < data.length, data.getD i 0 = if 3 * i % 100 ≤ 9 then 10 else 0 := by
    intro i hi
    rw [hlen] at hi
    rw [hdef, List.getD_eq_getElem?_getD, List.getElem?_map, List.getElem?_range hi]
    rfl
  obtain ⟨X, hX⟩ : ∃ X : Ω → List ℝ, X = fun ω => (List.range 1000).map (fun i => (if 3 * i % 100 ≤ 9 then 10 else 0) + ξ i ω) := ⟨_, rfl⟩
  have hXl : ∀ ω, (X ω).length = data.length := by intro ω; rw [hX, hlen]; simp
  have hXe : ∀ ω, ∀ i < 1000, (X ω)[i]? = some ((if 3 * i % 100 ≤ 9 then 10 else 0) + ξ i ω) := by
    intro ω i hi
    rw [hX, List.getElem?_map, List.getElem?_range hi]
    rfl
  have hXv : ∀ ω, ∀ i < data.length, (X ω).getD i 0 = data.getD i 0 + ξ i ω := by
    intro ω i hi
    rw [hd i hi, List.getD_eq_getElem?_getD, hXe ω i (by omega)]
    rfl
  obtain ⟨per, fb, S, j, p, t, c1, _, _, hok, _, _, _, hf, c8⟩ := C95_in_noise float32Idx data 1 [1, 10] (by simp) 32 40 32 40 hi hN hw
    (by refine ⟨?_, ?_, ?_, ?_, ?_, ?_⟩ <;> norm_num [hlen]) (by rw [hlen]; norm_num) (100 / 3) 0 3 0 (by norm_num) (by norm_num) _
    pulsed_example (fun n hn => by rw [hd n hn, zero_add]) μ ξ hind hsub X hXl hXv
  have hf1 := hf (by norm_num) (by norm_num)
  have hb := hok.bins
  have hm : t.m ≤ 31 ∧ 25 ≤ t.m := by
    rw [hok.rows, hf1, hlen, div_one, Nat.floor_natCast]
    constructor
    · exact (Nat.div_le_div_left hb.1 (by norm_num)).trans (by norm_num)
    · exact le_trans (by norm_num) (Nat.div_le_div_left hb.2 (by omega))
  have hclog : Nat.clog 2 t.m = 5 := by
    apply le_antisymm
    · exact (Nat.clog_mono_right 2 hm.1).trans (by decide +kernel)
    · exact le_trans (by decide +kernel) (Nat.clog_mono_right 2 hm.2)
  have hbR : (32 : ℝ) ≤ t.b ∧ (t.b : ℝ) ≤ 40 := ⟨by exact_mod_cast hb.1, by exact_mod_cast hb.2⟩
  obtain ⟨V, v1, v2⟩ := c8 1 10 rfl (by
    unfold smearing
    rw [if_pos hf1, hclog]
    have hmR : (t.m : ℝ) ≤ 31 := by exact_mod_cast hm.1
    push_cast
    linarith [hbR.2])
  refine ⟨Ω, mΩ, μ, ξ, X, per, fb, S, j, V, hp, hind, hsub, hXe, c1, v1, ?_⟩
  have h := (v2 960 (by rw [hlen, hf1]; norm_num) 10 (by norm_num)).2 (by norm_num) (by norm_num)
  rw [show (-(10 : ℝ) ^ 2 / 2) = -50 by norm_num] at h
  refine (measureReal_mono ?_ (measure_ne_top _ _)).trans h
  intro ω hω
  simp only [Set.mem_ofPred_eq] at hω ⊢
  have hsum : ∑ n ∈ range 960, (if 3 * n % 100 ≤ 9 then (10 : ℝ) else 0) = 970 := by
    have hc : ∑ n ∈ range 960, (if 3 * n % 100 ≤ 9 then 10 else 0) = 970 := by decide +kernel
    exact_mod_cast congrArg (Nat.cast (R := ℝ)) hc
  rw [hsum, hlen]
  have h1 : (14 / 10 : ℝ) ≤ Real.sqrt (((t.b : ℝ) - (10 : ℕ)) / (10 : ℕ)) := by
    apply Real.le_sqrt_of_sq_le
    push_cast
    linarith [hbR.1]
  have h2 : Real.sqrt ((1000 : ℕ) : ℝ) ≤ 32 := by
    rw [Real.sqrt_le_left (by norm_num)]
    norm_num
  have h3 : (40 : ℝ) ≤ 970 * Real.sqrt (((t.b : ℝ) - (10 : ℕ)) / (10 : ℕ)) / Real.sqrt ((1000 : ℕ) : ℝ) := by
    rw [le_div_iff₀ (Real.sqrt_pos.mpr (by norm_num))]
    calc 40 * Real.sqrt ((1000 : ℕ) : ℝ) ≤ 40 * 32 := mul_le_mul_of_nonneg_left h2 (by norm_num)
      _ ≤ 970 * (14 / 10) := by norm_num
      _ ≤ _ := mul_le_mul_of_nonneg_left h1 (by norm_num)
  calc V ω ≤ 40 - 10 := by linarith
    _ ≤ _ := sub_le_sub_right h3 10

end Verif.Props
