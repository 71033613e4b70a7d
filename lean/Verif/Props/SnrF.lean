import Verif.Lemmas.TrialF
import Mathlib.Data.Int.Log
import Mathlib.Algebra.Order.Round

/-! # Property theorems for the rounding errors of the S/N: C85, C86 -/

namespace Verif.Props

open Verif.Model Verif.Spec Verif.Lemmas Finset

/-! ## Arithmetic with `p` significant bits -/

/-- Rounding to the nearest number with `p` significant bits, for any exponent. -/
noncomputable def roundBits (p : ℕ) (x : ℝ) : ℝ :=
  (round (x / (2 : ℝ) ^ (Int.log 2 |x| - p + 1)) : ℝ) * (2 : ℝ) ^ (Int.log 2 |x| - p + 1)

theorem roundBits_err (p : ℕ) (x : ℝ) : |roundBits p x - x| ≤ (1 / 2 ^ p) * |x| := by
  rcases eq_or_ne x 0 with rfl | hx
  · simp [roundBits]
  have hpos : 0 < |x| := abs_pos.mpr hx
  have hs : (0 : ℝ) < (2 : ℝ) ^ (Int.log 2 |x| - p + 1) := by positivity
  unfold roundBits
  generalize hd : (2 : ℝ) ^ (Int.log 2 |x| - p + 1) = d at *
  have h1 : |x / d - round (x / d)| ≤ 1 / 2 := abs_sub_round _
  have e : (round (x / d) : ℝ) * d - x = -((x / d - round (x / d)) * d) := by field_simp; ring
  rw [e, abs_neg, abs_mul, abs_of_pos hs]
  have h2 : (2 : ℝ) ^ Int.log 2 |x| ≤ |x| := by exact_mod_cast Int.zpow_log_le_self (by norm_num) hpos
  have h3 : d / 2 = 1 / 2 ^ p * (2 : ℝ) ^ Int.log 2 |x| := by
    rw [← hd, zpow_add₀ (by norm_num), zpow_sub₀ (by norm_num), zpow_one, zpow_natCast]
    field_simp
  calc |x / d - round (x / d)| * d ≤ 1 / 2 * d := mul_le_mul_of_nonneg_right h1 hs.le
    _ = 1 / 2 ^ p * (2 : ℝ) ^ Int.log 2 |x| := by rw [← h3]; ring
    _ ≤ _ := mul_le_mul_of_nonneg_left h2 (by positivity)

/-- Single precision data with a double precision accumulator, nothing fused. -/
noncomputable def single : FArith := ⟨roundBits 24, roundBits 53, roundBits 24, fun x => roundBits 24 (Real.sqrt x)⟩

theorem single_rounds : Rounds single (1 / 2 ^ 24) (1 / 2 ^ 53) where
  u_nonneg := by positivity
  u_lt := by norm_num
  v_nonneg := by positivity
  v_le := by norm_num
  fl := roundBits_err 24
  dbl := roundBits_err 53
  fused := roundBits_err 24
  sqrt := fun x _ => by
    have := roundBits_err 24 (Real.sqrt x)
    rw [abs_of_nonneg (Real.sqrt_nonneg x)] at this
    exact this

/-! ## C85 -/

/-- C85. S/N values calculated in floating point, for a profile of at most `u / v` bins: each is within
`γ₁₈ · 4 √(n / (w (n - w))) · Σ|x| / σ` of the exact matched filter S/N. The bound does not grow with the number of bins, since
the running sum is kept in double precision. -/
theorem C85_snr_rounding {A : FArith} {u v : ℝ} (h : Rounds A u v) (hu : 18 * u < 1) (n : ℕ) (hn : n * v ≤ u) (x : ℕ → ℝ)
    (widths : List ℕ) (hne : widths ≠ []) (hw : ∀ w ∈ widths, 0 < w ∧ w < n) (std : ℝ) (hstd : 0 < std) :
    ∃ out, A.snr1 n x widths std = .ok out ∧ out.length = widths.length ∧
      ∀ k (h : k < widths.length) (h' : k < out.length), ∀ s, IsMatchedSnr n widths[k] x std s →
        |out[k] - s| ≤ gam u 18 * (4 * Real.sqrt ((n : ℝ) / (widths[k] * (n - widths[k]))) * (∑ i ∈ range n, |x i|) / std) := by
  obtain ⟨out, e, hl, g⟩ := snr1F_close h (K := 0) (fun i _ => Close.exact (x i)) (dbl_le_grow h hn) widths hne hw hstd
    (NearR.refl (q := grow u) std)
  refine ⟨out, e, hl, ?_⟩
  intro k hk hk' s hs
  refine (g k hk hk' s hs).trans (mul_le_mul_of_nonneg_right ?_ ?_)
  · exact grow_le_gam h 18 (by push_cast; linarith)
  · have : 0 ≤ ∑ i ∈ range n, |x i| := sum_nonneg (fun _ _ => abs_nonneg _)
    positivity

/-- C85 for single precision: profiles of up to 2^29 bins. -/
theorem C85_single (n : ℕ) (hn : n ≤ 2 ^ 29) (x : ℕ → ℝ) (widths : List ℕ) (hne : widths ≠ [])
    (hw : ∀ w ∈ widths, 0 < w ∧ w < n) (std : ℝ) (hstd : 0 < std) :
    ∃ out, single.snr1 n x widths std = .ok out ∧ out.length = widths.length ∧
      ∀ k (h : k < widths.length) (h' : k < out.length), ∀ s, IsMatchedSnr n widths[k] x std s →
        |out[k] - s| ≤ 1 / 2 ^ 17 * (Real.sqrt ((n : ℝ) / (widths[k] * (n - widths[k]))) * (∑ i ∈ range n, |x i|) / std) := by
  have hn' : (n : ℝ) ≤ 2 ^ 29 := by exact_mod_cast hn
  obtain ⟨out, e, hl, g⟩ := C85_snr_rounding single_rounds (by norm_num) n
    (by have := mul_le_mul_of_nonneg_right hn' (by positivity : (0 : ℝ) ≤ 1 / 2 ^ 53); linarith) x widths hne hw std hstd
  refine ⟨out, e, hl, ?_⟩
  intro k hk hk' s hs
  refine (g k hk hk' s hs).trans ?_
  have e0 : gam (1 / 2 ^ 24) 18 * 4 ≤ 1 / 2 ^ 17 := by unfold gam; norm_num
  have e1 : 0 ≤ Real.sqrt ((n : ℝ) / (widths[k] * (n - widths[k]))) * (∑ i ∈ range n, |x i|) / std := by
    have : 0 ≤ ∑ i ∈ range n, |x i| := sum_nonneg (fun _ _ => abs_nonneg _)
    positivity
  calc _ = gam (1 / 2 ^ 24) 18 * 4 * (Real.sqrt ((n : ℝ) / (widths[k] * (n - widths[k]))) * (∑ i ∈ range n, |x i|) / std) := by ring
    _ ≤ _ := mul_le_mul_of_nonneg_right e0 e1

/-- Non-vacuity: a profile of 1024 bins, two boxcar widths, single precision. -/
example : Rounds single (1 / 2 ^ 24) (1 / 2 ^ 53) ∧ (18 : ℝ) * (1 / 2 ^ 24) < 1 ∧ ((1024 : ℕ) : ℝ) * (1 / 2 ^ 53) ≤ 1 / 2 ^ 24 ∧
    ([1, 13] : List ℕ) ≠ [] ∧ (∀ w ∈ ([1, 13] : List ℕ), 0 < w ∧ w < 1024) ∧ (0 : ℝ) < 1 :=
  ⟨single_rounds, by norm_num, by norm_num, by simp, by intro w hw; fin_cases hw <;> decide, one_pos⟩

/-! ## C86 -/

/-- C86, the downsampling step: every output sample is within `γ_{⌈f⌉+2}` of the integral of the input over its window, relative to
the integral of the absolute value. -/
theorem C86_downsample_rounding {A : FArith} {u v : ℝ} (h : Rounds A u v) (N : ℕ) (x : ℕ → ℝ) (f : ℝ) (hf : 1 < f) (k : ℕ)
    (hk : k < downsampledSize N f) (hu : (⌈f⌉₊ + 2 : ℕ) * u < 1) :
    |A.downsample N x f k - stepIntegral N x ((k : ℝ) * f) (((k : ℝ) + 1) * f)| ≤
      gam u (⌈f⌉₊ + 2) * stepIntegral N (fun i => |x i|) ((k : ℝ) * f) (((k : ℝ) + 1) * f) := by
  have c := downsample_close h x hf (ds_le hf hk)
  exact c.1.trans (mul_le_mul_of_nonneg_right (grow_le_gam h _ hu) c.nonneg)

/-- Non-vacuity: 1000 samples, downsampling factor 2.5, single precision. -/
example : Rounds single (1 / 2 ^ 24) (1 / 2 ^ 53) ∧ (1 : ℝ) < 5 / 2 ∧ 7 < downsampledSize 1000 (5 / 2) ∧
    ((⌈(5 / 2 : ℝ)⌉₊ + 2 : ℕ) : ℝ) * (1 / 2 ^ 24) < 1 := by
  have e : ⌈(5 / 2 : ℝ)⌉₊ = 3 := by rw [Nat.ceil_eq_iff (by norm_num)]; norm_num
  refine ⟨single_rounds, by norm_num, ?_, by rw [e]; norm_num⟩
  unfold downsampledSize
  have : ((1000 : ℕ) : ℝ) / (5 / 2) = (400 : ℕ) := by norm_num
  rw [this, Nat.floor_natCast]
  norm_num

/-- C86. The S/N values of a search in floating point. Let the search with exact arithmetic succeed. Then, for each of its
trials, downsampling, folding and evaluating the S/N in floating point succeeds, and the value for boxcar width `w` differs from
the exact one by at most `γ_K · 4 √(b / (w (b - w))) · Σ|data| / √(m var)`, where `K = 23 + ⌈f⌉ + ⌈log₂ m⌉` counts the operations in
a row on one sample. -/
theorem C86_search_rounding {A : FArith} {u v : ℝ} (h : Rounds A u v) (idx : IdxRule) (data : List ℝ) (tsamp : ℝ)
    (widths : List ℕ) (hne : widths ≠ []) (pmin pmax : ℝ) (bmin bmax : ℕ) (hb : bmax * v ≤ u)
    (hidx : IdxFor idx (data.length / bmin)) (hN : data.length ≤ 2 ^ 64) (hw : ∀ w ∈ widths, 0 < w ∧ w < bmin) (per : List ℝ)
    (fb : List ℕ) (snr : List (List ℝ)) (hs : periodogramBinding idx data tsamp widths pmin pmax bmin bmax = .ok (per, fb, snr)) :
    ∃ lab : List Trial, lab.length = per.length ∧ fb.length = per.length ∧ snr.length = per.length ∧
      ∀ j (h1 : j < per.length) (h2 : j < fb.length) (h3 : j < snr.length) (h4 : j < lab.length),
        lab[j].OK data.length tsamp pmin bmin bmax ∧ fb[j] = lab[j].b ∧ 1 / per[j] = lab[j].freq tsamp ∧
        ∃ out, A.trialSnr idx data.length (fun i => data.getD i 0) widths lab[j].f lab[j].m lab[j].b lab[j].s = .ok out ∧
          out.length = widths.length ∧
          ((23 + ⌈lab[j].f⌉₊ + Nat.clog 2 lab[j].m : ℕ) * u < 1 →
            ∀ k (hk : k < widths.length) (hk' : k < out.length), ∃ s, snr[j][k]? = some s ∧
              |out[k] - s| ≤ gam u (23 + ⌈lab[j].f⌉₊ + Nat.clog 2 lab[j].m) *
                (4 * Real.sqrt ((lab[j].b : ℝ) / (widths[k] * (lab[j].b - widths[k]))) * (∑ i ∈ range data.length, |data.getD i 0|) /
                  Real.sqrt (lab[j].m * downsampledVariance data.length lab[j].f))) := by
  obtain ⟨lab, _, l1, l2, l3, key⟩ := search_entries idx data tsamp widths hne pmin pmax bmin bmax hidx hN hw per fb snr hs
  refine ⟨lab, l1, l2, l3, ?_⟩
  intro j h1 h2 h3 h4
  obtain ⟨k1, k2, k3, _, _, hvar, hf, k7⟩ := key j h1 h2 h3 h4
  refine ⟨k1, k2, k3, ?_⟩
  generalize lab[j] = t at *
  obtain ⟨f, b, m, s⟩ := t
  obtain ⟨_, ⟨hb1, hb2⟩, hrows, htwo, hshift⟩ := k1
  simp only at *
  have hq := (grow_facts h).1
  have hbpos : 0 < b := by
    obtain ⟨w, hwm⟩ := List.exists_mem_of_ne_nil _ hne
    have := hw w hwm
    omega
  have hmb : m * b ≤ ⌊(data.length : ℝ) / f⌋₊ := by rw [hrows]; exact Nat.div_mul_le_self _ _
  have hnle : ⌊(data.length : ℝ) / f⌋₊ ≤ data.length := by
    rw [← Nat.floor_natCast (R := ℝ) data.length]
    apply Nat.floor_le_floor
    rw [Nat.floor_natCast]
    exact div_le_self (Nat.cast_nonneg _) hf
  have hm : m ≤ data.length / bmin := by
    rw [hrows]
    have : 0 < bmin := by
      obtain ⟨w, hwm⟩ := List.exists_mem_of_ne_nil _ hne
      have := hw w hwm
      omega
    exact (Nat.div_le_div_right hnle).trans (Nat.div_le_div_left hb1 this)
  -- samples
  have c1 : ∀ r < m, ∀ c < b, Close (grow u) (⌈f⌉₊ + 2) (A.stageData data.length (fun i => data.getD i 0) f (r * b + c))
      (downsampled data.length (fun i => data.getD i 0) f (r * b + c))
      (downsampled data.length (fun i => |data.getD i 0|) f (r * b + c)) := by
    intro r hr c hc
    apply stageData_close h _ hf
    have a1 : r * b + c + 1 ≤ ⌊(data.length : ℝ) / f⌋₊ := by
      have : (r + 1) * b ≤ m * b := Nat.mul_le_mul_right _ hr
      rw [Nat.add_mul, one_mul] at this
      omega
    have a2 := (Nat.le_floor_iff (by positivity)).mp a1
    rw [le_div_iff₀ (by linarith)] at a2
    push_cast at a2 ⊢
    exact a2
  have c2 : ∀ c < b, Close (grow u) (⌈f⌉₊ + 2 + Nat.clog 2 m)
      (transform A.add idx m b (fun r c => A.stageData data.length (fun i => data.getD i 0) f (r * b + c)) s c)
      (stack m b (sigma idx m) (fun r c => downsampled data.length (fun i => data.getD i 0) f (r * b + c)) s c)
      (stack m b (sigma idx m) (fun r c => downsampled data.length (fun i => |data.getD i 0|) f (r * b + c)) s c) :=
    fun c hc => transformF_close h idx (by omega) ((hm.trans (Nat.div_le_self _ _)).trans hN) hbpos
      (fun m' a1 a2 => hidx.ok m' (a1.trans hm) a2) c1 hshift hc
  -- noise
  have hmv : 0 < (m : ℝ) * downsampledVariance data.length f := by
    have : (0 : ℝ) < m := by exact_mod_cast (by omega : 0 < m)
    positivity
  have d1 := near_dbl h hmv.le (NearR.refl (q := grow u) ((m : ℝ) * downsampledVariance data.length f))
  have d2 := near_sqrt h (j := 1) (by norm_num) (d1.nonneg hq hmv.le) hmv.le d1
  have d3 := near_fl32 h (d2.nonneg hq (Real.sqrt_nonneg _)) d2
  have hbv : (b : ℝ) * v ≤ u := by
    have : (b : ℝ) ≤ bmax := by exact_mod_cast hb2
    exact (mul_le_mul_of_nonneg_right this h.v_nonneg).trans hb
  obtain ⟨out, e, hl, g⟩ := snr1F_close h c2 (dbl_le_grow h hbv) widths hne
    (fun w hwm => ⟨(hw w hwm).1, (hw w hwm).2.trans_le hb1⟩) (Real.sqrt_pos.mpr hmv) d3
  refine ⟨out, e, hl, ?_⟩
  intro hK k hk hk'
  obtain ⟨s', hs1, hs2⟩ := k7 k hk
  refine ⟨s', hs1, (g k hk hk' s' hs2).trans ?_⟩
  have hX : ∑ i ∈ range b, stack m b (sigma idx m)
      (fun r c => downsampled data.length (fun i => |data.getD i 0|) f (r * b + c)) s i ≤ ∑ i ∈ range data.length, |data.getD i 0| := by
    rw [sum_stack, sum_rows m b (fun k => downsampled data.length (fun i => |data.getD i 0|) f k)]
    exact downsampled_sum_le data.length (fun i => data.getD i 0) (by linarith) (m * b)
  have hX0 : 0 ≤ ∑ i ∈ range b, stack m b (sigma idx m)
      (fun r c => downsampled data.length (fun i => |data.getD i 0|) f (r * b + c)) s i :=
    sum_nonneg (fun i hi => (c2 i (mem_range.mp hi)).nonneg)
  apply mul_le_mul
  · rw [show ⌈f⌉₊ + 2 + Nat.clog 2 m + (18 + (1 + 1 + 1)) = 23 + ⌈f⌉₊ + Nat.clog 2 m by omega]
    exact grow_le_gam h _ hK
  · apply div_le_div_of_nonneg_right _ (Real.sqrt_nonneg _)
    exact mul_le_mul_of_nonneg_left hX (by positivity)
  · positivity
  · unfold gam
    apply div_nonneg (mul_nonneg (Nat.cast_nonneg _) h.u_nonneg)
    linarith

/-- Non-vacuity: a search of 1000 samples in single precision satisfies the hypotheses of `C86_search_rounding`. -/
example : ∃ per fb snr, Rounds single (1 / 2 ^ 24) (1 / 2 ^ 53) ∧ ((10 : ℕ) : ℝ) * (1 / 2 ^ 53) ≤ 1 / 2 ^ 24 ∧
    IdxFor float32Idx ((List.replicate 1000 (1 : ℝ)).length / 8) ∧ (∀ w ∈ ([1, 2] : List ℕ), 0 < w ∧ w < 8) ∧
    periodogramBinding float32Idx (List.replicate 1000 1) 1 [1, 2] 8 40 8 10 = .ok (per, fb, snr) ∧ per ≠ [] := by
  have hi : IdxFor float32Idx ((List.replicate 1000 (1 : ℝ)).length / 8) :=
    Or.inr ⟨Or.inl rfl, by rw [List.length_replicate]; norm_num⟩
  obtain ⟨per, fb, snr, lab, e, _, e2, _⟩ := C19_no_holes float32Idx (List.replicate 1000 1) 1 [1, 2] (by simp) 8 40 8 10 hi
    (by refine ⟨?_, ?_, ?_, ?_, ?_, ?_⟩ <;> norm_num) (by rw [List.length_replicate]; norm_num)
  refine ⟨per, fb, snr, single_rounds, by norm_num, hi, by intro w hw; fin_cases hw <;> decide, e, ?_⟩
  rintro rfl
  exact nomatch e2

end Verif.Props
