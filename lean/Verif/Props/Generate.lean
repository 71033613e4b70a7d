import Mathlib.Algebra.Order.BigOperators.Ring.Finset
import Mathlib.Probability.Moments.Variance
import Mathlib.Probability.HasLawExists
import Mathlib.Probability.Distributions.Gaussian.Real
import Verif.Model.Generate
import Verif.Props.Detection
import Verif.Props.Trend

/-! # Generated test signals: properties C82 and C83 -/

namespace Verif.Props

open Verif.Model Verif.Spec Verif.Lemmas Finset

/-! ## The shape of the pulse -/

/-- A cosine above that of `π d` means a phase within `d / 2` turns of a whole turn. -/
theorem cos_ge_iff {u d : ℝ} (h0 : 0 < d) (h1 : d ≤ 1) :
    Real.cos (Real.pi * d) ≤ Real.cos (u * (2 * Real.pi)) ↔ ∃ k : ℤ, |u - k| ≤ d / 2 := by
  have hpi := Real.pi_pos
  have key : ∀ k : ℤ, |u - k| ≤ 1 / 2 →
      (Real.cos (Real.pi * d) ≤ Real.cos (u * (2 * Real.pi)) ↔ |u - k| ≤ d / 2) := by
    intro k hk
    have e : Real.cos (u * (2 * Real.pi)) = Real.cos (|u - k| * (2 * Real.pi)) := by
      rw [← Real.cos_abs ((u : ℝ) * (2 * Real.pi) - k * (2 * Real.pi)) |>.trans (Real.cos_sub_int_mul_two_pi _ k),
        ← sub_mul, abs_mul, abs_of_pos (show (0 : ℝ) < 2 * Real.pi by positivity)]
    rw [e, (Real.strictAntiOn_cos).le_iff_ge ⟨by positivity, by nlinarith⟩
      ⟨by positivity, by nlinarith [abs_nonneg (u - k)]⟩]
    constructor
    · intro h
      have : 2 * |u - k| ≤ d := by nlinarith
      linarith
    · intro h
      nlinarith
  constructor
  · intro h
    have hk : |u - (round u : ℤ)| ≤ 1 / 2 := abs_sub_round u
    exact ⟨round u, (key _ hk).mp h⟩
  · rintro ⟨k, hk⟩
    exact (key k (by linarith)).mpr hk

theorem sin_half_pos {d : ℝ} (h0 : 0 < d) (h1 : d ≤ 1) : 0 < Real.sin (Real.pi * d / 2) := by
  have hpi := Real.pi_pos
  apply Real.sin_pos_of_pos_of_lt_pi
  · positivity
  · nlinarith

theorem kappa_pos {d : ℝ} (h0 : 0 < d) (h1 : d ≤ 1) : 0 < vonMisesKappa d := by
  unfold vonMisesKappa
  have := sin_half_pos h0 h1
  have := Real.log_pos (show (1 : ℝ) < 2 by norm_num)
  positivity

/-- The pulse at a phase of `u` turns from its centre. -/
noncomputable def pulseAt (d u : ℝ) : ℝ := Real.exp (vonMisesKappa d * (Real.cos (u * (2 * Real.pi)) - 1))

theorem pulseAt_half {u d : ℝ} (h0 : 0 < d) (h1 : d ≤ 1) : 1 / 2 ≤ pulseAt d u ↔ ∃ k : ℤ, |u - k| ≤ d / 2 := by
  rw [← cos_ge_iff h0 h1]
  have hs := sin_half_pos h0 h1
  have hcos : Real.cos (Real.pi * d) = 1 - 2 * Real.sin (Real.pi * d / 2) ^ 2 := by
    have := Real.cos_two_mul (Real.pi * d / 2)
    have h2 := Real.sin_sq_add_cos_sq (Real.pi * d / 2)
    rw [show 2 * (Real.pi * d / 2) = Real.pi * d by ring] at this
    linarith
  have hl := Real.log_pos (show (1 : ℝ) < 2 by norm_num)
  have e : (1 : ℝ) / 2 = Real.exp (-Real.log 2) := by rw [Real.exp_neg, Real.exp_log (by norm_num), one_div]
  unfold pulseAt
  rw [e, Real.exp_le_exp, hcos]
  have hS : 0 < 2 * Real.sin (Real.pi * d / 2) ^ 2 := by positivity
  unfold vonMisesKappa
  generalize 2 * Real.sin (Real.pi * d / 2) ^ 2 = S at *
  generalize Real.cos (u * (2 * Real.pi)) = c
  rw [div_mul_eq_mul_div, le_div_iff₀ hS]
  constructor
  · intro h; nlinarith
  · intro h; nlinarith

theorem pulseAt_le_one {u d : ℝ} (h0 : 0 < d) (h1 : d ≤ 1) : pulseAt d u ≤ 1 := by
  unfold pulseAt
  rw [Real.exp_le_one_iff]
  have := kappa_pos h0 h1
  have := Real.cos_le_one (u * (2 * Real.pi))
  nlinarith

theorem pulseAt_eq_one {u d : ℝ} (h0 : 0 < d) (h1 : d ≤ 1) : pulseAt d u = 1 ↔ ∃ k : ℤ, u = k := by
  unfold pulseAt
  have := kappa_pos h0 h1
  have hpi := Real.pi_pos
  rw [Real.exp_eq_one_iff, mul_eq_zero, or_iff_right this.ne', sub_eq_zero, Real.cos_eq_one_iff]
  constructor
  · rintro ⟨k, hk⟩
    exact ⟨k, (mul_right_cancel₀ (by positivity) hk).symm⟩
  · rintro ⟨k, rfl⟩
    exact ⟨k, rfl⟩

theorem pulseAt_pos (d u : ℝ) : 0 < pulseAt d u := Real.exp_pos _

theorem pulseAt_period (d u : ℝ) (k : ℤ) : pulseAt d (u + k) = pulseAt d u := by
  unfold pulseAt
  rw [add_mul, Real.cos_add_int_mul_two_pi]

theorem pulseAt_neg (d u : ℝ) : pulseAt d (-u) = pulseAt d u := by
  unfold pulseAt
  rw [neg_mul, Real.cos_neg]

/-! ## The generated series -/

/-- The factor that scales the pulse train. -/
noncomputable def genScale (n : ℕ) (period phi0 ducy amp : ℝ) : ℝ :=
  amp * (Real.sqrt (∑ i ∈ range n, pulseAt ducy ((i : ℝ) / period - phi0) ^ 2))⁻¹

theorem pulseTrain_eq (n : ℕ) (period phi0 ducy : ℝ) :
    pulseTrain n period phi0 ducy = (List.range n).map (fun i : ℕ => pulseAt ducy ((i : ℝ) / period - phi0)) := rfl

theorem list_sum_range (n : ℕ) (g : ℕ → ℝ) : ((List.range n).map g).sum = ∑ i ∈ range n, g i := by
  induction n with
  | zero => simp
  | succ n ih => rw [List.range_succ, List.map_append, List.sum_append, ih, Finset.sum_range_succ]; simp

theorem train_energy (n : ℕ) (period phi0 ducy : ℝ) :
    ((pulseTrain n period phi0 ducy).map (fun v => v ^ 2)).sum =
      ∑ i ∈ range n, pulseAt ducy ((i : ℝ) / period - phi0) ^ 2 := by
  rw [pulseTrain_eq, List.map_map, ← list_sum_range]
  rfl

theorem generate_noiseless (gauss : ℕ → ℝ) (n : ℕ) (period phi0 ducy amp sd : ℝ) (hs : sd ≤ 0) :
    generateSignal gauss n period phi0 ducy amp sd =
      .ok ((List.range n).map (fun i : ℕ => pulseAt ducy ((i : ℝ) / period - phi0) * genScale n period phi0 ducy amp)) := by
  unfold generateSignal
  simp only [Int.toNat_natCast]
  rw [if_neg (not_lt.mpr hs), train_energy, pulseTrain_eq, List.map_map]
  rfl

theorem generate_noisy (gauss : ℕ → ℝ) (n : ℕ) (period phi0 ducy amp sd : ℝ) (hs : 0 < sd) :
    generateSignal gauss n period phi0 ducy amp sd =
      .ok ((List.range n).map (fun i : ℕ => pulseAt ducy ((i : ℝ) / period - phi0) * genScale n period phi0 ducy amp
        + sd * gauss i)) := by
  unfold generateSignal
  simp only [Int.toNat_natCast]
  rw [if_pos hs, if_neg (by omega), train_energy, pulseTrain_eq, List.map_map, List.zipWith_map, List.zipWith_self]
  rfl

theorem energy_pos {n : ℕ} (hn : 0 < n) (period phi0 ducy : ℝ) :
    0 < ∑ i ∈ range n, pulseAt ducy ((i : ℝ) / period - phi0) ^ 2 :=
  Finset.sum_pos (fun _ _ => pow_pos (pulseAt_pos _ _) 2) ⟨0, mem_range.mpr hn⟩

theorem genScale_sq {n : ℕ} (hn : 0 < n) (period phi0 ducy amp : ℝ) :
    genScale n period phi0 ducy amp ^ 2 * ∑ i ∈ range n, pulseAt ducy ((i : ℝ) / period - phi0) ^ 2 = amp ^ 2 := by
  have h := energy_pos hn period phi0 ducy
  unfold genScale
  rw [mul_pow, inv_pow, Real.sq_sqrt h.le, mul_assoc, inv_mul_cancel₀ h.ne', mul_one]

/-- C82. A noiseless signal. The squares of the samples add up to the square of the amplitude. For a positive amplitude there is a
peak value `top` such that the samples follow a von Mises function of the phase, all samples are positive and at most
`top`, a sample has the value `top` exactly if its phase (in turns, counted from `phi0`) is a whole number, and at least
`top / 2` exactly if its phase is within `ducy / 2` of a whole number. Samples whose phases differ by whole turns are equal, and
so are samples at opposite distances from the centre of a pulse. -/
theorem C82_noiseless (gauss : ℕ → ℝ) (n : ℕ) (hn : 0 < n) (period phi0 ducy amp sd : ℝ) (hd0 : 0 < ducy)
    (hd1 : ducy ≤ 1) (hs : sd ≤ 0) :
    ∃ x, generateSignal gauss n period phi0 ducy amp sd = .ok x ∧ x.length = n ∧
      (x.map (fun v => v ^ 2)).sum = amp ^ 2 ∧
      (0 < amp → ∃ top κ : ℝ, ∀ (i : ℕ) (v : ℝ), x[i]? = some v →
        v = top * Real.exp (κ * (Real.cos (2 * Real.pi * ((i : ℝ) / period - phi0)) - 1)) ∧
        0 < v ∧ v ≤ top ∧
        (v = top ↔ ∃ k : ℤ, (i : ℝ) / period - phi0 = k) ∧
        (top / 2 ≤ v ↔ ∃ k : ℤ, |(i : ℝ) / period - phi0 - k| ≤ ducy / 2)) ∧
      (∀ (i j : ℕ) (u v : ℝ), x[i]? = some u → x[j]? = some v →
        (∃ k : ℤ, (i : ℝ) / period - phi0 = (j : ℝ) / period - phi0 + k ∨
          (i : ℝ) / period - phi0 = -((j : ℝ) / period - phi0) + k) → u = v) := by
  have hget : ∀ (i : ℕ) (v : ℝ), ((List.range n).map (fun i : ℕ => pulseAt ducy ((i : ℝ) / period - phi0) *
      genScale n period phi0 ducy amp))[i]? = some v →
      v = pulseAt ducy ((i : ℝ) / period - phi0) * genScale n period phi0 ducy amp := by
    intro i v hv
    rw [List.getElem?_map] at hv
    obtain ⟨k, hk, rfl⟩ := Option.map_eq_some_iff.mp hv
    obtain ⟨hi, rfl⟩ := List.getElem?_eq_some_iff.mp hk
    simp
  refine ⟨_, generate_noiseless gauss n period phi0 ducy amp sd hs, by simp, ?_, ?_, ?_⟩
  · rw [List.map_map, list_sum_range, ← genScale_sq hn period phi0 ducy amp, Finset.mul_sum]
    apply Finset.sum_congr rfl
    intro i _
    simp only [Function.comp]
    ring
  · intro ha
    have hT : 0 < genScale n period phi0 ducy amp := by
      unfold genScale
      have := Real.sqrt_pos.mpr (energy_pos hn period phi0 ducy)
      positivity
    refine ⟨genScale n period phi0 ducy amp, vonMisesKappa ducy, ?_⟩
    intro i v hv
    rw [hget i v hv]
    generalize genScale n period phi0 ducy amp = T at hT
    refine ⟨by rw [pulseAt, mul_comm (2 * Real.pi), mul_comm], mul_pos (pulseAt_pos _ _) hT, ?_, ?_, ?_⟩
    · have := pulseAt_le_one (u := (i : ℝ) / period - phi0) hd0 hd1
      nlinarith
    · rw [← pulseAt_eq_one hd0 hd1]
      constructor
      · intro h
        exact mul_right_cancel₀ hT.ne' (h.trans (one_mul T).symm)
      · intro h; rw [h, one_mul]
    · rw [← pulseAt_half hd0 hd1, div_eq_mul_inv, mul_comm T, mul_le_mul_iff_left₀ hT, one_div]
  · rintro i j u v hu hv ⟨k, h | h⟩
    · rw [hget i u hu, hget j v hv, h, pulseAt_period]
    · rw [hget i u hu, hget j v hv, h, pulseAt_period, pulseAt_neg]

/-- The value of the matched filter `t` (of the same length) on the data `x`. -/
noncomputable def filterOut (x t : List ℝ) : ℝ := (List.zipWith (· * ·) x t).sum

theorem filterOut_range (n : ℕ) (f g : ℕ → ℝ) :
    filterOut ((List.range n).map f) ((List.range n).map g) = ∑ i ∈ range n, f i * g i := by
  unfold filterOut
  rw [List.zipWith_map, List.zipWith_self, list_sum_range]

open MeasureTheory ProbabilityTheory in
/-- C82. The expected S/N. The noise is a family of integrable random variables of mean zero. The filter is the noiseless signal of
amplitude one: applied to the generated data and divided by `stdnoise`, its output has the expectation
`amplitude / stdnoise`. If the noise is also pairwise independent and of unit variance, the output has unit variance. -/
theorem C82_expected_snr {Ω : Type*} [MeasurableSpace Ω] (μ : Measure Ω) [IsProbabilityMeasure μ] (g : ℕ → Ω → ℝ)
    (hint : ∀ i, Integrable (g i) μ) (hmean : ∀ i, ∫ ω, g i ω ∂μ = 0)
    (n : ℕ) (hn : 0 < n) (period phi0 ducy amp sd : ℝ) (hs : 0 < sd) :
    ∃ (t : List ℝ) (x : Ω → List ℝ),
      (∀ gauss, generateSignal gauss n period phi0 ducy 1 0 = .ok t) ∧
      (∀ ω, generateSignal (fun i => g i ω) n period phi0 ducy amp sd = .ok (x ω)) ∧
      ∫ ω, filterOut (x ω) t / sd ∂μ = amp / sd ∧
      ((∀ i, MemLp (g i) 2 μ) → (∀ i, Var[g i; μ] = 1) → (∀ i j, i ≠ j → IndepFun (g i) (g j) μ) →
        Var[fun ω => filterOut (x ω) t / sd; μ] = 1) := by
  obtain ⟨T, hT⟩ : ∃ T : ℕ → ℝ, T = fun i : ℕ => pulseAt ducy ((i : ℝ) / period - phi0) * genScale n period phi0 ducy 1 := ⟨_, rfl⟩
  have hnorm : ∑ i ∈ range n, T i ^ 2 = 1 := by
    rw [hT]
    have := genScale_sq hn period phi0 ducy 1
    rw [one_pow, Finset.mul_sum] at this
    refine Eq.trans ?_ this
    exact Finset.sum_congr rfl (fun i _ => by ring)
  have hamp : ∀ i : ℕ, pulseAt ducy ((i : ℝ) / period - phi0) * genScale n period phi0 ducy amp = amp * T i := by
    intro i
    rw [hT]
    unfold genScale
    ring
  refine ⟨(List.range n).map T, fun ω => (List.range n).map (fun i => amp * T i + sd * g i ω), ?_, ?_, ?_⟩
  · intro gauss
    rw [generate_noiseless gauss n period phi0 ducy 1 0 le_rfl, hT]
  · intro ω
    rw [generate_noisy _ n period phi0 ducy amp sd hs]
    simp only [hamp]
  · have e : ∀ ω, filterOut ((List.range n).map (fun i => amp * T i + sd * g i ω)) ((List.range n).map T) / sd =
        amp / sd + ∑ i ∈ range n, T i * g i ω := by
      intro ω
      rw [filterOut_range, div_eq_iff hs.ne', add_mul, div_mul_cancel₀ _ hs.ne', Finset.sum_mul]
      calc ∑ i ∈ range n, (amp * T i + sd * g i ω) * T i
          = ∑ i ∈ range n, (amp * T i ^ 2 + T i * g i ω * sd) := Finset.sum_congr rfl (fun i _ => by ring)
        _ = amp * ∑ i ∈ range n, T i ^ 2 + ∑ i ∈ range n, T i * g i ω * sd := by rw [Finset.sum_add_distrib, Finset.mul_sum]
        _ = _ := by rw [hnorm, mul_one]
    simp only [e]
    constructor
    · rw [integral_add (integrable_const _) (integrable_finsetSum _ (fun i _ => (hint i).const_mul _)),
        integral_finsetSum _ (fun i _ => (hint i).const_mul _)]
      simp only [integral_const_mul, hmean, mul_zero, Finset.sum_const_zero, add_zero]
      simp
    · intro hL hV hI
      have hm : AEStronglyMeasurable (fun ω => ∑ i ∈ range n, T i * g i ω) μ :=
        (integrable_finsetSum _ (fun i _ => (hint i).const_mul _)).aestronglyMeasurable
      rw [variance_const_add hm]
      have e2 : (fun ω => ∑ i ∈ range n, T i * g i ω) = ∑ i ∈ range n, (fun ω => T i * g i ω) := by
        funext ω; simp
      rw [e2, IndepFun.variance_sum]
      · simp only [variance_const_mul, hV, mul_one]
        exact hnorm
      · intro i _
        exact (hL i).const_mul _
      · intro i _ j _ hij
        exact (hI i j hij).comp (φ := fun v => T i * v) (ψ := fun v => T j * v) (by fun_prop) (by fun_prop)

open MeasureTheory ProbabilityTheory in
/-- Independent standard normal random variables meet all hypotheses on the noise. -/
example : ∃ (Ω : Type) (_ : MeasurableSpace Ω) (μ : Measure Ω) (g : ℕ → Ω → ℝ), IsProbabilityMeasure μ ∧
    (∀ i, Integrable (g i) μ) ∧ (∀ i, ∫ ω, g i ω ∂μ = 0) ∧ (∀ i, MemLp (g i) 2 μ) ∧ (∀ i, Var[g i; μ] = 1) ∧
    (∀ i j, i ≠ j → IndepFun (g i) (g j) μ) ∧
    ∃ (t : List ℝ) (x : Ω → List ℝ), (∀ ω, generateSignal (fun i => g i ω) 100 12 (1 / 2) (1 / 10) 10 2 = .ok (x ω)) ∧
      ∫ ω, filterOut (x ω) t / 2 ∂μ = 5 ∧ Var[fun ω => filterOut (x ω) t / 2; μ] = 1 := by
  obtain ⟨Ω, mΩ, μ, g, hm, hlaw, hind, hp⟩ := exists_iid ℕ (gaussianReal 0 1)
  have hL : ∀ i, MemLp (g i) 2 μ := by
    intro i
    have h := memLp_id_gaussianReal' (μ := 0) (v := 1) 2 (by simp)
    rw [← (hlaw i).map_eq, memLp_map_measure_iff (by fun_prop) (hm i).aemeasurable] at h
    exact h
  have hI : ∀ i, Integrable (g i) μ := fun i => (hL i).integrable (by norm_num)
  have hM : ∀ i, ∫ ω, g i ω ∂μ = 0 := by
    intro i
    rw [(hlaw i).integral_eq, integral_id_gaussianReal]
  have hV : ∀ i, Var[g i; μ] = 1 := by
    intro i
    rw [(hlaw i).variance_eq, variance_id_gaussianReal]
    rfl
  have hij : ∀ i j, i ≠ j → IndepFun (g i) (g j) μ := fun i j h => hind.indepFun h
  obtain ⟨t, x, _, h2, h3, h4⟩ := C82_expected_snr μ g hI hM 100 (by norm_num) 12 (1 / 2) (1 / 10) 10 2 (by norm_num)
  refine ⟨Ω, mΩ, μ, g, hp, hI, hM, hL, hV, hij, t, x, ?_, ?_, h4 hL hV hij⟩
  · exact_mod_cast h2
  · rw [h3]; norm_num

/-- C82. No filter of unit norm does better: its output on the noiseless signal is at most the amplitude. -/
theorem C82_optimal (gauss : ℕ → ℝ) (n : ℕ) (hn : 0 < n) (period phi0 ducy amp sd : ℝ) (hd0 : 0 < ducy)
    (hd1 : ducy ≤ 1) (hs : sd ≤ 0) (ha : 0 ≤ amp) (x t : List ℝ)
    (hx : generateSignal gauss n period phi0 ducy amp sd = .ok x) (ht : t.length = n)
    (hnorm : (t.map (fun v => v ^ 2)).sum = 1) : filterOut x t ≤ amp := by
  obtain ⟨x', hx', hl, hen, _⟩ := C82_noiseless gauss n hn period phi0 ducy amp sd hd0 hd1 hs
  rw [hx] at hx'
  cases hx'
  have e : filterOut x t = ∑ i ∈ range n, x.getD i 0 * t.getD i 0 := by
    have ex : x = (List.range n).map (fun i => x.getD i 0) := by
      apply List.ext_getElem (by simp [hl])
      intro i h1 h2
      simp [h1]
    have et : t = (List.range n).map (fun i => t.getD i 0) := by
      apply List.ext_getElem (by simp [ht])
      intro i h1 h2
      simp [h1]
    conv_lhs => rw [ex, et]
    exact filterOut_range n _ _
  rw [e]
  refine le_of_abs_le (abs_le_of_sq_le_sq ?_ ha)
  refine (Finset.sum_mul_sq_le_sq_mul_sq _ _ _).trans (le_of_eq ?_)
  rw [sum_map_getD, hl] at hen
  rw [sum_map_getD, ht] at hnorm
  rw [hen, hnorm, mul_one]

/-! ## C83 -/

theorem generate_ok (gauss : ℕ → ℝ) (n : ℕ) (period phi0 ducy amp sd : ℝ) :
    ∃ x, generateSignal gauss n period phi0 ducy amp sd = .ok x ∧ x.length = n := by
  rcases le_or_gt sd 0 with h | h
  · exact ⟨_, generate_noiseless gauss n period phi0 ducy amp sd h, by simp⟩
  · exact ⟨_, generate_noisy gauss n period phi0 ducy amp sd h, by simp⟩

/-- The metadata after the constructor of `Metadata`. -/
theorem generate_metadata (a b c d e : MVal) :
    metadataCopy [("source_name", a), ("signal_shape", b), ("signal_period", c), ("signal_initial_phase", d),
      ("signal_duty_cycle", e)] = .ok [("source_name", a), ("signal_shape", b), ("signal_period", c),
      ("signal_initial_phase", d), ("signal_duty_cycle", e), ("skycoord", .none), ("dm", .none), ("mjd", .none),
      ("tobs", .none), ("fname", .none)] := by
  with_unfolding_all rfl

theorem generate_metadata_tobs (a b c d e t : MVal) :
    dictSet [("source_name", a), ("signal_shape", b), ("signal_period", c),
      ("signal_initial_phase", d), ("signal_duty_cycle", e), ("skycoord", .none), ("dm", .none), ("mjd", .none),
      ("tobs", .none), ("fname", .none)] "tobs" t = [("source_name", a), ("signal_shape", b), ("signal_period", c),
      ("signal_initial_phase", d), ("signal_duty_cycle", e), ("skycoord", .none), ("dm", .none), ("mjd", .none),
      ("tobs", t), ("fname", .none)] := by
  with_unfolding_all rfl

theorem tsNew_of_metadata (w : World) (x : List ℝ) (tsamp : ℝ) (items md : PyDict String MVal)
    (h : metadataCopy items = .ok md) : tsNew w x tsamp items =
      .ok (⟨w.arrays ++ [x], w.metas ++ [dictSet md "tobs" (.num (x.length * tsamp))],
        w.objs ++ [⟨w.arrays.length, tsamp, w.metas.length⟩]⟩, w.objs.length) := by
  unfold tsNew
  simp [World.newArray, tsInit, h, Except.bind]

/-- C83. `TimeSeries.generate` returns a new object, and changes nothing else. It holds the output of `generate_signal` for the
period in samples, its number of samples is the nearest integer to `length / tsamp` (the even one of two), `tobs` is the
length of the data, and the other metadata tell the parameters. -/
theorem C83_generate (gauss : ℕ → ℝ) (w : World) (length tsamp period phi0 ducy amp sd : ℝ) (ht : 0 < tsamp)
    (hl : 0 ≤ length) :
    ∃ (w' : World) (n : ℕ) (x : List ℝ) (o : TsObj),
      tsGenerate gauss w length tsamp period phi0 ducy amp sd = .ok (w', w.objs.length) ∧
      |length / tsamp - n| ≤ 1 / 2 ∧ (|length / tsamp - n| = 1 / 2 → Even n) ∧
      generateSignal gauss n (period / tsamp) phi0 ducy amp sd = .ok x ∧ x.length = n ∧
      Extends w w' ∧ w'.objs[w.objs.length]? = some o ∧ w'.dataOf o = x ∧ o.tsamp = tsamp ∧ o.data < w'.arrays.length ∧
      dictGet (w'.metaOf o) "tobs" = some (.num (n * tsamp)) ∧
      dictGet (w'.metaOf o) "source_name" = some fakeName ∧ dictGet (w'.metaOf o) "signal_shape" = some vonMisesName ∧
      dictGet (w'.metaOf o) "signal_period" = some (.num period) ∧
      dictGet (w'.metaOf o) "signal_initial_phase" = some (.num phi0) ∧
      dictGet (w'.metaOf o) "signal_duty_cycle" = some (.num ducy) ∧
      ∀ k ∈ ["skycoord", "dm", "mjd", "fname"], dictGet (w'.metaOf o) k = some .none := by
  obtain ⟨r1, r2⟩ := pyRound_nearest (length / tsamp)
  have hq : 0 ≤ length / tsamp := by positivity
  have hn0 : 0 ≤ pyRound (length / tsamp) := by
    by_contra hc
    push Not at hc
    have : (pyRound (length / tsamp) : ℝ) ≤ -1 := by exact_mod_cast (by omega : pyRound (length / tsamp) ≤ -1)
    rw [abs_le] at r1
    linarith [r1.2]
  obtain ⟨n, hn⟩ := Int.eq_ofNat_of_zero_le hn0
  obtain ⟨x, hx, hxl⟩ := generate_ok gauss n (period / tsamp) phi0 ducy amp sd
  have hgen : tsGenerate gauss w length tsamp period phi0 ducy amp sd = tsNew w x tsamp
      [("source_name", fakeName), ("signal_shape", vonMisesName), ("signal_period", .num period),
       ("signal_initial_phase", .num phi0), ("signal_duty_cycle", .num ducy)] := by
    unfold tsGenerate
    rw [if_neg ht.ne']
    simp only [hn]
    rw [show ((n : ℤ)) = Int.ofNat n from rfl] at hx
    rw [show ((n : ℤ)) = Int.ofNat n from rfl]
    rw [hx]
    rfl
  have hnew : ∃ w', tsNew w x tsamp
      [("source_name", fakeName), ("signal_shape", vonMisesName), ("signal_period", .num period),
       ("signal_initial_phase", .num phi0), ("signal_duty_cycle", .num ducy)] = .ok (w', w.objs.length) ∧
      w' = ⟨w.arrays ++ [x], w.metas ++ [[("source_name", fakeName), ("signal_shape", vonMisesName),
        ("signal_period", .num period), ("signal_initial_phase", .num phi0), ("signal_duty_cycle", .num ducy),
        ("skycoord", .none), ("dm", .none), ("mjd", .none), ("tobs", .num (x.length * tsamp)), ("fname", .none)]],
        w.objs ++ [⟨w.arrays.length, tsamp, w.metas.length⟩]⟩ := by
    refine ⟨_, ?_, rfl⟩
    rw [tsNew_of_metadata w x tsamp _ _ (generate_metadata _ _ _ _ _), generate_metadata_tobs]
  obtain ⟨w', hw', hw⟩ := hnew
  have hmeta : w'.metaOf ⟨w.arrays.length, tsamp, w.metas.length⟩ = [("source_name", fakeName), ("signal_shape", vonMisesName),
        ("signal_period", .num period), ("signal_initial_phase", .num phi0), ("signal_duty_cycle", .num ducy),
        ("skycoord", .none), ("dm", .none), ("mjd", .none), ("tobs", .num (x.length * tsamp)), ("fname", .none)] := by
    rw [hw]
    unfold World.metaOf
    rw [List.getD_eq_getElem?_getD, List.getElem?_concat_length]
    rfl
  refine ⟨w', n, x, ⟨w.arrays.length, tsamp, w.metas.length⟩, hgen.trans hw', ?_, ?_, hx, hxl, tsNew_extends hw', ?_, ?_, rfl, ?_, ?_⟩
  · rw [hn] at r1
    simpa using r1
  · intro h
    rw [hn] at r2
    have := r2 (by simpa using h)
    rw [Nat.even_iff]
    exact_mod_cast this
  · rw [hw]; simp
  · rw [hw]; simp [World.dataOf]
  · rw [hw]; simp
  · rw [hmeta, hxl]
    refine ⟨by with_unfolding_all rfl, by with_unfolding_all rfl, by with_unfolding_all rfl, by with_unfolding_all rfl,
      by with_unfolding_all rfl, by with_unfolding_all rfl, ?_⟩
    intro k hk
    simp only [List.mem_cons, List.not_mem_nil, or_false] at hk
    rcases hk with rfl | rfl | rfl | rfl <;> with_unfolding_all rfl

/-- C83. When `generate` fails: a sampling time of zero, or noise for a negative number of samples. -/
theorem C83_errors (gauss : ℕ → ℝ) (w : World) (length tsamp period phi0 ducy amp sd : ℝ) :
    (tsamp = 0 → tsGenerate gauss w length tsamp period phi0 ducy amp sd = .error .zeroDivisionError) ∧
    (tsamp ≠ 0 → length / tsamp < -1 / 2 → 0 < sd →
      tsGenerate gauss w length tsamp period phi0 ducy amp sd = .error .valueError) := by
  constructor
  · intro h
    unfold tsGenerate
    rw [if_pos h]
  · intro h h1 h2
    have hn : pyRound (length / tsamp) < 0 := by
      obtain ⟨r1, _⟩ := pyRound_nearest (length / tsamp)
      rw [abs_le] at r1
      have : (pyRound (length / tsamp) : ℝ) < 0 := by linarith [r1.1]
      exact_mod_cast this
    unfold tsGenerate generateSignal
    rw [if_neg h]
    simp only
    rw [if_pos h2, if_pos hn]
    rfl

/-- C83. Search of a noiseless generated signal as it is. No S/N exceeds `√2` times the amplitude, none of a trial without
downsampling exceeds the amplitude, and if the period is a whole number `b` of samples (in the range of the phase bins), there
is a trial at exactly this period, whose S/N are those of the boxcars on one period of the signal, times the square root of the
number of periods. -/
theorem C83_search (gauss : ℕ → ℝ) (w w1 w2 : World) (id id' : ℕ) (length tsamp period phi0 ducy amp sd : ℝ) (ht : 0 < tsamp)
    (hl : 0 ≤ length) (hd0 : 0 < ducy) (hd1 : ducy ≤ 1) (hs : sd ≤ 0) (ha : 0 ≤ amp)
    (hgen : tsGenerate gauss w length tsamp period phi0 ducy amp sd = .ok (w1, id))
    (o : TsObj) (ho : w1.objs[id]? = some o) (idx : IdxRule) (a : SearchArgs) (res : SearchResult)
    (hidx : IdxFor idx ((w1.dataOf o).length / a.binsMin)) (hN : (w1.dataOf o).length ≤ 2 ^ 64)
    (hn : a.alreadyNormalised = true) (hde : a.deredden = false) (hb : 2 ≤ a.binsMin) (hdm : a.ducyMax < 1)
    (h : ffaSearch idx w1 id a = .ok (w2, id', res)) :
    (∀ row ∈ res.snrs, ∀ v ∈ row, v ≤ Real.sqrt 2 * amp) ∧
    (a.periodMin = tsamp * a.binsMin →
      (∀ (j : ℕ) (p : ℝ) (row : List ℝ), res.periods[j]? = some p → res.snrs[j]? = some row →
        p < tsamp * (a.binsMax + 1) → ∀ v ∈ row, v ≤ amp) ∧
      ∀ b : ℕ, period = b * tsamp → a.binsMin ≤ b → b ≤ a.binsMax → period < a.periodMax → 2 * b ≤ (w1.dataOf o).length →
        ∃ (j : ℕ) (row : List ℝ), res.periods[j]? = some period ∧ res.foldbins[j]? = some b ∧ res.snrs[j]? = some row ∧
          ∀ k (hk : k < res.widths.length), ∃ v, row[k]? = some v ∧
            IsMatchedSnr b res.widths[k] (fun c => (w1.dataOf o).getD c 0)
              (1 / Real.sqrt ((w1.dataOf o).length / b : ℕ)) v) := by
  obtain ⟨w', n, x, o', hg, _, _, hx, hxl, _, ho', hdat, hts, hda, htobs, _⟩ :=
    C83_generate gauss w length tsamp period phi0 ducy amp sd ht hl
  rw [hgen] at hg
  cases hg
  rw [ho] at ho'
  cases ho'
  -- the search sees the generated data
  have hwid : res.widths = generateWidthTrials a.binsMin a.ducyMax a.wtsp ∧
      periodogramBinding idx x tsamp res.widths a.periodMin a.periodMax a.binsMin a.binsMax =
        .ok (res.periods, res.foldbins, res.snrs) := by
    unfold ffaSearch searchDeredden searchNormalise at h
    simp only [hn, hde, Bool.false_eq_true, if_false, if_true, Except.bind, World.obj, ho, hdat, hts] at h
    cases hp : periodogramBinding idx x tsamp (generateWidthTrials a.binsMin a.ducyMax a.wtsp) a.periodMin a.periodMax
        a.binsMin a.binsMax with
    | error e =>
      rw [hp] at h
      cases e <;> simp [liftCall] at h
    | ok r =>
      obtain ⟨per, fb, snr⟩ := r
      rw [hp] at h
      simp only [liftCall, Except.ok.injEq, Prod.mk.injEq] at h
      obtain ⟨_, _, rfl⟩ := h
      exact ⟨rfl, hp⟩
  obtain ⟨hwid, hpg⟩ := hwid
  have hne : res.widths ≠ [] := by
    intro hcon
    have := (C24_width_trials a.binsMin a.ducyMax a.wtsp).2.1
    rw [hwid] at hcon
    rw [hcon] at this
    simp at this
  have hws : ∀ w ∈ res.widths, 0 < w ∧ w < a.binsMin := by
    rw [hwid]; exact C24_widths_valid a.binsMin hb a.ducyMax a.wtsp hdm a.binsMin le_rfl
  have hen : (x.map (fun v => v ^ 2)).sum ≤ amp ^ 2 := by
    rcases Nat.eq_zero_or_pos n with h0 | h0
    · have : x = [] := List.length_eq_zero_iff.mp (hxl.trans h0)
      rw [this]
      simpa using sq_nonneg amp
    · obtain ⟨x', hx', _, e, _⟩ := C82_noiseless gauss n h0 (period / tsamp) phi0 ducy amp sd hd0 hd1 hs
      rw [hx] at hx'
      cases hx'
      exact e.le
  rw [hdat] at hidx hN
  have hlenrow : ∀ row ∈ res.snrs, row.length = res.widths.length := by
    obtain ⟨a', _, _, _, _, _, hsnr⟩ := pg_ok_inv hne hidx hpg
    intro row hrow
    rw [hsnr] at hrow
    obtain ⟨t, _, rfl⟩ := List.mem_map.mp hrow
    simp only [snrOf, snrRow_length]
  refine ⟨?_, ?_⟩
  · intro row hrow v hv
    obtain ⟨k, hk, rfl⟩ := List.getElem_of_mem hv
    obtain ⟨v, hv', _, hle⟩ := C77_snr_range idx x tsamp res.widths hne a.periodMin a.periodMax a.binsMin a.binsMax hidx hN hws
      _ _ _ hpg row hrow k (by rw [← hlenrow row hrow]; exact hk)
    rw [List.getElem?_eq_getElem hk] at hv'
    cases hv'
    refine hle.trans ?_
    rw [Real.sqrt_mul (by norm_num)]
    exact mul_le_mul_of_nonneg_left (Real.sqrt_le_iff.mpr ⟨ha, hen⟩) (Real.sqrt_nonneg _)
  · intro hpm
    refine ⟨?_, ?_⟩
    · intro j p row hp hr hlt v hv
      refine (C77_no_downsampling idx x tsamp res.widths hne a.periodMin a.periodMax a.binsMin a.binsMax hidx hN hws _ _ _ hpm hpg
        j p row hp hr hlt v hv).trans ?_
      exact Real.sqrt_le_iff.mpr ⟨ha, hen⟩
    · intro b hper h1 h2 h3 h4
      rw [hdat] at h4 ⊢
      have hbpos : 0 < b := by omega
      have hb0 : (b : ℝ) ≠ 0 := by exact_mod_cast hbpos.ne'
      rw [hper]
      apply C78_folding_gain idx x tsamp res.widths hne a.periodMin a.periodMax a.binsMin a.binsMax hidx hN hws _ _ _ hpm b h1 h2
        (by rw [← hper]; exact h3) h4 _ _ hpg
      intro i hi
      have hlt : i < x.length := hi.trans_le (Nat.div_mul_le_self _ _)
      have hlt2 : i % b < x.length := (Nat.mod_le _ _).trans_lt hlt
      obtain ⟨x', hx', _, _, _, hp⟩ := C82_noiseless gauss n (by omega) (period / tsamp) phi0 ducy amp sd hd0 hd1 hs
      rw [hx] at hx'
      cases hx'
      rw [List.getElem?_eq_getElem hlt]
      have e := hp i (i % b) x[i] x[i % b] (List.getElem?_eq_getElem hlt) (List.getElem?_eq_getElem hlt2)
        ⟨(i / b : ℕ), Or.inl ?_⟩
      · rw [e]
        simp [List.getD, hlt2]
      · rw [hper, mul_div_cancel_right₀ _ ht.ne']
        have hdm : (i : ℝ) = b * (i / b : ℕ) + (i % b : ℕ) := by exact_mod_cast (Nat.div_add_mod i b).symm
        rw [Int.cast_natCast]
        conv_lhs => rw [hdm]
        field_simp
        ring

/-- A search of a generated signal with 10 periods of 8 samples meets the hypotheses of C83, and finds the period. -/
example : ∃ (w1 w2 : World) (id id' : ℕ) (o : TsObj) (a : SearchArgs) (res : SearchResult),
    tsGenerate (fun _ => 0) ⟨[], [], []⟩ 8 (1 / 10) (8 / 10) (1 / 2) (1 / 4) 10 0 = .ok (w1, id) ∧ w1.objs[id]? = some o ∧
    (w1.dataOf o).length = 80 ∧ ffaSearch float32Idx w1 id a = .ok (w2, id', res) ∧
    (∀ row ∈ res.snrs, ∀ v ∈ row, v ≤ Real.sqrt 2 * 10) ∧
    ∃ (j : ℕ), res.periods[j]? = some (8 / 10 : ℝ) ∧ res.foldbins[j]? = some 8 := by
  obtain ⟨w1, n, x, o, hgen, hnear, _, hx, hxl, _, ho, hdat, hts, _⟩ :=
    C83_generate (fun _ => 0) ⟨[], [], []⟩ 8 (1 / 10) (8 / 10) (1 / 2) (1 / 4) 10 0 (by norm_num) (by norm_num)
  have hn : n = 80 := by
    rw [abs_le] at hnear
    have h1 : (n : ℝ) < 81 := by linarith [hnear.1]
    have h2 : (79 : ℝ) < n := by linarith [hnear.2]
    have h1' : n < 81 := by exact_mod_cast h1
    have h2' : 79 < n := by exact_mod_cast h2
    omega
  obtain ⟨a, ha⟩ : ∃ a : SearchArgs, a = ⟨8 / 10, 2, 8, 8, 10, 1 / 5, 3 / 2, false, 4, 101, true⟩ := ⟨_, rfl⟩
  have hhead : (generateWidthTrials a.binsMin a.ducyMax a.wtsp).head? = some 1 :=
    (C24_width_trials a.binsMin a.ducyMax a.wtsp).2.1
  have hne := List.ne_nil_of_mem (List.mem_of_head? hhead)
  have hxl' : x.length = 80 := hxl.trans hn
  obtain ⟨per, fb, snr, lab, h1, _⟩ := C19_no_holes float32Idx x (1 / 10)
    (generateWidthTrials a.binsMin a.ducyMax a.wtsp) hne (8 / 10) 2 8 10
    (by rw [hxl']; exact Or.inr ⟨Or.inl rfl, by norm_num⟩)
    (by rw [hxl']; refine ⟨?_, ?_, ?_, ?_, ?_, ?_⟩ <;> norm_num) (by rw [hxl']; norm_num)
  have hs : ffaSearch float32Idx w1 0 a = .ok (w1, 0,
      ⟨generateWidthTrials a.binsMin a.ducyMax a.wtsp, per, fb, snr, o.metadata⟩) := by
    have ho0 : w1.objs[0]? = some o := ho
    have e1 : a.periodMin = 8 / 10 ∧ a.periodMax = 2 ∧ a.binsMax = 10 ∧ a.alreadyNormalised = true ∧ a.deredden = false := by
      rw [ha]; exact ⟨rfl, rfl, rfl, rfl, rfl⟩
    have e2 : a.binsMin = 8 := by rw [ha]
    obtain ⟨e3, e4, e5, e6, e7⟩ := e1
    unfold ffaSearch searchDeredden searchNormalise
    simp only [e6, e7, Bool.false_eq_true, if_false, if_true, Except.bind, World.obj, ho0, hdat, hts, e3, e4, e5]
    rw [e2] at h1 ⊢
    rw [h1]
    rfl
  obtain ⟨k1, k2⟩ := C83_search (fun _ => 0) ⟨[], [], []⟩ w1 w1 0 0 8 (1 / 10) (8 / 10) (1 / 2) (1 / 4) 10 0 (by norm_num)
    (by norm_num) (by norm_num) (by norm_num) le_rfl (by norm_num) hgen o ho float32Idx a _
    (by rw [hdat, hxl', ha]; exact Or.inr ⟨Or.inl rfl, by norm_num⟩) (by rw [hdat, hxl']; norm_num) (by rw [ha]) (by rw [ha])
    (by rw [ha]; norm_num) (by rw [ha]; norm_num) hs
  obtain ⟨_, k3⟩ := k2 (by rw [ha]; norm_num)
  obtain ⟨j, row, p1, p2, _⟩ := k3 8 (by norm_num) (by rw [ha]) (by rw [ha]; norm_num) (by rw [ha]; norm_num)
    (by rw [hdat, hxl']; norm_num)
  exact ⟨w1, w1, 0, 0, o, a, _, hgen, ho, hdat ▸ hxl', hs, k1, j, p1, p2⟩

end Verif.Props
