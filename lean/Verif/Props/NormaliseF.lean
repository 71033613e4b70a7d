import Verif.Lemmas.NormaliseF
import Verif.Props.GridF
import Verif.Props.Detection

/-!
# C119: `normalise` in floating point, and the search of raw samples
-/

namespace Verif.Props

open Verif.Model Verif.Spec Verif.Lemmas Finset

section

variable {B : FArith} {u v : ℝ}

/-- The computed standard deviation. -/
theorem norm_near (h : Rounds B u v) (hv : v ≤ 1 / 3) {root : ℝ → ℝ} (hroot : ∀ a, 0 ≤ a → |root a - Real.sqrt a| ≤ 2 * v * Real.sqrt a)
    {x : List ℝ} {V : ℝ} (hV : IsVarF B x V) :
    ∃ m, IsMeanF B x m ∧ NearR (grow v) (x.length + 6) (root V) (Real.sqrt (varOf x + (m - meanOf x) ^ 2)) := by
  obtain ⟨q1, q2, q3⟩ := grow_facts (dblOnly_rounds h)
  obtain ⟨m, hm, hn⟩ := var_near h hV
  refine ⟨m, hm, ?_⟩
  have w0 : 0 ≤ varOf x + (m - meanOf x) ^ 2 := by
    have : 0 ≤ varOf x := by
      unfold varOf
      refine div_nonneg (List.sum_nonneg ?_) (Nat.cast_nonneg _)
      intro a ha
      obtain ⟨b, _, rfl⟩ := List.mem_map.mp ha
      positivity
    positivity
  have hV0 := hn.nonneg q1 w0
  have s := hn.sqrt q1 (j := x.length + 3) (by omega) hV0 w0
  have t := (root_near h hv hroot hV0).trans q1 s
  rwa [show 3 + (x.length + 3) = x.length + 6 by omega] at t

/-- A product of factors close to 1. -/
theorem inv_ge {p q r c : ℝ} (hc : 0 < c) (hp : 0 ≤ p) (hq : 0 ≤ q) (hr : 0 ≤ r) (h : 1 ≤ c * ((1 + p) * (1 + q) * (1 + r))) : 1 - p - q - r ≤ c := by
  by_contra hlt
  push Not at hlt
  have hs : 0 < 1 - p - q - r := lt_trans hc hlt
  have h1 : (1 - p - q - r) * (1 + p) ≤ 1 - q - r := by nlinarith
  have h2 : (1 - q - r) * (1 + q) ≤ 1 - r := by nlinarith
  have h3 : (1 - r) * (1 + r) ≤ 1 := by nlinarith
  have h4 : c * ((1 + p) * (1 + q) * (1 + r)) < (1 - p - q - r) * ((1 + p) * (1 + q) * (1 + r)) :=
    mul_lt_mul_of_pos_right hlt (by positivity)
  have h5 : (1 - p - q - r) * ((1 + p) * (1 + q) * (1 + r)) ≤ 1 := by
    calc _ = (1 - p - q - r) * (1 + p) * (1 + q) * (1 + r) := by ring
      _ ≤ (1 - q - r) * (1 + q) * (1 + r) := by gcongr
      _ ≤ (1 - r) * (1 + r) := by gcongr
      _ ≤ 1 := h3
  linarith

/-- The factor of the scale. -/
theorem scale_close {k : ℕ} {q σ δ η t N N' : ℝ} (hq : 1 ≤ q) (hqk : q ^ k - 1 ≤ η) (hσ : 0 < σ) (hu0 : 0 ≤ u) (hu : u ≤ 1 / 4) (hδ : |δ| ≤ t * σ)
    (hN : NearR q k N (Real.sqrt (σ ^ 2 + δ ^ 2))) (hN' : |N' - N| ≤ u * |N|) :
    0 < N' ∧ |σ / N' - 1| ≤ 2 * u + 2 * η + t ^ 2 := by
  obtain ⟨ρ, hρ⟩ : ∃ ρ, ρ = Real.sqrt (σ ^ 2 + δ ^ 2) := ⟨_, rfl⟩
  rw [← hρ] at hN
  have hρσ : σ ≤ ρ := by rw [hρ]; exact Real.le_sqrt_of_sq_le (by nlinarith [sq_nonneg δ])
  have hρt : ρ ≤ σ * (1 + t ^ 2) := by
    rw [hρ]
    apply Real.sqrt_le_iff.mpr
    refine ⟨by positivity, ?_⟩
    have : δ ^ 2 ≤ (t * σ) ^ 2 := sq_le_sq' (by linarith [neg_abs_le δ]) (le_trans (le_abs_self δ) hδ)
    have h4 : 0 ≤ σ ^ 2 * t ^ 2 := by positivity
    have h5 : 0 ≤ σ ^ 2 * (t ^ 2) ^ 2 := by positivity
    nlinarith
  have hρ0 : 0 < ρ := by linarith
  have hN0 := hN.pos hq hρ0
  have hk := pow_ge_one hq k
  have hη : 0 ≤ η := by linarith
  rw [abs_of_pos hN0, abs_le] at hN'
  have n1 : N * (1 - u) ≤ N' := by linarith [hN'.1]
  have n2 : N' ≤ N * (1 + u) := by linarith [hN'.2]
  have hN'0 : 0 < N' := lt_of_lt_of_le (by apply mul_pos hN0; linarith) n1
  refine ⟨hN'0, ?_⟩
  rw [abs_le]
  constructor
  · have : 1 - t ^ 2 - η - u ≤ σ / N' := by
      apply inv_ge (by positivity) (by positivity) hη hu0
      rw [div_mul_eq_mul_div, le_div_iff₀ hN'0, one_mul]
      calc N' ≤ N * (1 + u) := n2
        _ ≤ (ρ * q ^ k) * (1 + u) := mul_le_mul_of_nonneg_right hN.2 (by linarith)
        _ ≤ (ρ * (1 + η)) * (1 + u) := by gcongr; linarith
        _ ≤ (σ * (1 + t ^ 2) * (1 + η)) * (1 + u) := by gcongr
        _ = _ := by ring
    linarith
  · have h1 : σ ≤ N' * ((1 + η) * (1 + 4 / 3 * u)) := by
      calc σ ≤ ρ := hρσ
        _ ≤ N * q ^ k := hN.1
        _ ≤ N * (1 + η) := by gcongr; linarith
        _ ≤ N * ((1 - u) * (1 + 4 / 3 * u)) * (1 + η) := by
            have : 1 ≤ (1 - u) * (1 + 4 / 3 * u) := by nlinarith
            have := mul_le_mul_of_nonneg_left this (by positivity : 0 ≤ N * (1 + η))
            linarith
        _ = N * (1 - u) * ((1 + η) * (1 + 4 / 3 * u)) := by ring
        _ ≤ _ := by gcongr
    have h2 : σ / N' ≤ (1 + η) * (1 + 4 / 3 * u) := by
      rw [div_le_iff₀ hN'0, mul_comm]
      exact h1
    have h3 : u * η ≤ 1 / 4 * η := mul_le_mul_of_nonneg_right hu hη
    nlinarith [sq_nonneg t]

theorem rel_pow {u a b c : ℝ} (hu0 : 0 ≤ u) (hu : u ≤ 1 / 4) {x : ℝ} (ha : |a - x| ≤ u * |x|) (hb : |b - a| ≤ u * |a|) (hc : |c - b| ≤ u * |b|) :
    |c - x| ≤ 4 * u * |x| := by
  have h1 : |a| ≤ (1 + u) * |x| := by
    have := abs_add_le (a - x) x
    rw [sub_add_cancel] at this
    linarith
  have h2 : |b| ≤ (1 + u) * |a| := by
    have := abs_add_le (b - a) a
    rw [sub_add_cancel] at this
    linarith
  have e : c - x = (c - b) + (b - a) + (a - x) := by ring
  rw [e]
  refine (abs_add_three _ _ _).trans ?_
  have h3 : |b| ≤ (1 + u) * ((1 + u) * |x|) := h2.trans (mul_le_mul_of_nonneg_left h1 (by linarith))
  have h4 : u * |b| ≤ u * ((1 + u) * ((1 + u) * |x|)) := mul_le_mul_of_nonneg_left h3 hu0
  have h5 : u * |a| ≤ u * ((1 + u) * |x|) := mul_le_mul_of_nonneg_left h1 hu0
  have h6 : (1 + u) * (1 + u) + (1 + u) + 1 ≤ 4 := by nlinarith
  have h7 := mul_le_mul_of_nonneg_left h6 (mul_nonneg hu0 (abs_nonneg x))
  linarith

/-- One sample. -/
theorem normaliseOne_close (h : Rounds B u v) (hu : u ≤ 1 / 4) (narrow : Bool) {m N : ℝ} :
    ∃ m' N', |m' - m| ≤ u * |m| ∧ |N' - N| ≤ u * |N| ∧ ∀ a, |B.normaliseOne narrow m N a - (a - m') / N'| ≤ 4 * u * |(a - m') / N'| := by
  have hu0 := h.u_nonneg
  have hd : ∀ x, |B.dbl x - x| ≤ u * |x| := fun x => (h.dbl x).trans (mul_le_mul_of_nonneg_right h.v_le (abs_nonneg _))
  have hdiv : ∀ a b N : ℝ, |a - b| ≤ u * |b| → |a / N - b / N| ≤ u * |b / N| := by
    intro a b N hab
    rw [← sub_div, abs_div, abs_div, ← mul_div_assoc]
    exact div_le_div_of_nonneg_right hab (abs_nonneg _)
  have hself : ∀ x : ℝ, |x - x| ≤ u * |x| := fun x => by rw [sub_self, abs_zero]; positivity
  cases narrow with
  | true =>
    refine ⟨B.fl m, B.fl N, h.fl m, h.fl N, fun a => ?_⟩
    unfold FArith.normaliseOne
    rw [if_pos rfl]
    exact rel_pow hu0 hu (hself _) (hdiv _ _ _ (h.fl _)) (h.fl _)
  | false =>
    refine ⟨m, N, hself m, hself N, fun a => ?_⟩
    unfold FArith.normaliseOne
    rw [if_neg (by simp)]
    exact rel_pow hu0 hu (hdiv _ _ _ (hd _)) (hd _) (h.fl _)

end

/-- C119. `TimeSeries.normalise` in floating point, for any order of summation and for either type promotion of NumPy. Let `μ` and `σ` be
the exact mean and standard deviation of the samples, `A` the mean of their absolute values, `n` their number, `u` and `v` the rounding
errors of `float32` and `float64`, and `η = γ_{n+6}` in `float64`. Then there are numbers `c` and `o` with `|c - 1| ≤ 2u + 2η + (η A/σ)²` and
`|o| ≤ (u |μ| + 2 η A) / σ`, such that every output sample is `c (z + o)` up to a relative error of `4u`, where `z` is the exactly normalised sample. -/
theorem C119_normalise {B : FArith} {u v : ℝ} (h : Rounds B u v) (hu : u ≤ 1 / 4) {root : ℝ → ℝ}
    (hroot : ∀ a, 0 ≤ a → |root a - Real.sqrt a| ≤ 2 * v * Real.sqrt a) (narrow : Bool) {x y : List ℝ} (hn : (x.length + 6 : ℕ) * v < 1)
    (hvar : 0 < varOf x) (hy : NormalisesTo B root narrow x y) :
    y.length = x.length ∧ ∃ c o : ℝ,
      |c - 1| ≤ 2 * u + 2 * gam v (x.length + 6) + (gam v (x.length + 6) * ((x.map fun a => |a|).sum / x.length) / Real.sqrt (varOf x)) ^ 2 ∧
      |o| ≤ (u * |meanOf x| + 2 * gam v (x.length + 6) * ((x.map fun a => |a|).sum / x.length)) / Real.sqrt (varOf x) ∧
      ∀ (i : ℕ) (a : ℝ), x[i]? = some a → ∃ r, y[i]? = some r ∧
        |r - c * ((a - meanOf x) / Real.sqrt (varOf x) + o)| ≤ 4 * u * |c * ((a - meanOf x) / Real.sqrt (varOf x) + o)| := by
  obtain ⟨m, V, hm, hV, rfl⟩ := hy
  refine ⟨by simp, ?_⟩
  have hd := dblOnly_rounds h
  obtain ⟨q1, q2, q3⟩ := grow_facts hd
  obtain ⟨m2, hm2, hnorm⟩ := norm_near h (by linarith [h.v_le]) hroot hV
  have hη := grow_le_gam hd (x.length + 6) hn
  change grow v ^ (x.length + 6) - 1 ≤ gam v (x.length + 6) at hη
  have hu0 := h.u_nonneg
  have hη0 : 0 ≤ gam v (x.length + 6) := by have := pow_ge_one q1 (x.length + 6); linarith
  have hM0 := meanAbs_nonneg x
  have hmean : ∀ m, IsMeanF B x m → |m - meanOf x| ≤ gam v (x.length + 6) * meanAbs x := by
    intro m hm
    refine (mean_close h hm).trans (mul_le_mul_of_nonneg_right ?_ hM0)
    have := pow_le_pow_right₀ q1 (by omega : x.length ≤ x.length + 6)
    linarith
  change ∃ c o : ℝ, |c - 1| ≤ 2 * u + 2 * gam v (x.length + 6) + (gam v (x.length + 6) * meanAbs x / Real.sqrt (varOf x)) ^ 2 ∧
      |o| ≤ (u * |meanOf x| + 2 * gam v (x.length + 6) * meanAbs x) / Real.sqrt (varOf x) ∧ _
  obtain ⟨σ, hσ⟩ : ∃ σ, σ = Real.sqrt (varOf x) := ⟨_, rfl⟩
  have hσ0 : 0 < σ := by rw [hσ]; exact Real.sqrt_pos.mpr hvar
  have hσ2 : varOf x = σ ^ 2 := by rw [hσ, Real.sq_sqrt hvar.le]
  rw [hσ2] at hnorm
  rw [← hσ]
  generalize gam v (x.length + 6) = η at *
  generalize meanAbs x = M at *
  generalize meanOf x = μ at *
  obtain ⟨m', N', b1, b2, b3⟩ := normaliseOne_close h hu narrow (m := m) (N := root V)
  obtain ⟨hN0, hc⟩ := scale_close (t := η * M / σ) q1 hη hσ0 hu0 hu (by rw [div_mul_cancel₀ _ hσ0.ne']; exact hmean m2 hm2) hnorm b2
  refine ⟨σ / N', (μ - m') / σ, hc, ?_, ?_⟩
  · rw [abs_div, abs_of_pos hσ0]
    refine div_le_div_of_nonneg_right ?_ hσ0.le
    have h1 := hmean m hm
    have h2 : |m| ≤ |μ| + η * M := by
      have := abs_add_le (m - μ) μ
      rw [sub_add_cancel] at this
      linarith
    have h3 : u * |m| ≤ u * (|μ| + η * M) := mul_le_mul_of_nonneg_left h2 hu0
    have h4 : u * (η * M) ≤ 1 / 4 * (η * M) := mul_le_mul_of_nonneg_right hu (by positivity)
    have e : μ - m' = -((m' - m) + (m - μ)) := by ring
    rw [e, abs_neg]
    refine (abs_add_le _ _).trans ?_
    have h5 : 0 ≤ η * M := by positivity
    linarith
  · intro i a hi
    refine ⟨_, by rw [List.getElem?_map, hi]; rfl, ?_⟩
    have e : σ / N' * ((a - μ) / σ + (μ - m') / σ) = (a - m') / N' := by field_simp; ring
    rw [e]
    exact b3 a

/-! ### The search -/

theorem matched_exists {n w : ℕ} (h0 : 0 < w) (h1 : w < n) (x : ℕ → ℝ) (std : ℝ) : ∃ e, IsMatchedSnr n w x std e := by
  choose! t ht using fun φ (hφ : φ < n) => boxcar_exists h0 h1 hφ
  obtain ⟨φ, hφ, hmax⟩ := (range n).exists_max_image (fun φ => (∑ i ∈ range n, x i * t φ i) / std) ⟨0, mem_range.mpr (by omega)⟩
  refine ⟨_, ⟨φ, mem_range.mp hφ, t φ, ht φ (mem_range.mp hφ), rfl⟩, ?_⟩
  intro ψ hψ τ hτ
  rw [boxcar_dot h0 h1 hψ hτ, ← boxcar_dot h0 h1 hψ (ht ψ hψ)]
  exact hmax ψ (mem_range.mpr hψ)

/-- The output of a filter for constant data. -/
theorem trialOut_one {N m b : ℕ} (σ : ℕ → ℕ → ℕ) {f V : ℝ} (hf : 0 < f) (hN : N ≤ 2 ^ 25) (hmb : ((m * b : ℕ) : ℝ) * f ≤ (1 + 1 / 2 ^ 53) * N)
    (s : ℕ) {t : ℕ → ℝ} (hz : ∑ c ∈ range b, t c = 0) (hs : ∑ c ∈ range b, t c ^ 2 = 1) (hstd : 1 ≤ Real.sqrt (m * V)) :
    |trialOut N m b σ f V s t (fun _ => 1)| ≤ 1 / 2 ^ 28 := by
  obtain ⟨w1, w2⟩ := window_deficit hf hN hmb
  have e1 : ∀ c, trialProf N m b σ f s (fun _ => 1) c = m * f - stack m b σ (fun r c => f - downsampled N (fun _ => 1) f (r * b + c)) s c := by
    intro c
    unfold trialProf stack
    rw [sum_sub_distrib, sum_const, card_range, nsmul_eq_mul]
    ring
  have e2 : ∑ c ∈ range b, trialProf N m b σ f s (fun _ => 1) c * t c =
      -∑ c ∈ range b, stack m b σ (fun r c => f - downsampled N (fun _ => 1) f (r * b + c)) s c * t c := by
    have : ∀ c ∈ range b, trialProf N m b σ f s (fun _ => 1) c * t c =
        m * f * t c - stack m b σ (fun r c => f - downsampled N (fun _ => 1) f (r * b + c)) s c * t c := by
      intro c _
      rw [e1]
      ring
    rw [sum_congr rfl this, sum_sub_distrib, ← mul_sum, hz]
    ring
  unfold trialOut
  rw [e2, abs_div, abs_neg, abs_of_nonneg (Real.sqrt_nonneg _)]
  refine (div_le_self (abs_nonneg _) hstd).trans (le_trans ?_ w2)
  refine (abs_sum_le_sum_abs _ _).trans ?_
  rw [← sum_blocks (fun q => f - downsampled N (fun _ => 1) f q), ← stack_sum m b σ (fun r c => f - downsampled N (fun _ => 1) f (r * b + c)) s]
  refine sum_le_sum ?_
  intro i hi
  have h0 : 0 ≤ stack m b σ (fun r c => f - downsampled N (fun _ => 1) f (r * b + c)) s i := by
    unfold stack
    exact sum_nonneg (fun r _ => w1 _)
  rw [abs_mul, abs_of_nonneg h0]
  have h4 : t i ^ 2 ≤ 1 := by
    rw [← hs]
    exact single_le_sum (f := fun i => t i ^ 2) (fun j _ => sq_nonneg _) hi
  have h5 : |t i| ≤ 1 := by
    rw [← sq_abs] at h4
    nlinarith [abs_nonneg (t i)]
  nlinarith

/-- The S/N of data that have been scaled and shifted, up to relative errors. -/
theorem matched_affine {N m b w : ℕ} {σ : ℕ → ℕ → ℕ} {f V ey ez c o θ E : ℝ} {s : ℕ} {y z : ℕ → ℝ} (hf : 0 < f) (hN : N ≤ 2 ^ 25)
    (hmb : ((m * b : ℕ) : ℝ) * f ≤ (1 + 1 / 2 ^ 53) * N) (hV : 0 < V) (hm : 0 < m) (hstd : 1 ≤ Real.sqrt (m * V)) (hc : 0 < c) (hE : 0 ≤ E)
    (hy : ∀ i < N, |y i - c * (z i + o)| ≤ θ * |c * (z i + o)|) (hs : f / V * ∑ i ∈ range N, (θ * |c * (z i + o)|) ^ 2 ≤ E ^ 2)
    (h1 : IsMatchedSnr b w (stack m b σ (fun r c => downsampled N y f (r * b + c)) s) (Real.sqrt (m * V)) ey)
    (h2 : IsMatchedSnr b w (stack m b σ (fun r c => downsampled N z f (r * b + c)) s) (Real.sqrt (m * V)) ez) :
    |ey - c * ez| ≤ c * |o| / 2 ^ 28 + E := by
  have key : ∀ φ t, IsBoxcar b w φ t → |trialOut N m b σ f V s t y - c * trialOut N m b σ f V s t z| ≤ c * |o| / 2 ^ 28 + E := by
    intro φ t ⟨_, _, _, _, hz, ht⟩
    have a1 := trialOut_sq (N := N) σ hf.le hV hm s ht (fun i => y i - c * (z i + o))
    have a2 : trialOut N m b σ f V s t (fun i => y i - c * (z i + o)) ^ 2 ≤ E ^ 2 := by
      refine a1.trans (le_trans (mul_le_mul_of_nonneg_left (sum_le_sum ?_) (by positivity)) hs)
      intro i hi
      rw [← sq_abs]
      have := hy i (mem_range.mp hi)
      gcongr
    have a3 := abs_le_of_sq_le_sq a2 hE
    rw [trialOut_sub] at a3
    obtain ⟨a, ha⟩ := trialOut_linear N m b σ f V s t
    have e : trialOut N m b σ f V s t (fun i => c * (z i + o)) = c * trialOut N m b σ f V s t z + c * o * trialOut N m b σ f V s t (fun _ => 1) := by
      rw [ha, ha, ha, mul_sum, mul_sum, ← sum_add_distrib]
      exact sum_congr rfl (fun i _ => by ring)
    have a4 := trialOut_one σ hf hN hmb s hz ht hstd
    have a5 : |c * o * trialOut N m b σ f V s t (fun _ => 1)| ≤ c * |o| / 2 ^ 28 := by
      rw [abs_mul, abs_mul, abs_of_pos hc]
      calc _ ≤ c * |o| * (1 / 2 ^ 28) := mul_le_mul_of_nonneg_left a4 (by positivity)
        _ = _ := by ring
    have e2 : trialOut N m b σ f V s t y - c * trialOut N m b σ f V s t z = (trialOut N m b σ f V s t y - trialOut N m b σ f V s t (fun i => c * (z i + o))) +
        c * o * trialOut N m b σ f V s t (fun _ => 1) := by rw [e]; ring
    rw [e2]
    exact (abs_add_le _ _).trans (by linarith)
  obtain ⟨⟨φ, hφ, t, ht, rfl⟩, u1⟩ := matched_out h1
  obtain ⟨⟨ψ, hψ, τ, hτ, rfl⟩, u2⟩ := matched_out h2
  have k1 := abs_le.mp (key φ t ht)
  have k2 := abs_le.mp (key ψ τ hτ)
  have m1 := mul_le_mul_of_nonneg_left (u2 φ hφ t ht) hc.le
  have m2 := u1 ψ hψ τ hτ
  rw [abs_le]
  constructor <;> linarith

/-- The moments of the normalised samples. -/
theorem moments_range {x : List ℝ} {μ σ : ℝ} (hμ : μ = meanOf x) (hσ : σ = Real.sqrt (varOf x)) (hvar : 0 < varOf x) :
    ∑ i ∈ range x.length, (x.getD i 0 - μ) / σ = 0 ∧ ∑ i ∈ range x.length, ((x.getD i 0 - μ) / σ) ^ 2 = x.length := by
  have hx : x ≠ [] := by
    rintro rfl
    simp [varOf] at hvar
  obtain ⟨h1, h2⟩ := normalised_moments hx hvar
  unfold normalised at h1 h2
  rw [List.map_map] at h2
  rw [sum_map_getD] at h1 h2
  rw [hμ, hσ]
  exact ⟨h1, h2⟩

/-- What the normalised samples are, as far as the search is concerned. -/
theorem shifted_sums {n : ℕ} {y z : ℕ → ℝ} {c o u : ℝ} (h1 : ∑ i ∈ range n, z i = 0) (h2 : ∑ i ∈ range n, z i ^ 2 = n) (hu : u ≤ 1 / 100)
    (hc0 : 0 < c) (hc : c ≤ 105 / 100) (ho : |o| ≤ 3 / 10) (hy : ∀ i < n, |y i - c * (z i + o)| ≤ 4 * u * |c * (z i + o)|) :
    ∑ i ∈ range n, (4 * u * |c * (z i + o)|) ^ 2 ≤ 49 / 2 * u ^ 2 * n ∧ ∑ i ∈ range n, |y i| ≤ 2 * n := by
  have hn : (0 : ℝ) ≤ n := Nat.cast_nonneg _
  have ho2 : o ^ 2 ≤ 9 / 100 := by
    rw [← sq_abs]
    nlinarith [abs_nonneg o]
  have hc2 : c ^ 2 ≤ 11025 / 10000 := by nlinarith
  have e : ∑ i ∈ range n, (z i + o) ^ 2 = n * (1 + o ^ 2) := by
    have : ∀ i ∈ range n, (z i + o) ^ 2 = z i ^ 2 + 2 * o * z i + o ^ 2 := fun i _ => by ring
    rw [sum_congr rfl this, sum_add_distrib, sum_add_distrib, ← mul_sum, h1, h2, sum_const, card_range, nsmul_eq_mul]
    ring
  constructor
  · have : ∀ i ∈ range n, (4 * u * |c * (z i + o)|) ^ 2 = 16 * u ^ 2 * c ^ 2 * (z i + o) ^ 2 := by
      intro i _
      rw [mul_pow, sq_abs]
      ring
    rw [sum_congr rfl this, ← mul_sum, e]
    have h3 : c ^ 2 * (1 + o ^ 2) ≤ 11025 / 10000 * (1 + 9 / 100) := mul_le_mul hc2 (by linarith) (by positivity) (by norm_num)
    have h4 := mul_le_mul_of_nonneg_left h3 (by positivity : 0 ≤ 16 * u ^ 2 * n)
    have h5 : 0 ≤ u ^ 2 * n := by positivity
    nlinarith
  · have hz : ∑ i ∈ range n, |z i + o| ≤ 13 / 10 * n := by
      have : ∀ i ∈ range n, |z i + o| ≤ (1 + z i ^ 2) / 2 + 3 / 10 := by
        intro i _
        have h3 := abs_add_le (z i) o
        have h4 : |z i| ≤ (1 + z i ^ 2) / 2 := by
          rw [← sq_abs (z i)]
          nlinarith [sq_nonneg (|z i| - 1)]
        linarith
      refine (sum_le_sum this).trans (le_of_eq ?_)
      rw [sum_add_distrib, ← sum_div, sum_add_distrib, h2, sum_const, sum_const, card_range, nsmul_eq_mul, nsmul_eq_mul]
      ring
    have h5 : ∀ i ∈ range n, |y i| ≤ 104 / 100 * (105 / 100) * |z i + o| := by
      intro i hi
      have h6 := hy i (mem_range.mp hi)
      have h7 := abs_add_le (y i - c * (z i + o)) (c * (z i + o))
      rw [sub_add_cancel] at h7
      have h8 : |c * (z i + o)| = c * |z i + o| := by rw [abs_mul, abs_of_pos hc0]
      rw [h8] at h6 h7
      have h9 : c * |z i + o| ≤ 105 / 100 * |z i + o| := mul_le_mul_of_nonneg_right hc (abs_nonneg _)
      have h10 : 4 * u * (c * |z i + o|) ≤ 4 / 100 * (c * |z i + o|) := mul_le_mul_of_nonneg_right (by linarith) (by positivity)
      linarith
    refine (sum_le_sum h5).trans ?_
    rw [← mul_sum]
    linarith

/-- One trial. -/
theorem trial_raw {idx : IdxRule} {x y : List ℝ} {t : DTrial} {V : ℚ} {bmin bmax w : ℕ} {B : FArith} {u v : ℝ} (h : Rounds B u v) (hu : u ≤ 1 / 100)
    {root : ℝ → ℝ} (hroot : ∀ a, 0 ≤ a → |root a - Real.sqrt a| ≤ 2 * v * Real.sqrt a) (narrow : Bool) (hn : (x.length + 6 : ℕ) * v < 1)
    {μ σ a η : ℝ} (hμ : μ = meanOf x) (hσ : σ = Real.sqrt (varOf x)) (ha : a = (x.map fun r => |r|).sum / x.length) (hη : η = gam v (x.length + 6))
    (hvar : 0 < varOf x) (s1 : η ≤ 1 / 100) (s2 : η * a / σ ≤ 1 / 10) (s3 : u * |μ| / σ ≤ 1 / 10) (hy : NormalisesTo B root narrow x y)
    (hN : x.length ≤ 2 ^ 25) (hb2 : 2 ≤ bmin) (hok : t.OK x.length bmin bmax) (hV : t.IsVariance V) (hVh : 1 / 2 ≤ V) (h0 : 0 < w) (h1 : w < t.b) {ey : ℝ}
    (he : IsMatchedSnr t.b w (stack t.m t.b (sigma idx t.m) (fun r c => downsampled x.length (fun i => y.getD i 0) t.f (r * t.b + c)) t.s)
      (Real.sqrt (t.m * V)) ey) :
    ∑ i ∈ range x.length, |y.getD i 0| ≤ 2 * x.length ∧ ∃ ez,
      IsMatchedSnr t.b w (stack t.m t.b (sigma idx t.m) (fun r c => downsampled x.length (fun i => (x.getD i 0 - μ) / σ) t.f (r * t.b + c)) t.s)
        (Real.sqrt (t.m * V)) ez ∧
      |ey - ez| ≤ (2 * u + 2 * η + (η * a / σ) ^ 2) * |ez| + 7 * u * Real.sqrt x.length + (u * |μ| + 2 * η * a) / σ / 2 ^ 27 := by
  obtain ⟨hl, c, o, c1, c2, c3⟩ := C119_normalise h (by linarith) hroot narrow hn hvar hy
  rw [← hμ, ← hσ, ← ha, ← hη] at c2
  rw [← hσ, ← ha, ← hη] at c1
  have hσ0 : 0 < σ := by rw [hσ]; exact Real.sqrt_pos.mpr hvar
  have hu0 := h.u_nonneg
  obtain ⟨m1, m2⟩ := moments_range hμ hσ hvar
  have ha0 : 0 ≤ a := by rw [ha]; exact meanAbs_nonneg x
  have hη0 : 0 ≤ η := by
    rw [hη]
    unfold gam
    exact div_nonneg (mul_nonneg (Nat.cast_nonneg _) h.v_nonneg) (by linarith)
  have hκ0 : 0 ≤ η * a / σ := by positivity
  have hκ2 : (η * a / σ) ^ 2 ≤ 1 / 100 := by nlinarith
  have cc := abs_le.mp c1
  have hc0 : 0 < c := by linarith [cc.1]
  have hc : c ≤ 105 / 100 := by linarith [cc.2]
  have ho : |o| ≤ 3 / 10 := by
    refine c2.trans ?_
    have : (u * |μ| + 2 * η * a) / σ = u * |μ| / σ + 2 * (η * a / σ) := by ring
    rw [this]
    linarith
  have hyz : ∀ i < x.length, |y.getD i 0 - c * ((x.getD i 0 - μ) / σ + o)| ≤ 4 * u * |c * ((x.getD i 0 - μ) / σ + o)| := by
    intro i hi
    obtain ⟨r, r1, r2⟩ := c3 i (x.getD i 0) (by rw [List.getElem?_eq_getElem hi, List.getD_eq_getElem?_getD, List.getElem?_eq_getElem hi]; rfl)
    rw [← hμ, ← hσ] at r2
    rw [List.getD_eq_getElem?_getD (l := y), r1]
    exact r2
  obtain ⟨t1, t2⟩ := shifted_sums m1 m2 hu hc0 hc ho hyz
  refine ⟨t2, ?_⟩
  obtain ⟨ez, hez⟩ := matched_exists h0 h1
    (stack t.m t.b (sigma idx t.m) (fun r c => downsampled x.length (fun i => (x.getD i 0 - μ) / σ) t.f (r * t.b + c)) t.s) (Real.sqrt (t.m * V))
  refine ⟨ez, hez, ?_⟩
  have hVR : (1 / 2 : ℝ) ≤ V := by
    have := (Rat.cast_le (K := ℝ)).mpr hVh
    push_cast at this
    exact this
  have hmR : (2 : ℝ) ≤ t.m := by exact_mod_cast hok.two
  have hfR : (1 : ℝ) ≤ t.f := by exact_mod_cast hok.factor
  have hf2 : (t.f : ℝ) ≤ 2 * V := by exact_mod_cast dtrial_variance_half hV hok.factor (dtrial_count hok hb2)
  have hstd : 1 ≤ Real.sqrt (t.m * V) := by
    rw [Real.one_le_sqrt]
    nlinarith
  have hmb : ((t.m * t.b : ℕ) : ℝ) * t.f ≤ (1 + 1 / 2 ^ 53) * x.length := by
    have o3R : (t.n : ℝ) * t.f ≤ (1 + 1 / 2 ^ 53) * x.length := by
      have := (Rat.cast_le (K := ℝ)).mpr hok.fits
      push_cast at this
      exact this
    have : ((t.m * t.b : ℕ) : ℝ) ≤ t.n := by
      rw [hok.rows]
      exact_mod_cast Nat.div_mul_le_self _ _
    exact (mul_le_mul_of_nonneg_right this (by linarith)).trans o3R
  have hE : (0 : ℝ) ≤ 7 * u * Real.sqrt x.length := by positivity
  have key := matched_affine (σ := sigma idx t.m) (s := t.s) (o := o) (by linarith : (0 : ℝ) < t.f) hN hmb (by linarith : (0 : ℝ) < V)
    (by have := hok.two; omega) hstd hc0 hE hyz (by
      rw [mul_pow, Real.sq_sqrt (Nat.cast_nonneg _)]
      have h5 : (t.f : ℝ) / V ≤ 2 := by rw [div_le_iff₀ (by linarith)]; exact hf2
      have h6 : 0 ≤ ∑ i ∈ range x.length, (4 * u * |c * ((x.getD i 0 - μ) / σ + o)|) ^ 2 := sum_nonneg (fun _ _ => sq_nonneg _)
      have h7 := mul_le_mul_of_nonneg_right h5 h6
      nlinarith) he hez
  have e : ey - ez = (ey - c * ez) + (c - 1) * ez := by ring
  rw [e]
  refine (abs_add_le _ _).trans ?_
  rw [abs_mul]
  have h8 := mul_le_mul_of_nonneg_right c1 (abs_nonneg ez)
  have h9 : c * |o| ≤ 2 * ((u * |μ| + 2 * η * a) / σ) := mul_le_mul (by linarith) c2 (abs_nonneg _) (by norm_num)
  have h10 : c * |o| / 2 ^ 28 ≤ (u * |μ| + 2 * η * a) / σ / 2 ^ 27 := by linarith
  linarith

/-- C119. The search of raw samples: `normalise` and then the compiled search, all in floating point. Let `μ`, `σ`, `a` be the exact mean, standard
deviation and mean absolute value of the `n` samples, and `η = γ_{n+6}` in double precision. Unless the mean is enormous compared with the standard
deviation, every stored S/N is within `(2u + 2η + (η a/σ)²) |e| + 7 u √n + (u |μ| + 2 η a)/σ/2^27 + γ_K · 20 √(b / (w (b - w))) n / √(m V)` of `e`, the exact
matched filter output of the trial for the exactly normalised samples `(x - μ)/σ`. -/
theorem C119_search {A : DArith} {B : FArith} {u v : ℝ} (hA : Sane A) (hG : Grid A) (h : Rounds B u v) (hu : 1 / 2 ^ 24 ≤ u) (hu2 : u ≤ 1 / 100) (idx : IdxRule)
    {root : ℝ → ℝ} (hroot : ∀ r, 0 ≤ r → |root r - Real.sqrt r| ≤ 2 * v * Real.sqrt r) (narrow : Bool)
    (x y : List ℝ) (hy : NormalisesTo B root narrow x y) (hn : (x.length + 6 : ℕ) * v < 1) (hvar : 0 < varOf x)
    {μ σ a η : ℝ} (hμ : μ = meanOf x) (hσ : σ = Real.sqrt (varOf x)) (ha : a = (x.map fun r => |r|).sum / x.length) (hη : η = gam v (x.length + 6))
    (s1 : η ≤ 1 / 100) (s2 : η * a / σ ≤ 1 / 10) (s3 : u * |μ| / σ ≤ 1 / 10)
    (tsamp : ℚ) (widths : List ℕ) (hne : widths ≠ []) (pmin pmax : ℚ) (bmin bmax : ℕ) (hb : bmax * v ≤ u) (hb2 : 2 ≤ bmin)
    (hbins : bmax < 2 ^ 32) (hidx : IdxFor idx (x.length / bmin)) (hN : x.length ≤ 2 ^ 25) (hpmax : pmax ≤ 2 ^ 62 * tsamp)
    (hw : ∀ w ∈ widths, 0 < w ∧ w < bmin) (per : List ℚ) (fb : List ℕ) (snr : List (List ℝ))
    (hs : A.binding (B.searchOps A) idx y tsamp widths pmin pmax bmin bmax = .ok (per, fb, snr)) :
    fb.length = per.length ∧ snr.length = per.length ∧ ∀ (j : ℕ) (p : ℚ), per[j]? = some p →
      ∃ (t : DTrial) (V : ℚ) (row : List ℝ), t.OK x.length bmin bmax ∧ t.IsVariance V ∧ 1 / 2 ≤ V ∧
        fb[j]? = some t.b ∧ |p - t.period tsamp| ≤ 1 / 2 ^ 50 * t.period tsamp ∧ snr[j]? = some row ∧ row.length = widths.length ∧
        ((26 + ⌈t.f⌉₊ + Nat.clog 2 t.m : ℕ) * u < 1 → ∀ (k w : ℕ), widths[k]? = some w → ∃ S e, row[k]? = some S ∧
          IsMatchedSnr t.b w (stack t.m t.b (sigma idx t.m)
            (fun r c => downsampled x.length (fun i => (x.getD i 0 - μ) / σ) t.f (r * t.b + c)) t.s) (Real.sqrt (t.m * V)) e ∧
          |S - e| ≤ (2 * u + 2 * η + (η * a / σ) ^ 2) * |e| + 7 * u * Real.sqrt x.length + (u * |μ| + 2 * η * a) / σ / 2 ^ 27 +
            gam u (26 + ⌈t.f⌉₊ + Nat.clog 2 t.m) * (20 * Real.sqrt ((t.b : ℝ) / (w * (t.b - w))) * x.length / Real.sqrt (t.m * V))) := by
  obtain ⟨hl, _⟩ := C119_normalise h (by linarith) hroot narrow hn hvar hy
  obtain ⟨l1, l2, l3⟩ := C113_search hA hG h hu idx y tsamp widths hne pmin pmax bmin bmax hb hbins (by rwa [hl]) (by rwa [hl]) hpmax hw per fb snr hs
  refine ⟨l1, l2, fun j p hj => ?_⟩
  obtain ⟨t, V, row, hok, hV, hVh, f1, f2, f3, f4, f5⟩ := l3 j p hj
  rw [hl] at hok
  refine ⟨t, V, row, hok, hV, hVh, f1, f2, f3, f4, fun hK k w hk => ?_⟩
  obtain ⟨S, ey, g1, g2, g3⟩ := f5 hK k w hk
  rw [hl] at g2 g3
  obtain ⟨w0, w1⟩ := hw w (List.mem_of_getElem? hk)
  obtain ⟨r1, ez, r2, r3⟩ := trial_raw h hu2 hroot narrow hn hμ hσ ha hη hvar s1 s2 s3 hy hN hb2 hok hV hVh w0 (w1.trans_le hok.bins.1) g2
  refine ⟨S, ez, g1, r2, ?_⟩
  have hg : 0 ≤ gam u (26 + ⌈t.f⌉₊ + Nat.clog 2 t.m) := by
    unfold gam
    exact div_nonneg (mul_nonneg (Nat.cast_nonneg _) h.u_nonneg) (by linarith)
  have h1 : 10 * Real.sqrt ((t.b : ℝ) / (w * (t.b - w))) * (∑ i ∈ range x.length, |y.getD i 0|) / Real.sqrt (t.m * V) ≤
      20 * Real.sqrt ((t.b : ℝ) / (w * (t.b - w))) * x.length / Real.sqrt (t.m * V) := by
    apply div_le_div_of_nonneg_right _ (Real.sqrt_nonneg _)
    have := mul_le_mul_of_nonneg_left r1 (by positivity : 0 ≤ 10 * Real.sqrt ((t.b : ℝ) / (w * (t.b - w))))
    linarith
  have h2 := mul_le_mul_of_nonneg_left h1 hg
  have e : S - ez = (S - ey) + (ey - ez) := by ring
  rw [e]
  refine (abs_add_le _ _).trans ?_
  linarith

theorem sub_rel_mono {r a b : ℝ} (hr0 : 0 ≤ r) (hr : r ≤ 1) (h : a ≤ b) : a - r * |a| ≤ b - r * |b| := by
  have h1 : |b| - |a| ≤ b - a := (abs_sub_abs_le_abs_sub b a).trans (le_of_eq (abs_of_nonneg (by linarith)))
  have h2 := mul_le_mul_of_nonneg_left h1 hr0
  nlinarith

/-- C119. Pulses of any period in raw samples. Let the samples be a constant plus pulses that come with any period `P` of the searched range and last
at most `D`. After `normalise`, the search succeeds and has a trial that reaches `P`, such that for each boxcar width `w` of at least
`(D/P) b + smearing` bins the stored S/N is at least `L` less the errors of C119_search, where `L` is what C115 promises for the exactly normalised
samples without rounding errors: the pulses in units of the standard deviation of all samples. -/
theorem C119_any_period {A : DArith} {B : FArith} {u v : ℝ} (hA : Sane A) (hG : Grid A) (h : Rounds B u v) (hu : 1 / 2 ^ 24 ≤ u) (hu2 : u ≤ 1 / 100) (idx : IdxRule)
    {root : ℝ → ℝ} (hroot : ∀ r, 0 ≤ r → |root r - Real.sqrt r| ≤ 2 * v * Real.sqrt r) (narrow : Bool)
    (x y : List ℝ) (hy : NormalisesTo B root narrow x y) (hn : (x.length + 6 : ℕ) * v < 1) (hvar : 0 < varOf x)
    {μ σ a η : ℝ} (hμ : μ = meanOf x) (hσ : σ = Real.sqrt (varOf x)) (ha : a = (x.map fun r => |r|).sum / x.length) (hη : η = gam v (x.length + 6))
    (s1 : η ≤ 1 / 100) (s2 : η * a / σ ≤ 1 / 10) (s3 : u * |μ| / σ ≤ 1 / 10)
    (tsamp : ℚ) (widths : List ℕ) (hne : widths ≠ []) (pmin pmax : ℚ) (bmin bmax : ℕ) (hb : bmax * v ≤ u)
    (hidx : IdxFor idx (x.length / bmin)) (hN : x.length ≤ 2 ^ 25) (hbins : bmax < 2 ^ 32) (hw : ∀ w ∈ widths, 0 < w ∧ w < bmin)
    (ht : 0 < tsamp) (hp : 0 < pmin) (hpp : pmin < pmax) (hb2 : 2 ≤ bmin) (hbb : bmin ≤ bmax) (hbp : A.fl (tsamp * bmin) ≤ pmin)
    (h2 : 2 * pmax ≤ x.length * tsamp) (P φ D base : ℝ) (hP1 : (1 + 1 / 2 ^ 48) * pmin ≤ P) (hP2 : P ≤ (1 - 1 / 2 ^ 30) * pmax)
    (pulse : ℕ → ℝ) (hpul : Pulsed pulse tsamp P φ D) (hdata : ∀ n < x.length, x.getD n 0 = base + pulse n) :
    ∃ (per : List ℚ) (fb : List ℕ) (snr : List (List ℝ)) (j : ℕ) (p : ℚ) (row : List ℝ) (t : DTrial) (V : ℚ),
      A.binding (B.searchOps A) idx y tsamp widths pmin pmax bmin bmax = .ok (per, fb, snr) ∧
      per[j]? = some p ∧ fb[j]? = some t.b ∧ snr[j]? = some row ∧ t.OK x.length bmin bmax ∧ t.IsVariance V ∧ 1 / 2 ≤ V ∧
      |p - t.period tsamp| ≤ 1 / 2 ^ 50 * t.period tsamp ∧ t.Reaches tsamp P ∧
      ((26 + ⌈t.f⌉₊ + Nat.clog 2 t.m : ℕ) * u < 1 → ∀ (k w : ℕ), widths[k]? = some w → D / P * t.b + t.smearing ≤ w →
        ∃ S, row[k]? = some S ∧ ∀ (K : ℕ) (L : ℝ), (K + 1) * tsamp + P + t.f * tsamp ≤ x.length * tsamp →
          L = ((∑ n ∈ range K, pulse n) / σ * Real.sqrt (((t.b : ℝ) - w) / (t.b * w)) - |base - μ| / σ / 2 ^ 28) / Real.sqrt (t.m * V) →
          L - (2 * u + 2 * η + (η * a / σ) ^ 2) * |L| - 7 * u * Real.sqrt x.length - (u * |μ| + 2 * η * a) / σ / 2 ^ 27 -
            gam u (26 + ⌈t.f⌉₊ + Nat.clog 2 t.m) * (20 * Real.sqrt ((t.b : ℝ) / (w * (t.b - w))) * x.length / Real.sqrt (t.m * V)) ≤ S) := by
  obtain ⟨hl, _⟩ := C119_normalise h (by linarith) hroot narrow hn hvar hy
  have hr := range_of hA hN hbins ht hp hpp hb2 hbb hbp h2
  obtain ⟨i, b, s, hm, c1, c2, c3, c4⟩ := d_cover hA hr hN h2 hP1 hP2
  obtain ⟨j, hj⟩ := List.getElem?_of_mem hm
  have hok := toTrial_ok hA hr hm
  have hpR : (0 : ℝ) < pmin := by exact_mod_cast hp
  have htR : (0 : ℝ) < tsamp := by exact_mod_cast ht
  have hσ0 : 0 < σ := by rw [hσ]; exact Real.sqrt_pos.mpr hvar
  have hP0 : 0 < P := by
    have : (0 : ℝ) < (1 + 1 / 2 ^ 48) * pmin := by positivity
    linarith
  obtain ⟨V, v1, v2, v3⟩ := trial_close hA hG h hu hr hN idx widths hne hidx hb hw hm
  have hf := d_f_ge_one hA hr i
  refine ⟨_, _, _, j, _, _, toTrial A _ (i, b, s), V, search_ok hA hN hbins ht hp hpp hb2 hbb hbp h2 (B.searchOps A) idx widths hne hidx
    y hl, by rw [List.getElem?_map, hj]; rfl, ?_, by rw [List.getElem?_map, hj]; rfl, hok, v1, v2, toTrial_period hA hr hm, ?_, ?_⟩
  · rw [List.getElem?_map, hj, Option.map_some, Nat.mod_eq_of_lt]
    · rfl
    · exact lt_of_le_of_lt hok.bins.2 hbins
  · exact reach_of_drift (t := toTrial A _ (i, b, s)) (by simp only [toTrial]; linarith) ht hP0 (hb2.trans hok.bins.1) hok.two hok.shift rfl c3 c4
  intro hK k w hk hwide
  obtain ⟨hk', rfl⟩ := List.getElem?_eq_some_iff.mp hk
  obtain ⟨w0, w1⟩ := hw _ (List.getElem_mem hk')
  obtain ⟨ey, e1, e2⟩ := v3 y hl hK k hk'
  refine ⟨_, by rw [List.getElem?_map, List.getElem?_range hk']; rfl, ?_⟩
  intro K L hKK hL
  have hM : (toTrial A ⟨x.length, tsamp, pmin, pmax, bmin, bmax⟩ (i, b, s)).m ≤ x.length / bmin := by
    refine (Nat.div_le_div_right (d_n_le_size hA hr i)).trans (Nat.div_le_div_left hok.bins.1 (by omega))
  have hVR : (0 : ℝ) < V := by
    have : (0 : ℚ) < V := by linarith
    exact_mod_cast this
  unfold exactProfile at e1
  rw [hl] at e1
  obtain ⟨r1, ez, r2, r3⟩ := trial_raw (ey := ey) h hu2 hroot narrow hn hμ hσ ha hη hvar s1 s2 s3 hy hN hb2 hok v1 v2 w0 (w1.trans_le hok.bins.1) e1
  have hpul' : Pulsed (fun n => pulse n / σ) tsamp P φ D := by
    refine ⟨fun n => div_nonneg (hpul.nonneg n) hσ0.le, fun n hn => hpul.on n ?_⟩
    intro hc
    exact hn (by rw [hc, zero_div])
  have low := dtrial_pulses (P := P) (D := D) (φ := φ) (base := (base - μ) / σ) (x := fun i => (x.getD i 0 - μ) / σ) hok hN htR hP0 hb2 c1 c2 c3 c4
    (shifts_for hidx hok.two hM).2 hVR w0 (w1.trans_le hok.bins.1) hpul' (fun n hn => by simp only [hdata n hn]; ring) hwide r2 hKK
  rw [abs_div, abs_of_pos hσ0, ← sum_div, ← hL] at low
  have hu0 := h.u_nonneg
  have ha0 : 0 ≤ a := by rw [ha]; exact meanAbs_nonneg x
  have hη0 : 0 ≤ η := by
    rw [hη]
    unfold gam
    exact div_nonneg (mul_nonneg (Nat.cast_nonneg _) h.v_nonneg) (by linarith)
  have hκ0 : 0 ≤ η * a / σ := by positivity
  have low2 := sub_rel_mono (r := 2 * u + 2 * η + (η * a / σ) ^ 2) (by positivity) (by nlinarith) low
  have e3 := (abs_le.mp e2).1
  have r4 := (abs_le.mp r3).1
  have hg : 0 ≤ gam u (trialOps (toTrial A ⟨x.length, tsamp, pmin, pmax, bmin, bmax⟩ (i, b, s))) := by
    unfold gam
    exact div_nonneg (mul_nonneg (Nat.cast_nonneg _) h.u_nonneg) (by have : (trialOps (toTrial A ⟨x.length, tsamp, pmin, pmax, bmin, bmax⟩ (i, b, s)) : ℝ) * u < 1 := hK
                                                                     linarith)
  rw [hl] at e3
  have h1 : 10 * Real.sqrt ((b : ℝ) / (widths[k] * (b - widths[k]))) * (∑ i ∈ range x.length, |y.getD i 0|) /
      Real.sqrt ((toTrial A ⟨x.length, tsamp, pmin, pmax, bmin, bmax⟩ (i, b, s)).m * V) ≤
      20 * Real.sqrt ((b : ℝ) / (widths[k] * (b - widths[k]))) * x.length /
      Real.sqrt ((toTrial A ⟨x.length, tsamp, pmin, pmax, bmin, bmax⟩ (i, b, s)).m * V) := by
    apply div_le_div_of_nonneg_right _ (Real.sqrt_nonneg _)
    have := mul_le_mul_of_nonneg_left r1 (by positivity : 0 ≤ 10 * Real.sqrt ((b : ℝ) / (widths[k] * (b - widths[k]))))
    linarith
  have h2 := mul_le_mul_of_nonneg_left h1 hg
  change L - _ - _ - _ - gam u (trialOps (toTrial A ⟨x.length, tsamp, pmin, pmax, bmin, bmax⟩ (i, b, s))) *
      (20 * Real.sqrt ((b : ℝ) / (widths[k] * (b - widths[k]))) * x.length /
      Real.sqrt ((toTrial A ⟨x.length, tsamp, pmin, pmax, bmin, bmax⟩ (i, b, s)).m * V)) ≤ _
  simp only at e3 ⊢
  linarith

/-- `normalise` has a result for all data. -/
theorem C119_result (B : FArith) (root : ℝ → ℝ) (narrow : Bool) (x : List ℝ) (hx : x ≠ []) : ∃ y, NormalisesTo B root narrow x y := by
  obtain ⟨s, hs⟩ := dsum_exists B x hx
  obtain ⟨s2, hs2⟩ := dsum_exists B (x.map fun a => B.dbl (B.dbl (a - B.dbl (s / x.length)) * B.dbl (a - B.dbl (s / x.length)))) (by simpa using hx)
  exact ⟨_, _, _, ⟨s, hs, rfl⟩, ⟨_, s2, ⟨s, hs, rfl⟩, hs2, rfl⟩, rfl⟩

/-- 1000 samples with pulses: mean 1, standard deviation 3. -/
theorem raw_example : ∃ x : List ℝ, x.length = 1000 ∧ (∀ n < x.length, x.getD n 0 = 0 + (fun n : ℕ => if 3 * n % 100 ≤ 9 then (10 : ℝ) else 0) n) ∧
    meanOf x = 1 ∧ varOf x = 9 ∧ (x.map fun r => |r|).sum / x.length = 1 := by
  obtain ⟨x, hl, hd⟩ := exists_data 1000 (fun n => 0 + if 3 * n % 100 ≤ 9 then (10 : ℝ) else 0)
  have hsum : ∀ g : ℝ → ℝ, (x.map g).sum = 100 * g 10 + 900 * g 0 := by
    intro g
    rw [sum_map_getD, hl]
    have e : ∀ n ∈ range 1000, g (x.getD n 0) = if 3 * n % 100 ≤ 9 then g 10 else g 0 := by
      intro n hn
      rw [hd n (mem_range.mp hn), zero_add]
      split_ifs <;> rfl
    rw [sum_congr rfl e, sum_ite, sum_const, sum_const, nsmul_eq_mul, nsmul_eq_mul]
    have c1 : (filter (fun n => 3 * n % 100 ≤ 9) (range 1000)).card = 100 := by decide +kernel
    have c2 : (filter (fun n => ¬3 * n % 100 ≤ 9) (range 1000)).card = 900 := by decide +kernel
    rw [c1, c2]
    push_cast
    ring
  have hm : meanOf x = 1 := by
    have := hsum id
    rw [List.map_id] at this
    unfold meanOf
    rw [this, hl]
    norm_num
  refine ⟨x, hl, fun n hn => hd n (by rwa [hl] at hn), hm, ?_, ?_⟩
  · unfold varOf
    rw [hsum, hm, hl]
    norm_num
  · rw [hsum, hl]
    norm_num

/-- The assumptions on the sizes hold for the example in single and double precision. -/
theorem raw_sizes {η : ℝ} (hη : η = gam (1 / 2 ^ 53) (1000 + 6)) :
    η ≤ 1 / 100 ∧ η * 1 / 3 ≤ 1 / 10 ∧ (1 / 2 ^ 24 : ℝ) * |(1 : ℝ)| / 3 ≤ 1 / 10 := by
  have h : η ≤ 1 / 100 := by
    rw [hη]
    unfold gam
    norm_num
  refine ⟨h, by linarith, ?_⟩
  rw [abs_one]
  norm_num

theorem sqrt_nine : (3 : ℝ) = Real.sqrt 9 := by
  rw [show (9 : ℝ) = 3 ^ 2 by norm_num, Real.sqrt_sq (by norm_num)]

/-- Non-vacuity of `C119_normalise` and `C119_any_period`: the pulses of `pulsed_example` as raw samples, normalised and searched in single and double
precision, for both type promotions. All conditions hold. -/
example (narrow : Bool) : ∃ x y : List ℝ, x.length = 1000 ∧ NormalisesTo single Real.sqrt narrow x y ∧ ∃ (per : List ℚ) (fb : List ℕ) (snr : List (List ℝ))
    (j : ℕ) (row : List ℝ) (t : DTrial) (V : ℚ),
    (ieeeDouble someLog (fun x k => rn 53 (x ^ k)) true).binding (single.searchOps (ieeeDouble someLog (fun x k => rn 53 (x ^ k)) true))
      float32Idx y 1 [12] 32 40 32 39 = .ok (per, fb, snr) ∧ snr[j]? = some row ∧ t.OK 1000 32 39 ∧ t.IsVariance V ∧ t.Reaches 1 (100 / 3) := by
  have hA := sane_some true
  have e32 : (ieeeDouble someLog (fun x k => rn 53 (x ^ k)) true).fl (1 * ((32 : ℕ) : ℚ)) ≤ 32 := by
    rw [one_mul, hA.nat 32 (by norm_num)]
    norm_num
  obtain ⟨x, hl, hd, hm, hv, ha⟩ := raw_example
  obtain ⟨y, hy⟩ := C119_result single Real.sqrt narrow x (by intro e; rw [e] at hl; simp at hl)
  obtain ⟨z1, z2, z3⟩ := raw_sizes (η := gam (1 / 2 ^ 53) (x.length + 6)) (by rw [hl])
  obtain ⟨per, fb, snr, j, p, row, t, V, e, _, _, e3, hok, hV, _, _, hre, key⟩ := C119_any_period hA (grid_ieee _ _ _) single_rounds
    (le_refl _) (by norm_num) float32Idx (root := Real.sqrt) (fun r hr => by rw [sub_self, abs_zero]; positivity) narrow x y hy (by rw [hl]; norm_num)
    (by rw [hv]; norm_num) hm.symm (by rw [hv]; exact sqrt_nine) ha.symm rfl z1 z2 z3 1 [12] (by simp) 32 40 32 39 (by norm_num)
    (by rw [hl]; exact Or.inr ⟨Or.inl rfl, by norm_num⟩)
    (by rw [hl]; norm_num) (by norm_num) (by intro w hw; simp at hw; omega) (by norm_num) (by norm_num) (by norm_num) (by norm_num)
    (by norm_num) e32 (by rw [hl]; norm_num) (100 / 3) 0 3 0 (by norm_num) (by norm_num)
    _ (by rw [Rat.cast_one]; exact pulsed_example) hd
  rw [hl] at hok
  exact ⟨x, y, hl, hy, per, fb, snr, j, row, t, V, e, e3, hok, hV, hre⟩

end Verif.Props
