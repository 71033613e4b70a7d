import Verif.Lemmas.Stability
import Verif.Props.Detection
import Mathlib.Probability.HasLawExists
import Mathlib.Probability.Distributions.Gaussian.Real

/-! # Stability of the search and its response to noise: properties C87 and C88 -/

namespace Verif.Props

open Verif.Model Verif.Spec Verif.Lemmas Finset MeasureTheory ProbabilityTheory

/-- What the searches of two series of the same length have in common. -/
theorem search_pair (idx : IdxRule) (x y : List ℝ) (hxy : y.length = x.length) (tsamp : ℝ) (widths : List ℕ) (hne : widths ≠ [])
    (pmin pmax : ℝ) (bmin bmax : ℕ) (hidx : IdxFor idx (x.length / bmin)) (hN : x.length ≤ 2 ^ 64)
    (hw : ∀ w ∈ widths, 0 < w ∧ w < bmin) (per : List ℝ) (fb : List ℕ) (snr : List (List ℝ))
    (h : periodogramBinding idx x tsamp widths pmin pmax bmin bmax = .ok (per, fb, snr)) :
    ∃ snr', periodogramBinding idx y tsamp widths pmin pmax bmin bmax = .ok (per, fb, snr') ∧ snr'.length = snr.length ∧
      (∀ row ∈ snr', row.length = widths.length) ∧
      snr.length = per.length ∧ fb.length = per.length ∧
      ∀ j (h1 : j < per.length) (h2 : j < fb.length) (h3 : j < snr.length) (h3' : j < snr'.length),
        ∃ t, ((trials ⟨x.length, tsamp, pmin, pmax, bmin, bmax⟩).map (labelOf ⟨x.length, tsamp, pmin, pmax, bmin, bmax⟩))[j]? = some t ∧
        t.OK x.length tsamp pmin bmin bmax ∧ fb[j] = t.b ∧ 1 / per[j] = t.freq tsamp ∧
        0 < downsampledVariance x.length t.f ∧ 1 ≤ t.f ∧
        ∀ k (hk : k < widths.length), ∃ v v', snr[j][k]? = some v ∧ snr'[j][k]? = some v' ∧
          IsMatchedSnr t.b widths[k] (stack t.m t.b (sigma idx t.m)
              (fun r c => downsampled x.length (fun i => x.getD i 0) t.f (r * t.b + c)) t.s)
            (Real.sqrt (t.m * downsampledVariance x.length t.f)) v ∧
          IsMatchedSnr t.b widths[k] (stack t.m t.b (sigma idx t.m)
              (fun r c => downsampled x.length (fun i => y.getD i 0) t.f (r * t.b + c)) t.s)
            (Real.sqrt (t.m * downsampledVariance x.length t.f)) v' := by
  obtain ⟨a, ha, hv, hall, hper, hfb, hsnr⟩ := pg_ok_inv hne hidx h
  have h' : periodogramBinding idx y tsamp widths pmin pmax bmin bmax =
      .ok (per, fb, (trials a).map (snrOf idx a (fun i => y.getD i 0) widths)) := by
    obtain ⟨_, _, h3⟩ := periodogramBinding_eq idx y tsamp widths hne pmin pmax bmin bmax a (by rw [ha, hxy])
      (by rw [hxy]; exact hidx.ok)
    rw [h3 hv hall, hper, hfb]
  refine ⟨_, h', by rw [hsnr]; simp, ?_, ?_⟩
  · intro row hrow
    obtain ⟨t, _, rfl⟩ := List.mem_map.mp hrow
    unfold snrOf
    rw [snrRow_length]
  obtain ⟨lab, hlab, l1, l2, l3, key⟩ := search_entries idx x tsamp widths hne pmin pmax bmin bmax hidx hN hw per fb snr h
  obtain ⟨lab', hlab', l1', l2', l3', key'⟩ := search_entries idx y tsamp widths hne pmin pmax bmin bmax (by rw [hxy]; exact hidx)
    (by rw [hxy]; exact hN) hw per fb _ h'
  rw [hxy] at hlab' key'
  rw [← hlab] at hlab'
  subst hlab'
  refine ⟨l3, l2, ?_⟩
  intro j h1 h2 h3 h3'
  have h4 : j < lab'.length := by omega
  obtain ⟨k1, k2, k3, _, _, hvar, hf, k7⟩ := key j h1 h2 h3 h4
  obtain ⟨_, _, _, _, _, _, _, k7'⟩ := key' j h1 h2 h3' h4
  refine ⟨lab'[j], by rw [← hlab]; exact List.getElem?_eq_getElem h4, k1, k2, k3, hvar, hf, ?_⟩
  intro k hk
  obtain ⟨v, e, hm⟩ := k7 k hk
  obtain ⟨v', e', hm'⟩ := k7' k hk
  exact ⟨v, v', e, e', hm, hm'⟩

theorem factor_le_two {N b m bmin bmax s : ℕ} {tsamp pmin f : ℝ} (hok : Trial.OK ⟨f, b, m, s⟩ N tsamp pmin bmin bmax) (hb : 2 ≤ bmin)
    (hf : 1 ≤ f) (hvar : 0 < downsampledVariance N f) : f / downsampledVariance N f ≤ 2 := by
  rw [div_le_iff₀ hvar]
  apply variance_ge_half hf
  have h1 := hok.bins.1
  have h2 := hok.two
  have h3 := hok.rows
  simp only at h1 h2 h3
  have hle : m * b ≤ ⌊(N : ℝ) / f⌋₊ := by rw [h3]; exact Nat.div_mul_le_self _ _
  nlinarith

/-- Trials below `(bmax + 1) tsamp` are in the first stage. -/
theorem first_stage {t : Trial} {N bmin bmax : ℕ} {tsamp pmin p : ℝ} (hok : t.OK N tsamp pmin bmin bmax) (hf : 1 ≤ t.f)
    (hts : 0 < tsamp) (hb : 0 < bmin) (hp : 0 < p) (hfr : 1 / p = t.freq tsamp) (hpm : pmin = tsamp * bmin)
    (hlt : p < tsamp * (bmax + 1)) : t.f = 1 := by
  obtain ⟨i, hfi⟩ := hok.factor
  have hb1 : bmin ≤ bmax := hok.bins.1.trans hok.bins.2
  have hbm : (0 : ℝ) < bmin := by exact_mod_cast hb
  have hb0 : (0 : ℝ) < t.b := by exact_mod_cast (by have := hok.bins.1; omega : 0 < t.b)
  have hge : t.f * tsamp * t.b ≤ p := by
    have hx : 0 < t.f * tsamp * t.b := by positivity
    have hmm : (0 : ℝ) < (t.m : ℝ) - 1 := by
      have : (2 : ℝ) ≤ t.m := by exact_mod_cast hok.two
      linarith
    have hstep : 0 ≤ t.s * t.step tsamp := by
      unfold Trial.step
      have : 0 < t.f * tsamp * t.b ^ 2 * ((t.m : ℝ) - 1) := by positivity
      positivity
    have hfreq : 1 / p ≤ 1 / (t.f * tsamp * t.b) := by
      rw [hfr]
      unfold Trial.freq
      linarith
    exact (one_div_le_one_div hp hx).mp hfreq
  have hi0 : i = 0 := by
    by_contra hi
    have hgeo : (1 : ℝ) ≤ ((bmax : ℝ) + 1) / bmin := by
      rw [one_le_div hbm]
      have : (bmin : ℝ) ≤ bmax := by exact_mod_cast hb1
      linarith
    have hpow : ((bmax : ℝ) + 1) / bmin ≤ (((bmax : ℝ) + 1) / bmin) ^ i := le_self_pow₀ hgeo hi
    have hf' : ((bmax : ℝ) + 1) / bmin ≤ t.f := by
      rw [hfi]
      unfold stageFactor
      rw [hpm, div_self (by positivity), one_mul]
      exact hpow
    have hbb : (bmin : ℝ) ≤ t.b := by exact_mod_cast hok.bins.1
    have : tsamp * ((bmax : ℝ) + 1) ≤ t.f * tsamp * t.b := by
      rw [div_le_iff₀ hbm] at hf'
      calc tsamp * ((bmax : ℝ) + 1) ≤ tsamp * (t.f * bmin) := mul_le_mul_of_nonneg_left hf' hts.le
        _ ≤ tsamp * (t.f * t.b) := by gcongr
        _ = _ := by ring
    linarith
  rw [hfi, hi0]
  unfold stageFactor
  rw [hpm, pow_zero, mul_one, div_self (by positivity)]

/-! ## C87 -/

/-- C87. The search depends continuously on the data: for series of equal length it has the same trials, and corresponding S/N differ by
at most `√2` times the Euclidean distance of the series. -/
theorem C87_stable (idx : IdxRule) (x y : List ℝ) (hxy : y.length = x.length) (tsamp : ℝ) (widths : List ℕ) (hne : widths ≠ [])
    (pmin pmax : ℝ) (bmin bmax : ℕ) (hidx : IdxFor idx (x.length / bmin)) (hN : x.length ≤ 2 ^ 64)
    (hw : ∀ w ∈ widths, 0 < w ∧ w < bmin) (per : List ℝ) (fb : List ℕ) (snr : List (List ℝ))
    (h : periodogramBinding idx x tsamp widths pmin pmax bmin bmax = .ok (per, fb, snr)) :
    ∃ snr', periodogramBinding idx y tsamp widths pmin pmax bmin bmax = .ok (per, fb, snr') ∧ snr'.length = snr.length ∧
      ∀ (j k : ℕ), j < per.length → k < widths.length → ∃ row row' v v', snr[j]? = some row ∧ snr'[j]? = some row' ∧
        row[k]? = some v ∧ row'[k]? = some v' ∧
        |v - v'| ≤ Real.sqrt (2 * ∑ i ∈ range x.length, (x.getD i 0 - y.getD i 0) ^ 2) := by
  obtain ⟨snr', h', hl, _, l3, l2, key⟩ := search_pair idx x y hxy tsamp widths hne pmin pmax bmin bmax hidx hN hw per fb snr h
  refine ⟨snr', h', hl, ?_⟩
  intro j k hj hk
  obtain ⟨t, _, hok, _, _, hvar, hf, g⟩ := key j hj (by omega) (by omega) (by omega)
  obtain ⟨v, v', e, e', hm, hm'⟩ := g k hk
  refine ⟨snr[j]'(by omega), snr'[j]'(by omega), v, v', List.getElem?_eq_getElem _, List.getElem?_eq_getElem _, e, e', ?_⟩
  have hb : 2 ≤ bmin := by
    obtain ⟨w, hwm⟩ := List.exists_mem_of_ne_nil _ hne
    have := hw w hwm
    omega
  obtain ⟨f, b, m, s⟩ := t
  have hm0 : 0 < m := by have := hok.two; simp only at this; omega
  have hc := factor_le_two hok hb hf hvar
  simp only at *
  have m1 := matched_stable (by linarith) hvar hm0 hm hm'
  have m2 := matched_stable (by linarith) hvar hm0 hm' hm
  have e1 : ∑ i ∈ range x.length, (y.getD i 0 - x.getD i 0) ^ 2 = ∑ i ∈ range x.length, (x.getD i 0 - y.getD i 0) ^ 2 :=
    sum_congr rfl (fun i _ => by ring)
  rw [e1] at m2
  have hle : Real.sqrt (f / downsampledVariance x.length f * ∑ i ∈ range x.length, (x.getD i 0 - y.getD i 0) ^ 2) ≤
      Real.sqrt (2 * ∑ i ∈ range x.length, (x.getD i 0 - y.getD i 0) ^ 2) :=
    Real.sqrt_le_sqrt (mul_le_mul_of_nonneg_right hc (sum_nonneg (fun _ _ => sq_nonneg _)))
  rw [abs_le]
  constructor <;> linarith

/-- Non-vacuity of C87: 1000 samples, one of which is changed by one half. All S/N stay within one of what they were. -/
example : ∃ (per : List ℝ) (fb : List ℕ) (snr snr' : List (List ℝ)),
    periodogramBinding float32Idx (List.replicate 1000 1) 1 [1, 2] 8 40 8 10 = .ok (per, fb, snr) ∧ per ≠ [] ∧
    periodogramBinding float32Idx (3 / 2 :: List.replicate 999 1) 1 [1, 2] 8 40 8 10 = .ok (per, fb, snr') ∧
    ∀ (j k : ℕ), j < per.length → k < 2 → ∃ row row' v v', snr[j]? = some row ∧ snr'[j]? = some row' ∧
        row[k]? = some v ∧ row'[k]? = some v' ∧ |v - v'| ≤ 1 := by
  have hlen : (List.replicate 1000 (1 : ℝ)).length = 1000 := List.length_replicate
  have hi : IdxFor float32Idx ((List.replicate 1000 (1 : ℝ)).length / 8) := Or.inr ⟨Or.inl rfl, by rw [hlen]; norm_num⟩
  obtain ⟨per, fb, snr, lab, e, _, e2, _⟩ := C19_no_holes float32Idx (List.replicate 1000 1) 1 [1, 2] (by simp) 8 40 8 10 hi
    (by refine ⟨?_, ?_, ?_, ?_, ?_, ?_⟩ <;> norm_num) (by rw [hlen]; norm_num)
  obtain ⟨snr', h', _, key⟩ := C87_stable float32Idx (List.replicate 1000 1) (3 / 2 :: List.replicate 999 1)
    (by rw [List.length_cons, List.length_replicate, hlen]) 1 [1, 2] (by simp) 8 40 8 10 hi (by rw [hlen]; norm_num)
    (by intro w hw; fin_cases hw <;> decide) per fb snr e
  refine ⟨per, fb, snr, snr', e, (by intro hc; rw [hc] at e2; exact nomatch e2), h', ?_⟩
  intro j k hj hk
  obtain ⟨row, row', v, v', g1, g2, g3, g4, g5⟩ := key j k hj hk
  refine ⟨row, row', v, v', g1, g2, g3, g4, g5.trans ?_⟩
  rw [Real.sqrt_le_one, hlen, Finset.sum_range_succ']
  have : ∑ i ∈ range 999, ((List.replicate 1000 (1 : ℝ)).getD (i + 1) 0 - (3 / 2 :: List.replicate 999 (1 : ℝ)).getD (i + 1) 0) ^ 2 = 0 := by
    apply Finset.sum_eq_zero
    intro i hi
    have hi' := mem_range.mp hi
    rw [List.getD_cons_succ, List.getD_eq_getElem?_getD, List.getD_eq_getElem?_getD, List.getElem?_replicate, List.getElem?_replicate,
      if_pos (by omega), if_pos hi']
    norm_num
  rw [this, List.getD_cons_zero, List.getD_eq_getElem?_getD, List.getElem?_replicate, if_pos (by norm_num)]
  norm_num

/-! ## C88 -/

/-- The chance that the S/N of one trial is changed by noise by `t` or more. -/
theorem trial_noise {Ω : Type*} [MeasurableSpace Ω] {μ : Measure Ω} [IsProbabilityMeasure μ] {ξ : ℕ → Ω → ℝ} (hind : iIndepFun ξ μ)
    (hsub : ∀ i, HasSubgaussianMGF (ξ i) 1 μ) {N m b w : ℕ} {σ : ℕ → ℕ → ℕ} {f var v : ℝ} {s : ℕ} {x : ℕ → ℝ} {y : Ω → ℕ → ℝ}
    (h0 : 0 < w) (h1 : w < b) (hf : 0 ≤ f) (hvar : 0 < var) (hm : 0 < m) (hy : ∀ ω, ∀ i < N, y ω i = x i + ξ i ω) {S : Ω → ℝ}
    (h : IsMatchedSnr b w (stack m b σ (fun r c => downsampled N x f (r * b + c)) s) (Real.sqrt (m * var)) v)
    (h' : ∀ ω, IsMatchedSnr b w (stack m b σ (fun r c => downsampled N (y ω) f (r * b + c)) s) (Real.sqrt (m * var)) (S ω))
    {t : ℝ} (ht : 0 ≤ t) :
    μ.real {ω | S ω ≤ v - t} ≤ Real.exp (-t ^ 2 / (2 * (f / var))) ∧
    μ.real {ω | v + t ≤ S ω} ≤ b * Real.exp (-t ^ 2 / (2 * (f / var))) := by
  have hlin : ∀ τ : ℕ → ℝ, ∃ a : ℕ → ℝ, ∀ x, trialOut N m b σ f var s τ x = ∑ i ∈ range N, a i * x i :=
    fun τ => trialOut_linear N m b σ f var s τ
  have hdiff : ∀ (a : ℕ → ℝ) ω, ∑ i ∈ range N, a i * y ω i = ∑ i ∈ range N, a i * x i + ∑ i ∈ range N, a i * ξ i ω := by
    intro a ω
    rw [← sum_add_distrib]
    exact sum_congr rfl (fun i hi => by rw [hy ω i (mem_range.mp hi)]; ring)
  constructor
  · obtain ⟨⟨φ, hφ, τ, hτ, e⟩, _⟩ := matched_out h
    obtain ⟨a, ha, hc⟩ := trialOut_coeff (N := N) σ hf hvar hm s (t := τ) (by obtain ⟨_, _, _, _, _, hs⟩ := hτ; exact hs)
    have hn := noise_tail hind hsub (fun i => - a i) N (c := f / var) (by simpa using hc) ht
    refine (measureReal_mono ?_ (measure_ne_top _ _)).trans hn
    intro ω hω
    simp only [Set.mem_ofPred_eq] at hω ⊢
    have g := (matched_out (h' ω)).2 φ hφ τ hτ
    rw [ha, hdiff, ← ha, ← e] at g
    simp only [neg_mul, sum_neg_distrib]
    linarith
  · have hex : ∀ φ, ∃ τ, φ < b → IsBoxcar b w φ τ := by
      intro φ
      by_cases hφ : φ < b
      · obtain ⟨τ, hτ⟩ := boxcar_exists h0 h1 hφ
        exact ⟨τ, fun _ => hτ⟩
      · exact ⟨fun _ => 0, fun hc => absurd hc hφ⟩
    choose τ hτ using hex
    have hcoef : ∀ φ, ∃ a : ℕ → ℝ, φ < b → (∀ x, trialOut N m b σ f var s (τ φ) x = ∑ i ∈ range N, a i * x i) ∧
        ∑ i ∈ range N, a i ^ 2 ≤ f / var := by
      intro φ
      by_cases hφ : φ < b
      · obtain ⟨a, ha⟩ := trialOut_coeff (N := N) σ hf hvar hm s (t := τ φ) (by obtain ⟨_, _, _, _, _, hs⟩ := hτ φ hφ; exact hs)
        exact ⟨a, fun _ => ha⟩
      · exact ⟨fun _ => 0, fun hc => absurd hc hφ⟩
    choose a ha using hcoef
    have hsubset : {ω | v + t ≤ S ω} ⊆ ⋃ φ ∈ range b, {ω | t ≤ ∑ i ∈ range N, a φ i * ξ i ω} := by
      intro ω hω
      simp only [Set.mem_ofPred_eq] at hω
      obtain ⟨⟨φ, hφ, τ', hτ', e⟩, _⟩ := matched_out (h' ω)
      have e2 : trialOut N m b σ f var s τ' (y ω) = trialOut N m b σ f var s (τ φ) (y ω) := by
        unfold trialOut
        rw [boxcar_dot h0 h1 hφ hτ', boxcar_dot h0 h1 hφ (hτ φ hφ)]
      have g := (matched_out h).2 φ hφ (τ φ) (hτ φ hφ)
      rw [e2, (ha φ hφ).1, hdiff, ← (ha φ hφ).1] at e
      simp only [Set.mem_iUnion, Set.mem_ofPred_eq, mem_range]
      exact ⟨φ, hφ, by linarith⟩
    refine (measureReal_mono hsubset (measure_ne_top _ _)).trans ((measureReal_biUnion_finset_le _ _).trans ?_)
    calc ∑ φ ∈ range b, μ.real {ω | t ≤ ∑ i ∈ range N, a φ i * ξ i ω}
        ≤ ∑ _φ ∈ range b, Real.exp (-t ^ 2 / (2 * (f / var))) :=
          sum_le_sum (fun φ hφ => noise_tail hind hsub (a φ) N (ha φ (mem_range.mp hφ)).2 ht)
      _ = _ := by rw [sum_const, card_range, nsmul_eq_mul]

/-- C88. Noise in the data. Let the samples of `X` be those of `data` plus independent noise samples with the tails of a normal
distribution of standard deviation at most one. Then the search has the same trials for every realisation, and each S/N is lower than
without noise by `t` or more with probability at most `exp(-t²/4)`, and higher by `t` or more with probability at most `b exp(-t²/4)`, where
`b` is the number of phase bins. In trials without downsampling 2 takes the place of 4. -/
theorem C88_noise (idx : IdxRule) (data : List ℝ) (tsamp : ℝ) (widths : List ℕ) (hne : widths ≠ [])
    (pmin pmax : ℝ) (bmin bmax : ℕ) (hidx : IdxFor idx (data.length / bmin)) (hN : data.length ≤ 2 ^ 64)
    (hw : ∀ w ∈ widths, 0 < w ∧ w < bmin) (per : List ℝ) (fb : List ℕ) (snr : List (List ℝ))
    (h : periodogramBinding idx data tsamp widths pmin pmax bmin bmax = .ok (per, fb, snr))
    {Ω : Type*} [MeasurableSpace Ω] (μ : Measure Ω) [IsProbabilityMeasure μ] (ξ : ℕ → Ω → ℝ) (hind : iIndepFun ξ μ)
    (hsub : ∀ i, HasSubgaussianMGF (ξ i) 1 μ) (X : Ω → List ℝ) (hlen : ∀ ω, (X ω).length = data.length)
    (hX : ∀ ω, ∀ i < data.length, (X ω).getD i 0 = data.getD i 0 + ξ i ω) :
    ∃ S : Ω → List (List ℝ),
      (∀ ω, periodogramBinding idx (X ω) tsamp widths pmin pmax bmin bmax = .ok (per, fb, S ω)) ∧
      ∀ (j k : ℕ), j < per.length → k < widths.length → ∃ (p v : ℝ) (b : ℕ) (V : Ω → ℝ), per[j]? = some p ∧ fb[j]? = some b ∧
        snr[j]?.bind (·[k]?) = some v ∧ (∀ ω, (S ω)[j]?.bind (·[k]?) = some (V ω)) ∧ ∀ t, 0 ≤ t →
          μ.real {ω | V ω ≤ v - t} ≤ Real.exp (-t ^ 2 / 4) ∧ μ.real {ω | v + t ≤ V ω} ≤ b * Real.exp (-t ^ 2 / 4) ∧
          (pmin = tsamp * bmin → p < tsamp * (bmax + 1) →
            μ.real {ω | V ω ≤ v - t} ≤ Real.exp (-t ^ 2 / 2) ∧ μ.real {ω | v + t ≤ V ω} ≤ b * Real.exp (-t ^ 2 / 2)) := by
  choose S hS1 hS2 hS3 hS4 hS5 key using fun ω =>
    search_pair idx data (X ω) (hlen ω) tsamp widths hne pmin pmax bmin bmax hidx hN hw per fb snr h
  obtain ⟨a, ha, hv, _⟩ := pg_ok_inv hne hidx h
  have hts : 0 < tsamp := by have := hv.1; rwa [ha] at this
  have hb2 : 2 ≤ bmin := by
    obtain ⟨w, hwm⟩ := List.exists_mem_of_ne_nil _ hne
    have := hw w hwm
    omega
  refine ⟨S, hS1, ?_⟩
  intro j k hj hk
  have hΩ : Nonempty Ω := nonempty_of_isProbabilityMeasure μ
  obtain ⟨ω0⟩ := hΩ
  have hjs : j < snr.length := by rw [hS4 ω0]; exact hj
  have hjf : j < fb.length := by rw [hS5 ω0]; exact hj
  have hjS : ∀ ω, j < (S ω).length := fun ω => by rw [hS2]; exact hjs
  obtain ⟨t, ht, hok, hb, hfr, hvar, hf, g⟩ := key ω0 j hj hjf hjs (hjS ω0)
  obtain ⟨v, _, e, _, hm, _⟩ := g k hk
  have hV : ∀ ω, ∃ V, ((S ω)[j]'(hjS ω))[k]? = some V ∧ IsMatchedSnr t.b widths[k]
      (stack t.m t.b (sigma idx t.m) (fun r c => downsampled data.length (fun i => (X ω).getD i 0) t.f (r * t.b + c)) t.s)
      (Real.sqrt (t.m * downsampledVariance data.length t.f)) V := by
    intro ω
    obtain ⟨t', ht', _, _, _, _, _, g⟩ := key ω j hj hjf hjs (hjS ω)
    obtain rfl : t = t' := Option.some.inj (ht.symm.trans ht')
    obtain ⟨_, V, _, e', _, hm'⟩ := g k hk
    exact ⟨V, e', hm'⟩
  choose V hV1 hV2 using hV
  refine ⟨per[j], v, fb[j], V, List.getElem?_eq_getElem hj, List.getElem?_eq_getElem _, ?_, ?_, ?_⟩
  · rw [List.getElem?_eq_getElem hjs, Option.bind_some, e]
  · intro ω
    rw [List.getElem?_eq_getElem (hjS ω), Option.bind_some, hV1]
  intro τ hτ
  have hwk := hw widths[k] (List.getElem_mem hk)
  have hm0 : 0 < t.m := by have := hok.two; omega
  have hmain := trial_noise hind hsub (x := fun i => data.getD i 0) (y := fun ω i => (X ω).getD i 0) hwk.1
    (hwk.2.trans_le hok.bins.1) (by linarith) hvar hm0 hX hm hV2 hτ
  rw [hb]
  have hc := factor_le_two (f := t.f) (b := t.b) (m := t.m) (s := t.s) hok hb2 hf hvar
  have hc0 : 0 < t.f / downsampledVariance data.length t.f := div_pos (by linarith) hvar
  have hexp : Real.exp (-τ ^ 2 / (2 * (t.f / downsampledVariance data.length t.f))) ≤ Real.exp (-τ ^ 2 / 4) := by
    apply Real.exp_le_exp.mpr
    rw [neg_div, neg_div, neg_le_neg_iff]
    exact div_le_div_of_nonneg_left (sq_nonneg τ) (by positivity) (by linarith)
  refine ⟨hmain.1.trans hexp, hmain.2.trans (mul_le_mul_of_nonneg_left hexp (Nat.cast_nonneg _)), ?_⟩
  intro hpm hlt
  have hp0 : 0 < per[j] := by
    have := (C18_periods_increasing idx data tsamp widths hne pmin pmax bmin bmax hidx per fb snr h).2.1 _ (List.getElem_mem hj)
    have h0 : (0 : ℝ) < bmin := by exact_mod_cast (by omega : 0 < bmin)
    have h1 : 0 < pmin := by rw [hpm]; positivity
    linarith [this.1]
  have hf1 := first_stage hok hf hts (by omega) hp0 hfr hpm hlt
  rw [hf1, variance_one, div_one, mul_one] at hmain
  exact hmain

/-- C88. False alarms. A search of pure noise has an S/N of `t` or more with probability at most
`(number of widths) · (sum of the numbers of phase bins of all trials) · exp(-t²/4)`. -/
theorem C88_false_alarms (idx : IdxRule) (N : ℕ) (tsamp : ℝ) (widths : List ℕ) (hne : widths ≠ [])
    (pmin pmax : ℝ) (bmin bmax : ℕ) (hidx : IdxFor idx (N / bmin)) (hN : N ≤ 2 ^ 64)
    (hw : ∀ w ∈ widths, 0 < w ∧ w < bmin) (per : List ℝ) (fb : List ℕ) (snr : List (List ℝ))
    (h : periodogramBinding idx (List.replicate N 0) tsamp widths pmin pmax bmin bmax = .ok (per, fb, snr))
    {Ω : Type*} [MeasurableSpace Ω] (μ : Measure Ω) [IsProbabilityMeasure μ] (ξ : ℕ → Ω → ℝ) (hind : iIndepFun ξ μ)
    (hsub : ∀ i, HasSubgaussianMGF (ξ i) 1 μ) (X : Ω → List ℝ) (hlen : ∀ ω, (X ω).length = N)
    (hX : ∀ ω, ∀ i < N, (X ω)[i]? = some (ξ i ω)) :
    ∃ S : Ω → List (List ℝ),
      (∀ ω, periodogramBinding idx (X ω) tsamp widths pmin pmax bmin bmax = .ok (per, fb, S ω)) ∧
      ∀ t, 0 ≤ t → μ.real {ω | ∃ row ∈ S ω, ∃ v ∈ row, t ≤ v} ≤ widths.length * fb.sum * Real.exp (-t ^ 2 / 4) := by
  have hrep : (List.replicate N (0 : ℝ)).length = N := List.length_replicate
  have hz : ∀ i, (List.replicate N (0 : ℝ)).getD i 0 = 0 := by
    intro i
    rw [List.getD_eq_getElem?_getD, List.getElem?_replicate]
    split_ifs <;> rfl
  obtain ⟨S, hS, key⟩ := C88_noise idx (List.replicate N 0) tsamp widths hne pmin pmax bmin bmax (by rw [hrep]; exact hidx)
    (by rw [hrep]; exact hN) hw per fb snr h μ ξ hind hsub X (by rw [hrep]; exact hlen) (by
      rw [hrep]
      intro ω i hi
      rw [hz, zero_add, List.getD_eq_getElem?_getD, hX ω i hi]
      rfl)
  refine ⟨S, hS, ?_⟩
  intro t ht
  obtain ⟨hl1, hl2, hl3, hl4⟩ := (C17_outputs_filled_exactly idx (List.replicate N 0) tsamp widths hne pmin pmax bmin bmax
    (by rw [hrep]; exact hidx)).2 per fb snr h
  have hlS : ∀ ω, (S ω).length = per.length ∧ ∀ row ∈ S ω, row.length = widths.length := by
    intro ω
    obtain ⟨_, _, g3, g4⟩ := (C17_outputs_filled_exactly idx (X ω) tsamp widths hne pmin pmax bmin bmax
      (by rw [hlen]; exact hidx)).2 per fb (S ω) (hS ω)
    exact ⟨g3, g4⟩
  have hrange := C77_snr_range idx (List.replicate N 0) tsamp widths hne pmin pmax bmin bmax (by rw [hrep]; exact hidx)
    (by rw [hrep]; exact hN) hw per fb snr h
  have hzero : ∀ (j k : ℕ) (v : ℝ), j < per.length → k < widths.length → snr[j]?.bind (·[k]?) = some v → v = 0 := by
    intro j k v hj hk e
    rw [List.getElem?_eq_getElem (by omega), Option.bind_some] at e
    obtain ⟨v', e', g1, g2⟩ := hrange (snr[j]'(by omega)) (List.getElem_mem _) k hk
    rw [e] at e'
    cases e'
    rw [List.map_replicate, List.sum_replicate] at g2
    simp only [ne_eq, OfNat.ofNat_ne_zero, not_false_eq_true, zero_pow, smul_zero, mul_zero, Real.sqrt_zero] at g2
    linarith
  -- one entry
  have hentry : ∀ j < per.length, ∀ k < widths.length,
      μ.real {ω | ∃ v, (S ω)[j]?.bind (·[k]?) = some v ∧ t ≤ v} ≤ (fb.getD j 0 : ℕ) * Real.exp (-t ^ 2 / 4) := by
    intro j hj k hk
    obtain ⟨p, v, b, V, _, e2, e3, e4, g⟩ := key j k hj hk
    have hv0 := hzero j k v hj hk e3
    have := (g t ht).2.1
    rw [List.getD_eq_getElem?_getD, e2, Option.getD_some]
    refine (measureReal_mono ?_ (measure_ne_top _ _)).trans this
    rintro ω ⟨v', e', hv'⟩
    rw [e4] at e'
    cases e'
    simp only [Set.mem_ofPred_eq, hv0, zero_add]
    exact hv'
  have hsubset : {ω | ∃ row ∈ S ω, ∃ v ∈ row, t ≤ v} ⊆
      ⋃ j ∈ range per.length, ⋃ k ∈ range widths.length, {ω | ∃ v, (S ω)[j]?.bind (·[k]?) = some v ∧ t ≤ v} := by
    rintro ω ⟨row, hrow, v, hv, htv⟩
    obtain ⟨j, hj, rfl⟩ := List.getElem_of_mem hrow
    obtain ⟨k, hk, rfl⟩ := List.getElem_of_mem hv
    simp only [Set.mem_iUnion, mem_range, Set.mem_ofPred_eq]
    refine ⟨j, by rw [← (hlS ω).1]; exact hj, k, by rw [← (hlS ω).2 _ hrow]; exact hk, _, ?_, htv⟩
    rw [List.getElem?_eq_getElem hj, Option.bind_some, List.getElem?_eq_getElem hk]
  refine (measureReal_mono hsubset (measure_ne_top _ _)).trans ((measureReal_biUnion_finset_le _ _).trans ?_)
  have hj : ∀ j ∈ range per.length, μ.real (⋃ k ∈ range widths.length, {ω | ∃ v, (S ω)[j]?.bind (·[k]?) = some v ∧ t ≤ v}) ≤
      widths.length * ((fb.getD j 0 : ℕ) * Real.exp (-t ^ 2 / 4)) := by
    intro j hj
    refine (measureReal_biUnion_finset_le _ _).trans ?_
    refine (sum_le_sum (fun k hk => hentry j (mem_range.mp hj) k (mem_range.mp hk))).trans (le_of_eq ?_)
    rw [sum_const, card_range, nsmul_eq_mul]
  refine (sum_le_sum hj).trans (le_of_eq ?_)
  have e : ∑ j ∈ range per.length, ((fb.getD j 0 : ℕ) : ℝ) = (fb.sum : ℕ) := by
    rw [← hl2, ← Nat.cast_sum]
    congr 1
    clear * -
    induction fb with
    | nil => simp
    | cons a l ih =>
      rw [List.length_cons, Finset.sum_range_succ', List.sum_cons, add_comm]
      simp only [List.getD_cons_succ, List.getD_cons_zero]
      rw [ih]
  rw [← e, Finset.mul_sum, Finset.sum_mul]
  exact sum_congr rfl (fun j _ => by ring)

/-- Independent samples of the standard normal distribution meet the assumptions on the noise. -/
theorem exists_noise : ∃ (Ω : Type) (_ : MeasurableSpace Ω) (μ : Measure Ω) (ξ : ℕ → Ω → ℝ), IsProbabilityMeasure μ ∧ iIndepFun ξ μ ∧
    (∀ i, HasSubgaussianMGF (ξ i) 1 μ) ∧ ∀ i, HasLaw (ξ i) (gaussianReal 0 1) μ := by
  obtain ⟨Ω, mΩ, μ, g, hm, hlaw, hind, hp⟩ := exists_iid ℕ (gaussianReal 0 1)
  refine ⟨Ω, mΩ, μ, g, hp, hind, ?_, hlaw⟩
  intro i
  refine ⟨fun t => ?_, fun t => ?_⟩
  · have h := integrable_exp_mul_gaussianReal (μ := 0) (v := 1) t
    rw [← (hlaw i).map_eq, integrable_map_measure (by fun_prop) (hm i).aemeasurable] at h
    exact h
  · rw [mgf_gaussianReal (hlaw i).map_eq t, zero_mul, zero_add]

/-- Non-vacuity of `C88_noise` and `C88_false_alarms`: a search of 1000 samples of normal noise. -/
example : ∃ (Ω : Type) (_ : MeasurableSpace Ω) (μ : Measure Ω) (ξ : ℕ → Ω → ℝ) (X : Ω → List ℝ) (per : List ℝ) (fb : List ℕ)
    (snr : List (List ℝ)), IsProbabilityMeasure μ ∧ iIndepFun ξ μ ∧ (∀ i, HasSubgaussianMGF (ξ i) 1 μ) ∧ (∀ ω, (X ω).length = 1000) ∧
    (∀ ω, ∀ i < 1000, (X ω)[i]? = some (ξ i ω)) ∧ IdxFor float32Idx (1000 / 8) ∧ (∀ w ∈ ([1, 2] : List ℕ), 0 < w ∧ w < 8) ∧
    periodogramBinding float32Idx (List.replicate 1000 0) 1 [1, 2] 8 40 8 10 = .ok (per, fb, snr) ∧ per ≠ [] ∧
    ∃ S : Ω → List (List ℝ), (∀ ω, periodogramBinding float32Idx (X ω) 1 [1, 2] 8 40 8 10 = .ok (per, fb, S ω)) ∧
      μ.real {ω | ∃ row ∈ S ω, ∃ v ∈ row, 10 ≤ v} ≤ 2 * fb.sum * Real.exp (-25) := by
  obtain ⟨Ω, mΩ, μ, ξ, hp, hind, hsub, _⟩ := exists_noise
  have hi : IdxFor float32Idx (1000 / 8) := Or.inr ⟨Or.inl rfl, by norm_num⟩
  have hlen : (List.replicate 1000 (0 : ℝ)).length = 1000 := List.length_replicate
  obtain ⟨per, fb, snr, lab, e, _, e2, _⟩ := C19_no_holes float32Idx (List.replicate 1000 0) 1 [1, 2] (by simp) 8 40 8 10
    (by rw [hlen]; exact hi)
    (by refine ⟨?_, ?_, ?_, ?_, ?_, ?_⟩ <;> norm_num) (by rw [List.length_replicate]; norm_num)
  have hX : ∀ ω, ∀ i < 1000, ((List.range 1000).map (fun i => ξ i ω))[i]? = some (ξ i ω) := by
    intro ω i hi
    rw [List.getElem?_map, List.getElem?_range hi]
    rfl
  have hw : ∀ w ∈ ([1, 2] : List ℕ), 0 < w ∧ w < 8 := by intro w hw; fin_cases hw <;> decide
  obtain ⟨S, hS, hb⟩ := C88_false_alarms float32Idx 1000 1 [1, 2] (by simp) 8 40 8 10 hi (by norm_num) hw per fb snr e μ ξ hind hsub
    (fun ω => (List.range 1000).map (fun i => ξ i ω)) (by simp) hX
  refine ⟨Ω, mΩ, μ, ξ, fun ω => (List.range 1000).map (fun i => ξ i ω), per, fb, snr, hp, hind, hsub, by simp, hX, hi, hw, e, ?_, S,
    hS, ?_⟩
  · rintro rfl
    exact nomatch e2
  · have := hb 10 (by norm_num)
    norm_num at this ⊢
    exact this

/-! ## C89 -/

open Classical in
/-- C89. Detection of a pulse train in noise. The samples of `data` repeat a rectangular pulse of `wd` bins and height `amp` with a period
of `b` samples, and noise is added as in C88. Then the S/N that the search reports at the period of the pulses, for the boxcar of the
width of the pulses, is below `A - t` with probability at most `exp(-t²/2)` and above `A + t` with probability at most `b exp(-t²/2)`,
where `A = amp √(m wd (b - wd) / b)` and `m` is the number of whole periods. -/
theorem C89_detection (idx : IdxRule) (data : List ℝ) (tsamp : ℝ) (widths : List ℕ)
    (pmin pmax : ℝ) (bmin bmax : ℕ) (hidx : IdxFor idx (data.length / bmin)) (hN : data.length ≤ 2 ^ 64)
    (hw : ∀ w ∈ widths, 0 < w ∧ w < bmin) (per : List ℝ) (fb : List ℕ) (snr : List (List ℝ)) (hpm : pmin = tsamp * bmin)
    (h : periodogramBinding idx data tsamp widths pmin pmax bmin bmax = .ok (per, fb, snr))
    (b wd φ : ℕ) (base amp : ℝ) (h1 : bmin ≤ b) (h2 : b ≤ bmax) (h3 : b * tsamp < pmax) (h4 : 2 * b ≤ data.length)
    (hwd : wd ∈ widths) (hφ : φ < b) (hamp : 0 ≤ amp)
    (hdata : ∀ i < data.length / b * b, data[i]? = some (if InWindow b wd φ (i % b) then base + amp else base))
    {Ω : Type*} [MeasurableSpace Ω] (μ : Measure Ω) [IsProbabilityMeasure μ] (ξ : ℕ → Ω → ℝ) (hind : iIndepFun ξ μ)
    (hsub : ∀ i, HasSubgaussianMGF (ξ i) 1 μ) (X : Ω → List ℝ) (hlen : ∀ ω, (X ω).length = data.length)
    (hX : ∀ ω, ∀ i < data.length, (X ω).getD i 0 = data.getD i 0 + ξ i ω) :
    ∃ (S : Ω → List (List ℝ)) (j k : ℕ) (V : Ω → ℝ),
      (∀ ω, periodogramBinding idx (X ω) tsamp widths pmin pmax bmin bmax = .ok (per, fb, S ω)) ∧
      per[j]? = some (b * tsamp) ∧ fb[j]? = some b ∧ widths[k]? = some wd ∧ (∀ ω, (S ω)[j]?.bind (·[k]?) = some (V ω)) ∧
      ∀ t, 0 ≤ t →
        μ.real {ω | V ω ≤ amp * Real.sqrt ((data.length / b : ℕ) * (wd * (b - wd) / b)) - t} ≤ Real.exp (-t ^ 2 / 2) ∧
        μ.real {ω | amp * Real.sqrt ((data.length / b : ℕ) * (wd * (b - wd) / b)) + t ≤ V ω} ≤ b * Real.exp (-t ^ 2 / 2) := by
  have hne : widths ≠ [] := List.ne_nil_of_mem hwd
  obtain ⟨S, hS, key⟩ := C88_noise idx data tsamp widths hne pmin pmax bmin bmax hidx hN hw per fb snr h μ ξ hind hsub X hlen hX
  obtain ⟨j, row, g1, g2, g3, g4⟩ := C78_folding_gain idx data tsamp widths hne pmin pmax bmin bmax hidx hN hw per fb snr hpm b h1 h2 h3
    h4 (fun i => if InWindow b wd φ i then base + amp else base) hdata h
  obtain ⟨k, hk, hkw⟩ := List.getElem_of_mem hwd
  obtain ⟨v, hv, hmat⟩ := g4 k hk
  obtain ⟨hj, _⟩ := List.getElem?_eq_some_iff.mp g1
  obtain ⟨p, v', b', V, e1, e2, e3, e4, g⟩ := key j k hj hk
  rw [g1] at e1
  cases e1
  rw [g2] at e2
  cases e2
  rw [g3, Option.bind_some, hv] at e3
  cases e3
  refine ⟨S, j, k, V, hS, g1, g2, by rw [List.getElem?_eq_getElem hk, hkw], e4, ?_⟩
  obtain ⟨w0, w1⟩ := hw wd hwd
  have hts : 0 < tsamp := by
    obtain ⟨a', ha', hv', _⟩ := pg_ok_inv hne hidx h
    have := hv'.1
    rwa [ha'] at this
  have hm0 : (0 : ℝ) < (data.length / b : ℕ) := by
    have : 2 ≤ data.length / b := (Nat.le_div_iff_mul_le (by omega)).mpr h4
    exact_mod_cast (by omega : 0 < data.length / b)
  rw [hkw] at hmat
  have e := matched_pulse w0 (by omega) hφ hamp (by positivity) hmat
  have e' : v = amp * Real.sqrt ((data.length / b : ℕ) * (wd * (b - wd) / b)) := by
    rw [e, Real.sqrt_mul hm0.le, div_div_eq_mul_div, div_one]
    ring
  intro t ht
  have := (g t ht).2.2 hpm (by
    have : (b : ℝ) ≤ bmax := by exact_mod_cast h2
    nlinarith)
  rwa [e'] at this

/-- Non-vacuity: 1000 samples with a pulse of one sample and height 3 every 8 samples, in normal noise. -/
example : ∃ (Ω : Type) (_ : MeasurableSpace Ω) (μ : Measure Ω) (ξ : ℕ → Ω → ℝ) (data : List ℝ) (X : Ω → List ℝ) (per : List ℝ)
    (fb : List ℕ) (snr : List (List ℝ)), IsProbabilityMeasure μ ∧ iIndepFun ξ μ ∧ (∀ i, HasSubgaussianMGF (ξ i) 1 μ) ∧
    data.length = 1000 ∧ (∀ i < data.length / 8 * 8, data[i]? = some (if i % 8 = 0 then 0 + 3 else 0)) ∧
    (∀ ω, (X ω).length = data.length) ∧ (∀ ω, ∀ i < data.length, (X ω).getD i 0 = data.getD i 0 + ξ i ω) ∧
    periodogramBinding float32Idx data 1 [1, 2] 8 40 8 10 = .ok (per, fb, snr) ∧
    ∃ (S : Ω → List (List ℝ)) (j k : ℕ) (V : Ω → ℝ),
      (∀ ω, periodogramBinding float32Idx (X ω) 1 [1, 2] 8 40 8 10 = .ok (per, fb, S ω)) ∧
      per[j]? = some 8 ∧ (∀ ω, (S ω)[j]?.bind (·[k]?) = some (V ω)) ∧ μ.real {ω | V ω ≤ 20} ≤ Real.exp (-50) := by
  obtain ⟨Ω, mΩ, μ, ξ, hp, hind, hsub, _⟩ := exists_noise
  generalize hn : 1000 = n
  obtain ⟨data, hdef⟩ : ∃ data : List ℝ, data = (List.range n).map (fun i => if i % 8 = 0 then 0 + 3 else 0) := ⟨_, rfl⟩
  subst hn
  have hlen : data.length = 1000 := by rw [hdef]; simp
  have hi : IdxFor float32Idx (data.length / 8) := Or.inr ⟨Or.inl rfl, by rw [hlen]; norm_num⟩
  obtain ⟨per, fb, snr, lab, e, _⟩ := C19_no_holes float32Idx data 1 [1, 2] (by simp) 8 40 8 10 hi
    (by refine ⟨?_, ?_, ?_, ?_, ?_, ?_⟩ <;> norm_num) (by rw [hlen]; norm_num)
  have hN : data.length ≤ 2 ^ 64 := by rw [hlen]; norm_num
  have h4 : 2 * 8 ≤ data.length := by rw [hlen]; norm_num
  have hd : ∀ i < data.length / 8 * 8, data[i]? = some (if i % 8 = 0 then 0 + 3 else 0) := by
    intro i hi
    rw [hlen] at hi
    rw [hdef, List.getElem?_map, List.getElem?_range (by omega)]
    rfl
  classical
  have hd' : ∀ i < data.length / 8 * 8, data[i]? = some (if InWindow 8 1 0 (i % 8) then (0 : ℝ) + 3 else 0) := by
    intro i hi
    rw [hd i hi]
    congr 1
    have : InWindow 8 1 0 (i % 8) ↔ i % 8 = 0 := by
      unfold InWindow
      omega
    simp only [this]
  obtain ⟨X, hX⟩ : ∃ X : Ω → List ℝ, X = fun ω => (List.range 1000).map (fun i => data.getD i 0 + ξ i ω) := ⟨_, rfl⟩
  have hXl : ∀ ω, (X ω).length = data.length := by intro ω; rw [hX, hlen]; simp
  have hXv : ∀ ω, ∀ i < data.length, (X ω).getD i 0 = data.getD i 0 + ξ i ω := by
    intro ω i hi
    rw [hlen] at hi
    rw [hX, List.getD_eq_getElem?_getD, List.getElem?_map, List.getElem?_range hi]
    rfl
  have hw : ∀ w ∈ ([1, 2] : List ℕ), 0 < w ∧ w < 8 := by intro w hw; fin_cases hw <;> decide
  obtain ⟨S, j, k, V, c1, c2, _, _, c5, c6⟩ := C89_detection float32Idx data 1 [1, 2] 8 40 8 10 hi hN hw per fb snr
    (by norm_num) e 8 1 0 0 3 (by norm_num) (by norm_num) (by norm_num) h4 (by simp) (by norm_num) (by norm_num)
    hd' μ ξ hind hsub X hXl hXv
  refine ⟨Ω, mΩ, μ, ξ, data, X, per, fb, snr, hp, hind, hsub, hlen, hd, hXl, hXv, e, S, j, k, V, c1, ?_, c5, ?_⟩
  · rw [c2]; norm_num
  · have := (c6 10 (by norm_num)).1
    rw [show (-(10 : ℝ) ^ 2 / 2) = -50 by norm_num] at this
    refine (measureReal_mono ?_ (measure_ne_top _ _)).trans this
    intro ω hω
    simp only [Set.mem_ofPred_eq] at hω ⊢
    rw [hlen]
    have : (10 : ℝ) ≤ Real.sqrt ((1000 / 8 : ℕ) * ((1 : ℕ) * ((8 : ℕ) - (1 : ℕ)) / (8 : ℕ))) := by
      apply Real.le_sqrt_of_sq_le
      norm_num
    linarith

end Verif.Props
