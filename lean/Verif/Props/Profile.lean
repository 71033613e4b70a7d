import Verif.Props.Candidate
import Verif.Props.Generate
import Verif.Lemmas.Energy

/-! # The profile of a candidate: property C90 -/

namespace Verif.Props

open Verif.Model Verif.Spec Verif.Lemmas Finset MeasureTheory ProbabilityTheory

/-- The factor with which sample `k` enters phase bin `j` of a profile of `m` periods of `bins` bins of `f` samples. -/
noncomputable def binWeight (f : ℝ) (bins m j k : ℕ) : ℝ :=
  (∑ r ∈ range m, overlap k (((r * bins + j : ℕ) : ℝ) * f) ((((r * bins + j : ℕ) : ℝ) + 1) * f)) / Real.sqrt (m * f)

theorem profile_linear (x : List ℝ) (f : ℝ) (bins m j : ℕ) :
    ∑ i ∈ range m, foldValue x f bins m i j = ∑ k ∈ range x.length, binWeight f bins m j k * x.getD k 0 := by
  unfold foldValue binWeight stepIntegral
  rw [← Finset.sum_div, Finset.sum_comm, Finset.sum_div]
  refine sum_congr rfl (fun k _ => ?_)
  rw [← Finset.mul_sum]
  ring

theorem window_le {N bins m j r : ℕ} {f : ℝ} (hf : 0 ≤ f) (hj : j < bins) (hr : r < m) (hN : ((m * bins : ℕ) : ℝ) * f ≤ N) :
    (((r * bins + j : ℕ) : ℝ) + 1) * f ≤ N := by
  refine le_trans (mul_le_mul_of_nonneg_right ?_ hf) hN
  have : r * bins + j + 1 ≤ m * bins := by
    have : (r + 1) * bins ≤ m * bins := Nat.mul_le_mul_right _ hr
    rw [Nat.succ_mul] at this
    omega
  exact_mod_cast this

theorem window_total {N bins m j r : ℕ} {f : ℝ} (hf : 0 ≤ f) (hj : j < bins) (hr : r < m) (hN : ((m * bins : ℕ) : ℝ) * f ≤ N) :
    ∑ k ∈ range N, overlap k (((r * bins + j : ℕ) : ℝ) * f) ((((r * bins + j : ℕ) : ℝ) + 1) * f) = f := by
  rw [overlap_total N (by positivity) (by nlinarith) (window_le hf hj hr hN)]
  ring

theorem bin_le_one {bins m j : ℕ} {f : ℝ} (hf : 0 ≤ f) (hj : j < bins) (k : ℕ) :
    ∑ r ∈ range m, overlap k (((r * bins + j : ℕ) : ℝ) * f) ((((r * bins + j : ℕ) : ℝ) + 1) * f) ≤ 1 := by
  refine le_trans ?_ (overlap_outputs_le k (m * bins) hf)
  rw [← sum_blocks (fun n => overlap k ((n : ℝ) * f) (((n : ℝ) + 1) * f)) bins m]
  refine sum_le_sum (fun r _ => ?_)
  exact single_le_sum (f := fun c => overlap k (((r * bins + c : ℕ) : ℝ) * f) ((((r * bins + c : ℕ) : ℝ) + 1) * f))
    (fun c _ => overlap_nonneg _ _ _) (mem_range.mpr hj)

theorem window_sq_ge {N k : ℕ} {f : ℝ} (hf : 1 < f) (hk : ((k : ℝ) + 1) * f ≤ N) :
    f - 1 / 2 ≤ ∑ i ∈ range N, overlap i ((k : ℝ) * f) (((k : ℝ) + 1) * f) ^ 2 := by
  obtain ⟨h1, h2, h3, h4, h5, h6⟩ := ds_idx hf hk
  generalize ⌊(k : ℝ) * f⌋₊ = p at *
  generalize ⌊min (⌊(k : ℝ) * f + f⌋ : ℝ) ((N : ℝ) - 1)⌋₊ = q at *
  have e : ((k : ℝ) + 1) * f = k * f + f := by ring
  rw [e, sum_overlap N p q _ _ (fun _ v => v ^ 2) (fun _ => by simp) h1 h2 h5 h6 h3 h4]
  simp only [one_pow, sum_const, card_range, nsmul_eq_mul, mul_one]
  rw [Nat.cast_sub h1]
  push_cast
  nlinarith [sq_nonneg ((p : ℝ) + 1 - k * f - 1 / 2), sq_nonneg ((k : ℝ) * f + f - q - 1 / 2)]

theorem window_sq_int {N n k : ℕ} (hk : ((k : ℝ) + 1) * n ≤ N) :
    ∑ i ∈ range N, overlap i ((k : ℝ) * n) (((k : ℝ) + 1) * n) ^ 2 = n := by
  have e : ∀ i ∈ range N, overlap i ((k : ℝ) * n) (((k : ℝ) + 1) * n) ^ 2 = overlap i ((k : ℝ) * n) (((k : ℝ) + 1) * n) := by
    intro i _
    have h : overlap i ((k : ℝ) * n) (((k : ℝ) + 1) * n) = 0 ∨ overlap i ((k : ℝ) * n) (((k : ℝ) + 1) * n) = 1 := by
      rcases lt_or_ge i (k * n) with h | h
      · left
        apply overlap_left
        exact_mod_cast h
      · rcases lt_or_ge i ((k + 1) * n) with h' | h'
        · right
          apply overlap_inner
          · exact_mod_cast h
          · exact_mod_cast h'
        · left
          apply overlap_right
          exact_mod_cast h'
    rcases h with h | h <;> rw [h] <;> norm_num
  rw [sum_congr rfl e, overlap_total N (by positivity) (by nlinarith [(Nat.cast_nonneg n : (0 : ℝ) ≤ n)]) hk]
  ring

theorem weights_le {N bins m j : ℕ} {f : ℝ} (hf : 0 < f) (hm : 0 < m) (hj : j < bins) (hN : ((m * bins : ℕ) : ℝ) * f ≤ N) :
    ∑ k ∈ range N, binWeight f bins m j k ^ 2 ≤ 1 := by
  have hm0 : (0 : ℝ) < m := by exact_mod_cast hm
  unfold binWeight
  simp only [div_pow]
  rw [← Finset.sum_div, Real.sq_sqrt (by positivity), div_le_one (by positivity)]
  calc ∑ k ∈ range N, (∑ r ∈ range m, overlap k (((r * bins + j : ℕ) : ℝ) * f) ((((r * bins + j : ℕ) : ℝ) + 1) * f)) ^ 2
      ≤ ∑ k ∈ range N, ∑ r ∈ range m, overlap k (((r * bins + j : ℕ) : ℝ) * f) ((((r * bins + j : ℕ) : ℝ) + 1) * f) := by
        refine sum_le_sum (fun k _ => ?_)
        have h1 := bin_le_one (m := m) hf.le hj k
        have h0 : 0 ≤ ∑ r ∈ range m, overlap k (((r * bins + j : ℕ) : ℝ) * f) ((((r * bins + j : ℕ) : ℝ) + 1) * f) :=
          sum_nonneg (fun r _ => overlap_nonneg _ _ _)
        nlinarith
    _ = ∑ r ∈ range m, f := by
        rw [Finset.sum_comm]
        exact sum_congr rfl (fun r hr => window_total hf.le hj (mem_range.mp hr) hN)
    _ = m * f := by rw [sum_const, card_range, nsmul_eq_mul]

theorem weights_ge {N bins m j : ℕ} {f c : ℝ} (hf : 0 < f) (hm : 0 < m)
    (hc : ∀ r < m, c ≤ ∑ k ∈ range N, overlap k (((r * bins + j : ℕ) : ℝ) * f) ((((r * bins + j : ℕ) : ℝ) + 1) * f) ^ 2) :
    c / f ≤ ∑ k ∈ range N, binWeight f bins m j k ^ 2 := by
  have hm0 : (0 : ℝ) < m := by exact_mod_cast hm
  unfold binWeight
  simp only [div_pow]
  rw [← Finset.sum_div, Real.sq_sqrt (by positivity), div_le_div_iff₀ hf (by positivity)]
  have h : m * c ≤ ∑ k ∈ range N, (∑ r ∈ range m, overlap k (((r * bins + j : ℕ) : ℝ) * f) ((((r * bins + j : ℕ) : ℝ) + 1) * f)) ^ 2 := by
    calc m * c = ∑ r ∈ range m, c := by rw [sum_const, card_range, nsmul_eq_mul]
      _ ≤ ∑ r ∈ range m, ∑ k ∈ range N, overlap k (((r * bins + j : ℕ) : ℝ) * f) ((((r * bins + j : ℕ) : ℝ) + 1) * f) ^ 2 :=
          sum_le_sum (fun r hr => hc r (mem_range.mp hr))
      _ = ∑ k ∈ range N, ∑ r ∈ range m, overlap k (((r * bins + j : ℕ) : ℝ) * f) ((((r * bins + j : ℕ) : ℝ) + 1) * f) ^ 2 :=
          Finset.sum_comm
      _ ≤ _ := by
          refine sum_le_sum (fun k _ => ?_)
          have h0 : ∀ r, 0 ≤ overlap k (((r * bins + j : ℕ) : ℝ) * f) ((((r * bins + j : ℕ) : ℝ) + 1) * f) :=
            fun r => overlap_nonneg _ _ _
          rw [sq (∑ r ∈ range m, _), Finset.sum_mul]
          refine sum_le_sum (fun r hr => ?_)
          rw [sq]
          exact mul_le_mul_of_nonneg_left (single_le_sum (fun r _ => h0 r) hr) (h0 r)
  nlinarith

/-- What `from_pipeline_output` accepts, in samples. -/
theorem accepted_facts {N bins : ℕ} {period tsamp : ℝ} (hb : 0 < bins) (hts : 0 < tsamp) (h1 : period ≤ N * tsamp) (h2 : tsamp < period / bins) :
    1 < period / bins / tsamp ∧ 0 < ⌊(N : ℝ) * tsamp / period⌋₊ ∧
    ((⌊(N : ℝ) * tsamp / period⌋₊ * bins : ℕ) : ℝ) * (period / bins / tsamp) ≤ N := by
  have hb0 : (0 : ℝ) < bins := by exact_mod_cast hb
  have hp : 0 < period := by
    by_contra hc
    have : period / bins ≤ 0 := div_nonpos_of_nonpos_of_nonneg (not_lt.mp hc) hb0.le
    linarith
  refine ⟨by rwa [lt_div_iff₀ hts, one_mul], ?_, ?_⟩
  · rw [Nat.floor_pos, le_div_iff₀ hp, one_mul]
    exact h1
  · have h3 : ((⌊(N : ℝ) * tsamp / period⌋₊ : ℕ) : ℝ) ≤ N * tsamp / period := Nat.floor_le (by positivity)
    rw [le_div_iff₀ hp] at h3
    push_cast
    rw [show ((⌊(N : ℝ) * tsamp / period⌋₊ : ℕ) : ℝ) * bins * (period / bins / tsamp) =
      ((⌊(N : ℝ) * tsamp / period⌋₊ : ℕ) : ℝ) * period / tsamp by field_simp, div_le_iff₀ hts]
    exact h3

/-! ## C90 -/

/-- C90, the part on noise that holds. The samples are those of a signal `s` plus uncorrelated noise of mean zero and unit variance. For
every realisation a candidate is made. The expected value of its profile is the profile for the signal alone, and the variance of a bin is at most 1 and at least
`1 - 1 / (2 f)`, where `f > 1` is the number of samples per bin. It is 1 if `f` is an integer.
Missing: unit variance for other `f`, see `C90_variance_false`. -/
theorem C90_noise_partial {Ω : Type*} [MeasurableSpace Ω] (μ : Measure Ω) [IsProbabilityMeasure μ] (ξ : ℕ → Ω → ℝ)
    (hL : ∀ i, MemLp (ξ i) 2 μ) (hmean : ∀ i, ∫ ω, ξ i ω ∂μ = 0) (hvar : ∀ i, Var[ξ i; μ] = 1)
    (hind : ∀ i j, i ≠ j → IndepFun (ξ i) (ξ j) μ) (s : ℕ → ℝ) (N : ℕ)
    (w : Ω → World) (id : ℕ) (o : TsObj) (ho : ∀ ω, (w ω).objs[id]? = some o) (t : ℝ) (ht : 0 < t)
    (htobs : ∀ ω, dictGet ((w ω).metaOf o) "tobs" = some (.num t)) (hts : 0 < o.tsamp)
    (hdata : ∀ ω, (w ω).dataOf o = (List.range N).map (fun i => s i + ξ i ω))
    (cl : PCluster ℝ) (c : HPeak ℝ) (hc : cl.centre = .ok c) (bins : ℕ) (hb : 0 < bins) (subints : Option ℤ)
    (hs : ∀ n, subints = some n → 1 ≤ n) (h1 : c.period ≤ N * o.tsamp) (h2 : o.tsamp < c.period / bins) :
    ∃ (w' : Ω → World) (cand : Ω → CandObj ℝ) (P : ℕ → Ω → ℝ),
      (∀ ω, fromPipelineOutput (w ω) id cl bins subints = .ok (w' ω, cand ω)) ∧
      (∀ ω, (cand ω).profile = (List.range bins).map (fun j => P j ω)) ∧
      ∀ j < bins,
        ∫ ω, P j ω ∂μ = ∑ i ∈ range ⌊(N : ℝ) * o.tsamp / c.period⌋₊,
          foldValue ((List.range N).map s) (c.period / bins / o.tsamp) bins ⌊(N : ℝ) * o.tsamp / c.period⌋₊ i j ∧
        Var[P j; μ] ≤ 1 ∧ 1 - 1 / (2 * (c.period / bins / o.tsamp)) ≤ Var[P j; μ] ∧
        Var[P j; μ] = ∑ k ∈ range N, binWeight (c.period / bins / o.tsamp) bins ⌊(N : ℝ) * o.tsamp / c.period⌋₊ j k ^ 2 ∧
        (∀ n : ℕ, c.period / bins / o.tsamp = n → Var[P j; μ] = 1) := by
  obtain ⟨hf, hm, hfit⟩ := accepted_facts hb hts h1 h2
  have hlen : ∀ ω, ((w ω).dataOf o).length = N := by intro ω; rw [hdata]; simp
  have hcand : ∀ ω, ∃ w' cand, fromPipelineOutput (w ω) id cl bins subints = .ok (w', cand) ∧
      cand.profile = (List.range bins).map (fun j => ∑ i ∈ range ⌊(N : ℝ) * o.tsamp / c.period⌋₊,
        foldValue ((List.range N).map (fun i => s i + ξ i ω)) (c.period / bins / o.tsamp) bins ⌊(N : ℝ) * o.tsamp / c.period⌋₊ i j) := by
    intro ω
    obtain ⟨w', cand, e, _, _, _, _, _, hp⟩ := (C70_candidate (w ω) id o (ho ω) t ht (htobs ω) hts cl c hc bins hb subints hs).2
      (by rw [hlen]; exact ⟨h1, h2⟩)
    rw [hlen, hdata] at hp
    exact ⟨w', cand, e, hp⟩
  choose w' cand e1 e2 using hcand
  generalize ⌊(N : ℝ) * o.tsamp / c.period⌋₊ = m at *
  generalize c.period / bins / o.tsamp = f at *
  have hf0 : 0 < f := by linarith
  refine ⟨w', cand, fun j ω => ∑ i ∈ range m, foldValue ((List.range N).map (fun i => s i + ξ i ω)) f bins m i j, e1, e2, ?_⟩
  intro j hj
  have hint : ∀ i, Integrable (ξ i) μ := fun i => (hL i).integrable (by norm_num)
  have hval : ∀ g : ℕ → ℝ, ∑ i ∈ range m, foldValue ((List.range N).map g) f bins m i j = ∑ k ∈ range N, binWeight f bins m j k * g k := by
    intro g
    rw [profile_linear, List.length_map, List.length_range]
    refine sum_congr rfl (fun k hk => ?_)
    rw [List.getD_eq_getElem?_getD, List.getElem?_map, List.getElem?_range (mem_range.mp hk)]
    rfl
  have hP : (fun ω => ∑ i ∈ range m, foldValue ((List.range N).map (fun i => s i + ξ i ω)) f bins m i j) =
      fun ω => ∑ k ∈ range N, binWeight f bins m j k * s k + ∑ k ∈ range N, binWeight f bins m j k * ξ k ω := by
    funext ω
    rw [hval, ← sum_add_distrib]
    exact sum_congr rfl (fun k _ => by ring)
  have hV : Var[fun ω => ∑ i ∈ range m, foldValue ((List.range N).map (fun i => s i + ξ i ω)) f bins m i j; μ] =
      ∑ k ∈ range N, binWeight f bins m j k ^ 2 := by
    rw [hP]
    have hmeas : AEStronglyMeasurable (fun ω => ∑ k ∈ range N, binWeight f bins m j k * ξ k ω) μ :=
      (integrable_finsetSum _ (fun i _ => (hint i).const_mul _)).aestronglyMeasurable
    rw [variance_const_add hmeas]
    have e3 : (fun ω => ∑ k ∈ range N, binWeight f bins m j k * ξ k ω) = ∑ k ∈ range N, (fun ω => binWeight f bins m j k * ξ k ω) := by
      funext ω; simp
    rw [e3, IndepFun.variance_sum]
    · simp only [variance_const_mul, hvar, mul_one]
    · intro i _
      exact (hL i).const_mul _
    · intro i _ k _ hik
      exact (hind i k hik).comp (φ := fun v => binWeight f bins m j i * v) (ψ := fun v => binWeight f bins m j k * v) (by fun_prop) (by fun_prop)
  refine ⟨?_, ?_, ?_, hV, ?_⟩
  · rw [hP, hval, integral_add (integrable_const _) (integrable_finsetSum _ (fun i _ => (hint i).const_mul _)),
        integral_finsetSum _ (fun i _ => (hint i).const_mul _)]
    simp only [integral_const_mul, hmean, mul_zero, Finset.sum_const_zero, add_zero]
    simp
  · rw [hV]
    exact weights_le hf0 hm hj hfit
  · rw [hV]
    have := weights_ge (N := N) (bins := bins) (j := j) (c := f - 1 / 2) hf0 hm
      (fun r hr => window_sq_ge hf (window_le hf0.le hj hr hfit))
    rwa [sub_div, div_self hf0.ne', div_div] at this
  · intro n hn
    rw [hV]
    refine le_antisymm (weights_le hf0 hm hj hfit) ?_
    have := weights_ge (N := N) (bins := bins) (j := j) (c := f) hf0 hm (fun r hr => by
      have := window_le hf0.le hj hr hfit
      rw [hn] at this ⊢
      exact (window_sq_int this).ge)
    rwa [div_self hf0.ne'] at this

/-- C90, the part on the mean that holds. The sum of a profile is, up to the normalisation, the sum of the samples in whole periods (with
the last sample in part); so a series of mean zero gives a profile of mean zero if it is a whole number of periods long.
Missing: other lengths, see `C90_mean_false`. -/
theorem C90_mean_partial (w : World) (id : ℕ) (o : TsObj) (ho : w.objs[id]? = some o) (t : ℝ) (ht : 0 < t)
    (htobs : dictGet (w.metaOf o) "tobs" = some (.num t)) (hts : 0 < o.tsamp) (cl : PCluster ℝ) (c : HPeak ℝ) (hc : cl.centre = .ok c)
    (bins : ℕ) (hb : 0 < bins) (subints : Option ℤ) (hs : ∀ n, subints = some n → 1 ≤ n) (w' : World) (cand : CandObj ℝ)
    (h : fromPipelineOutput w id cl bins subints = .ok (w', cand)) :
    let x := w.dataOf o
    let m := ⌊(x.length : ℝ) * o.tsamp / c.period⌋₊
    cand.profile.sum = stepIntegral x.length (fun i => x.getD i 0) 0 (m * c.period / o.tsamp) /
      Real.sqrt (m * (c.period / bins / o.tsamp)) ∧
    (x.sum = 0 → x.length * o.tsamp = m * c.period → cand.profile.sum = 0) := by
  intro x m
  obtain ⟨a, b⟩ := C70_candidate w id o ho t ht htobs hts cl c hc bins hb subints hs
  have k := by_contra fun hc => by rw [a hc] at h; cases h
  obtain ⟨_, _, q, _, _, _, _, _, hp⟩ := b k
  rw [h] at q
  cases q
  obtain ⟨hf, hm, hfit⟩ := accepted_facts hb hts k.1 k.2
  change cand.profile = (List.range bins).map (fun j => ∑ i ∈ range m, foldValue x (c.period / bins / o.tsamp) bins m i j) at hp
  have hb0 : (0 : ℝ) < bins := by exact_mod_cast hb
  have e : cand.profile.sum = stepIntegral x.length (fun i => x.getD i 0) 0 (m * c.period / o.tsamp) /
      Real.sqrt (m * (c.period / bins / o.tsamp)) := by
    have hmb : (m : ℝ) * c.period / o.tsamp = ((m * bins : ℕ) : ℝ) * (c.period / bins / o.tsamp) := by
      push_cast
      field_simp
    rw [hmb]
    generalize c.period / bins / o.tsamp = f at *
    have h1 : ((List.range bins).map (fun j => ∑ i ∈ range m, foldValue x f bins m i j)).sum =
        ∑ j ∈ range bins, ∑ i ∈ range m, foldValue x f bins m i j := by
      rw [Finset.sum_range, ← List.sum_ofFn, List.ofFn_eq_map]
      congr 1
      apply List.ext_getElem
      · simp
      · intro n _ _
        simp
    rw [hp, h1, Finset.sum_comm]
    unfold foldValue
    simp only [← Finset.sum_div]
    rw [sum_blocks (fun k => stepIntegral x.length (fun i => x.getD i 0) ((k : ℝ) * f) (((k : ℝ) + 1) * f)) bins m,
      ← stepIntegral_sum x.length (fun i => x.getD i 0) (by linarith : 0 ≤ f) (m * bins)]
    simp only [add_mul, one_mul]
  refine ⟨e, ?_⟩
  intro hx hL
  rw [e, ← hL, mul_div_cancel_right₀ _ hts.ne']
  have h0 : stepIntegral x.length (fun i => x.getD i 0) 0 x.length = x.sum := by
    unfold stepIntegral
    have h2 : ∀ i ∈ range x.length, x.getD i 0 * overlap i 0 x.length = x.getD i 0 := by
      intro i hi
      have h3 : (i : ℝ) + 1 ≤ x.length := by exact_mod_cast mem_range.mp hi
      rw [overlap_inner (Nat.cast_nonneg i) h3, mul_one]
    rw [sum_congr rfl h2]
    have := sum_map_getD x (fun v => v)
    simp only [List.map_id'] at this
    exact this.symm
  rw [h0, hx, zero_div]

/-- A world with one time series of sampling time one. -/
noncomputable def profWorld (x : List ℝ) : World := ⟨[x], [[("tobs", .num x.length)]], [⟨0, 1, 0⟩]⟩

theorem profWorld_data (x : List ℝ) : (profWorld x).dataOf ⟨0, 1, 0⟩ = x := by simp [profWorld, World.dataOf, List.getD]

theorem profWorld_tobs (x : List ℝ) : dictGet ((profWorld x).metaOf ⟨0, 1, 0⟩) "tobs" = some (.num x.length) := by
  simp [profWorld, World.metaOf, List.getD, dictGet]

/-- A peak at a period of six samples. -/
noncomputable def profPeak : HPeak ℝ := { period := 6, freq := 1 / 6, ducy := 1 / 4, snr := 9, dm := 3 }

theorem exists_white_noise : ∃ (Ω : Type) (_ : MeasurableSpace Ω) (μ : Measure Ω) (ξ : ℕ → Ω → ℝ), IsProbabilityMeasure μ ∧
    (∀ i, MemLp (ξ i) 2 μ) ∧ (∀ i, ∫ ω, ξ i ω ∂μ = 0) ∧ (∀ i, Var[ξ i; μ] = 1) ∧ ∀ i j, i ≠ j → IndepFun (ξ i) (ξ j) μ := by
  obtain ⟨Ω, mΩ, μ, g, hm, hlaw, hind, hp⟩ := exists_iid ℕ (gaussianReal 0 1)
  refine ⟨Ω, mΩ, μ, g, hp, ?_, ?_, ?_, fun i j h => hind.indepFun h⟩
  · intro i
    have h := memLp_id_gaussianReal' (μ := 0) (v := 1) 2 (by simp)
    rw [← (hlaw i).map_eq, memLp_map_measure_iff (by fun_prop) (hm i).aemeasurable] at h
    exact h
  · intro i
    rw [(hlaw i).integral_eq, integral_id_gaussianReal]
  · intro i
    rw [(hlaw i).variance_eq, variance_id_gaussianReal]
    rfl

/-- All hypotheses of `C90_noise_partial` are met by six samples of normal noise folded at a period of six samples into `bins` bins. -/
theorem prof_noise (bins : ℕ) (hb : 0 < bins) (hb6 : bins < 6) : ∃ (Ω : Type) (_ : MeasurableSpace Ω) (μ : Measure Ω) (ξ : ℕ → Ω → ℝ)
    (w' : Ω → World) (cand : Ω → CandObj ℝ) (P : ℕ → Ω → ℝ), IsProbabilityMeasure μ ∧
    (∀ i, MemLp (ξ i) 2 μ) ∧ (∀ i, ∫ ω, ξ i ω ∂μ = 0) ∧ (∀ i, Var[ξ i; μ] = 1) ∧ (∀ i j, i ≠ j → IndepFun (ξ i) (ξ j) μ) ∧
    (∀ ω, fromPipelineOutput (profWorld ((List.range 6).map (fun i => ξ i ω))) 0 ⟨[profPeak], none, none, none⟩ bins (some 1) =
      .ok (w' ω, cand ω)) ∧
    (∀ ω, (cand ω).profile = (List.range bins).map (fun j => P j ω)) ∧
    (∀ j < bins, Var[P j; μ] = ∑ k ∈ range 6, binWeight (6 / bins) bins 1 j k ^ 2) ∧
    ∀ j < bins, ∀ n : ℕ, (6 : ℝ) / bins = n → Var[P j; μ] = 1 := by
  obtain ⟨Ω, mΩ, μ, ξ, hp, hL, hM, hV, hI⟩ := exists_white_noise
  have hb0 : (0 : ℝ) < bins := by exact_mod_cast hb
  have hb6' : (bins : ℝ) < 6 := by exact_mod_cast hb6
  obtain ⟨w', cand, P, e1, e2, e3⟩ := C90_noise_partial μ ξ hL hM hV hI (fun _ => 0) 6
    (fun ω => profWorld ((List.range 6).map (fun i => ξ i ω))) 0 ⟨0, 1, 0⟩ (fun _ => rfl) 6 (by norm_num)
    (fun ω => by rw [profWorld_tobs]; simp) one_pos (fun ω => by rw [profWorld_data]; simp) ⟨[profPeak], none, none, none⟩ profPeak rfl
    bins hb (some 1) (by rintro n ⟨⟩; norm_num) (by norm_num [profPeak])
    (by rw [lt_div_iff₀ hb0]; norm_num [profPeak]; exact_mod_cast hb6)
  have hper : profPeak.period = 6 := by norm_num [profPeak]
  have hm : ⌊((6 : ℕ) : ℝ) * (1 : ℝ) / 6⌋₊ = 1 := by norm_num
  refine ⟨Ω, mΩ, μ, ξ, w', cand, P, hp, hL, hM, hV, hI, e1, e2, ?_, ?_⟩
  · intro j hj
    have := (e3 j hj).2.2.2.1
    rw [hper, hm, div_one] at this
    exact this
  · intro j hj n hn
    have := (e3 j hj).2.2.2.2 n
    rw [hper, div_one] at this
    exact this hn

/-- Non-vacuity: two samples per bin. -/
example : ∃ (Ω : Type) (_ : MeasurableSpace Ω) (μ : Measure Ω) (P : ℕ → Ω → ℝ), ∀ j < 3, Var[P j; μ] = 1 := by
  obtain ⟨Ω, mΩ, μ, _, _, _, P, _, _, _, _, _, _, _, _, h⟩ := prof_noise 3 (by norm_num) (by norm_num)
  exact ⟨Ω, mΩ, μ, P, fun j hj => h j hj 2 (by norm_num)⟩

/-- C90 is false: with four bins in a period of six samples, a bin of the profile of unit white noise has variance 5/6. -/
theorem C90_variance_false : ∃ (Ω : Type) (_ : MeasurableSpace Ω) (μ : Measure Ω) (ξ : ℕ → Ω → ℝ)
    (w' : Ω → World) (cand : Ω → CandObj ℝ) (P : ℕ → Ω → ℝ), IsProbabilityMeasure μ ∧
    (∀ i, MemLp (ξ i) 2 μ) ∧ (∀ i, ∫ ω, ξ i ω ∂μ = 0) ∧ (∀ i, Var[ξ i; μ] = 1) ∧ (∀ i j, i ≠ j → IndepFun (ξ i) (ξ j) μ) ∧
    (∀ ω, fromPipelineOutput (profWorld ((List.range 6).map (fun i => ξ i ω))) 0 ⟨[profPeak], none, none, none⟩ 4 (some 1) =
      .ok (w' ω, cand ω)) ∧
    (∀ ω, (cand ω).profile = (List.range 4).map (fun j => P j ω)) ∧ Var[P 0; μ] = 5 / 6 := by
  obtain ⟨Ω, mΩ, μ, ξ, w', cand, P, h1, h2, h3, h4, h5, h6, h7, h8, _⟩ := prof_noise 4 (by norm_num) (by norm_num)
  refine ⟨Ω, mΩ, μ, ξ, w', cand, P, h1, h2, h3, h4, h5, h6, h7, ?_⟩
  rw [h8 0 (by norm_num)]
  unfold binWeight
  simp only [div_pow]
  rw [← Finset.sum_div, Real.sq_sqrt (by norm_num)]
  norm_num [Finset.sum_range_succ, overlap, max_def, min_def]

/-- C90 is false: eight samples of mean zero and unit variance, folded at a period of six samples, give a profile with a mean other
than zero. -/
theorem C90_mean_false : ∃ (x : List ℝ) (w' : World) (cand : CandObj ℝ), x.sum = 0 ∧ (x.map (fun v : ℝ => v ^ 2)).sum = (x.length : ℝ) ∧
    fromPipelineOutput (profWorld x) 0 ⟨[profPeak], none, none, none⟩ 4 (some 1) = .ok (w', cand) ∧ cand.profile.sum ≠ 0 := by
  obtain ⟨x, hx⟩ : ∃ x : List ℝ, x = [1, 1, 1, 1, -1, -1, -1, -1] := ⟨_, rfl⟩
  have hlen : x.length = 8 := by rw [hx]; rfl
  obtain ⟨w', cand, h, _⟩ := (C70_candidate (profWorld x) 0 ⟨0, 1, 0⟩ rfl x.length (by rw [hlen]; norm_num) (profWorld_tobs x) one_pos
    ⟨[profPeak], none, none, none⟩ profPeak rfl 4 (by norm_num) (some 1) (by rintro s ⟨⟩; norm_num)).2
    (by rw [profWorld_data, hlen]; norm_num [profPeak])
  refine ⟨x, w', cand, by rw [hx]; norm_num, by rw [hx]; norm_num, h, ?_⟩
  have e := (C90_mean_partial (profWorld x) 0 ⟨0, 1, 0⟩ rfl x.length (by rw [hlen]; norm_num) (profWorld_tobs x) one_pos
    ⟨[profPeak], none, none, none⟩ profPeak rfl 4 (by norm_num) (some 1) (by rintro s ⟨⟩; norm_num) w' cand h).1
  have hper : profPeak.period = 6 := by norm_num [profPeak]
  have hm : ⌊((8 : ℕ) : ℝ) * (1 : ℝ) / 6⌋₊ = 1 := by
    rw [Nat.floor_eq_iff (by norm_num)]
    norm_num
  simp only [profWorld_data, hlen, hper, hm] at e
  rw [e]
  apply div_ne_zero
  · unfold stepIntegral
    rw [hx]
    norm_num [Finset.sum_range_succ, overlap, max_def, min_def]
  · exact (Real.sqrt_pos.mpr (by norm_num)).ne'

/-- Non-vacuity of the second part of `C90_mean_partial`: two periods of six samples. -/
example : ∃ (x : List ℝ) (w' : World) (cand : CandObj ℝ), x.sum = 0 ∧ x.length = 12 ∧
    fromPipelineOutput (profWorld x) 0 ⟨[profPeak], none, none, none⟩ 4 (some 1) = .ok (w', cand) ∧ cand.profile.sum = 0 := by
  obtain ⟨x, hx⟩ : ∃ x : List ℝ, x = [5, -1, -1, -1, -1, -1, 7, 0, 0, -4, -3, 0] := ⟨_, rfl⟩
  have hlen : x.length = 12 := by rw [hx]; rfl
  have hsum : x.sum = 0 := by rw [hx]; norm_num
  obtain ⟨w', cand, h, _⟩ := (C70_candidate (profWorld x) 0 ⟨0, 1, 0⟩ rfl x.length (by rw [hlen]; norm_num) (profWorld_tobs x) one_pos
    ⟨[profPeak], none, none, none⟩ profPeak rfl 4 (by norm_num) (some 1) (by rintro s ⟨⟩; norm_num)).2
    (by rw [profWorld_data, hlen]; norm_num [profPeak])
  have hper : profPeak.period = 6 := by norm_num [profPeak]
  have hm : ⌊((12 : ℕ) : ℝ) * (1 : ℝ) / 6⌋₊ = 2 := by norm_num
  refine ⟨x, w', cand, hsum, hlen, h, ?_⟩
  refine (C90_mean_partial (profWorld x) 0 ⟨0, 1, 0⟩ rfl x.length (by rw [hlen]; norm_num) (profWorld_tobs x) one_pos
    ⟨[profPeak], none, none, none⟩ profPeak rfl 4 (by norm_num) (some 1) (by rintro s ⟨⟩; norm_num) w' cand h).2 ?_ ?_
  · rw [profWorld_data, hsum]
  · simp only [profWorld_data, hlen, hper, hm]
    norm_num

end Verif.Props
