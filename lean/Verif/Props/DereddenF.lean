import Verif.Lemmas.DereddenF
import Verif.Props.NormaliseF
import Verif.Props.EndToEnd

/-!
# C120: dereddening in floating point, and `ffa_search` with all its steps in floating point
-/

namespace Verif.Props

open Verif.Model Verif.Spec Verif.Lemmas Finset

/-- Abscissae of the block means. -/
theorem lores_mono {f : ℕ} (hf : 1 ≤ f) : ∀ i j : ℕ, i < j → (i : ℝ) * f + 1 / 2 * ((f : ℝ) - 1) < (j : ℝ) * f + 1 / 2 * ((f : ℝ) - 1) := by
  intro i j hij
  have h1 : (i : ℝ) < j := by exact_mod_cast hij
  have h2 : (0 : ℝ) < f := by exact_mod_cast hf
  have := mul_lt_mul_of_pos_right h1 h2
  linarith

theorem fast_factor {w m : ℕ} (hm : 0 < m) : max 1 (w / m) = 1 ↔ w < 2 * m := by
  have h1 := Nat.div_lt_iff_lt_mul (x := w) (y := 2) hm
  constructor
  · intro h
    exact h1.mp (by omega)
  · intro h
    have := h1.mpr h
    omega

/-- The running median in floating point. -/
theorem fastMedian_close {A : DArith} {B : FArith} {u v : ℝ} (hA : Sane A) (h : Rounds B u v) (hv : v ≤ 1 / 100) {x r r' : List ℝ} {w m : ℕ} {M : ℝ} (hw : w < 2 ^ 53)
    (hM : ∀ a ∈ x, |a| ≤ M) (hM0 : 0 ≤ M) (hγ : (w / m : ℕ) * u < 1) (hγ2 : gam u (w / m) ≤ 1 / 10) (hr : fastRunningMedian x w m = .ok r)
    (hr' : FastMediansTo A B x w m r') :
    r.length = x.length ∧ r'.length = x.length ∧
    ∀ i < x.length, |r'.getD i 0 - r.getD i 0| ≤ if A.scrunchFactor w m = 1 then 0 else (gam u (w / m) + 14 * v) * M := by
  obtain ⟨hm, hc⟩ := hr'
  have hsf := scrunch_exact hA (w := w) (m := m) (by omega) hw
  rw [hsf] at hc ⊢
  obtain ⟨_, ⟨h2, h1⟩ | ⟨h2, rmed, h1, rfl⟩⟩ := fast_ok_inv hr
  · rw [if_pos ((fast_factor (by omega)).mpr h2), h1] at hc
    have e := Except.ok.inj hc
    subst e
    have hl := (runningMedian_mem h1).1
    refine ⟨hl, hl, fun i hi => ?_⟩
    rw [if_pos ((fast_factor (by omega)).mpr h2), sub_self, abs_zero]
  · have hf : 2 ≤ w / m := (Nat.le_div_iff_mul_le (by omega : 0 < m)).mpr h2
    have hne : ¬max 1 (w / m) = 1 := by omega
    rw [if_neg hne] at hc ⊢
    rw [show max 1 (w / m) = w / m by omega] at hc
    generalize w / m = f at *
    obtain ⟨s, rmed', hs, hr2, hl', hi'⟩ := hc
    obtain ⟨ls, hcl⟩ := scrunch_close h (by omega) hM hs
    obtain ⟨l1, l2, hmc⟩ := runningMedian_close ls hcl hr2 h1
    have hslt := (runningMedian_mem hr2).2.2.1
    refine ⟨by simp, hl', fun i hi => ?_⟩
    have hq := grow_le_gam h f hγ
    have hγ0 : 0 ≤ gam u f := by
      have := pow_ge_one (grow_facts h).1 f
      linarith
    -- sizes
    have hrm : ∀ j < s.length, |rmed'.getD j default| ≤ 11 / 10 * M := by
      intro j hj
      have b1 : rmed.getD j default ∈ rmed := by
        rw [List.getD_eq_getElem?_getD, List.getElem?_eq_getElem (by omega : j < rmed.length), Option.getD_some]
        exact List.getElem_mem _
      have b2 := scrunch_abs (by omega : 1 ≤ f) hM _ ((runningMedian_mem h1).2.2.2 _ b1)
      have b3 := hmc j hj
      have b4 := abs_add_le (rmed'.getD j default - rmed.getD j default) (rmed.getD j default)
      rw [sub_add_cancel] at b4
      have b5 : (grow u ^ f - 1) * M ≤ 1 / 10 * M := mul_le_mul_of_nonneg_right (by linarith) hM0
      linarith
    have i1 := interpsTo_close h (by omega : 1 ≤ s.length) (lores_mono (by omega : 1 ≤ f)) hrm (hi' i hi)
    have i2 := interp_close (n := s.length) (by omega) (lores_mono (by omega : 1 ≤ f)) hmc (i : ℝ)
    rw [List.getD_eq_getElem?_getD (l := List.map _ _), List.getElem?_map, List.getElem?_range hi, Option.map_some, Option.getD_some, ← ls]
    have i3 : (grow u ^ f - 1) * M ≤ gam u f * M := mul_le_mul_of_nonneg_right hq hM0
    have hv0 := h.v_nonneg
    have i4 : (grow v ^ 4 - 1) * (3 * (11 / 10 * M)) ≤ 14 * v * M := by
      have g1 := grow_le_gam (dblOnly_rounds h) 4 (by push_cast; linarith)
      have g2 : gam v 4 ≤ 42 / 10 * v := by
        unfold gam
        push_cast
        rw [div_le_iff₀ (by linarith)]
        nlinarith
      have g3 : (grow v ^ 4 - 1) * (3 * (11 / 10 * M)) ≤ (42 / 10 * v) * (3 * (11 / 10 * M)) := mul_le_mul_of_nonneg_right (g1.trans g2) (by positivity)
      have g4 : 0 ≤ v * M := by positivity
      linarith
    have e := abs_add_le (r'.getD i 0 - interp s.length (fun j : ℕ => (j : ℝ) * f + 1 / 2 * ((f : ℝ) - 1)) (fun j => rmed'.getD j default) (i : ℝ))
      (interp s.length (fun j : ℕ => (j : ℝ) * f + 1 / 2 * ((f : ℝ) - 1)) (fun j => rmed'.getD j default) (i : ℝ) -
        interp s.length (fun j : ℕ => (j : ℝ) * f + 1 / 2 * ((f : ℝ) - 1)) (fun j => rmed.getD j default) (i : ℝ))
    rw [sub_add_sub_cancel] at e
    linarith

/-- C120. `deredden` in floating point. Let `M` bound the samples, let `f = w / m` be the number of samples per block, and `γ = γ_f` in single precision.
Every output sample is the exactly dereddened sample `a - b` up to `3u |a - b| + 2 (γ + 14 v) M`, and up to `u |a - b|` if the data are not scrunched
(the window is shorter than twice the minimum number of points). -/
theorem C120_deredden {A : DArith} {B : FArith} {u v : ℝ} (hA : Sane A) (h : Rounds B u v) (hu : u ≤ 1 / 4) (hv : v ≤ 1 / 100) {x r y : List ℝ} {w m : ℕ} {M : ℝ}
    (hw : w < 2 ^ 53) (hM : ∀ a ∈ x, |a| ≤ M) (hM0 : 0 ≤ M) (hγ : (w / m : ℕ) * u < 1) (hγ2 : gam u (w / m) ≤ 1 / 10) (hr : fastRunningMedian x w m = .ok r)
    (hy : DereddensTo A B x w m y) :
    y.length = x.length ∧ ∀ (i : ℕ) (a b : ℝ), x[i]? = some a → r[i]? = some b → ∃ c, y[i]? = some c ∧
      |c - (a - b)| ≤ if w < 2 * m then u * |a - b| else 3 * u * |a - b| + 2 * (gam u (w / m) + 14 * v) * M := by
  obtain ⟨r', hr', rfl⟩ := hy
  obtain ⟨l1, l2, hc⟩ := fastMedian_close hA h hv hw hM hM0 hγ hγ2 hr hr'
  refine ⟨by rw [List.length_zipWith]; omega, fun i a b ha hb => ?_⟩
  obtain ⟨hi, rfl⟩ := List.getElem?_eq_some_iff.mp ha
  obtain ⟨hi2, rfl⟩ := List.getElem?_eq_some_iff.mp hb
  have hd := hc i hi
  rw [List.getD_eq_getElem?_getD, List.getD_eq_getElem?_getD, List.getElem?_eq_getElem (by omega : i < r'.length), List.getElem?_eq_getElem hi2,
    Option.getD_some, Option.getD_some] at hd
  refine ⟨_, by rw [List.getElem?_zipWith, ha, List.getElem?_eq_getElem (by omega : i < r'.length)], ?_⟩
  have hm : 0 < m := by have := hr'.1; omega
  have hf := fast_factor (w := w) hm
  rw [← scrunch_exact hA hm hw] at hf
  have hu0 := h.u_nonneg
  by_cases h2 : w < 2 * m
  · rw [if_pos (hf.mpr h2)] at hd
    rw [if_pos (hf.mpr h2), if_pos h2]
    have : r'[i] = r[i] := by
      have := abs_nonpos_iff.mp hd
      linarith
    rw [this]
    exact h.fl _
  · rw [if_neg (fun e => h2 (hf.mp e))] at hd
    rw [if_neg (fun e => h2 (hf.mp e)), if_neg h2, mul_assoc 2]
    generalize x[i] = a at *
    generalize r[i] = b at *
    generalize r'[i] = b' at *
    generalize (gam u (w / m) + 14 * v) * M = ε at *
    have hdb : |B.dbl (a - b') - (a - b')| ≤ u * |a - b'| := (h.dbl _).trans (mul_le_mul_of_nonneg_right h.v_le (abs_nonneg _))
    have h3 : |B.dbl (a - b')| ≤ (1 + u) * |a - b'| := by
      have := abs_add_le (B.dbl (a - b') - (a - b')) (a - b')
      rw [sub_add_cancel] at this
      linarith
    have h4 := h.fl (B.dbl (a - b'))
    have h5 : u * |B.dbl (a - b')| ≤ u * ((1 + u) * |a - b'|) := mul_le_mul_of_nonneg_left h3 hu0
    have h6 : |a - b'| ≤ |a - b| + ε := by
      have := abs_add_le (a - b) (b - b')
      rw [sub_add_sub_cancel, abs_sub_comm b b'] at this
      linarith
    have e : B.fl (B.dbl (a - b')) - (a - b) = (B.fl (B.dbl (a - b')) - B.dbl (a - b')) + (B.dbl (a - b') - (a - b')) + (b - b') := by ring
    rw [e]
    refine (abs_add_three _ _ _).trans ?_
    rw [abs_sub_comm b b']
    have h7 : 0 ≤ |a - b'| := abs_nonneg _
    have h8 : u * u * |a - b'| ≤ u * (1 / 4) * |a - b'| := by gcongr
    have h9 : u * |a - b'| ≤ u * (|a - b| + ε) := mul_le_mul_of_nonneg_left h6 hu0
    have h10 : 0 ≤ ε := (abs_nonneg _).trans hd
    have h11 : u * ε ≤ 1 / 4 * ε := mul_le_mul_of_nonneg_right hu h10
    have h12 : 0 ≤ u * |a - b| := by positivity
    nlinarith

theorem fast_ok_iff {K : Type*} [Field K] [LinearOrder K] [IsStrictOrderedRing K] [FloorSemiring K] [Inhabited K] (x : List K) (w m : ℕ) :
    (∃ r, fastRunningMedian x w m = .ok r) ↔
      m % 2 = 1 ∧ ((w < 2 * m ∧ w % 2 = 1 ∧ w < x.length) ∨ (2 * m ≤ w ∧ m < x.length / (w / m))) := by
  constructor
  · rintro ⟨r, hr⟩
    obtain ⟨hm, ⟨h2, h1⟩ | ⟨h2, rmed, h1, rfl⟩⟩ := fast_ok_inv hr
    · have := runningMedian_mem h1
      exact ⟨hm, Or.inl ⟨h2, this.2.1, this.2.2.1⟩⟩
    · have := (runningMedian_mem h1).2.2.1
      simp only [scrunch, List.length_map, List.length_range] at this
      exact ⟨hm, Or.inr ⟨h2, this⟩⟩
  · rintro ⟨hm, ⟨h2, h3, h4⟩ | ⟨h2, h3⟩⟩
    · obtain ⟨out, e, _⟩ := (C25_running_median x w).2 h3 h4
      refine ⟨out, ?_⟩
      unfold fastRunningMedian
      rw [if_neg (by omega)]
      simp only [scrunchFactor_eq]
      rw [if_pos ((fast_factor (by omega)).mpr h2), e]
    · have hf : 2 ≤ w / m := (Nat.le_div_iff_mul_le (by omega : 0 < m)).mpr h2
      obtain ⟨out, e, _⟩ := (C25_running_median (scrunch x (w / m)) m).2 hm (by simpa [scrunch] using h3)
      unfold fastRunningMedian
      rw [if_neg (by omega)]
      simp only [scrunchFactor_eq]
      rw [if_neg (by omega), show max 1 (w / m) = w / m by omega, e]
      exact ⟨_, rfl⟩

theorem scrunches_exists (B : FArith) (x : List ℝ) {f : ℕ} (hf : 1 ≤ f) : ∃ s, ScrunchesTo B x f s := by
  have h : ∀ i, ∃ t, i < x.length / f → DSum B.narrowed ((x.drop (i * f)).take f) t := by
    intro i
    by_cases hi : i < x.length / f
    · have h1 : (i + 1) * f ≤ x.length := (Nat.le_div_iff_mul_le hf).mp hi
      rw [Nat.succ_mul] at h1
      obtain ⟨t, ht⟩ := dsum_exists B.narrowed ((x.drop (i * f)).take f) (by
        rw [← List.length_pos_iff, List.length_take, List.length_drop]
        omega)
      exact ⟨t, fun _ => ht⟩
    · exact ⟨0, fun hc => absurd hc hi⟩
  choose t ht using h
  refine ⟨(List.range (x.length / f)).map fun i => B.fl (t i / f), by simp, fun i hi => ⟨t i, ht i hi, by simp [hi]⟩⟩

theorem interps_exists (B : FArith) (n : ℕ) (xp fp : ℕ → ℝ) (x : ℝ) : ∃ y, InterpsTo B n xp fp x y := by
  unfold InterpsTo
  simp only
  split_ifs
  · exact ⟨_, rfl⟩
  · exact ⟨_, rfl⟩
  · exact ⟨_, rfl⟩
  · exact ⟨_, Or.inl rfl⟩

/-- C120. It succeeds exactly when the exact running median does. -/
theorem C120_result {A : DArith} (hA : Sane A) (B : FArith) (x : List ℝ) (w m : ℕ) (hw : w < 2 ^ 53) :
    (∃ y, DereddensTo A B x w m y) ↔ ∃ r, fastRunningMedian x w m = .ok r := by
  rw [fast_ok_iff]
  unfold DereddensTo FastMediansTo
  constructor
  · rintro ⟨y, r, ⟨hm, h⟩, hy⟩
    rw [scrunch_exact hA (by omega) hw] at h
    refine ⟨hm, ?_⟩
    by_cases h2 : w < 2 * m
    · rw [if_pos ((fast_factor (by omega)).mpr h2)] at h
      have hb := runningMedian_mem h
      exact Or.inl ⟨h2, hb.2.1, hb.2.2.1⟩
    · have hf : 2 ≤ w / m := (Nat.le_div_iff_mul_le (by omega : 0 < m)).mpr (by omega)
      rw [if_neg (by omega)] at h
      obtain ⟨s, rmed, hs, h1, _⟩ := h
      have hb := (runningMedian_mem h1).2.2.1
      rw [hs.1, show max 1 (w / m) = w / m by omega] at hb
      exact Or.inr ⟨by omega, hb⟩
  · rintro ⟨hm, ⟨h2, h3, h4⟩ | ⟨h2, h3⟩⟩
    · obtain ⟨out, e, _⟩ := (C25_running_median x w).2 h3 h4
      refine ⟨_, out, ⟨hm, ?_⟩, rfl⟩
      rw [scrunch_exact hA (by omega) hw, if_pos ((fast_factor (by omega)).mpr h2), e]
    · have hf : 2 ≤ w / m := (Nat.le_div_iff_mul_le (by omega : 0 < m)).mpr h2
      obtain ⟨s, hs⟩ := scrunches_exists B x (by omega : 1 ≤ w / m)
      obtain ⟨rmed, e, _⟩ := (C25_running_median s m).2 hm (by rwa [hs.1])
      choose r hr using fun i : ℕ => interps_exists B s.length (fun j : ℕ => (j : ℝ) * (w / m : ℕ) + 1 / 2 * (((w / m : ℕ) : ℝ) - 1))
        (fun j => rmed.getD j default) (i : ℝ)
      refine ⟨_, (List.range x.length).map r, ⟨hm, ?_⟩, rfl⟩
      rw [scrunch_exact hA (by omega) hw, show max 1 (w / m) = w / m by omega, if_neg (by omega)]
      refine ⟨s, rmed, hs, e, by simp, fun i hi => ?_⟩
      have : ((List.range x.length).map r).getD i 0 = r i := by simp [List.getD_eq_getElem?_getD, hi]
      rw [this]
      exact hr i

/-! ### The search of raw samples with all steps of `ffa_search` -/

theorem meanOf_range (x : List ℝ) : meanOf x * x.length = ∑ i ∈ range x.length, x.getD i 0 := by
  have e := sum_map_getD x (fun a => a)
  rw [List.map_id'] at e
  rw [← e]
  unfold meanOf
  rcases Nat.eq_zero_or_pos x.length with h | h
  · rw [List.length_eq_zero_iff] at h
    simp [h]
  · field_simp

theorem varOf_range (x : List ℝ) : varOf x * x.length = ∑ i ∈ range x.length, (x.getD i 0 - meanOf x) ^ 2 := by
  rw [← sum_map_getD x (fun a => (a - meanOf x) ^ 2)]
  unfold varOf
  rcases Nat.eq_zero_or_pos x.length with h | h
  · rw [List.length_eq_zero_iff] at h
    simp [h]
  · field_simp

/-- Two vectors of norms `√n σ` and `√n τ` whose difference is at most `√n δ` long. -/
theorem angle {n : ℕ} {p q : ℕ → ℝ} {σ τ δ : ℝ} (hn : 0 < n) (hσ : 0 < σ) (hτ : 0 ≤ τ) (hδ0 : 0 ≤ δ) (hp : ∑ i ∈ range n, p i ^ 2 = σ ^ 2 * n)
    (hq : ∑ i ∈ range n, q i ^ 2 = τ ^ 2 * n) (hd : ∑ i ∈ range n, (q i - p i) ^ 2 ≤ δ ^ 2 * n) (hδ : δ ≤ σ / 10) :
    9 / 10 * σ ≤ τ ∧ ∑ i ∈ range n, (q i / τ - p i / σ) ^ 2 ≤ 10 / 9 * (δ / σ) ^ 2 * n := by
  have hn0 : (0 : ℝ) < n := by exact_mod_cast hn
  obtain ⟨c, hc⟩ : ∃ c, c = ∑ i ∈ range n, p i * q i := ⟨_, rfl⟩
  have e1 : ∑ i ∈ range n, (q i - p i) ^ 2 = τ ^ 2 * n + σ ^ 2 * n - 2 * c := by
    rw [← hp, ← hq, hc, mul_sum, ← sum_add_distrib, ← sum_sub_distrib]
    exact sum_congr rfl (fun i _ => by ring)
  have cs : c ≤ σ * τ * n := by
    have h1 := sum_mul_sq_le_sq_mul_sq (range n) p q
    rw [hp, hq, ← hc] at h1
    have h2 : c ^ 2 ≤ (σ * τ * n) ^ 2 := by nlinarith
    exact le_trans (le_abs_self c) (abs_le_of_sq_le_sq h2 (by positivity)) 
  rw [e1] at hd
  have h3 : (τ - σ) ^ 2 ≤ δ ^ 2 := by
    have : (τ - σ) ^ 2 * n ≤ δ ^ 2 * n := by nlinarith
    exact le_of_mul_le_mul_right this hn0
  have h4 := abs_le_of_sq_le_sq h3 hδ0
  have h5 : 9 / 10 * σ ≤ τ := by linarith [(abs_le.mp h4).1]
  refine ⟨h5, ?_⟩
  have hτ0 : 0 < τ := by linarith
  have e2 : ∑ i ∈ range n, (q i / τ - p i / σ) ^ 2 = 2 * n - 2 * c / (σ * τ) := by
    have : ∀ i ∈ range n, (q i / τ - p i / σ) ^ 2 = q i ^ 2 / τ ^ 2 + p i ^ 2 / σ ^ 2 - 2 * (p i * q i) / (σ * τ) := by
      intro i _
      field_simp
      ring
    rw [sum_congr rfl this, sum_sub_distrib, sum_add_distrib, ← sum_div, ← sum_div, ← sum_div, ← mul_sum, hp, hq, ← hc]
    field_simp
    ring
  have e3 : 2 * (n : ℝ) - 2 * c / (σ * τ) ≤ δ ^ 2 * n / (σ * τ) := by
    rw [sub_le_iff_le_add, ← add_div, le_div_iff₀ (by positivity)]
    nlinarith [sq_nonneg (τ - σ), mul_nonneg (sq_nonneg (τ - σ)) hn0.le]
  rw [e2]
  refine e3.trans ?_
  rw [div_le_iff₀ (by positivity), div_pow]
  have e4 : 10 / 9 * (δ ^ 2 / σ ^ 2) * n * (σ * τ) = δ ^ 2 * n * (10 / 9 * τ / σ) := by field_simp
  rw [e4]
  have e5 : 1 ≤ 10 / 9 * τ / σ := by
    rw [le_div_iff₀ hσ]
    linarith
  have := mul_le_mul_of_nonneg_left e5 (by positivity : 0 ≤ δ ^ 2 * (n : ℝ))
  linarith

/-- The normalised samples of two series that differ little. -/
theorem drift {d d' : List ℝ} {δ : ℝ} (hl : d'.length = d.length) (hd : ∀ i < d.length, |d'.getD i 0 - d.getD i 0| ≤ δ) (hvar : 0 < varOf d)
    (hδ : δ ≤ Real.sqrt (varOf d) / 10) :
    9 / 10 * Real.sqrt (varOf d) ≤ Real.sqrt (varOf d') ∧
    ∑ i ∈ range d.length, ((d'.getD i 0 - meanOf d') / Real.sqrt (varOf d') - (d.getD i 0 - meanOf d) / Real.sqrt (varOf d)) ^ 2 ≤
      10 / 9 * (δ / Real.sqrt (varOf d)) ^ 2 * d.length := by
  have hn : 0 < d.length := by
    rw [List.length_pos_iff]
    rintro rfl
    simp [varOf] at hvar
  have hδ0 : 0 ≤ δ := (abs_nonneg _).trans (hd 0 hn)
  have hv' : 0 ≤ varOf d' := by
    have h1 := varOf_range d'
    have h2 : 0 ≤ ∑ i ∈ range d'.length, (d'.getD i 0 - meanOf d') ^ 2 := sum_nonneg (fun _ _ => sq_nonneg _)
    rw [← h1] at h2
    exact nonneg_of_mul_nonneg_left h2 (by rw [hl]; exact_mod_cast hn)
  refine angle hn (Real.sqrt_pos.mpr hvar) (Real.sqrt_nonneg _) hδ0 ?_ ?_ ?_ hδ
  · rw [Real.sq_sqrt hvar.le, varOf_range]
  · rw [Real.sq_sqrt hv', ← hl, varOf_range]
  · have m1 := meanOf_range d
    have m2 := meanOf_range d'
    rw [hl] at m2
    have e : ∑ i ∈ range d.length, (d'.getD i 0 - meanOf d' - (d.getD i 0 - meanOf d)) ^ 2 =
        ∑ i ∈ range d.length, (d'.getD i 0 - d.getD i 0) ^ 2 - (meanOf d' - meanOf d) ^ 2 * d.length := by
      have : ∀ i ∈ range d.length, (d'.getD i 0 - meanOf d' - (d.getD i 0 - meanOf d)) ^ 2 =
          (d'.getD i 0 - d.getD i 0) ^ 2 - 2 * (meanOf d' - meanOf d) * (d'.getD i 0 - d.getD i 0) + (meanOf d' - meanOf d) ^ 2 := by
        intro i _
        ring
      rw [sum_congr rfl this, sum_add_distrib, sum_sub_distrib, ← mul_sum, sum_sub_distrib, ← m1, ← m2, sum_const, card_range, nsmul_eq_mul]
      ring
    rw [e]
    have h1 : ∑ i ∈ range d.length, (d'.getD i 0 - d.getD i 0) ^ 2 ≤ ∑ i ∈ range d.length, δ ^ 2 :=
      sum_le_sum (fun i hi => sq_le_sq' (abs_le.mp (hd i (mem_range.mp hi))).1 (abs_le.mp (hd i (mem_range.mp hi))).2)
    rw [sum_const, card_range, nsmul_eq_mul] at h1
    have h2 : 0 ≤ (meanOf d' - meanOf d) ^ 2 * d.length := by positivity
    linarith

/-- The errors of `deredden` and the sizes of its results. -/
theorem dered_sizes {A : DArith} {B : FArith} {u v : ℝ} (hA : Sane A) (h : Rounds B u v) (hu : u ≤ 1 / 100) {x r d d' : List ℝ} {w m : ℕ} {M γ δ : ℝ}
    (hw : w < 2 ^ 53) (hM : ∀ a ∈ x, |a| ≤ M) (hM0 : 0 ≤ M) (hfu : (w / m : ℕ) * u < 1) (hγ : γ = gam u (w / m)) (hγ2 : γ ≤ 1 / 10) (hr : fastRunningMedian x w m = .ok r)
    (hd : d = List.zipWith (· - ·) x r) (hd' : DereddensTo A B x w m d') (hδ : δ = (6 * u + 2 * γ + 28 * v) * M) (hvar : 0 < varOf d)
    (s0 : δ ≤ Real.sqrt (varOf d) / 10) :
    d.length = x.length ∧ d'.length = x.length ∧ (∀ i < d.length, |d'.getD i 0 - d.getD i 0| ≤ δ) ∧ 0 ≤ δ ∧
      (d'.map fun r => |r|).sum / d'.length ≤ 11 / 5 * M ∧ |meanOf d'| ≤ 11 / 5 * M := by
  have hu0 := h.u_nonneg
  have hv0 := h.v_nonneg
  have hv : v ≤ 1 / 100 := h.v_le.trans hu
  have hγ0 : 0 ≤ γ := by
    rw [hγ]
    unfold gam
    exact div_nonneg (mul_nonneg (Nat.cast_nonneg _) hu0) (by linarith)
  obtain ⟨l1, key⟩ := C120_deredden hA h (by linarith) hv hw hM hM0 hfu (hγ ▸ hγ2) hr hd'
  rw [← hγ] at key
  obtain ⟨l2, hrM⟩ := C28_within_data_range x w m r hr (-M) M (fun a ha => abs_le.mp (hM a ha))
  have hdl : d.length = x.length := by rw [hd, List.length_zipWith]; omega
  have hδ0 : 0 ≤ δ := by rw [hδ]; positivity
  have hdM : ∀ i < d.length, |d.getD i 0| ≤ 2 * M := by
    intro i hi
    have h1 := hM x[i] (List.getElem_mem _)
    have h2 := hrM r[i] (List.getElem_mem _)
    rw [List.getD_eq_getElem?_getD, List.getElem?_eq_getElem hi, Option.getD_some]
    simp only [hd, List.getElem_zipWith]
    rw [abs_le] at h1 ⊢
    constructor <;> linarith [h1.1, h1.2, h2.1, h2.2]
  have hclose : ∀ i < d.length, |d'.getD i 0 - d.getD i 0| ≤ δ := by
    intro i hi
    obtain ⟨c, c1, c2⟩ := key i x[i] r[i] (List.getElem?_eq_getElem _) (List.getElem?_eq_getElem _)
    have h1 : d.getD i 0 = x[i] - r[i] := by
      rw [List.getD_eq_getElem?_getD, List.getElem?_eq_getElem hi, Option.getD_some]
      simp only [hd, List.getElem_zipWith]
    have h2 := hdM i hi
    rw [List.getD_eq_getElem?_getD (l := d'), c1, Option.getD_some, h1]
    rw [h1] at h2
    refine c2.trans ?_
    have h3 : u * |x[i] - r[i]| ≤ u * (2 * M) := mul_le_mul_of_nonneg_left h2 hu0
    have h4 : 0 ≤ γ * M := by positivity
    have h5 : 0 ≤ v * M := by positivity
    have h6 : 0 ≤ u * M := by positivity
    rw [hδ]
    split_ifs <;> linarith
  have hn : 0 < d.length := by
    rw [List.length_pos_iff]
    rintro rfl
    simp [varOf] at hvar
  have hnR : (0 : ℝ) < d.length := by exact_mod_cast hn
  have hσM : Real.sqrt (varOf d) ≤ 2 * M := by
    rw [Real.sqrt_le_left (by linarith)]
    have h1 : varOf d * d.length ≤ ∑ i ∈ range d.length, d.getD i 0 ^ 2 := by
      have e1 := var_shift (by rw [← List.length_pos_iff]; exact hn : d ≠ []) 0
      rw [sum_map_getD, div_eq_iff hnR.ne'] at e1
      simp only [sub_zero] at e1
      rw [e1]
      nlinarith [sq_nonneg (0 - meanOf d)]
    have h2 : ∑ i ∈ range d.length, d.getD i 0 ^ 2 ≤ ∑ i ∈ range d.length, (2 * M) ^ 2 :=
      sum_le_sum (fun i hi => sq_le_sq' (abs_le.mp (hdM i (mem_range.mp hi))).1 (abs_le.mp (hdM i (mem_range.mp hi))).2)
    rw [sum_const, card_range, nsmul_eq_mul] at h2
    nlinarith
  have habs : (d'.map fun r => |r|).sum / d'.length ≤ 11 / 5 * M := by
    rw [sum_map_getD, l1, ← hdl, div_le_iff₀ hnR]
    have h1 : ∑ i ∈ range d.length, |d'.getD i 0| ≤ ∑ i ∈ range d.length, 11 / 5 * M := by
      apply sum_le_sum
      intro i hi
      have h2 := hdM i (mem_range.mp hi)
      have h3 := hclose i (mem_range.mp hi)
      have h4 := abs_add_le (d'.getD i 0 - d.getD i 0) (d.getD i 0)
      rw [sub_add_cancel] at h4
      linarith
    rw [sum_const, card_range, nsmul_eq_mul] at h1
    linarith
  refine ⟨hdl, l1, hclose, hδ0, habs, ?_⟩
  refine le_trans ?_ habs
  unfold meanOf
  rw [abs_div, abs_of_nonneg (Nat.cast_nonneg d'.length : (0 : ℝ) ≤ _)]
  apply div_le_div_of_nonneg_right _ (Nat.cast_nonneg _)
  have e1 := sum_map_getD d' (fun a => a)
  rw [List.map_id'] at e1
  rw [e1, sum_map_getD]
  exact abs_sum_le_sum_abs _ _

/-- From the samples that were dereddened with rounding errors to those that were dereddened exactly. -/
theorem trial_dered {idx : IdxRule} {d d' : List ℝ} {t : DTrial} {V : ℚ} {bmin bmax w : ℕ} {δ S e' R X : ℝ} (hl : d'.length = d.length)
    (hd : ∀ i < d.length, |d'.getD i 0 - d.getD i 0| ≤ δ) (hvar : 0 < varOf d) (hδ : δ ≤ Real.sqrt (varOf d) / 10) (hδ0 : 0 ≤ δ)
    (hb2 : 2 ≤ bmin) (hok : t.OK d.length bmin bmax) (hV : t.IsVariance V) (h0 : 0 < w) (h1 : w < t.b)
    (he : IsMatchedSnr t.b w (stack t.m t.b (sigma idx t.m) (fun r c => downsampled d.length
      (fun i => (d'.getD i 0 - meanOf d') / Real.sqrt (varOf d')) t.f (r * t.b + c)) t.s) (Real.sqrt (t.m * V)) e')
    (hR0 : 0 ≤ R) (hR : R ≤ 1 / 3) (hS : |S - e'| ≤ R * |e'| + X) :
    ∃ e, IsMatchedSnr t.b w (stack t.m t.b (sigma idx t.m) (fun r c => downsampled d.length
      (fun i => (d.getD i 0 - meanOf d) / Real.sqrt (varOf d)) t.f (r * t.b + c)) t.s) (Real.sqrt (t.m * V)) e ∧
      |S - e| ≤ R * |e| + X + 2 * δ * Real.sqrt d.length / Real.sqrt (varOf d) := by
  obtain ⟨_, hdr⟩ := drift hl hd hvar hδ
  obtain ⟨e, h2⟩ := matched_exists h0 h1 (stack t.m t.b (sigma idx t.m) (fun r c => downsampled d.length
      (fun i => (d.getD i 0 - meanOf d) / Real.sqrt (varOf d)) t.f (r * t.b + c)) t.s) (Real.sqrt (t.m * V))
  refine ⟨e, h2, ?_⟩
  have hσ0 : 0 < Real.sqrt (varOf d) := Real.sqrt_pos.mpr hvar
  generalize Real.sqrt (varOf d) = σ at *
  have hfR : (1 : ℝ) ≤ t.f := by exact_mod_cast hok.factor
  have hf2 : (t.f : ℝ) ≤ 2 * V := by exact_mod_cast dtrial_variance_half hV hok.factor (dtrial_count hok hb2)
  have hVR : (0 : ℝ) < V := by linarith
  have hm : 0 < t.m := by have := hok.two; omega
  obtain ⟨E, hE⟩ : ∃ E, E = 3 / 2 * δ * Real.sqrt d.length / σ := ⟨_, rfl⟩
  have hE0 : 0 ≤ E := by rw [hE]; positivity
  have hb : ∀ D : ℝ, 0 ≤ D → D ≤ 10 / 9 * (δ / σ) ^ 2 * d.length → Real.sqrt (t.f / V * D) ≤ E := by
    intro D hD0 hD
    rw [Real.sqrt_le_left hE0, hE, div_pow, mul_pow, Real.sq_sqrt (Nat.cast_nonneg _)]
    have h5 : (t.f : ℝ) / V ≤ 2 := by rw [div_le_iff₀ hVR]; exact hf2
    have h7 := mul_le_mul_of_nonneg_right h5 hD0
    have h8 : (3 / 2 * δ) ^ 2 * (d.length : ℝ) / σ ^ 2 = 9 / 4 * (δ / σ) ^ 2 * d.length := by
      rw [div_pow]
      ring
    have h9 : 0 ≤ (δ / σ) ^ 2 * (d.length : ℝ) := by positivity
    rw [h8]
    linarith
  have k1 := (matched_stable (by linarith : (0 : ℝ) ≤ t.f) hVR hm he h2).trans (hb _ (sum_nonneg (fun _ _ => sq_nonneg _)) hdr)
  have k2 := (matched_stable (by linarith : (0 : ℝ) ≤ t.f) hVR hm h2 he).trans (hb _ (sum_nonneg (fun _ _ => sq_nonneg _)) (by
    rw [sum_congr rfl (fun i _ => sub_sq_comm _ _)]
    exact hdr))
  have k3 : |e' - e| ≤ E := abs_le.mpr ⟨by linarith, k1⟩
  have k4 : |e'| ≤ |e| + E := by
    have := abs_add_le (e' - e) e
    rw [sub_add_cancel] at this
    linarith
  have k5 := mul_le_mul_of_nonneg_left k4 hR0
  have k6 := mul_le_mul_of_nonneg_right hR hE0
  have k7 := abs_add_le (S - e') (e' - e)
  rw [sub_add_sub_cancel] at k7
  have k8 : 2 * δ * Real.sqrt d.length / σ = 4 / 3 * E := by rw [hE]; ring
  rw [k8]
  linarith

/-- The sizes that the theorems about `normalise` ask for, for the dereddened samples. -/
theorem dered_ratios {d' : List ℝ} {u η M σ : ℝ} (hu0 : 0 ≤ u) (hη0 : 0 ≤ η) (hM0 : 0 ≤ M) (hσ0 : 0 < σ) (hσ' : 9 / 10 * σ ≤ Real.sqrt (varOf d'))
    (ha : (d'.map fun r => |r|).sum / d'.length ≤ 11 / 5 * M) (hm : |meanOf d'| ≤ 11 / 5 * M) :
    η * ((d'.map fun r => |r|).sum / d'.length) / Real.sqrt (varOf d') ≤ 5 / 2 * η * (M / σ) ∧
    u * |meanOf d'| / Real.sqrt (varOf d') ≤ 5 / 2 * u * (M / σ) := by
  have key : ∀ c a : ℝ, 0 ≤ c → a ≤ 11 / 5 * M → c * a / Real.sqrt (varOf d') ≤ 5 / 2 * c * (M / σ) := by
    intro c a hc haM
    have h1 : c * a ≤ c * (11 / 5 * M) := mul_le_mul_of_nonneg_left haM hc
    rw [← mul_div_assoc]
    calc c * a / Real.sqrt (varOf d') ≤ c * (11 / 5 * M) / Real.sqrt (varOf d') := div_le_div_of_nonneg_right h1 (Real.sqrt_nonneg _)
      _ ≤ c * (11 / 5 * M) / (9 / 10 * σ) := by
        apply div_le_div_of_nonneg_left (by positivity) (by positivity) hσ'
      _ ≤ 5 / 2 * c * M / σ := by
        rw [div_le_div_iff₀ (by positivity) hσ0]
        have : 0 ≤ c * M * σ := by positivity
        nlinarith
  exact ⟨key _ _ hη0 ha, key _ _ hu0 hm⟩

/-- One trial of the whole search. -/
theorem trial_whole {idx : IdxRule} {d d' y : List ℝ} {t : DTrial} {V : ℚ} {n bmin bmax w : ℕ} {B : FArith} {u v : ℝ} (h : Rounds B u v) (hu2 : u ≤ 1 / 100)
    {root : ℝ → ℝ} (hroot : ∀ a, 0 ≤ a → |root a - Real.sqrt a| ≤ 2 * v * Real.sqrt a) (narrow : Bool) (hn : (n + 6 : ℕ) * v < 1)
    (l1 : d.length = n) (l2 : d'.length = n) {M δ η S ey G : ℝ} (hM0 : 0 ≤ M) (hη : η = gam v (n + 6)) (hcl : ∀ i < d.length, |d'.getD i 0 - d.getD i 0| ≤ δ)
    (hδ0 : 0 ≤ δ) (ha : (d'.map fun r => |r|).sum / d'.length ≤ 11 / 5 * M) (hmu : |meanOf d'| ≤ 11 / 5 * M) (hvar : 0 < varOf d)
    (s0 : δ ≤ Real.sqrt (varOf d) / 10) (s1 : η ≤ 1 / 100) (s2 : η * (M / Real.sqrt (varOf d)) ≤ 1 / 25) (s3 : u * (M / Real.sqrt (varOf d)) ≤ 1 / 25)
    (hy : NormalisesTo B root narrow d' y) (hN : n ≤ 2 ^ 25) (hb2 : 2 ≤ bmin) (hok : t.OK n bmin bmax) (hV : t.IsVariance V) (hVh : 1 / 2 ≤ V)
    (h0 : 0 < w) (h1 : w < t.b)
    (he : IsMatchedSnr t.b w (stack t.m t.b (sigma idx t.m) (fun r c => downsampled n (fun i => y.getD i 0) t.f (r * t.b + c)) t.s) (Real.sqrt (t.m * V)) ey)
    (hG : 0 ≤ G) (hS : |S - ey| ≤ G * (10 * Real.sqrt ((t.b : ℝ) / (w * (t.b - w))) * (∑ i ∈ range n, |y.getD i 0|) / Real.sqrt (t.m * V))) :
    ∃ e, IsMatchedSnr t.b w (stack t.m t.b (sigma idx t.m) (fun r c => downsampled n
      (fun i => (d.getD i 0 - meanOf d) / Real.sqrt (varOf d)) t.f (r * t.b + c)) t.s) (Real.sqrt (t.m * V)) e ∧
      2 * u + 2 * η + (5 / 2 * η * (M / Real.sqrt (varOf d))) ^ 2 ≤ 1 / 3 ∧
      |S - e| ≤ (2 * u + 2 * η + (5 / 2 * η * (M / Real.sqrt (varOf d))) ^ 2) * |e| + 7 * u * Real.sqrt n + 5 / 2 * (u + 2 * η) * (M / Real.sqrt (varOf d)) / 2 ^ 27 +
        2 * δ * Real.sqrt n / Real.sqrt (varOf d) + G * (20 * Real.sqrt ((t.b : ℝ) / (w * (t.b - w))) * n / Real.sqrt (t.m * V)) := by
  obtain ⟨hσ', _⟩ := drift (l2.trans l1.symm) hcl hvar s0
  have hσ0 : 0 < Real.sqrt (varOf d) := Real.sqrt_pos.mpr hvar
  have hη0 : 0 ≤ η := by
    rw [hη]
    unfold gam
    exact div_nonneg (mul_nonneg (Nat.cast_nonneg _) h.v_nonneg) (by linarith)
  obtain ⟨q1, q2⟩ := dered_ratios (d' := d') h.u_nonneg hη0 hM0 hσ0 hσ' ha hmu
  have hvar' : 0 < varOf d' := Real.sqrt_pos.mp (by linarith)
  subst l2
  obtain ⟨r1, e', k2, k3⟩ := trial_raw (ey := ey) h hu2 hroot narrow hn rfl rfl rfl hη hvar' s1 (by linarith) (by linarith) hy hN hb2 hok hV hVh h0 h1 he
  have hq0 : 0 ≤ η * ((d'.map fun r => |r|).sum / d'.length) / Real.sqrt (varOf d') := 
    div_nonneg (mul_nonneg hη0 (meanAbs_nonneg d')) (Real.sqrt_nonneg _)
  have hqq : (η * ((d'.map fun r => |r|).sum / d'.length) / Real.sqrt (varOf d')) ^ 2 ≤ (5 / 2 * η * (M / Real.sqrt (varOf d))) ^ 2 :=
    pow_le_pow_left₀ hq0 q1 2
  have hu0 := h.u_nonneg
  have hoff : (u * |meanOf d'| + 2 * η * ((d'.map fun r => |r|).sum / d'.length)) / Real.sqrt (varOf d') ≤ 5 / 2 * (u + 2 * η) * (M / Real.sqrt (varOf d)) := by
    have : (u * |meanOf d'| + 2 * η * ((d'.map fun r => |r|).sum / d'.length)) / Real.sqrt (varOf d') =
        u * |meanOf d'| / Real.sqrt (varOf d') + 2 * (η * ((d'.map fun r => |r|).sum / d'.length) / Real.sqrt (varOf d')) := by ring
    rw [this]
    linarith
  have hκ0 : 0 ≤ η * (M / Real.sqrt (varOf d)) := by positivity
  have hκ2 : (5 / 2 * η * (M / Real.sqrt (varOf d))) ^ 2 ≤ 1 / 100 := by
    have : 5 / 2 * η * (M / Real.sqrt (varOf d)) = 5 / 2 * (η * (M / Real.sqrt (varOf d))) := by ring
    rw [this]
    nlinarith
  have h5 : G * (10 * Real.sqrt ((t.b : ℝ) / (w * (t.b - w))) * (∑ i ∈ range d'.length, |y.getD i 0|) / Real.sqrt (t.m * V)) ≤
      G * (20 * Real.sqrt ((t.b : ℝ) / (w * (t.b - w))) * d'.length / Real.sqrt (t.m * V)) := by
    apply mul_le_mul_of_nonneg_left _ hG
    apply div_le_div_of_nonneg_right _ (Real.sqrt_nonneg _)
    have := mul_le_mul_of_nonneg_left r1 (by positivity : 0 ≤ 10 * Real.sqrt ((t.b : ℝ) / (w * (t.b - w))))
    linarith
  have hX : |S - e'| ≤ (2 * u + 2 * η + (5 / 2 * η * (M / Real.sqrt (varOf d))) ^ 2) * |e'| + (7 * u * Real.sqrt d'.length +
      5 / 2 * (u + 2 * η) * (M / Real.sqrt (varOf d)) / 2 ^ 27 + G * (20 * Real.sqrt ((t.b : ℝ) / (w * (t.b - w))) * d'.length / Real.sqrt (t.m * V))) := by
    have h6 := mul_le_mul_of_nonneg_right hqq (abs_nonneg e')
    have h7 := abs_add_le (S - ey) (ey - e')
    rw [sub_add_sub_cancel] at h7
    refine h7.trans ?_
    linarith
  rw [← l1] at k2 hok
  obtain ⟨e, z1, z2⟩ := trial_dered l1.symm hcl hvar s0 hδ0 hb2 hok hV h0 h1 k2 (by positivity) (by linarith) hX
  rw [l1] at z1 z2
  exact ⟨e, z1, by linarith, by linarith⟩

/-- C120. The whole search of raw samples, with its default options: `deredden`, then `normalise`, then the compiled search, all in floating point. Let
`M` bound the `n` samples, `σ` be the standard deviation of the exactly dereddened samples `d`, `δ = (6u + 2γ + 28v) M` and `η = γ_{n+6}` in double precision.
Unless the samples are enormous compared with `σ`, every stored S/N is within
`(2u + 2η + (5/2 η M/σ)²) |e| + 7 u √n + 5/2 (u + 2η) M/σ/2^27 + 2 δ √n/σ + γ_K · 20 √(b / (w (b - w))) n / √(m V)` of `e`, the exact matched filter
output of the trial for the exactly dereddened and normalised samples. -/
theorem C120_search {A : DArith} {B : FArith} {u v : ℝ} (hA : Sane A) (hG : Grid A) (h : Rounds B u v) (hu : 1 / 2 ^ 24 ≤ u) (hu2 : u ≤ 1 / 100) (idx : IdxRule)
    {root : ℝ → ℝ} (hroot : ∀ r, 0 ≤ r → |root r - Real.sqrt r| ≤ 2 * v * Real.sqrt r) (narrow : Bool)
    (x r d d' y : List ℝ) (win m : ℕ) {M γ δ η σ : ℝ} (hwin : win < 2 ^ 53) (hM : ∀ a ∈ x, |a| ≤ M) (hM0 : 0 ≤ M) (hfu : (win / m : ℕ) * u < 1)
    (hγ : γ = gam u (win / m)) (hγ2 : γ ≤ 1 / 10) (hr : fastRunningMedian x win m = .ok r) (hd : d = List.zipWith (· - ·) x r)
    (hd' : DereddensTo A B x win m d') (hy : NormalisesTo B root narrow d' y) (hn : (x.length + 6 : ℕ) * v < 1) (hvar : 0 < varOf d)
    (hσ : σ = Real.sqrt (varOf d)) (hδ : δ = (6 * u + 2 * γ + 28 * v) * M) (hη : η = gam v (x.length + 6))
    (s0 : δ ≤ σ / 10) (s1 : η ≤ 1 / 100) (s2 : η * (M / σ) ≤ 1 / 25) (s3 : u * (M / σ) ≤ 1 / 25)
    (tsamp : ℚ) (widths : List ℕ) (hne : widths ≠ []) (pmin pmax : ℚ) (bmin bmax : ℕ) (hb : bmax * v ≤ u) (hb2 : 2 ≤ bmin)
    (hbins : bmax < 2 ^ 32) (hidx : IdxFor idx (x.length / bmin)) (hN : x.length ≤ 2 ^ 25) (hpmax : pmax ≤ 2 ^ 62 * tsamp)
    (hw : ∀ w ∈ widths, 0 < w ∧ w < bmin) (per : List ℚ) (fb : List ℕ) (snr : List (List ℝ))
    (hs : A.binding (B.searchOps A) idx y tsamp widths pmin pmax bmin bmax = .ok (per, fb, snr)) :
    fb.length = per.length ∧ snr.length = per.length ∧ ∀ (j : ℕ) (p : ℚ), per[j]? = some p →
      ∃ (t : DTrial) (V : ℚ) (row : List ℝ), t.OK x.length bmin bmax ∧ t.IsVariance V ∧ 1 / 2 ≤ V ∧
        fb[j]? = some t.b ∧ |p - t.period tsamp| ≤ 1 / 2 ^ 50 * t.period tsamp ∧ snr[j]? = some row ∧ row.length = widths.length ∧
        ((26 + ⌈t.f⌉₊ + Nat.clog 2 t.m : ℕ) * u < 1 → ∀ (k w : ℕ), widths[k]? = some w → ∃ S e, row[k]? = some S ∧
          IsMatchedSnr t.b w (stack t.m t.b (sigma idx t.m)
            (fun r c => downsampled x.length (fun i => (d.getD i 0 - meanOf d) / σ) t.f (r * t.b + c)) t.s) (Real.sqrt (t.m * V)) e ∧
          |S - e| ≤ (2 * u + 2 * η + (5 / 2 * η * (M / σ)) ^ 2) * |e| + 7 * u * Real.sqrt x.length + 5 / 2 * (u + 2 * η) * (M / σ) / 2 ^ 27 +
            2 * δ * Real.sqrt x.length / σ +
            gam u (26 + ⌈t.f⌉₊ + Nat.clog 2 t.m) * (20 * Real.sqrt ((t.b : ℝ) / (w * (t.b - w))) * x.length / Real.sqrt (t.m * V))) := by
  subst hσ
  obtain ⟨l1, l2, hcl, hδ0, ha, hmu⟩ := dered_sizes hA h hu2 hwin hM hM0 hfu hγ hγ2 hr hd hd' hδ hvar s0
  obtain ⟨hσ', _⟩ := drift (l2.trans l1.symm) hcl hvar s0
  have hσ0 : 0 < Real.sqrt (varOf d) := Real.sqrt_pos.mpr hvar
  have hvar' : 0 < varOf d' := Real.sqrt_pos.mp (by linarith)
  obtain ⟨hl, _⟩ := C119_normalise h (by linarith) hroot narrow (by rwa [l2]) hvar' hy
  rw [l2] at hl
  obtain ⟨f1, f2, f3⟩ := C113_search hA hG h hu idx y tsamp widths hne pmin pmax bmin bmax hb hbins (by rwa [hl]) (by rwa [hl]) hpmax hw per fb snr hs
  refine ⟨f1, f2, fun j p hj => ?_⟩
  obtain ⟨t, V, row, hok, hV, hVh, g1, g2, g3, g4, g5⟩ := f3 j p hj
  rw [hl] at hok
  refine ⟨t, V, row, hok, hV, hVh, g1, g2, g3, g4, fun hK k w hk => ?_⟩
  obtain ⟨S, ey, k1, k2, k3⟩ := g5 hK k w hk
  obtain ⟨w0, w1⟩ := hw w (List.mem_of_getElem? hk)
  rw [hl] at k2 k3
  have hg : 0 ≤ gam u (26 + ⌈t.f⌉₊ + Nat.clog 2 t.m) := by
    unfold gam
    exact div_nonneg (mul_nonneg (Nat.cast_nonneg _) h.u_nonneg) (by linarith)
  obtain ⟨e, z1, _, z2⟩ := trial_whole h hu2 hroot narrow hn l1 l2 hM0 hη hcl hδ0 ha hmu hvar s0 s1 s2 s3 hy hN hb2 hok hV hVh w0 (w1.trans_le hok.bins.1) k2 hg k3
  exact ⟨S, e, k1, z1, z2⟩

/-! ### Pulses on a constant level -/

/-- `n` samples in blocks of `f`: in every window of `q` blocks (at the ends the first and the last block stand for those that are missing) fewer than half of
the blocks contain a sample of a pulse. -/
def Sparse (n f q : ℕ) (pulse : ℕ → ℝ) : Prop :=
  ∀ i < n / f, ∃ T : Finset ℕ, 2 * T.card < q ∧ ∀ k < q, k ∉ T → ∀ j < f, pulse (min (i + k - q / 2) (n / f - 1) * f + j) = 0

theorem majority {l : List ℝ} {q : ℕ} {v c : ℝ} (hq : q % 2 = 1) (hl : l.length = q) (h : IsNth l (q / 2) v) (T : Finset ℕ) (hT : 2 * T.card < q)
    (hc : ∀ k (hk : k < l.length), k ∉ T → l[k] = c) : v = c := by
  have hcount : ∀ p : ℝ → Bool, p c = false → l.countP p ≤ T.card := by
    intro p hp
    have e1 : l = (List.range l.length).map (fun k => l.getD k 0) := by
      apply List.ext_getElem (by simp)
      intro k h1 h2
      simp [List.getD_eq_getElem?_getD, h1]
    rw [e1, List.countP_map, List.countP_eq_length_filter]
    have hnd : ((List.range l.length).filter (p ∘ fun k => l.getD k 0)).Nodup := List.nodup_range.filter _
    rw [← List.toFinset_card_of_nodup hnd]
    apply card_le_card
    intro k hk
    rw [List.mem_toFinset, List.mem_filter, List.mem_range] at hk
    by_contra hkT
    have h2 := hc k hk.1 hkT
    have h3 := hk.2
    simp only [Function.comp, List.getD_eq_getElem?_getD, List.getElem?_eq_getElem hk.1, Option.getD_some, h2, hp] at h3
    cases h3
  obtain ⟨n1, n2⟩ := nth_counts h
  rcases lt_trichotomy v c with hv | hv | hv
  · have := hcount (fun a => decide (a ≤ v)) (by simp [hv])
    omega
  · exact hv
  · have h1 := hcount (fun a => !decide (a < v)) (by simp [hv])
    have h2 := List.length_eq_countP_add_countP (fun a : ℝ => decide (a < v)) (l := l)
    have h3 : l.countP (fun a => !decide (a < v)) = l.countP (fun a => decide (¬decide (a < v) = true)) := by
      congr 1
      funext a
      by_cases hav : a < v <;> simp [hav]
    rw [← h3] at h2
    omega

theorem runningMedian_level {x out : List ℝ} {q : ℕ} {c : ℝ} (h : runningMedian x q = .ok out)
    (hT : ∀ i < x.length, ∃ T : Finset ℕ, 2 * T.card < q ∧ ∀ k < q, k ∉ T → x.getD (min (i + k - q / 2) (x.length - 1)) 0 = c) :
    out.length = x.length ∧ ∀ i < out.length, out.getD i default = c := by
  obtain ⟨hl, hq, hlt, _⟩ := runningMedian_mem h
  obtain ⟨out', e, hl', hm⟩ := runningMedian_ok x q (by omega) hlt
  rw [h] at e
  cases e
  refine ⟨hl, fun i hi => ?_⟩
  rw [List.getD_eq_getElem?_getD, List.getElem?_eq_getElem hi, Option.getD_some]
  obtain ⟨T, t1, t2⟩ := hT i (by omega)
  refine majority hq (by simp [medWin]) (hm i hi) T t1 ?_
  intro k hk hkT
  have hk' : k < q := by simpa [medWin] using hk
  rw [← t2 k hk' hkT]
  simp only [medWin, List.getElem_map, List.getElem_range]
  have : min (i + k - q / 2) (x.length - 1) < x.length := by omega
  rw [List.getD_eq_getElem?_getD, List.getD_eq_getElem?_getD, List.getElem?_eq_getElem this, Option.getD_some, Option.getD_some]

/-- C120. Pulses on a constant level do not disturb the running median: if in every window fewer than half of the blocks (samples, without scrunching) contain a
sample of a pulse, then the exact running median is that level everywhere, so exact dereddening leaves just the pulses. -/
theorem C120_level (x r : List ℝ) (w m : ℕ) (hr : fastRunningMedian x w m = .ok r) (base : ℝ) (pulse : ℕ → ℝ)
    (hdata : ∀ n < x.length, x.getD n 0 = base + pulse n) (hsp : Sparse x.length (max 1 (w / m)) (if w < 2 * m then w else m) pulse) :
    r.length = x.length ∧ ∀ i < x.length, r.getD i 0 = base := by
  obtain ⟨hm, ⟨h2, h1⟩ | ⟨h2, rmed, h1, rfl⟩⟩ := fast_ok_inv hr
  · rw [if_pos h2, (fast_factor (by omega)).mpr h2] at hsp
    have hlt := (runningMedian_mem h1).2.2.1
    obtain ⟨a1, a2⟩ := runningMedian_level (c := base) h1 (by
      intro i hi
      obtain ⟨T, t1, t2⟩ := hsp i (by simpa using hi)
      refine ⟨T, t1, fun k hk hkT => ?_⟩
      have := t2 k hk hkT 0 (by omega)
      rw [Nat.div_one, mul_one, add_zero] at this
      rw [hdata _ (by omega), this, add_zero])
    refine ⟨a1, fun i hi => ?_⟩
    rw [← a2 i (by omega), List.getD_eq_getElem?_getD, List.getD_eq_getElem?_getD, List.getElem?_eq_getElem (by omega), Option.getD_some, Option.getD_some]
  · have hf : 2 ≤ w / m := (Nat.le_div_iff_mul_le (by omega : 0 < m)).mpr h2
    rw [if_neg (by omega), show max 1 (w / m) = w / m by omega] at hsp
    generalize w / m = f at *
    have hlt := (runningMedian_mem h1).2.2.1
    have hsl : (scrunch x f).length = x.length / f := by simp [scrunch]
    rw [hsl] at hlt
    obtain ⟨a1, a2⟩ := runningMedian_level (c := base) h1 (by
      intro i hi
      rw [hsl] at hi ⊢
      obtain ⟨T, t1, t2⟩ := hsp i hi
      refine ⟨T, t1, fun k hk hkT => ?_⟩
      have hz := t2 k hk hkT
      obtain ⟨b, hb⟩ : ∃ b, b = min (i + k - m / 2) (x.length / f - 1) := ⟨_, rfl⟩
      rw [← hb] at hz ⊢
      have hblt : b < x.length / f := by omega
      have hb2 : (b + 1) * f ≤ x.length := (Nat.le_div_iff_mul_le (by omega)).mp hblt
      rw [Nat.succ_mul] at hb2
      have e1 : (x.drop (b * f)).take f = List.replicate f base := by
        apply List.ext_getElem
        · simp
          omega
        · intro j j1 j2
          simp only [List.getElem_take, List.getElem_drop, List.getElem_replicate]
          have j3 : j < f := by simpa using j2
          have := hdata (b * f + j) (by omega)
          rw [hz j j3, add_zero, List.getD_eq_getElem?_getD, List.getElem?_eq_getElem (by omega), Option.getD_some] at this
          exact this
      have hf0 : (f : ℝ) ≠ 0 := by
        have : 0 < f := by omega
        exact_mod_cast this.ne'
      simp only [scrunch, List.getD_eq_getElem?_getD, List.getElem?_map, List.getElem?_range hblt, Option.map_some, Option.getD_some, e1, List.sum_replicate,
        nsmul_eq_mul]
      field_simp)
    refine ⟨by simp, fun i hi => ?_⟩
    rw [List.getD_eq_getElem?_getD, List.getElem?_map, List.getElem?_range hi, Option.map_some, Option.getD_some]
    rw [hsl] at a1 ⊢
    rcases interp_cases (x.length / f) (by omega) _ (fun j => rmed.getD j default) (lores_mono (by omega : 1 ≤ f)) (i : ℝ) with ⟨j, hj, e⟩ | ⟨j, θ, hj, -, -, -, -, -, e⟩
    · rw [e]
      exact a2 j (by omega)
    · rw [e, a2 j (by omega), a2 (j + 1) (by omega)]
      ring

/-- C120. Pulses of any period in raw samples, found by the whole search with its default options: `deredden`, `normalise` and the compiled search, all in floating
point. Let the samples be a constant level plus pulses that come with any period `P` of the searched range and last at most `D`, and let the window of the running
median see pulses in fewer than half of its blocks. Then the search succeeds and has a trial that reaches `P`, such that for each boxcar width `w` of at least
`(D/P) b + smearing` bins the stored S/N is at least `L` less the errors of C120_search, where `L` is what C115 promises for the bare pulses, normalised without
rounding errors. -/
theorem C120_any_period {A : DArith} {B : FArith} {u v : ℝ} (hA : Sane A) (hG : Grid A) (h : Rounds B u v) (hu : 1 / 2 ^ 24 ≤ u) (hu2 : u ≤ 1 / 100) (idx : IdxRule)
    {root : ℝ → ℝ} (hroot : ∀ r, 0 ≤ r → |root r - Real.sqrt r| ≤ 2 * v * Real.sqrt r) (narrow : Bool)
    (x d d' y : List ℝ) (win m : ℕ) {M γ δ η σ : ℝ} (hwin : win < 2 ^ 53) (hM : ∀ a ∈ x, |a| ≤ M) (hM0 : 0 ≤ M) (hfu : (win / m : ℕ) * u < 1)
    (hγ : γ = gam u (win / m)) (hγ2 : γ ≤ 1 / 10) (hd : d.length = x.length)
    (hd' : DereddensTo A B x win m d') (hy : NormalisesTo B root narrow d' y) (hn : (x.length + 6 : ℕ) * v < 1) (hvar : 0 < varOf d)
    (hσ : σ = Real.sqrt (varOf d)) (hδ : δ = (6 * u + 2 * γ + 28 * v) * M) (hη : η = gam v (x.length + 6))
    (s0 : δ ≤ σ / 10) (s1 : η ≤ 1 / 100) (s2 : η * (M / σ) ≤ 1 / 25) (s3 : u * (M / σ) ≤ 1 / 25)
    (tsamp : ℚ) (widths : List ℕ) (hne : widths ≠ []) (pmin pmax : ℚ) (bmin bmax : ℕ) (hb : bmax * v ≤ u)
    (hidx : IdxFor idx (x.length / bmin)) (hN : x.length ≤ 2 ^ 25) (hbins : bmax < 2 ^ 32) (hw : ∀ w ∈ widths, 0 < w ∧ w < bmin)
    (ht : 0 < tsamp) (hp : 0 < pmin) (hpp : pmin < pmax) (hb2 : 2 ≤ bmin) (hbb : bmin ≤ bmax) (hbp : A.fl (tsamp * bmin) ≤ pmin)
    (h2 : 2 * pmax ≤ x.length * tsamp) (P φ D base : ℝ) (hP1 : (1 + 1 / 2 ^ 48) * pmin ≤ P) (hP2 : P ≤ (1 - 1 / 2 ^ 30) * pmax)
    (pulse : ℕ → ℝ) (hpul : Pulsed pulse tsamp P φ D) (hdata : ∀ n < x.length, x.getD n 0 = base + pulse n) (hdd : ∀ n < x.length, d.getD n 0 = pulse n)
    (hsp : Sparse x.length (max 1 (win / m)) (if win < 2 * m then win else m) pulse) :
    ∃ (per : List ℚ) (fb : List ℕ) (snr : List (List ℝ)) (j : ℕ) (p : ℚ) (row : List ℝ) (t : DTrial) (V : ℚ),
      A.binding (B.searchOps A) idx y tsamp widths pmin pmax bmin bmax = .ok (per, fb, snr) ∧
      per[j]? = some p ∧ fb[j]? = some t.b ∧ snr[j]? = some row ∧ t.OK x.length bmin bmax ∧ t.IsVariance V ∧ 1 / 2 ≤ V ∧
      |p - t.period tsamp| ≤ 1 / 2 ^ 50 * t.period tsamp ∧ t.Reaches tsamp P ∧
      ((26 + ⌈t.f⌉₊ + Nat.clog 2 t.m : ℕ) * u < 1 → ∀ (k w : ℕ), widths[k]? = some w → D / P * t.b + t.smearing ≤ w →
        ∃ S, row[k]? = some S ∧ ∀ (K : ℕ) (L : ℝ), (K + 1) * tsamp + P + t.f * tsamp ≤ x.length * tsamp →
          L = ((∑ n ∈ range K, pulse n) / σ * Real.sqrt (((t.b : ℝ) - w) / (t.b * w)) - |meanOf d| / σ / 2 ^ 28) / Real.sqrt (t.m * V) →
          L - (2 * u + 2 * η + (5 / 2 * η * (M / σ)) ^ 2) * |L| - 7 * u * Real.sqrt x.length - 5 / 2 * (u + 2 * η) * (M / σ) / 2 ^ 27 -
            2 * δ * Real.sqrt x.length / σ -
            gam u (26 + ⌈t.f⌉₊ + Nat.clog 2 t.m) * (20 * Real.sqrt ((t.b : ℝ) / (w * (t.b - w))) * x.length / Real.sqrt (t.m * V)) ≤ S) := by
  obtain ⟨r, hr⟩ := (C120_result hA B x win m hwin).mp ⟨d', hd'⟩
  obtain ⟨hrl, hrb⟩ := C120_level x r win m hr base pulse hdata hsp
  have hde : d = List.zipWith (· - ·) x r := by
    apply List.ext_getElem
    · rw [List.length_zipWith]
      omega
    · intro i i1 i2
      have e1 := hdd i (by omega)
      have e2 := hdata i (by omega)
      have e3 := hrb i (by omega)
      rw [List.getD_eq_getElem?_getD, List.getElem?_eq_getElem (by omega), Option.getD_some] at e1 e2 e3
      rw [List.getElem_zipWith, e1, e2, e3]
      ring
  subst hσ
  obtain ⟨l1, l2, hcl, hδ0, ha, hmu⟩ := dered_sizes hA h hu2 hwin hM hM0 hfu hγ hγ2 hr hde hd' hδ hvar s0
  obtain ⟨hσ', _⟩ := drift (l2.trans l1.symm) hcl hvar s0
  have hσ0 : 0 < Real.sqrt (varOf d) := Real.sqrt_pos.mpr hvar
  have hvar' : 0 < varOf d' := Real.sqrt_pos.mp (by linarith)
  obtain ⟨hl, _⟩ := C119_normalise h (by linarith) hroot narrow (by rwa [l2]) hvar' hy
  rw [l2] at hl
  have hr' := range_of hA hN hbins ht hp hpp hb2 hbb hbp h2
  obtain ⟨i, b, s, hm, c1, c2, c3, c4⟩ := d_cover hA hr' hN h2 hP1 hP2
  obtain ⟨j, hj⟩ := List.getElem?_of_mem hm
  have hok := toTrial_ok hA hr' hm
  have hpR : (0 : ℝ) < pmin := by exact_mod_cast hp
  have htR : (0 : ℝ) < tsamp := by exact_mod_cast ht
  have hP0 : 0 < P := by
    have : (0 : ℝ) < (1 + 1 / 2 ^ 48) * pmin := by positivity
    linarith
  obtain ⟨V, v1, v2, v3⟩ := trial_close hA hG h hu hr' hN idx widths hne hidx hb hw hm
  have hf := d_f_ge_one hA hr' i
  refine ⟨_, _, _, j, _, _, toTrial A _ (i, b, s), V, search_ok hA hN hbins ht hp hpp hb2 hbb hbp h2 (B.searchOps A) idx widths hne hidx
    y hl, by rw [List.getElem?_map, hj]; rfl, ?_, by rw [List.getElem?_map, hj]; rfl, hok, v1, v2, toTrial_period hA hr' hm, ?_, ?_⟩
  · rw [List.getElem?_map, hj, Option.map_some, Nat.mod_eq_of_lt]
    · rfl
    · exact lt_of_le_of_lt hok.bins.2 hbins
  · exact reach_of_drift (t := toTrial A _ (i, b, s)) (by simp only [toTrial]; linarith) ht hP0 (hb2.trans hok.bins.1) hok.two hok.shift rfl c3 c4
  intro hK k w hk hwide
  obtain ⟨hk', rfl⟩ := List.getElem?_eq_some_iff.mp hk
  obtain ⟨w0, w1⟩ := hw _ (List.getElem_mem hk')
  obtain ⟨ey, e1, e2⟩ := v3 y hl hK k hk'
  refine ⟨_, by rw [List.getElem?_map, List.getElem?_range hk']; rfl, ?_⟩
  intro K L hKK hL
  have hMm : (toTrial A ⟨x.length, tsamp, pmin, pmax, bmin, bmax⟩ (i, b, s)).m ≤ x.length / bmin := by
    refine (Nat.div_le_div_right (d_n_le_size hA hr' i)).trans (Nat.div_le_div_left hok.bins.1 (by omega))
  have hVR : (0 : ℝ) < V := by
    have : (0 : ℚ) < V := by linarith
    exact_mod_cast this
  have hshift := (shifts_for hidx hok.two hMm).2
  unfold exactProfile at e1
  rw [hl] at e1 e2
  have hg : 0 ≤ gam u (trialOps (toTrial A ⟨x.length, tsamp, pmin, pmax, bmin, bmax⟩ (i, b, s))) := by
    unfold gam
    exact div_nonneg (mul_nonneg (Nat.cast_nonneg _) h.u_nonneg) (by have : (trialOps (toTrial A ⟨x.length, tsamp, pmin, pmax, bmin, bmax⟩ (i, b, s)) : ℝ) * u < 1 := hK
                                                                     linarith)
  obtain ⟨e, z1, z3, z2⟩ := trial_whole h hu2 hroot narrow hn l1 l2 hM0 hη hcl hδ0 ha hmu hvar s0 s1 s2 s3 hy hN hb2 hok v1 v2 w0 (w1.trans_le hok.bins.1) e1 hg e2
  have hpul' : Pulsed (fun n => pulse n / Real.sqrt (varOf d)) tsamp P φ D := by
    refine ⟨fun n => div_nonneg (hpul.nonneg n) hσ0.le, fun n hn => hpul.on n ?_⟩
    intro hc
    exact hn (by rw [hc, zero_div])
  have low := dtrial_pulses (P := P) (D := D) (φ := φ) (base := -meanOf d / Real.sqrt (varOf d)) (x := fun i => (d.getD i 0 - meanOf d) / Real.sqrt (varOf d)) hok hN htR hP0 hb2 c1 c2 c3 c4
    hshift hVR w0 (w1.trans_le hok.bins.1) hpul' (fun n hn => by simp only [hdd n hn]; ring) hwide z1 hKK
  rw [abs_div, abs_neg, abs_of_pos hσ0, ← sum_div, ← hL] at low
  have hη0 : 0 ≤ η := by
    rw [hη]
    unfold gam
    exact div_nonneg (mul_nonneg (Nat.cast_nonneg _) h.v_nonneg) (by linarith)
  have hu0 := h.u_nonneg
  have low2 := sub_rel_mono (r := 2 * u + 2 * η + (5 / 2 * η * (M / Real.sqrt (varOf d))) ^ 2) (by positivity) (by linarith) low
  have e3 := (abs_le.mp z2).1
  change L - _ - _ - _ - _ - gam u (trialOps (toTrial A ⟨x.length, tsamp, pmin, pmax, bmin, bmax⟩ (i, b, s))) * _ ≤ _
  linarith

/-- 1000 samples of 100, with pulses of height 10; the bare pulses have mean 1 and standard deviation 3. -/
theorem level_example : ∃ x d : List ℝ, x.length = 1000 ∧ d.length = 1000 ∧
    (∀ n < x.length, x.getD n 0 = 100 + (fun n : ℕ => if (3 * n + 50) % 100 ≤ 9 then (10 : ℝ) else 0) n) ∧
    (∀ n < x.length, d.getD n 0 = (fun n : ℕ => if (3 * n + 50) % 100 ≤ 9 then (10 : ℝ) else 0) n) ∧
    (∀ a ∈ x, |a| ≤ 110) ∧ varOf d = 9 := by
  obtain ⟨x, hl, hx⟩ := exists_data 1000 (fun n => 100 + if (3 * n + 50) % 100 ≤ 9 then (10 : ℝ) else 0)
  obtain ⟨d, hl', hd⟩ := exists_data 1000 (fun n => if (3 * n + 50) % 100 ≤ 9 then (10 : ℝ) else 0)
  have hsum : ∀ g : ℝ → ℝ, (d.map g).sum = 100 * g 10 + 900 * g 0 := by
    intro g
    rw [sum_map_getD, hl']
    have e : ∀ n ∈ range 1000, g (d.getD n 0) = if (3 * n + 50) % 100 ≤ 9 then g 10 else g 0 := by
      intro n hn
      rw [hd n (mem_range.mp hn)]
      split_ifs <;> rfl
    rw [sum_congr rfl e, sum_ite, sum_const, sum_const, nsmul_eq_mul, nsmul_eq_mul]
    have c1 : (filter (fun n => (3 * n + 50) % 100 ≤ 9) (range 1000)).card = 100 := by decide +kernel
    have c2 : (filter (fun n => ¬(3 * n + 50) % 100 ≤ 9) (range 1000)).card = 900 := by decide +kernel
    rw [c1, c2]
    push_cast
    ring
  have hm : meanOf d = 1 := by
    have := hsum id
    rw [List.map_id] at this
    unfold meanOf
    rw [this, hl']
    norm_num
  refine ⟨x, d, hl, hl', fun n hn => hx n (by rwa [hl] at hn), fun n hn => hd n (by rwa [hl] at hn), ?_, ?_⟩
  · intro a ha
    obtain ⟨n, hn⟩ := List.getElem?_of_mem ha
    obtain ⟨h1, h2⟩ := List.getElem?_eq_some_iff.mp hn
    have h3 := hx n (by omega)
    rw [List.getD_eq_getElem?_getD, hn, Option.getD_some] at h3
    rw [h3]
    split_ifs <;> norm_num
  · unfold varOf
    rw [hsum, hm, hl']
    norm_num

/-- A running median over 18 samples with 9 points: blocks of 2 samples. -/
theorem sparse_example : Sparse 1000 2 9 (fun n : ℕ => if (3 * n + 50) % 100 ≤ 9 then (10 : ℝ) else 0) := by
  have key : ∀ i < 500, 2 * ((range 9).filter (fun k => ¬ ∀ j < 2, ¬ (3 * (min (i + k - 4) 499 * 2 + j) + 50) % 100 ≤ 9)).card < 9 := by decide +kernel
  intro i hi
  refine ⟨_, key i hi, fun k hk hkT j hj => ?_⟩
  rw [mem_filter, not_and, not_not] at hkT
  have := hkT (mem_range.mpr hk) j hj
  simp only [show (1000 / 2 - 1 : ℕ) = 499 from rfl, show (9 / 2 : ℕ) = 4 from rfl]
  rw [if_neg this]

/-- Non-vacuity of C120: these samples are dereddened with that running median, normalised and searched in single and double precision, for both type promotions. All
conditions hold. -/
example (narrow : Bool) : ∃ x d' y : List ℝ, x.length = 1000 ∧ DereddensTo (ieeeDouble someLog (fun x k => rn 53 (x ^ k)) true) single x 18 9 d' ∧
    NormalisesTo single Real.sqrt narrow d' y ∧ ∃ (per : List ℚ) (fb : List ℕ) (snr : List (List ℝ)) (j : ℕ) (row : List ℝ) (t : DTrial) (V : ℚ),
    (ieeeDouble someLog (fun x k => rn 53 (x ^ k)) true).binding (single.searchOps (ieeeDouble someLog (fun x k => rn 53 (x ^ k)) true))
      float32Idx y 1 [12] 32 40 32 39 = .ok (per, fb, snr) ∧ snr[j]? = some row ∧ t.OK 1000 32 39 ∧ t.IsVariance V ∧ t.Reaches 1 (100 / 3) := by
  have hA := sane_some true
  have e32 : (ieeeDouble someLog (fun x k => rn 53 (x ^ k)) true).fl (1 * ((32 : ℕ) : ℚ)) ≤ 32 := by
    rw [one_mul, hA.nat 32 (by norm_num)]
    norm_num
  obtain ⟨x, d, hl, hl', hx, hd, hM, hv⟩ := level_example
  obtain ⟨r, hr⟩ := (fast_ok_iff x 18 9).mpr ⟨by norm_num, Or.inr ⟨by norm_num, by rw [hl]; norm_num⟩⟩
  obtain ⟨d', hd'⟩ := (C120_result hA single x 18 9 (by norm_num)).mpr ⟨r, hr⟩
  have hg : gam (1 / 2 ^ 24) (18 / 9) ≤ 1 / 2 ^ 22 := by
    unfold gam
    norm_num
  have hη : gam (1 / 2 ^ 53) (1000 + 6) ≤ 1 / 2 ^ 40 := by
    unfold gam
    norm_num
  have hσ : Real.sqrt (varOf d) = 3 := by rw [hv]; exact sqrt_nine.symm
  obtain ⟨l2, _⟩ := C120_deredden hA single_rounds (by norm_num) (by norm_num) (by norm_num) hM (by norm_num) (by norm_num) (by linarith) hr hd'
  obtain ⟨y, hy⟩ := C119_result single Real.sqrt narrow d' (by intro e; rw [e, hl] at l2; simp at l2)
  obtain ⟨per, fb, snr, j, p, row, t, V, e, _, _, e3, hok, hV, _, _, hre, key⟩ := C120_any_period hA (grid_ieee _ _ _) single_rounds
    (le_refl _) (by norm_num) float32Idx (root := Real.sqrt) (fun r hr => by rw [sub_self, abs_zero]; positivity) narrow x d d' y 18 9 (by norm_num) hM (by norm_num)
    (by norm_num) rfl (by linarith) (by rw [hl, hl']) hd' hy (by rw [hl]; norm_num) (by rw [hv]; norm_num) rfl rfl rfl (by rw [hσ]; linarith)
    (by rw [hl]; linarith) (by rw [hl, hσ]; linarith) (by rw [hσ]; norm_num) 1 [12] (by simp) 32 40 32 39 (by norm_num)
    (by rw [hl]; exact Or.inr ⟨Or.inl rfl, by norm_num⟩)
    (by rw [hl]; norm_num) (by norm_num) (by intro w hw; simp at hw; omega) (by norm_num) (by norm_num) (by norm_num) (by norm_num)
    (by norm_num) e32 (by rw [hl]; norm_num) (100 / 3) (-50 / 3) 3 100 (by norm_num) (by norm_num)
    _ (by rw [Rat.cast_one]; exact pulsed_example') hx hd (by rw [hl]; exact sparse_example)
  rw [hl] at hok
  exact ⟨x, d', y, hl, hd', hy, per, fb, snr, j, row, t, V, e, e3, hok, hV, hre⟩

end Verif.Props
