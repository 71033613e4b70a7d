import Mathlib.MeasureTheory.Measure.Lebesgue.Basic
import Verif.Props.PeaksF
import Verif.Model.FoldF

/-!
# C129: `find_peaks` accepts the output of the search
-/

namespace Verif.Props

open Verif.Model Verif.Spec Verif.Lemmas

/-- An interval covered by `n` intervals of length `δ`. -/
theorem cover_count (n : ℕ) (g : ℕ → ℝ) {a b δ : ℝ} (hδ : 0 ≤ δ) (h : ∀ x, a ≤ x → x ≤ b → ∃ i < n, g i - δ ≤ x ∧ x ≤ g i) : b - a ≤ n * δ := by
  have hsub : Set.Icc a b ⊆ ⋃ i ∈ Finset.range n, Set.Icc (g i - δ) (g i) := by
    rintro x ⟨h1, h2⟩
    obtain ⟨i, hi, h3⟩ := h x h1 h2
    exact Set.mem_biUnion (Finset.mem_coe.2 (Finset.mem_range.2 hi)) h3
  have h1 := (MeasureTheory.measure_mono (μ := MeasureTheory.volume) hsub).trans (MeasureTheory.measure_biUnion_finset_le _ _)
  simp only [Real.volume_Icc, sub_sub_cancel, Finset.sum_const, Finset.card_range, nsmul_eq_mul] at h1
  rw [← ENNReal.ofReal_natCast, ← ENNReal.ofReal_mul (Nat.cast_nonneg _)] at h1
  exact (ENNReal.ofReal_le_ofReal_iff (by positivity)).1 h1

/-- The step of the trial frequencies is at most `4 / (bmin T)`. -/
theorem trial_step {t : DTrial} {N bmin bmax : ℕ} (ok : t.OK N bmin bmax) (hb : 2 ≤ bmin) : (N : ℝ) * bmin ≤ 7 / 2 * (t.f * (t.b : ℝ) ^ 2 * ((t.m : ℝ) - 1)) := by
  have hb1 : bmin ≤ t.b := ok.bins.1
  have hn : t.n + 1 ≤ (t.m + 1) * t.b := by
    have h1 := Nat.div_add_mod t.n t.b
    have h2 := Nat.mod_lt t.n (show 0 < t.b by omega)
    rw [← ok.rows] at h1
    have : (t.m + 1) * t.b = t.b * t.m + t.b := by ring
    omega
  have hnR : (t.n : ℝ) + 1 ≤ (t.m + 1) * t.b := by exact_mod_cast hn
  have hm : (2 : ℝ) ≤ t.m := by exact_mod_cast ok.two
  have hf : (1 : ℝ) ≤ t.f := by exact_mod_cast ok.factor
  have hfull : (1 - 1 / 2 ^ 53) * (N : ℝ) < (t.n + 1) * t.f := by
    have := (Rat.cast_lt (K := ℝ)).2 ok.full
    push_cast at this
    exact this
  have hbR : (bmin : ℝ) ≤ t.b := by exact_mod_cast hb1
  have hb0 : (0 : ℝ) < t.b := by
    have : (2 : ℝ) ≤ bmin := by exact_mod_cast hb
    linarith
  have h1 : ((t.n : ℝ) + 1) * t.f ≤ (t.m + 1) * t.b * t.f := mul_le_mul_of_nonneg_right hnR (by linarith)
  have h2 : ((t.m : ℝ) + 1) * (t.b * t.f) ≤ 3 * (t.m - 1) * (t.b * t.f) := mul_le_mul_of_nonneg_right (by linarith) (by positivity)
  have hN : (0 : ℝ) ≤ N := Nat.cast_nonneg _
  have h3 : (N : ℝ) ≤ 7 / 2 * (t.f * t.b * (t.m - 1)) := by linarith
  calc (N : ℝ) * bmin ≤ 7 / 2 * (t.f * t.b * (t.m - 1)) * t.b := mul_le_mul h3 hbR (Nat.cast_nonneg _) (hN.trans h3)
    _ = _ := by ring

section

variable {per : List ℚ} {tsamp pmin pmax : ℚ} {N bmin bmax : ℕ} (ht : 0 < tsamp) (hp : 0 < pmin) (hpp : pmin < pmax) (hb : 2 ≤ bmin) (hN : 0 < N)
  (hU : (N : ℝ) * tsamp * bmin ≤ 2 ^ 26 * pmin)
  (hord : per.Pairwise (fun p q => p * (1 - 1 / 2 ^ 48) ≤ q)) (hin : ∀ p ∈ per, pmin * (1 - 1 / 2 ^ 48) ≤ p ∧ p * (1 - 1 / 2 ^ 48) ≤ pmax)
  (hcov : ∀ P : ℝ, (1 + 1 / 2 ^ 48) * pmin ≤ P → P ≤ (1 - 1 / 2 ^ 30) * pmax → ∃ (j : ℕ) (p : ℚ) (t : DTrial), per[j]? = some p ∧ t.OK N bmin bmax ∧
    |p - t.period tsamp| ≤ 1 / 2 ^ 50 * t.period tsamp ∧ t.Reaches tsamp P)

include ht hp hb hN hU hin hcov in
/-- The frequency of a trial that reaches `P`, in units of `1 / (bmin T)`. -/
theorem reach_freq {P : ℝ} (h1 : (1 + 1 / 2 ^ 48) * pmin ≤ P) (h2 : P ≤ (1 - 1 / 2 ^ 30) * pmax) :
    ∃ (j : ℕ) (p : ℚ), per[j]? = some p ∧ 0 < p ∧ 1 / P ≤ (1 + 1 / 2 ^ 48) * (1 / (p : ℝ)) ∧ (1 + 1 / 2 ^ 48) * (1 / (p : ℝ)) * (N * tsamp * bmin) ≤ 1 / P * (N * tsamp * bmin) + 5 := by
  obtain ⟨j, p, t, a1, a2, a3, a4⟩ := hcov P h1 h2
  obtain ⟨p1, p2⟩ := hin p (List.mem_of_getElem? a1)
  have hpR : (0 : ℝ) < pmin := by exact_mod_cast hp
  have hp0 : 0 < p := lt_of_lt_of_le (mul_pos hp (by norm_num)) p1
  have hp0R : (0 : ℝ) < p := by exact_mod_cast hp0
  have htR : (0 : ℝ) < tsamp := by exact_mod_cast ht
  have hb0 : (0 : ℝ) < bmin := by have : (2 : ℝ) ≤ bmin := by exact_mod_cast hb
                                  linarith
  have hN0 : (0 : ℝ) < N := by exact_mod_cast hN
  obtain ⟨q1, q2⟩ := abs_le.1 a3
  have hq0 : 0 < t.period tsamp := by linarith
  obtain ⟨q, hq⟩ : ∃ q : ℝ, q = (t.period tsamp : ℝ) := ⟨_, rfl⟩
  have hq0R : 0 < q := by rw [hq]; exact_mod_cast hq0
  have q1R : (1 - 1 / 2 ^ 50) * q ≤ p := by
    have : (1 - 1 / 2 ^ 50) * t.period tsamp ≤ p := by linarith
    have := (Rat.cast_le (K := ℝ)).2 this
    push_cast at this
    rw [hq]
    exact this
  have q2R : (p : ℝ) ≤ (1 + 1 / 2 ^ 50) * q := by
    have : p ≤ (1 + 1 / 2 ^ 50) * t.period tsamp := by linarith
    have := (Rat.cast_le (K := ℝ)).2 this
    push_cast at this
    rw [hq]
    exact this
  have hbelow := a4.below
  have hstep := a4.step
  rw [← hq] at hbelow hstep
  have hP0 : 0 < P := hq0R.trans_le hbelow
  -- 1 / q against 1 / p
  have i1 : 1 / q ≤ (1 + 1 / 2 ^ 48) * (1 / (p : ℝ)) := by
    rw [mul_one_div, div_le_div_iff₀ hq0R hp0R]
    linarith
  have i2 : 1 / (p : ℝ) ≤ (1 + 1 / 2 ^ 48) * (1 / q) := by
    rw [mul_one_div, div_le_div_iff₀ hp0R hq0R]
    linarith
  have i3 : 1 / P ≤ 1 / q := one_div_le_one_div_of_le hq0R hbelow
  refine ⟨j, p, a1, hp0, i3.trans i1, ?_⟩
  set U : ℝ := N * tsamp * bmin with hUd
  have hU0 : 0 < U := by positivity
  have hm : (2 : ℝ) ≤ t.m := by exact_mod_cast a2.two
  have hf : (1 : ℝ) ≤ t.f := by exact_mod_cast a2.factor
  have hbt : (0 : ℝ) < t.b := by
    have := a2.bins.1
    exact_mod_cast (by omega : 0 < t.b)
  have hW0 : (0 : ℝ) < t.f * tsamp * (t.b : ℝ) ^ 2 * ((t.m : ℝ) - 1) := by
    have : (0 : ℝ) < (t.m : ℝ) - 1 := by linarith
    positivity
  have i4 : (1 / q - 1 / P) * U ≤ 4 := by
    have k1 : (1 + 1 / 2 ^ 20) * (1 / (t.f * tsamp * (t.b : ℝ) ^ 2 * ((t.m : ℝ) - 1))) * U ≤ 4 := by
      rw [mul_one_div, div_mul_eq_mul_div, div_le_iff₀ hW0]
      have := mul_le_mul_of_nonneg_right (trial_step a2 hb) htR.le
      have e1 : U = (N : ℝ) * bmin * tsamp := by rw [hUd]; ring
      rw [e1]
      linarith
    exact (mul_le_mul_of_nonneg_right hstep hU0.le).trans k1
  have i5 : 1 / (p : ℝ) * U ≤ 2 ^ 27 := by
    have hpp' : (pmin : ℝ) * (1 - 1 / 2 ^ 48) ≤ p := by
      have := (Rat.cast_le (K := ℝ)).2 p1
      push_cast at this
      exact this
    rw [div_mul_eq_mul_div, div_le_iff₀ hp0R]
    linarith
  have i6 := mul_le_mul_of_nonneg_right i2 hU0.le
  have i7 : 1 / (p : ℝ) ≤ 1 / q + 1 / 2 ^ 47 * (1 / (p : ℝ)) := by
    have : 1 / q ≥ (1 - 1 / 2 ^ 48) * (1 / (p : ℝ)) := by
      rw [ge_iff_le, mul_one_div, div_le_div_iff₀ hp0R hq0R]
      linarith
    have h0 : 0 < 1 / (p : ℝ) := by positivity
    linarith
  have i8 := mul_le_mul_of_nonneg_right i7 hU0.le
  rw [add_mul] at i8
  generalize 1 / (p : ℝ) = x at i5 i6 i7 i8 ⊢
  generalize 1 / q = y at i4 i6 i7 i8
  generalize 1 / P = z at i4 ⊢
  have e1 : 1 / 2 ^ 47 * x * U = 1 / 2 ^ 47 * (x * U) := by ring
  rw [e1] at i8
  have e2 : (1 + 1 / 2 ^ 48) * x * U = (1 + 1 / 2 ^ 48) * (x * U) := by ring
  have e3 : (y - z) * U = y * U - z * U := by ring
  rw [e2]
  rw [e3] at i4
  linarith

include ht hp hpp hb hN hU hord hin hcov in
/-- The first and the last frequency, and the number of trials, in units of `1 / (bmin T)`. -/
theorem freq_span (hspan : 10 ≤ (1 / (pmin : ℝ) - 1 / pmax) * (N * tsamp * bmin)) :
    ∃ p0 p1 : ℚ, per.head? = some p0 ∧ per.getLast? = some p1 ∧ 0 < p0 ∧ 0 < p1 ∧
      1 / (p0 : ℝ) * (N * tsamp * bmin) ≤ 1 / (pmin : ℝ) * (N * tsamp * bmin) + 1 / 64 ∧
      1 / (pmin : ℝ) * (N * tsamp * bmin) ≤ 1 / (p0 : ℝ) * (N * tsamp * bmin) + 1 / 64 ∧
      1 / (pmax : ℝ) * (N * tsamp * bmin) ≤ 1 / (p1 : ℝ) * (N * tsamp * bmin) + 1 / 64 ∧
      1 / (p1 : ℝ) * (N * tsamp * bmin) ≤ 1 / (pmax : ℝ) * (N * tsamp * bmin) + 21 / 4 ∧
      (1 / (pmin : ℝ) - 1 / pmax) * (N * tsamp * bmin) ≤ 5 * per.length + 1 / 4 := by
  have hpR : (0 : ℝ) < pmin := by exact_mod_cast hp
  have hppR : (pmin : ℝ) < pmax := by exact_mod_cast hpp
  have hqR : (0 : ℝ) < pmax := hpR.trans hppR
  have htR : (0 : ℝ) < tsamp := by exact_mod_cast ht
  have hb0 : (0 : ℝ) < bmin := by have : (2 : ℝ) ≤ bmin := by exact_mod_cast hb
                                  linarith
  have hN0 : (0 : ℝ) < N := by exact_mod_cast hN
  have reach := fun {P : ℝ} => reach_freq (P := P) ht hp hb hN hU hin hcov
  set U : ℝ := N * tsamp * bmin with hUd
  have hU0 : 0 < U := by positivity
  have haU : 1 / (pmin : ℝ) * U ≤ 2 ^ 26 := by
    rw [div_mul_eq_mul_div, div_le_iff₀ hpR]
    linarith
  have hcU0 : 0 < 1 / (pmax : ℝ) * U := by positivity
  have haU0 : 0 < 1 / (pmin : ℝ) * U := by positivity
  rw [sub_mul] at hspan
  have hcU : 1 / (pmax : ℝ) * U ≤ 2 ^ 26 := by linarith
  -- the ends of the range
  have hends : (1 + 1 / 2 ^ 48) * (pmin : ℝ) ≤ (1 - 1 / 2 ^ 30) * pmax := by
    have h1 : 1 / (pmax : ℝ) * U ≤ (1 - 10 / 2 ^ 26) * (1 / (pmin : ℝ) * U) := by linarith
    have h2 : 1 / (pmax : ℝ) ≤ (1 - 10 / 2 ^ 26) * (1 / (pmin : ℝ)) := by
      rw [← mul_assoc (1 - 10 / 2 ^ 26 : ℝ)] at h1
      exact le_of_mul_le_mul_right h1 hU0
    rw [mul_one_div, div_le_div_iff₀ hqR hpR] at h2
    linarith
  obtain ⟨P1, hP1⟩ : ∃ P1 : ℝ, P1 = (1 + 1 / 2 ^ 48) * pmin := ⟨_, rfl⟩
  obtain ⟨P2, hP2⟩ : ∃ P2 : ℝ, P2 = (1 - 1 / 2 ^ 30) * pmax := ⟨_, rfl⟩
  have hP12 : P1 ≤ P2 := by rw [hP1, hP2]; exact hends
  have hP1p : 0 < P1 := by rw [hP1]; positivity
  have hP2p : 0 < P2 := hP1p.trans_le hP12
  have e1 : (1 - 1 / 2 ^ 48) * (1 / (pmin : ℝ)) ≤ 1 / P1 := by
    rw [mul_one_div, div_le_div_iff₀ hpR hP1p, hP1]
    linarith
  have e2 : 1 / P2 ≤ (1 + 1 / 2 ^ 29) * (1 / (pmax : ℝ)) := by
    rw [mul_one_div, div_le_div_iff₀ hP2p hqR, hP2]
    linarith
  have e1U := mul_le_mul_of_nonneg_right e1 hU0.le
  have e2U := mul_le_mul_of_nonneg_right e2 hU0.le
  rw [mul_assoc] at e1U e2U
  obtain ⟨j1, q1, a1, a2, a3, a4⟩ := reach (P := P1) (by rw [hP1]) (by rw [← hP2]; exact hP12)
  obtain ⟨j2, q2, b1, b2, b3, b4⟩ := reach (P := P2) (by rw [← hP1]; exact hP12) (by rw [hP2])
  obtain ⟨hj1, a1'⟩ := List.getElem?_eq_some_iff.1 a1
  obtain ⟨hj2, b1'⟩ := List.getElem?_eq_some_iff.1 b1
  have hne : 0 < per.length := by omega
  have hpos : ∀ p ∈ per, 0 < p := fun p h => lt_of_lt_of_le (mul_pos hp (by norm_num)) (hin p h).1
  have hpw := List.pairwise_iff_getElem.1 hord
  obtain ⟨p0, hp0⟩ : ∃ p0, p0 = per[0] := ⟨_, rfl⟩
  obtain ⟨p1, hp1⟩ : ∃ p1, p1 = per[per.length - 1] := ⟨_, rfl⟩
  have hm0 : p0 ∈ per := by rw [hp0]; exact List.getElem_mem _
  have hm1 : p1 ∈ per := by rw [hp1]; exact List.getElem_mem _
  have p0p := hpos p0 hm0
  have p1p := hpos p1 hm1
  have p0R : (0 : ℝ) < p0 := by exact_mod_cast p0p
  have p1R : (0 : ℝ) < p1 := by exact_mod_cast p1p
  have q1R : (0 : ℝ) < q1 := by exact_mod_cast a2
  have q2R : (0 : ℝ) < q2 := by exact_mod_cast b2
  have k0 : p0 * (1 - 1 / 2 ^ 48) ≤ q1 := by
    rcases Nat.eq_zero_or_pos j1 with h0 | h0
    · have : p0 = q1 := by rw [hp0, ← a1']; simp only [h0]
      rw [← this]
      linarith
    · rw [hp0, ← a1']
      exact hpw 0 j1 hne hj1 h0
  have k1 : q2 * (1 - 1 / 2 ^ 48) ≤ p1 := by
    rcases Nat.lt_or_ge j2 (per.length - 1) with h0 | h0
    · rw [hp1, ← b1']
      exact hpw j2 (per.length - 1) hj2 (by omega) h0
    · have : p1 = q2 := by rw [hp1, ← b1']; congr 1; omega
      rw [this]
      linarith
  have k0R : (p0 : ℝ) * (1 - 1 / 2 ^ 48) ≤ q1 := by
    have := (Rat.cast_le (K := ℝ)).2 k0
    push_cast at this
    exact this
  have k1R : (q2 : ℝ) * (1 - 1 / 2 ^ 48) ≤ p1 := by
    have := (Rat.cast_le (K := ℝ)).2 k1
    push_cast at this
    exact this
  have l0 : (pmin : ℝ) * (1 - 1 / 2 ^ 48) ≤ p0 := by
    have := (Rat.cast_le (K := ℝ)).2 (hin p0 hm0).1
    push_cast at this
    exact this
  have l1 : (p1 : ℝ) * (1 - 1 / 2 ^ 48) ≤ pmax := by
    have := (Rat.cast_le (K := ℝ)).2 (hin p1 hm1).2
    push_cast at this
    exact this
  refine ⟨p0, p1, by rw [hp0, List.head?_eq_getElem?, List.getElem?_eq_getElem hne], by
    rw [hp1, List.getLast?_eq_getElem?, List.getElem?_eq_getElem (by omega)], p0p, p1p, ?_, ?_, ?_, ?_, ?_⟩
  · have h1 : 1 / (p0 : ℝ) ≤ (1 + 1 / 2 ^ 47) * (1 / (pmin : ℝ)) := by
      rw [mul_one_div, div_le_div_iff₀ p0R hpR]
      linarith
    have := mul_le_mul_of_nonneg_right h1 hU0.le
    rw [mul_assoc] at this
    linarith
  · have h1 : (1 - 1 / 2 ^ 48) * (1 / (q1 : ℝ)) ≤ 1 / p0 := by
      rw [mul_one_div, div_le_div_iff₀ q1R p0R]
      linarith
    have h2 := mul_le_mul_of_nonneg_right h1 hU0.le
    have h3 := mul_le_mul_of_nonneg_right a3 hU0.le
    rw [mul_assoc] at h2 h3
    linarith
  · have h1 : (1 - 1 / 2 ^ 48) * (1 / (pmax : ℝ)) ≤ 1 / p1 := by
      rw [mul_one_div, div_le_div_iff₀ hqR p1R]
      linarith
    have := mul_le_mul_of_nonneg_right h1 hU0.le
    rw [mul_assoc] at this
    linarith
  · have h1 : 1 / (p1 : ℝ) ≤ (1 + 1 / 2 ^ 47) * (1 / (q2 : ℝ)) := by
      rw [mul_one_div, div_le_div_iff₀ p1R q2R]
      linarith
    have h2 := mul_le_mul_of_nonneg_right h1 hU0.le
    rw [mul_assoc] at h2 b4
    linarith
  · have hc := cover_count per.length (fun i => (1 + 1 / 2 ^ 48) * (1 / ((per.getD i 0 : ℚ) : ℝ))) (a := 1 / P2) (b := 1 / P1) (δ := 5 / U) (by positivity) (by
      intro x x1 x2
      have hx0 : 0 < x := lt_of_lt_of_le (by positivity) x1
      have y1 : P1 ≤ 1 / x := by
        rw [le_div_iff₀ hx0]
        rw [le_div_iff₀ hP1p] at x2
        linarith
      have y2 : 1 / x ≤ P2 := by
        rw [div_le_iff₀ hx0]
        rw [div_le_iff₀ hP2p] at x1
        linarith
      obtain ⟨i, q, c1, c2, c3, c4⟩ := reach (P := 1 / x) (by rw [← hP1]; exact y1) (by rw [← hP2]; exact y2)
      rw [one_div_one_div] at c3 c4
      obtain ⟨hi, c1'⟩ := List.getElem?_eq_some_iff.1 c1
      refine ⟨i, hi, ?_, ?_⟩
      · rw [List.getD_eq_getElem?_getD, c1, Option.getD_some]
        have : (1 + 1 / 2 ^ 48) * (1 / (q : ℝ)) ≤ x + 5 / U := by
          rw [← sub_le_iff_le_add', le_div_iff₀ hU0, sub_mul]
          linarith
        linarith
      · rw [List.getD_eq_getElem?_getD, c1, Option.getD_some]
        exact c3)
    have h2 := mul_le_mul_of_nonneg_right hc hU0.le
    have e3 : (per.length : ℝ) * (5 / U) * U = 5 * per.length := by field_simp
    rw [e3, sub_mul] at h2
    rw [sub_mul]
    linarith

include ht hp hpp hb hN hU hord hin hcov in
/-- `segment` accepts the frequencies. -/
theorem segments_ok {A : DArith} (hA : Sane A) (hspan : 10 ≤ (1 / pmin - 1 / pmax) * (N * tsamp * bmin)) {segwidth : ℚ} (hseg : 6 ≤ segwidth * bmin) :
    ∃ m, A.segments (per.map fun p => A.fl (1 / p)) (A.seriesLength N tsamp) segwidth = .ok m := by
  have hspan' : 10 ≤ (1 / (pmin : ℝ) - 1 / pmax) * (N * tsamp * bmin) := by
    have := (Rat.cast_le (K := ℝ)).2 hspan
    push_cast at this
    exact this
  obtain ⟨p0, p1, h0, h1, p0p, p1p, s1, s2, s3, s4, s5⟩ := freq_span ht hp hpp hb hN hU hord hin hcov hspan'
  have hb0 : (0 : ℚ) < bmin := by have : (2 : ℚ) ≤ bmin := by exact_mod_cast hb
                                  linarith
  have hN0 : (0 : ℚ) < N := by exact_mod_cast hN
  have hs0 : 0 < segwidth := by
    by_contra h
    have := mul_nonpos_of_nonpos_of_nonneg (not_lt.1 h) hb0.le
    linarith
  have hT0 : 0 < A.seriesLength N tsamp := Dbl.fl_pos hA (by positivity)
  have hTle : A.seriesLength N tsamp ≤ (1 + u53) * (N * tsamp) := Dbl.fl_le hA (by positivity)
  obtain ⟨f0, hf0⟩ : ∃ f0, f0 = A.fl (1 / p0) := ⟨_, rfl⟩
  obtain ⟨f1, hf1⟩ : ∃ f1, f1 = A.fl (1 / p1) := ⟨_, rfl⟩
  -- everything in rational numbers
  obtain ⟨U, hUd⟩ : ∃ U : ℚ, U = N * tsamp * bmin := ⟨_, rfl⟩
  have hU0 : 0 < U := by rw [hUd]; positivity
  have c : ∀ x y z : ℚ, (1 / (x : ℝ) * (N * tsamp * bmin) ≤ 1 / (y : ℝ) * (N * tsamp * bmin) + z) → 1 / x * U ≤ 1 / y * U + z := by
    intro x y z h
    rw [hUd]
    have : (((1 / x * (N * tsamp * bmin) : ℚ)) : ℝ) ≤ ((1 / y * (N * tsamp * bmin) + z : ℚ) : ℝ) := by
      push_cast
      exact h
    exact_mod_cast this
  have t1 := c p0 pmin (1 / 64) (by push_cast; exact s1)
  have t2 := c pmin p0 (1 / 64) (by push_cast; exact s2)
  have t3 := c pmax p1 (1 / 64) (by push_cast; exact s3)
  have t4 := c p1 pmax (21 / 4) (by push_cast; exact s4)
  have t5 : (1 / pmin - 1 / pmax) * U ≤ 5 * per.length + 1 / 4 := by
    rw [hUd]
    have : (((1 / pmin - 1 / pmax) * (N * tsamp * bmin) : ℚ) : ℝ) ≤ ((5 * per.length + 1 / 4 : ℚ) : ℝ) := by
      push_cast
      exact s5
    exact_mod_cast this
  have t6 : 1 / pmin * U ≤ 2 ^ 26 := by
    have h : N * tsamp * bmin ≤ 2 ^ 26 * pmin := by exact_mod_cast hU
    rw [div_mul_eq_mul_div, div_le_iff₀ hp, hUd]
    linarith
  rw [← hUd, sub_mul] at hspan
  rw [sub_mul] at t5
  have hpm : 0 < 1 / pmax * U := by have := hp.trans hpp; positivity
  have i0 : 0 < 1 / p0 * U := by positivity
  have i1 : 0 < 1 / p1 * U := by positivity
  obtain ⟨g1, g2⟩ := abs_le.1 (hA.rel (1 / p0) (by positivity))
  obtain ⟨g3, g4⟩ := abs_le.1 (hA.rel (1 / p1) (by positivity))
  rw [← hf0] at g1 g2
  rw [← hf1] at g3 g4
  have g1U := mul_le_mul_of_nonneg_right g1 hU0.le
  have g2U := mul_le_mul_of_nonneg_right g2 hU0.le
  have g3U := mul_le_mul_of_nonneg_right g3 hU0.le
  have g4U := mul_le_mul_of_nonneg_right g4 hU0.le
  rw [sub_mul] at g1U g2U g3U g4U
  rw [neg_mul, mul_assoc] at g1U g3U
  rw [mul_assoc u53] at g2U g4U
  unfold u53 at g1U g2U g3U g4U hTle
  have hlt : f1 * U < f0 * U := by linarith
  have hlt' : f1 < f0 := lt_of_mul_lt_mul_right hlt hU0.le
  refine (C121_segments hA _ hT0 hs0 (f0 := f0) (f1 := f1) (by rw [List.head?_map, h0, hf0]; rfl) (by rw [List.getLast?_map, h1, hf1]; rfl) rfl).2.2 hlt'.ne' ?_
  rw [List.length_map, abs_sub_comm, abs_of_pos (sub_pos.2 hlt'), div_div_eq_mul_div, ← mul_div_assoc, div_le_iff₀ hs0]
  have hD : (f0 - f1) * U ≤ (1 / pmin * U - 1 / pmax * U) + 1 / 16 := by
    rw [sub_mul]
    linarith
  have hdf : 0 < f0 - f1 := sub_pos.2 hlt'
  have m1 : (f0 - f1) * A.seriesLength N tsamp * bmin ≤ (1 + 1 / 2 ^ 53) * ((f0 - f1) * U) := by
    have := mul_le_mul_of_nonneg_left hTle hdf.le
    have := mul_le_mul_of_nonneg_right this hb0.le
    refine this.trans (le_of_eq ?_)
    rw [hUd]
    ring
  have m2 : (per.length : ℚ) * 6 ≤ per.length * (segwidth * bmin) := mul_le_mul_of_nonneg_left hseg (Nat.cast_nonneg _)
  refine le_of_mul_le_mul_right ?_ hb0
  have e1 : (1 + 1 / 2 ^ 50) * ((f0 - f1) * A.seriesLength N tsamp) * bmin = (1 + 1 / 2 ^ 50) * ((f0 - f1) * A.seriesLength N tsamp * bmin) := by ring
  rw [e1]
  linarith

end

/-- C129. `find_peaks` accepts the output of the search, in double precision and whatever the data: if two periods of `pmax` fit in the data, the range spans at least ten steps `1 / (bmin T)` in frequency
and the segments have a width of at least `6 / bmin` (in units of `1 / T`; the default is 5), there is no error. -/
theorem C129_no_error {A : DArith} (hA : Sane A) (O : VOps ℝ) (idx : IdxRule) (data : List ℝ) (tsamp : ℚ) (widths : List ℕ) (hne : widths ≠ []) (pmin pmax : ℚ) (bmin bmax : ℕ)
    (hidx : IdxFor idx (data.length / bmin)) (hN : data.length ≤ 2 ^ 25) (hbins : bmax < 2 ^ 32) (ht : 0 < tsamp) (hp : 0 < pmin) (hpp : pmin < pmax) (hb2 : 2 ≤ bmin)
    (hbb : bmin ≤ bmax) (hbp : A.fl (tsamp * bmin) ≤ pmin) (h2 : 2 * pmax ≤ data.length * tsamp) (hspan : 10 ≤ (1 / pmin - 1 / pmax) * (data.length * tsamp * bmin))
    (argsort : List ℚ → List ℕ) (poly : ℕ → ℕ → ℝ) (q : PeakParamsF) (hseg : 6 ≤ q.segwidth * bmin) :
    ∃ (per : List ℚ) (fb : List ℕ) (snr : List (List ℝ)) (peaks : List PeakF), A.binding O idx data tsamp widths pmin pmax bmin bmax = .ok (per, fb, snr) ∧
      A.findPeaks argsort poly q ⟨widths, per, fb, snr, A.seriesLength data.length tsamp⟩ = .ok peaks := by
  obtain ⟨per, fb, snr, hb, _, _, hcov⟩ := C114_no_holes A hA O idx data tsamp widths hne pmin pmax bmin bmax hidx hN hbins ht hp hpp hb2 hbb hbp h2
  have hNR : (data.length : ℚ) ≤ 2 ^ 25 := by exact_mod_cast hN
  have hN4 := mul_le_mul_of_nonneg_right hNR ht.le
  obtain ⟨hord, hin⟩ := C76_double_periods_partial A hA O idx data tsamp widths hne pmin pmax bmin bmax hidx (hN.trans (by norm_num)) (hbins.le.trans (by norm_num)) (by linarith) per fb snr hb
  have hN0 : 0 < data.length := by
    rcases Nat.eq_zero_or_pos data.length with h | h
    · rw [h] at h2
      push_cast at h2
      linarith
    · exact h
  have hb0 : (0 : ℚ) < bmin := by have : (2 : ℚ) ≤ bmin := by exact_mod_cast hb2
                                  linarith
  have hU : (data.length : ℚ) * tsamp * bmin ≤ 2 ^ 26 * pmin := by
    have h3 := Dbl.fl_ge hA (show 0 ≤ tsamp * bmin by positivity)
    unfold u53 at h3
    have h4 := mul_le_mul_of_nonneg_right hNR (show 0 ≤ tsamp * bmin by positivity)
    have e1 : (data.length : ℚ) * tsamp * bmin = data.length * (tsamp * bmin) := by ring
    rw [e1]
    linarith
  obtain ⟨m, hm⟩ := segments_ok ht hp hpp hb2 hN0 (by exact_mod_cast hU) hord hin (fun P h1 h2 => by
    obtain ⟨j, p, t, c1, _, c2, c3, c4⟩ := hcov P h1 h2
    exact ⟨j, p, t, c1, c2, c3, c4⟩) hA hspan hseg
  obtain ⟨peaks, hpk⟩ := (C121_success argsort poly q ⟨widths, per, fb, snr, A.seriesLength data.length tsamp⟩ hne).mpr ⟨m, hm⟩
  exact ⟨per, fb, snr, peaks, hb, hpk⟩

/-- C129, why the range must not be too narrow: a periodogram with a single trial makes `find_peaks` raise ZeroDivisionError, whatever the S/N. -/
theorem C129_single {A : DArith} (hA : Sane A) (argsort : List ℚ → List ℕ) (poly : ℕ → ℕ → ℝ) (q : PeakParamsF) (g : PgramF) (hw : g.widths ≠ []) {p : ℚ} (hp : g.periods = [p])
    (hT : 0 < g.tobs) (hs : 0 < q.segwidth) : A.findPeaks argsort poly q g = .error .zeroDivisionError := by
  have hseg : A.segments (g.freqs A) g.tobs q.segwidth = .error .zeroDivisionError :=
    (C121_segments hA (g.freqs A) (f0 := A.fl (1 / p)) (f1 := A.fl (1 / p)) hT hs (by simp [PgramF.freqs, hp]) (by simp [PgramF.freqs, hp]) rfl).2.1 rfl
  obtain ⟨w, ws, hws⟩ := List.exists_cons_of_ne_nil hw
  unfold DArith.findPeaks
  rw [hws]
  simp [List.zipIdx_cons, DArith.peaksOfWidth, DArith.findPeaksSingle, hseg, Except.map, bind, Except.bind]

/-- Non-vacuity of C129: 1000 samples, searched from 32 to 40 samples with 32 to 39 bins. -/
example (data : List ℝ) (hl : data.length = 1000) (poly : ℕ → ℕ → ℝ) :
    ∃ (per : List ℚ) (fb : List ℕ) (snr : List (List ℝ)) (peaks : List PeakF),
      (ieeeDouble someLog (fun x k => rn 53 (x ^ k)) true).binding (single.searchOps (ieeeDouble someLog (fun x k => rn 53 (x ^ k)) true)) float32Idx data 1 [1, 2, 4] 32 40 32 39 = .ok (per, fb, snr) ∧
      (ieeeDouble someLog (fun x k => rn 53 (x ^ k)) true).findPeaks insArgsort poly ⟨6, 5, 10, 1 / 10⟩
        ⟨[1, 2, 4], per, fb, snr, (ieeeDouble someLog (fun x k => rn 53 (x ^ k)) true).seriesLength data.length 1⟩ = .ok peaks := by
  have hA := sane_some true
  have e32 : (ieeeDouble someLog (fun x k => rn 53 (x ^ k)) true).fl (1 * ((32 : ℕ) : ℚ)) ≤ 32 := by
    rw [one_mul, hA.nat 32 (by norm_num)]
    norm_num
  exact C129_no_error hA _ _ data 1 [1, 2, 4] (by simp) 32 40 32 39 (by rw [hl]; exact Or.inr ⟨Or.inl rfl, by norm_num⟩) (by rw [hl]; norm_num) (by norm_num) (by norm_num) (by norm_num) (by norm_num)
    (by norm_num) (by norm_num) e32 (by rw [hl]; norm_num) (by rw [hl]; norm_num) insArgsort poly _ (by norm_num)

end Verif.Props
