import Verif.Lemmas.Harmonics
import Mathlib.Tactic.NormNum

/-!
# Claims about the harmonic test (C42, C43, C63)
-/

namespace Verif.Props

open Verif.Model Verif.Spec Verif.Lemmas

/-! ## C43 -/

/-- C43: `Fraction.limit_denominator` never fails for a positive bound, and no fraction of denominator at most `M` is closer to
`x` than its result. -/
theorem C43_limit_denominator (x : ℚ) (M : ℤ) (hM : 1 ≤ M) :
    ∃ r, limitDenominator x M = .ok r ∧ (r.den : ℤ) ≤ M ∧ ∀ (p : ℤ) (q : ℕ), 0 < q → (q : ℤ) ≤ M →
      |r - x| ≤ |(p : ℚ) / q - x| := by
  obtain ⟨r, hr, hden, hbest⟩ := limitDenominator_spec x M hM
  refine ⟨r, hr, hden, fun p q hq hqM => hbest _ ?_⟩
  have h := den_le_of_div (p := p) (q := (q : ℤ)) (by exact_mod_cast hq)
  rw [Int.cast_natCast] at h
  exact h.trans hqM

/-- C43: a fraction whose denominator is small enough is returned unchanged. -/
theorem C43_exact (x : ℚ) (M : ℤ) (hM : 1 ≤ M) (hx : (x.den : ℤ) ≤ M) : limitDenominator x M = .ok x := by
  unfold limitDenominator
  rw [if_neg (by omega), if_pos hx]

/-- C43: a bound below one is rejected. -/
theorem C43_rejects (x : ℚ) (M : ℤ) (hM : M < 1) : limitDenominator x M = .error .valueError := by
  unfold limitDenominator
  rw [if_pos hM]

/-- C43: the result is the only fraction of denominator at most `M` within `1 / (2 M^2)` of `x`, if there is one. -/
theorem C43_unique_if_close (x : ℚ) (M : ℤ) (hM : 1 ≤ M) (y : ℚ) (hy : (y.den : ℤ) ≤ M)
    (hclose : |y - x| < 1 / (2 * (M : ℚ) ^ 2)) : limitDenominator x M = .ok y := by
  obtain ⟨r, hr, hden, hbest⟩ := limitDenominator_spec x M hM
  rw [hr]
  congr 1
  by_contra hne
  have hMQ : (1 : ℚ) ≤ M := by exact_mod_cast hM
  have h1 : |r - y| < 1 / (M : ℚ) ^ 2 := by
    have h2 : |r - y| ≤ |r - x| + |y - x| := by
      have := abs_sub (r - x) (y - x)
      rwa [sub_sub_sub_cancel_right] at this
    have h3 := hbest y hy
    have h4 : 1 / (2 * (M : ℚ) ^ 2) + 1 / (2 * (M : ℚ) ^ 2) = 1 / (M : ℚ) ^ 2 := by
      field_simp; norm_num
    linarith
  have hrd : (0 : ℚ) < r.den := by exact_mod_cast r.den_pos
  have hyd : (0 : ℚ) < y.den := by exact_mod_cast y.den_pos
  have hrM : (r.den : ℚ) ≤ M := by exact_mod_cast hden
  have hyM : (y.den : ℚ) ≤ M := by exact_mod_cast hy
  -- r - y is a non-zero multiple of 1 / (r.den * y.den)
  have h5 : (r - y) * (r.den * y.den) = ((r.num * y.den - y.num * r.den : ℤ) : ℚ) := by
    have hr' : r * r.den = r.num := Rat.mul_den_eq_num r
    have hy' : y * y.den = y.num := Rat.mul_den_eq_num y
    push_cast
    linear_combination (y.den : ℚ) * hr' - (r.den : ℚ) * hy'
  have h6 : (1 : ℚ) ≤ |r - y| * (r.den * y.den) := by
    have hz : (r.num * y.den - y.num * r.den : ℤ) ≠ 0 := by
      intro h
      rw [h, Int.cast_zero] at h5
      rcases mul_eq_zero.1 h5 with h7 | h7
      · exact hne (sub_eq_zero.1 h7)
      · exact absurd h7 (mul_pos hrd hyd).ne'
    have h8 := Int.one_le_abs hz
    have h9 : |r - y| * (r.den * y.den) = ((|r.num * y.den - y.num * r.den| : ℤ) : ℚ) := by
      rw [Int.cast_abs, ← h5, abs_mul, abs_of_pos (mul_pos hrd hyd)]
    rw [h9]; exact_mod_cast h8
  have h10 : (r.den : ℚ) * y.den ≤ (M : ℚ) ^ 2 := by nlinarith
  have h11 : |r - y| * (r.den * y.den) ≤ |r - y| * (M : ℚ) ^ 2 := mul_le_mul_of_nonneg_left h10 (abs_nonneg _)
  rw [lt_div_iff₀ (by positivity)] at h1
  linarith

example : limitDenominator (157 / 50) 10 = .ok (22 / 7) := by decide +kernel
example : limitDenominator (-7 / 3) 2 = .ok (-5 / 2) ∨ limitDenominator (-7 / 3) 2 = .ok (-2) := by decide +kernel
example : (1 : ℤ) ≤ 10 ∧ ((22 / 7 : ℚ).den : ℤ) ≤ 10 ∧ |(22 / 7 : ℚ) - 157 / 50| < 1 / (2 * ((10 : ℤ) : ℚ) ^ 2) := by
  decide +kernel
example : ((1 / 3 : ℚ).den : ℤ) ≤ 3 := by decide +kernel

/-! ## C42 -/

theorem closest_one_le {x r : ℚ} {M : ℤ} (hM : 1 ≤ M) (hx : 1 ≤ x) (h : IsClosestFraction x M r) : 1 ≤ r := by
  have h1 := h.2 1 (by simpa using hM)
  rw [abs_of_nonpos (show (1 : ℚ) - x ≤ 0 by linarith)] at h1
  have := neg_le_of_abs_le h1
  linarith

/-- C42: for candidates of positive frequency and duty cycle, `htest` returns (no division by zero, no error). With `r` the
closest fraction, of denominator at most `denom_max`, to the ratio of the larger to the smaller frequency, the reported
fraction is `r` or, if `H` is the slower one, `1 / r`; and the pair is reported as related exactly if the three distances are
within their bounds. -/
theorem C42_htest (F H : HPeak ℚ) (tobs fmin fmax : ℚ) (a : HTestArgs) (hF : 0 < F.freq) (hH : 0 < H.freq)
    (hFd : 0 < F.ducy) (hHd : 0 < H.ducy) (ht : 0 < tobs) (h0 : 0 < fmin) (hf : fmin < fmax) (hM : 1 ≤ a.denomMax) :
    ∃ (related : Bool) (r : ℚ), IsClosestFraction (max F.freq H.freq / min F.freq H.freq) a.denomMax r ∧ 1 ≤ r ∧
      htest F H tobs fmin fmax a = .ok (related, if H.freq < F.freq then 1 / r else r) ∧
      (related = true ↔
        |r * min F.freq H.freq - max F.freq H.freq| * tobs / (if H.freq < F.freq then F.ducy else H.ducy)
            ≤ a.phaseDistanceMax ∧
        |F.dm - H.dm| * 4150 * (1 / fmin ^ 2 - 1 / fmax ^ 2) / min (F.ducy / F.freq) (H.ducy / H.freq) ≤ a.dmDistanceMax ∧
        |(H.snr : ℝ) - F.snr / Real.sqrt (r.num * r.den)| ≤ (a.snrDistanceMax : ℝ)) := by
  have hfmax : 0 < fmax := h0.trans hf
  -- the ratio is at least one
  have hs : (slowFast F H).1.freq = min F.freq H.freq ∧ (slowFast F H).2.freq = max F.freq H.freq ∧
      (slowFast F H).2.ducy = (if H.freq < F.freq then F.ducy else H.ducy) := by
    unfold slowFast
    split_ifs with h
    · exact ⟨(min_eq_right h.le).symm, (max_eq_left h.le).symm, rfl⟩
    · exact ⟨(min_eq_left (not_lt.1 h)).symm, (max_eq_right (not_lt.1 h)).symm, rfl⟩
  obtain ⟨hs1, hs2, hs3⟩ := hs
  have hmin : 0 < min F.freq H.freq := lt_min hF hH
  have hducy : 0 < (if H.freq < F.freq then F.ducy else H.ducy) := by split_ifs <;> assumption
  have hratio : 1 ≤ max F.freq H.freq / min F.freq H.freq := by rw [le_div_iff₀ hmin, one_mul]; exact min_le_max
  obtain ⟨r, hr, hclose⟩ := limitDenominator_spec (max F.freq H.freq / min F.freq H.freq) a.denomMax hM
  have hr1 := closest_one_le hM hratio hclose
  have hr0 : 0 < r := by linarith
  have horient : orientFraction H (slowFast F H).1 r = .ok (if H.freq < F.freq then 1 / r else r) := by
    unfold orientFraction slowFast pyDiv
    split_ifs with h1 h2 h3
    · exact absurd h3 hr0.ne'
    · rfl
    · exact absurd rfl h2
    · exact absurd ‹r = 0› hr0.ne'
    · -- equal peaks: the ratio is one
      have he : H = F := by assumption
      have hx : max F.freq H.freq / min F.freq H.freq = 1 := by rw [he, max_self, min_self, div_self hF.ne']
      rw [hx] at hclose
      have h1 := hclose.2 1 (by simpa using hM)
      rw [sub_self, abs_zero] at h1
      have h2 := abs_eq_zero.1 (le_antisymm h1 (abs_nonneg _))
      have h3 : r = 1 := by linarith
      rw [h3]; norm_num
    · rfl
  have hprod : ((if H.freq < F.freq then 1 / r else r : ℚ).num * (if H.freq < F.freq then 1 / r else r : ℚ).den : ℤ)
      = r.num * r.den := by
    split_ifs with h
    · have hnum : 0 < r.num := Rat.num_pos.2 hr0
      rw [one_div, Rat.num_inv, Rat.den_inv_of_ne_zero hr0.ne', Int.sign_eq_one_of_pos hnum, one_mul,
        Int.natAbs_of_nonneg hnum.le, mul_comm]
    · rfl
  have hpos : 0 < r.num * (r.den : ℤ) := mul_pos (Rat.num_pos.2 hr0) (by exact_mod_cast r.den_pos)
  have hsnr : snrExpected F (if H.freq < F.freq then 1 / r else r) = .ok ((F.snr : ℝ) / Real.sqrt (r.num * r.den)) := by
    unfold snrExpected
    rw [hprod, if_neg (not_lt.2 hpos.le), if_neg hpos.ne']
    have h2 : (((if H.freq < F.freq then 1 / r else r : ℚ).num : ℝ) * (((if H.freq < F.freq then 1 / r else r : ℚ).den : ℕ) : ℝ))
        = (r.num : ℝ) * (r.den : ℝ) := by exact_mod_cast hprod
    rw [h2]
  have hband : dmDelay |F.dm - H.dm| fmin fmax = .ok (|F.dm - H.dm| * 4150 * (1 / fmin ^ 2 - 1 / fmax ^ 2)) := by
    unfold dmDelay pyDiv
    rw [if_neg (pow_pos h0 2).ne', if_neg (pow_pos hfmax 2).ne']
    simp only [Except.bind]
    have : 0 ≤ 1 / fmin ^ 2 - 1 / fmax ^ 2 := by
      rw [sub_nonneg]
      exact one_div_le_one_div_of_le (pow_pos h0 2) (pow_le_pow_left₀ h0.le hf.le 2)
    rw [abs_of_nonneg this]
  have hwF : 0 < F.ducy / F.freq := div_pos hFd hF
  have hwH : 0 < H.ducy / H.freq := div_pos hHd hH
  have hdist : ∀ delay, dmDistance F H delay = .ok (delay / min (F.ducy / F.freq) (H.ducy / H.freq)) := by
    intro delay
    unfold dmDistance pyDiv
    rw [if_neg hF.ne', if_neg hH.ne']
    simp only [Except.bind]
    rw [if_neg (lt_min hwF hwH).ne']
  refine ⟨decide (|r * min F.freq H.freq - max F.freq H.freq| * tobs / (if H.freq < F.freq then F.ducy else H.ducy)
            ≤ a.phaseDistanceMax) &&
      decide (|F.dm - H.dm| * 4150 * (1 / fmin ^ 2 - 1 / fmax ^ 2) / min (F.ducy / F.freq) (H.ducy / H.freq)
            ≤ a.dmDistanceMax) &&
      decide (|(H.snr : ℝ) - F.snr / Real.sqrt (r.num * r.den)| ≤ (a.snrDistanceMax : ℝ)), r, hclose, hr1, ?_, ?_⟩
  · unfold htest hdiag
    rw [if_neg (not_not.2 hf), if_neg (not_not.2 ht)]
    simp only
    rw [hs1, hs2, hs3]
    have e1 : pyDiv (max F.freq H.freq) (min F.freq H.freq) = .ok (max F.freq H.freq / min F.freq H.freq) := by
      unfold pyDiv; rw [if_neg hmin.ne']
    rw [e1]
    simp only [Except.bind]
    rw [hr]
    simp only
    have e2 : ∀ z, pyDiv z (if H.freq < F.freq then F.ducy else H.ducy)
        = .ok (z / (if H.freq < F.freq then F.ducy else H.ducy)) := by
      intro z; unfold pyDiv; rw [if_neg hducy.ne']
    rw [e2]
    simp only
    rw [horient]
    simp only
    rw [hband]
    simp only
    rw [hdist]
    simp only
    rw [hsnr]
  · simp only [Bool.and_eq_true, decide_eq_true_eq, and_assoc]

/-- C42: two candidates of the same frequency are tested as fraction 1/1. -/
theorem C42_same_period (F H : HPeak ℚ) (tobs fmin fmax : ℚ) (a : HTestArgs) (hF : 0 < F.freq) (he : H.freq = F.freq)
    (hFd : 0 < F.ducy) (hHd : 0 < H.ducy) (ht : 0 < tobs) (h0 : 0 < fmin) (hf : fmin < fmax) (hM : 1 ≤ a.denomMax) :
    ∃ related : Bool, htest F H tobs fmin fmax a = .ok (related, 1) ∧
      (related = true ↔ 0 ≤ a.phaseDistanceMax ∧
        |F.dm - H.dm| * 4150 * (1 / fmin ^ 2 - 1 / fmax ^ 2) / min (F.ducy / F.freq) (H.ducy / H.freq) ≤ a.dmDistanceMax ∧
        |(H.snr : ℝ) - F.snr| ≤ (a.snrDistanceMax : ℝ)) := by
  obtain ⟨related, r, hcl, -, hrun, hiff⟩ := C42_htest F H tobs fmin fmax a hF (he ▸ hF) hFd hHd ht h0 hf hM
  have hx : max F.freq H.freq / min F.freq H.freq = 1 := by rw [he, max_self, min_self, div_self hF.ne']
  rw [hx] at hcl
  have h1 := hcl.2 1 (by simpa using hM)
  rw [sub_self, abs_zero] at h1
  have h2 := abs_eq_zero.1 (le_antisymm h1 (abs_nonneg _))
  have h3 : r = 1 := by linarith
  subst h3
  rw [if_neg (by rw [he]; exact lt_irrefl _)] at hrun
  refine ⟨related, hrun, hiff.trans ?_⟩
  rw [he, max_self, min_self]
  simp

/-- C42: exact harmonics are recognised: if the ratio of the frequencies is a fraction of numerator and denominator at most
`denom_max`, that fraction is reported and the phase distance is zero. -/
theorem C42_exact_harmonic (F H : HPeak ℚ) (tobs fmin fmax : ℚ) (a : HTestArgs) (fr : ℚ) (hF : 0 < F.freq) (hfr : 0 < fr)
    (he : H.freq = fr * F.freq) (hn : fr.num ≤ a.denomMax) (hd : (fr.den : ℤ) ≤ a.denomMax)
    (hFd : 0 < F.ducy) (hHd : 0 < H.ducy) (ht : 0 < tobs) (h0 : 0 < fmin) (hf : fmin < fmax) :
    ∃ related : Bool, htest F H tobs fmin fmax a = .ok (related, fr) ∧
      (related = true ↔ 0 ≤ a.phaseDistanceMax ∧
        |F.dm - H.dm| * 4150 * (1 / fmin ^ 2 - 1 / fmax ^ 2) / min (F.ducy / F.freq) (H.ducy / H.freq) ≤ a.dmDistanceMax ∧
        |(H.snr : ℝ) - F.snr / Real.sqrt (fr.num * fr.den)| ≤ (a.snrDistanceMax : ℝ)) := by
  have hM : 1 ≤ a.denomMax := le_trans (by exact_mod_cast fr.den_pos) hd
  have hH : 0 < H.freq := he ▸ mul_pos hfr hF
  obtain ⟨related, r, hcl, -, hrun, hiff⟩ := C42_htest F H tobs fmin fmax a hF hH hFd hHd ht h0 hf hM
  have hnum : 0 < fr.num := Rat.num_pos.2 hfr
  have hexact : ∀ x : ℚ, (x.den : ℤ) ≤ a.denomMax → IsClosestFraction x a.denomMax r → r = x := by
    intro x hx hc
    have h1 := hc.2 x hx
    rw [sub_self, abs_zero] at h1
    have h2 := abs_eq_zero.1 (le_antisymm h1 (abs_nonneg _))
    linarith
  by_cases hlt : H.freq < F.freq
  · have hx : max F.freq H.freq / min F.freq H.freq = fr⁻¹ := by
      rw [max_eq_left hlt.le, min_eq_right hlt.le, he]; field_simp
    rw [hx] at hcl
    have h1 := hexact _ (by rw [Rat.den_inv_of_ne_zero hfr.ne', Int.natAbs_of_nonneg hnum.le]; exact hn) hcl
    subst h1
    rw [if_pos hlt, one_div, inv_inv] at hrun
    refine ⟨related, hrun, hiff.trans ?_⟩
    have hphase : fr⁻¹ * min F.freq H.freq - max F.freq H.freq = 0 := by
      rw [max_eq_left hlt.le, min_eq_right hlt.le, he]; field_simp; ring
    have hprod : ((fr⁻¹.num : ℤ) : ℝ) * ((fr⁻¹.den : ℕ) : ℝ) = (fr.num : ℝ) * (fr.den : ℝ) := by
      have h3 : (fr⁻¹.num : ℤ) * (fr⁻¹.den : ℤ) = fr.num * fr.den := by
        rw [Rat.num_inv, Rat.den_inv_of_ne_zero hfr.ne', Int.sign_eq_one_of_pos hnum, one_mul,
          Int.natAbs_of_nonneg hnum.le, mul_comm]
      exact_mod_cast h3
    rw [hphase, hprod, abs_zero, zero_mul, zero_div]
  · have hle := not_lt.1 hlt
    have hx : max F.freq H.freq / min F.freq H.freq = fr := by
      rw [max_eq_right hle, min_eq_left hle, he]; field_simp
    rw [hx] at hcl
    have h1 := hexact _ hd hcl
    subst h1
    rw [if_neg hlt] at hrun
    refine ⟨related, hrun, hiff.trans ?_⟩
    have hphase : r * min F.freq H.freq - max F.freq H.freq = 0 := by
      rw [max_eq_right hle, min_eq_left hle, he]; ring
    rw [hphase, abs_zero, zero_mul, zero_div]

/-- C42: bad band or integration time is rejected. -/
theorem C42_rejects (F H : HPeak ℚ) (tobs fmin fmax : ℚ) (a : HTestArgs) (h : fmax ≤ fmin ∨ tobs ≤ 0) :
    htest F H tobs fmin fmax a = .error .valueError := by
  unfold htest hdiag
  by_cases h1 : fmax > fmin
  · rw [if_neg (not_not.2 h1), if_pos (not_lt.2 (h.resolve_left (not_le.2 h1)))]; rfl
  · rw [if_pos h1]; rfl

/-- A fundamental, its second harmonic, and its third sub-harmonic. -/
def peakF : HPeak ℚ := { freq := 2, snr := 30, ducy := 1 / 20, dm := 10, period := 1 / 2 }
def peakH : HPeak ℚ := { freq := 4, snr := 20, ducy := 1 / 20, dm := 10, period := 1 / 4 }
def peakS : HPeak ℚ := { freq := 2 / 3, snr := 17, ducy := 1 / 20, dm := 10, period := 3 / 2 }

example : (0 < peakF.freq ∧ 0 < peakH.freq ∧ 0 < peakF.ducy ∧ 0 < peakH.ducy) ∧ (0 : ℚ) < 600 ∧ (0 : ℚ) < 1200 ∧
    (1200 : ℚ) < 1500 ∧ (1 : ℤ) ≤ ({} : HTestArgs).denomMax := by decide +kernel
example : peakH.freq = 2 * peakF.freq ∧ peakS.freq = 1 / 3 * peakF.freq ∧
    ((1 / 3 : ℚ).den : ℤ) ≤ ({} : HTestArgs).denomMax ∧ (1 / 3 : ℚ).num ≤ ({} : HTestArgs).denomMax := by decide +kernel
example : (1200 : ℚ) ≤ 1200 ∨ (600 : ℚ) ≤ 0 := by decide +kernel

/-! ## C63 -/

/-- C63 for candidates `H` at least as fast as `F`: the reported fraction has denominator at most `denom_max` and is the closest
one to `H.freq / F.freq`. Missing: the case of a slower `H`, where the claim is false (`C63_false`). -/
theorem C63_denominator_bound_partial (F H : HPeak ℚ) (tobs fmin fmax : ℚ) (a : HTestArgs) (hF : 0 < F.freq)
    (hle : F.freq ≤ H.freq) (hFd : 0 < F.ducy) (hHd : 0 < H.ducy) (ht : 0 < tobs) (h0 : 0 < fmin) (hf : fmin < fmax)
    (hM : 1 ≤ a.denomMax) :
    ∃ related fr, htest F H tobs fmin fmax a = .ok (related, fr) ∧ IsClosestFraction (H.freq / F.freq) a.denomMax fr := by
  obtain ⟨related, r, hcl, -, hrun, -⟩ := C42_htest F H tobs fmin fmax a hF (hF.trans_le hle) hFd hHd ht h0 hf hM
  rw [if_neg (not_lt.2 hle)] at hrun
  rw [max_eq_right hle, min_eq_left hle] at hcl
  exact ⟨related, r, hrun, hcl⟩

/-- C63 fails for sub-harmonics: with the default `denom_max = 100`, a candidate of 1 Hz is reported as the 1/150-th harmonic of
one of 150 Hz (and can be flagged as such: here it is related). -/
theorem C63_false : ∃ (F H : HPeak ℚ), 0 < F.freq ∧ 0 < H.freq ∧ 0 < F.ducy ∧ 0 < H.ducy ∧
    htest F H 600 1200 1500 {} = .ok (true, 1 / 150) ∧ (100 : ℤ) < ((1 / 150 : ℚ).den : ℤ) ∧
    ¬ IsClosestFraction (H.freq / F.freq) 100 (1 / 150) := by
  have hF : (150 : ℚ) = (1 / 150 : ℚ)⁻¹ * 1 := by norm_num
  refine ⟨{ freq := 150, snr := 0, ducy := 1 / 10, dm := 10, period := 1 / 150 }, { freq := 1, snr := 1, ducy := 1 / 10, dm := 10, period := 1 },
    by norm_num,
    by norm_num, by norm_num, by norm_num, ?_, by decide +kernel, fun h => absurd h.1 (by decide +kernel)⟩
  obtain ⟨related, r, hcl, -, hrun, hiff⟩ := C42_htest { freq := 150, snr := 0, ducy := 1 / 10, dm := 10, period := 1 / 150 }
    { freq := 1, snr := 1, ducy := 1 / 10, dm := 10, period := 1 } 600 1200 1500 {} (by norm_num) (by norm_num) (by norm_num) (by norm_num)
    (by norm_num) (by norm_num) (by norm_num) (by norm_num)
  have hx : max (150 : ℚ) 1 / min 150 1 = 150 := by norm_num
  simp only at hcl hrun hiff
  rw [hx] at hcl
  have h1 := hcl.2 150 (by decide +kernel)
  rw [sub_self, abs_zero] at h1
  have h2 := abs_eq_zero.1 (le_antisymm h1 (abs_nonneg _))
  have h3 : r = 150 := by linarith
  subst h3
  rw [if_pos (by norm_num)] at hrun
  have hrel : related = true := by
    rw [hiff]
    refine ⟨by norm_num, by norm_num, ?_⟩
    norm_num
  rw [hrun, hrel]

example : (0 : ℚ) < peakF.freq ∧ peakF.freq ≤ peakH.freq := by decide +kernel

end Verif.Props
