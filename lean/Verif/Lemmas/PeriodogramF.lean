import Verif.Spec.Double
import Verif.Lemmas.Periodogram
import Mathlib.Tactic.LinearCombination

/-! # Double precision search: the quantities of the plan of the search -/

namespace Verif.Lemmas

open Verif.Model Verif.Spec

theorem u53_pos : (0 : ℚ) < u53 := by norm_num [u53]

theorem toSize_int {z : ℤ} (h0 : 0 ≤ z) (h : (z : ℚ) < 2 ^ 64) : toSize (z : ℚ) = .ok z.toNat := by
  unfold toSize
  have : (0 : ℚ) ≤ z := by exact_mod_cast h0
  rw [if_pos ⟨by linarith, h⟩]
  congr 1

namespace Dbl

variable {A : DArith} (hA : Sane A)
include hA

theorem fl_nonneg {x : ℚ} (h : 0 ≤ x) : 0 ≤ A.fl x := by
  have := hA.mono 0 x le_rfl h
  have h0 := hA.nat 0 (by norm_num)
  rw [Nat.cast_zero] at h0
  rwa [h0] at this

theorem fl_zero : A.fl 0 = 0 := by
  have h0 := hA.nat 0 (by norm_num)
  rwa [Nat.cast_zero] at h0

theorem fl_one : A.fl 1 = 1 := by
  have h0 := hA.nat 1 (by norm_num)
  rwa [Nat.cast_one] at h0

theorem fl_ge_nat {x : ℚ} {n : ℕ} (hn : n ≤ 2 ^ 53) (h : (n : ℚ) ≤ x) : (n : ℚ) ≤ A.fl x := by
  rw [← hA.nat n hn]
  exact hA.mono _ _ (Nat.cast_nonneg _) h

theorem fl_le_nat {x : ℚ} {n : ℕ} (hn : n ≤ 2 ^ 53) (h0 : 0 ≤ x) (h : x ≤ n) : A.fl x ≤ n := by
  rw [← hA.nat n hn]
  exact hA.mono _ _ h0 h

theorem fl_le {x : ℚ} (h : 0 ≤ x) : A.fl x ≤ (1 + u53) * x := by
  have := (abs_le.mp (hA.rel x h)).2
  linarith

theorem fl_ge {x : ℚ} (h : 0 ≤ x) : (1 - u53) * x ≤ A.fl x := by
  have := (abs_le.mp (hA.rel x h)).1
  linarith

theorem fl_pos {x : ℚ} (h : 0 < x) : 0 < A.fl x := by
  have := fl_ge hA h.le
  have hu : (0 : ℚ) < 1 - u53 := by norm_num [u53]
  have := mul_pos hu h
  linarith

end Dbl

/-- Arguments within the range of the theorems. -/
structure InRange (A : DArith) (a : DArgs) : Prop where
  valid : A.Valid a
  size : a.size ≤ 2 ^ 50
  bins : a.bmax ≤ 2 ^ 50
  pmax : a.pmax ≤ 2 ^ 62 * a.tsamp

/-! ## The plan of the search as natural numbers -/

/-- `n`, as a number. -/
def nN (A : DArith) (a : DArgs) (ids : ℕ) : ℕ := ⌊A.fl (A.fl a.size / A.f a ids)⌋₊

/-- `bstop`, as a number. -/
def bstopN (A : DArith) (a : DArgs) (ids : ℕ) : ℕ := min (min a.bmax (nN A a ids)) ⌊A.pmaxSamples a ids⌋₊

/-- The argument of `ceil` in `ceilshift`. -/
def shiftQ (A : DArith) (a : DArgs) (ids bins : ℕ) : ℚ :=
  A.fl (A.fl (A.fl bins * A.fl (A.fl (nN A a ids / bins : ℕ) - 1)) *
    A.fl (1 - A.fl (A.fl bins / A.periodCeil a ids bins)))

/-- `rows_eval`, as a number. -/
def rowsEvalN (A : DArith) (a : DArgs) (ids bins : ℕ) : ℕ := min (nN A a ids / bins) ⌈shiftQ A a ids bins⌉.toNat

/-- `num_downsamplings`, as a number. -/
def numDsN (A : DArith) (a : DArgs) : ℕ := ⌈A.fl (A.log (A.fl (a.pmax / a.pmin)) / A.log (A.dsGeo a))⌉.toNat

section plan

set_option linter.unusedSectionVars false

variable {A : DArith} (hA : Sane A) {a : DArgs} (hr : InRange A a)
include hA hr

theorem d_bmin : a.bmin ≤ 2 ^ 50 := hr.valid.2.2.2.2.1.trans hr.bins

theorem d_bins_pos : (2 : ℚ) ≤ a.bmin := by exact_mod_cast hr.valid.2.2.2.1

theorem d_denom_pos : 0 < A.fl (a.tsamp * A.fl a.bmin) := by
  rw [hA.nat _ ((d_bmin hA hr).trans (by norm_num))]
  apply Dbl.fl_pos hA
  have := d_bins_pos hA hr
  have := hr.valid.1
  positivity

theorem d_dsIni_ge : 1 ≤ A.dsIni a := by
  have := d_denom_pos hA hr
  have h := Dbl.fl_ge_nat hA (x := a.pmin / A.fl (a.tsamp * A.fl a.bmin)) (n := 1) (by norm_num)
    (by rw [Nat.cast_one, le_div_iff₀ this, one_mul]; exact hr.valid.2.2.2.2.2)
  rwa [Nat.cast_one] at h

theorem d_pmin_ge : a.tsamp ≤ a.pmin := by
  have h1 := hr.valid.2.2.2.2.2
  rw [hA.nat _ ((d_bmin hA hr).trans (by norm_num))] at h1
  have h2 := d_bins_pos hA hr
  have h3 := hr.valid.1
  have h4 := Dbl.fl_ge hA (x := a.tsamp * a.bmin) (by positivity)
  have hu : (1 : ℚ) / 2 ≤ 1 - u53 := by norm_num [u53]
  have h5 : a.tsamp * 2 ≤ a.tsamp * a.bmin := mul_le_mul_of_nonneg_left h2 h3.le
  have h6 : 1 / 2 * (a.tsamp * a.bmin) ≤ (1 - u53) * (a.tsamp * a.bmin) := mul_le_mul_of_nonneg_right hu (by linarith)
  linarith

theorem d_dsGeo_ge : 1 + 1 / 2 ^ 51 ≤ A.dsGeo a := by
  have h1 := d_bins_pos hA hr
  have h2 : (a.bmin : ℚ) ≤ a.bmax := by exact_mod_cast hr.valid.2.2.2.2.1
  have h3 : (a.bmax : ℚ) ≤ 2 ^ 50 := by exact_mod_cast hr.bins
  unfold DArith.dsGeo
  rw [hA.nat _ ((d_bmin hA hr).trans (by norm_num)), hA.nat _ (hr.bins.trans (by norm_num))]
  have e : A.fl ((a.bmax : ℚ) + 1) = a.bmax + 1 := by
    have := hA.nat (a.bmax + 1) (by have := hr.bins; omega)
    push_cast at this
    exact this
  rw [e]
  have hb : (0 : ℚ) < a.bmin := by linarith
  have h4 : 1 + 1 / (2 : ℚ) ^ 50 ≤ ((a.bmax : ℚ) + 1) / a.bmin := by
    rw [le_div_iff₀ hb]
    have : (a.bmin : ℚ) ≤ 2 ^ 50 := by linarith
    nlinarith
  have h5 := Dbl.fl_ge hA (x := ((a.bmax : ℚ) + 1) / a.bmin) (by positivity)
  have hu : (u53 : ℚ) = 1 / 2 ^ 53 := rfl
  rw [hu] at h5
  have h6 : (1 - 1 / 2 ^ 53 : ℚ) * (1 + 1 / 2 ^ 50) ≤ (1 - 1 / 2 ^ 53) * (((a.bmax : ℚ) + 1) / a.bmin) :=
    mul_le_mul_of_nonneg_left h4 (by norm_num)
  have h7 : (1 : ℚ) + 1 / 2 ^ 51 ≤ (1 - 1 / 2 ^ 53) * (1 + 1 / 2 ^ 50) := by norm_num
  linarith

theorem d_geo_one : 1 ≤ A.dsGeo a := by
  have := d_dsGeo_ge hA hr
  have : (0 : ℚ) ≤ 1 / 2 ^ 51 := by positivity
  linarith

theorem d_f_ge (ids : ℕ) : A.dsIni a ≤ A.f a ids := by
  have h1 := d_dsIni_ge hA hr
  have h2 := hA.powOne _ ids (d_geo_one hA hr)
  have h3 : A.fl (A.dsIni a) = A.dsIni a := by
    unfold DArith.dsIni
    apply hA.idem
    have := d_denom_pos hA hr
    have := hr.valid.2.1
    positivity
  rw [← h3]
  unfold DArith.f
  apply hA.mono _ _ (by linarith)
  nlinarith

theorem d_f_ge_one (ids : ℕ) : 1 ≤ A.f a ids := (d_dsIni_ge hA hr).trans (d_f_ge hA hr ids)

theorem d_size : A.fl a.size = a.size := hA.nat _ (hr.size.trans (by norm_num))

theorem d_quot_le {g : ℚ} (hg : 1 ≤ g) : A.fl (A.fl a.size / g) ≤ a.size := by
  rw [d_size hA hr]
  apply Dbl.fl_le_nat hA (hr.size.trans (by norm_num))
  · positivity
  · exact div_le_self (Nat.cast_nonneg _) hg

theorem d_dsSize {g : ℚ} (hg : 1 ≤ g) : A.dsSize a.size g = .ok ⌊A.fl (A.fl a.size / g)⌋₊ := by
  unfold DArith.dsSize
  have h1 := d_quot_le hA hr hg
  have h0 : 0 ≤ A.fl (A.fl a.size / g) := by
    rw [d_size hA hr]
    exact Dbl.fl_nonneg hA (by positivity)
  have h2 : ((⌊A.fl (A.fl a.size / g)⌋ : ℤ) : ℚ) ≤ A.fl (A.fl a.size / g) := Int.floor_le _
  have h3 : (a.size : ℚ) ≤ 2 ^ 50 := by exact_mod_cast hr.size
  rw [toSize_int (Int.floor_nonneg.mpr h0) (by
    have : (2 : ℚ) ^ 50 < 2 ^ 64 := by norm_num
    linarith), Int.floor_toNat]

theorem d_n_ok (ids : ℕ) : A.n a ids = .ok (nN A a ids) := d_dsSize hA hr (d_f_ge_one hA hr ids)

theorem d_n_le_size (ids : ℕ) : nN A a ids ≤ a.size := by
  unfold nN
  apply Nat.floor_le_of_le
  exact d_quot_le hA hr (d_f_ge_one hA hr ids)

theorem d_n_le_buf (ids : ℕ) : nN A a ids ≤ ⌊A.fl (A.fl a.size / A.dsIni a)⌋₊ := by
  unfold nN
  apply Nat.floor_le_floor
  have h1 := d_f_ge_one hA hr ids
  have h2 := d_dsIni_ge hA hr
  rw [d_size hA hr]
  apply hA.mono _ _ (by positivity)
  exact div_le_div_of_nonneg_left (Nat.cast_nonneg _) (by linarith) (d_f_ge hA hr ids)

theorem d_tau_ge (ids : ℕ) : a.tsamp / 2 ≤ A.tau a ids := by
  have h1 := d_f_ge_one hA hr ids
  have h2 := hr.valid.1
  unfold DArith.tau
  have h3 := Dbl.fl_ge hA (x := A.f a ids * a.tsamp) (by positivity)
  have hu : (1 : ℚ) / 2 ≤ 1 - u53 := by norm_num [u53]
  have h4 : a.tsamp ≤ A.f a ids * a.tsamp := by nlinarith
  nlinarith

theorem d_tau_pos (ids : ℕ) : 0 < A.tau a ids := by
  have := d_tau_ge hA hr ids
  have := hr.valid.1
  linarith

theorem d_pmax_pos : 0 < a.pmax := hr.valid.2.1.trans hr.valid.2.2.1

theorem d_pms_pos (ids : ℕ) : 0 < A.pmaxSamples a ids :=
  Dbl.fl_pos hA (div_pos (d_pmax_pos hA hr) (d_tau_pos hA hr ids))

theorem d_pms_lt (ids : ℕ) : A.pmaxSamples a ids < 2 ^ 64 := by
  have h1 := d_tau_ge hA hr ids
  have h2 := d_tau_pos hA hr ids
  have h3 := d_pmax_pos hA hr
  have h4 := hr.pmax
  have h5 : a.pmax / A.tau a ids ≤ 2 ^ 63 := by
    rw [div_le_iff₀ h2]
    linarith
  have h6 := Dbl.fl_le hA (x := a.pmax / A.tau a ids) (by positivity)
  unfold DArith.pmaxSamples
  have hu : (1 + u53 : ℚ) * 2 ^ 63 < 2 ^ 64 := by norm_num [u53]
  have hu' : (0 : ℚ) ≤ 1 + u53 := by norm_num [u53]
  have := mul_le_mul_of_nonneg_left h5 hu'
  linarith

theorem d_bstop_ok (ids : ℕ) : A.bstop a ids (nN A a ids) = .ok (bstopN A a ids) := by
  unfold DArith.bstop toSize
  have h1 := d_pms_pos hA hr ids
  rw [if_pos ⟨by linarith, d_pms_lt hA hr ids⟩]
  rfl

theorem d_rowsEval_ok {ids bins : ℕ} (h1 : 1 ≤ bins) (h2 : bins ≤ bstopN A a ids) :
    A.rowsEval a ids (nN A a ids) bins = .ok (rowsEvalN A a ids bins) ∧ 0 ≤ shiftQ A a ids bins := by
  have hbn : bins ≤ nN A a ids := h2.trans ((min_le_left _ _).trans (min_le_right _ _))
  have hbp : (bins : ℚ) ≤ A.pmaxSamples a ids :=
    (Nat.le_floor_iff (d_pms_pos hA hr ids).le).mp (h2.trans (min_le_right _ _))
  have hns := d_n_le_size hA hr ids
  have hs := hr.size
  have hr1 : 1 ≤ nN A a ids / bins := (Nat.one_le_div_iff (by omega)).mpr hbn
  have hr2 : nN A a ids / bins ≤ nN A a ids := Nat.div_le_self _ _
  have hb50 : bins ≤ 2 ^ 50 := by omega
  have e1 := hA.nat bins (by omega)
  have e2 := hA.nat (nN A a ids / bins) (by omega)
  have e3 : A.fl (((nN A a ids / bins : ℕ) : ℚ) - 1) = ((nN A a ids / bins : ℕ) : ℚ) - 1 := by
    have := hA.nat (nN A a ids / bins - 1) (by omega)
    rwa [Nat.cast_sub hr1, Nat.cast_one] at this
  have e4 : A.fl ((bins : ℚ) + 1) = bins + 1 := by
    have := hA.nat (bins + 1) (by omega)
    push_cast at this
    exact this
  have hb0 : (1 : ℚ) ≤ bins := by exact_mod_cast h1
  have hpc : (bins : ℚ) ≤ A.periodCeil a ids bins := by
    unfold DArith.periodCeil
    rw [e1, e4]
    exact le_min hbp (by linarith)
  have hpc0 : 0 < A.periodCeil a ids bins := by linarith
  have hq1 : A.fl ((bins : ℚ) / A.periodCeil a ids bins) ≤ 1 := by
    have := Dbl.fl_le_nat hA (x := (bins : ℚ) / A.periodCeil a ids bins) (n := 1) (by norm_num) (by positivity)
      (by rw [Nat.cast_one, div_le_one hpc0]; exact hpc)
    rwa [Nat.cast_one] at this
  have hq0 : 0 ≤ A.fl ((bins : ℚ) / A.periodCeil a ids bins) := Dbl.fl_nonneg hA (by positivity)
  set y := A.fl (1 - A.fl ((bins : ℚ) / A.periodCeil a ids bins)) with hy
  have hy0 : 0 ≤ y := Dbl.fl_nonneg hA (by linarith)
  have hy1 : y ≤ 1 := by
    have := Dbl.fl_le_nat hA (x := 1 - A.fl ((bins : ℚ) / A.periodCeil a ids bins)) (n := 1) (by norm_num)
      (by linarith) (by rw [Nat.cast_one]; linarith)
    rwa [Nat.cast_one] at this
  have hrq : (0 : ℚ) ≤ ((nN A a ids / bins : ℕ) : ℚ) - 1 := by
    have : (1 : ℚ) ≤ ((nN A a ids / bins : ℕ) : ℚ) := by exact_mod_cast hr1
    linarith
  have hprod : (bins : ℚ) * (((nN A a ids / bins : ℕ) : ℚ) - 1) ≤ ((2 ^ 50 : ℕ) : ℚ) := by
    have h3 : bins * (nN A a ids / bins) ≤ nN A a ids := Nat.mul_div_le _ _
    have h4 : ((bins * (nN A a ids / bins) : ℕ) : ℚ) ≤ ((2 ^ 50 : ℕ) : ℚ) := by exact_mod_cast (by omega)
    rw [Nat.cast_mul] at h4
    linarith
  set z := A.fl ((bins : ℚ) * (((nN A a ids / bins : ℕ) : ℚ) - 1)) with hz
  have hz0 : 0 ≤ z := Dbl.fl_nonneg hA (by positivity)
  have hz1 : z ≤ ((2 ^ 50 : ℕ) : ℚ) := Dbl.fl_le_nat hA (by norm_num) (by positivity) hprod
  have hsq : shiftQ A a ids bins = A.fl (z * y) := by
    unfold shiftQ
    rw [e1, e2, e3]
  have hs0 : 0 ≤ shiftQ A a ids bins := by rw [hsq]; exact Dbl.fl_nonneg hA (by positivity)
  have hs1 : shiftQ A a ids bins ≤ ((2 ^ 50 : ℕ) : ℚ) := by
    rw [hsq]
    apply Dbl.fl_le_nat hA (by norm_num) (by positivity)
    nlinarith
  refine ⟨?_, hs0⟩
  unfold DArith.rowsEval DArith.ceilshift
  have hc : ⌈shiftQ A a ids bins⌉ ≤ 2 ^ 50 := Int.ceil_le.mpr (by push_cast at hs1 ⊢; exact hs1)
  have hc' : ((⌈shiftQ A a ids bins⌉ : ℤ) : ℚ) ≤ 2 ^ 50 := by exact_mod_cast hc
  have hc0 : 0 ≤ ⌈shiftQ A a ids bins⌉ := Int.ceil_nonneg hs0
  have := toSize_int hc0 (by
    have : (2 : ℚ) ^ 50 < 2 ^ 64 := by norm_num
    linarith)
  unfold shiftQ at this
  rw [this]
  rfl

theorem d_numDs_ok : A.numDs a = .ok (numDsN A a) := by
  have h1 := d_pmin_ge hA hr
  have h2 := hr.valid.1
  have hp := hr.valid.2.1
  have h3 : 1 ≤ a.pmax / a.pmin := by
    rw [le_div_iff₀ hp, one_mul]; exact hr.valid.2.2.1.le
  have h4 : a.pmax / a.pmin ≤ 2 ^ 62 := by
    rw [div_le_iff₀ hp]
    have := hr.pmax
    nlinarith
  set x := A.fl (a.pmax / a.pmin) with hx
  have hx1 : 1 ≤ x := by
    have := Dbl.fl_ge_nat hA (x := a.pmax / a.pmin) (n := 1) (by norm_num) (by rw [Nat.cast_one]; exact h3)
    rwa [Nat.cast_one] at this
  have hx2 : x ≤ 2 ^ 63 := by
    have := Dbl.fl_le hA (x := a.pmax / a.pmin) (by linarith)
    have hu : (1 + u53 : ℚ) * 2 ^ 62 ≤ 2 ^ 63 := by norm_num [u53]
    have hu' : (0 : ℚ) ≤ 1 + u53 := by norm_num [u53]
    have := mul_le_mul_of_nonneg_left h4 hu'
    linarith
  set g := A.dsGeo a with hg
  have hg1 := d_dsGeo_ge hA hr
  have hgo := d_geo_one hA hr
  rw [← hg] at hg1 hgo
  -- numerator
  have hx1' : (1 : ℝ) ≤ (x : ℝ) := by exact_mod_cast hx1
  have hL0 : 0 ≤ Real.log x := Real.log_nonneg hx1'
  have hL1 : Real.log x ≤ 63 := by
    have hle : (x : ℝ) ≤ 2 ^ 63 := by exact_mod_cast hx2
    have := Real.log_le_log (by linarith) hle
    rw [Real.log_pow] at this
    have hl2 : Real.log 2 ≤ 1 := by
      have := Real.log_le_sub_one_of_pos (show (0 : ℝ) < 2 by norm_num)
      linarith
    push_cast at this
    linarith
  have e1 := abs_le.mp (hA.logRel x hx1)
  have hn0 : (0 : ℚ) ≤ A.log x := by
    have : (0 : ℝ) ≤ (A.log x : ℝ) := by
      have : Real.log x / 2 ^ 40 ≤ Real.log x := div_le_self hL0 (by norm_num)
      linarith [e1.1]
    exact_mod_cast this
  have hn1 : A.log x ≤ 126 := by
    have : (A.log x : ℝ) ≤ 126 := by
      have : Real.log x / 2 ^ 40 ≤ Real.log x := div_le_self hL0 (by norm_num)
      linarith [e1.2]
    exact_mod_cast this
  -- denominator
  have hg1' : (1 : ℝ) + 1 / 2 ^ 51 ≤ (g : ℝ) := by
    have : ((1 + 1 / 2 ^ 51 : ℚ) : ℝ) ≤ (g : ℝ) := by exact_mod_cast hg1
    push_cast at this
    exact this
  have hGpos : (0 : ℝ) < (g : ℝ) := by
    have : (0 : ℝ) < 1 + 1 / 2 ^ 51 := by norm_num
    linarith
  have hG : (1 : ℝ) / 2 ^ 52 ≤ Real.log g := by
    have h5 := Real.one_sub_inv_le_log_of_pos hGpos
    have h6 : (g : ℝ)⁻¹ ≤ (1 + 1 / 2 ^ 51)⁻¹ := inv_anti₀ (by norm_num) hg1'
    have h7 : (1 : ℝ) / 2 ^ 52 ≤ 1 - (1 + 1 / 2 ^ 51)⁻¹ := by norm_num
    linarith
  have e2 := abs_le.mp (hA.logRel g hgo)
  have hd : (1 : ℚ) / 2 ^ 53 ≤ A.log g := by
    have : (1 : ℝ) / 2 ^ 53 ≤ (A.log g : ℝ) := by
      have h8 : Real.log g / 2 ^ 40 ≤ Real.log g / 2 := by
        apply div_le_div_of_nonneg_left (by have : (0 : ℝ) ≤ 1 / 2 ^ 52 := by norm_num
                                            linarith) (by norm_num) (by norm_num)
      have h9 : (1 : ℝ) / 2 ^ 53 = 1 / 2 ^ 52 / 2 := by norm_num
      linarith [e2.1]
    have h9 : (((1 / 2 ^ 53 : ℚ)) : ℝ) ≤ (A.log g : ℝ) := by push_cast; exact this
    exact_mod_cast h9
  have hd0 : (0 : ℚ) < A.log g := lt_of_lt_of_le (by norm_num) hd
  have hq0 : 0 ≤ A.log x / A.log g := by positivity
  have hq1 : A.log x / A.log g ≤ 2 ^ 60 := by
    rw [div_le_iff₀ hd0]
    have : (2 : ℚ) ^ 60 * (1 / 2 ^ 53) ≤ 2 ^ 60 * A.log g := mul_le_mul_of_nonneg_left hd (by norm_num)
    have h10 : (126 : ℚ) ≤ 2 ^ 60 * (1 / 2 ^ 53) := by norm_num
    linarith
  have hr0 : 0 ≤ A.fl (A.log x / A.log g) := Dbl.fl_nonneg hA hq0
  have hr1 : A.fl (A.log x / A.log g) ≤ 2 ^ 61 := by
    have := Dbl.fl_le hA hq0
    have hu : (1 + u53 : ℚ) * 2 ^ 60 ≤ 2 ^ 61 := by norm_num [u53]
    have hu' : (0 : ℚ) ≤ 1 + u53 := by norm_num [u53]
    have := mul_le_mul_of_nonneg_left hq1 hu'
    linarith
  unfold DArith.numDs numDsN
  rw [toSize_int (Int.ceil_nonneg hr0)]
  have hc : ⌈A.fl (A.log x / A.log g)⌉ ≤ 2 ^ 61 := Int.ceil_le.mpr (by push_cast; exact hr1)
  have hc' : ((⌈A.fl (A.log x / A.log g)⌉ : ℤ) : ℚ) ≤ 2 ^ 61 := by exact_mod_cast hc
  have : (2 : ℚ) ^ 61 < 2 ^ 64 := by norm_num
  linarith

end plan

end Verif.Lemmas
