import Verif.Lemmas.LabelF

/-! # Double precision search: the trials leave no holes -/

namespace Verif.Lemmas

open Verif.Model Verif.Spec

theorem near_num {k : ℕ} (hk : k ≤ 14) {x y : ℚ} (hx : 0 ≤ x) (hy : 0 ≤ y) (h : Near k x y) :
    (1 - 1 / 2 ^ 49) * y ≤ x ∧ x ≤ (1 + 1 / 2 ^ 49) * y := by
  obtain ⟨h1, h2⟩ := h.mono hk hx hy
  have e1 : (1 - 1 / 2 ^ 49 : ℚ) ≤ (1 - u53) ^ 14 := by norm_num [u53]
  have e2 : (1 : ℚ) ≤ (1 + 1 / 2 ^ 49) * (1 - u53) ^ 14 := by norm_num [u53]
  constructor
  · have := mul_le_mul_of_nonneg_right e1 hy
    linarith
  · have s1 := mul_le_mul_of_nonneg_right h2 (by norm_num : (0 : ℚ) ≤ 1 + 1 / 2 ^ 49)
    have s2 := mul_le_mul_of_nonneg_left e2 hx
    have s3 : x * ((1 + 1 / 2 ^ 49) * (1 - u53) ^ 14) = x * (1 - u53) ^ 14 * (1 + 1 / 2 ^ 49) := by ring
    linarith

section

set_option linter.unusedSectionVars false

variable {A : DArith} (hA : Sane A) {a : DArgs} (hr : InRange A a)
include hA hr

theorem near_geo : Near 1 (A.dsGeo a) (((a.bmax : ℚ) + 1) / a.bmin) := by
  have hb : (0 : ℚ) < a.bmin := by have := d_bins_pos hA hr; linarith
  unfold DArith.dsGeo
  rw [hA.nat _ ((d_bmin hA hr).trans (by norm_num)), hA.nat _ (hr.bins.trans (by norm_num))]
  have e : A.fl ((a.bmax : ℚ) + 1) = a.bmax + 1 := by
    have := hA.nat (a.bmax + 1) (by have := hr.bins; omega)
    push_cast at this
    exact this
  rw [e]
  exact near_fl hA (by positivity)

/-- Where a stage begins: its sampling time times the smallest number of bins. -/
theorem d_stage_start (i : ℕ) : Near 6 (A.f a i * a.tsamp * a.bmin) (a.pmin * A.dsGeo a ^ i) := by
  have hb : (0 : ℚ) < a.bmin := by have := d_bins_pos hA hr; linarith
  have hts := hr.valid.1
  have hp := hr.valid.2.1
  have hg := d_geo_one hA hr
  have hini := d_dsIni_ge hA hr
  have hden := d_denom_pos hA hr
  have e0 : Near 1 (A.fl (a.tsamp * A.fl a.bmin)) (a.tsamp * a.bmin) := by
    rw [hA.nat _ ((d_bmin hA hr).trans (by norm_num))]
    exact near_fl hA (by positivity)
  have e1 : Near 2 (A.dsIni a) (a.pmin / (a.tsamp * a.bmin)) := by
    have h1 : Near 1 (A.dsIni a) (a.pmin / A.fl (a.tsamp * A.fl a.bmin)) := near_fl hA (by positivity)
    have h2 := (near_refl a.pmin).div hp.le hp.le hden (by positivity : 0 < a.tsamp * (a.bmin : ℚ)) e0
    exact h1.trans h2
  have hpi := hA.powOne _ i hg
  have ei := near_pow hA hg i
  have hgi : (0 : ℚ) ≤ A.dsGeo a ^ i := by positivity
  have fi : Near 1 (A.f a i) (A.dsIni a * A.pow (A.dsGeo a) i) := near_fl hA (by positivity)
  have e2 := fi.trans (e1.mul (by linarith) (by positivity) (by linarith) hgi ei)
  have hf := d_f_ge_one hA hr i
  have e3 := e2.mul (by linarith) (by positivity) (by positivity : 0 ≤ a.tsamp * (a.bmin : ℚ)) (by positivity) (near_refl _)
  have s1 : A.f a i * (a.tsamp * a.bmin) = A.f a i * a.tsamp * a.bmin := by ring
  have s2 : a.pmin / (a.tsamp * a.bmin) * A.dsGeo a ^ i * (a.tsamp * a.bmin) = a.pmin * A.dsGeo a ^ i := by
    field_simp
  rw [s1, s2] at e3
  exact e3

/-- How far the stages reach. -/
theorem d_numDs_reach (hR : a.pmax ≤ 2 ^ 25 * a.pmin) :
    (1 - 1 / 2 ^ 32) * (a.pmax : ℝ) ≤ a.pmin * (A.dsGeo a : ℝ) ^ numDsN A a ∧
    ∀ i < numDsN A a, (a.pmin : ℝ) * (A.dsGeo a : ℝ) ^ i ≤ (1 + 1 / 2 ^ 31) * a.pmax := by
  have hp := hr.valid.2.1
  have hpR : (0 : ℝ) < a.pmin := by exact_mod_cast hp
  have hmx : (0 : ℝ) < a.pmax := by exact_mod_cast d_pmax_pos hA hr
  have h3 : 1 ≤ a.pmax / a.pmin := by
    rw [le_div_iff₀ hp, one_mul]; exact hr.valid.2.2.1.le
  have h4 : a.pmax / a.pmin ≤ 2 ^ 25 := by rwa [div_le_iff₀ hp]
  obtain ⟨x, hx⟩ : ∃ x, x = A.fl (a.pmax / a.pmin) := ⟨_, rfl⟩
  have hx1 : 1 ≤ x := by
    have := Dbl.fl_ge_nat hA (x := a.pmax / a.pmin) (n := 1) (by norm_num) (by rw [Nat.cast_one]; exact h3)
    rwa [Nat.cast_one, ← hx] at this
  have hx2 : x ≤ 2 ^ 25 := by
    have := Dbl.fl_le_nat hA (x := a.pmax / a.pmin) (n := 2 ^ 25) (by norm_num) (by linarith) (by push_cast; exact h4)
    push_cast at this
    rwa [← hx] at this
  have hxl : (1 - 1 / 2 ^ 53) * (a.pmax : ℝ) ≤ a.pmin * x := by
    have := Dbl.fl_ge hA (x := a.pmax / a.pmin) (by linarith)
    rw [← hx] at this
    have s := mul_le_mul_of_nonneg_left this hp.le
    have e : a.pmin * ((1 - u53) * (a.pmax / a.pmin)) = (1 - 1 / 2 ^ 53) * a.pmax := by
      unfold u53
      field_simp
    rw [e] at s
    have := (Rat.cast_le (K := ℝ)).mpr s
    push_cast at this
    exact this
  have hxu : (a.pmin : ℝ) * x ≤ (1 + 1 / 2 ^ 53) * a.pmax := by
    have := Dbl.fl_le hA (x := a.pmax / a.pmin) (by linarith)
    rw [← hx] at this
    have s := mul_le_mul_of_nonneg_left this hp.le
    have e : a.pmin * ((1 + u53) * (a.pmax / a.pmin)) = (1 + 1 / 2 ^ 53) * a.pmax := by
      unfold u53
      field_simp
    rw [e] at s
    have := (Rat.cast_le (K := ℝ)).mpr s
    push_cast at this
    exact this
  obtain ⟨g, hg⟩ : ∃ g, g = A.dsGeo a := ⟨_, rfl⟩
  have hgo := d_geo_one hA hr
  have hg1 := d_dsGeo_ge hA hr
  rw [← hg] at hgo hg1
  have hx1' : (1 : ℝ) ≤ (x : ℝ) := by exact_mod_cast hx1
  have hL0 : 0 ≤ Real.log x := Real.log_nonneg hx1'
  have hL1 : Real.log x ≤ 32 := by
    have hle : (x : ℝ) ≤ 2 ^ 25 := by exact_mod_cast hx2
    have := Real.log_le_log (by linarith) hle
    rw [Real.log_pow] at this
    have hl2 : Real.log 2 ≤ 1 := by
      have := Real.log_le_sub_one_of_pos (show (0 : ℝ) < 2 by norm_num)
      linarith
    push_cast at this
    linarith
  have e1 := abs_le.mp (hA.logRel x hx1)
  have hg1' : (1 : ℝ) < (g : ℝ) := by
    have : (1 : ℚ) < g := lt_of_lt_of_le (by norm_num) hg1
    exact_mod_cast this
  have hgp : (0 : ℝ) < g := by linarith
  have hG : 0 < Real.log g := Real.log_pos hg1'
  have e2 := abs_le.mp (hA.logRel g hgo)
  have hd0 : (0 : ℝ) < (A.log g : ℝ) := by
    have : Real.log g / 2 ^ 40 < Real.log g := div_lt_self hG (by norm_num)
    linarith [e2.1]
  have hd0' : (0 : ℚ) < A.log g := by exact_mod_cast hd0
  have hn0 : (0 : ℝ) ≤ (A.log x : ℝ) := by
    have : Real.log x / 2 ^ 40 ≤ Real.log x := div_le_self hL0 (by norm_num)
    linarith [e1.1]
  have hn0' : (0 : ℚ) ≤ A.log x := by exact_mod_cast hn0
  have hq0 : 0 ≤ A.log x / A.log g := by positivity
  obtain ⟨q, hq⟩ : ∃ q, q = A.fl (A.log x / A.log g) := ⟨_, rfl⟩
  have hqn : 0 ≤ q := by rw [hq]; exact Dbl.fl_nonneg hA hq0
  have hn : numDsN A a = ⌈q⌉.toNat := by
    unfold numDsN
    rw [← hg, ← hx, ← hq]
  have hq1 : (1 - 1 / 2 ^ 53) * (A.log x : ℝ) ≤ q * A.log g := by
    have := Dbl.fl_ge hA hq0
    rw [← hq] at this
    have s := mul_le_mul_of_nonneg_right this hd0'.le
    have e : (1 - u53) * (A.log x / A.log g) * A.log g = (1 - 1 / 2 ^ 53) * A.log x := by
      unfold u53
      field_simp
    rw [e] at s
    have := (Rat.cast_le (K := ℝ)).mpr s
    push_cast at this
    exact this
  have hq2 : q * A.log g ≤ (1 + 1 / 2 ^ 53) * (A.log x : ℝ) := by
    have := Dbl.fl_le hA hq0
    rw [← hq] at this
    have s := mul_le_mul_of_nonneg_right this hd0'.le
    have e : (1 + u53) * (A.log x / A.log g) * A.log g = (1 + 1 / 2 ^ 53) * A.log x := by
      unfold u53
      field_simp
    rw [e] at s
    have := (Rat.cast_le (K := ℝ)).mpr s
    push_cast at this
    exact this
  have hqR : (0 : ℝ) ≤ q := by exact_mod_cast hqn
  -- in terms of the exact logarithms
  have l1 : (1 - 1 / 2 ^ 38) * Real.log x ≤ q * Real.log g := by
    have : q * (A.log g : ℝ) ≤ q * ((1 + 1 / 2 ^ 40) * Real.log g) :=
      mul_le_mul_of_nonneg_left (by linarith [e2.2]) hqR
    linarith [e1.1]
  have l2 : q * Real.log g ≤ (1 + 1 / 2 ^ 38) * Real.log x := by
    have : q * ((1 - 1 / 2 ^ 40) * Real.log g) ≤ q * (A.log g : ℝ) :=
      mul_le_mul_of_nonneg_left (by linarith [e2.1]) hqR
    linarith [e1.2]
  have hexp : ∀ k : ℕ, (g : ℝ) ^ k = Real.exp (k * Real.log g) := by
    intro k
    rw [Real.exp_nat_mul, Real.exp_log hgp]
  have hxe : (x : ℝ) = Real.exp (Real.log x) := (Real.exp_log (by linarith)).symm
  rw [← hg]
  constructor
  · have hc : (q : ℝ) ≤ (numDsN A a : ℝ) := by
      have h1 : q ≤ ((⌈q⌉ : ℤ) : ℚ) := Int.le_ceil q
      have h2 : (((⌈q⌉.toNat : ℕ) : ℤ) : ℚ) = ((⌈q⌉ : ℤ) : ℚ) := by rw [Int.toNat_of_nonneg (Int.ceil_nonneg hqn)]
      have h5 : q ≤ ((numDsN A a : ℕ) : ℚ) := by
        rw [hn]
        rw [← h2] at h1
        exact_mod_cast h1
      exact_mod_cast h5
    have h1 : Real.log x - 1 / 2 ^ 33 ≤ (numDsN A a : ℝ) * Real.log g := by
      have := mul_le_mul_of_nonneg_right hc hG.le
      have : 1 / 2 ^ 38 * Real.log x ≤ 1 / 2 ^ 33 := by linarith
      linarith
    have h2 : (x : ℝ) * (1 - 1 / 2 ^ 33) ≤ (g : ℝ) ^ numDsN A a := by
      rw [hexp]
      refine le_trans ?_ (Real.exp_le_exp.mpr h1)
      rw [sub_eq_add_neg (Real.log (x : ℝ)), Real.exp_add, ← hxe]
      apply mul_le_mul_of_nonneg_left _ (by linarith)
      have := Real.add_one_le_exp (-(1 / 2 ^ 33 : ℝ))
      linarith
    have h5 := mul_le_mul_of_nonneg_left h2 hpR.le
    have h6 := mul_le_mul_of_nonneg_right hxl (by norm_num : (0 : ℝ) ≤ 1 - 1 / 2 ^ 33)
    linarith
  · intro i hi
    have hc : (i : ℝ) ≤ q := by
      have h1 : i + 1 ≤ ⌈q⌉.toNat := by rw [← hn]; exact hi
      have h2 : ((i : ℤ)) < ⌈q⌉ := by omega
      have h5 := Int.lt_ceil.mp h2
      have h6 : (i : ℚ) ≤ q := by exact_mod_cast h5.le
      exact_mod_cast h6
    have h1 : (i : ℝ) * Real.log g ≤ Real.log x + 1 / 2 ^ 33 := by
      have := mul_le_mul_of_nonneg_right hc hG.le
      have : 1 / 2 ^ 38 * Real.log x ≤ 1 / 2 ^ 33 := by linarith
      linarith
    have h2 : (g : ℝ) ^ i ≤ x * (1 + 1 / 2 ^ 32) := by
      rw [hexp]
      refine (Real.exp_le_exp.mpr h1).trans ?_
      rw [Real.exp_add, ← hxe]
      apply mul_le_mul_of_nonneg_left _ (by linarith)
      have s1 := Real.add_one_le_exp (-(1 / 2 ^ 33 : ℝ))
      have s2 : Real.exp (-(1 / 2 ^ 33)) * Real.exp (1 / 2 ^ 33) = 1 := by rw [← Real.exp_add]; simp
      have s3 := Real.exp_pos (1 / 2 ^ 33)
      nlinarith
    have h5 := mul_le_mul_of_nonneg_left h2 hpR.le
    have h6 := mul_le_mul_of_nonneg_right hxu (by norm_num : (0 : ℝ) ≤ 1 + 1 / 2 ^ 32)
    linarith

/-- With two periods in the data, no stage is too short to be downsampled. -/
theorem d_factor_le (hN : a.size ≤ 2 ^ 25) (h2 : 2 * a.pmax ≤ a.size * a.tsamp) :
    a.pmax ≤ 2 ^ 25 * a.pmin ∧ ∀ i < numDsN A a, A.f a i ≤ a.size := by
  have hts := hr.valid.1
  have hpm := d_pmin_ge hA hr
  have hNq : (a.size : ℚ) ≤ 2 ^ 25 := by exact_mod_cast hN
  have hR : a.pmax ≤ 2 ^ 25 * a.pmin := by
    have := mul_le_mul_of_nonneg_right hNq hts.le
    have hx := d_pmax_pos hA hr
    linarith
  refine ⟨hR, ?_⟩
  intro i hi
  have h1 := (d_numDs_reach hA hr hR).2 i hi
  have hg := d_geo_one hA hr
  have hf := d_f_ge_one hA hr i
  have hb := d_bins_pos hA hr
  have hp := hr.valid.2.1
  have h1' : a.pmin * A.dsGeo a ^ i ≤ (1 + 1 / 2 ^ 31) * a.pmax := by
    rw [← Rat.cast_le (K := ℝ)]
    push_cast
    exact h1
  have h3 := (near_num (by norm_num) (by positivity) (by positivity) (d_stage_start hA hr i)).2
  have hx := d_pmax_pos hA hr
  have h4 : A.f a i * a.tsamp * 1 ≤ A.f a i * a.tsamp * a.bmin := mul_le_mul_of_nonneg_left (by linarith) (by positivity)
  have h5 : A.f a i * a.tsamp ≤ a.size * a.tsamp := by
    have := mul_le_mul_of_nonneg_left h1' (by norm_num : (0 : ℚ) ≤ 1 + 1 / 2 ^ 49)
    linarith
  exact le_of_mul_le_mul_right h5 hts

/-- The number of shifts before it is rounded up. -/
theorem d_shift_lower (hN : a.size ≤ 2 ^ 25) {i b : ℕ} (hb : 1 ≤ b) (h2 : 2 * b ≤ nN A a i) (hpm : (b : ℚ) ≤ A.pmaxSamples a i) :
    A.periodCeil a i b = min (A.pmaxSamples a i) (b + 1) ∧ (b : ℚ) * (((nN A a i / b : ℕ) : ℚ) - 1) ≤ 2 ^ 25 ∧
    (b : ℚ) * (((nN A a i / b : ℕ) : ℚ) - 1) * (1 - b / A.periodCeil a i b) - 1 / 2 ^ 26 ≤ shiftQ A a i b ∧
    ((b : ℚ) * (1 + 1 / 2 ^ 31) ≤ A.periodCeil a i b → 0 < shiftQ A a i b) := by
  have hns := d_n_le_size hA hr i
  have hm2 : 2 ≤ nN A a i / b := (Nat.le_div_iff_mul_le (by omega)).mpr h2
  have hmn : nN A a i / b ≤ nN A a i := Nat.div_le_self _ _
  have hmb : nN A a i / b * b ≤ nN A a i := Nat.div_mul_le_self _ _
  obtain ⟨m, hm⟩ : ∃ m, m = nN A a i / b := ⟨_, rfl⟩
  rw [← hm] at hm2 hmn hmb ⊢
  have e1 := hA.nat b (by omega)
  have e2 := hA.nat m (by omega)
  have e3 : A.fl ((m : ℚ) - 1) = (m : ℚ) - 1 := by
    have := hA.nat (m - 1) (by omega)
    rwa [Nat.cast_sub (by omega), Nat.cast_one] at this
  have e4 : A.fl ((b : ℚ) + 1) = b + 1 := by
    have := hA.nat (b + 1) (by omega)
    push_cast at this
    exact this
  have e5 : A.fl ((b : ℚ) * ((m : ℚ) - 1)) = b * (m - 1) := by
    have h : b * (m - 1) ≤ m * b := by rw [Nat.mul_comm]; exact Nat.mul_le_mul_right _ (by omega)
    have := hA.nat (b * (m - 1)) (by omega)
    rwa [Nat.cast_mul, Nat.cast_sub (by omega), Nat.cast_one] at this
  have epc : A.periodCeil a i b = min (A.pmaxSamples a i) (b + 1) := by
    unfold DArith.periodCeil
    rw [e1, e4]
  have hb0 : (1 : ℚ) ≤ b := by exact_mod_cast hb
  have hm0 : (2 : ℚ) ≤ m := by exact_mod_cast hm2
  have hz1 : (b : ℚ) * ((m : ℚ) - 1) ≤ 2 ^ 25 := by
    have h : ((m * b : ℕ) : ℚ) ≤ ((2 ^ 25 : ℕ) : ℚ) := by exact_mod_cast hmb.trans (hns.trans hN)
    push_cast at h
    linarith
  have hz0 : 0 < (b : ℚ) * ((m : ℚ) - 1) := by
    apply mul_pos <;> linarith
  have esq : shiftQ A a i b = A.fl ((b : ℚ) * ((m : ℚ) - 1) * A.fl (1 - A.fl ((b : ℚ) / A.periodCeil a i b))) := by
    unfold shiftQ
    rw [← hm, e1, e2, e3, e5]
  have hpc : (b : ℚ) ≤ A.periodCeil a i b := by rw [epc]; exact le_min hpm (by linarith)
  rw [esq]
  generalize A.periodCeil a i b = pc at *
  generalize (b : ℚ) * ((m : ℚ) - 1) = z at *
  have hpc0 : 0 < pc := by linarith
  have hr0 : (0 : ℚ) ≤ b / pc := by positivity
  have hr1 : (b : ℚ) / pc ≤ 1 := by rwa [div_le_one hpc0]
  have hf1 : A.fl ((b : ℚ) / pc) ≤ 1 := by
    have := Dbl.fl_le_nat hA (x := (b : ℚ) / pc) (n := 1) (by norm_num) hr0 (by rw [Nat.cast_one]; exact hr1)
    rwa [Nat.cast_one] at this
  have hf2 : A.fl ((b : ℚ) / pc) ≤ b / pc + 1 / 2 ^ 53 := by
    have := Dbl.fl_le hA hr0
    unfold u53 at this
    linarith
  have hf0 := Dbl.fl_nonneg hA hr0
  have hkey : b * (1 + 1 / 2 ^ 31) ≤ pc → (b : ℚ) / pc ≤ 1 - 1 / 2 ^ 32 := by
    intro h
    rw [div_le_iff₀ hpc0]
    linarith
  generalize (b : ℚ) / pc = r at *
  generalize A.fl r = R at *
  have hy1 := Dbl.fl_ge hA (x := 1 - R) (by linarith)
  have hy0 := Dbl.fl_nonneg hA (x := 1 - R) (by linarith)
  have hyp : b * (1 + 1 / 2 ^ 31) ≤ pc → 0 < A.fl (1 - R) := by
    intro h
    have := hkey h
    apply Dbl.fl_pos hA
    linarith
  unfold u53 at hy1
  have hy2 : 1 - r - 2 / 2 ^ 53 ≤ A.fl (1 - R) := by linarith
  have hy3 : A.fl (1 - R) ≤ 1 := by
    have := Dbl.fl_le_nat hA (x := 1 - R) (n := 1) (by norm_num) (by linarith) (by rw [Nat.cast_one]; linarith)
    rwa [Nat.cast_one] at this
  generalize A.fl (1 - R) = y at *
  refine ⟨epc, hz1, ?_, fun h => Dbl.fl_pos hA (mul_pos hz0 (hyp h))⟩
  have hq := Dbl.fl_ge hA (x := z * y) (by positivity)
  unfold u53 at hq
  have s1 : z * (1 - r - 2 / 2 ^ 53) ≤ z * y := mul_le_mul_of_nonneg_left hy2 hz0.le
  have s2 : z * y ≤ z * 1 := mul_le_mul_of_nonneg_left hy3 hz0.le
  linarith

/-- The fold of a stage that a period belongs to. -/
theorem d_fold_cover (hN : a.size ≤ 2 ^ 25) (h2 : 2 * a.pmax ≤ a.size * a.tsamp) {i : ℕ} {P : ℝ}
    (hlo : (A.f a i : ℝ) * a.tsamp * a.bmin ≤ P) (hhi : P < (A.f a i : ℝ) * a.tsamp * (a.bmax + 1) * (1 + 1 / 2 ^ 46))
    (hP2 : P ≤ (1 - 1 / 2 ^ 30) * a.pmax) :
    ∃ b, a.bmin ≤ b ∧ b ≤ bstopN A a i ∧ 2 * b ≤ nN A a i ∧ (b : ℝ) * ((A.f a i : ℝ) * a.tsamp) ≤ P ∧
      P < ((b : ℝ) + 1) * ((A.f a i : ℝ) * a.tsamp) * (1 + 1 / 2 ^ 46) ∧
      P * (1 + 1 / 2 ^ 31) ≤ (A.pmaxSamples a i : ℝ) * ((A.f a i : ℝ) * a.tsamp) := by
  have hts := hr.valid.1
  have hf := d_f_ge_one hA hr i
  have hbm := hr.valid.2.2.2.1
  have hbb := hr.valid.2.2.2.2.1
  have htau := d_tau_pos hA hr i
  have hpx := d_pmax_pos hA hr
  have hpxR : (0 : ℝ) < a.pmax := by exact_mod_cast hpx
  have hτq : 0 < A.f a i * a.tsamp := by positivity
  have hτ : (0 : ℝ) < (A.f a i : ℝ) * a.tsamp := by exact_mod_cast hτq
  have hP0 : 0 ≤ P := le_trans (by positivity) hlo
  have hpmsq : (1 - 1 / 2 ^ 51) * a.pmax ≤ A.pmaxSamples a i * (A.f a i * a.tsamp) := by
    have h1 := Dbl.fl_ge hA (x := a.pmax / A.tau a i) (by positivity)
    have h3 := mul_le_mul_of_nonneg_right h1 htau.le
    have e : (1 - u53) * (a.pmax / A.tau a i) * A.tau a i = (1 - u53) * a.pmax := by field_simp
    rw [e] at h3
    have h4 := Dbl.fl_le hA (x := A.f a i * a.tsamp) hτq.le
    change A.tau a i ≤ _ at h4
    have h5 := mul_le_mul_of_nonneg_left h4 (d_pms_pos hA hr i).le
    change _ ≤ A.pmaxSamples a i * A.tau a i at h3
    unfold u53 at h3 h5
    linarith
  have hpms : (1 - 1 / 2 ^ 51) * (a.pmax : ℝ) ≤ A.pmaxSamples a i * ((A.f a i : ℝ) * a.tsamp) := by
    have := (Rat.cast_le (K := ℝ)).mpr hpmsq
    push_cast at this
    exact this
  have hpmsP : P * (1 + 1 / 2 ^ 31) ≤ (A.pmaxSamples a i : ℝ) * ((A.f a i : ℝ) * a.tsamp) := by linarith
  refine ⟨min a.bmax ⌊P / ((A.f a i : ℝ) * a.tsamp)⌋₊, ?_, ?_⟩
  · refine le_min hbb (Nat.le_floor ?_)
    rw [le_div_iff₀ hτ]
    linarith
  obtain ⟨b, hb⟩ : ∃ b, b = min a.bmax ⌊P / ((A.f a i : ℝ) * a.tsamp)⌋₊ := ⟨_, rfl⟩
  rw [← hb]
  have hbP : (b : ℝ) * ((A.f a i : ℝ) * a.tsamp) ≤ P := by
    rw [← le_div_iff₀ hτ]
    refine le_trans ?_ (Nat.floor_le (by positivity))
    rw [hb]
    exact_mod_cast min_le_right _ _
  have h2b : 2 * b ≤ nN A a i := by
    apply Nat.le_floor
    rw [d_size hA hr]
    have h2R : 2 * (a.pmax : ℝ) ≤ a.size * a.tsamp := by exact_mod_cast h2
    have h3 : ((2 * b : ℕ) : ℝ) * ((A.f a i : ℝ) * a.tsamp) ≤ a.size * a.tsamp := by
      push_cast
      linarith
    have h4 : ((2 * b : ℕ) : ℚ) * A.f a i * a.tsamp ≤ a.size * a.tsamp := by
      rw [← Rat.cast_le (K := ℝ)]
      push_cast at h3 ⊢
      linarith
    have h5 := le_of_mul_le_mul_right h4 hts
    apply Dbl.fl_ge_nat hA
    · have h6 : ((2 * b : ℕ) : ℚ) ≤ a.size := by
        have : ((2 * b : ℕ) : ℚ) * 1 ≤ ((2 * b : ℕ) : ℚ) * A.f a i := mul_le_mul_of_nonneg_left hf (Nat.cast_nonneg _)
        linarith
      have : 2 * b ≤ a.size := by exact_mod_cast h6
      omega
    · rw [le_div_iff₀ (by linarith)]
      exact h5
  refine ⟨?_, h2b, hbP, ?_, hpmsP⟩
  · refine le_min (le_min (by rw [hb]; exact min_le_left _ _) (by omega)) (Nat.le_floor ?_)
    have h3 : (b : ℝ) * ((A.f a i : ℝ) * a.tsamp) ≤ (A.pmaxSamples a i : ℝ) * ((A.f a i : ℝ) * a.tsamp) := by linarith
    have h4 := le_of_mul_le_mul_right h3 hτ
    exact_mod_cast h4
  · rcases min_choice a.bmax ⌊P / ((A.f a i : ℝ) * a.tsamp)⌋₊ with h | h
    · rw [h] at hb
      rw [hb]
      linarith
    · rw [h] at hb
      have h3 := Nat.lt_floor_add_one (P / ((A.f a i : ℝ) * a.tsamp))
      rw [← hb, div_lt_iff₀ hτ] at h3
      have : (0 : ℝ) ≤ ((b : ℝ) + 1) * ((A.f a i : ℝ) * a.tsamp) := by positivity
      linarith

/-- The shift of a fold. -/
theorem d_shift_cover (hN : a.size ≤ 2 ^ 25) {i b : ℕ} {P : ℝ} (hb1 : a.bmin ≤ b) (hb2 : b ≤ bstopN A a i) (h2 : 2 * b ≤ nN A a i)
    (hbP : (b : ℝ) * ((A.f a i : ℝ) * a.tsamp) ≤ P) (hPb : P < ((b : ℝ) + 1) * ((A.f a i : ℝ) * a.tsamp) * (1 + 1 / 2 ^ 46))
    (hpm : P * (1 + 1 / 2 ^ 31) ≤ (A.pmaxSamples a i : ℝ) * ((A.f a i : ℝ) * a.tsamp)) :
    ∃ s < rowsEvalN A a i b, (s : ℝ) ≤ (((nN A a i / b : ℕ) : ℝ) - 1) * (b - b * b * ((A.f a i : ℝ) * a.tsamp) / P) ∧
      (((nN A a i / b : ℕ) : ℝ) - 1) * (b - b * b * ((A.f a i : ℝ) * a.tsamp) / P) ≤ s + 1 + 1 / 2 ^ 20 := by
  have hbm := hr.valid.2.2.2.1
  have hts := hr.valid.1
  have hf := d_f_ge_one hA hr i
  have hτq : 0 < A.f a i * a.tsamp := by positivity
  have hτ : (0 : ℝ) < (A.f a i : ℝ) * a.tsamp := by exact_mod_cast hτq
  have hb0 : (2 : ℝ) ≤ b := by exact_mod_cast (by omega : 2 ≤ b)
  have hP0 : 0 < P := lt_of_lt_of_le (by positivity) hbP
  have hpmq : (b : ℚ) ≤ A.pmaxSamples a i := (Nat.le_floor_iff (d_pms_pos hA hr i).le).mp (hb2.trans (min_le_right _ _))
  obtain ⟨k1, k2, k3, k4⟩ := d_shift_lower hA hr hN (by omega : 1 ≤ b) h2 hpmq
  have hm2 : 2 ≤ nN A a i / b := (Nat.le_div_iff_mul_le (by omega)).mpr h2
  have hns := d_n_le_size hA hr i
  have hb24 : (b : ℝ) ≤ 2 ^ 24 := by
    have : b ≤ 2 ^ 24 := by omega
    exact_mod_cast this
  -- the largest period of the fold, in samples
  have hpcR : (A.periodCeil a i b : ℝ) = min (A.pmaxSamples a i : ℝ) (b + 1) := by
    rw [k1]
    push_cast
    rfl
  have hpc1 : P ≤ (A.periodCeil a i b : ℝ) * ((A.f a i : ℝ) * a.tsamp) * (1 + 1 / 2 ^ 46) := by
    rw [hpcR]
    rcases min_choice (A.pmaxSamples a i : ℝ) ((b : ℝ) + 1) with h | h
    · rw [h]
      linarith
    · rw [h]
      exact hPb.le
  have hpc2 : (b : ℝ) * (1 + 1 / 2 ^ 31) ≤ (A.periodCeil a i b : ℝ) := by
    rw [hpcR]
    refine le_min ?_ (by linarith)
    have : (b : ℝ) * (1 + 1 / 2 ^ 31) * ((A.f a i : ℝ) * a.tsamp) ≤ (A.pmaxSamples a i : ℝ) * ((A.f a i : ℝ) * a.tsamp) := by
      have := mul_le_mul_of_nonneg_right hbP (by norm_num : (0 : ℝ) ≤ 1 + 1 / 2 ^ 31)
      linarith
    exact le_of_mul_le_mul_right this hτ
  have hpc3 : (A.periodCeil a i b : ℝ) ≤ b + 1 := by rw [hpcR]; exact min_le_right _ _
  have hQ : 0 < shiftQ A a i b := k4 (by
    rw [← Rat.cast_le (K := ℝ)]
    push_cast
    exact hpc2)
  have k3R : (b : ℝ) * (((nN A a i / b : ℕ) : ℝ) - 1) * (1 - b / A.periodCeil a i b) - 1 / 2 ^ 26 ≤ shiftQ A a i b := by
    have := (Rat.cast_le (K := ℝ)).mpr k3
    push_cast at this
    exact this
  have k2R : (b : ℝ) * (((nN A a i / b : ℕ) : ℝ) - 1) ≤ 2 ^ 25 := by
    have := (Rat.cast_le (K := ℝ)).mpr k2
    push_cast at this
    exact this
  have hrow : rowsEvalN A a i b = min (nN A a i / b) ⌈shiftQ A a i b⌉.toNat := rfl
  have hce : 1 ≤ ⌈shiftQ A a i b⌉ := Int.one_le_ceil_iff.mpr hQ
  have hceR : (shiftQ A a i b : ℝ) ≤ (⌈shiftQ A a i b⌉.toNat : ℝ) := by
    have h1 : shiftQ A a i b ≤ ((⌈shiftQ A a i b⌉ : ℤ) : ℚ) := Int.le_ceil _
    have h3 : (((⌈shiftQ A a i b⌉.toNat : ℕ) : ℤ) : ℚ) = ((⌈shiftQ A a i b⌉ : ℤ) : ℚ) := by rw [Int.toNat_of_nonneg (by omega)]
    rw [← h3] at h1
    have h5 : shiftQ A a i b ≤ ((⌈shiftQ A a i b⌉.toNat : ℕ) : ℚ) := by exact_mod_cast h1
    exact_mod_cast h5
  generalize shiftQ A a i b = Q at *
  generalize (A.periodCeil a i b : ℝ) = pc at *
  generalize nN A a i / b = m at *
  generalize (A.f a i : ℝ) * a.tsamp = τ at *
  have hmR : (2 : ℝ) ≤ m := by exact_mod_cast hm2
  have hpc0 : 0 < pc := by linarith
  have hz0 : 0 ≤ (b : ℝ) * ((m : ℝ) - 1) := mul_nonneg (by linarith) (by linarith)
  have ed : ((m : ℝ) - 1) * (b - b * b * τ / P) = b * (m - 1) * (1 - b * τ / P) := by ring
  rw [ed]
  have hfrac : b / pc - 1 / 2 ^ 46 ≤ b * τ / P := by
    have h1 : b / pc * P ≤ b * τ * (1 + 1 / 2 ^ 46) := by
      have := mul_le_mul_of_nonneg_left hpc1 (by positivity : (0 : ℝ) ≤ b / pc)
      have e : b / pc * (pc * τ * (1 + 1 / 2 ^ 46)) = b * τ * (1 + 1 / 2 ^ 46) := by field_simp
      linarith
    rw [le_div_iff₀ hP0]
    linarith
  have hfrac1 : b * τ / P ≤ 1 := (div_le_one hP0).mpr hbP
  have hup : b * ((m : ℝ) - 1) * (1 - b * τ / P) ≤ b * (m - 1) * (1 - b / pc) + 1 / 2 ^ 21 := by
    have h1 := mul_le_mul_of_nonneg_left (by linarith : 1 - b * τ / P ≤ 1 - b / pc + 1 / 2 ^ 46) hz0
    linarith
  have hm1 : b * ((m : ℝ) - 1) * (1 - b / pc) ≤ m - 1 := by
    have h1 : b / ((b : ℝ) + 1) ≤ b / pc := div_le_div_of_nonneg_left (by linarith) hpc0 hpc3
    have h3 := mul_le_mul_of_nonneg_left (by linarith : 1 - b / pc ≤ 1 - b / ((b : ℝ) + 1)) hz0
    have h4 : 1 - b / ((b : ℝ) + 1) = 1 / (b + 1) := by field_simp; ring
    have h5 : b * ((m : ℝ) - 1) * (1 / (b + 1)) ≤ m - 1 := by
      rw [mul_one_div, div_le_iff₀ (by linarith)]
      nlinarith
    rw [h4] at h3
    linarith
  have hX0 : 0 ≤ b * ((m : ℝ) - 1) * (1 - b * τ / P) := mul_nonneg hz0 (by linarith)
  generalize b * ((m : ℝ) - 1) * (1 - b * τ / P) = X at *
  generalize b * ((m : ℝ) - 1) * (1 - b / pc) = Y at *
  have hre : 1 ≤ rowsEvalN A a i b := by
    rw [hrow]
    exact le_min (by omega) (by omega)
  have hfl := Nat.lt_floor_add_one X
  have hfl2 := Nat.floor_le hX0
  refine ⟨min ⌊X⌋₊ (rowsEvalN A a i b - 1), ?_, ?_, ?_⟩
  · have := min_le_right ⌊X⌋₊ (rowsEvalN A a i b - 1)
    omega
  · refine le_trans ?_ hfl2
    exact_mod_cast min_le_left _ _
  · rcases min_choice ⌊X⌋₊ (rowsEvalN A a i b - 1) with h | h
    · rw [h]
      linarith
    · rw [h, Nat.cast_sub hre, Nat.cast_one]
      rcases min_choice m ⌈Q⌉.toNat with h' | h'
      · rw [hrow, h']
        linarith
      · rw [hrow, h']
        linarith

/-- The trials leave no holes: for every period of the range there is a trial of which the drift over the rows is at most one bin, up to rounding. -/
theorem d_cover (hN : a.size ≤ 2 ^ 25) (h2 : 2 * a.pmax ≤ a.size * a.tsamp) {P : ℝ} (hP1 : (1 + 1 / 2 ^ 48) * a.pmin ≤ P)
    (hP2 : P ≤ (1 - 1 / 2 ^ 30) * a.pmax) :
    ∃ i b s, (i, b, s) ∈ dTrials A a ∧ (b : ℝ) * ((A.f a i : ℝ) * a.tsamp) ≤ P ∧
      P < ((b : ℝ) + 1) * ((A.f a i : ℝ) * a.tsamp) * (1 + 1 / 2 ^ 46) ∧
      (s : ℝ) ≤ (((nN A a i / b : ℕ) : ℝ) - 1) * (b - b * b * ((A.f a i : ℝ) * a.tsamp) / P) ∧
      (((nN A a i / b : ℕ) : ℝ) - 1) * (b - b * b * ((A.f a i : ℝ) * a.tsamp) / P) ≤ s + 1 + 1 / 2 ^ 20 := by
  have hp := hr.valid.2.1
  have hpR : (0 : ℝ) < a.pmin := by exact_mod_cast hp
  have hts := hr.valid.1
  have hR := (d_factor_le hA hr hN h2).1
  obtain ⟨r1, r2⟩ := d_numDs_reach hA hr hR
  have hg := d_geo_one hA hr
  have hgR : (1 : ℝ) ≤ A.dsGeo a := by exact_mod_cast hg
  have hbm := d_bins_pos hA hr
  have hbmR : (2 : ℝ) ≤ a.bmin := by exact_mod_cast hr.valid.2.2.2.1
  have hst : ∀ i, (1 - 1 / 2 ^ 49) * ((a.pmin : ℝ) * (A.dsGeo a : ℝ) ^ i) ≤ (A.f a i : ℝ) * a.tsamp * a.bmin ∧
      (A.f a i : ℝ) * a.tsamp * a.bmin ≤ (1 + 1 / 2 ^ 49) * (a.pmin * (A.dsGeo a : ℝ) ^ i) := by
    intro i
    have hf := d_f_ge_one hA hr i
    obtain ⟨s1, s2⟩ := near_num (by norm_num) (by positivity) (by positivity) (d_stage_start hA hr i)
    have t1 := (Rat.cast_le (K := ℝ)).mpr s1
    have t2 := (Rat.cast_le (K := ℝ)).mpr s2
    push_cast at t1 t2
    exact ⟨t1, t2⟩
  have hgeo : (A.dsGeo a : ℝ) * a.bmin ≤ (1 + 1 / 2 ^ 49) * (a.bmax + 1) := by
    obtain ⟨_, s2⟩ := near_num (by norm_num) (by linarith) (by positivity) (near_geo hA hr)
    have s3 := mul_le_mul_of_nonneg_right s2 (by linarith : (0 : ℚ) ≤ a.bmin)
    have e : (1 + 1 / 2 ^ 49 : ℚ) * (((a.bmax : ℚ) + 1) / a.bmin) * a.bmin = (1 + 1 / 2 ^ 49) * (a.bmax + 1) := by
      field_simp
    rw [e] at s3
    have t2 := (Rat.cast_le (K := ℝ)).mpr s3
    push_cast at t2
    exact t2
  have hn : 0 < numDsN A a := by
    by_contra hc
    have h0 : numDsN A a = 0 := by omega
    rw [h0, pow_zero, mul_one] at r1
    have : (0 : ℝ) < a.pmax := by exact_mod_cast d_pmax_pos hA hr
    linarith
  -- the stage
  obtain ⟨i, hi, hlo, hup⟩ : ∃ i < numDsN A a, (A.f a i : ℝ) * a.tsamp * a.bmin ≤ P ∧
      P < (1 + 1 / 2 ^ 49) * (a.pmin * (A.dsGeo a : ℝ) ^ (i + 1)) := by
    have h0 : (A.f a 0 : ℝ) * a.tsamp * a.bmin ≤ P := by
      have := (hst 0).2
      rw [pow_zero, mul_one] at this
      linarith
    by_contra hc
    push Not at hc
    have hall : ∀ i < numDsN A a, (A.f a i : ℝ) * a.tsamp * a.bmin ≤ P := by
      intro i
      induction i with
      | zero => exact fun _ => h0
      | succ j ih =>
        intro hj
        exact (hst (j + 1)).2.trans (hc j (by omega) (ih (by omega)))
    have h1 := hc (numDsN A a - 1) (by omega) (hall _ (by omega))
    rw [Nat.sub_add_cancel hn] at h1
    have : (0 : ℝ) < a.pmax := by exact_mod_cast d_pmax_pos hA hr
    linarith
  have hhi : P < (A.f a i : ℝ) * a.tsamp * (a.bmax + 1) * (1 + 1 / 2 ^ 46) := by
    have h1 := (hst i).1
    rw [pow_succ (A.dsGeo a : ℝ)] at hup
    have hf : (1 : ℝ) ≤ A.f a i := by exact_mod_cast d_f_ge_one hA hr i
    have htsR : (0 : ℝ) < a.tsamp := by exact_mod_cast hts
    have hG0 : (0 : ℝ) ≤ A.dsGeo a := by linarith
    have h3 := mul_le_mul_of_nonneg_right h1 hG0
    have h4 := mul_le_mul_of_nonneg_left hgeo (by positivity : (0 : ℝ) ≤ (A.f a i : ℝ) * a.tsamp)
    have h5 : 0 < (a.pmin : ℝ) * (A.dsGeo a : ℝ) ^ i * A.dsGeo a := by positivity
    have h6 : (0 : ℝ) < (A.f a i : ℝ) * a.tsamp * (a.bmax + 1) := by positivity
    have e1 : (A.f a i : ℝ) * a.tsamp * a.bmin * A.dsGeo a = A.f a i * a.tsamp * (A.dsGeo a * a.bmin) := by ring
    rw [e1] at h3
    have e2 : (1 - 1 / 2 ^ 49) * ((a.pmin : ℝ) * (A.dsGeo a : ℝ) ^ i) * A.dsGeo a =
        (1 - 1 / 2 ^ 49) * (a.pmin * (A.dsGeo a : ℝ) ^ i * A.dsGeo a) := by ring
    have e3 : (1 + 1 / 2 ^ 49) * ((a.pmin : ℝ) * ((A.dsGeo a : ℝ) ^ i * A.dsGeo a)) =
        (1 + 1 / 2 ^ 49) * (a.pmin * (A.dsGeo a : ℝ) ^ i * A.dsGeo a) := by ring
    rw [e2] at h3
    rw [e3] at hup
    linarith
  obtain ⟨b, b1, b2, b3, b4, b5, b6⟩ := d_fold_cover hA hr hN h2 hlo hhi hP2
  obtain ⟨s, s1, s2, s3⟩ := d_shift_cover hA hr hN b1 b2 b3 b4 b5 b6
  exact ⟨i, b, s, mem_dTrials.mpr ⟨hi, b1, b2, s1⟩, b4, b5, s2, s3⟩

end

end Verif.Lemmas
