import Verif.Lemmas.SearchF

/-! # Double precision search: error analysis of the trial periods -/

namespace Verif.Lemmas

open Verif.Model Verif.Spec

/-- `x` and `y` agree up to `k` roundings. -/
def Near (k : ℕ) (x y : ℚ) : Prop := y * (1 - u53) ^ k ≤ x ∧ x * (1 - u53) ^ k ≤ y

theorem c_pos (k : ℕ) : (0 : ℚ) < (1 - u53) ^ k := by
  have : (0 : ℚ) < 1 - u53 := by norm_num [u53]
  positivity

theorem c_le_one (k : ℕ) : ((1 : ℚ) - u53) ^ k ≤ 1 :=
  pow_le_one₀ (by norm_num [u53]) (by norm_num [u53])

theorem c_anti {j k : ℕ} (h : j ≤ k) : ((1 : ℚ) - u53) ^ k ≤ (1 - u53) ^ j :=
  pow_le_pow_of_le_one (by norm_num [u53]) (by norm_num [u53]) h

theorem Near.symm {k : ℕ} {x y : ℚ} (h : Near k x y) : Near k y x := ⟨h.2, h.1⟩

theorem Near.trans {j k : ℕ} {x y z : ℚ} (h1 : Near j x y) (h2 : Near k y z) : Near (j + k) x z := by
  have hj := c_pos j
  have hk := c_pos k
  constructor
  · rw [pow_add]
    have := mul_le_mul_of_nonneg_right h2.1 hj.le
    nlinarith [h1.1]
  · rw [pow_add]
    have := mul_le_mul_of_nonneg_right h1.2 hk.le
    nlinarith [h2.2]

theorem Near.mono {j k : ℕ} (h : j ≤ k) {x y : ℚ} (hx : 0 ≤ x) (hy : 0 ≤ y) (n : Near j x y) : Near k x y := by
  have := c_anti h
  exact ⟨(mul_le_mul_of_nonneg_left this hy).trans n.1, (mul_le_mul_of_nonneg_left this hx).trans n.2⟩

theorem Near.mul {j k : ℕ} {x y x' y' : ℚ} (hx : 0 ≤ x) (hy : 0 ≤ y) (hx' : 0 ≤ x') (hy' : 0 ≤ y') (h1 : Near j x y)
    (h2 : Near k x' y') : Near (j + k) (x * x') (y * y') := by
  have hj := c_pos j
  have hk := c_pos k
  constructor
  · rw [pow_add, show y * y' * ((1 - u53) ^ j * (1 - u53) ^ k) = (y * (1 - u53) ^ j) * (y' * (1 - u53) ^ k) by ring]
    exact mul_le_mul h1.1 h2.1 (by positivity) hx
  · rw [pow_add, show x * x' * ((1 - u53) ^ j * (1 - u53) ^ k) = (x * (1 - u53) ^ j) * (x' * (1 - u53) ^ k) by ring]
    exact mul_le_mul h1.2 h2.2 (by positivity) hy

theorem Near.inv {k : ℕ} {x y : ℚ} (hx : 0 < x) (hy : 0 < y) (h : Near k x y) : Near k x⁻¹ y⁻¹ := by
  have hk := c_pos k
  constructor
  · rw [inv_mul_eq_div, div_le_iff₀ hy, inv_mul_eq_div, le_div_iff₀ hx, mul_comm]
    exact h.2
  · rw [inv_mul_eq_div, div_le_iff₀ hx, inv_mul_eq_div, le_div_iff₀ hy, mul_comm]
    exact h.1

theorem Near.div {j k : ℕ} {x y x' y' : ℚ} (hx : 0 ≤ x) (hy : 0 ≤ y) (hx' : 0 < x') (hy' : 0 < y') (h1 : Near j x y)
    (h2 : Near k x' y') : Near (j + k) (x / x') (y / y') := by
  rw [div_eq_mul_inv, div_eq_mul_inv]
  exact h1.mul hx hy (by positivity) (by positivity) (h2.inv hx' hy')

theorem near_refl (x : ℚ) : Near 0 x x := by constructor <;> simp

section

set_option linter.unusedSectionVars false

variable {A : DArith} (hA : Sane A)
include hA

theorem near_fl {x : ℚ} (h : 0 ≤ x) : Near 1 (A.fl x) x := by
  have h1 := Dbl.fl_le hA h
  have h2 := Dbl.fl_ge hA h
  constructor
  · rw [pow_one]; linarith
  · rw [pow_one]
    have hu : (0 : ℚ) ≤ 1 - u53 := by norm_num [u53]
    have h3 := mul_le_mul_of_nonneg_right h1 hu
    have h4 : (1 + u53) * x * (1 - u53) ≤ x := by nlinarith [sq_nonneg u53]
    linarith

theorem near_pow {x : ℚ} (hx : 1 ≤ x) (k : ℕ) : Near 3 (A.pow x k) (x ^ k) := by
  have h := abs_le.mp (hA.powRel x k hx)
  have hp : 0 ≤ x ^ k := by positivity
  have e1 : ((1 : ℚ) - u53) ^ 3 ≤ 1 - 2 * u53 := by norm_num [u53]
  have e2 : (1 + 2 * u53) * ((1 : ℚ) - u53) ^ 3 ≤ 1 := by norm_num [u53]
  constructor
  · have := mul_le_mul_of_nonneg_left e1 hp
    nlinarith [h.1]
  · have h1 : A.pow x k ≤ (1 + 2 * u53) * x ^ k := by linarith [h.2]
    have h2 := mul_le_mul_of_nonneg_right h1 (c_pos 3).le
    have h3 := mul_le_mul_of_nonneg_left e2 hp
    nlinarith

variable {a : DArgs} (hr : InRange A a)
include hr

theorem d_f_pos (i : ℕ) : 0 < A.f a i := by
  have := d_f_ge_one hA hr i
  linarith

theorem near_tau (i : ℕ) : Near 1 (A.tau a i) (A.f a i * a.tsamp) :=
  near_fl hA (by have := d_f_pos hA hr i; have := hr.valid.1; positivity)

/-- The sampling time of a later stage times the smallest number of bins is, up to rounding, at least the end of the
range of an earlier stage. -/
theorem d_tau_step {i j : ℕ} (h : i < j) :
    A.tau a i * (a.bmax + 1) * (1 - u53) ^ 11 ≤ A.tau a j * a.bmin := by
  have hb : (0 : ℚ) < a.bmin := by have := d_bins_pos hA hr; linarith
  have hg := d_geo_one hA hr
  have hini := d_dsIni_ge hA hr
  have hts := hr.valid.1
  have hpi := hA.powOne _ i hg
  have hpj := hA.powOne _ j hg
  -- the growth factor
  have eg : Near 1 (A.dsGeo a) (((a.bmax : ℚ) + 1) / a.bmin) := by
    unfold DArith.dsGeo
    rw [hA.nat _ ((d_bmin hA hr).trans (by norm_num)), hA.nat _ (hr.bins.trans (by norm_num))]
    have e : A.fl ((a.bmax : ℚ) + 1) = a.bmax + 1 := by
      have := hA.nat (a.bmax + 1) (by have := hr.bins; omega)
      push_cast at this
      exact this
    rw [e]
    exact near_fl hA (by positivity)
  set g := A.dsGeo a with hgdef
  have ei := near_pow hA hg i
  have ej := near_pow hA hg j
  have hgp : g ^ i * g ≤ g ^ j := by
    rw [← pow_succ]
    exact pow_le_pow_right₀ hg h
  have hgi : 0 < g ^ i := by positivity
  -- pow j ≥ pow i * G (1-u)^7
  have h1 : A.pow g i * (((a.bmax : ℚ) + 1) / a.bmin) * (1 - u53) ^ 7 ≤ A.pow g j := by
    have s1 := (ei.mul (by linarith) hgi.le (by linarith) (by positivity) eg.symm.symm)
    have s2 : A.pow g i * g * (1 - u53) ^ 3 ≤ g ^ i * g := by
      have := mul_le_mul_of_nonneg_right ei.2 (by linarith : (0 : ℚ) ≤ g)
      nlinarith
    have s3 : A.pow g i * (((a.bmax : ℚ) + 1) / a.bmin) * (1 - u53) ^ 1 ≤ A.pow g i * g := by
      rw [mul_assoc]
      exact mul_le_mul_of_nonneg_left eg.1 (by linarith)
    have s4 : A.pow g i * (((a.bmax : ℚ) + 1) / a.bmin) * (1 - u53) ^ 4 ≤ g ^ j := by
      calc A.pow g i * (((a.bmax : ℚ) + 1) / a.bmin) * (1 - u53) ^ 4
          = A.pow g i * (((a.bmax : ℚ) + 1) / a.bmin) * (1 - u53) ^ 1 * (1 - u53) ^ 3 := by ring
        _ ≤ A.pow g i * g * (1 - u53) ^ 3 := mul_le_mul_of_nonneg_right s3 (c_pos 3).le
        _ ≤ g ^ i * g := s2
        _ ≤ g ^ j := hgp
    calc A.pow g i * (((a.bmax : ℚ) + 1) / a.bmin) * (1 - u53) ^ 7
        = A.pow g i * (((a.bmax : ℚ) + 1) / a.bmin) * (1 - u53) ^ 4 * (1 - u53) ^ 3 := by ring
      _ ≤ g ^ j * (1 - u53) ^ 3 := mul_le_mul_of_nonneg_right s4 (c_pos 3).le
      _ ≤ A.pow g j := ej.1
  -- the factors
  have fi : Near 1 (A.f a i) (A.dsIni a * A.pow g i) := near_fl hA (by positivity)
  have fj : Near 1 (A.f a j) (A.dsIni a * A.pow g j) := near_fl hA (by positivity)
  have ti := near_tau hA hr i
  have tj := near_tau hA hr j
  have hG : (0 : ℚ) < ((a.bmax : ℚ) + 1) / a.bmin := by positivity
  have h2 : A.tau a i * (1 - u53) ^ 2 ≤ A.dsIni a * A.pow g i * a.tsamp := by
    calc A.tau a i * (1 - u53) ^ 2 = A.tau a i * (1 - u53) ^ 1 * (1 - u53) ^ 1 := by ring
      _ ≤ A.f a i * a.tsamp * (1 - u53) ^ 1 := mul_le_mul_of_nonneg_right ti.2 (c_pos 1).le
      _ = A.f a i * (1 - u53) ^ 1 * a.tsamp := by ring
      _ ≤ _ := mul_le_mul_of_nonneg_right fi.2 hts.le
  have h3 : A.dsIni a * A.pow g j * a.tsamp * (1 - u53) ^ 2 ≤ A.tau a j := by
    calc A.dsIni a * A.pow g j * a.tsamp * (1 - u53) ^ 2
        = A.dsIni a * A.pow g j * (1 - u53) ^ 1 * (a.tsamp * (1 - u53) ^ 1) := by ring
      _ ≤ A.f a j * (a.tsamp * (1 - u53) ^ 1) :=
          mul_le_mul_of_nonneg_right fj.1 (mul_nonneg hts.le (c_pos 1).le)
      _ = A.f a j * a.tsamp * (1 - u53) ^ 1 := by ring
      _ ≤ _ := tj.1
  have e5 : (a.bmax : ℚ) + 1 = ((a.bmax : ℚ) + 1) / a.bmin * a.bmin := by field_simp
  calc A.tau a i * (a.bmax + 1) * (1 - u53) ^ 11
      = A.tau a i * (1 - u53) ^ 2 * (((a.bmax : ℚ) + 1) * (1 - u53) ^ 9) := by ring
    _ ≤ A.dsIni a * A.pow g i * a.tsamp * (((a.bmax : ℚ) + 1) * (1 - u53) ^ 9) :=
        mul_le_mul_of_nonneg_right h2 (mul_nonneg (by positivity) (c_pos 9).le)
    _ = A.pow g i * (((a.bmax : ℚ) + 1) / a.bmin) * (1 - u53) ^ 7 *
          (A.dsIni a * a.tsamp * (1 - u53) ^ 2 * a.bmin) := by
        conv_lhs => rw [e5]
        ring
    _ ≤ A.pow g j * (A.dsIni a * a.tsamp * (1 - u53) ^ 2 * a.bmin) := by
        apply mul_le_mul_of_nonneg_right h1
        have := c_pos 2
        positivity
    _ = A.dsIni a * A.pow g j * a.tsamp * (1 - u53) ^ 2 * a.bmin := by ring
    _ ≤ A.tau a j * a.bmin := mul_le_mul_of_nonneg_right h3 hb.le

/-- The first sampling time times the smallest number of bins is the minimum period up to rounding. -/
theorem d_tau_pmin (i : ℕ) : a.pmin * (1 - u53) ^ 3 ≤ A.tau a i * a.bmin := by
  have hb : (0 : ℚ) < a.bmin := by have := d_bins_pos hA hr; linarith
  have hts := hr.valid.1
  have hp := hr.valid.2.1
  have e0 : Near 1 (A.fl (a.tsamp * A.fl a.bmin)) (a.tsamp * a.bmin) := by
    rw [hA.nat _ ((d_bmin hA hr).trans (by norm_num))]
    exact near_fl hA (by positivity)
  have hden := d_denom_pos hA hr
  have e1 : Near 2 (A.dsIni a) (a.pmin / (a.tsamp * a.bmin)) := by
    have h1 : Near 1 (A.dsIni a) (a.pmin / A.fl (a.tsamp * A.fl a.bmin)) := near_fl hA (by positivity)
    have h2 := (near_refl a.pmin).div hp.le hp.le hden (by positivity : 0 < a.tsamp * (a.bmin : ℚ)) e0
    exact h1.trans h2
  have h3 := d_f_ge hA hr i
  have h4 := near_tau hA hr i
  have h5 : a.pmin / (a.tsamp * a.bmin) * (1 - u53) ^ 2 ≤ A.f a i := e1.1.trans h3
  have e6 : a.pmin = a.pmin / (a.tsamp * a.bmin) * (a.tsamp * a.bmin) := by field_simp
  calc a.pmin * (1 - u53) ^ 3
      = a.pmin / (a.tsamp * a.bmin) * (1 - u53) ^ 2 * (a.tsamp * (1 - u53) ^ 1 * a.bmin) := by
        conv_lhs => rw [e6]
        ring
    _ ≤ A.f a i * (a.tsamp * (1 - u53) ^ 1 * a.bmin) := by
        apply mul_le_mul_of_nonneg_right h5
        have := c_pos 1
        positivity
    _ = A.f a i * a.tsamp * (1 - u53) ^ 1 * a.bmin := by ring
    _ ≤ _ := mul_le_mul_of_nonneg_right h4.1 hb.le

/-- Facts about a trial of the search. -/
theorem d_trial {i b s : ℕ} (hb1 : a.bmin ≤ b) (hb2 : b ≤ bstopN A a i) (hs : s < rowsEvalN A a i b) :
    2 ≤ nN A a i / b ∧ s ≤ nN A a i / b - 1 ∧ nN A a i / b ≤ 2 ^ 50 ∧ b ≤ 2 ^ 50 ∧ (s : ℚ) < shiftQ A a i b ∧
      (b : ℚ) * (((nN A a i / b : ℕ) : ℚ) - 1) = A.fl (A.fl b * A.fl (A.fl (nN A a i / b : ℕ) - 1)) := by
  have hbm := hr.valid.2.2.2.1
  have hbn : b ≤ nN A a i := hb2.trans ((min_le_left _ _).trans (min_le_right _ _))
  have hns := d_n_le_size hA hr i
  have hsz := hr.size
  have hr1 : 1 ≤ nN A a i / b := (Nat.one_le_div_iff (by omega)).mpr hbn
  have hr2 : nN A a i / b ≤ nN A a i := Nat.div_le_self _ _
  have hmul : nN A a i / b * b ≤ nN A a i := Nat.div_mul_le_self _ _
  have e1 := hA.nat b (by omega)
  have e2 := hA.nat (nN A a i / b) (by omega)
  have e3 : A.fl (((nN A a i / b : ℕ) : ℚ) - 1) = ((nN A a i / b : ℕ) : ℚ) - 1 := by
    have := hA.nat (nN A a i / b - 1) (by omega)
    rwa [Nat.cast_sub hr1, Nat.cast_one] at this
  have e4 : A.fl ((b : ℚ) * (((nN A a i / b : ℕ) : ℚ) - 1)) = (b : ℚ) * (((nN A a i / b : ℕ) : ℚ) - 1) := by
    have hle : b * (nN A a i / b - 1) ≤ 2 ^ 53 := by
      have : b * (nN A a i / b - 1) ≤ b * (nN A a i / b) := Nat.mul_le_mul_left _ (by omega)
      rw [Nat.mul_comm b (nN A a i / b)] at this
      omega
    have := hA.nat _ hle
    rwa [Nat.cast_mul, Nat.cast_sub hr1, Nat.cast_one] at this
  have hsr : s < nN A a i / b := lt_of_lt_of_le hs (min_le_left _ _)
  have hsc : s < ⌈shiftQ A a i b⌉.toNat := lt_of_lt_of_le hs (min_le_right _ _)
  have hslt : (s : ℚ) < shiftQ A a i b := by
    have : (s : ℤ) < ⌈shiftQ A a i b⌉ := by omega
    have := Int.lt_ceil.mp this
    exact_mod_cast this
  refine ⟨?_, by omega, by omega, by omega, hslt, by rw [e1, e2, e3, e4]⟩
  -- at least two rows
  by_contra hc
  have h1 : nN A a i / b = 1 := by omega
  unfold shiftQ at hslt
  rw [e1, e2, e3, e4, h1] at hslt
  have h0 := Dbl.fl_zero hA
  simp only [Nat.cast_one, sub_self, mul_zero, zero_mul, h0] at hslt
  have : (0 : ℚ) ≤ s := Nat.cast_nonneg s
  linarith

/-- Exact value of the expression for the trial period. -/
def exactLabel (tau : ℚ) (b rows s : ℕ) : ℚ := tau * b * b / (b - s / ((rows : ℚ) - 1))

theorem d_label_near {i b s : ℕ} (hb1 : a.bmin ≤ b) (hb2 : b ≤ bstopN A a i) (hs : s < rowsEvalN A a i b) :
    Near 5 (dPer A a (i, b, s)) (exactLabel (A.tau a i) b (nN A a i / b) s) ∧
      1 ≤ (b : ℚ) - s / (((nN A a i / b : ℕ) : ℚ) - 1) ∧ (0 : ℚ) ≤ s / (((nN A a i / b : ℕ) : ℚ) - 1) := by
  obtain ⟨h2, hsR, hR50, hb50, _, _⟩ := d_trial hA hr hb1 hb2 hs
  have hbm := hr.valid.2.2.2.1
  have ht := d_tau_pos hA hr i
  unfold dPer DArith.label exactLabel
  simp only
  generalize nN A a i / b = rows at *
  have e1 := hA.nat b (by omega)
  have e2 := hA.nat rows (by omega)
  have e3 : A.fl ((rows : ℚ) - 1) = (rows : ℚ) - 1 := by
    have := hA.nat (rows - 1) (by omega)
    rwa [Nat.cast_sub (by omega), Nat.cast_one] at this
  have e4 := hA.nat s (by omega)
  rw [e1, e2, e3, e4]
  have hR : (1 : ℚ) ≤ (rows : ℚ) - 1 := by
    have : (2 : ℚ) ≤ rows := by exact_mod_cast h2
    linarith
  have hb : (2 : ℚ) ≤ b := by exact_mod_cast (by omega : 2 ≤ b)
  have hsq : (s : ℚ) ≤ (rows : ℚ) - 1 := by
    have : ((s : ℕ) : ℚ) ≤ ((rows - 1 : ℕ) : ℚ) := by exact_mod_cast hsR
    rwa [Nat.cast_sub (by omega), Nat.cast_one] at this
  have hx0 : (0 : ℚ) ≤ s / ((rows : ℚ) - 1) := by positivity
  have hx1 : (s : ℚ) / ((rows : ℚ) - 1) ≤ 1 := by rw [div_le_one (by linarith)]; exact hsq
  generalize (s : ℚ) / ((rows : ℚ) - 1) = x at *
  have hD : 1 ≤ (b : ℚ) - x := by linarith
  have hfx := near_fl hA hx0
  have hfx1 := Dbl.fl_le hA hx0
  have hfx2 := Dbl.fl_ge hA hx0
  have hfx3 : A.fl x ≤ 1 := by
    have := Dbl.fl_le_nat hA (x := x) (n := 1) (by norm_num) hx0 (by rw [Nat.cast_one]; exact hx1)
    rwa [Nat.cast_one] at this
  have hD' : 1 ≤ (b : ℚ) - A.fl x := by linarith
  have hu := u53_pos
  have nD : Near 1 ((b : ℚ) - A.fl x) ((b : ℚ) - x) := by
    constructor
    · rw [pow_one]
      nlinarith
    · rw [pow_one]
      have h3 : (b : ℚ) - A.fl x ≤ ((b : ℚ) - x) * (1 + u53) := by nlinarith
      have h4 : (0 : ℚ) ≤ 1 - u53 := by norm_num [u53]
      have h5 := mul_le_mul_of_nonneg_right h3 h4
      have h6 : ((b : ℚ) - x) * (1 + u53) * (1 - u53) ≤ (b : ℚ) - x := by
        have : ((b : ℚ) - x) * (1 + u53) * (1 - u53) = ((b : ℚ) - x) - ((b : ℚ) - x) * u53 ^ 2 := by ring
        have h7 : 0 ≤ ((b : ℚ) - x) * u53 ^ 2 := mul_nonneg (by linarith) (sq_nonneg _)
        linarith
      linarith
  have nfD : Near 2 (A.fl ((b : ℚ) - A.fl x)) ((b : ℚ) - x) := (near_fl hA (by linarith)).trans nD
  have hfD : 0 < A.fl ((b : ℚ) - A.fl x) := Dbl.fl_pos hA (by linarith)
  have hn1 : Near 1 (A.fl (A.tau a i * b)) (A.tau a i * b) := near_fl hA (by positivity)
  have hp1 : 0 < A.fl (A.tau a i * b) := Dbl.fl_pos hA (by positivity)
  have hn2 : Near 2 (A.fl (A.fl (A.tau a i * b) * b)) (A.tau a i * b * b) := by
    have h3 : Near 1 (A.fl (A.fl (A.tau a i * b) * b)) (A.fl (A.tau a i * b) * b) := near_fl hA (by positivity)
    have h4 := hn1.mul hp1.le (by positivity) (by positivity : (0 : ℚ) ≤ b) (by positivity) (near_refl (b : ℚ))
    exact h3.trans h4
  have hp2 : 0 < A.fl (A.fl (A.tau a i * b) * b) := Dbl.fl_pos hA (by positivity)
  have h5 := hn2.div hp2.le (by positivity) hfD (by linarith : 0 < (b : ℚ) - x) nfD
  have h6 := near_fl hA (x := A.fl (A.fl (A.tau a i * b) * b) / A.fl ((b : ℚ) - A.fl x)) (by positivity)
  exact ⟨h6.trans h5, hD, hx0⟩

/-- A trial period is at least the base period of its fold, up to rounding. -/
theorem d_label_ge {i b s : ℕ} (hb1 : a.bmin ≤ b) (hb2 : b ≤ bstopN A a i) (hs : s < rowsEvalN A a i b) :
    A.tau a i * b * (1 - u53) ^ 5 ≤ dPer A a (i, b, s) := by
  obtain ⟨hn, hD, hx⟩ := d_label_near hA hr hb1 hb2 hs
  have ht := d_tau_pos hA hr i
  refine le_trans (mul_le_mul_of_nonneg_right ?_ (c_pos 5).le) hn.1
  unfold exactLabel
  rw [le_div_iff₀ (by linarith)]
  have : (b : ℚ) - s / (((nN A a i / b : ℕ) : ℚ) - 1) ≤ b := by linarith
  exact mul_le_mul_of_nonneg_left this (by positivity)

/-- A trial period is at most the end of the range of its fold, up to rounding. -/
theorem d_label_le {i b s : ℕ} (hb1 : a.bmin ≤ b) (hb2 : b ≤ bstopN A a i) (hs : s < rowsEvalN A a i b) :
    dPer A a (i, b, s) * (1 - u53) ^ 11 ≤ A.tau a i * A.periodCeil a i b := by
  obtain ⟨hn, hD, hx⟩ := d_label_near hA hr hb1 hb2 hs
  obtain ⟨h2, hsR, hR50, hb50, hslt, hz⟩ := d_trial hA hr hb1 hb2 hs
  have hbm := hr.valid.2.2.2.1
  have ht := d_tau_pos hA hr i
  have hb : (2 : ℚ) ≤ b := by exact_mod_cast (by omega : 2 ≤ b)
  have e1 := hA.nat b (by omega)
  have e4 : A.fl ((b : ℚ) + 1) = b + 1 := by
    have := hA.nat (b + 1) (by omega)
    push_cast at this
    exact this
  have hbp : (b : ℚ) ≤ A.pmaxSamples a i :=
    (Nat.le_floor_iff (d_pms_pos hA hr i).le).mp (hb2.trans (min_le_right _ _))
  have hpc : (b : ℚ) ≤ A.periodCeil a i b := by
    unfold DArith.periodCeil
    rw [e1, e4]
    exact le_min hbp (by linarith)
  have hpc2 : A.periodCeil a i b ≤ b + 1 := by
    unfold DArith.periodCeil
    rw [e1, e4]
    exact min_le_right _ _
  have hpc0 : 0 < A.periodCeil a i b := by linarith
  unfold shiftQ at hslt
  rw [← hz, e1] at hslt
  have hR : (1 : ℚ) ≤ ((nN A a i / b : ℕ) : ℚ) - 1 := by
    have : (2 : ℚ) ≤ ((nN A a i / b : ℕ) : ℚ) := by exact_mod_cast h2
    linarith
  unfold exactLabel at hn
  generalize ((nN A a i / b : ℕ) : ℚ) - 1 = R at *
  generalize A.periodCeil a i b = pc at *
  have hu := u53_pos
  have hu1 : u53 ≤ 1 := by norm_num [u53]
  have hq0 : 0 ≤ (b : ℚ) / pc := by positivity
  have hq1 : (b : ℚ) / pc ≤ 1 := by rw [div_le_one hpc0]; exact hpc
  have hf1 : A.fl ((b : ℚ) / pc) ≤ 1 := by
    have := Dbl.fl_le_nat hA (x := (b : ℚ) / pc) (n := 1) (by norm_num) hq0 (by rw [Nat.cast_one]; exact hq1)
    rwa [Nat.cast_one] at this
  have hf2 := Dbl.fl_ge hA hq0
  have hy := Dbl.fl_le hA (x := 1 - A.fl ((b : ℚ) / pc)) (by linarith)
  have hy0 : 0 ≤ A.fl (1 - A.fl ((b : ℚ) / pc)) := Dbl.fl_nonneg hA (by linarith)
  have hs2 := Dbl.fl_le hA (x := (b : ℚ) * R * A.fl (1 - A.fl ((b : ℚ) / pc))) (by positivity)
  -- bound on s / R
  have hsR' : (s : ℚ) / R < (1 + u53) * ((1 + u53) * (b * (1 - (1 - u53) * (b / pc)))) := by
    rw [div_lt_iff₀ (by linarith)]
    calc (s : ℚ) < (1 + u53) * ((b : ℚ) * R * A.fl (1 - A.fl ((b : ℚ) / pc))) := lt_of_lt_of_le hslt hs2
      _ ≤ (1 + u53) * ((b : ℚ) * R * ((1 + u53) * (1 - A.fl ((b : ℚ) / pc)))) := by
          apply mul_le_mul_of_nonneg_left _ (by linarith)
          exact mul_le_mul_of_nonneg_left hy (by positivity)
      _ ≤ (1 + u53) * ((b : ℚ) * R * ((1 + u53) * (1 - (1 - u53) * (b / pc)))) := by
          apply mul_le_mul_of_nonneg_left _ (by linarith)
          apply mul_le_mul_of_nonneg_left _ (by positivity)
          apply mul_le_mul_of_nonneg_left _ (by linarith)
          linarith
      _ = _ := by ring
  -- bound on the denominator
  have hDlow : (b : ℚ) * b / pc * (1 - u53) ^ 6 ≤ (b : ℚ) - s / R := by
    set w := (b : ℚ) / pc with hw
    have hbw : (b : ℚ) * b / pc = b * w := by rw [hw]; ring
    rw [hbw]
    have hw2 : 2 / 3 ≤ w := by
      rw [hw, le_div_iff₀ hpc0]; linarith
    have hexp : (1 - u53) ^ 6 ≤ 1 - 5 * u53 := by norm_num [u53]
    have h7 : b * w * (1 - u53) ^ 6 ≤ b * w * (1 - 5 * u53) :=
      mul_le_mul_of_nonneg_left hexp (by positivity)
    -- b - (1+u)^2 b (1 - (1-u) w) ≥ b w (1 - 5u)
    have h8 : (b : ℚ) * (w * (1 - 5 * u53)) ≤ b * (1 - (1 + u53) * (1 + u53) * (1 - (1 - u53) * w)) := by
      apply mul_le_mul_of_nonneg_left _ (by linarith)
      have e : 1 - (1 + u53) * (1 + u53) * (1 - (1 - u53) * w) - w * (1 - 5 * u53) =
          u53 * (w * (6 - u53 - u53 ^ 2) - (2 + u53)) := by ring
      have h9 : (0 : ℚ) ≤ w * (6 - u53 - u53 ^ 2) - (2 + u53) := by
        have h10 : (5 : ℚ) ≤ 6 - u53 - u53 ^ 2 := by norm_num [u53]
        have h11 : (2 : ℚ) + u53 ≤ 3 := by linarith
        nlinarith
      have := mul_nonneg hu.le h9
      linarith
    have h12 : (1 + u53) * ((1 + u53) * (b * (1 - (1 - u53) * w))) =
        b * ((1 + u53) * (1 + u53) * (1 - (1 - u53) * w)) := by ring
    rw [h12] at hsR'
    linarith
  have hE : A.tau a i * b * b / ((b : ℚ) - s / R) * (1 - u53) ^ 6 ≤ A.tau a i * pc := by
    rw [div_mul_eq_mul_div, div_le_iff₀ (by linarith)]
    have h13 := mul_le_mul_of_nonneg_left hDlow (by positivity : (0 : ℚ) ≤ A.tau a i * pc)
    calc A.tau a i * b * b * (1 - u53) ^ 6 = A.tau a i * pc * (b * b / pc * (1 - u53) ^ 6) := by field_simp
      _ ≤ _ := h13
  calc dPer A a (i, b, s) * (1 - u53) ^ 11 = dPer A a (i, b, s) * (1 - u53) ^ 5 * (1 - u53) ^ 6 := by ring
    _ ≤ A.tau a i * b * b / ((b : ℚ) - s / R) * (1 - u53) ^ 6 := mul_le_mul_of_nonneg_right hn.2 (c_pos 6).le
    _ ≤ _ := hE

/-- Within a fold the trial periods do not decrease. -/
theorem d_label_mono {i b s t : ℕ} (hb1 : a.bmin ≤ b) (hb2 : b ≤ bstopN A a i) (ht : t < rowsEvalN A a i b)
    (hst : s ≤ t) : dPer A a (i, b, s) ≤ dPer A a (i, b, t) := by
  obtain ⟨h2, hsR, hR50, hb50, _, _⟩ := d_trial hA hr hb1 hb2 ht
  have hbm := hr.valid.2.2.2.1
  have htau := d_tau_pos hA hr i
  unfold dPer DArith.label
  simp only
  generalize nN A a i / b = rows at *
  have e1 := hA.nat b (by omega)
  have e2 := hA.nat rows (by omega)
  have e3 : A.fl ((rows : ℚ) - 1) = (rows : ℚ) - 1 := by
    have := hA.nat (rows - 1) (by omega)
    rwa [Nat.cast_sub (by omega), Nat.cast_one] at this
  have e4 := hA.nat s (by omega)
  have e5 := hA.nat t (by omega)
  rw [e1, e2, e3, e4, e5]
  have hR : (1 : ℚ) ≤ (rows : ℚ) - 1 := by
    have : (2 : ℚ) ≤ rows := by exact_mod_cast h2
    linarith
  have hb : (2 : ℚ) ≤ b := by exact_mod_cast (by omega : 2 ≤ b)
  have htq : (t : ℚ) ≤ (rows : ℚ) - 1 := by
    have : ((t : ℕ) : ℚ) ≤ ((rows - 1 : ℕ) : ℚ) := by exact_mod_cast hsR
    rwa [Nat.cast_sub (by omega), Nat.cast_one] at this
  have hstq : (s : ℚ) ≤ t := by exact_mod_cast hst
  have hm : A.fl ((s : ℚ) / ((rows : ℚ) - 1)) ≤ A.fl ((t : ℚ) / ((rows : ℚ) - 1)) :=
    hA.mono _ _ (by positivity) (div_le_div_of_nonneg_right hstq (by linarith))
  have hx1 : A.fl ((t : ℚ) / ((rows : ℚ) - 1)) ≤ 1 := by
    have := Dbl.fl_le_nat hA (x := (t : ℚ) / ((rows : ℚ) - 1)) (n := 1) (by norm_num) (by positivity)
      (by rw [Nat.cast_one, div_le_one (by linarith)]; exact htq)
    rwa [Nat.cast_one] at this
  have hd : A.fl ((b : ℚ) - A.fl ((t : ℚ) / ((rows : ℚ) - 1))) ≤ A.fl ((b : ℚ) - A.fl ((s : ℚ) / ((rows : ℚ) - 1))) :=
    hA.mono _ _ (by linarith) (by linarith)
  have hd0 : 0 < A.fl ((b : ℚ) - A.fl ((t : ℚ) / ((rows : ℚ) - 1))) := Dbl.fl_pos hA (by linarith)
  have hnum : 0 < A.fl (A.fl (A.tau a i * b) * b) := by
    apply Dbl.fl_pos hA
    have : 0 < A.fl (A.tau a i * b) := Dbl.fl_pos hA (by positivity)
    positivity
  have hd1 := hd0.trans_le hd
  apply hA.mono _ _ (by positivity)
  exact div_le_div_of_nonneg_left hnum.le hd0 hd

end

end Verif.Lemmas
