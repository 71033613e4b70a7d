import Verif.Model.SnrF
import Verif.Lemmas.Snr
import Mathlib.Tactic.LinearCombination

/-! # Helper lemmas: propagation of relative rounding errors -/

namespace Verif.Lemmas

open Verif.Model Verif.Spec Finset

/-- `x` and `y` agree up to a factor `q ^ k`. -/
def NearR (q : ℝ) (k : ℕ) (x y : ℝ) : Prop := y ≤ x * q ^ k ∧ x ≤ y * q ^ k

/-- `x` is within `(q ^ k - 1) M` of `v`, where `M` bounds `v`. -/
def Close (q : ℝ) (k : ℕ) (x v M : ℝ) : Prop := |x - v| ≤ (q ^ k - 1) * M ∧ |v| ≤ M

variable {q : ℝ}

theorem pow_ge_one (hq : 1 ≤ q) (k : ℕ) : 1 ≤ q ^ k := one_le_pow₀ hq

theorem NearR.refl (x : ℝ) : NearR q 0 x x := by constructor <;> simp

theorem NearR.mono (hq : 1 ≤ q) {j k : ℕ} (h : j ≤ k) {x y : ℝ} (hx : 0 ≤ x) (hy : 0 ≤ y) (n : NearR q j x y) : NearR q k x y := by
  have := pow_le_pow_right₀ hq h
  exact ⟨n.1.trans (mul_le_mul_of_nonneg_left this hx), n.2.trans (mul_le_mul_of_nonneg_left this hy)⟩

theorem NearR.nonneg (hq : 1 ≤ q) {k : ℕ} {x y : ℝ} (hy : 0 ≤ y) (n : NearR q k x y) : 0 ≤ x := by
  by_contra hc
  push Not at hc
  have := pow_ge_one hq k
  have := n.1
  nlinarith

theorem NearR.pos (hq : 1 ≤ q) {k : ℕ} {x y : ℝ} (hy : 0 < y) (n : NearR q k x y) : 0 < x := by
  by_contra hc
  push Not at hc
  have := pow_ge_one hq k
  have := n.1
  nlinarith

theorem NearR.trans (hq : 1 ≤ q) {j k : ℕ} {x y z : ℝ} (h1 : NearR q j x y) (h2 : NearR q k y z) : NearR q (j + k) x z := by
  have a := pow_ge_one hq j
  have b := pow_ge_one hq k
  constructor
  · calc z ≤ y * q ^ k := h2.1
      _ ≤ x * q ^ j * q ^ k := mul_le_mul_of_nonneg_right h1.1 (by linarith)
      _ = x * q ^ (j + k) := by rw [pow_add]; ring
  · calc x ≤ y * q ^ j := h1.2
      _ ≤ z * q ^ k * q ^ j := mul_le_mul_of_nonneg_right h2.2 (by linarith)
      _ = z * q ^ (j + k) := by rw [pow_add]; ring

theorem NearR.mul (hq : 1 ≤ q) {j k : ℕ} {x y x' y' : ℝ} (hx : 0 ≤ x) (hy : 0 ≤ y) (hx' : 0 ≤ x') (hy' : 0 ≤ y')
    (h1 : NearR q j x y) (h2 : NearR q k x' y') : NearR q (j + k) (x * x') (y * y') := by
  have a := pow_ge_one hq j
  have b := pow_ge_one hq k
  constructor
  · calc y * y' ≤ (x * q ^ j) * (x' * q ^ k) := mul_le_mul h1.1 h2.1 hy' (by positivity)
      _ = x * x' * q ^ (j + k) := by rw [pow_add]; ring
  · calc x * x' ≤ (y * q ^ j) * (y' * q ^ k) := mul_le_mul h1.2 h2.2 hx' (by positivity)
      _ = y * y' * q ^ (j + k) := by rw [pow_add]; ring

theorem NearR.inv {k : ℕ} {x y : ℝ} (hx : 0 < x) (hy : 0 < y) (h : NearR q k x y) : NearR q k x⁻¹ y⁻¹ := by
  constructor
  · rw [inv_mul_eq_div, le_div_iff₀ hx, inv_mul_le_iff₀ hy]; exact h.2
  · rw [inv_mul_eq_div, le_div_iff₀ hy, inv_mul_le_iff₀ hx]; exact h.1

theorem NearR.div (hq : 1 ≤ q) {j k : ℕ} {x y x' y' : ℝ} (hx : 0 ≤ x) (hy : 0 ≤ y) (hx' : 0 < x') (hy' : 0 < y')
    (h1 : NearR q j x y) (h2 : NearR q k x' y') : NearR q (j + k) (x / x') (y / y') := by
  rw [div_eq_mul_inv, div_eq_mul_inv]
  exact h1.mul hq hx hy (by positivity) (by positivity) (h2.inv hx' hy')

theorem NearR.add {k : ℕ} {x y x' y' : ℝ} (h1 : NearR q k x y) (h2 : NearR q k x' y') :
    NearR q k (x + x') (y + y') := by
  constructor
  · rw [add_mul]; exact add_le_add h1.1 h2.1
  · rw [add_mul]; exact add_le_add h1.2 h2.2

theorem NearR.sqrt (hq : 1 ≤ q) {j k : ℕ} (hjk : k ≤ 2 * j) {x y : ℝ} (hx : 0 ≤ x) (hy : 0 ≤ y) (h : NearR q k x y) :
    NearR q j (Real.sqrt x) (Real.sqrt y) := by
  have h' := h.mono hq hjk hx hy
  have hqj : 0 ≤ q ^ j := by have := pow_ge_one hq j; linarith
  have e : q ^ (2 * j) = (q ^ j) ^ 2 := by rw [mul_comm, pow_mul]
  rw [NearR, e] at h'
  constructor
  · calc Real.sqrt y ≤ Real.sqrt (x * (q ^ j) ^ 2) := Real.sqrt_le_sqrt h'.1
      _ = _ := by rw [Real.sqrt_mul hx, Real.sqrt_sq hqj]
  · calc Real.sqrt x ≤ Real.sqrt (y * (q ^ j) ^ 2) := Real.sqrt_le_sqrt h'.2
      _ = _ := by rw [Real.sqrt_mul hy, Real.sqrt_sq hqj]

theorem NearR.abs_sub (hq : 1 ≤ q) {k : ℕ} {x y : ℝ} (hy : 0 ≤ y) (h : NearR q k x y) : |x - y| ≤ (q ^ k - 1) * y := by
  have a := pow_ge_one hq k
  have hx := h.nonneg hq hy
  rw [abs_le]
  constructor
  · rcases le_total x y with c | c
    · nlinarith [h.1]
    · nlinarith
  · linarith [h.2]

/-! ### `Close` -/

theorem Close.exact (x : ℝ) : Close q 0 x x |x| := by
  constructor <;> simp

theorem Close.nonneg {k : ℕ} {x v M : ℝ} (h : Close q k x v M) : 0 ≤ M := (abs_nonneg v).trans h.2

theorem Close.mono (hq : 1 ≤ q) {j k : ℕ} (h : j ≤ k) {x v M N : ℝ} (hM : M ≤ N) (c : Close q j x v M) : Close q k x v N := by
  have h0 := c.nonneg
  refine ⟨c.1.trans ?_, c.2.trans hM⟩
  have h1 := pow_le_pow_right₀ hq h
  have h2 := pow_ge_one hq j
  calc (q ^ j - 1) * M ≤ (q ^ k - 1) * M := mul_le_mul_of_nonneg_right (by linarith) h0
    _ ≤ (q ^ k - 1) * N := mul_le_mul_of_nonneg_left hM (by linarith)

theorem Close.abs_le {k : ℕ} {x v M : ℝ} (h : Close q k x v M) : |x| ≤ q ^ k * M := by
  have := abs_add_le (x - v) v
  rw [sub_add_cancel] at this
  linarith [h.1, h.2]

theorem Close.add {k : ℕ} {x v M x' v' M' : ℝ} (h : Close q k x v M) (h' : Close q k x' v' M') :
    Close q k (x + x') (v + v') (M + M') := by
  constructor
  · rw [add_sub_add_comm, mul_add]
    exact (abs_add_le _ _).trans (add_le_add h.1 h'.1)
  · exact (abs_add_le _ _).trans (add_le_add h.2 h'.2)

theorem Close.neg {k : ℕ} {x v M : ℝ} (h : Close q k x v M) : Close q k (-x) (-v) M := by
  constructor
  · rw [← abs_neg, neg_sub, sub_neg_eq_add, add_comm, ← sub_eq_add_neg]; exact h.1
  · rw [abs_neg]; exact h.2

theorem Close.sub {k : ℕ} {x v M x' v' M' : ℝ} (h : Close q k x v M) (h' : Close q k x' v' M') :
    Close q k (x - x') (v - v') (M + M') := by
  rw [sub_eq_add_neg, sub_eq_add_neg]
  exact h.add h'.neg

/-- Product with a factor that has a relative error. -/
theorem Close.mul (hq : 1 ≤ q) {j k : ℕ} {c d x v M : ℝ} (hd : 0 ≤ d) (h1 : NearR q j c d) (h2 : Close q k x v M) :
    Close q (j + k) (c * x) (d * v) (d * M) := by
  have a := pow_ge_one hq j
  have b := pow_ge_one hq k
  have hc := h1.nonneg hq hd
  have hM := h2.nonneg
  constructor
  · have e : c * x - d * v = c * (x - v) + (c - d) * v := by ring
    rw [e]
    refine (abs_add_le _ _).trans ?_
    rw [abs_mul, abs_mul, abs_of_nonneg hc]
    have s1 : c * |x - v| ≤ d * q ^ j * ((q ^ k - 1) * M) :=
      mul_le_mul h1.2 h2.1 (abs_nonneg _) (by positivity)
    have s2 : |c - d| * |v| ≤ (q ^ j - 1) * d * M :=
      mul_le_mul (h1.abs_sub hq hd) h2.2 (abs_nonneg _) (mul_nonneg (by linarith) hd)
    rw [pow_add]
    nlinarith
  · rw [abs_mul, abs_of_nonneg hd]
    exact mul_le_mul_of_nonneg_left h2.2 hd

/-- A rounding error. -/
theorem Close.round {u : ℝ} (hu : 0 ≤ u) (hq : 1 + u ≤ q) {k : ℕ} {x y v M : ℝ} (hr : |y - x| ≤ u * |x|) (h : Close q k x v M) :
    Close q (k + 1) y v M := by
  refine ⟨?_, h.2⟩
  have hM := h.nonneg
  have a := pow_ge_one (by linarith : 1 ≤ q) k
  have e : y - v = (y - x) + (x - v) := by ring
  rw [e]
  refine (abs_add_le _ _).trans ?_
  have s1 : u * |x| ≤ u * (q ^ k * M) := mul_le_mul_of_nonneg_left h.abs_le hu
  have s2 : (1 + u) * (q ^ k * M) ≤ q * (q ^ k * M) := mul_le_mul_of_nonneg_right hq (by positivity)
  rw [pow_succ]
  nlinarith [h.1]

theorem NearR.round {u : ℝ} (hu1 : 0 ≤ u) (hu : u < 1) (hq : 1 ≤ q * (1 - u)) {k : ℕ} {x y v : ℝ} (hx : 0 ≤ x) (hr : |y - x| ≤ u * |x|)
    (h : NearR q k x v) : NearR q (k + 1) y v := by
  have h1 : 1 ≤ q := by nlinarith
  have a := pow_ge_one h1 k
  rw [abs_of_nonneg hx, _root_.abs_le] at hr
  have hv : 0 ≤ v := by
    by_contra hc
    push Not at hc
    have := h.2
    nlinarith
  constructor
  · rw [pow_succ]
    have s1 : x * (1 - u) ≤ y := by linarith [hr.1]
    calc v ≤ x * q ^ k := h.1
      _ ≤ (x * q ^ k) * (q * (1 - u)) := le_mul_of_one_le_right (by positivity) hq
      _ = (x * (1 - u)) * (q ^ k * q) := by ring
      _ ≤ y * (q ^ k * q) := mul_le_mul_of_nonneg_right s1 (by positivity)
  · rw [pow_succ]
    have h2 : 1 + u ≤ q := by nlinarith
    calc y ≤ x * (1 + u) := by linarith [hr.2]
      _ ≤ (v * q ^ k) * q := mul_le_mul h.2 h2 (by linarith) (by positivity)
      _ = v * (q ^ k * q) := by ring

end Verif.Lemmas
