import Verif.Lemmas.Rounding
import Verif.Spec.Float

/-! # Helper lemmas: rounding errors of the boxcar S/N -/

namespace Verif.Lemmas

open Verif.Model Verif.Spec Finset

variable {A : FArith} {u v : ℝ}

/-- Growth of the error per operation. -/
noncomputable def grow (u : ℝ) : ℝ := 1 / (1 - u)

theorem grow_facts (h : Rounds A u v) : 1 ≤ grow u ∧ 1 + u ≤ grow u ∧ 1 ≤ grow u * (1 - u) := by
  have h0 := h.u_nonneg
  have h1 : 0 < 1 - u := by linarith [h.u_lt]
  unfold grow
  refine ⟨?_, ?_, ?_⟩
  · rw [le_div_iff₀ h1]; linarith
  · rw [le_div_iff₀ h1]; nlinarith
  · rw [one_div, inv_mul_cancel₀ h1.ne']

theorem close_fl (h : Rounds A u v) {k : ℕ} {x w M : ℝ} (c : Close (grow u) k x w M) : Close (grow u) (k + 1) (A.fl x) w M :=
  c.round h.u_nonneg (grow_facts h).2.1 (h.fl x)

theorem close_fused (h : Rounds A u v) {k : ℕ} {x w M : ℝ} (c : Close (grow u) k x w M) :
    Close (grow u) (k + 1) (A.fused x) w M :=
  c.round h.u_nonneg (grow_facts h).2.1 (h.fused x)

theorem near_fl32 (h : Rounds A u v) {k : ℕ} {x w : ℝ} (hx : 0 ≤ x) (c : NearR (grow u) k x w) :
    NearR (grow u) (k + 1) (A.fl x) w :=
  c.round h.u_nonneg h.u_lt (grow_facts h).2.2 hx (h.fl x)

theorem near_dbl (h : Rounds A u v) {k : ℕ} {x w : ℝ} (hx : 0 ≤ x) (c : NearR (grow u) k x w) :
    NearR (grow u) (k + 1) (A.dbl x) w :=
  c.round h.u_nonneg h.u_lt (grow_facts h).2.2 hx ((h.dbl x).trans (mul_le_mul_of_nonneg_right h.v_le (abs_nonneg _)))

theorem near_sqrt (h : Rounds A u v) {j k : ℕ} (hjk : k ≤ 2 * j) {x w : ℝ} (hx : 0 ≤ x) (hw : 0 ≤ w) (c : NearR (grow u) k x w) :
    NearR (grow u) (j + 1) (A.sqrt x) (Real.sqrt w) := by
  refine (c.sqrt (grow_facts h).1 hjk hx hw).round h.u_nonneg h.u_lt (grow_facts h).2.2 (Real.sqrt_nonneg _) ?_
  rw [abs_of_nonneg (Real.sqrt_nonneg x)]
  exact h.sqrt x hx

/-! ### Prefix sum -/

theorem prefixAcc_err (h : Rounds A u v) {K : ℕ} {xf x X : ℕ → ℝ} {n : ℕ} (hx : ∀ i < n, Close (grow u) K (xf i) (x i) (X i)) :
    ∀ j ≤ n, |A.prefixAcc xf j - ∑ k ∈ range j, x k| ≤ ((1 + v) ^ j * grow u ^ K - 1) * ∑ k ∈ range j, X k ∧
      |∑ k ∈ range j, x k| ≤ ∑ k ∈ range j, X k := by
  have hq := (grow_facts h).1
  intro j
  induction j with
  | zero => intro _; simp [FArith.prefixAcc]
  | succ j ih =>
    intro hj
    obtain ⟨h1, h2⟩ := ih (by omega)
    have hc := hx j (by omega)
    have hX := hc.nonneg
    rw [FArith.prefixAcc, sum_range_succ, sum_range_succ]
    have p1 : (1 : ℝ) ≤ (1 + v) ^ j := one_le_pow₀ (by linarith [h.v_nonneg])
    have p2 := pow_ge_one hq K
    have hS : 0 ≤ ∑ k ∈ range j, X k := (abs_nonneg _).trans h2
    refine ⟨?_, (abs_add_le _ _).trans (add_le_add h2 hc.2)⟩
    generalize A.prefixAcc xf j = a at *
    generalize ∑ k ∈ range j, x k = s at *
    generalize ∑ k ∈ range j, X k = S at *
    have e1 : |a + xf j - (s + x j)| ≤ ((1 + v) ^ j * grow u ^ K - 1) * (S + X j) := by
      rw [add_sub_add_comm]
      refine (abs_add_le _ _).trans ?_
      have : (grow u ^ K - 1) * X j ≤ ((1 + v) ^ j * grow u ^ K - 1) * X j :=
        mul_le_mul_of_nonneg_right (by nlinarith) hX
      linarith [hc.1]
    have e2 : |a + xf j| ≤ (1 + v) ^ j * grow u ^ K * (S + X j) := by
      have := abs_add_le (a + xf j - (s + x j)) (s + x j)
      rw [sub_add_cancel] at this
      have h3 : |s + x j| ≤ S + X j := (abs_add_le _ _).trans (add_le_add h2 hc.2)
      linarith
    have e3 := h.dbl (a + xf j)
    have e4 : A.dbl (a + xf j) - (s + x j) = (A.dbl (a + xf j) - (a + xf j)) + (a + xf j - (s + x j)) := by ring
    rw [e4]
    refine (abs_add_le _ _).trans ?_
    have e5 := mul_le_mul_of_nonneg_left e2 h.v_nonneg
    have e6 : (1 + v) ^ (j + 1) = (1 + v) ^ j * (1 + v) := pow_succ _ _
    rw [e6]
    nlinarith

theorem prefixAcc_close (h : Rounds A u v) {K : ℕ} {xf x X : ℕ → ℝ} {n : ℕ} (hx : ∀ i < n, Close (grow u) K (xf i) (x i) (X i))
    (hv : (1 + v) ^ n ≤ grow u) (j : ℕ) (hj : j ≤ n) :
    Close (grow u) (K + 1) (A.prefixAcc xf j) (∑ k ∈ range j, x k) (∑ k ∈ range n, X k) := by
  obtain ⟨h1, h2⟩ := prefixAcc_err h hx j hj
  have hq := (grow_facts h).1
  have hS : ∑ k ∈ range j, X k ≤ ∑ k ∈ range n, X k := by
    apply sum_le_sum_of_subset_of_nonneg
    · intro i hi; rw [mem_range] at *; omega
    · intro i hi _; exact (hx i (mem_range.mp hi)).nonneg
  refine Close.mono hq le_rfl hS ⟨h1.trans ?_, h2⟩
  apply mul_le_mul_of_nonneg_right _ ((abs_nonneg _).trans h2)
  have p0 : (1 + v) ^ j ≤ (1 + v) ^ n := pow_le_pow_right₀ (by linarith [h.v_nonneg]) hj
  have p2 := pow_ge_one hq K
  rw [pow_succ]
  nlinarith

/-- Sums of the circular array. -/
theorem cps_close (h : Rounds A u v) {K : ℕ} {xf x X : ℕ → ℝ} {n wmax : ℕ} (hx : ∀ i < n, Close (grow u) K (xf i) (x i) (X i))
    (hv : (1 + v) ^ n ≤ grow u) (hw : wmax < n) :
    (∀ j < n, ∃ c, A.circularPrefixSum xf n (n + wmax) j = some c ∧
      Close (grow u) (K + 2) c (∑ k ∈ range (j + 1), x (k % n)) (∑ k ∈ range n, X k)) ∧
    ∀ j < n + wmax, ∃ c, A.circularPrefixSum xf n (n + wmax) j = some c ∧
      Close (grow u) (K + 5) c (∑ k ∈ range (j + 1), x (k % n)) (2 * ∑ k ∈ range n, X k) := by
  have hq := (grow_facts h).1
  have hfirst : ∀ j < n, ∃ c, A.circularPrefixSum xf n (n + wmax) j = some c ∧
      Close (grow u) (K + 2) c (∑ k ∈ range (j + 1), x (k % n)) (∑ k ∈ range n, X k) := by
    intro j hj
    refine ⟨A.fl (A.prefixAcc xf (j + 1)), ?_, ?_⟩
    · unfold FArith.circularPrefixSum
      simp only
      rw [if_pos (by omega)]
    · have := close_fl h (prefixAcc_close h hx hv (j + 1) (by omega))
      have e : ∑ k ∈ range (j + 1), x (k % n) = ∑ k ∈ range (j + 1), x k := by
        apply sum_congr rfl
        intro k hk
        rw [Nat.mod_eq_of_lt (by have := mem_range.mp hk; omega)]
      rw [e]
      exact this
  refine ⟨hfirst, ?_⟩
  intro j hj
  rcases Nat.lt_or_ge j n with hjn | hjn
  · obtain ⟨c, h1, h2⟩ := hfirst j hjn
    exact ⟨c, h1, h2.mono hq (by omega) (by linarith [h2.nonneg])⟩
  · have e1 : (n + wmax) / n = 1 := by
      rw [Nat.add_div_left _ (by omega), Nat.div_eq_of_lt hw]
    have e2 : (n + wmax) % n = wmax := by rw [Nat.add_mod_left, Nat.mod_eq_of_lt hw]
    have e3 : j / n = 1 := by
      obtain ⟨t, rfl⟩ : ∃ t, j = n + t := ⟨j - n, by omega⟩
      rw [Nat.add_div_left _ (by omega), Nat.div_eq_of_lt (by omega)]
    have e4 : j % n = j - n := by
      obtain ⟨t, rfl⟩ : ∃ t, j = n + t := ⟨j - n, by omega⟩
      rw [Nat.add_mod_left, Nat.mod_eq_of_lt (by omega)]
      omega
    refine ⟨A.fl (A.fl (A.prefixAcc xf (j - n + 1)) + A.fused (A.fl (1 : ℕ) * A.fl (A.prefixAcc xf n))), ?_, ?_⟩
    · unfold FArith.circularPrefixSum
      simp only [e1, e2, e3, e4, addScalar, FArith.add]
      rw [if_neg (by omega), if_neg (by omega), if_neg (by omega), if_pos ⟨trivial, by omega⟩]
    · have c1 := close_fl h (prefixAcc_close h hx hv (j - n + 1) (by omega))
      have c2 := close_fl h (prefixAcc_close h hx hv n le_rfl)
      have c3 : NearR (grow u) 1 (A.fl (1 : ℕ)) 1 := by
        have := near_fl32 h (k := 0) (x := ((1 : ℕ) : ℝ)) (w := 1) (by norm_num) (by rw [Nat.cast_one]; exact NearR.refl _)
        simpa using this
      have c4 := close_fused h (Close.mul hq zero_le_one c3 c2)
      have c5 := close_fl h ((c1.mono hq (k := K + 4) (by omega) le_rfl).add (c4.mono hq (k := K + 4) (by omega) le_rfl))
      have e5 : ∑ k ∈ range (j + 1), x (k % n) = ∑ k ∈ range (j - n + 1), x k + 1 * ∑ k ∈ range n, x k := by
        have := sum_wraps x n (by omega) 1 (j - n + 1) (by omega)
        rw [show j + 1 = 1 * n + (j - n + 1) by omega]
        rw [Nat.cast_one] at this
        exact this
      rw [e5]
      exact c5.mono hq (by omega) (by linarith [c1.nonneg])

/-! ### Maximum of the differences -/

theorem diffMaxF_spec (A : FArith) (x y : ℕ → ℝ) (n : ℕ) (hn : 1 ≤ n) :
    (∃ i < n, A.diffMax x y n = A.fl (x i - y i)) ∧ ∀ i < n, A.fl (x i - y i) ≤ A.diffMax x y n := by
  unfold FArith.diffMax
  obtain ⟨k, rfl⟩ : ∃ k, n = k + 1 := ⟨n - 1, by omega⟩
  simp only [Nat.add_sub_cancel]
  clear hn
  induction k with
  | zero =>
    refine ⟨⟨0, by omega, rfl⟩, ?_⟩
    intro i hi
    obtain rfl : i = 0 := by omega
    exact le_rfl
  | succ k ih =>
    obtain ⟨⟨i, hi, e⟩, hub⟩ := ih
    rw [FArith.diffMaxLoop]
    split_ifs with h
    · refine ⟨⟨k + 1, by omega, rfl⟩, ?_⟩
      intro j hj
      rcases Nat.lt_or_ge j (k + 1) with hc | hc
      · exact (hub j hc).trans (le_of_lt h)
      · obtain rfl : j = k + 1 := by omega
        exact le_rfl
    · refine ⟨⟨i, by omega, e⟩, ?_⟩
      intro j hj
      rcases Nat.lt_or_ge j (k + 1) with hc | hc
      · exact hub j hc
      · obtain rfl : j = k + 1 := by omega
        exact not_lt.mp h

/-- Maxima of arrays that are close. -/
theorem max_close {q : ℝ} {k n : ℕ} {a b : ℕ → ℝ} {M D E : ℝ} (hc : ∀ i < n, Close q k (a i) (b i) M)
    (hD : ∃ i < n, D = a i) (hD' : ∀ i < n, a i ≤ D) (hE : ∃ i < n, E = b i) (hE' : ∀ i < n, b i ≤ E) : Close q k D E M := by
  obtain ⟨i, hi, rfl⟩ := hD
  obtain ⟨j, hj, rfl⟩ := hE
  refine ⟨?_, (hc j hj).2⟩
  have h1 := abs_le.mp (hc i hi).1
  have h2 := abs_le.mp (hc j hj).1
  have h3 := hD' j hj
  have h4 := hE' i hi
  rw [abs_le]
  constructor <;> linarith

/-! ### The S/N -/

theorem boxH_near (h : Rounds A u v) {n w : ℕ} (h0 : 0 < w) (h1 : w < n) :
    NearR (grow u) 4 (A.fl (A.sqrt (A.fl (A.fl ((n : ℝ) - w) / A.fl ((n : ℝ) * w))))) (boxH n w) := by
  have hq := (grow_facts h).1
  have a : (0 : ℝ) < w := by exact_mod_cast h0
  have b : (0 : ℝ) < (n : ℝ) - w := by have : (w : ℝ) < n := by exact_mod_cast h1
                                       linarith
  have c : (0 : ℝ) < n := by linarith
  have n1 : NearR (grow u) 1 (A.fl ((n : ℝ) - w)) ((n : ℝ) - w) := near_fl32 h b.le (NearR.refl _)
  have n2 : NearR (grow u) 1 (A.fl ((n : ℝ) * w)) ((n : ℝ) * w) := near_fl32 h (by positivity) (NearR.refl _)
  have p1 := n1.pos hq b
  have p2 := n2.pos hq (by positivity)
  have n3 := near_fl32 h (div_pos p1 p2).le (n1.div hq p1.le b.le p2 (by positivity) n2)
  have p3 := n3.nonneg hq (by positivity)
  have n4 := near_sqrt h (j := 2) (k := 3) (by norm_num) p3 (by positivity) n3
  have p4 := n4.nonneg hq (Real.sqrt_nonneg _)
  exact near_fl32 h p4 n4

theorem boxB_near (h : Rounds A u v) {n w : ℕ} (h0 : 0 < w) (h1 : w < n) {hh : ℝ} (hn : NearR (grow u) 4 hh (boxH n w)) :
    NearR (grow u) 8 (A.fl (A.fl (A.fl w / A.fl ((n : ℝ) - w)) * hh)) (boxB n w) := by
  have hq := (grow_facts h).1
  have a : (0 : ℝ) < w := by exact_mod_cast h0
  have b : (0 : ℝ) < (n : ℝ) - w := by have : (w : ℝ) < n := by exact_mod_cast h1
                                       linarith
  have n1 : NearR (grow u) 1 (A.fl ((n : ℝ) - w)) ((n : ℝ) - w) := near_fl32 h b.le (NearR.refl _)
  have n2 : NearR (grow u) 1 (A.fl w) w := near_fl32 h a.le (NearR.refl _)
  have p1 := n1.pos hq b
  have p2 := n2.pos hq a
  have n3 := near_fl32 h (div_pos p2 p1).le (n2.div hq p2.le a.le p1 b n1)
  have p3 := n3.nonneg hq (by positivity)
  have p4 := hn.nonneg hq (boxH_pos h0 h1).le
  exact near_fl32 h (by positivity) (n3.mul hq p3 (by positivity) p4 (boxH_pos h0 h1).le hn)

/-- One S/N value. -/
theorem snrWidth_close (h : Rounds A u v) {K : ℕ} {x X : ℕ → ℝ} {n w : ℕ} (h0 : 0 < w) (h1 : w < n)
    (cpf : ℕ → ℝ) (hX : 0 ≤ ∑ k ∈ range n, X k)
    (hc1 : ∀ j < n, Close (grow u) (K + 2) (cpf j) (∑ k ∈ range (j + 1), x (k % n)) (∑ k ∈ range n, X k))
    (hc2 : ∀ j < n + w, Close (grow u) (K + 5) (cpf j) (∑ k ∈ range (j + 1), x (k % n)) (2 * ∑ k ∈ range n, X k))
    {j : ℕ} {std' std : ℝ} (hstd : 0 < std) (hn : NearR (grow u) j std' std) {D : ℝ} (hD : ∃ φ < n, D = winSum n w x φ)
    (hD' : ∀ φ < n, winSum n w x φ ≤ D) :
    Close (grow u) (K + (18 + j)) (A.snrWidth n cpf std' w)
      (((boxH n w + boxB n w) * D - boxB n w * ∑ i ∈ range n, x i) / std)
      (4 * (boxH n w + boxB n w) * (∑ k ∈ range n, X k) / std) := by
  have hq := (grow_facts h).1
  have hH := boxH_pos h0 h1
  have hB := boxB_pos h0 h1
  have nh := boxH_near h h0 h1
  unfold FArith.snrWidth
  simp only
  generalize A.fl (A.sqrt (A.fl (A.fl ((n : ℝ) - w) / A.fl ((n : ℝ) * w)))) = hh at *
  have nb := boxB_near h h0 h1 nh
  generalize A.fl (A.fl (A.fl w / A.fl ((n : ℝ) - w)) * hh) = bb at *
  have ph := nh.nonneg hq hH.le
  have pb := nb.nonneg hq hB.le
  have ns := near_fl32 h (add_nonneg ph pb) ((nh.mono hq (by norm_num : 4 ≤ 8) ph hH.le).add nb)
  -- the maximum
  have cd : Close (grow u) (K + 6) (A.diffMax (fun i => cpf (w + i)) cpf n) D (3 * ∑ k ∈ range n, X k) := by
    obtain ⟨m1, m2⟩ := diffMaxF_spec A (fun i => cpf (w + i)) cpf n (by omega)
    refine max_close (a := fun i => A.fl (cpf (w + i) - cpf i)) (b := fun i => winSum n w x (i + 1)) ?_ m1 m2 ?_ ?_
    · intro i hi
      have := close_fl h ((hc2 (w + i) (by omega)).sub ((hc1 i hi).mono hq (k := K + 5) (by omega) le_rfl))
      rw [cps_diff] at this
      exact this.mono hq le_rfl (by linarith)
    · obtain ⟨φ, hφ, rfl⟩ := hD
      rcases Nat.eq_zero_or_pos φ with rfl | hp
      · refine ⟨n - 1, by omega, ?_⟩
        rw [← winSum_mod n w x (n - 1 + 1), show n - 1 + 1 = n by omega, Nat.mod_self]
      · exact ⟨φ - 1, by omega, by rw [show φ - 1 + 1 = φ by omega]⟩
    · intro i hi
      rw [← winSum_mod]
      exact hD' _ (Nat.mod_lt _ (by omega))
  -- the sum
  have cs : Close (grow u) (K + 2) (cpf (n - 1)) (∑ i ∈ range n, x i) (∑ k ∈ range n, X k) := by
    have := hc1 (n - 1) (by omega)
    rw [show n - 1 + 1 = n by omega] at this
    have e : ∑ k ∈ range n, x (k % n) = ∑ k ∈ range n, x k := by
      apply sum_congr rfl
      intro k hk
      rw [Nat.mod_eq_of_lt (mem_range.mp hk)]
    rw [e] at this
    exact this
  have c1 := close_fused h (Close.mul hq (by positivity) ns cd)
  have c2 := close_fused h (Close.mul hq hB.le nb cs)
  have c3 := close_fl h ((c1.mono hq (k := K + 16) (by omega) le_rfl).sub (c2.mono hq (k := K + 16) (by omega) le_rfl))
  have pstd := hn.pos hq hstd
  have c4 := close_fl h (Close.mul hq (by positivity) (hn.inv pstd hstd) c3)
  rw [inv_mul_eq_div, inv_mul_eq_div] at c4
  refine c4.mono hq (by omega) ?_
  rw [inv_mul_eq_div]
  apply div_le_div_of_nonneg_right _ hstd.le
  have : boxB n w * ∑ k ∈ range n, X k ≤ (boxH n w + boxB n w) * ∑ k ∈ range n, X k :=
    mul_le_mul_of_nonneg_right (by linarith) hX
  nlinarith

theorem boxHB {n w : ℕ} (h0 : 0 < w) (h1 : w < n) : boxH n w + boxB n w = Real.sqrt ((n : ℝ) / (w * (n - w))) := by
  have a : (0 : ℝ) < w := by exact_mod_cast h0
  have b : (0 : ℝ) < (n : ℝ) - w := by have : (w : ℝ) < n := by exact_mod_cast h1
                                       linarith
  have c : (0 : ℝ) < n := by linarith
  have e : boxH n w + boxB n w = boxH n w * (n / (n - w)) := by
    unfold boxB
    field_simp
    ring
  symm
  rw [Real.sqrt_eq_iff_mul_self_eq (by positivity) (by rw [e]; have := boxH_pos h0 h1; positivity), e]
  have := boxH_sq h1
  rw [show boxH n w * (n / (n - w)) * (boxH n w * (n / (n - w))) = boxH n w ^ 2 * (n / (n - w)) ^ 2 by ring, this]
  field_simp

/-- `snr1` in floating point. -/
theorem snr1F_close (h : Rounds A u v) {K : ℕ} {xf x X : ℕ → ℝ} {n : ℕ} (hx : ∀ i < n, Close (grow u) K (xf i) (x i) (X i))
    (hv : (1 + v) ^ n ≤ grow u) (widths : List ℕ) (hne : widths ≠ []) (hw : ∀ w ∈ widths, 0 < w ∧ w < n)
    {j : ℕ} {std' std : ℝ} (hstd : 0 < std) (hn : NearR (grow u) j std' std) :
    ∃ out, A.snr1 n xf widths std' = .ok out ∧ out.length = widths.length ∧
      ∀ k (h : k < widths.length) (h' : k < out.length), ∀ s, IsMatchedSnr n widths[k] x std s →
        |out[k] - s| ≤ (grow u ^ (K + (18 + j)) - 1) *
          (4 * Real.sqrt ((n : ℝ) / (widths[k] * (n - widths[k]))) * (∑ i ∈ range n, X i) / std) := by
  have hmax : maxWidth widths < n := by
    unfold maxWidth
    have aux : ∀ (l : List ℕ) (a : ℕ), a < n → (∀ w ∈ l, w < n) → l.foldl max a < n := by
      intro l
      induction l with
      | nil => intro a ha _; simpa using ha
      | cons b l ih =>
        intro a ha hl
        rw [List.foldl_cons]
        exact ih _ (max_lt ha (hl b (by simp))) (fun w hw => hl w (by simp [hw]))
    obtain ⟨w, hwm⟩ := List.exists_mem_of_ne_nil _ hne
    exact aux widths 0 (by have := hw w hwm; omega) (fun w hwm => (hw w hwm).2)
  obtain ⟨k1, k2⟩ := cps_close h hx hv hmax
  have hX : 0 ≤ ∑ k ∈ range n, X k := sum_nonneg (fun i hi => (hx i (mem_range.mp hi)).nonneg)
  refine ⟨widths.map (A.snrWidth n (fun j => (A.circularPrefixSum xf n (n + maxWidth widths) j).getD 0) std'), ?_, by simp, ?_⟩
  · unfold FArith.snr1
    rw [if_neg hne]
    simp only
    rw [if_pos]
    rw [List.all_eq_true]
    intro j hj
    obtain ⟨c, hc, _⟩ := k2 j (List.mem_range.mp hj)
    rw [hc]; rfl
  · intro k hk hk' s hs
    have hm : widths[k] ∈ widths := List.getElem_mem hk
    obtain ⟨h0, h1⟩ := hw _ hm
    obtain ⟨D, hD, hD'⟩ := winMax_exists n widths[k] (by omega) x
    have := snrWidth_close h h0 h1 (fun j => (A.circularPrefixSum xf n (n + maxWidth widths) j).getD 0) hX
      (fun j hj => by
        obtain ⟨c, hc, hcl⟩ := k1 j hj
        rw [hc]; exact hcl)
      (fun j hj => by
        obtain ⟨c, hc, hcl⟩ := k2 j (by have := maxWidth_ge widths _ hm; omega)
        rw [hc]; exact hcl)
      hstd hn hD hD'
    rw [matched_unique hs (matched_of_max h0 h1 x hstd hD hD'), List.getElem_map, ← boxHB h0 h1]
    exact this.1

end Verif.Lemmas
