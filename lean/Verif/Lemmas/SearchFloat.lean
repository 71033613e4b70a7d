import Verif.Model.SearchFloat
import Verif.Spec.SearchFloat
import Verif.Lemmas.Double
import Verif.Lemmas.SearchF
import Verif.Lemmas.LabelF
import Verif.Lemmas.Window

/-! # Helper lemmas: the search with single and double precision together -/

namespace Verif.Lemmas

open Verif.Model Verif.Spec Finset

section window

variable {A : DArith} (hA : Sane A)
include hA

/-- The window of output sample `k`, computed in double precision. -/
theorem d_window {N k : ℕ} {f : ℚ} (hN : N ≤ 2 ^ 25) (hf : 1 + 2 * u53 ≤ f) (hk : k < ⌊A.fl (A.fl N / f)⌋₊) :
    dImin A f k < dImax A N f k ∧ dImax A N f k < N ∧ (dImin A f k : ℚ) ≤ dStart A f k ∧ dStart A f k ≤ dImin A f k + 1 ∧
      (dImax A N f k : ℚ) ≤ dStop A f k ∧ (dStop A f k ≤ dImax A N f k + 1 ∨ dImax A N f k + 1 = N) ∧
      |dStart A f k - k * f| ≤ 5 / 4 / 2 ^ 28 ∧ |dStop A f k - (k + 1) * f| ≤ 9 / 4 / 2 ^ 28 ∧
      dStop A f k - N ≤ 13 / 4 / 2 ^ 28 := by
  have hu : (0 : ℚ) < u53 := by norm_num [u53]
  have hf1 : 1 < f := by linarith
  have hNq : (N : ℚ) ≤ 2 ^ 25 := by exact_mod_cast hN
  have hN0 : (0 : ℚ) ≤ N := Nat.cast_nonneg _
  have hk0 : (0 : ℚ) ≤ k := Nat.cast_nonneg k
  have eN := hA.nat N (by omega)
  rw [eN] at hk
  -- (k + 1) f ≤ (1 + u) N
  have hk1 : ((k + 1 : ℕ) : ℚ) ≤ A.fl (N / f) := by
    rw [← Nat.le_floor_iff (Dbl.fl_nonneg hA (by positivity))]
    exact hk
  have hk2 : ((k : ℚ) + 1) * f ≤ (1 + u53) * N := by
    have h1 := Dbl.fl_le hA (x := (N : ℚ) / f) (by positivity)
    have h2 : ((k + 1 : ℕ) : ℚ) * f ≤ (1 + u53) * (N / f) * f := mul_le_mul_of_nonneg_right (hk1.trans h1) (by linarith)
    rw [mul_assoc, div_mul_cancel₀ _ (by linarith : f ≠ 0)] at h2
    push_cast at h2
    exact h2
  -- not the identity
  have hkN : k + 2 ≤ N := by
    by_contra hc
    have h3 : (N : ℚ) ≤ k + 1 := by exact_mod_cast (by omega : N ≤ k + 1)
    have h4 : (N : ℚ) * (1 + 2 * u53) ≤ (k + 1) * f := mul_le_mul h3 hf (by positivity) (by positivity)
    have h5 : (0 : ℚ) < N := by
      by_contra h0
      have : (N : ℚ) = 0 := le_antisymm (not_lt.mp h0) hN0
      rw [this] at hk2
      nlinarith
    nlinarith
  have hkNq : (k : ℚ) + 2 ≤ N := by exact_mod_cast hkN
  have ek := hA.nat k (by omega)
  have hkf : (0 : ℚ) ≤ k * f := by positivity
  have hkk : (k : ℚ) ≤ k * f := le_mul_of_one_le_right hk0 hf1.le
  have d1 : dStart A f k = A.fl (k * f) := by rw [dStart, ek]
  have b1 := abs_le.mp (hA.rel (k * f) hkf)
  rw [← d1] at b1
  have hs0 : 0 ≤ dStart A f k := by rw [d1]; exact Dbl.fl_nonneg hA hkf
  have hfl1 : ((dImin A f k : ℕ) : ℚ) ≤ dStart A f k := by
    rw [dImin, Int.floor_toNat]; exact Nat.floor_le hs0
  have hfl2 : dStart A f k < (dImin A f k : ℕ) + 1 := by
    rw [dImin, Int.floor_toNat]; exact Nat.lt_floor_add_one _
  -- the end
  have hkff : (0 : ℚ) ≤ k * f + f := by linarith
  have hstop : |dStop A f k - (k + 1) * f| ≤ 9 / 4 / 2 ^ 28 ∧ ((dImin A f k : ℕ) : ℚ) + 1 ≤ dStop A f k := by
    have hp : dImin A f k + 1 ≤ 2 ^ 53 := by
      have : ((dImin A f k : ℕ) : ℚ) ≤ 2 ^ 26 := by
        unfold u53 at *
        linarith
      have : dImin A f k ≤ 2 ^ 26 := by exact_mod_cast this
      omega
    rw [dStop, ek]
    split_ifs with hfu
    · have b2 := abs_le.mp (hA.rel (k * f + f) hkff)
      refine ⟨?_, ?_⟩
      · rw [abs_le]
        unfold u53 at *
        constructor <;> nlinarith
      · have := Dbl.fl_ge_nat hA (x := k * f + f) hp ?_
        · push_cast at this; exact this
        · -- the start may have been rounded up to an integer
          push_cast
          rcases le_or_gt ((dImin A f k : ℕ) : ℚ) (k * f) with h | h
          · linarith
          · have h6 : k + 1 ≤ dImin A f k := by
              have : (k : ℚ) < dImin A f k := by linarith
              exact_mod_cast this
            have h7 : (k : ℚ) + 1 ≤ dImin A f k := by exact_mod_cast h6
            have h8 : (1 : ℚ) - 1 / 2 ^ 27 ≤ k * (f - 1) := by
              unfold u53 at *
              nlinarith
            have h9 : (k : ℚ) * (f - 1) ≤ 2 ^ 25 * (f - 1) := mul_le_mul_of_nonneg_right (by linarith) (by linarith)
            have h10 : (1 : ℚ) / 2 ^ 27 ≤ f - 1 := by linarith
            have h11 : ((dImin A f k : ℕ) : ℚ) - k * f ≤ 1 / 2 ^ 27 := by
              unfold u53 at *
              linarith
            linarith
    · have hsf : 0 ≤ dStart A f k + f := by linarith
      have b2 := abs_le.mp (hA.rel (dStart A f k + f) hsf)
      refine ⟨?_, ?_⟩
      · rw [abs_le]
        unfold u53 at *
        constructor <;> nlinarith
      · have := Dbl.fl_ge_nat hA (x := dStart A f k + f) hp (by push_cast; linarith)
        push_cast at this; exact this
  obtain ⟨hst, hst2⟩ := hstop
  have hstart : dStart A f k < N - 1 := by
    by_contra hc
    push Not at hc
    have h4 : (f - 1) ≤ 1 / 2 ^ 26 := by
      unfold u53 at *
      linarith
    have h5 : (1 : ℚ) - 1 / 2 ^ 27 ≤ k * (f - 1) := by
      unfold u53 at *
      nlinarith
    have h6 : (k : ℚ) * (f - 1) ≤ 2 ^ 25 * (1 / 2 ^ 26) := mul_le_mul (by linarith) h4 (by linarith) (by norm_num)
    norm_num at h5 h6
    linarith
  have hpN : dImin A f k + 1 < N := by
    have : ((dImin A f k : ℕ) : ℚ) + 1 < N := by linarith
    exact_mod_cast this
  have hst0 : 0 ≤ dStop A f k := by
    have : (0 : ℚ) ≤ (dImin A f k : ℕ) := Nat.cast_nonneg _
    linarith
  have e2 : ⌊dStop A f k⌋.toNat = ⌊dStop A f k⌋₊ := Int.floor_toNat _
  have hq1 : dImin A f k + 1 ≤ ⌊dStop A f k⌋₊ := by
    rw [Nat.le_floor_iff hst0]
    push_cast
    exact hst2
  have eq : dImax A N f k = min ⌊dStop A f k⌋₊ (N - 1) := by rw [dImax, e2]
  refine ⟨by rw [eq]; omega, by rw [eq]; omega, hfl1, hfl2.le, ?_, ?_, ?_, hst, ?_⟩
  · have : ((dImax A N f k : ℕ) : ℚ) ≤ (⌊dStop A f k⌋₊ : ℕ) := by
      rw [eq]; exact_mod_cast min_le_left _ _
    exact this.trans (Nat.floor_le hst0)
  · rcases le_total ⌊dStop A f k⌋₊ (N - 1) with h | h
    · left
      rw [eq, min_eq_left h]
      exact (Nat.lt_floor_add_one _).le
    · right
      rw [eq, min_eq_right h]
      omega
  · rw [abs_le]
    unfold u53 at *
    constructor <;> linarith
  · have := (abs_le.mp hst).2
    unfold u53 at *
    linarith

end window

section sample

variable {A : DArith} {B : FArith} {u v : ℝ}

theorem near_double (hA : Sane A) (h : Rounds B u v) (hu : 1 / 2 ^ 24 ≤ u) {k : ℕ} {x : ℚ} {w : ℝ} (hx : 0 ≤ x)
    (c : NearR (grow u) k (x : ℝ) w) : NearR (grow u) (k + 1) ((A.fl x : ℚ) : ℝ) w := by
  have hx' : (0 : ℝ) ≤ x := by exact_mod_cast hx
  refine c.round h.u_nonneg h.u_lt (grow_facts h).2.2 hx' ?_
  have h1 := hA.rel x hx
  have h2 : |((A.fl x : ℚ) : ℝ) - (x : ℝ)| ≤ ((u53 : ℚ) : ℝ) * x := by exact_mod_cast h1
  refine h2.trans ?_
  rw [abs_of_nonneg hx']
  refine mul_le_mul_of_nonneg_right (le_trans ?_ hu) hx'
  norm_num [u53]

/-- The accumulator of `downsample`. -/
theorem dAcc_close (h : Rounds B u v) (x : ℕ → ℝ) (f : ℚ) (k : ℕ) {w : ℝ} (hw : 0 ≤ w)
    (hn : NearR (grow u) 2 (B.fl ((A.fl (A.fl (dImin A f k + 1 : ℕ) - dStart A f k) : ℚ) : ℝ)) w) (t : ℕ) :
    Close (grow u) (t + 3) (dAcc A (B.searchOps A) x f k t) (x (dImin A f k) * w + ∑ i ∈ range t, x (dImin A f k + 1 + i))
      (|x (dImin A f k)| * w + ∑ i ∈ range t, |x (dImin A f k + 1 + i)|) := by
  have hq := (grow_facts h).1
  induction t with
  | zero =>
    have := close_fl h (Close.mul hq hw hn (Close.exact (q := grow u) (x (dImin A f k))))
    simpa [dAcc, FArith.searchOps, mul_comm] using this
  | succ t ih =>
    have := close_fl h (ih.add ((Close.exact (x (dImin A f k + 1 + t))).mono hq (by omega : 0 ≤ t + 3) le_rfl))
    rw [dAcc, sum_range_succ, sum_range_succ, ← add_assoc, ← add_assoc]
    exact this

/-- A sample of the downsampled series, computed in single precision with a window from double precision. -/
theorem dSample_close (hA : Sane A) (h : Rounds B u v) (hu : 1 / 2 ^ 24 ≤ u) {N k : ℕ} {f : ℚ} (x : ℕ → ℝ) (hN : N ≤ 2 ^ 25)
    (hf : 1 + 2 * u53 ≤ f) (hk : k < ⌊A.fl (A.fl N / f)⌋₊) :
    Close (grow u) (⌈f⌉₊ + 5) (dSample A (B.searchOps A) N x f k) (downsampled N x f k)
      (downsampled N (fun i => |x i|) f k + 1 / 2 * touch N x ((k : ℝ) * f) (((k : ℝ) + 1) * f)) := by
  obtain ⟨w1, w2, w3, w4, w5, w6, w7, w8, w9⟩ := d_window hA hN hf hk
  have hq := (grow_facts h).1
  have hq2 := (grow_facts h).2.1
  have eq := hA.nat (dImax A N f k) (by omega)
  have ep := hA.nat (dImin A f k + 1) (by omega)
  rw [dSample]
  have n1 : NearR (grow u) 2 (B.fl ((A.fl (A.fl (dImin A f k + 1 : ℕ) - dStart A f k) : ℚ) : ℝ))
      ((dImin A f k : ℝ) + 1 - (dStart A f k : ℚ)) := by
    rw [ep]
    have h0 : 0 ≤ ((dImin A f k + 1 : ℕ) : ℚ) - dStart A f k := by push_cast; linarith
    have := near_double hA h hu h0 (NearR.refl (q := grow u) _)
    have := near_fl32 h (by exact_mod_cast Dbl.fl_nonneg hA h0) this
    push_cast at this ⊢
    exact this
  have n2 : NearR (grow u) 2 (B.fl ((A.fl (dStop A f k - A.fl (dImax A N f k)) : ℚ) : ℝ))
      (((dStop A f k : ℚ) : ℝ) - dImax A N f k) := by
    rw [eq]
    have h0 : 0 ≤ dStop A f k - (dImax A N f k : ℕ) := by linarith
    have := near_double hA h hu h0 (NearR.refl (q := grow u) _)
    have := near_fl32 h (by exact_mod_cast Dbl.fl_nonneg hA h0) this
    push_cast at this ⊢
    exact this
  have v3 : ((dImin A f k : ℕ) : ℝ) ≤ (dStart A f k : ℚ) := by exact_mod_cast w3
  have v4 : ((dStart A f k : ℚ) : ℝ) ≤ (dImin A f k : ℕ) + 1 := by exact_mod_cast w4
  have v5 : ((dImax A N f k : ℕ) : ℝ) ≤ (dStop A f k : ℚ) := by exact_mod_cast w5
  have v6 : ((dStop A f k : ℚ) : ℝ) ≤ (dImax A N f k : ℕ) + 1 ∨ dImax A N f k + 1 = N := by exact_mod_cast w6
  have v7 : |((dStart A f k : ℚ) : ℝ) - k * f| ≤ 5 / 4 / 2 ^ 28 := by
    have := (Rat.cast_le (K := ℝ)).mpr w7
    push_cast at this
    exact this
  have v8 : |((dStop A f k : ℚ) : ℝ) - (k + 1) * f| ≤ 9 / 4 / 2 ^ 28 := by
    have := (Rat.cast_le (K := ℝ)).mpr w8
    push_cast at this
    exact this
  have v9 : ((dStop A f k : ℚ) : ℝ) - N ≤ 13 / 4 / 2 ^ 28 := by
    have := (Rat.cast_le (K := ℝ)).mpr w9
    push_cast at this
    exact this
  have hlen : dImax A N f k - (dImin A f k + 1) ≤ ⌈f⌉₊ := by
    have h1 := (abs_le.mp w7).1
    have h2 := (abs_le.mp w8).2
    have h3 := Nat.le_ceil f
    have h4 : (((dImax A N f k - (dImin A f k + 1) : ℕ)) : ℚ) < ⌈f⌉₊ + 1 := by
      rw [Nat.cast_sub (by omega)]
      push_cast
      linarith
    have h5 : dImax A N f k - (dImin A f k + 1) < ⌈f⌉₊ + 1 := by exact_mod_cast h4
    omega
  have c1 := dAcc_close (A := A) h x f k (by linarith) n1 (dImax A N f k - (dImin A f k + 1))
  have c2 := close_fused h (Close.mul hq (by linarith) n2 (Close.exact (q := grow u) (x (dImax A N f k))))
  have c3 := close_fl h ((c1.mono hq (k := ⌈f⌉₊ + 3) (by omega) le_rfl).add (c2.mono hq (k := ⌈f⌉₊ + 3) (by omega) le_rfl))
  rw [mul_comm (((dStop A f k : ℚ) : ℝ) - (dImax A N f k : ℕ)) (x (dImax A N f k)),
    mul_comm (((dStop A f k : ℚ) : ℝ) - (dImax A N f k : ℕ)) |x (dImax A N f k)|,
    window_sum N _ _ x w1 w2 v3 v4 v5 v6, window_sum N _ _ (fun i => |x i|) w1 w2 v3 v4 v5 v6] at c3
  change Close (grow u) (⌈f⌉₊ + 4) ((B.searchOps A).wadd _ _ _) _ _ at c3
  generalize (B.searchOps A).wadd _ _ _ = y at c3 ⊢
  have hT := touch_nonneg N x ((k : ℝ) * f) (((k : ℝ) + 1) * f)
  have hxT : |x (dImax A N f k)| ≤ touch N x ((k : ℝ) * f) (((k : ℝ) + 1) * f) := by
    unfold touch
    have hm : (k : ℝ) * f - 1 / 4 < (dImax A N f k : ℝ) + 1 ∧ (dImax A N f k : ℝ) < ((k : ℝ) + 1) * f + 1 / 4 := by
      have h1 := (abs_le.mp v7).1
      have h2 := (abs_le.mp v8).2
      have h3 : ((dImin A f k : ℕ) : ℝ) + 1 ≤ dImax A N f k := by exact_mod_cast w1
      constructor <;> linarith
    refine le_trans (le_of_eq ?_) (single_le_sum (f := fun i : ℕ => open Classical in
      if (k : ℝ) * f - 1 / 4 < (i : ℝ) + 1 ∧ (i : ℝ) < ((k : ℝ) + 1) * f + 1 / 4 then |x i| else 0) (fun i _ => ?_) (mem_range.mpr w2))
    · rw [if_pos hm]
    · split_ifs
      · exact abs_nonneg _
      · exact le_rfl
  have habs : touch N (fun i => |x i|) ((k : ℝ) * f) (((k : ℝ) + 1) * f) = touch N x ((k : ℝ) * f) (((k : ℝ) + 1) * f) := by
    unfold touch
    simp only [abs_abs]
  have hd : |((dStart A f k : ℚ) : ℝ) - k * f| + |((dStop A f k : ℚ) : ℝ) - (k + 1) * f| ≤ 14 / 4 / 2 ^ 28 := by linarith
  have i1 := integral_lip N x (v7.trans (by norm_num)) (v8.trans (by norm_num)) hd
  have i2 := integral_lip N (fun i => |x i|) (v7.trans (by norm_num)) (v8.trans (by norm_num)) hd
  rw [habs] at i2
  change |_ - downsampled N x f k| ≤ _ at i1
  change |_ - downsampled N (fun i => |x i|) f k| ≤ _ at i2
  have hcl : 0 ≤ ((dStop A f k : ℚ) : ℝ) - min ((dStop A f k : ℚ) : ℝ) N ∧
      ((dStop A f k : ℚ) : ℝ) - min ((dStop A f k : ℚ) : ℝ) N ≤ 13 / 4 / 2 ^ 28 := by
    rcases le_total ((dStop A f k : ℚ) : ℝ) N with h1 | h1
    · rw [min_eq_left h1]; norm_num
    · rw [min_eq_right h1]; exact ⟨by linarith, v9⟩
  have hD : |downsampled N x f k| ≤ downsampled N (fun i => |x i|) f k := by
    unfold downsampled stepIntegral
    refine (abs_sum_le_sum_abs _ _).trans (sum_le_sum ?_)
    intro i _
    rw [abs_mul, abs_of_nonneg (overlap_nonneg _ _ _)]
  generalize touch N x ((k : ℝ) * f) (((k : ℝ) + 1) * f) = T at *
  generalize downsampled N (fun i => |x i|) f k = D' at *
  generalize downsampled N x f k = D at *
  generalize stepIntegral N (fun i => |x i|) _ _ = S' at *
  generalize stepIntegral N x _ _ = S at *
  generalize ((dStop A f k : ℚ) : ℝ) - min ((dStop A f k : ℚ) : ℝ) N = cl at *
  generalize x (dImax A N f k) = xq at *
  have e1 : |xq * cl| ≤ 13 / 4 / 2 ^ 28 * T := by
    rw [abs_mul, abs_of_nonneg hcl.1, mul_comm]
    exact mul_le_mul hcl.2 hxT (abs_nonneg _) (by norm_num)
  have e2 : |S + xq * cl - D| ≤ 1 / 2 ^ 25 * T := by
    have := abs_add_le (S - D) (xq * cl)
    rw [show S + xq * cl - D = S - D + xq * cl by ring]
    linarith
  have e3 : S' + |xq| * cl ≤ D' + 1 / 2 ^ 25 * T := by
    have h1 := (abs_le.mp i2).2
    rw [abs_mul, abs_of_nonneg hcl.1] at e1
    linarith
  have hD0 : 0 ≤ D' := (abs_nonneg _).trans hD
  refine ⟨?_, by linarith⟩
  have hK := pow_ge_one hq (⌈f⌉₊ + 4)
  have hqK := mul_le_mul_of_nonneg_right hK (by linarith : 0 ≤ grow u - 1)
  have c4 : |y - (S + xq * cl)| ≤ (grow u ^ (⌈f⌉₊ + 4) - 1) * (D' + 1 / 2 * T) :=
    c3.1.trans (mul_le_mul_of_nonneg_left (by linarith) (by linarith))
  have e4 : |y - D| ≤ |y - (S + xq * cl)| + |S + xq * cl - D| := abs_sub_le _ _ _
  have e5 : 1 / 2 ^ 25 * T ≤ (grow u - 1) * (D' + 1 / 2 * T) := by
    have h1 : 1 / 2 ^ 24 * (D' + 1 / 2 * T) ≤ (grow u - 1) * (D' + 1 / 2 * T) :=
      mul_le_mul_of_nonneg_right (by linarith) (by linarith)
    linarith
  have e6 : (grow u ^ (⌈f⌉₊ + 4) - 1) * (D' + 1 / 2 * T) + (grow u - 1) * (D' + 1 / 2 * T) ≤
      (grow u ^ (⌈f⌉₊ + 5) - 1) * (D' + 1 / 2 * T) := by
    rw [← add_mul]
    apply mul_le_mul_of_nonneg_right _ (by linarith)
    rw [pow_succ _ (⌈f⌉₊ + 4)]
    rw [one_mul, mul_sub, mul_one] at hqK
    linarith
  linarith

end sample

/-! ### The noise level -/

theorem var_pos (Q x : ℚ) : Q + 5 / 8 ≤ Q + 2 / 3 * x ^ 2 - x + 1 := by
  nlinarith [sq_nonneg (x - 3 / 4)]

/-- `downsampled_variance` in double precision. -/
theorem d_variance {A : DArith} (hA : Sane A) (hG : Grid A) {n : ℕ} (hn : n ≤ 2 ^ 25) {f : ℚ} (hf : 1 ≤ f) (hf2 : f ≤ 2 ^ 25)
    (b m s : ℕ) :
    ∃ V : ℚ, DTrial.IsVariance ⟨f, n, b, m, s⟩ V ∧ 1 / 2 ≤ V ∧
      |A.variance n f - V| ≤ 1 / 2 ^ 24 * V := by
  have en := hA.nat n (by omega)
  have hr0 : 0 ≤ f - ⌊f⌋ := by linarith [Int.floor_le f]
  have hr1 : f - ⌊f⌋ < 1 := by linarith [Int.lt_floor_add_one f]
  have hk1 : 1 ≤ ⌊f⌋ := by rw [Int.le_floor]; exact_mod_cast hf
  have hk2 : (⌊f⌋ : ℚ) ≤ 2 ^ 25 := (Int.floor_le f).trans hf2
  have hn0 : (0 : ℚ) ≤ n := Nat.cast_nonneg n
  have hnq : (n : ℚ) ≤ 2 ^ 25 := by exact_mod_cast hn
  have r1 := abs_le.mp (hA.rel _ hr0)
  have hfr0 := Dbl.fl_nonneg hA hr0
  have hx0 : 0 ≤ (n : ℚ) * A.fl (f - ⌊f⌋) := by positivity
  have r2 := abs_le.mp (hA.rel _ hx0)
  have hX0 : 0 ≤ (n : ℚ) * (f - ⌊f⌋) := by positivity
  -- the product
  have hx : |A.fl (n * A.fl (f - ⌊f⌋)) - n * (f - ⌊f⌋)| ≤ 3 / 2 ^ 53 * (n * (f - ⌊f⌋)) := by
    have a1 : (n : ℚ) * A.fl (f - ⌊f⌋) ≤ n * ((1 + u53) * (f - ⌊f⌋)) := mul_le_mul_of_nonneg_left (by linarith) hn0
    have a2 : (n : ℚ) * ((1 - u53) * (f - ⌊f⌋)) ≤ n * A.fl (f - ⌊f⌋) := mul_le_mul_of_nonneg_left (by linarith) hn0
    rw [show (n : ℚ) * ((1 + u53) * (f - ⌊f⌋)) = (1 + u53) * (n * (f - ⌊f⌋)) by ring] at a1
    rw [show (n : ℚ) * ((1 - u53) * (f - ⌊f⌋)) = (1 - u53) * (n * (f - ⌊f⌋)) by ring] at a2
    generalize (n : ℚ) * (f - ⌊f⌋) = X at *
    generalize (n : ℚ) * A.fl (f - ⌊f⌋) = Y at *
    unfold u53 at *
    rw [abs_le]
    constructor <;> linarith
  have hxf0 := Dbl.fl_nonneg hA hx0
  unfold DArith.variance DTrial.IsVariance
  simp only
  rw [en]
  generalize A.fl (n * A.fl (f - ⌊f⌋)) = x at *
  generalize (n : ℚ) * (f - ⌊f⌋) = X at *
  have hxl := abs_le.mp hx
  by_cases hb : x > 1
  · rw [if_pos hb]
    refine ⟨f - 1 / 3, Or.inl ⟨rfl, by linarith⟩, by linarith, ?_⟩
    · have t1 := abs_le.mp (hA.rel (1 / 3) (by norm_num))
      have t3 : 0 ≤ f - A.fl (1 / 3) := by
        unfold u53 at *
        linarith
      have t2 := abs_le.mp (hA.rel (f - A.fl (1 / 3)) t3)
      unfold u53 at *
      rw [abs_le]
      constructor <;> linarith
  · rw [if_neg hb]
    push Not at hb
    have hQ : 0 ≤ ((⌊f⌋ : ℚ) - 1) ^ 2 := sq_nonneg _
    have hV := var_pos (((⌊f⌋ : ℚ) - 1) ^ 2) X
    have hX1 : X ≤ 2 := by linarith
    refine ⟨_, Or.inr ⟨rfl, by linarith⟩, by linarith, ?_⟩
    · have hX2 : X ≤ 1 + 1 / 2 ^ 50 := by
        have : X ≤ 2 := by linarith
        linarith
      have ek : A.fl ((⌊f⌋ : ℚ) - 1) = ⌊f⌋ - 1 := by
        obtain ⟨j, hj⟩ := Int.eq_ofNat_of_zero_le (by omega : 0 ≤ ⌊f⌋ - 1)
        have e : (⌊f⌋ : ℚ) - 1 = (j : ℕ) := by
          have : ((⌊f⌋ - 1 : ℤ) : ℚ) = ((j : ℤ) : ℚ) := by rw [hj]
          push_cast at this
          exact this
        rw [e]
        apply hA.nat
        have : (j : ℚ) ≤ 2 ^ 25 := by rw [← e]; linarith
        have : j ≤ 2 ^ 25 := by exact_mod_cast this
        omega
      rw [ek]
      generalize ((⌊f⌋ : ℚ) - 1) ^ 2 = Q at *
      have p1 := abs_le.mp (hA.rel Q hQ)
      have c1 := abs_le.mp (hA.rel (2 / 3) (by norm_num))
      have hxx : 0 ≤ x ^ 2 := sq_nonneg _
      have y1 := abs_le.mp (hA.rel (x ^ 2) hxx)
      have hx2 : x ^ 2 ≤ 1 := by nlinarith
      have hy0 := Dbl.fl_nonneg hA hxx
      have hc0 := Dbl.fl_nonneg hA (x := 2 / 3) (by norm_num)
      have hp0 := Dbl.fl_nonneg hA hQ
      have sq1 : |x ^ 2 - X ^ 2| ≤ 1 / 2 ^ 48 := by
        rw [sq_sub_sq, abs_mul]
        have q1 : |x + X| ≤ 3 := by rw [abs_of_nonneg (by linarith)]; linarith
        have q2 : |x - X| ≤ 4 / 2 ^ 53 := by
          rw [abs_le]
          constructor <;> linarith
        calc _ ≤ (3 : ℚ) * (4 / 2 ^ 53) := mul_le_mul q1 q2 (abs_nonneg _) (by norm_num)
          _ ≤ _ := by norm_num
      have sq2 := abs_le.mp sq1
      generalize A.fl (x ^ 2) = y at *
      generalize A.fl (2 / 3) = c at *
      generalize A.fl Q = p at *
      have cy : |c * y - 2 / 3 * X ^ 2| ≤ 1 / 2 ^ 46 := by
        have e : c * y - 2 / 3 * X ^ 2 = (c - 2 / 3) * y + 2 / 3 * (y - X ^ 2) := by ring
        rw [e]
        have q1 : |c - 2 / 3| ≤ 1 / 2 ^ 53 := by
          unfold u53 at *
          rw [abs_le]
          constructor <;> linarith
        have q2 : |y| ≤ 2 := by
          unfold u53 at *
          rw [abs_of_nonneg hy0]; linarith
        have q3 : |y - X ^ 2| ≤ 1 / 2 ^ 47 := by
          unfold u53 at *
          rw [abs_le]
          constructor <;> linarith
        refine (abs_add_le _ _).trans ?_
        rw [abs_mul, abs_mul, abs_of_nonneg (by norm_num : (0 : ℚ) ≤ 2 / 3)]
        have := mul_le_mul q1 q2 (abs_nonneg _) (by norm_num)
        linarith
      have cy2 := abs_le.mp cy
      have hcy0 : 0 ≤ c * y := by positivity
      have hX3 : X ^ 2 ≤ 2 := by nlinarith
      have hs : |(if A.fused = true then A.fl (p + c * y) else A.fl (p + A.fl (c * y))) - (Q + 2 / 3 * X ^ 2)| ≤
          3 / 2 ^ 53 * Q + 1 / 2 ^ 44 := by
        split_ifs
        · have z1 := abs_le.mp (hA.rel (p + c * y) (by linarith))
          unfold u53 at *
          rw [abs_le]
          constructor <;> linarith
        · have z0 := abs_le.mp (hA.rel (c * y) hcy0)
          have z2 := Dbl.fl_nonneg hA hcy0
          have z1 := abs_le.mp (hA.rel (p + A.fl (c * y)) (by linarith))
          unfold u53 at *
          rw [abs_le]
          constructor <;> linarith
      generalize (if A.fused = true then A.fl (p + c * y) else A.fl (p + A.fl (c * y))) = s at *
      have hs2 := abs_le.mp hs
      have g1 := hG.rel (s - x)
      have hsx : |s - x| ≤ 2 * Q + 4 := by
        rw [abs_le]
        have : 0 ≤ X ^ 2 := sq_nonneg X
        constructor <;> linarith
      have g1' : |A.fl (s - x) - (s - x)| ≤ u53 * (2 * Q + 4) := g1.trans (mul_le_mul_of_nonneg_left hsx (by norm_num [u53]))
      have g2 := abs_le.mp g1'
      have g3 := hG.rel (A.fl (s - x) + 1)
      have hsx2 : |A.fl (s - x) + 1| ≤ 3 * Q + 6 := by
        unfold u53 at g2
        have := abs_le.mp hsx
        rw [abs_le]
        constructor <;> linarith
      have g4 := abs_le.mp (g3.trans (mul_le_mul_of_nonneg_left hsx2 (by norm_num [u53])))
      unfold u53 at g2 g4
      rw [abs_le]
      constructor <;> linarith

/-- The noise level of a trial, in single precision. -/
theorem stdNoise_near {A : DArith} {B : FArith} {u v : ℝ} (hA : Sane A) (h : Rounds B u v) (hu : 1 / 2 ^ 24 ≤ u) {rows size : ℕ}
    (hrows : 1 ≤ rows) (hrows2 : rows ≤ 2 ^ 53) {f V : ℚ} (hV : 1 / 2 ≤ V)
    (he : |A.variance ⌊A.fl (A.fl size / f)⌋₊ f - V| ≤ 1 / 2 ^ 24 * V) :
    NearR (grow u) 3 (B.stdNoise A rows size f) (Real.sqrt (rows * V)) := by
  have hq := (grow_facts h).1
  unfold FArith.stdNoise
  rw [hA.nat rows hrows2]
  generalize A.variance ⌊A.fl (A.fl size / f)⌋₊ f = y at *
  have he' : |(y : ℝ) - V| ≤ 1 / 2 ^ 24 * V := by
    have := (Rat.cast_le (K := ℝ)).mpr he
    push_cast at this
    exact this
  have hV' : (0 : ℝ) < V := by
    have : (0 : ℚ) < V := by linarith
    exact_mod_cast this
  have hy : 0 ≤ y := by
    have := abs_le.mp he
    linarith
  have n0 : NearR (grow u) 1 (y : ℝ) V := by
    refine (NearR.refl (q := grow u) (V : ℝ)).round h.u_nonneg h.u_lt (grow_facts h).2.2 hV'.le ?_
    rw [abs_of_pos hV']
    exact he'.trans (mul_le_mul_of_nonneg_right hu hV'.le)
  have hr0 : (0 : ℝ) ≤ rows := Nat.cast_nonneg _
  have hyR : (0 : ℝ) ≤ y := by exact_mod_cast hy
  have n1 := NearR.mul hq hr0 hr0 hyR hV'.le (NearR.refl (q := grow u) (rows : ℝ)) n0
  have n1' : NearR (grow u) (0 + 1) (((rows : ℚ) * y : ℚ) : ℝ) (rows * V) := by
    rw [Rat.cast_mul, Rat.cast_natCast]
    exact n1
  have hry : 0 ≤ (rows : ℚ) * y := by positivity
  have n2 := near_double hA h hu hry n1'
  have h2 : (0 : ℝ) ≤ ((A.fl ((rows : ℚ) * y) : ℚ) : ℝ) := by exact_mod_cast Dbl.fl_nonneg hA hry
  have n3 := near_sqrt h (j := 1) (by norm_num) h2 (by positivity) n2
  exact near_fl32 h (n3.nonneg hq (Real.sqrt_nonneg _)) n3

/-- The series searched at one stage. -/
theorem dStage_close {A : DArith} {B : FArith} {u v : ℝ} (hA : Sane A) (hG : Grid A) (h : Rounds B u v) (hu : 1 / 2 ^ 24 ≤ u) {a : DArgs}
    (hr : InRange A a) (x : ℕ → ℝ) (hN : a.size ≤ 2 ^ 25) {i k : ℕ} (hk : k < nN A a i) :
    Close (grow u) (⌈A.f a i⌉₊ + 5) (dStageData A a (B.searchOps A) x i k) (downsampled a.size x (A.f a i) k)
      (downsampled a.size (fun i => |x i|) (A.f a i) k + 1 / 2 * touch a.size x ((k : ℝ) * A.f a i) (((k : ℝ) + 1) * A.f a i)) := by
  unfold dStageData
  split_ifs with hf
  · rw [hf, Rat.cast_one]
    have hkN := lt_of_lt_of_le hk (d_n_le_size hA hr i)
    rw [Props.window_int a.size x k hkN, Props.window_int a.size _ k hkN]
    have := touch_nonneg a.size x ((k : ℝ) * 1) (((k : ℝ) + 1) * 1)
    exact (Close.exact (x k)).mono (grow_facts h).1 (by omega) (by linarith)
  · have h1 := lt_of_le_of_ne (d_f_ge_one hA hr i) (Ne.symm hf)
    exact dSample_close hA h hu x hN (hG.gap _ h1) hk

/-! ### IEEE double precision -/

theorem rn_rel_abs (p : ℕ) (x : ℚ) : |rn p x - x| ≤ 1 / 2 ^ p * |x| := by
  unfold rn
  split_ifs with hx
  · simp [hx]
  have hpos : 0 < |x| := abs_pos.mpr hx
  simp only
  have hs : (0 : ℚ) < (2 : ℚ) ^ (Int.log 2 |x| - ((p : ℤ) - 1)) := by positivity
  have h2 : (2 : ℚ) ^ Int.log 2 |x| ≤ |x| := by exact_mod_cast Int.zpow_log_le_self (by norm_num) hpos
  have h3 : (2 : ℚ) ^ (Int.log 2 |x| - ((p : ℤ) - 1)) / 2 = 1 / 2 ^ p * (2 : ℚ) ^ Int.log 2 |x| := by
    rw [zpow_sub₀ (by norm_num), zpow_sub₀ (by norm_num), zpow_one, zpow_natCast]
    field_simp
  generalize (2 : ℚ) ^ (Int.log 2 |x| - ((p : ℤ) - 1)) = d at *
  have h1 := rhe_err (x / d)
  have e : (roundHalfEven (x / d) : ℚ) * d - x = (roundHalfEven (x / d) - x / d) * d := by field_simp
  rw [e, abs_mul, abs_of_pos hs]
  calc _ ≤ 1 / 2 * d := mul_le_mul_of_nonneg_right h1 hs.le
    _ = 1 / 2 ^ p * (2 : ℚ) ^ Int.log 2 |x| := by rw [← h3]; ring
    _ ≤ _ := mul_le_mul_of_nonneg_left h2 (by positivity)

theorem rep_gap {y : ℚ} (h : Rep 53 y) (h1 : 1 < y) : 1 + 2 * u53 ≤ y := by
  obtain ⟨m, e, hm, rfl⟩ := h
  rcases le_or_gt (-52) e with he | he
  · obtain ⟨j, hj⟩ := Int.eq_ofNat_of_zero_le (by omega : 0 ≤ e + 52)
    have e1 : (2 : ℚ) ^ e = 2 ^ j / 2 ^ 52 := by
      rw [show e = (j : ℤ) - 52 by omega, zpow_sub₀ (by norm_num), zpow_natCast]
      norm_num
    rw [e1] at h1 ⊢
    have h2 : ((2 ^ 52 : ℕ) : ℚ) < ((m * 2 ^ j : ℕ) : ℚ) := by
      push_cast
      rw [← mul_div_assoc, lt_div_iff₀ (by positivity)] at h1
      linarith
    have h3 : 2 ^ 52 + 1 ≤ m * 2 ^ j := by exact_mod_cast h2
    have h4 : (2 : ℚ) ^ 52 + 1 ≤ m * 2 ^ j := by exact_mod_cast h3
    rw [← mul_div_assoc, le_div_iff₀ (by positivity)]
    unfold u53
    linarith
  · exfalso
    have e1 : (2 : ℚ) ^ e ≤ 2 ^ (-53 : ℤ) := zpow_le_zpow_right₀ (by norm_num) (by omega)
    have hm' : (m : ℚ) < 2 ^ 53 := by exact_mod_cast hm
    have : (m : ℚ) * 2 ^ e ≤ 2 ^ 53 * 2 ^ (-53 : ℤ) := mul_le_mul hm'.le e1 (by positivity) (by positivity)
    norm_num at this
    linarith

/-- IEEE double precision has the facts of `Grid`. -/
theorem grid_ieee (log : ℚ → ℚ) (pow : ℚ → ℕ → ℚ) (fused : Bool) : Grid (ieeeDouble log pow fused) where
  rel := rn_rel_abs 53
  gap x h := by
    rcases le_or_gt x 0 with hx | hx
    · exfalso
      have h1 := (abs_le.mp (rn_rel_abs 53 x)).2
      rw [abs_of_nonpos hx] at h1
      have h2 : 1 < rn 53 x := h
      linarith
    · exact rep_gap (rn_is_rep (by norm_num) hx) h

end Verif.Lemmas
