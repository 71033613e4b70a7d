import Verif.Spec.SearchFloat
import Verif.Lemmas.TrialF

/-! # Helper lemmas: windows whose ends are not exact -/

namespace Verif.Lemmas

open Verif.Model Verif.Spec Finset

theorem overlap_le_add (i : ℕ) (a b a' b' : ℝ) : overlap i a b ≤ overlap i a' b' + |a - a'| + |b - b'| := by
  have h1 := abs_nonneg (a - a')
  have h2 := abs_nonneg (b - b')
  have h0 := overlap_nonneg i a' b'
  unfold overlap at *
  apply max_le (by linarith)
  have e1 : min ((i : ℝ) + 1) b ≤ min ((i : ℝ) + 1) b' + |b - b'| := by
    rcases le_total ((i : ℝ) + 1) b' with h | h
    · rw [min_eq_left h]; linarith [min_le_left ((i : ℝ) + 1) b]
    · rw [min_eq_right h]; linarith [min_le_right ((i : ℝ) + 1) b, le_abs_self (b - b')]
  have e2 : max (i : ℝ) a' ≤ max (i : ℝ) a + |a - a'| := by
    apply max_le
    · linarith [le_max_left (i : ℝ) a]
    · linarith [le_max_right (i : ℝ) a, neg_abs_le (a - a')]
  have e3 := le_max_right 0 (min ((i : ℝ) + 1) b' - max (i : ℝ) a')
  linarith

theorem overlap_lip (i : ℕ) (a b a' b' : ℝ) : |overlap i a b - overlap i a' b'| ≤ |a - a'| + |b - b'| := by
  rw [abs_le]
  have h1 := overlap_le_add i a b a' b'
  have h2 := overlap_le_add i a' b' a b
  rw [abs_sub_comm a' a, abs_sub_comm b' b] at h2
  constructor <;> linarith

theorem overlap_zero {i : ℕ} {a b : ℝ} (h : (i : ℝ) + 1 ≤ a ∨ b ≤ i) : overlap i a b = 0 := by
  unfold overlap
  apply max_eq_left
  rcases h with h | h
  · linarith [min_le_left ((i : ℝ) + 1) b, le_max_right (i : ℝ) a]
  · linarith [min_le_right ((i : ℝ) + 1) b, le_max_left (i : ℝ) a]

theorem overlap_clip {i N : ℕ} (hi : i < N) (a b : ℝ) : overlap i a (min b N) = overlap i a b := by
  unfold overlap
  have : (i : ℝ) + 1 ≤ N := by exact_mod_cast hi
  rw [← min_assoc, min_comm, ← min_assoc, min_eq_right this]

theorem touch_nonneg (N : ℕ) (x : ℕ → ℝ) (a b : ℝ) : 0 ≤ touch N x a b := by
  unfold touch
  refine sum_nonneg (fun i _ => ?_)
  split_ifs
  · exact abs_nonneg _
  · exact le_rfl

/-- The integrals over two intervals whose ends differ little. -/
theorem integral_lip (N : ℕ) (x : ℕ → ℝ) {a b a' b' d : ℝ} (ha : |a' - a| ≤ 1 / 4) (hb : |b' - b| ≤ 1 / 4)
    (hd : |a' - a| + |b' - b| ≤ d) : |stepIntegral N x a' b' - stepIntegral N x a b| ≤ d * touch N x a b := by
  have hd0 : 0 ≤ d := le_trans (by positivity) hd
  unfold stepIntegral touch
  rw [← sum_sub_distrib, mul_sum]
  refine (abs_sum_le_sum_abs _ _).trans (sum_le_sum ?_)
  intro i _
  rw [← mul_sub, abs_mul]
  split_ifs with h
  · rw [mul_comm d]
    exact mul_le_mul_of_nonneg_left ((overlap_lip i a' b' a b).trans hd) (abs_nonneg _)
  · have h' : a - 1 / 4 ≥ (i : ℝ) + 1 ∨ (i : ℝ) ≥ b + 1 / 4 := by
      by_contra hc
      push Not at hc
      exact h hc
    rw [abs_le] at ha hb
    have e1 : overlap i a b = 0 := overlap_zero (by rcases h' with h' | h' <;> [left; right] <;> linarith)
    have e2 : overlap i a' b' = 0 := overlap_zero (by rcases h' with h' | h' <;> [left; right] <;> linarith)
    rw [e1, e2]
    simp

/-- The sum that the loop of `downsample` computes, if the ends of the window are `s1` and `e1`. -/
theorem window_sum (N p q : ℕ) (x : ℕ → ℝ) {s1 e1 : ℝ} (hpq : p < q) (hq : q < N) (h1 : (p : ℝ) ≤ s1) (h2 : s1 ≤ (p : ℝ) + 1)
    (h3 : (q : ℝ) ≤ e1) (h4 : e1 ≤ (q : ℝ) + 1 ∨ q + 1 = N) :
    x p * ((p : ℝ) + 1 - s1) + ∑ t ∈ range (q - (p + 1)), x (p + 1 + t) + x q * (e1 - q) =
      stepIntegral N x s1 e1 + x q * (e1 - min e1 N) := by
  have hqN : (q : ℝ) + 1 ≤ N := by exact_mod_cast hq
  have hm : (q : ℝ) ≤ min e1 N := le_min h3 (by linarith)
  have hm2 : min e1 (N : ℝ) ≤ (q : ℝ) + 1 := by
    rcases h4 with h4 | h4
    · exact (min_le_left _ _).trans h4
    · refine (min_le_right _ _).trans ?_
      rw [← h4]; push_cast; exact le_rfl
  have e : stepIntegral N x s1 e1 = ∑ i ∈ range N, x i * overlap i s1 (min e1 N) := by
    unfold stepIntegral
    exact sum_congr rfl (fun i hi => by rw [overlap_clip (mem_range.mp hi)])
  rw [e, sum_overlap N p q _ _ (fun i o => x i * o) (by simp) hpq hq h1 h2 hm hm2]
  simp only [mul_one]
  ring

open Classical in
/-- The windows that are touched by a sample. -/
noncomputable def touched (f : ℝ) (i n : ℕ) : Finset ℕ :=
  (range n).filter (fun k : ℕ => (k : ℝ) * f - 1 / 4 < (i : ℝ) + 1 ∧ (i : ℝ) < ((k : ℝ) + 1) * f + 1 / 4)

/-- A sample touches at most three windows. -/
theorem touch_count (f : ℝ) (hf : 1 ≤ f) (i n : ℕ) : (touched f i n).card ≤ 3 := by
  rcases (touched f i n).eq_empty_or_nonempty with h | h
  · rw [h]; simp
  · obtain ⟨k0, hk0, hmin⟩ := (touched f i n).exists_min_image id h
    have hk0' := (mem_filter.mp hk0).2.2
    have : touched f i n ⊆ Icc k0 (k0 + 2) := by
      intro k hk
      have hk' := (mem_filter.mp hk).2.1
      rw [mem_Icc]
      refine ⟨hmin k hk, ?_⟩
      by_contra hc
      have h3 : (k0 : ℝ) + 3 ≤ k := by exact_mod_cast (by omega : k0 + 3 ≤ k)
      have h4 : ((k0 : ℝ) + 3) * f ≤ k * f := mul_le_mul_of_nonneg_right h3 (by linarith)
      nlinarith
    refine (card_le_card this).trans ?_
    rw [Nat.card_Icc]; omega

theorem touch_sum (N : ℕ) (x : ℕ → ℝ) (f : ℝ) (hf : 1 ≤ f) (n : ℕ) :
    ∑ k ∈ range n, touch N x ((k : ℝ) * f) (((k : ℝ) + 1) * f) ≤ 3 * ∑ i ∈ range N, |x i| := by
  unfold touch
  rw [sum_comm, mul_sum]
  apply sum_le_sum
  intro i _
  rw [← sum_filter, sum_const, nsmul_eq_mul]
  have h : ((touched f i n).card : ℝ) ≤ 3 := by exact_mod_cast touch_count f hf i n
  exact mul_le_mul_of_nonneg_right h (abs_nonneg _)

end Verif.Lemmas
