import Verif.Lemmas.Float
import Mathlib.Tactic.IntervalCases
import Mathlib.Tactic.NormNum

/-! # The single precision index rule of `merge` -/

namespace Verif.Lemmas

open Verif.Model

/-- Unit roundoff of `float`. -/
def u32 : ℚ := 1 / 2 ^ 24

theorem u32_eq : u32 = 1 / 2 ^ 24 := rfl

theorem rn_upper {x : ℚ} (hx : 0 ≤ x) : rn 24 x ≤ x * (1 + u32) := by
  have := (abs_le.mp (rn_rel (p := 24) hx)).2
  rw [← u32_eq] at this
  linarith

theorem rn_lower {x : ℚ} (hx : 0 ≤ x) : x * (1 - u32) ≤ rn 24 x := by
  have := (abs_le.mp (rn_rel (p := 24) hx)).1
  rw [← u32_eq] at this
  linarith

theorem coef_eq {rows m : ℕ} (hr : 1 ≤ rows) (hrm : rows ≤ m) (hm : m ≤ 2 ^ 22) :
    mergeCoef (rn 24) rows m = rn 24 (((rows - 1 : ℕ) : ℚ) / ((m - 1 : ℕ) : ℚ)) := by
  have e1 : ∀ n : ℕ, n ≤ 2 ^ 22 → rn 24 (n : ℚ) = n := fun n hn =>
    rn_rep (by norm_num) (rep_nat (by omega)) (Nat.cast_nonneg _)
  unfold mergeCoef
  rw [e1 rows (by omega), e1 m hm]
  have hr' : (rows : ℚ) - 1 = ((rows - 1 : ℕ) : ℚ) := by rw [Nat.cast_sub hr]; simp
  have hm' : (m : ℚ) - 1 = ((m - 1 : ℕ) : ℚ) := by rw [Nat.cast_sub (by omega)]; simp
  rw [hr', hm', e1 _ (by omega), e1 _ (by omega)]

/-- Value before truncation, without and with contraction. -/
theorem float32Idx_eq {rows m s : ℕ} (hr : 1 ≤ rows) (hrm : rows ≤ m) (hm : m ≤ 2 ^ 22) (hs : s < m) :
    float32Idx rows m s =
      ⌊rn 24 (rn 24 (rn 24 (((rows - 1 : ℕ) : ℚ) / ((m - 1 : ℕ) : ℚ)) * s) + 1 / 2)⌋₊ := by
  unfold float32Idx mergeIdx
  rw [coef_eq hr hrm hm, rn_rep (by norm_num) (rep_nat (show s < 2 ^ 24 by omega)) (Nat.cast_nonneg s)]

theorem float32IdxFma_eq {rows m s : ℕ} (hr : 1 ≤ rows) (hrm : rows ≤ m) (hm : m ≤ 2 ^ 22) (hs : s < m) :
    float32IdxFma rows m s =
      ⌊rn 24 (rn 24 (((rows - 1 : ℕ) : ℚ) / ((m - 1 : ℕ) : ℚ)) * s + 1 / 2)⌋₊ := by
  unfold float32IdxFma mergeIdxFma
  rw [coef_eq hr hrm hm, rn_rep (by norm_num) (rep_nat (show s < 2 ^ 24 by omega)) (Nat.cast_nonneg s)]

theorem val_upper {q s : ℚ} (hq : 0 ≤ q) (hs : 0 ≤ s) :
    rn 24 (rn 24 (rn 24 q * s) + 1 / 2) ≤ (q * s * (1 + u32) ^ 2 + 1 / 2) * (1 + u32) := by
  have h0 := rn_nonneg (p := 24) hq
  have h1 := rn_upper hq
  have hp : 0 ≤ rn 24 q * s := mul_nonneg h0 hs
  have h2 := rn_upper hp
  have h20 := rn_nonneg (p := 24) hp
  have h3 := rn_upper (show 0 ≤ rn 24 (rn 24 q * s) + 1 / 2 by linarith)
  refine h3.trans ?_
  have hu : (0 : ℚ) ≤ 1 + u32 := by norm_num [u32_eq]
  apply mul_le_mul_of_nonneg_right _ hu
  have : rn 24 q * s * (1 + u32) ≤ q * (1 + u32) * s * (1 + u32) := by
    apply mul_le_mul_of_nonneg_right _ hu
    exact mul_le_mul_of_nonneg_right h1 hs
  have e : q * s * (1 + u32) ^ 2 = q * (1 + u32) * s * (1 + u32) := by ring
  rw [e]
  linarith

theorem val_upper_fma {q s : ℚ} (hq : 0 ≤ q) (hs : 0 ≤ s) :
    rn 24 (rn 24 q * s + 1 / 2) ≤ (q * s * (1 + u32) ^ 2 + 1 / 2) * (1 + u32) := by
  have h0 := rn_nonneg (p := 24) hq
  have h1 := rn_upper hq
  have hp : 0 ≤ rn 24 q * s := mul_nonneg h0 hs
  have h3 := rn_upper (show 0 ≤ rn 24 q * s + 1 / 2 by linarith)
  refine h3.trans ?_
  have hu : (0 : ℚ) ≤ 1 + u32 := by norm_num [u32_eq]
  apply mul_le_mul_of_nonneg_right _ hu
  have h4 : rn 24 q * s ≤ q * (1 + u32) * s := mul_le_mul_of_nonneg_right h1 hs
  have h5 : 0 ≤ q * (1 + u32) * s := mul_nonneg (mul_nonneg hq hu) hs
  have e : q * s * (1 + u32) ^ 2 = q * (1 + u32) * s * (1 + u32) := by ring
  have h6 : q * (1 + u32) * s * 1 ≤ q * (1 + u32) * s * (1 + u32) :=
    mul_le_mul_of_nonneg_left (by norm_num [u32_eq]) h5
  rw [e]
  linarith

/-- The rounded product is not below the half integer `N/2`, or misses it by less than half a spacing. -/
theorem prod_lower {q : ℚ} (hq1 : 1 / 4 ≤ q) (hq2 : q < 1 / 2) {s N k : ℕ} (hs : s < 2 ^ 22)
    (hN : 1 ≤ N) (hodd : N % 2 = 1) (hk1 : 2 ^ k ≤ N) (hk2 : N < 2 ^ (k + 1)) (hk : k ≤ 22)
    (hle : (N : ℚ) / 2 ≤ q * s)
    (hbig : ∀ d : ℕ, s = 2 ^ (k + 1) + d → 1 ≤ d → (d : ℚ) / 2 ^ 26 < q * s - N / 2) :
    (N : ℚ) / 2 ≤ rn 24 q * s ∨
      (2 ^ k < N ∧ (N : ℚ) / 2 - 2 ^ ((k : ℤ) - 25) < rn 24 q * s) := by
  have hs0 : (0 : ℚ) ≤ s := Nat.cast_nonneg _
  have hq0 : 0 < q := by linarith
  have hqr : (1 / 4 : ℚ) ≤ rn 24 q := rn_ge_rep (by norm_num)
    ⟨1, -2, by norm_num, by norm_num [zpow_neg]⟩ hq0 hq1
  have herr : q - 1 / 2 ^ 26 ≤ rn 24 q := by
    have := (abs_le.mp (rn_err_of_pos (p := 24) hq0 (-2) (by norm_num [zpow_neg]; linarith)
      (by norm_num; linarith))).1
    have e : (2 : ℚ) ^ ((-2 : ℤ) - ((24 : ℕ) : ℤ)) = 1 / 2 ^ 26 := by norm_num [zpow_neg]
    rw [e] at this
    linarith
  have hprod : q * s - s / 2 ^ 26 ≤ rn 24 q * s := by
    have := mul_le_mul_of_nonneg_right herr hs0
    calc q * s - s / 2 ^ 26 = (q - 1 / 2 ^ 26) * s := by ring
      _ ≤ _ := this
  -- N = 1
  rcases Nat.lt_or_ge N 2 with hN1 | hN2
  · obtain rfl : N = 1 := by omega
    left
    rcases Nat.lt_or_ge s 2 with h2 | h2
    · exfalso
      have : (s : ℚ) ≤ 1 := by exact_mod_cast (by omega : s ≤ 1)
      push_cast at hle
      nlinarith
    · have : (2 : ℚ) ≤ s := by exact_mod_cast h2
      push_cast
      nlinarith
  have hstrict : 2 ^ k < N := by
    rcases Nat.lt_or_ge (2 ^ k) N with h | h
    · exact h
    · exfalso
      have he : N = 2 ^ k := by omega
      rcases Nat.eq_zero_or_pos k with rfl | hkp
      · simp at he; omega
      · obtain ⟨j, rfl⟩ : ∃ j, k = j + 1 := ⟨k - 1, by omega⟩
        rw [pow_succ] at he
        omega
  have hpow : (2 : ℚ) ^ (k + 1) / 2 ^ 26 = 2 ^ ((k : ℤ) - 25) := by
    rw [show (k : ℤ) - 25 = ((k + 1 : ℕ) : ℤ) - ((26 : ℕ) : ℤ) by push_cast; ring,
      zpow_sub₀ (by norm_num), zpow_natCast, zpow_natCast]
  rcases Nat.lt_trichotomy s (2 ^ (k + 1)) with h | h | h
  · right
    refine ⟨hstrict, ?_⟩
    have : (s : ℚ) < 2 ^ (k + 1) := by exact_mod_cast h
    have h2 : (s : ℚ) / 2 ^ 26 < 2 ^ (k + 1) / 2 ^ 26 := div_lt_div_of_pos_right this (by norm_num)
    rw [hpow] at h2
    linarith
  · left
    have hsq : (s : ℚ) = 2 ^ (k + 1) := by rw [h]; push_cast; rfl
    have hspos : (0 : ℚ) < s := by rw [hsq]; positivity
    have : (N : ℚ) / 2 / s ≤ rn 24 q := by
      apply rn_ge_rep (by norm_num) _ hq0
      · rw [div_le_iff₀ hspos]; exact hle
      · refine ⟨N, -((k : ℤ) + 2), ?_, ?_⟩
        · calc N < 2 ^ (k + 1) := hk2
            _ ≤ 2 ^ 24 := Nat.pow_le_pow_right (by norm_num) (by omega)
        · rw [hsq, zpow_neg, zpow_add₀ (by norm_num), zpow_natCast, pow_succ]
          field_simp
    rwa [div_le_iff₀ hspos] at this
  · right
    refine ⟨hstrict, ?_⟩
    obtain ⟨d, hd⟩ : ∃ d, s = 2 ^ (k + 1) + d := ⟨s - 2 ^ (k + 1), by omega⟩
    have hb := hbig d hd (by omega)
    have hsq : (s : ℚ) = 2 ^ (k + 1) + d := by rw [hd]; push_cast; rfl
    have h2 : (s : ℚ) / 2 ^ 26 = 2 ^ ((k : ℤ) - 25) + d / 2 ^ 26 := by
      rw [hsq, add_div, hpow]
    linarith

theorem half_grid {N k : ℕ} (hk : k ≤ 22) (hk1 : 2 ^ k < N) (hk2 : N < 2 ^ (k + 1)) {y : ℚ}
    (h : (N : ℚ) / 2 - 2 ^ ((k : ℤ) - 25) < y) : (N : ℚ) / 2 ≤ rn 24 y := by
  have hk1' : (2 : ℚ) ^ k + 1 ≤ N := by exact_mod_cast hk1
  have hk2' : (N : ℚ) ≤ 2 ^ k * 2 := by
    have : (N : ℚ) < 2 ^ (k + 1) := by exact_mod_cast hk2
    rw [pow_succ] at this
    exact this.le
  have hsm : (2 : ℚ) ^ ((k : ℤ) - 25) ≤ 1 / 2 := by
    calc (2 : ℚ) ^ ((k : ℤ) - 25) ≤ 2 ^ (-1 : ℤ) := zpow_le_zpow_right₀ (by norm_num) (by omega)
      _ = 1 / 2 := by norm_num
  have he : (2 : ℚ) ^ ((k : ℤ) - 1) = 2 ^ k / 2 := by
    rw [zpow_sub_one₀ (by norm_num), zpow_natCast]; ring
  apply rn_ge_half (p := 24) ((k : ℤ) - 1) (N * 2 ^ (23 - k)) _ _ _ (by norm_num)
  · rw [show ((k : ℤ) - 1 - ((24 : ℕ) : ℤ)) = k - 25 by push_cast; ring]; exact h
  · obtain ⟨j, hj⟩ : ∃ j, 23 = k + j := ⟨23 - k, by omega⟩
    have : 23 - k = j := by omega
    rw [this, show ((k : ℤ) - 1 - (((24 : ℕ) : ℤ) - 1)) = -((j : ℤ) + 1) by push_cast; omega,
      zpow_neg, zpow_add₀ (by norm_num), zpow_natCast]
    push_cast
    field_simp
  · rw [show ((k : ℤ) - 1 - ((24 : ℕ) : ℤ)) = k - 25 by push_cast; ring, he]
    linarith
  · rw [show (k : ℤ) - 1 + 1 = k by ring, zpow_natCast]
    linarith

theorem nat_grid {h k : ℕ} (hk : k ≤ 22) (hk1 : 2 ^ k < 2 * h - 1) (hk2 : 2 * h - 1 < 2 ^ (k + 1)) {y : ℚ}
    (hy : (h : ℚ) - 2 ^ ((k : ℤ) - 25) < y) : (h : ℚ) ≤ rn 24 y := by
  have hk1' : (2 : ℚ) ^ k + 2 ≤ 2 * h := by exact_mod_cast (by omega : 2 ^ k + 2 ≤ 2 * h)
  have hk2' : (h : ℚ) ≤ 2 ^ k := by
    exact_mod_cast (by rw [pow_succ] at hk2; omega : h ≤ 2 ^ k)
  have hsm : (2 : ℚ) ^ ((k : ℤ) - 25) ≤ 1 / 2 := by
    calc (2 : ℚ) ^ ((k : ℤ) - 25) ≤ 2 ^ (-1 : ℤ) := zpow_le_zpow_right₀ (by norm_num) (by omega)
      _ = 1 / 2 := by norm_num
  have he : (2 : ℚ) ^ ((k : ℤ) - 1) = 2 ^ k / 2 := by
    rw [zpow_sub_one₀ (by norm_num), zpow_natCast]; ring
  apply rn_ge_half (p := 24) ((k : ℤ) - 1) (h * 2 ^ (24 - k)) _ _ _ (by norm_num)
  · rw [show ((k : ℤ) - 1 - ((24 : ℕ) : ℤ)) = k - 25 by push_cast; ring]; exact hy
  · obtain ⟨j, hj⟩ : ∃ j, 24 = k + j := ⟨24 - k, by omega⟩
    have : 24 - k = j := by omega
    rw [this, show ((k : ℤ) - 1 - (((24 : ℕ) : ℤ) - 1)) = -(j : ℤ) by push_cast; omega,
      zpow_neg, zpow_natCast]
    push_cast
    field_simp
  · rw [show ((k : ℤ) - 1 - ((24 : ℕ) : ℤ)) = k - 25 by push_cast; ring, he]
    linarith
  · rw [show (k : ℤ) - 1 + 1 = k by ring, zpow_natCast]
    linarith

/-- The computed values never fall below the exactly rounded index `h`. -/
theorem val_lower {a b s h : ℕ} (hb : b < 2 ^ 22) (ha : 2 * a + 1 = b ∨ 2 * a + 2 = b) (ha1 : b ≤ 4 * a)
    (hs : s ≤ b) (hh : h = (2 * a * s + b) / (2 * b)) :
    (h : ℚ) ≤ rn 24 (rn 24 (rn 24 ((a : ℚ) / b) * s) + 1 / 2) ∧
      (h : ℚ) ≤ rn 24 (rn 24 ((a : ℚ) / b) * s + 1 / 2) := by
  have hs0 : (0 : ℚ) ≤ s := Nat.cast_nonneg _
  have hb1 : 1 ≤ b := by omega
  have hbq : (0 : ℚ) < b := by exact_mod_cast hb1
  have hq1 : (1 / 4 : ℚ) ≤ a / b := by
    rw [le_div_iff₀ hbq]
    have : (b : ℚ) ≤ 4 * a := by exact_mod_cast ha1
    linarith
  have hq2 : (a / b : ℚ) < 1 / 2 := by
    rw [div_lt_iff₀ hbq]
    have : (2 * a + 1 : ℚ) ≤ b := by exact_mod_cast (by omega : 2 * a + 1 ≤ b)
    linarith
  have hr0 : 0 ≤ rn 24 ((a : ℚ) / b) * s := mul_nonneg (rn_nonneg (by positivity)) hs0
  rcases Nat.eq_zero_or_pos h with h0 | hpos
  · rw [h0]
    push_cast
    exact ⟨rn_nonneg (add_nonneg (rn_nonneg hr0) (by norm_num)), rn_nonneg (by linarith)⟩
  -- 2 * b * h ≤ 2 a s + b < 2 b (h+1)
  have hdiv := Nat.div_mul_le_self (2 * a * s + b) (2 * b)
  rw [← hh] at hdiv
  have hN : (2 * h - 1) * b ≤ 2 * a * s := by
    rw [Nat.sub_mul]
    have : h * (2 * b) = 2 * h * b := by ring
    omega
  have hhs : 2 * h - 1 ≤ s := by
    by_contra hc
    have h1 : (s + 1) * b ≤ (2 * h - 1) * b := Nat.mul_le_mul_right b (by omega)
    have h2 : 2 * a * s ≤ b * s := Nat.mul_le_mul_right s (by omega)
    have : (s + 1) * b = b * s + b := by ring
    omega
  obtain ⟨k, hk1, hk2⟩ : ∃ k, 2 ^ k ≤ 2 * h - 1 ∧ 2 * h - 1 < 2 ^ (k + 1) :=
    ⟨Nat.log 2 (2 * h - 1), Nat.pow_log_le_self 2 (by omega), Nat.lt_pow_succ_log_self (by norm_num) _⟩
  have hk : k ≤ 22 := by
    by_contra hc
    have : 2 ^ 23 ≤ 2 ^ k := Nat.pow_le_pow_right (by norm_num) (by omega)
    omega
  have hNq : ((2 * h - 1 : ℕ) : ℚ) = 2 * h - 1 := by
    rw [Nat.cast_sub (by omega)]; push_cast; ring
  have hle : ((2 * h - 1 : ℕ) : ℚ) / 2 ≤ (a : ℚ) / b * s := by
    rw [div_mul_eq_mul_div, le_div_iff₀ hbq]
    have : ((2 * h - 1 : ℕ) : ℚ) * b ≤ 2 * a * s := by exact_mod_cast hN
    linarith
  have key := prod_lower hq1 hq2 (s := s) (N := 2 * h - 1) (k := k) (by omega) (by omega) (by omega)
    hk1 hk2 hk hle ?_
  · rcases key with key | ⟨hst, key⟩
    · have hrep : Rep 24 (((2 * h - 1 : ℕ) : ℚ) / 2) := rep_half (by omega)
      have hph : (0 : ℚ) < ((2 * h - 1 : ℕ) : ℚ) / 2 := by
        have : (1 : ℚ) ≤ ((2 * h - 1 : ℕ) : ℚ) := by exact_mod_cast (by omega : 1 ≤ 2 * h - 1)
        linarith
      have h1 := rn_ge_rep (by norm_num) hrep (lt_of_lt_of_le hph key) key
      have hrh : Rep 24 (h : ℚ) := rep_nat (by omega)
      refine ⟨rn_ge_rep (by norm_num) hrh (by linarith) ?_, rn_ge_rep (by norm_num) hrh (by linarith) ?_⟩
      · rw [hNq] at h1; linarith
      · rw [hNq] at key; linarith
    · constructor
      · have h1 := half_grid hk hst hk2 key
        have hrh : Rep 24 (h : ℚ) := rep_nat (by omega)
        apply rn_ge_rep (by norm_num) hrh
        · have : (0 : ℚ) ≤ ((2 * h - 1 : ℕ) : ℚ) / 2 := by positivity
          linarith
        · rw [hNq] at h1; linarith
      · apply nat_grid hk hst hk2
        rw [hNq] at key; linarith
  · intro d hd hd1
    have hsd : 2 * h - 1 + d + 1 ≤ s := by omega
    have hdq : (1 : ℚ) ≤ d := by exact_mod_cast hd1
    have hd22 : (d : ℚ) ≤ 2 ^ 22 := by exact_mod_cast (by omega : d ≤ 2 ^ 22)
    have hb22 : (b : ℚ) < 2 ^ 22 := by exact_mod_cast hb
    have hθ : (a : ℚ) / b * s - ((2 * h - 1 : ℕ) : ℚ) / 2 =
        (2 * a * s - ((2 * h - 1 : ℕ) : ℚ) * b) / (2 * b) := by
      field_simp
    rw [hθ, lt_div_iff₀ (by positivity)]
    have hsdq : ((2 * h - 1 : ℕ) : ℚ) + d + 1 ≤ s := by exact_mod_cast hsd
    have hsb : (s : ℚ) ≤ b := by exact_mod_cast hs
    have hm1 := mul_le_mul_of_nonneg_right hsdq hbq.le
    have hdb : (d : ℚ) / 2 ^ 26 * (2 * b) = (d * b) / 2 ^ 25 := by ring
    rw [hdb]
    have hdbpos : (b : ℚ) ≤ d * b := by nlinarith
    rcases ha with ha | ha
    · have haq : (2 * a : ℚ) = b - 1 := by
        have : (2 * a + 1 : ℚ) = b := by exact_mod_cast ha
        linarith
      rw [haq]
      have : (d * b : ℚ) / 2 ^ 25 < d * b := by
        rw [div_lt_iff₀ (by norm_num)]; nlinarith
      nlinarith
    · have haq : (2 * a : ℚ) = b - 2 := by
        have : (2 * a + 2 : ℚ) = b := by exact_mod_cast ha
        linarith
      rcases hs.eq_or_lt with rfl | hlt
      · -- s = b: h = a
        have hha : h = a := by
          rw [hh]
          have : 2 * a * s + s = s + a * (2 * s) := by ring
          rw [this, Nat.add_mul_div_right _ _ (by omega), Nat.div_eq_of_lt (by omega)]
          omega
        rw [hNq, hha]
        rw [div_lt_iff₀ (by norm_num)]
        have : (2 * (a : ℚ) * s - (2 * a - 1) * s) = s := by ring
        rw [this]
        nlinarith
      · have hsb1 : (s : ℚ) + 1 ≤ b := by exact_mod_cast hlt
        rw [haq]
        have h3 : ((b : ℚ) - 2) * s - ((2 * h - 1 : ℕ) : ℚ) * b ≥ (d - 1) * b + 2 := by nlinarith
        have h4 : (d * b : ℚ) / 2 ^ 25 < (d - 1) * b + 2 := by
          rw [div_lt_iff₀ (by norm_num)]
          rcases hd1.eq_or_lt with hd' | hd'
          · have : (d : ℚ) = 1 := by exact_mod_cast hd'.symm
            rw [this]; nlinarith
          · have : (2 : ℚ) ≤ d := by exact_mod_cast hd'
            nlinarith
        linarith

end Verif.Lemmas
