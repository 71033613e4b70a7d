import Verif.Lemmas.FloatIdx

/-! # The single precision index rules satisfy `IdxOK` up to 2^22 rows -/

namespace Verif.Lemmas

open Verif.Model

/-- Between the exactly rounded value and the error bound. -/
structure Sandwich (idx : IdxRule) (m : ℕ) : Prop where
  low : ∀ rows, (rows = m / 2 ∨ rows = m - m / 2) → ∀ s < m, exactIdx rows m s ≤ idx rows m s
  high : ∀ rows, (rows = m / 2 ∨ rows = m - m / 2) → ∀ s < m, (idx rows m s : ℚ) ≤
    (((rows - 1 : ℕ) : ℚ) / ((m - 1 : ℕ) : ℚ) * s * (1 + u32) ^ 2 + 1 / 2) * (1 + u32)

theorem low_aux {m rows s : ℕ} (hm : 3 ≤ m) (hm2 : m ≤ 2 ^ 22)
    (hr : rows = m / 2 ∨ rows = m - m / 2) (hs : s < m) :
    (exactIdx rows m s : ℚ) ≤
        rn 24 (rn 24 (rn 24 (((rows - 1 : ℕ) : ℚ) / ((m - 1 : ℕ) : ℚ)) * s) + 1 / 2) ∧
      (exactIdx rows m s : ℚ) ≤ rn 24 (rn 24 (((rows - 1 : ℕ) : ℚ) / ((m - 1 : ℕ) : ℚ)) * s + 1 / 2) := by
  have hs0 : (0 : ℚ) ≤ s := Nat.cast_nonneg _
  rw [exactIdx_eq (by omega) (by omega)]
  have hcases : (2 * (rows - 1) + 1 = m - 1 ∨ 2 * (rows - 1) + 2 = m - 1) ∧ m - 1 ≤ 4 * (rows - 1) ∨
      rows - 1 = 0 ∧ m = 3 ∨ 2 * (rows - 1) = m - 1 := by omega
  rcases hcases with ⟨h1, h2⟩ | ⟨h1, h2⟩ | h1
  · exact val_lower (by omega) h1 h2 (by omega) rfl
  · rw [h1, h2]
    norm_num [rn_zero]
    exact rn_nonneg (by norm_num)
  · have hb : (0 : ℚ) < ((m - 1 : ℕ) : ℚ) := by exact_mod_cast (by omega : 0 < m - 1)
    have hq : (((rows - 1 : ℕ) : ℚ) / ((m - 1 : ℕ) : ℚ)) = ((1 : ℕ) : ℚ) / 2 := by
      rw [div_eq_div_iff hb.ne' (by norm_num)]
      exact_mod_cast (by omega : (rows - 1) * 2 = 1 * (m - 1))
    rw [hq, rn_rep (by norm_num) (rep_half (by norm_num)) (by norm_num)]
    have e1 : ((1 : ℕ) : ℚ) / 2 * s = (s : ℚ) / 2 := by push_cast; ring
    have e2 : (s : ℚ) / 2 + 1 / 2 = ((s + 1 : ℕ) : ℚ) / 2 := by push_cast; ring
    rw [e1, rn_rep (p := 24) (by norm_num) (rep_half (by omega)) (by positivity), e2,
      rn_rep (p := 24) (by norm_num) (rep_half (by omega)) (by positivity), and_self]
    have e3 : (2 * (rows - 1) * s + (m - 1)) / (2 * (m - 1)) = (s + 1) / 2 := by
      rw [h1, show (m - 1) * s + (m - 1) = (m - 1) * (s + 1) by ring, Nat.mul_comm 2,
        Nat.mul_div_mul_left _ _ (by omega)]
    rw [e3, le_div_iff₀ (by norm_num)]
    exact_mod_cast Nat.div_mul_le_self (s + 1) 2

theorem sandwich_float {m : ℕ} (hm : 3 ≤ m) (hm2 : m ≤ 2 ^ 22) : Sandwich float32Idx m where
  low := by
    intro rows hr s hs
    rw [float32Idx_eq (by omega) (by omega) hm2 hs]
    exact Nat.le_floor (low_aux hm hm2 hr hs).1
  high := by
    intro rows hr s hs
    rw [float32Idx_eq (by omega) (by omega) hm2 hs]
    have hq : (0 : ℚ) ≤ ((rows - 1 : ℕ) : ℚ) / ((m - 1 : ℕ) : ℚ) := by positivity
    have hs0 : (0 : ℚ) ≤ s := Nat.cast_nonneg _
    refine (Nat.floor_le ?_).trans (val_upper hq hs0)
    exact rn_nonneg (add_nonneg (rn_nonneg (mul_nonneg (rn_nonneg hq) hs0)) (by norm_num))

theorem sandwich_fma {m : ℕ} (hm : 3 ≤ m) (hm2 : m ≤ 2 ^ 22) : Sandwich float32IdxFma m where
  low := by
    intro rows hr s hs
    rw [float32IdxFma_eq (by omega) (by omega) hm2 hs]
    exact Nat.le_floor (low_aux hm hm2 hr hs).2
  high := by
    intro rows hr s hs
    rw [float32IdxFma_eq (by omega) (by omega) hm2 hs]
    have hq : (0 : ℚ) ≤ ((rows - 1 : ℕ) : ℚ) / ((m - 1 : ℕ) : ℚ) := by positivity
    have hs0 : (0 : ℚ) ≤ s := Nat.cast_nonneg _
    refine (Nat.floor_le ?_).trans (val_upper_fma hq hs0)
    exact rn_nonneg (add_nonneg (mul_nonneg (rn_nonneg hq) hs0) (by norm_num))

theorem sandwich_lt {idx : IdxRule} {m : ℕ} (hm : 3 ≤ m) (hm2 : m ≤ 2 ^ 22) (sw : Sandwich idx m)
    {rows : ℕ} (hr : rows = m / 2 ∨ rows = m - m / 2) {s : ℕ} (hs : s < m) : idx rows m s < rows := by
  have hi := sw.high rows hr s hs
  have hb : (0 : ℚ) < ((m - 1 : ℕ) : ℚ) := by exact_mod_cast (by omega : 0 < m - 1)
  have hsb : (s : ℚ) ≤ ((m - 1 : ℕ) : ℚ) := by exact_mod_cast (by omega : s ≤ m - 1)
  have hr1 : ((rows - 1 : ℕ) : ℚ) ≤ 2 ^ 21 := by exact_mod_cast (by omega : rows - 1 ≤ 2 ^ 21)
  have hr2 : ((rows - 1 : ℕ) : ℚ) = rows - 1 := by rw [Nat.cast_sub (by omega)]; simp
  have hqs : ((rows - 1 : ℕ) : ℚ) / ((m - 1 : ℕ) : ℚ) * s ≤ ((rows - 1 : ℕ) : ℚ) := by
    rw [div_mul_eq_mul_div, div_le_iff₀ hb]
    exact mul_le_mul_of_nonneg_left hsb (Nat.cast_nonneg _)
  have : (idx rows m s : ℚ) < rows := by
    refine lt_of_le_of_lt hi ?_
    rw [u32_eq]
    have hx : ((rows - 1 : ℕ) : ℚ) / ((m - 1 : ℕ) : ℚ) * s ≤ rows - 1 := by rw [← hr2]; exact hqs
    rw [hr2] at hr1
    generalize ((rows - 1 : ℕ) : ℚ) / ((m - 1 : ℕ) : ℚ) * (s : ℚ) = x at *
    norm_num
    linarith
  exact_mod_cast this

theorem sandwich_ok {idx : IdxRule} {m : ℕ} (hm : 3 ≤ m) (hm2 : m ≤ 2 ^ 22) (sw : Sandwich idx m) :
    IdxOK idx m where
  h_lt := fun _ hs => sandwich_lt hm hm2 sw (Or.inl rfl) hs
  t_lt := fun _ hs => sandwich_lt hm hm2 sw (Or.inr rfl) hs
  ge := by
    intro s hs
    have h1 := sw.low (m / 2) (Or.inl rfl) s hs
    have h2 := sw.low (m - m / 2) (Or.inr rfl) s hs
    have h3 := (exactIdx_ok hm).ge s hs
    omega
  le := by
    intro s hs
    have h1 := sw.high (m / 2) (Or.inl rfl) s hs
    have h2 := sw.high (m - m / 2) (Or.inr rfl) s hs
    rcases Nat.eq_zero_or_pos s with rfl | hs1
    · have hlt : ((1 / 2 : ℚ)) * (1 + u32) < 1 := by rw [u32_eq]; norm_num
      have z1 : (idx (m / 2) m 0 : ℚ) < 1 := by
        refine lt_of_le_of_lt h1 ?_
        simpa using hlt
      have z2 : (idx (m - m / 2) m 0 : ℚ) < 1 := by
        refine lt_of_le_of_lt h2 ?_
        simpa using hlt
      have z1' : idx (m / 2) m 0 < 1 := by exact_mod_cast z1
      have z2' : idx (m - m / 2) m 0 < 1 := by exact_mod_cast z2
      omega
    · have hb : (0 : ℚ) < ((m - 1 : ℕ) : ℚ) := by exact_mod_cast (by omega : 0 < m - 1)
      have hb2 : ((m - 1 : ℕ) : ℚ) ≤ 2 ^ 22 - 1 := by
        have : ((m - 1 : ℕ) : ℚ) + 1 ≤ 2 ^ 22 := by exact_mod_cast (by omega : m - 1 + 1 ≤ 2 ^ 22)
        linarith
      have hsum : ((m / 2 - 1 : ℕ) : ℚ) + ((m - m / 2 - 1 : ℕ) : ℚ) = ((m - 1 : ℕ) : ℚ) - 1 := by
        have : ((m / 2 - 1 : ℕ) : ℚ) + ((m - m / 2 - 1 : ℕ) : ℚ) + 1 = ((m - 1 : ℕ) : ℚ) := by
          exact_mod_cast (by omega : (m / 2 - 1) + (m - m / 2 - 1) + 1 = m - 1)
        linarith
      have hs1q : (1 : ℚ) ≤ s := by exact_mod_cast hs1
      have hq : ((m / 2 - 1 : ℕ) : ℚ) / ((m - 1 : ℕ) : ℚ) + ((m - m / 2 - 1 : ℕ) : ℚ) / ((m - 1 : ℕ) : ℚ) =
          1 - 1 / ((m - 1 : ℕ) : ℚ) := by
        rw [← add_div, hsum, sub_div, div_self hb.ne']
      have hinv : 1 / (2 ^ 22 - 1 : ℚ) ≤ 1 / ((m - 1 : ℕ) : ℚ) := one_div_le_one_div_of_le hb hb2
      have key : ((idx (m / 2) m s : ℚ) + idx (m - m / 2) m s) < s + 1 := by
        refine lt_of_le_of_lt (add_le_add h1 h2) ?_
        have e : (((m / 2 - 1 : ℕ) : ℚ) / ((m - 1 : ℕ) : ℚ) * s * (1 + u32) ^ 2 + 1 / 2) * (1 + u32) +
            (((m - m / 2 - 1 : ℕ) : ℚ) / ((m - 1 : ℕ) : ℚ) * s * (1 + u32) ^ 2 + 1 / 2) * (1 + u32) =
            (((m / 2 - 1 : ℕ) : ℚ) / ((m - 1 : ℕ) : ℚ) + ((m - m / 2 - 1 : ℕ) : ℚ) / ((m - 1 : ℕ) : ℚ)) *
              s * (1 + u32) ^ 3 + (1 + u32) := by ring
        rw [e, hq, u32_eq]
        generalize 1 / ((m - 1 : ℕ) : ℚ) = y at *
        have hy : (1 - y) * (1 + 1 / 2 ^ 24) ^ 3 + 1 / 2 ^ 24 < 1 := by
          norm_num at hinv ⊢
          linarith
        nlinarith
      have : idx (m / 2) m s + idx (m - m / 2) m s < s + 1 := by exact_mod_cast key
      omega

theorem sandwich_near {idx : IdxRule} {m : ℕ} (hm : 3 ≤ m) (hm2 : m ≤ 2 ^ 22) (sw : Sandwich idx m) :
    IdxNear idx (1 / 2 + m / 2 ^ 23) m := by
  have aux : ∀ rows, (rows = m / 2 ∨ rows = m - m / 2) → ∀ s < m,
      |(idx rows m s : ℚ) - ((rows : ℚ) - 1) / ((m : ℚ) - 1) * s| ≤ 1 / 2 + m / 2 ^ 23 := by
    intro rows hr s hs
    have hi := sw.high rows hr s hs
    have lo := sw.low rows hr s hs
    have loq : (exactIdx rows m s : ℚ) ≤ idx rows m s := by exact_mod_cast lo
    have hr2 : ((rows - 1 : ℕ) : ℚ) = rows - 1 := by rw [Nat.cast_sub (by omega)]; simp
    have hm3 : ((m - 1 : ℕ) : ℚ) = m - 1 := by rw [Nat.cast_sub (by omega)]; simp
    have en := (abs_le.mp (exactIdx_near (rows := rows) (m := m) (by omega) (by omega) s)).1
    have hb : (0 : ℚ) < (m : ℚ) - 1 := by
      rw [← hm3]; exact_mod_cast (by omega : 0 < m - 1)
    rw [hr2, hm3] at hi
    have hx0 : ((rows : ℚ) - 1) / ((m : ℚ) - 1) * s ≤ m / 2 := by
      have hsb : (s : ℚ) ≤ (m : ℚ) - 1 := by
        rw [← hm3]; exact_mod_cast (by omega : s ≤ m - 1)
      have hr1 : (0 : ℚ) ≤ (rows : ℚ) - 1 := by rw [← hr2]; exact Nat.cast_nonneg _
      have hr3 : (rows : ℚ) - 1 ≤ m / 2 := by
        rw [← hr2, le_div_iff₀ (by norm_num)]
        exact_mod_cast (by omega : (rows - 1) * 2 ≤ m)
      rw [div_mul_eq_mul_div, div_le_iff₀ hb]
      nlinarith
    have hm1 : (3 : ℚ) ≤ m := by exact_mod_cast hm
    generalize ((rows : ℚ) - 1) / ((m : ℚ) - 1) * (s : ℚ) = x at *
    rw [abs_le]
    constructor
    · have : (0 : ℚ) ≤ m / 2 ^ 23 := by positivity
      linarith
    · rw [u32_eq] at hi
      norm_num at hi ⊢
      linarith
  intro s hs
  exact ⟨aux _ (Or.inl rfl) s hs, aux _ (Or.inr rfl) s hs⟩

end Verif.Lemmas
