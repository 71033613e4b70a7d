import Verif.Model.Float
import Verif.Lemmas.FFA
import Mathlib.Algebra.Order.Field.Power
import Mathlib.Tactic.Positivity
import Mathlib.Tactic.FieldSimp
import Mathlib.Tactic.Linarith

/-! # Properties of round-to-nearest-even -/

namespace Verif.Lemmas

open Verif.Model

theorem rhe_ge {q : ℚ} {n : ℤ} (h : (n : ℚ) - 1 / 2 < q) : n ≤ roundHalfEven q := by
  have hf := Int.floor_le q
  have hf2 := Int.lt_floor_add_one q
  have h1 : n - 1 ≤ ⌊q⌋ := by
    rw [Int.le_floor]; push_cast; linarith
  unfold roundHalfEven
  simp only
  rcases Int.lt_or_le (n - 1) ⌊q⌋ with hc | hc
  · split_ifs <;> omega
  · have he : ⌊q⌋ = n - 1 := by omega
    have : (⌊q⌋ : ℚ) = n - 1 := by rw [he]; push_cast; ring
    rw [if_neg (by rw [this]; linarith), if_pos (by rw [this]; linarith)]
    omega

theorem rhe_le {q : ℚ} {n : ℤ} (h : q < (n : ℚ) + 1 / 2) : roundHalfEven q ≤ n := by
  have hf := Int.floor_le q
  have hf2 := Int.lt_floor_add_one q
  have h1 : ⌊q⌋ ≤ n := by
    have : ⌊q⌋ < n + 1 := by rw [Int.floor_lt]; push_cast; linarith
    omega
  unfold roundHalfEven
  simp only
  rcases Int.lt_or_le ⌊q⌋ n with hc | hc
  · split_ifs <;> omega
  · have he : ⌊q⌋ = n := by omega
    have : (⌊q⌋ : ℚ) = n := by rw [he]
    rw [if_pos (by rw [this]; linarith)]
    omega

theorem rhe_err (q : ℚ) : |(roundHalfEven q : ℚ) - q| ≤ 1 / 2 := by
  have hf := Int.floor_le q
  have hf2 := Int.lt_floor_add_one q
  unfold roundHalfEven
  simp only
  rw [abs_le]
  split_ifs with h1 h2 h3 <;> push_cast <;> constructor <;> linarith

theorem rn_zero (p : ℕ) : rn p 0 = 0 := by simp [rn]

theorem rn_eq {p : ℕ} {x : ℚ} (hx : 0 < x) (e : ℤ) (h1 : (2 : ℚ) ^ e ≤ x) (h2 : x < (2 : ℚ) ^ (e + 1)) :
    rn p x = roundHalfEven (x / 2 ^ (e - (p - 1))) * 2 ^ (e - (p - 1)) := by
  unfold rn
  rw [if_neg hx.ne', abs_of_pos hx]
  have : Int.log 2 x = e := by
    apply le_antisymm
    · have := (Int.lt_zpow_iff_log_lt (R := ℚ) (b := 2) (by norm_num) (x := e + 1) hx).mp (by exact_mod_cast h2)
      omega
    · exact (Int.zpow_le_iff_le_log (R := ℚ) (b := 2) (by norm_num) (x := e) hx).mp (by exact_mod_cast h1)
  rw [this]

theorem exists_exp {x : ℚ} (hx : 0 < x) : ∃ e : ℤ, (2 : ℚ) ^ e ≤ x ∧ x < (2 : ℚ) ^ (e + 1) :=
  ⟨Int.log 2 x, by exact_mod_cast Int.zpow_log_le_self (R := ℚ) (b := 2) (by norm_num) hx,
    by exact_mod_cast Int.lt_zpow_succ_log_self (R := ℚ) (b := 2) (by norm_num) x⟩

theorem rn_ge_mul {p : ℕ} {x : ℚ} (hx : 0 < x) (e : ℤ) (h1 : (2 : ℚ) ^ e ≤ x)
    (h2 : x < (2 : ℚ) ^ (e + 1)) (n : ℤ) (h : ((n : ℚ) - 1 / 2) * 2 ^ (e - (p - 1)) < x) :
    (n : ℚ) * 2 ^ (e - (p - 1)) ≤ rn p x := by
  rw [rn_eq hx e h1 h2]
  have hu : (0 : ℚ) < 2 ^ (e - ((p : ℤ) - 1)) := by positivity
  apply mul_le_mul_of_nonneg_right _ hu.le
  exact Int.cast_le.mpr (rhe_ge ((lt_div_iff₀ hu).mpr h))

theorem rn_le_mul {p : ℕ} {x : ℚ} (hx : 0 < x) (e : ℤ) (h1 : (2 : ℚ) ^ e ≤ x)
    (h2 : x < (2 : ℚ) ^ (e + 1)) (n : ℤ) (h : x < ((n : ℚ) + 1 / 2) * 2 ^ (e - (p - 1))) :
    rn p x ≤ (n : ℚ) * 2 ^ (e - (p - 1)) := by
  rw [rn_eq hx e h1 h2]
  have hu : (0 : ℚ) < 2 ^ (e - ((p : ℤ) - 1)) := by positivity
  apply mul_le_mul_of_nonneg_right _ hu.le
  exact Int.cast_le.mpr (rhe_le ((div_lt_iff₀ hu).mpr h))

theorem rn_err_of_pos {p : ℕ} {x : ℚ} (hx : 0 < x) (e : ℤ) (h1 : (2 : ℚ) ^ e ≤ x)
    (h2 : x < (2 : ℚ) ^ (e + 1)) : |rn p x - x| ≤ 2 ^ (e - p) := by
  rw [rn_eq hx e h1 h2]
  have hu : (0 : ℚ) < 2 ^ (e - ((p : ℤ) - 1)) := by positivity
  have key := rhe_err (x / 2 ^ (e - ((p : ℤ) - 1)))
  have e1 : (roundHalfEven (x / 2 ^ (e - ((p : ℤ) - 1))) : ℚ) * 2 ^ (e - ((p : ℤ) - 1)) - x =
      ((roundHalfEven (x / 2 ^ (e - ((p : ℤ) - 1))) : ℚ) - x / 2 ^ (e - ((p : ℤ) - 1))) *
        2 ^ (e - ((p : ℤ) - 1)) := by
    rw [sub_mul, div_mul_cancel₀ _ hu.ne']
  rw [e1, abs_mul, abs_of_pos hu]
  calc _ ≤ 1 / 2 * (2 : ℚ) ^ (e - ((p : ℤ) - 1)) := mul_le_mul_of_nonneg_right key hu.le
    _ = 2 ^ (e - p) := by
      rw [show e - ((p : ℤ) - 1) = (e - p) + 1 by ring, zpow_add_one₀ (by norm_num)]
      ring

/-- Relative error of one rounding. -/
theorem rn_rel {p : ℕ} {x : ℚ} (hx : 0 ≤ x) : |rn p x - x| ≤ (1 / 2 ^ p) * x := by
  rcases hx.eq_or_lt with rfl | hx
  · simp [rn_zero]
  obtain ⟨e, h1, h2⟩ := exists_exp hx
  refine (rn_err_of_pos hx e h1 h2).trans ?_
  calc (2 : ℚ) ^ (e - (p : ℤ)) = (1 / 2 ^ p) * 2 ^ e := by
        rw [zpow_sub₀ (by norm_num), zpow_natCast]; ring
    _ ≤ _ := by
        apply mul_le_mul_of_nonneg_left h1; positivity

/-- Non-negative numbers with `p` significand bits. -/
def Rep (p : ℕ) (r : ℚ) : Prop := ∃ (n : ℕ) (j : ℤ), n < 2 ^ p ∧ r = n * 2 ^ j

theorem Rep.grid {p : ℕ} {r : ℚ} (h : Rep p r) {e : ℤ} (h1 : (2 : ℚ) ^ e ≤ r) :
    ∃ n : ℤ, r = n * 2 ^ (e - ((p : ℤ) - 1)) := by
  obtain ⟨n, j, hn, rfl⟩ := h
  have hj : (0 : ℚ) < 2 ^ j := by positivity
  have : (2 : ℚ) ^ e < 2 ^ ((p : ℤ) + j) := by
    calc (2 : ℚ) ^ e ≤ n * 2 ^ j := h1
      _ < 2 ^ p * 2 ^ j := by
        apply mul_lt_mul_of_pos_right _ hj
        exact_mod_cast hn
      _ = _ := by rw [zpow_add₀ (by norm_num), zpow_natCast]
  have hlt : e < p + j := (zpow_lt_zpow_iff_right₀ (by norm_num : (1 : ℚ) < 2)).mp this
  obtain ⟨k, hk⟩ : ∃ k : ℕ, j = (e - ((p : ℤ) - 1)) + k := ⟨(j - (e - (p - 1))).toNat, by omega⟩
  refine ⟨n * 2 ^ k, ?_⟩
  rw [hk, zpow_add₀ (by norm_num), zpow_natCast]
  push_cast
  ring

theorem rep_zpow {p : ℕ} (hp : 1 ≤ p) (e : ℤ) : Rep p ((2 : ℚ) ^ e) :=
  ⟨1, e, by exact Nat.one_lt_two_pow (by omega), by simp⟩

theorem rep_nat {p n : ℕ} (h : n < 2 ^ p) : Rep p n := ⟨n, 0, h, by simp⟩

theorem rep_half {p n : ℕ} (h : n < 2 ^ p) : Rep p ((n : ℚ) / 2) := ⟨n, -1, h, by
  rw [zpow_neg_one]; ring⟩

theorem rn_ge_rep {p : ℕ} (hp : 1 ≤ p) {r x : ℚ} (hr : Rep p r) (hx : 0 < x) (h : r ≤ x) : r ≤ rn p x := by
  obtain ⟨e, h1, h2⟩ := exists_exp hx
  have hu : (0 : ℚ) < 2 ^ (e - ((p : ℤ) - 1)) := by positivity
  rcases lt_or_ge r (2 ^ e) with hc | hc
  · obtain ⟨n, hn⟩ := (rep_zpow hp e).grid le_rfl
    have := rn_ge_mul (p := p) hx e h1 h2 n (by nlinarith)
    linarith
  · obtain ⟨n, hn⟩ := hr.grid hc
    have := rn_ge_mul (p := p) hx e h1 h2 n (by nlinarith)
    linarith

theorem rn_le_rep {p : ℕ} {r x : ℚ} (hr : Rep p r) (hx : 0 < x) (h : x ≤ r) : rn p x ≤ r := by
  obtain ⟨e, h1, h2⟩ := exists_exp hx
  have hu : (0 : ℚ) < 2 ^ (e - ((p : ℤ) - 1)) := by positivity
  obtain ⟨n, hn⟩ := hr.grid (h1.trans h)
  have := rn_le_mul (p := p) hx e h1 h2 n (by nlinarith)
  linarith

theorem rn_rep {p : ℕ} (hp : 1 ≤ p) {r : ℚ} (hr : Rep p r) (h0 : 0 ≤ r) : rn p r = r := by
  rcases h0.eq_or_lt with rfl | h0
  · exact rn_zero p
  · exact le_antisymm (rn_le_rep hr h0 le_rfl) (rn_ge_rep hp hr h0 le_rfl)

theorem rn_nonneg {p : ℕ} {x : ℚ} (hx : 0 ≤ x) : 0 ≤ rn p x := by
  rcases hx.eq_or_lt with rfl | hx
  · rw [rn_zero]
  obtain ⟨e, h1, h2⟩ := exists_exp hx
  have := rn_ge_mul (p := p) hx e h1 h2 0 (by
    have : (0 : ℚ) < 2 ^ (e - ((p : ℤ) - 1)) := by positivity
    push_cast
    linarith)
  simpa using this

/-- Anything above the midpoint below a grid point rounds to at least that grid point: for `R > 2^e` a multiple of the
spacing of its binade. -/
theorem rn_ge_half {p : ℕ} {x R : ℚ} (e : ℤ) (n : ℤ) (hR : R = n * 2 ^ (e - ((p : ℤ) - 1)))
    (hR1 : (2 : ℚ) ^ e ≤ R - 2 ^ (e - p)) (hR2 : R ≤ 2 ^ (e + 1)) (hp : 1 ≤ p)
    (h : R - 2 ^ (e - p) < x) : R ≤ rn p x := by
  have he : (0 : ℚ) < 2 ^ e := by positivity
  have hx : 0 < x := by linarith
  have hhalf : (2 : ℚ) ^ (e - ((p : ℤ) - 1)) = 2 * 2 ^ (e - (p : ℤ)) := by
    rw [show e - ((p : ℤ) - 1) = (e - p) + 1 by ring, zpow_add_one₀ (by norm_num)]
    ring
  rcases lt_or_ge x (2 ^ (e + 1)) with hc | hc
  · have := rn_ge_mul (p := p) hx e (by linarith) hc n (by
      rw [sub_mul, ← hR, hhalf]; linarith)
    rw [hR]; exact this
  · exact hR2.trans (rn_ge_rep hp (rep_zpow hp _) hx hc)

end Verif.Lemmas
