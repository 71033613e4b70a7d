import Verif.Model.Harmonics
import Verif.Spec.Harmonics
import Mathlib.RingTheory.Coprime.Lemmas
import Mathlib.Tactic.Linarith
import Mathlib.Tactic.LinearCombination
import Mathlib.Tactic.FieldSimp
import Mathlib.Tactic.Ring
import Mathlib.Tactic.Positivity

/-!
# `limit_denominator` returns a best approximation
-/

namespace Verif.Lemmas

open Verif.Model Verif.Spec

/-- What the loop of `limit_denominator` keeps true. -/
structure LdInv (M n0 d0 p0 q0 p1 q1 n d : ℤ) : Prop where
  num : n0 = n * p1 + d * p0
  den : d0 = n * q1 + d * q0
  det : p1 * q0 - p0 * q1 = 1 ∨ p1 * q0 - p0 * q1 = -1
  q0_nonneg : 0 ≤ q0
  q1_nonneg : 0 ≤ q1
  q0_le : q0 ≤ M
  q1_le : q1 ≤ M
  n_nonneg : q1 = 0 ∨ 0 ≤ n
  d_nonneg : 0 ≤ d

theorem LdInv.d_ne_zero {M n0 d0 p0 q0 p1 q1 n d : ℤ} (h : LdInv M n0 d0 p0 q0 p1 q1 n d) (hd0 : M < d0) (hM : 1 ≤ M)
    (hc : IsCoprime n0 d0) : d ≠ 0 := by
  intro hd
  obtain ⟨hn, hden, -, -, hq1, -, hq1M, hnn, -⟩ := h
  subst hd
  simp only [zero_mul, add_zero] at hn hden
  obtain ⟨u, v, huv⟩ := hc
  have h1 : n * (u * p1 + v * q1) = 1 := by rw [hn, hden] at huv; linear_combination huv
  rcases hnn with hz | hnn
  · rw [hden, hz] at hd0; omega
  · have h2 : n = 1 := Int.eq_one_of_mul_eq_one_right hnn h1
    rw [h2, one_mul] at hden
    omega

theorem LdInv.step {M n0 d0 p0 q0 p1 q1 n d : ℤ} (h : LdInv M n0 d0 p0 q0 p1 q1 n d) (hd : d ≠ 0)
    (hq : q0 + n / d * q1 ≤ M) :
    LdInv M n0 d0 p1 q1 (p0 + n / d * p1) (q0 + n / d * q1) d (n - n / d * d) := by
  obtain ⟨hn, hden, hdet, hq0, hq1, hq0M, hq1M, hnn, hdn⟩ := h
  have hdpos : 0 < d := lt_of_le_of_ne hdn (Ne.symm hd)
  refine ⟨by rw [hn]; ring, by rw [hden]; ring, ?_, hq1, ?_, hq1M, hq, Or.inr hdn, ?_⟩
  · rcases hdet with h | h
    · right; linear_combination -h
    · left; linear_combination -h
  · rcases hnn with hz | hnn
    · rw [hz]; simpa using hq0
    · have : 0 ≤ n / d := Int.ediv_nonneg hnn hdn
      positivity
  · have h1 : n - n / d * d = n % d := by rw [Int.emod_def, mul_comm]
    rw [h1]; exact Int.emod_nonneg n hd

theorem ldLoop_spec {M n0 d0 : ℤ} (hM : 1 ≤ M) (hd0 : M < d0) (hc : IsCoprime n0 d0) :
    ∀ (b : ℕ) {p0 q0 p1 q1 n d : ℤ}, d.natAbs ≤ b → LdInv M n0 d0 p0 q0 p1 q1 n d →
      ∃ p0' q0' p1' q1' n' d', ldLoop M p0 q0 p1 q1 n d = .ok (p0', q0', p1', q1') ∧
        LdInv M n0 d0 p0' q0' p1' q1' n' d' ∧ d' ≠ 0 ∧ M < q0' + n' / d' * q1' := by
  intro b
  induction b with
  | zero =>
    intro p0 q0 p1 q1 n d hb hI
    exact absurd (Int.natAbs_eq_zero.1 (Nat.le_zero.1 hb)) (hI.d_ne_zero hd0 hM hc)
  | succ b ih =>
    intro p0 q0 p1 q1 n d hb hI
    have hd := hI.d_ne_zero hd0 hM hc
    rw [ldLoop, dif_neg hd]
    simp only
    by_cases hq : q0 + n / d * q1 > M
    · rw [if_pos hq]; exact ⟨_, _, _, _, n, d, rfl, hI, hd, hq⟩
    · rw [if_neg hq]
      refine ih ?_ (hI.step hd (not_lt.1 hq))
      have h1 : n - n / d * d = n % d := by rw [Int.emod_def, mul_comm]
      have h2 := Int.emod_nonneg n hd
      have h3 := Int.emod_lt_abs n hd
      rw [Int.abs_eq_natAbs] at h3
      rw [h1]; omega

/-- No fraction of small denominator lies strictly between two Farey neighbours. -/
theorem farey_gap {P Q p q c e : ℤ} (hQ : 0 < Q) (hq : 0 < q) (he : 0 < e) (hdet : p * Q - P * q = 1) (hlt : e < Q + q) :
    (c : ℚ) / e ≤ (P : ℚ) / Q ∨ (p : ℚ) / q ≤ (c : ℚ) / e := by
  have hQ' : (0 : ℚ) < Q := by exact_mod_cast hQ
  have hq' : (0 : ℚ) < q := by exact_mod_cast hq
  have he' : (0 : ℚ) < e := by exact_mod_cast he
  by_contra hcon
  push Not at hcon
  obtain ⟨h1, h2⟩ := hcon
  rw [div_lt_div_iff₀ hQ' he'] at h1
  rw [div_lt_div_iff₀ he' hq'] at h2
  have h1' : P * e < c * Q := by exact_mod_cast h1
  have h2' : c * q < p * e := by exact_mod_cast h2
  have h3 : Q * (p * e - c * q) + q * (c * Q - P * e) = e := by linear_combination e * hdet
  nlinarith [mul_le_mul_of_nonneg_left (show 1 ≤ p * e - c * q by omega) hQ.le,
    mul_le_mul_of_nonneg_left (show 1 ≤ c * Q - P * e by omega) hq.le]

theorem closest_of_bounds {x lo hi : ℚ} {M : ℤ} (h1 : lo < x) (h2 : x < hi)
    (hgap : ∀ y : ℚ, (y.den : ℤ) ≤ M → y ≤ lo ∨ hi ≤ y) (y : ℚ) (hy : (y.den : ℤ) ≤ M) :
    |lo - x| ≤ |y - x| ∨ |hi - x| ≤ |y - x| := by
  rcases hgap y hy with h | h
  · left; rw [abs_of_neg (by linarith), abs_of_neg (by linarith)]; linarith
  · right; rw [abs_of_pos (by linarith), abs_of_pos (by linarith)]; linarith

theorem den_le_of_div {p q : ℤ} (hq : 0 < q) : (((p : ℚ) / (q : ℚ)).den : ℤ) ≤ q := by
  have h : (((p : ℚ) / (q : ℚ)).den : ℤ) ∣ q := by
    rw [← Rat.divInt_eq_div]; exact Rat.den_dvd p q
  exact Int.le_of_dvd hq h

theorem limitDenominator_spec (x : ℚ) (M : ℤ) (hM : 1 ≤ M) : ∃ r, limitDenominator x M = .ok r ∧ IsClosestFraction x M r := by
  unfold limitDenominator
  rw [if_neg (by omega)]
  by_cases hx : (x.den : ℤ) ≤ M
  · rw [if_pos hx]
    exact ⟨x, rfl, hx, fun y _ => by simp⟩
  rw [if_neg hx]
  have hd0 : M < (x.den : ℤ) := not_le.1 hx
  have hc : IsCoprime x.num (x.den : ℤ) := by
    rw [Int.isCoprime_iff_gcd_eq_one]; exact x.reduced
  obtain ⟨p0, q0, p1, q1, n, d, hrun, hI, hd, hbreak⟩ :=
    ldLoop_spec hM hd0 hc (x.den : ℤ).natAbs (p0 := 0) (q0 := 1) (p1 := 1) (q1 := 0) (n := x.num) (d := x.den) le_rfl
      ⟨by ring, by ring, Or.inl (by norm_num), by norm_num, le_rfl, hM, by omega, Or.inl rfl, by omega⟩
  rw [hrun]
  obtain ⟨hnum, hden, hdet, hq0, hq1, hq0M, hq1M, hnn, hdn⟩ := hI
  have hdpos : 0 < d := lt_of_le_of_ne hdn (Ne.symm hd)
  have hq1ne : q1 ≠ 0 := by
    intro h; rw [h, mul_zero, add_zero] at hbreak; omega
  have hq1pos : 0 < q1 := lt_of_le_of_ne hq1 (Ne.symm hq1ne)
  have hnn' : 0 ≤ n := hnn.resolve_left hq1ne
  obtain ⟨k, hk⟩ : ∃ k, k = (M - q0) / q1 := ⟨_, rfl⟩
  have hk0 : 0 ≤ k := hk ▸ Int.ediv_nonneg (by omega) hq1
  have hk1 : k * q1 ≤ M - q0 := hk ▸ Int.ediv_mul_le _ hq1ne
  have hk2 : M - q0 < (k + 1) * q1 := by rw [hk, mul_comm]; exact Int.lt_mul_ediv_self_add hq1pos |>.trans_eq (by ring)
  have hka : k + 1 ≤ n / d := by
    have : k * q1 < n / d * q1 := by omega
    have := lt_of_mul_lt_mul_right this hq1
    omega
  have hkd : 0 < n - k * d := by
    have h1 : n / d * d ≤ n := Int.ediv_mul_le _ hd
    have h2 : (k + 1) * d ≤ n / d * d := mul_le_mul_of_nonneg_right hka hdn
    linarith [h1, h2, hdpos, add_mul k 1 d]
  obtain ⟨Q, hQ⟩ : ∃ Q, Q = q0 + k * q1 := ⟨_, rfl⟩
  obtain ⟨P, hP⟩ : ∃ P, P = p0 + k * p1 := ⟨_, rfl⟩
  have hQpos : 0 < Q := by
    rcases hq0.lt_or_eq with h | h
    · have : 0 ≤ k * q1 := mul_nonneg hk0 hq1
      omega
    · -- q0 = 0 forces the determinant to be p0 * q1 = ±1, hence q1 = 1 and k = M ≥ 1
      have hk3 : 0 < k := by
        by_contra hcon
        have hk4 : k = 0 := by omega
        rw [hk4, ← h] at hk2
        rw [← h] at hdet
        have h5 : q1 ∣ 1 := by
          rcases hdet with h6 | h6
          · exact ⟨-p0, by linear_combination -h6⟩
          · exact ⟨p0, by linear_combination h6⟩
        have := Int.le_of_dvd one_pos h5
        omega
      have : 0 < k * q1 := mul_pos hk3 hq1pos
      omega
  have hQM : Q ≤ M := by omega
  have hQq : M < Q + q1 := by rw [hQ]; linarith [add_mul k 1 q1]
  have hdx : (0 : ℚ) < x.den := by exact_mod_cast x.den_pos
  have hxe : x * x.den = x.num := Rat.mul_den_eq_num x
  have hq1' : (0 : ℚ) < q1 := by exact_mod_cast hq1pos
  have hQ' : (0 : ℚ) < Q := by exact_mod_cast hQpos
  have hd' : (0 : ℚ) < d := by exact_mod_cast hdpos
  have hkd' : (0 : ℚ) < n - k * d := by exact_mod_cast hkd
  have hnumQ : (x.num : ℚ) = n * p1 + d * p0 := by exact_mod_cast hnum
  have hdenQ : (x.den : ℚ) = n * q1 + d * q0 := by exact_mod_cast hden
  have hQQ : (Q : ℚ) = q0 + k * q1 := by exact_mod_cast hQ
  have hPQ : (P : ℚ) = p0 + k * p1 := by exact_mod_cast hP
  have hres : Except.bind (Except.ok (p0, q0, p1, q1) : Except PyErr _) (ldChoose x M) =
      .ok (if |(p1 : ℚ) / q1 - x| ≤ |(P : ℚ) / Q - x| then (p1 : ℚ) / q1 else (P : ℚ) / Q) := by
    simp only [Except.bind, ldChoose, mkFraction]
    rw [if_neg hq1ne, ← hk, ← hQ, ← hP, if_neg hQpos.ne']
    simp only
    rw [if_neg hq1ne]
  have hdens : ∀ b : Bool, ((if b then (p1 : ℚ) / q1 else (P : ℚ) / Q).den : ℤ) ≤ M := by
    intro b
    cases b
    · exact (den_le_of_div hQpos).trans hQM
    · exact (den_le_of_div hq1pos).trans hq1M
  have hor : ∀ y : ℚ, (y.den : ℤ) ≤ M → |(p1 : ℚ) / q1 - x| ≤ |y - x| ∨ |(P : ℚ) / Q - x| ≤ |y - x| := by
    intro y hy
    have hye : y = ((y.num : ℤ) : ℚ) / ((y.den : ℤ) : ℚ) := by
      rw [Int.cast_natCast]; exact (Rat.num_div_den y).symm
    have hden1 : (0 : ℤ) < y.den := by exact_mod_cast y.den_pos
    have hxx : x = (x.num : ℚ) / x.den := (Rat.num_div_den x).symm
    rcases hdet with hs | hs
    · -- bound1 < x < bound2
      have hsQ : (p1 : ℚ) * q0 - p0 * q1 = 1 := by exact_mod_cast hs
      have hlo : (P : ℚ) / Q < x := by
        rw [hxx, div_lt_div_iff₀ hQ' hdx, hnumQ, hdenQ, hQQ, hPQ]
        nlinarith [hkd', hsQ]
      have hhi : x < (p1 : ℚ) / q1 := by
        rw [hxx, div_lt_div_iff₀ hdx hq1', hnumQ, hdenQ]
        nlinarith [hd', hsQ]
      refine (closest_of_bounds (M := M) hlo hhi (fun z hz => ?_) y hy).symm
      have hze : z = ((z.num : ℤ) : ℚ) / ((z.den : ℤ) : ℚ) := by
        rw [Int.cast_natCast]; exact (Rat.num_div_den z).symm
      rw [hze]
      exact farey_gap hQpos hq1pos (by exact_mod_cast z.den_pos) (by rw [hQ, hP]; linear_combination hs) (by omega)
    · have hsQ : (p1 : ℚ) * q0 - p0 * q1 = -1 := by exact_mod_cast hs
      have hlo : (p1 : ℚ) / q1 < x := by
        rw [hxx, div_lt_div_iff₀ hq1' hdx, hnumQ, hdenQ]
        nlinarith [hd', hsQ]
      have hhi : x < (P : ℚ) / Q := by
        rw [hxx, div_lt_div_iff₀ hdx hQ', hnumQ, hdenQ, hQQ, hPQ]
        nlinarith [hkd', hsQ]
      refine closest_of_bounds (M := M) hlo hhi (fun z hz => ?_) y hy
      have hze : z = ((z.num : ℤ) : ℚ) / ((z.den : ℤ) : ℚ) := by
        rw [Int.cast_natCast]; exact (Rat.num_div_den z).symm
      rw [hze]
      exact farey_gap hq1pos hQpos (by exact_mod_cast z.den_pos) (by rw [hQ, hP]; linear_combination -hs) (by omega)
  refine ⟨_, hres, ?_, ?_⟩
  · have := hdens (decide (|(p1 : ℚ) / q1 - x| ≤ |(P : ℚ) / Q - x|))
    simpa using this
  · intro y hy
    split_ifs with hcmp
    · rcases hor y hy with h | h
      · exact h
      · exact hcmp.trans h
    · rcases hor y hy with h | h
      · exact (not_le.1 hcmp).le.trans h
      · exact h

end Verif.Lemmas
