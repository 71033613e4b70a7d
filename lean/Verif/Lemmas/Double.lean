import Verif.Spec.Double
import Verif.Lemmas.Float
import Mathlib.Algebra.Order.Archimedean.Real.Basic

/-! # IEEE double precision is an instance of the assumptions on `double` arithmetic -/

namespace Verif.Lemmas

open Verif.Model Verif.Spec

theorem rhe_mono {q q' : ℚ} (h : q ≤ q') : roundHalfEven q ≤ roundHalfEven q' := by
  have hf : ⌊q⌋ ≤ ⌊q'⌋ := Int.floor_mono h
  unfold roundHalfEven
  simp only
  rcases hf.eq_or_lt with he | hlt
  · rw [he]
    split_ifs <;> first | omega | (exfalso; linarith)
  · split_ifs <;> omega

theorem rn_mono {p : ℕ} (hp : 1 ≤ p) {x y : ℚ} (hx : 0 ≤ x) (h : x ≤ y) : rn p x ≤ rn p y := by
  rcases hx.eq_or_lt with rfl | hx
  · rw [rn_zero]; exact rn_nonneg h
  obtain ⟨e, h1, h2⟩ := exists_exp hx
  rcases lt_or_ge y (2 ^ (e + 1)) with hc | hc
  · rw [rn_eq hx e h1 h2, rn_eq (hx.trans_le h) e (h1.trans h) hc]
    have hu : (0 : ℚ) < 2 ^ (e - ((p : ℤ) - 1)) := by positivity
    apply mul_le_mul_of_nonneg_right _ hu.le
    exact Int.cast_le.mpr (rhe_mono (div_le_div_of_nonneg_right h hu.le))
  · exact (rn_le_rep (rep_zpow hp _) hx h2.le).trans (rn_ge_rep hp (rep_zpow hp _) (hx.trans_le h) hc)

theorem rn_is_rep {p : ℕ} (hp : 1 ≤ p) {x : ℚ} (hx : 0 < x) : Rep p (rn p x) := by
  obtain ⟨e, h1, h2⟩ := exists_exp hx
  have h3 := rn_le_rep (rep_zpow hp _) hx h2.le
  rcases h3.eq_or_lt with he | hlt
  · rw [he]; exact rep_zpow hp _
  have h0 := rn_nonneg (p := p) hx.le
  rw [rn_eq hx e h1 h2] at hlt h0 ⊢
  have hu : (0 : ℚ) < 2 ^ (e - ((p : ℤ) - 1)) := by positivity
  generalize roundHalfEven (x / 2 ^ (e - ((p : ℤ) - 1))) = n at *
  have hn0 : 0 ≤ n := by
    have := nonneg_of_mul_nonneg_left h0 hu
    exact_mod_cast this
  refine ⟨n.toNat, e - ((p : ℤ) - 1), ?_, ?_⟩
  · have e1 : (2 : ℚ) ^ (e + 1) = 2 ^ p * 2 ^ (e - ((p : ℤ) - 1)) := by
      rw [← zpow_natCast, ← zpow_add₀ (by norm_num)]
      congr 1
      ring
    rw [e1] at hlt
    have h4 := lt_of_mul_lt_mul_right hlt hu.le
    have h5 : n < 2 ^ p := by exact_mod_cast h4
    have h6 : (n.toNat : ℤ) < ((2 ^ p : ℕ) : ℤ) := by
      rw [Int.toNat_of_nonneg hn0]; push_cast; exact h5
    exact_mod_cast h6
  · have : ((n.toNat : ℕ) : ℚ) = n := by
      have := Int.toNat_of_nonneg hn0
      exact_mod_cast this
    rw [this]

theorem exists_log (x : ℚ) : ∃ q : ℚ, 1 ≤ x → |(q : ℝ) - Real.log x| ≤ Real.log x / 2 ^ 40 := by
  by_cases h : 1 < x
  · have hl : 0 < Real.log x := Real.log_pos (by exact_mod_cast h)
    obtain ⟨q, h1, h2⟩ := exists_rat_btwn (show Real.log x - Real.log x / 2 ^ 40 < Real.log x by
      have : 0 < Real.log x / 2 ^ 40 := by positivity
      linarith)
    refine ⟨q, fun _ => ?_⟩
    rw [abs_le]
    have : 0 < Real.log x / 2 ^ 40 := by positivity
    constructor <;> linarith
  · refine ⟨0, fun h1 => ?_⟩
    have : x = 1 := by
      have := not_lt.mp h
      linarith
    subst this
    simp

/-- A logarithm with rational values and the required accuracy. -/
noncomputable def someLog (x : ℚ) : ℚ := Classical.choose (exists_log x)

/-- Round-to-nearest double precision with a correctly rounded `pow`, any rational `log` of the required accuracy, with or
without fused multiply-add. -/
theorem sane_ieee (log : ℚ → ℚ) (hlog : ∀ x : ℚ, 1 ≤ x → |(log x : ℝ) - Real.log x| ≤ Real.log x / 2 ^ 40) (fused : Bool) :
    Sane (ieeeDouble log (fun x k => rn 53 (x ^ k)) fused) where
  mono x y h0 h := rn_mono (by norm_num) h0 h
  idem x h0 := by
    rcases h0.eq_or_lt with rfl | h0
    · simp [ieeeDouble, rn_zero]
    · exact rn_rep (by norm_num) (rn_is_rep (by norm_num) h0) (rn_nonneg h0.le)
  nat n hn := by
    rcases hn.eq_or_lt with rfl | hn
    · have := rn_rep (p := 53) (by norm_num) (rep_zpow (by norm_num) 53) (by positivity)
      simp only [ieeeDouble]
      have e : (((2 ^ 53 : ℕ) : ℕ) : ℚ) = (2 : ℚ) ^ (53 : ℤ) := by norm_num
      rw [e]; exact this
    · exact rn_rep (by norm_num) (rep_nat hn) (Nat.cast_nonneg n)
  rel x h0 := rn_rel h0
  powOne x k hx := by
    have h1 : (1 : ℚ) ≤ x ^ k := one_le_pow₀ hx
    exact rn_ge_rep (by norm_num) (by simpa using rep_nat (p := 53) (n := 1) (by norm_num)) (by linarith) h1
  powRel x k hx := by
    have h1 : (0 : ℚ) ≤ x ^ k := by positivity
    refine (rn_rel (p := 53) h1).trans ?_
    unfold u53
    apply mul_le_mul_of_nonneg_right _ h1
    norm_num
  logRel x hx := hlog x hx

theorem sane_some (fused : Bool) : Sane (ieeeDouble someLog (fun x k => rn 53 (x ^ k)) fused) :=
  sane_ieee _ (fun x => Classical.choose_spec (exists_log x)) fused

end Verif.Lemmas
