import Verif.Model.Fit
import Mathlib.LinearAlgebra.Lagrange
import Mathlib.Analysis.InnerProductSpace.Projection.Minimal
import Mathlib.Analysis.InnerProductSpace.PiL2
import Mathlib.Tactic.Linarith
import Mathlib.Tactic.Ring
import Mathlib.Tactic.FieldSimp
import Mathlib.Tactic.Positivity

/-! # Least-squares polynomials -/

namespace Verif.Lemmas

open Verif.Model Polynomial

theorem residual_nonneg (pts : List (ℝ × ℝ)) (q : ℝ[X]) : 0 ≤ fitResidual pts q := by
  unfold fitResidual
  induction pts with
  | nil => simp
  | cons z l ih =>
    simp only [List.map_cons, List.sum_cons]
    have := sq_nonneg (z.2 - q.eval z.1)
    linarith

/-- Sum of the squared differences of two polynomials at the control points. -/
noncomputable def gap (pts : List (ℝ × ℝ)) (q r : ℝ[X]) : ℝ := (pts.map fun z => (q.eval z.1 - r.eval z.1) ^ 2).sum

theorem gap_zero {pts : List (ℝ × ℝ)} {q r : ℝ[X]} (h : gap pts q r ≤ 0) : ∀ z ∈ pts, q.eval z.1 = r.eval z.1 := by
  induction pts with
  | nil => simp
  | cons z l ih =>
    unfold gap at h ih
    simp only [List.map_cons, List.sum_cons] at h
    have h1 := sq_nonneg (q.eval z.1 - r.eval z.1)
    have h2 : 0 ≤ (l.map fun z => (q.eval z.1 - r.eval z.1) ^ 2).sum := by
      apply List.sum_nonneg
      intro v hv
      rw [List.mem_map] at hv
      obtain ⟨y, -, rfl⟩ := hv
      exact sq_nonneg _
    intro y hy
    rcases List.mem_cons.mp hy with rfl | hy
    · have : (q.eval y.1 - r.eval y.1) ^ 2 = 0 := by linarith
      have := pow_eq_zero_iff (two_ne_zero) |>.mp this
      linarith
    · exact ih (by linarith) y hy

/-- The parallelogram law for residuals. -/
theorem residual_mid (pts : List (ℝ × ℝ)) (q r : ℝ[X]) :
    fitResidual pts q + fitResidual pts r = 2 * fitResidual pts (C (1 / 2) * (q + r)) + gap pts q r / 2 := by
  unfold fitResidual gap
  induction pts with
  | nil => simp
  | cons z l ih =>
    simp only [List.map_cons, List.sum_cons, eval_mul, eval_C, eval_add] at ih ⊢
    linarith [ih, sq_nonneg (z.2 : ℝ), (by ring : (z.2 - q.eval z.1) ^ 2 + (z.2 - r.eval z.1) ^ 2 =
      2 * (z.2 - 1 / 2 * (q.eval z.1 + r.eval z.1)) ^ 2 + (q.eval z.1 - r.eval z.1) ^ 2 / 2)]

/-- Two best fits agree at the control points. -/
theorem polyfit_agree {d : ℕ} {pts : List (ℝ × ℝ)} {q r : ℝ[X]} (hq : IsPolyfit d pts q) (hr : IsPolyfit d pts r) :
    ∀ z ∈ pts, q.eval z.1 = r.eval z.1 := by
  have hd : (C (1 / 2 : ℝ) * (q + r)).natDegree ≤ d := by
    refine (natDegree_C_mul_le _ _).trans ?_
    exact (natDegree_add_le _ _).trans (max_le hq.1 hr.1)
  have h1 := hq.2 _ hd
  have h2 := hr.2 _ hd
  have h3 := residual_mid pts q r
  exact gap_zero (by linarith)

/-- With more than `d` different abscissae, the best fit of degree `d` is unique. -/
theorem polyfit_unique {d : ℕ} {pts : List (ℝ × ℝ)} {q r : ℝ[X]} (hq : IsPolyfit d pts q) (hr : IsPolyfit d pts r)
    (hd : d < (pts.map Prod.fst).toFinset.card) : q = r := by
  have deg : ∀ p : ℝ[X], p.natDegree ≤ d → p.degree < ((pts.map Prod.fst).toFinset.card : WithBot ℕ) := by
    intro p hp
    refine lt_of_le_of_lt degree_le_natDegree ?_
    exact_mod_cast lt_of_le_of_lt hp hd
  refine eq_of_degrees_lt_of_eval_finset_eq (pts.map Prod.fst).toFinset (deg q hq.1) (deg r hr.1) ?_
  intro x hx
  rw [List.mem_toFinset, List.mem_map] at hx
  obtain ⟨z, hz, rfl⟩ := hx
  exact polyfit_agree hq hr z hz

/-- Points on a polynomial of admissible degree are reproduced. -/
theorem polyfit_of_exact {d : ℕ} {pts : List (ℝ × ℝ)} {p : ℝ[X]} (hp : p.natDegree ≤ d) (h : ∀ z ∈ pts, z.2 = p.eval z.1) :
    IsPolyfit d pts p := by
  refine ⟨hp, fun r _ => ?_⟩
  have : fitResidual pts p = 0 := by
    unfold fitResidual
    apply List.sum_eq_zero
    intro v hv
    rw [List.mem_map] at hv
    obtain ⟨z, hz, rfl⟩ := hv
    rw [h z hz]
    ring
  rw [this]
  exact residual_nonneg _ _

/-- The best fit after a shift `L` of the abscissae and an affine change of the ordinates. -/
theorem polyfit_transform {d : ℕ} {pts : List (ℝ × ℝ)} {q : ℝ[X]} (hq : IsPolyfit d pts q) (L α β : ℝ) (hα : 0 < α) :
    IsPolyfit d (pts.map fun z => (z.1 - L, α * z.2 + β)) (C α * q.comp (X + C L) + C β) := by
  have hdX : ∀ M : ℝ, (X + C M : ℝ[X]).natDegree ≤ 1 := fun M => (natDegree_X_add_C M).le
  have hcomp : ∀ (p : ℝ[X]) (M : ℝ), p.natDegree ≤ d → (p.comp (X + C M)).natDegree ≤ d := by
    intro p M hp
    refine natDegree_comp_le.trans ?_
    calc p.natDegree * (X + C M : ℝ[X]).natDegree ≤ p.natDegree * 1 := Nat.mul_le_mul_left _ (hdX M)
      _ ≤ d := by omega
  have haff : ∀ (p : ℝ[X]) (u v : ℝ), p.natDegree ≤ d → (C u * p + C v).natDegree ≤ d := by
    intro p u v hp
    rw [natDegree_add_C]
    exact (natDegree_C_mul_le _ _).trans hp
  refine ⟨haff _ _ _ (hcomp _ _ hq.1), fun r hr => ?_⟩
  -- the competitor in the original coordinates
  have h1 := hq.2 (C α⁻¹ * (r.comp (X + C (-L))) + C (-α⁻¹ * β)) (haff _ _ _ (hcomp _ _ hr))
  have key : ∀ p : ℝ[X], fitResidual (pts.map fun z => (z.1 - L, α * z.2 + β)) p =
      α ^ 2 * fitResidual pts (C α⁻¹ * (p.comp (X + C (-L))) + C (-α⁻¹ * β)) := by
    intro p
    unfold fitResidual
    rw [List.map_map]
    clear h1 hq
    induction pts with
    | nil => simp
    | cons z l ih =>
      simp only [List.map_cons, List.sum_cons, Function.comp, eval_add, eval_mul, eval_C, eval_comp, eval_X] at ih ⊢
      rw [ih, mul_add, ← sub_eq_add_neg]
      congr 1
      rw [← mul_pow]
      congr 1
      field_simp
      ring
  have key2 : fitResidual (pts.map fun z => (z.1 - L, α * z.2 + β)) (C α * q.comp (X + C L) + C β) = α ^ 2 * fitResidual pts q := by
    unfold fitResidual
    rw [List.map_map]
    clear h1 hq key
    induction pts with
    | nil => simp
    | cons z l ih =>
      simp only [List.map_cons, List.sum_cons, Function.comp, eval_add, eval_mul, eval_C, eval_comp, eval_X] at ih ⊢
      rw [ih, mul_add, sub_add_cancel]
      congr 1
      ring
  rw [key2, key r]
  exact mul_le_mul_of_nonneg_left h1 (sq_nonneg _)

/-- The residuals of a best fit add up to zero. -/
theorem polyfit_mean {d : ℕ} {pts : List (ℝ × ℝ)} {q : ℝ[X]} (hq : IsPolyfit d pts q) :
    (pts.map fun z => q.eval z.1).sum = (pts.map Prod.snd).sum := by
  rcases pts.eq_nil_or_concat with rfl | ⟨_, _, hne⟩
  · rfl
  have hn : 0 < pts.length := by rw [hne]; simp
  have hN : (0 : ℝ) < pts.length := by exact_mod_cast hn
  have key : ∀ e : ℝ, fitResidual pts (q + C e) =
      fitResidual pts q - 2 * e * ((pts.map Prod.snd).sum - (pts.map fun z => q.eval z.1).sum) + pts.length * e ^ 2 := by
    intro e
    clear hq hne hn hN
    unfold fitResidual
    induction pts with
    | nil => simp
    | cons z l ih =>
      simp only [List.map_cons, List.sum_cons, List.length_cons, eval_add, eval_C] at ih ⊢
      push_cast
      linear_combination ih
  set S := (pts.map Prod.snd).sum - (pts.map fun z => q.eval z.1).sum with hS
  have h1 := hq.2 (q + C (S / pts.length)) (by rw [natDegree_add_C]; exact hq.1)
  rw [key] at h1
  have h2 : - 2 * (S / pts.length) * S + pts.length * (S / pts.length) ^ 2 = - S ^ 2 / pts.length := by
    field_simp
    ring
  have h3 : 0 ≤ - S ^ 2 / pts.length := by linarith
  have h4 : S ^ 2 ≤ 0 := by
    rw [le_div_iff₀ hN] at h3
    linarith
  have h5 : S = 0 := by
    have := le_antisymm h4 (sq_nonneg S)
    exact pow_eq_zero_iff two_ne_zero |>.mp this
  linarith

/-- A best fit exists. -/
theorem polyfit_exists (d : ℕ) (pts : List (ℝ × ℝ)) : ∃ q : ℝ[X], IsPolyfit d pts q := by
  let E := EuclideanSpace ℝ (Fin pts.length)
  let ev : ℝ[X] →ₗ[ℝ] E :=
    (WithLp.linearEquiv 2 ℝ (Fin pts.length → ℝ)).symm.toLinearMap.comp
      (LinearMap.pi fun i => (Polynomial.leval (pts[i]).1))
  let K : Submodule ℝ E := (degreeLT ℝ (d + 1)).map ev
  have hfin : FiniteDimensional ℝ (degreeLT ℝ (d + 1)) := Module.Finite.equiv (degreeLTEquiv ℝ (d + 1)).symm
  have hK : FiniteDimensional ℝ K := Module.Finite.map _ _
  let u : E := (WithLp.linearEquiv 2 ℝ (Fin pts.length → ℝ)).symm fun i => (pts[i]).2
  have hcomp : IsComplete (K : Set E) := K.complete_of_finiteDimensional
  obtain ⟨v, hv, hmin⟩ := K.exists_norm_eq_iInf_of_complete_subspace hcomp u
  obtain ⟨q, hq, rfl⟩ := hv
  have mem : ∀ p : ℝ[X], p ∈ degreeLT ℝ (d + 1) ↔ p.natDegree ≤ d := by
    intro p
    rw [mem_degreeLT, Polynomial.degree_lt_iff_coeff_zero, natDegree_le_iff_coeff_eq_zero]
    constructor
    · intro h n hn
      exact h n hn
    · intro h n hn
      exact h n hn
  have hres : ∀ p : ℝ[X], fitResidual pts p = ‖u - ev p‖ ^ 2 := by
    intro p
    rw [EuclideanSpace.norm_sq_eq]
    unfold fitResidual
    rw [← List.sum_ofFn]
    congr 1
    apply List.ext_getElem
    · simp
    · intro i h1 h2
      simp [u, ev]
      rfl
  refine ⟨q, (mem q).mp hq, fun r hr => ?_⟩
  rw [hres, hres]
  have hle : ‖u - ev q‖ ≤ ‖u - ev r‖ := by
    rw [hmin]
    exact ciInf_le ⟨0, by rintro _ ⟨w, rfl⟩; exact norm_nonneg _⟩ (⟨ev r, ⟨r, (mem r).mpr hr, rfl⟩⟩ : K)
  exact pow_le_pow_left₀ (norm_nonneg _) hle 2

/-- `fit_threshold` can be implemented. -/
theorem fitThreshold_exists (d : ℕ) : ∃ fit, IsFitThreshold d fit := by
  choose q hq using fun z : List ℝ × List ℝ => polyfit_exists d (logPoints z.1 z.2)
  exact ⟨fun fc tc f => (q (fc, tc)).eval (Real.log f), fun fc tc => ⟨q (fc, tc), hq (fc, tc), fun _ => rfl⟩⟩

end Verif.Lemmas
