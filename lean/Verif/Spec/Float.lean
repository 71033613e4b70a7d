import Verif.Model.SnrF

/-! # What is assumed of `float` arithmetic on the data -/

namespace Verif.Spec

open Verif.Model

/-- Every operation in single precision has a relative error of at most `u`, every operation in double precision one of at most
`v`. IEEE arithmetic with rounding to nearest: `u = 2⁻²⁴`, `v = 2⁻⁵³`, as long as there is no overflow or underflow. -/
structure Rounds (A : FArith) (u v : ℝ) : Prop where
  u_nonneg : 0 ≤ u
  u_lt : u < 1
  v_nonneg : 0 ≤ v
  v_le : v ≤ u
  fl : ∀ x, |A.fl x - x| ≤ u * |x|
  dbl : ∀ x, |A.dbl x - x| ≤ v * |x|
  fused : ∀ x, |A.fused x - x| ≤ u * |x|
  sqrt : ∀ x, 0 ≤ x → |A.sqrt x - Real.sqrt x| ≤ u * Real.sqrt x

/-- The usual bound `k u / (1 - k u)` for the relative error of `k` operations in a row. -/
noncomputable def gam (u : ℝ) (k : ℕ) : ℝ := k * u / (1 - k * u)

end Verif.Spec
