import Mathlib.Algebra.BigOperators.Group.Finset.Basic
import Mathlib.Data.Real.Basic

/-!
# Specification of downsampling: overlap of the unit interval of an input sample with the output interval
-/

namespace Verif.Spec

open Finset

/-- Length of `[i, i+1] ∩ [a, b]`. -/
noncomputable def overlap (i : ℕ) (a b : ℝ) : ℝ := max 0 (min ((i : ℝ) + 1) b - max (i : ℝ) a)

/-- Integral over `[a, b]` of the signal that equals `x i` on `[i, i+1)` for `i < N` (and 0 elsewhere). -/
noncomputable def stepIntegral (N : ℕ) (x : ℕ → ℝ) (a b : ℝ) : ℝ := ∑ i ∈ range N, x i * overlap i a b

/-- Variance of `stepIntegral` when the `x i` are independent with unit variance: the sum of the squared weights. -/
noncomputable def noiseVariance (N : ℕ) (a b : ℝ) : ℝ := ∑ i ∈ range N, overlap i a b ^ 2

end Verif.Spec
