import Verif.Spec.Double
import Verif.Model.HarmonicsF
import Mathlib.Analysis.Real.Sqrt

/-!
# What is assumed of the arithmetic of the harmonic test
-/

namespace Verif.Spec

open Verif.Model

/-- Double precision to nearest, and a C library whose `pow` is accurate to two units of roundoff. -/
structure HSane (h : HArith) : Prop where
  double : Sane h.A
  rel : ∀ x, |h.A.fl x - x| ≤ u53 * |x|
  invSq : ∀ x, 0 < x → |h.invSq x - 1 / x ^ 2| ≤ 2 * u53 * (1 / x ^ 2)
  root : ∀ x : ℚ, 1 ≤ x → |(h.root x : ℝ) - Real.sqrt x| ≤ 2 * u53 * Real.sqrt x

end Verif.Spec
