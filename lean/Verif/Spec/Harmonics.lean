import Mathlib.Algebra.Order.Field.Rat

/-!
# What the harmonic test is supposed to compute
-/

namespace Verif.Spec

/-- `r` is a fraction of denominator at most `M` that is as close to `x` as any other such fraction. -/
def IsClosestFraction (x : ℚ) (M : ℤ) (r : ℚ) : Prop :=
  (r.den : ℤ) ≤ M ∧ ∀ y : ℚ, (y.den : ℤ) ≤ M → |r - x| ≤ |y - x|

end Verif.Spec
