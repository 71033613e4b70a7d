import Mathlib.Algebra.BigOperators.Group.Finset.Basic
import Mathlib.Data.Finset.Range

/-!
# Specification vocabulary for the FFA transform (independent of the model)
-/

namespace Verif.Spec

open Finset

/-- `σ s i` is the number of bins by which input row `i` is rotated to the left in output row `s`.
A table of shifts is *linear-like* for `m` rows if the first row is not shifted, the last row is shifted by
exactly `s`, and the shift grows by 0 or 1 from one row to the next. -/
structure ShiftTable (m : ℕ) (σ : ℕ → ℕ → ℕ) : Prop where
  first : ∀ s < m, σ s 0 = 0
  last : ∀ s < m, σ s (m - 1) = s
  mono : ∀ s < m, ∀ i, i + 1 < m → σ s i ≤ σ s (i + 1)
  step : ∀ s < m, ∀ i, i + 1 < m → σ s (i + 1) ≤ σ s i + 1

/-- The shifted stack of the `m` rows of `x` (with `p` columns): sum over all rows `i` of row `i`
rotated left by `σ s i`, evaluated at column `c`. -/
def stack {α : Type*} [AddCommMonoid α] (m p : ℕ) (σ : ℕ → ℕ → ℕ) (x : ℕ → ℕ → α) (s c : ℕ) : α :=
  ∑ i ∈ range m, x i ((c + σ s i) % p)

end Verif.Spec
