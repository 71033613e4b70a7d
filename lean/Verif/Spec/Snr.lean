import Mathlib.Data.Real.Basic
import Mathlib.Algebra.BigOperators.Group.Finset.Basic
import Mathlib.Data.Finset.Range

/-! # Matched filter (independent of the model) -/

namespace Verif.Spec

open Finset

/-- Bin `i` lies in the circular window of `w` bins that starts at bin `φ` (of `n`). -/
def InWindow (n w φ i : ℕ) : Prop := (i + (n - φ)) % n < w

open Classical in
/-- `t` is a circular boxcar template on `n` bins: high on the `w` bins from `φ`, low elsewhere, zero mean and
unit square sum. -/
def IsBoxcar (n w φ : ℕ) (t : ℕ → ℝ) : Prop :=
  ∃ hi lo : ℝ, lo < hi ∧ (∀ i < n, t i = if InWindow n w φ i then hi else lo) ∧
    ∑ i ∈ range n, t i = 0 ∧ ∑ i ∈ range n, t i ^ 2 = 1

/-- `v` is the best matched filter output over all starting phases of a boxcar of width `w`, in units of the noise
standard deviation `std`. -/
def IsMatchedSnr (n w : ℕ) (x : ℕ → ℝ) (std v : ℝ) : Prop :=
  (∃ φ < n, ∃ t, IsBoxcar n w φ t ∧ v = (∑ i ∈ range n, x i * t i) / std) ∧
  ∀ φ < n, ∀ t, IsBoxcar n w φ t → (∑ i ∈ range n, x i * t i) / std ≤ v

end Verif.Spec
