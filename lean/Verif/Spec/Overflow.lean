import Verif.Model.Nan
import Verif.Model.SearchFloat
import Verif.Spec.Samples

/-! # Arithmetic of IEEE 754 with overflow and subnormal numbers -/

namespace Verif.Spec

open Verif.Model

/-- Results that are not too large are rounded to the nearest number of the format, subnormal numbers included. -/
def RoundsNearest (f : FloatFormat) (r : ℚ → FVal) : Prop := ∀ q, |q| < f.overflow → ∃ v, r q = .fin v ∧ Nearest f q v

/-- The arithmetic of the search: `float` and `double` of IEEE 754; operations on whole arrays in one of them; products are rounded, or fused with the next
operation; square roots of `double`s and the noise level (periodogram.hpp 181) are close to the exact values. -/
structure Ieee (N : NArith) (A : DArith) : Prop where
  single : RoundsNearest binary32 N.single
  double : RoundsNearest binary64 N.double
  work : RoundsNearest binary32 N.work ∨ RoundsNearest binary64 N.work
  prod : ∀ q, N.prod q = N.single q ∨ N.prod q = .fin q
  sqrt : ∀ q, 0 ≤ q → q < 2 ^ 1000 → ∃ v, N.sqrt q = .fin v ∧ 0 ≤ v ∧ |v ^ 2 - q| ≤ q / 2 ^ 20
  std : ∀ (rows size : ℕ) (f V : ℚ), rows ≤ 2 ^ 25 → size ≤ 2 ^ 25 → 1 ≤ f → f ≤ 2 ^ 25 → 0 ≤ V → V = rows * A.variance ⌊A.fl (A.fl size / f)⌋₊ f →
    ∃ v, N.std rows size f = .fin v ∧ 0 ≤ v ∧ |v ^ 2 - V| ≤ V / 2 ^ 20

/-- `numpy.interp` gives finite numbers of at most twice the size of the values between which it interpolates. -/
def InterpBounded (N : NArith) : Prop :=
  ∀ (l : List FVal) (s i : ℕ) (c : ℚ), c ≤ 2 ^ 125 → l ≠ [] → (∀ v ∈ l, ∃ q, v = .fin q ∧ |q| ≤ c) → ∃ q, N.interp l s i = .fin q ∧ |q| ≤ 2 * c

/-- A sample of type `float` of at most the given size. -/
def SampleWithin (c : ℚ) (v : FVal) : Prop := ∃ q, v = .fin q ∧ binary32.Has q ∧ |q| ≤ c

/-- The stored number as a value of the search. -/
def sampleVal : PyFloat → FVal
  | .fin q => .fin q
  | .inf neg => .inf neg
  | .nan => .nan

end Verif.Spec
